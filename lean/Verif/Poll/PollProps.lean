import Verif.Poll.PollModel
import Verif.Poll.SelectProps
/-!
# C70: `poll`
-/

namespace Verif.Poll

/-! ## Specification -/

/-- What `poll` has to report for an entry: nothing for a negative descriptor, `POLLNVAL` for one that is not open, otherwise
the conditions that were asked for, errors and hangups. -/
def Expected (ctl : Int32 → Ctl) (ready : Int32 → UInt32) (e : PollFd) : UInt32 :=
  if e.fd < 0 then 0
  else if ctl e.fd = .ok then ready e.fd &&& (e.events ||| 0x18) &&& 0x3FF
  else 0x20

/-! ## Lemmas -/

theorem single_bit (x p : UInt32) (i : Nat) (hp : p.toBitVec = BitVec.twoPow 32 i) :
    (if x &&& p > 0 then p else 0) = x &&& p := by
  have e : (x &&& p).toBitVec = if x.toBitVec.getLsbD i then BitVec.twoPow 32 i else 0#32 := by
    rw [UInt32.toBitVec_and, hp, BitVec.and_twoPow]
  simp only [pos_iff]
  by_cases h : x.toBitVec.getLsbD i
  · rw [if_pos h, ← hp] at e
    have := UInt32.toBitVec_inj.1 e
    rw [this]
    split
    · rfl
    · rename_i h2
      exact (Decidable.not_not.1 h2).symm
  · rw [if_neg h] at e
    have : x &&& p = 0 := UInt32.toBitVec_inj.1 e
    rw [this]
    simp

theorem fold_bits (x : UInt32) (l : List UInt32) (hl : ∀ p ∈ l, ∃ i, p.toBitVec = BitVec.twoPow 32 i) (acc : UInt32) :
    l.foldl (fun a p => if x &&& p > 0 then a ||| p else a) acc = acc ||| x &&& l.foldl (· ||| ·) 0 := by
  have hf : ∀ (l : List UInt32) (a b : UInt32), l.foldl (· ||| ·) (a ||| b) = a ||| l.foldl (· ||| ·) b := by
    intro l
    induction l with
    | nil => intro a b; rfl
    | cons c l ih =>
      intro a b
      rw [List.foldl_cons, List.foldl_cons, UInt32.or_assoc, ih]
  induction l generalizing acc with
  | nil => simp
  | cons p l ih =>
    obtain ⟨i, hi⟩ := hl p (by simp)
    rw [List.foldl_cons, ih (fun q hq => hl q (by simp [hq])), List.foldl_cons, UInt32.zero_or]
    have h1 : (if x &&& p > 0 then acc ||| p else acc) = acc ||| x &&& p := by
      have := single_bit x p i hi
      by_cases hx : x &&& p > 0
      · rw [if_pos hx] at this ⊢
        rw [← this]
      · rw [if_neg hx] at this ⊢
        rw [← this, UInt32.or_zero]
    have h2 := hf l p 0
    rw [UInt32.or_zero] at h2
    rw [h1, h2, and_or_distrib, UInt32.or_assoc]

theorem mapBits_eq (x acc : UInt32) : mapBits x acc = acc ||| x &&& 0x3FF := by
  unfold mapBits
  rw [fold_bits]
  · rfl
  · intro p hp
    simp only [eventMap, List.mem_cons, List.not_mem_nil, or_false] at hp
    rcases hp with rfl | rfl | rfl | rfl | rfl | rfl | rfl | rfl | rfl | rfl
    · exact ⟨0, by decide⟩
    · exact ⟨1, by decide⟩
    · exact ⟨2, by decide⟩
    · exact ⟨3, by decide⟩
    · exact ⟨4, by decide⟩
    · exact ⟨5, by decide⟩
    · exact ⟨6, by decide⟩
    · exact ⟨8, by decide⟩
    · exact ⟨7, by decide⟩
    · exact ⟨9, by decide⟩

/-- The registration loop. -/
theorem registerPoll_spec {ctl : Int32 → Ctl} {es es' : List PollFd} {i closed : Nat} {seen : List Int32}
    {reg : List (Nat × UInt32)} (h : registerPoll ctl i seen es = .ok (es', closed, reg)) :
    es' = es.map (fun e => { e with revents := if 0 ≤ e.fd ∧ ctl e.fd = .err 9 then 0x20 else 0 })
    ∧ closed = es.countP (fun e => decide (0 ≤ e.fd ∧ ctl e.fd = .err 9))
    ∧ (∀ p, p ∈ reg ↔ ∃ j e, es[j]? = some e ∧ p.1 = i + j ∧ 0 ≤ e.fd ∧ ctl e.fd = .ok ∧ p.2 = e.events &&& 0x3FF)
    ∧ (reg.map Prod.fst).Nodup
    ∧ (∀ e ∈ es, e.fd < 0 ∨ ctl e.fd = .ok ∨ ctl e.fd = .err 9)
    ∧ ∀ p ∈ reg, i ≤ p.1 := by
  induction es generalizing i seen es' closed reg with
  | nil =>
    cases h
    simp
  | cons e es ih =>
    have shift : ∀ {P : PollFd → Nat × UInt32 → Prop} (p : Nat × UInt32), (¬ (P e p ∧ p.1 = i)) →
        ((∃ j e, es[j]? = some e ∧ p.1 = i + 1 + j ∧ P e p) ↔ ∃ j e', (e :: es)[j]? = some e' ∧ p.1 = i + j ∧ P e' p) := by
      intro P p hp
      constructor
      · rintro ⟨j, e', h1, h2, h3⟩
        exact ⟨j + 1, e', by simpa using h1, by omega, h3⟩
      · rintro ⟨j, e', h1, h2, h3⟩
        cases j with
        | zero =>
          simp only [List.getElem?_cons_zero, Option.some.injEq] at h1
          subst h1
          exact absurd ⟨h3, by omega⟩ hp
        | succ j => exact ⟨j, e', by simpa using h1, by omega, h3⟩
    rw [registerPoll] at h
    by_cases hneg : e.fd < 0
    · have hge : ¬ 0 ≤ e.fd := fun h => absurd (Int32.lt_of_lt_of_le hneg h) (by simp)
      rw [if_pos hneg] at h
      generalize hr : registerPoll ctl (i + 1) seen es = r at h
      cases r with
      | error n => cases h
      | ok r =>
        obtain ⟨es1, closed1, reg1⟩ := r
        cases h
        obtain ⟨a, b, c, d, f, g⟩ := ih hr
        refine ⟨?_, ?_, ?_, d, ?_, fun p hp => by have := g p hp; omega⟩
        · simp [a, hge]
        · simp [b, hge]
        · intro p
          rw [c]
          exact shift (P := fun e p => 0 ≤ e.fd ∧ ctl e.fd = .ok ∧ p.2 = e.events &&& 0x3FF) p (fun h => hge h.1.1)
        · intro x hx
          rcases List.mem_cons.1 hx with rfl | hx
          · exact .inl hneg
          · exact f x hx
    · have hge : 0 ≤ e.fd := Int32.not_lt.1 hneg
      rw [if_neg hneg] at h
      unfold addOne at h
      by_cases hs : e.fd ∈ seen
      · simp only [if_pos hs] at h
        cases h
      · simp only [if_neg hs] at h
        cases hc : ctl e.fd with
        | eperm =>
          simp only [hc] at h
          cases h
        | ok =>
          simp only [hc] at h
          generalize hr : registerPoll ctl (i + 1) (e.fd :: seen) es = r at h
          cases r with
          | error n => cases h
          | ok r =>
            obtain ⟨es1, closed1, reg1⟩ := r
            cases h
            obtain ⟨a, b, c, d, f, g⟩ := ih hr
            refine ⟨?_, ?_, ?_, ?_, ?_, ?_⟩
            · simp [a, hc]
            · simp [b, hc]
            · intro p
              rw [List.mem_cons, c]
              constructor
              · rintro (rfl | ⟨j, e', h1, h2, h3⟩)
                · exact ⟨0, e, rfl, rfl, hge, hc, by rw [mapBits_eq, UInt32.zero_or]⟩
                · exact ⟨j + 1, e', by simpa using h1, by omega, h3⟩
              · rintro ⟨j, e', h1, h2, h3⟩
                cases j with
                | zero =>
                  left
                  simp only [List.getElem?_cons_zero, Option.some.injEq] at h1
                  subst h1
                  rw [mapBits_eq, UInt32.zero_or, ← h3.2.2]
                  exact Prod.ext h2 rfl
                | succ j => exact .inr ⟨j, e', by simpa using h1, by omega, h3⟩
            · rw [List.map_cons, List.nodup_cons]
              refine ⟨?_, d⟩
              intro hm
              obtain ⟨p, hp, he⟩ := List.mem_map.1 hm
              have := g p hp
              omega
            · intro x hx
              rcases List.mem_cons.1 hx with rfl | hx
              · exact .inr (.inl hc)
              · exact f x hx
            · intro p hp
              rcases List.mem_cons.1 hp with rfl | hp
              · exact Nat.le_refl _
              · have := g p hp
                omega
        | err n =>
          simp only [hc] at h
          by_cases hn : n = EBADF
          · rw [if_pos hn] at h
            have hc9 : ctl e.fd = .err 9 := by rw [hc, hn]; rfl
            generalize hr : registerPoll ctl (i + 1) seen es = r at h
            cases r with
            | error n => cases h
            | ok r =>
              obtain ⟨es1, closed1, reg1⟩ := r
              cases h
              obtain ⟨a, b, c, d, f, g⟩ := ih hr
              refine ⟨?_, ?_, ?_, d, ?_, fun p hp => by have := g p hp; omega⟩
              · simp [a, hge, hc9]
              · simp [b, hge, hc9]
              · intro p
                rw [c]
                exact shift (P := fun e p => 0 ≤ e.fd ∧ ctl e.fd = .ok ∧ p.2 = e.events &&& 0x3FF) p
                  (fun h => by rw [hc9] at h; cases h.1.2.1)
              · intro x hx
                rcases List.mem_cons.1 hx with rfl | hx
                · exact .inr (.inr hc9)
                · exact f x hx
          · rw [if_neg hn] at h
            cases h

theorem applyEvents_spec (l : List (Nat × UInt32)) (hl : (l.map Prod.fst).Nodup) (es : List PollFd) (i : Nat) :
    (∀ ev, (i, ev) ∈ l → (applyEvents es l)[i]? = es[i]?.map fun e => { e with revents := e.revents ||| ev &&& 0x3FF })
    ∧ ((∀ ev, (i, ev) ∉ l) → (applyEvents es l)[i]? = es[i]?) := by
  induction l generalizing es with
  | nil => exact ⟨nofun, fun _ => rfl⟩
  | cons p l ih =>
    obtain ⟨j, ev⟩ := p
    rw [List.map_cons, List.nodup_cons] at hl
    obtain ⟨h1, h2⟩ := ih hl.2 (es.modify j fun e => { e with revents := mapBits ev e.revents })
    rw [applyEvents]
    constructor
    · intro ev' h
      rcases List.mem_cons.1 h with h | h
      · cases h
        rw [h2 (fun ev' h => hl.1 (List.mem_map.2 ⟨_, h, rfl⟩)), List.getElem?_modify_eq]
        cases es[i]? <;> simp [mapBits_eq]
      · have hne : j ≠ i := by
          rintro rfl
          exact hl.1 (List.mem_map.2 ⟨_, h, rfl⟩)
        rw [h1 ev' h, List.getElem?_modify_ne _ _ hne]
    · intro h
      have hne : j ≠ i := by
        rintro rfl
        exact h ev (by simp)
      rw [h2 (fun ev' h' => h ev' (by simp [h'])), List.getElem?_modify_ne _ _ hne]

/-- The conditions of the descriptor of entry `i`. -/
def entryReady (ready : Int32 → UInt32) (es : List PollFd) (i : Nat) : UInt32 :=
  match es[i]? with
  | none => 0
  | some e => ready e.fd

theorem countP_range (es : List PollFd) (P : PollFd → Bool) :
    (List.range es.length).countP (fun j => es[j]?.any P) = es.countP P := by
  induction es with
  | nil => rfl
  | cons e es ih =>
    rw [List.length_cons, List.range_succ_eq_map, List.countP_cons, List.countP_map, List.countP_cons, ← ih]
    congr 1

/-! ## C70 -/

/-- C70: when `poll` returns a number, every entry keeps descriptor and events, `revents` is what has to be reported, and the
number is that of the entries with something to report. Missing: 32 or more such entries (`C70_many_violation`), a signal
while some descriptor is not open, and the cases in which `poll` fails or waits although an entry is ready
(`C70_twice_violation`, `C70_file_violation`, `C70_closed_violation`). -/
theorem C70_poll_partial {ctl : Int32 → Ctl} {wait : List (Nat × UInt32) → Int32 → Option (Except Int32 (List (Nat × UInt32)))}
    {ready : Int32 → UInt32} {es es' : List PollFd} {timeout : Int32} {n : Nat}
    (hk : ∀ reg t l, (reg.map Prod.fst).Nodup → wait reg t = some (.ok l) → Waits (entryReady ready es) reg 32 l)
    (hint : ∀ reg t, wait reg t ≠ some (.error 4))
    (hfew : es.countP (fun e => Expected ctl ready e ≠ 0) < 32)
    (h : poll ctl wait es timeout = some (.ok n, es')) :
    es' = es.map (fun e => { e with revents := Expected ctl ready e })
    ∧ n = es.countP (fun e => Expected ctl ready e ≠ 0) := by
  unfold poll at h
  generalize hreg : registerPoll ctl 0 [] es = R at h
  cases R with
  | error e => cases h
  | ok R =>
    obtain ⟨es1, closed, reg⟩ := R
    obtain ⟨a, b, c, d, f, g⟩ := registerPoll_spec hreg
    simp only at h
    by_cases hcl : closed > 0 ∧ closed = es.length
    · rw [if_pos hcl] at h
      cases h
      have hall : ∀ e ∈ es, 0 ≤ e.fd ∧ ctl e.fd = .err 9 := by
        have := List.countP_eq_length.1 (b.symm.trans hcl.2)
        intro e he
        simpa using this e he
      have hexp : ∀ e ∈ es, Expected ctl ready e = 0x20 := by
        intro e he
        unfold Expected
        rw [if_neg (Int32.not_lt.2 (hall e he).1), if_neg (by rw [(hall e he).2]; exact nofun)]
      constructor
      · rw [a]
        apply List.map_congr_left
        intro e he
        rw [hexp e he, if_pos (hall e he)]
      · rw [hcl.2]
        symm
        apply List.countP_eq_length.2
        intro e he
        rw [hexp e he]
        decide
    · rw [if_neg hcl] at h
      generalize hw : wait reg timeout = r at h
      cases r with
      | none => cases h
      | some r =>
        cases r with
        | error e =>
          simp only at h
          split at h
          · rename_i he
            rw [he.1] at hw
            exact absurd hw (hint _ _)
          · cases h
        | ok l =>
          have W := hk _ _ _ d hw
          cases h
          have hev : ∀ p ∈ l, ∃ e, es[p.1]? = some e ∧ 0 ≤ e.fd ∧ ctl e.fd = .ok
              ∧ p.2 = ready e.fd &&& (e.events &&& 0x3FF ||| 0x18) ∧ p.2 ≠ 0 := by
            intro p hp
            obtain ⟨m, h1, h2, h3⟩ := W.sound p hp
            obtain ⟨j, e, g1, g2, g3, g4, g5⟩ := (c _).1 h1
            simp only [Nat.zero_add] at g2 g5
            rw [← g2] at g1
            refine ⟨e, g1, g3, g4, ?_, h3⟩
            rw [h2, g5]
            unfold entryReady
            rw [g1]
          have hmask : ∀ e : PollFd, e.events &&& 0x3FF ||| 0x18 = (e.events ||| 0x18) &&& 0x3FF := by
            intro e
            rw [UInt32.and_comm (e.events ||| 0x18), and_or_distrib, UInt32.and_comm]
            rfl
          have hx : ∀ e : PollFd, 0 ≤ e.fd → ctl e.fd = .ok →
              Expected ctl ready e = ready e.fd &&& (e.events &&& 0x3FF ||| 0x18) := by
            intro e h1 h2
            unfold Expected
            rw [if_neg (Int32.not_lt.2 h1), if_pos h2, hmask, UInt32.and_assoc]
          have hlen : l.length < 32 := by
            have e : (List.range es.length).countP (fun i => decide (i ∈ l.map Prod.fst)) = l.countP (fun _ => true) := by
              apply perm_fst W.nodup
              intro i
              simp only [decide_eq_true_eq, List.mem_map, and_true]
              constructor
              · rintro ⟨_, p, hp, rfl⟩
                exact ⟨p, hp, rfl⟩
              · rintro ⟨p, hp, rfl⟩
                obtain ⟨e, he, _⟩ := hev p hp
                exact ⟨(List.getElem?_eq_some_iff.1 he).1, p, hp, rfl⟩
            rw [List.countP_true] at e
            rw [← e]
            refine Nat.lt_of_le_of_lt (List.countP_mono_left ?_) (Nat.lt_of_le_of_lt (Nat.le_of_eq (countP_range es _)) hfew)
            intro i _ hi
            simp only [decide_eq_true_eq, List.mem_map] at hi
            obtain ⟨p, hp, rfl⟩ := hi
            obtain ⟨e, h1, h2, h3, h4, h5⟩ := hev p hp
            rw [h1]
            simp only [Option.any_some, decide_eq_true_eq]
            rw [hx e h2 h3, ← h4]
            exact h5
          have hes : applyEvents es1 l = es.map (fun e => { e with revents := Expected ctl ready e }) := by
            apply List.ext_getElem?
            intro i
            obtain ⟨s1, s2⟩ := applyEvents_spec l W.nodup es1 i
            rw [List.getElem?_map]
            cases he : es[i]? with
            | none =>
              have hnot : ∀ ev, (i, ev) ∉ l := by
                intro ev hm
                obtain ⟨e, h1, _⟩ := hev _ hm
                rw [he] at h1
                cases h1
              rw [s2 hnot, a, List.getElem?_map, he]
              rfl
            | some e =>
              have hmem := List.mem_of_getElem? he
              by_cases hin : ∃ ev, (i, ev) ∈ l
              · obtain ⟨ev, hin⟩ := hin
                obtain ⟨e', h1, h2, h3, h4, h5⟩ := hev _ hin
                simp only at h1 h4
                rw [he] at h1
                cases h1
                rw [s1 ev hin, a, List.getElem?_map, he]
                simp only [Option.map_some, h3, reduceCtorEq, and_false, if_false, UInt32.zero_or, hx e h2 h3, h4]
                congr 2
                rw [UInt32.and_assoc, hmask, UInt32.and_assoc]
                rfl
              · rw [s2 (fun ev h => hin ⟨ev, h⟩), a, List.getElem?_map, he]
                simp only [Option.map_some]
                congr 2
                rcases f e hmem with h1 | h1 | h1
                · unfold Expected
                  rw [if_pos h1, if_neg (fun h => absurd (Int32.lt_of_lt_of_le h1 h.1) (by simp))]
                · by_cases h0 : 0 ≤ e.fd
                  · rw [hx e h0 h1]
                    rw [if_neg (fun h => by rw [h1] at h; cases h.2)]
                    apply Decidable.byContradiction
                    intro hne
                    obtain ⟨q, hq1, hq2⟩ := W.complete hlen (i, e.events &&& 0x3FF)
                      ((c _).2 ⟨i, e, he, by simp, h0, h1, rfl⟩) (by
                        simp only [entryReady, he]
                        exact Ne.symm hne)
                    simp only at hq2
                    exact hin ⟨q.2, by rw [← hq2]; exact hq1⟩
                  · unfold Expected
                    rw [if_pos (Int32.not_le.1 h0), if_neg (fun h => h0 h.1)]
                · unfold Expected
                  by_cases h0 : 0 ≤ e.fd
                  · rw [if_pos ⟨h0, h1⟩, if_neg (Int32.not_lt.2 h0), if_neg (by rw [h1]; exact nofun)]
                  · rw [if_pos (Int32.not_le.1 h0), if_neg (fun h => h0 h.1)]
          refine ⟨hes, ?_⟩
          rw [hes, List.countP_map]
          apply List.countP_congr
          intro e _
          simp [pos_iff]

/-- C70, `ppoll`: it waits for the given time, in milliseconds rounded down. Missing: rounding up (`C70_round_violation`)
and the second before the limit (`C70_timeout_violation`). -/
theorem C70_timeout_partial {sec nsec : Int64} (h1 : 0 ≤ sec.toInt) (h2 : sec.toInt ≠ 2147483) (h3 : 0 ≤ nsec.toInt)
    (h4 : nsec.toInt < 1000000000) :
    (ppollTimeout (some (sec, nsec))).toInt
      = if sec.toInt > 2147483 then 2147483647 else sec.toInt * 1000 + nsec.toInt / 1000000 := by
  unfold ppollTimeout
  have hs : sec > 2147483 ↔ sec.toInt > 2147483 := by
    rw [gt_iff_lt, Int64.lt_iff_toInt_lt]
    rfl
  by_cases hbig : sec > 2147483
  · simp only [if_pos hbig, if_pos (hs.1 hbig)]
    rfl
  · simp only [if_neg hbig, if_neg (fun h => hbig (hs.2 h))]
    have hle : sec.toInt ≤ 2147482 := by
      have : ¬ sec.toInt > 2147483 := fun h => hbig (hs.2 h)
      omega
    have e1 : sec.toInt32.toInt = sec.toInt := by
      rw [Int64.toInt_toInt32]
      exact Int.bmod_eq_of_le (by omega) (by omega)
    have e2 : nsec.toInt32.toInt = nsec.toInt := by
      rw [Int64.toInt_toInt32]
      exact Int.bmod_eq_of_le (by omega) (by omega)
    have e3 : (nsec.toInt32 / 1000000).toInt = nsec.toInt / 1000000 := by
      rw [Int32.toInt_div, e2]
      simp only [show (1000000 : Int32).toInt = 1000000 from rfl]
      rw [Int.tdiv_eq_ediv_of_nonneg h3]
      exact Int.bmod_eq_of_le (by omega) (by omega)
    have e4 : (sec.toInt32 * 1000).toInt = sec.toInt * 1000 := by
      rw [Int32.toInt_mul, e1]
      simp only [show (1000 : Int32).toInt = 1000 from rfl]
      exact Int.bmod_eq_of_le (by omega) (by omega)
    rw [Int32.toInt_add, e3, e4]
    exact Int.bmod_eq_of_le (by omega) (by omega)

/-! ## The kernel of the examples -/

/-- `epoll_pwait` when the conditions of the entries are `ready`: without timeout it waits forever for nothing. -/
def simplePoll (ready : Nat → UInt32) (reg : List (Nat × UInt32)) (t : Int32) : Option (Except Int32 (List (Nat × UInt32))) :=
  match simpleWait ready reg t with
  | .ok [] => if t < 0 then none else some (.ok [])
  | r => some r

theorem simplePoll_waits (ready : Nat → UInt32) {reg l : List (Nat × UInt32)} {t : Int32} (hn : (reg.map Prod.fst).Nodup)
    (h : simplePoll ready reg t = some (.ok l)) : Waits ready reg 32 l := by
  unfold simplePoll at h
  split at h
  · rename_i e
    split at h
    · cases h
    · cases h
      exact simpleWait_waits ready hn e
  · rename_i r e
    cases h
    exact simpleWait_waits (t := t) ready hn rfl

/-! ## Violations -/

/-- C70 fails for 33 readable descriptors: only 32 are reported. -/
theorem C70_many_violation : ∃ es',
    poll (fun _ => .ok) (simplePoll fun _ => 1) ((List.range 33).map fun i => ⟨Int32.ofNat i, 1, 0⟩) (-1) = some (.ok 32, es')
    ∧ es'[32]? = some ⟨32, 1, 0⟩ :=
  ⟨_, rfl, by decide +kernel⟩

/-- C70 fails for two entries with the same descriptor. -/
theorem C70_twice_violation :
    poll (fun _ => .ok) (simplePoll fun _ => 5) [⟨0, 1, 0⟩, ⟨0, 4, 0⟩] (-1) = some (.error 17, [⟨0, 1, 0⟩, ⟨0, 4, 0⟩]) := rfl

/-- C70 fails for regular files, which are always ready. -/
theorem C70_file_violation : poll (fun _ => .eperm) (simplePoll fun _ => 5) [⟨0, 1, 0⟩] (-1) = some (.error 1, [⟨0, 1, 0⟩]) := rfl

/-- C70 fails for a descriptor that is not open beside one that is not ready: `poll` does not return. -/
theorem C70_closed_violation :
    poll (fun fd => if fd = 1 then .err 9 else .ok) (simplePoll fun _ => 0) [⟨0, 1, 0⟩, ⟨1, 1, 0⟩] (-1) = none := rfl

/-- C70 fails for short times: 999999 nanoseconds are no time at all. -/
theorem C70_round_violation : ppollTimeout (some (0, 999999)) = 0 := by decide +kernel

/-- C70 fails just below the limit: a time of nearly 25 days becomes negative, that is forever. -/
theorem C70_timeout_violation : ppollTimeout (some (2147483, 999999999)) = -2147483297 := by decide +kernel

/-! ## Examples -/

/-- A readable descriptor, an ignored entry, one not open, one with a hangup and an idle one. -/
example : poll (fun fd => if fd = 7 then .err 9 else .ok)
      (simplePoll fun i => if i = 0 then 5 else if i = 3 then 0x10 else 0)
      [⟨3, 1, 9⟩, ⟨-1, 1, 9⟩, ⟨7, 1, 9⟩, ⟨4, 1, 9⟩, ⟨5, 1, 9⟩] (-1)
    = some (.ok 3, [⟨3, 1, 1⟩, ⟨-1, 1, 0⟩, ⟨7, 1, 0x20⟩, ⟨4, 1, 0x10⟩, ⟨5, 1, 0⟩]) := rfl

end Verif.Poll
