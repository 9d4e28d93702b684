import Verif.Poll.SelectModel
/-!
# C55: `select`

`ready fd` are the conditions of a descriptor when `epoll_pwait` looks at it. A descriptor is ready for reading, writing or
has an exceptional condition if a call would not block, see `ReadReady` and so on; a file that does not support epoll
(a regular file) is always ready.
-/

namespace Verif.Poll

/-! ## Specification -/

/-- `epoll_pwait`: the answer lists registered descriptors at most once, with the conditions that hold among those
registered, errors and hangups, and all of them unless the space is exhausted. -/
structure Waits (ready : Nat → UInt32) (reg : List (Nat × UInt32)) (max : Nat) (l : List (Nat × UInt32)) : Prop where
  nodup : (l.map Prod.fst).Nodup
  len : l.length ≤ max
  sound : ∀ p ∈ l, ∃ m, (p.1, m) ∈ reg ∧ p.2 = ready p.1 &&& (m ||| 0x18) ∧ p.2 ≠ 0
  complete : l.length < max → ∀ p ∈ reg, ready p.1 &&& (p.2 ||| 0x18) ≠ 0 → ∃ q ∈ l, q.1 = p.1

/-- A read would not block: data, an error or the end of the file. -/
def ReadReady (ev : UInt32) : Prop := ev &&& 0x19 ≠ 0

/-- A write would not block. -/
def WriteReady (ev : UInt32) : Prop := ev &&& 0x0C ≠ 0

/-- An exceptional condition: out-of-band data, or a pending error. -/
def Exceptional (ev : UInt32) : Prop := ev &&& 0x0A ≠ 0

/-- The descriptor is in one of the sets. -/
def Sets.Requested (s : Sets) (fd : Nat) : Prop := has s.r fd ∨ has s.w fd ∨ has s.x fd

instance (s : Sets) (fd : Nat) : Decidable (s.Requested fd) := inferInstanceAs (Decidable (_ ∨ _))

/-- The number of bits below `n`. -/
def bits (s : Option FdSet) (n : Nat) : Nat := (List.range n).countP (has s)

/-! ## Lemmas -/

theorem has_remove (s : Option FdSet) (fd i : Nat) : has (remove s fd) i = (has s i && !decide (i = fd)) := by
  cases s with
  | none => rfl
  | some f =>
    simp only [has, remove, Option.map_some]
    by_cases h : i = fd <;> simp [h]

theorem has_insert (s : Option FdSet) (fd i : Nat) : has (insert s fd) i = (has s i || (s.isSome && decide (i = fd))) := by
  cases s with
  | none => rfl
  | some f =>
    simp only [has, insert, Option.map_some]
    by_cases h : i = fd <;> simp [h]

theorem events_pos (s : Sets) (fd : Nat) : s.events fd > 0 ↔ s.Requested fd := by
  unfold Sets.events Sets.Requested EPOLLIN EPOLLOUT EPOLLERR
  cases has s.r fd <;> cases has s.w fd <;> cases has s.x fd <;> decide

theorem isSome_remove (s : Option FdSet) (fd : Nat) : (remove s fd).isSome = s.isSome := by cases s <;> rfl

theorem isSome_insert (s : Option FdSet) (fd : Nat) : (insert s fd).isSome = s.isSome := by cases s <;> rfl

/-- The registration loop. -/
theorem register_spec {ctl : Nat → Ctl} {fds : List Nat} {s s' : Sets} {ne ne' : Nat} {reg reg' : List (Nat × UInt32)}
    (hn : fds.Nodup) (h : register ctl s ne reg fds = (.ok (ne', reg'), s')) :
    (∀ fd ∈ fds, s.Requested fd → ctl fd = .ok ∨ ctl fd = .eperm)
    ∧ ne' = ne + fds.countP (fun fd => s.Requested fd ∧ ctl fd = .eperm)
    ∧ (∀ p, p ∈ reg' ↔ p ∈ reg ∨ (p.1 ∈ fds ∧ s.Requested p.1 ∧ ctl p.1 = .ok ∧ p.2 = s.events p.1))
    ∧ (∀ i, has s'.r i = (has s.r i && !decide (i ∈ fds ∧ ctl i = .ok)))
    ∧ (∀ i, has s'.w i = (has s.w i && !decide (i ∈ fds ∧ ctl i = .ok)))
    ∧ (∀ i, has s'.x i = (has s.x i && !decide (i ∈ fds ∧ ctl i = .ok)))
    ∧ s'.r.isSome = s.r.isSome ∧ s'.w.isSome = s.w.isSome ∧ s'.x.isSome = s.x.isSome := by
  induction fds generalizing s ne reg with
  | nil =>
    cases h
    simp
  | cons fd fds ih =>
    rw [List.nodup_cons] at hn
    rw [register] at h
    by_cases hr : s.Requested fd
    · rw [if_pos ((events_pos s fd).2 hr)] at h
      cases hc : ctl fd with
      | eperm =>
        simp only [hc] at h
        obtain ⟨a, b, c, d, e, f, g⟩ := ih hn.2 h
        refine ⟨?_, ?_, ?_, ?_, ?_, ?_, g⟩
        · intro x hx hrx
          rcases List.mem_cons.1 hx with rfl | hx
          · exact .inr hc
          · exact a x hx hrx
        · rw [b, List.countP_cons_of_pos (by simpa using ⟨hr, hc⟩)]
          omega
        · intro p
          rw [c]
          simp only [List.mem_cons]
          grind
        · intro i
          rw [d]
          by_cases hi : i = fd <;> simp [hi, hc]
        · intro i
          rw [e]
          by_cases hi : i = fd <;> simp [hi, hc]
        · intro i
          rw [f]
          by_cases hi : i = fd <;> simp [hi, hc]
      | err e =>
        simp only [hc] at h
        cases h
      | ok =>
        simp only [hc] at h
        obtain ⟨a, b, c, d, e, f, g⟩ := ih hn.2 h
        simp only [isSome_remove] at g
        have hq : ∀ i, i ∈ fds → ((⟨remove s.r fd, remove s.w fd, remove s.x fd⟩ : Sets).Requested i ↔ s.Requested i)
            ∧ (⟨remove s.r fd, remove s.w fd, remove s.x fd⟩ : Sets).events i = s.events i := by
          intro i hi
          have : i ≠ fd := by
            rintro rfl
            exact hn.1 hi
          unfold Sets.Requested Sets.events
          simp [has_remove, this]
        refine ⟨?_, ?_, ?_, ?_, ?_, ?_, g⟩
        · intro x hx hrx
          rcases List.mem_cons.1 hx with rfl | hx
          · exact .inl hc
          · exact a x hx ((hq x hx).1.2 hrx)
        · rw [b, List.countP_cons_of_neg (by simp [hc])]
          congr 1
          apply List.countP_congr
          intro x hx
          simp [(hq x hx).1]
        · intro p
          rw [c]
          rw [List.mem_append, List.mem_singleton, List.mem_cons]
          constructor
          · rintro ((h | h) | ⟨h1, h2, h3, h4⟩)
            · exact .inl h
            · subst h
              exact .inr ⟨.inl rfl, hr, hc, rfl⟩
            · exact .inr ⟨.inr h1, (hq _ h1).1.1 h2, h3, by rw [h4, (hq _ h1).2]⟩
          · rintro (h | ⟨h1 | h1, h2, h3, h4⟩)
            · exact .inl (.inl h)
            · refine .inl (.inr ?_)
              cases p
              simp only at h1 h4
              subst h1
              rw [h4]
            · exact .inr ⟨h1, (hq _ h1).1.2 h2, h3, by rw [h4, (hq _ h1).2]⟩
        · intro i
          rw [d, has_remove]
          by_cases hi : i = fd <;> simp [hi, hc]
        · intro i
          rw [e, has_remove]
          by_cases hi : i = fd <;> simp [hi, hc]
        · intro i
          rw [f, has_remove]
          by_cases hi : i = fd <;> simp [hi, hc]
    · rw [if_neg (fun h => hr ((events_pos s fd).1 h))] at h
      obtain ⟨a, b, c, d, e, f, g⟩ := ih hn.2 h
      have hnr : has s.r fd = false ∧ has s.w fd = false ∧ has s.x fd = false := by
        unfold Sets.Requested at hr
        simpa [not_or] using hr
      refine ⟨?_, ?_, ?_, ?_, ?_, ?_, g⟩
      · intro x hx hrx
        rcases List.mem_cons.1 hx with rfl | hx
        · exact absurd hrx hr
        · exact a x hx hrx
      · rw [b, List.countP_cons_of_neg (by simp [hr])]
      · intro p
        rw [c]
        simp only [List.mem_cons]
        grind
      · intro i
        rw [d]
        by_cases hi : i = fd <;> simp [hi, hnr]
      · intro i
        rw [e]
        by_cases hi : i = fd <;> simp [hi, hnr]
      · intro i
        rw [f]
        by_cases hi : i = fd <;> simp [hi, hnr]

theorem register_nodup {ctl : Nat → Ctl} {fds : List Nat} {s s' : Sets} {ne ne' : Nat} {reg reg' : List (Nat × UInt32)}
    (hn : fds.Nodup) (hr : (reg.map Prod.fst).Nodup) (hd : ∀ p ∈ reg, p.1 ∉ fds)
    (h : register ctl s ne reg fds = (.ok (ne', reg'), s')) : (reg'.map Prod.fst).Nodup := by
  induction fds generalizing s ne reg with
  | nil =>
    cases h
    exact hr
  | cons fd fds ih =>
    rw [List.nodup_cons] at hn
    have hd' : ∀ p ∈ reg, p.1 ∉ fds := fun p hp => fun h => hd p hp (by simp [h])
    rw [register] at h
    split at h
    · split at h
      · exact ih hn.2 hr hd' h
      · cases h
      · refine ih hn.2 ?_ ?_ h
        · rw [List.map_append, List.nodup_append]
          refine ⟨hr, by simp, ?_⟩
          intro a ha b hb
          simp only [List.mem_map, List.map_cons, List.map_nil, List.mem_singleton] at ha hb
          obtain ⟨p, hp, rfl⟩ := ha
          subst hb
          intro e
          exact hd p hp (by simp [e])
        · intro p hp
          rw [List.mem_append, List.mem_singleton] at hp
          rcases hp with hp | rfl
          · exact hd' p hp
          · exact hn.1
    · exact ih hn.2 hr hd' h

theorem has_put (s : Option FdSet) (fd : Nat) (ev bit : UInt32) (i : Nat) :
    has (put s fd ev bit).1 i = (has s i || decide (fd = i ∧ ev &&& bit > 0 ∧ s.isSome)) := by
  unfold put
  by_cases h : ev &&& bit > 0 ∧ s.isSome
  · rw [if_pos h]
    simp only [has_insert, h, and_true, Bool.true_and]
    by_cases hi : i = fd
    · simp [hi]
    · simp [hi, Ne.symm hi]
  · rw [if_neg h]
    simp [h]

theorem isSome_put (s : Option FdSet) (fd : Nat) (ev bit : UInt32) : (put s fd ev bit).1.isSome = s.isSome := by
  unfold put
  split
  · exact isSome_insert s fd
  · rfl

theorem put_count (s : Option FdSet) (fd : Nat) (ev bit : UInt32) :
    (put s fd ev bit).2 = if decide (ev &&& bit > 0 ∧ s.isSome) then 1 else 0 := by
  unfold put
  by_cases h : ev &&& bit > 0 ∧ s.isSome <;> simp [h]

/-- The loop over the events. -/
theorem collect_spec (l : List (Nat × UInt32)) (hl : ∀ p ∈ l, p.1 < 1024) (s : Sets) (count : Nat) :
    (collect s count l).1 = count + l.countP (fun p => p.2 &&& EPOLLIN > 0 ∧ s.r.isSome)
        + l.countP (fun p => p.2 &&& EPOLLOUT > 0 ∧ s.w.isSome) + l.countP (fun p => p.2 &&& EPOLLERR > 0 ∧ s.x.isSome)
    ∧ (∀ i, has (collect s count l).2.r i ↔ has s.r i ∨ ∃ p ∈ l, p.1 = i ∧ p.2 &&& EPOLLIN > 0 ∧ s.r.isSome)
    ∧ (∀ i, has (collect s count l).2.w i ↔ has s.w i ∨ ∃ p ∈ l, p.1 = i ∧ p.2 &&& EPOLLOUT > 0 ∧ s.w.isSome)
    ∧ (∀ i, has (collect s count l).2.x i ↔ has s.x i ∨ ∃ p ∈ l, p.1 = i ∧ p.2 &&& EPOLLERR > 0 ∧ s.x.isSome) := by
  induction l generalizing s count with
  | nil => simp [collect]
  | cons p l ih =>
    obtain ⟨fd, ev⟩ := p
    have hfd : fd < 1024 := hl (fd, ev) (by simp)
    rw [collect, if_pos hfd]
    obtain ⟨a, b, c, d⟩ := ih (fun p hp => hl p (by simp [hp]))
      ⟨(put s.r fd ev EPOLLIN).1, (put s.w fd ev EPOLLOUT).1, (put s.x fd ev EPOLLERR).1⟩
      (count + (put s.r fd ev EPOLLIN).2 + (put s.w fd ev EPOLLOUT).2 + (put s.x fd ev EPOLLERR).2)
    simp only [isSome_put] at a b c d
    refine ⟨?_, ?_, ?_, ?_⟩
    · rw [a]
      simp only [put_count, List.countP_cons]
      omega
    · intro i
      rw [b, has_put]
      simp only [Bool.or_eq_true, decide_eq_true_eq, List.mem_cons, exists_eq_or_imp, or_assoc]
    · intro i
      rw [c, has_put]
      simp only [Bool.or_eq_true, decide_eq_true_eq, List.mem_cons, exists_eq_or_imp, or_assoc]
    · intro i
      rw [d, has_put]
      simp only [Bool.or_eq_true, decide_eq_true_eq, List.mem_cons, exists_eq_or_imp, or_assoc]

theorem countP_split {l : List Nat} {p q r : Nat → Bool} (h : ∀ x ∈ l, p x = (q x || r x) ∧ ¬ (q x ∧ r x)) :
    l.countP p = l.countP q + l.countP r := by
  induction l with
  | nil => rfl
  | cons a l ih =>
    obtain ⟨h1, h2⟩ := h a (by simp)
    rw [List.countP_cons, List.countP_cons, List.countP_cons, ih (fun x hx => h x (by simp [hx])), h1]
    cases hq : q a <;> cases hr : r a <;> simp_all <;> omega

theorem perm_fst {l : List (Nat × UInt32)} {n : Nat} {P : Nat → Bool} {C : Nat × UInt32 → Bool}
    (hl : (l.map Prod.fst).Nodup) (h : ∀ i, i < n ∧ P i ↔ ∃ p ∈ l, p.1 = i ∧ C p) :
    (List.range n).countP P = l.countP C := by
  have hp : ((List.range n).filter P).Perm ((l.filter C).map Prod.fst) := by
    rw [List.perm_ext_iff_of_nodup (List.nodup_range.sublist List.filter_sublist)
      (hl.sublist (List.filter_sublist.map _))]
    intro i
    simp only [List.mem_filter, List.mem_range, List.mem_map]
    rw [h i]
    grind
  rw [List.countP_eq_length_filter, List.countP_eq_length_filter, hp.length_eq, List.length_map]

theorem and_or_distrib (x a b : UInt32) : x &&& (a ||| b) = x &&& a ||| x &&& b := by
  apply UInt32.toBitVec_inj.1
  simp [BitVec.and_or_distrib_left]

theorem or_ne_zero (a b : UInt32) : a ||| b ≠ 0 ↔ a ≠ 0 ∨ b ≠ 0 := by
  rw [← Decidable.not_iff_not]
  simp only [Decidable.not_not, not_or]
  rw [← UInt32.toBitVec_inj, ← UInt32.toBitVec_inj, ← UInt32.toBitVec_inj]
  simp

theorem and_mask (x m b : UInt32) : x &&& (m ||| 0x18) &&& b = x &&& ((m ||| 0x18) &&& b) := UInt32.and_assoc _ _ _

theorem pos_iff (x : UInt32) : x > 0 ↔ x ≠ 0 := UInt32.pos_iff_ne_zero

/-- What an event says about the descriptor. -/
theorem event_bits (s : Sets) (fd : Nat) (x : UInt32) (hx : x &&& 0x1A = 0) :
    (x &&& (s.events fd ||| 0x18) &&& EPOLLIN > 0 ↔ has s.r fd ∧ x &&& 0x19 ≠ 0)
    ∧ (x &&& (s.events fd ||| 0x18) &&& EPOLLOUT > 0 ↔ has s.w fd ∧ x &&& 0x0C ≠ 0)
    ∧ ¬ x &&& (s.events fd ||| 0x18) &&& EPOLLERR > 0
    ∧ (x &&& (s.events fd ||| 0x18) ≠ 0 ↔ (has s.r fd ∧ x &&& 0x19 ≠ 0) ∨ has s.w fd ∧ x &&& 0x0C ≠ 0) := by
  have sub : ∀ m : UInt32, 0x1A &&& m = m → x &&& m = 0 := by
    intro m hm
    rw [← hm, ← UInt32.and_assoc, hx, UInt32.zero_and]
  have add : ∀ a b : UInt32, x &&& a = 0 → x &&& (a ||| b) = x &&& b := by
    intro a b h
    rw [and_or_distrib, h, UInt32.zero_or]
  have e1 : x &&& 0x19 = x &&& 1 := add 0x18 1 (sub _ (by decide))
  have e2 : x &&& 0x0C = x &&& 4 := add 8 4 (sub _ (by decide))
  have e3 : x &&& 8 = 0 := sub _ (by decide)
  have m1 : (s.events fd ||| 0x18) &&& EPOLLIN = if has s.r fd then 1 else 0 := by
    unfold Sets.events
    cases has s.r fd <;> cases has s.w fd <;> cases has s.x fd <;> decide
  have m2 : (s.events fd ||| 0x18) &&& EPOLLOUT = if has s.w fd then 4 else 0 := by
    unfold Sets.events
    cases has s.r fd <;> cases has s.w fd <;> cases has s.x fd <;> decide
  have m3 : (s.events fd ||| 0x18) &&& EPOLLERR = 8 := by
    unfold Sets.events
    cases has s.r fd <;> cases has s.w fd <;> cases has s.x fd <;> decide
  have m4 : s.events fd ||| 0x18 = 0x18 ||| ((if has s.r fd then 1 else 0) ||| (if has s.w fd then 4 else 0)) := by
    unfold Sets.events
    cases has s.r fd <;> cases has s.w fd <;> cases has s.x fd <;> decide
  refine ⟨?_, ?_, ?_, ?_⟩
  · rw [and_mask, m1, pos_iff, e1]
    cases has s.r fd <;> simp
  · rw [and_mask, m2, pos_iff, e2]
    cases has s.w fd <;> simp
  · rw [and_mask, m3, e3]
    decide
  · rw [m4, add _ _ (sub 0x18 (by decide)), and_or_distrib, or_ne_zero, e1, e2]
    cases has s.r fd <;> cases has s.w fd <;> simp

theorem isSome_of_has {s : Option FdSet} {i : Nat} (h : has s i) : s.isSome := by
  cases s with
  | none => cases h
  | some f => rfl

/-! ## C55 -/

/-- C55: when `select` succeeds, each set contains of the descriptors below `nfds` exactly those that were in it and are
ready, and the number returned is the number of bits set. Missing: 32 or more ready descriptors (`C55_many_violation`),
hangups and errors (`C55_hup_violation`, `C55_unrequested_violation`), a regular file in two sets (`C55_count_violation`). -/
theorem C55_select_partial {ctl : Nat → Ctl} {wait : List (Nat × UInt32) → Int32 → Except Int32 (List (Nat × UInt32))}
    {ready : Nat → UInt32} {nfds : Int32} {s s' : Sets} {timeout : Option (Int64 × Int64)} {n : Nat}
    (hk : ∀ reg t l, (reg.map Prod.fst).Nodup → wait reg t = .ok l → Waits ready reg 32 l)
    (hfew : (List.range nfds.toInt.toNat).countP (fun fd => s.Requested fd ∧ ctl fd = .ok ∧ ready fd ≠ 0) < 32)
    (hq : ∀ fd, s.Requested fd → ctl fd = .ok → ready fd &&& 0x1A = 0)
    (hone : ∀ fd, ctl fd = .eperm → ¬ (has s.r fd ∧ has s.w fd) ∧ ¬ (has s.r fd ∧ has s.x fd) ∧ ¬ (has s.w fd ∧ has s.x fd))
    (h : select ctl wait nfds s timeout = (.ok n, s')) :
    (∀ fd < nfds.toInt.toNat,
      (has s'.r fd ↔ has s.r fd ∧ (ctl fd = .eperm ∨ ReadReady (ready fd)))
      ∧ (has s'.w fd ↔ has s.w fd ∧ (ctl fd = .eperm ∨ WriteReady (ready fd)))
      ∧ (has s'.x fd ↔ has s.x fd ∧ (ctl fd = .eperm ∨ Exceptional (ready fd))))
    ∧ n = bits s'.r nfds.toInt.toNat + bits s'.w nfds.toInt.toNat + bits s'.x nfds.toInt.toNat := by
  unfold select at h
  split at h
  · cases h
  rename_i hn
  have hN : nfds.toInt.toNat ≤ 1024 := by
    simp only [not_or, Int32.not_lt, Int32.le_iff_toInt_le, gt_iff_lt] at hn
    have := hn.2
    simp at this
    omega
  generalize nfds.toInt.toNat = N at *
  generalize hreg : register ctl s 0 [] (List.range N) = R at h
  obtain ⟨r, s1⟩ := R
  cases r with
  | error e => cases h
  | ok r =>
    obtain ⟨ne, reg⟩ := r
    simp only at h
    obtain ⟨hctl, hne, hmem, hr, hw, hx, ir, iw, ix⟩ := register_spec List.nodup_range hreg
    generalize hwt : wait reg (selectTimeout ne timeout) = a at h
    cases a with
    | error e => cases h
    | ok l =>
      have W := hk _ _ _ (register_nodup List.nodup_range (by simp) (by simp) hreg) hwt
      simp only [List.not_mem_nil, false_or, List.mem_range] at hmem
      -- what an event is
      have hev : ∀ p ∈ l, p.1 < N ∧ s.Requested p.1 ∧ ctl p.1 = .ok ∧ p.2 = ready p.1 &&& (s.events p.1 ||| 0x18) ∧ p.2 ≠ 0 := by
        intro p hp
        obtain ⟨m, h1, h2, h3⟩ := W.sound p hp
        obtain ⟨g1, g2, g3, g4⟩ := (hmem _).1 h1
        simp only at g1 g2 g3 g4
        exact ⟨g1, g2, g3, by rw [h2, g4], h3⟩
      have hlen : l.length < 32 := by
        have e : (List.range N).countP (fun i => decide (i ∈ l.map Prod.fst)) = l.countP (fun _ => true) := by
          apply perm_fst W.nodup
          intro i
          simp only [decide_eq_true_eq, List.mem_map, and_true]
          constructor
          · rintro ⟨_, p, hp, rfl⟩
            exact ⟨p, hp, rfl⟩
          · rintro ⟨p, hp, rfl⟩
            exact ⟨(hev p hp).1, p, hp, rfl⟩
        rw [List.countP_true] at e
        rw [← e]
        refine Nat.lt_of_le_of_lt (List.countP_mono_left ?_) hfew
        intro i _ hi
        simp only [decide_eq_true_eq, List.mem_map] at hi ⊢
        obtain ⟨p, hp, rfl⟩ := hi
        obtain ⟨_, h2, h3, h4, h5⟩ := hev p hp
        refine ⟨h2, h3, ?_⟩
        intro h0
        rw [h0, UInt32.zero_and] at h4
        exact h5 h4
      have hcomp : ∀ fd, fd < N → s.Requested fd → ctl fd = .ok → ready fd &&& (s.events fd ||| 0x18) ≠ 0 →
          (fd, ready fd &&& (s.events fd ||| 0x18)) ∈ l := by
        intro fd h1 h2 h3 h4
        obtain ⟨q, hq1, hq2⟩ := W.complete hlen (fd, s.events fd) ((hmem _).2 ⟨h1, h2, h3, rfl⟩) h4
        obtain ⟨_, _, _, h8, _⟩ := hev q hq1
        simp only at hq2
        rw [hq2] at h8
        rw [← h8, ← hq2]
        exact hq1
      obtain ⟨c1, c2, c3, c4⟩ := collect_spec l (fun p hp => Nat.lt_of_lt_of_le (hev p hp).1 hN) s1 ne
      simp only [ir, iw, ix] at c1 c2 c3 c4
      have hsr : ∀ i, has s.r i → s.Requested i := fun i h => .inl h
      have hsw : ∀ i, has s.w i → s.Requested i := fun i h => .inr (.inl h)
      have hsx : ∀ i, has s.x i → s.Requested i := fun i h => .inr (.inr h)
      -- the descriptors found ready
      have kr : ∀ i, (i < N ∧ decide (has s.r i ∧ ctl i = .ok ∧ ready i &&& 0x19 ≠ 0))
          ↔ ∃ p ∈ l, p.1 = i ∧ decide (p.2 &&& EPOLLIN > 0 ∧ s.r.isSome) := by
        intro i
        simp only [decide_eq_true_eq]
        constructor
        · rintro ⟨h1, h2, h3, h4⟩
          obtain ⟨b1, b2, b3, b4⟩ := event_bits s i (ready i) (hq i (hsr i h2) h3)
          exact ⟨_, hcomp i h1 (hsr i h2) h3 (b4.2 (.inl ⟨h2, h4⟩)), rfl, b1.2 ⟨h2, h4⟩, isSome_of_has h2⟩
        · rintro ⟨p, hp, rfl, h1, h2⟩
          obtain ⟨g1, g2, g3, g4, g5⟩ := hev p hp
          obtain ⟨b1, b2, b3, b4⟩ := event_bits s p.1 (ready p.1) (hq p.1 g2 g3)
          rw [g4] at h1
          exact ⟨g1, (b1.1 h1).1, g3, (b1.1 h1).2⟩
      have kw : ∀ i, (i < N ∧ decide (has s.w i ∧ ctl i = .ok ∧ ready i &&& 0x0C ≠ 0))
          ↔ ∃ p ∈ l, p.1 = i ∧ decide (p.2 &&& EPOLLOUT > 0 ∧ s.w.isSome) := by
        intro i
        simp only [decide_eq_true_eq]
        constructor
        · rintro ⟨h1, h2, h3, h4⟩
          obtain ⟨b1, b2, b3, b4⟩ := event_bits s i (ready i) (hq i (hsw i h2) h3)
          exact ⟨_, hcomp i h1 (hsw i h2) h3 (b4.2 (.inr ⟨h2, h4⟩)), rfl, b2.2 ⟨h2, h4⟩, isSome_of_has h2⟩
        · rintro ⟨p, hp, rfl, h1, h2⟩
          obtain ⟨g1, g2, g3, g4, g5⟩ := hev p hp
          obtain ⟨b1, b2, b3, b4⟩ := event_bits s p.1 (ready p.1) (hq p.1 g2 g3)
          rw [g4] at h1
          exact ⟨g1, (b2.1 h1).1, g3, (b2.1 h1).2⟩
      have kx : ∀ i, (i < N ∧ decide (has s.x i ∧ ctl i = .ok ∧ ready i &&& 0x0A ≠ 0))
          ↔ ∃ p ∈ l, p.1 = i ∧ decide (p.2 &&& EPOLLERR > 0 ∧ s.x.isSome) := by
        intro i
        simp only [decide_eq_true_eq]
        constructor
        · rintro ⟨h1, h2, h3, h4⟩
          have := hq i (hsx i h2) h3
          refine absurd ?_ h4
          rw [show (0x0A : UInt32) = 0x1A &&& 0x0A from rfl, ← UInt32.and_assoc, this, UInt32.zero_and]
        · rintro ⟨p, hp, rfl, h1, h2⟩
          obtain ⟨g1, g2, g3, g4, g5⟩ := hev p hp
          obtain ⟨b1, b2, b3, b4⟩ := event_bits s p.1 (ready p.1) (hq p.1 g2 g3)
          rw [g4] at h1
          exact absurd h1 b3
      cases h
      have nr := perm_fst W.nodup kr
      have nw := perm_fst W.nodup kw
      have nx := perm_fst W.nodup kx
      simp only [decide_eq_true_eq] at kr kw kx
      have fr : ∀ i < N, has (collect s1 ne l).2.r i ↔ has s.r i ∧ (ctl i = .eperm ∨ ready i &&& 0x19 ≠ 0) := by
        intro i hi
        rw [c2, hr, ← kr]
        simp only [List.mem_range, hi, true_and]
        have := fun h => hctl i (List.mem_range.2 hi) (hsr i h)
        grind
      have fw : ∀ i < N, has (collect s1 ne l).2.w i ↔ has s.w i ∧ (ctl i = .eperm ∨ ready i &&& 0x0C ≠ 0) := by
        intro i hi
        rw [c3, hw, ← kw]
        simp only [List.mem_range, hi, true_and]
        have := fun h => hctl i (List.mem_range.2 hi) (hsw i h)
        grind
      have fx : ∀ i < N, has (collect s1 ne l).2.x i ↔ has s.x i ∧ (ctl i = .eperm ∨ ready i &&& 0x0A ≠ 0) := by
        intro i hi
        rw [c4, hx, ← kx]
        simp only [List.mem_range, hi, true_and]
        have := fun h => hctl i (List.mem_range.2 hi) (hsx i h)
        grind
      refine ⟨fun fd hfd => ⟨fr fd hfd, fw fd hfd, fx fd hfd⟩, ?_⟩
      have sr : bits (collect s1 ne l).2.r N = (List.range N).countP (fun i => decide (has s.r i ∧ ctl i = .eperm))
          + (List.range N).countP (fun i => decide (has s.r i ∧ ctl i = .ok ∧ ready i &&& 0x19 ≠ 0)) := by
        apply countP_split
        intro i hi
        have hi := List.mem_range.1 hi
        have := fun h => hctl i (List.mem_range.2 hi) (hsr i h)
        rw [Bool.eq_iff_iff, fr i hi]
        simp only [Bool.or_eq_true, decide_eq_true_eq]
        grind
      have sw : bits (collect s1 ne l).2.w N = (List.range N).countP (fun i => decide (has s.w i ∧ ctl i = .eperm))
          + (List.range N).countP (fun i => decide (has s.w i ∧ ctl i = .ok ∧ ready i &&& 0x0C ≠ 0)) := by
        apply countP_split
        intro i hi
        have hi := List.mem_range.1 hi
        have := fun h => hctl i (List.mem_range.2 hi) (hsw i h)
        rw [Bool.eq_iff_iff, fw i hi]
        simp only [Bool.or_eq_true, decide_eq_true_eq]
        grind
      have sx : bits (collect s1 ne l).2.x N = (List.range N).countP (fun i => decide (has s.x i ∧ ctl i = .eperm))
          + (List.range N).countP (fun i => decide (has s.x i ∧ ctl i = .ok ∧ ready i &&& 0x0A ≠ 0)) := by
        apply countP_split
        intro i hi
        have hi := List.mem_range.1 hi
        have := fun h => hctl i (List.mem_range.2 hi) (hsx i h)
        rw [Bool.eq_iff_iff, fx i hi]
        simp only [Bool.or_eq_true, decide_eq_true_eq]
        grind
      have se : (List.range N).countP (fun fd => decide (s.Requested fd ∧ ctl fd = .eperm))
          = (List.range N).countP (fun i => decide (has s.r i ∧ ctl i = .eperm))
            + (List.range N).countP (fun i => decide ((has s.w i ∨ has s.x i) ∧ ctl i = .eperm)) := by
        apply countP_split
        intro i _
        have := hone i
        rw [Bool.eq_iff_iff]
        simp only [Bool.or_eq_true, decide_eq_true_eq, Sets.Requested]
        grind
      have se2 : (List.range N).countP (fun i => decide ((has s.w i ∨ has s.x i) ∧ ctl i = .eperm))
          = (List.range N).countP (fun i => decide (has s.w i ∧ ctl i = .eperm))
            + (List.range N).countP (fun i => decide (has s.x i ∧ ctl i = .eperm)) := by
        apply countP_split
        intro i _
        have := hone i
        rw [Bool.eq_iff_iff]
        simp only [Bool.or_eq_true, decide_eq_true_eq]
        grind
      rw [c1, sr, sw, sx, ← nr, ← nw, ← nx, hne, se, se2]
      omega

/-- C55: `nfds` out of range is refused, and the sets are not changed. -/
theorem C55_range {ctl : Nat → Ctl} {wait : List (Nat × UInt32) → Int32 → Except Int32 (List (Nat × UInt32))} {nfds : Int32}
    {s : Sets} {timeout : Option (Int64 × Int64)} (h : nfds.toInt < 0 ∨ nfds.toInt > 1024) :
    select ctl wait nfds s timeout = (.error 22, s) := by
  unfold select
  rw [if_pos]
  · rfl
  · rcases h with h | h
    · left
      rw [Int32.lt_iff_toInt_lt]
      exact h
    · right
      rw [gt_iff_lt, Int32.lt_iff_toInt_lt]
      exact h

/-- C55: without regular files `select` waits for the given time, in milliseconds rounded down. Missing: rounding up
(`C55_round_violation`) and long times (`C55_timeout_violation`). -/
theorem C55_timeout_partial {sec usec : Int64} (h1 : 0 ≤ sec.toInt) (h2 : sec.toInt ≤ 2147482) (h3 : 0 ≤ usec.toInt)
    (h4 : usec.toInt < 1000000) :
    (selectTimeout 0 (some (sec, usec))).toInt = sec.toInt * 1000 + usec.toInt / 1000 := by
  have e1 : sec.toInt32.toInt = sec.toInt := by
    rw [Int64.toInt_toInt32]
    exact Int.bmod_eq_of_le (by omega) (by omega)
  have e2 : usec.toInt32.toInt = usec.toInt := by
    rw [Int64.toInt_toInt32]
    exact Int.bmod_eq_of_le (by omega) (by omega)
  have e3 : (usec.toInt32 / 1000).toInt = usec.toInt / 1000 := by
    rw [Int32.toInt_div, e2]
    simp only [show (1000 : Int32).toInt = 1000 from rfl]
    rw [Int.tdiv_eq_ediv_of_nonneg h3]
    exact Int.bmod_eq_of_le (by omega) (by omega)
  unfold selectTimeout
  simp only [e1, e3, gt_iff_lt, Nat.lt_irrefl, if_false]
  rw [if_neg (by omega), if_neg (by omega), Int32.toInt_ofInt]
  exact Int.bmod_eq_of_le (by simp only [Int32.size]; omega) (by simp only [Int32.size]; omega)

/-- C55: without a time limit `select` waits for ever (any negative time, for the kernel), unless a regular file, which is always ready,
is among the files; then it does not wait, whatever the time. -/
theorem C55_forever (n : Nat) (t : Option (Int64 × Int64)) :
    (selectTimeout 0 none).toInt < 0 ∧ (selectTimeout (n + 1) t).toInt = 0 := by
  refine ⟨by decide, ?_⟩
  unfold selectTimeout
  rw [if_pos (by omega)]
  rfl

/-! ## The kernel of the examples -/

/-- `epoll_pwait` when the conditions are `ready`. -/
def simpleWait (ready : Nat → UInt32) (reg : List (Nat × UInt32)) (_ : Int32) : Except Int32 (List (Nat × UInt32)) :=
  .ok (((reg.map fun p => (p.1, ready p.1 &&& (p.2 ||| 0x18))).filter (·.2 ≠ 0)).take 32)

theorem simpleWait_waits (ready : Nat → UInt32) {reg l : List (Nat × UInt32)} {t : Int32} (hn : (reg.map Prod.fst).Nodup)
    (h : simpleWait ready reg t = .ok l) : Waits ready reg 32 l := by
  cases h
  refine ⟨?_, ?_, ?_, ?_⟩
  · have : ((reg.map fun p => (p.1, ready p.1 &&& (p.2 ||| 0x18))).map Prod.fst).Nodup := by
      rw [List.map_map]
      exact hn
    exact this.sublist (((List.take_sublist _ _).trans List.filter_sublist).map _)
  · exact List.length_take_le _ _
  · intro p hp
    have := List.mem_of_mem_take hp
    simp only [List.mem_filter, List.mem_map, decide_eq_true_eq] at this
    obtain ⟨⟨q, h1, rfl⟩, h3⟩ := this
    exact ⟨q.2, h1, rfl, h3⟩
  · intro hlen p hp hne
    rw [List.length_take] at hlen
    rw [List.take_of_length_le (by omega)]
    refine ⟨(p.1, ready p.1 &&& (p.2 ||| 0x18)), ?_, rfl⟩
    simp only [List.mem_filter, List.mem_map, decide_eq_true_eq]
    exact ⟨⟨p, hp, rfl⟩, hne⟩

/-- The set of the listed descriptors. -/
def setOf (l : List Nat) : Option FdSet := some fun i => l.contains i

/-! ## Violations -/

/-- C55 fails for 33 ready descriptors: the last is not reported. -/
theorem C55_many_violation : ∃ n s', select (fun _ => .ok) (simpleWait fun _ => 1) 33 ⟨setOf (List.range 33), none, none⟩ none
      = (.ok n, s') ∧ n = 32 ∧ has s'.r 32 = false :=
  ⟨_, _, rfl, by decide +kernel, by decide +kernel⟩

/-- C55 fails for the end of a pipe, where the kernel reports a hangup only: nothing is reported as ready. -/
theorem C55_hup_violation : ∃ n s', select (fun _ => .ok) (simpleWait fun _ => 0x10) 1 ⟨setOf [0], none, none⟩ none
      = (.ok n, s') ∧ n = 0 ∧ has s'.r 0 = false ∧ ReadReady 0x10 :=
  ⟨_, _, rfl, by decide +kernel, by decide +kernel, by unfold ReadReady; decide⟩

/-- C55 fails for errors: a descriptor that was only in `readfds` is put into `exceptfds`. -/
theorem C55_unrequested_violation : ∃ n s',
    select (fun _ => .ok) (simpleWait fun _ => 9) 1 ⟨setOf [0], none, setOf []⟩ none = (.ok n, s') ∧ has s'.x 0 = true :=
  ⟨_, _, rfl, by decide +kernel⟩

/-- C55 fails for a regular file in two sets: two bits are set, but 1 is returned. -/
theorem C55_count_violation : ∃ n s',
    select (fun _ => .eperm) (simpleWait fun _ => 0) 1 ⟨setOf [0], setOf [0], none⟩ none = (.ok n, s')
      ∧ n = 1 ∧ bits s'.r 1 + bits s'.w 1 = 2 :=
  ⟨_, _, rfl, by decide +kernel, by decide +kernel⟩

/-- C55 fails on failure: a closed descriptor 1 makes `select` fail with the sets changed. -/
theorem C55_failure_violation : ∃ s',
    select (fun fd => if fd = 1 then .err 9 else .ok) (simpleWait fun _ => 0) 2 ⟨setOf [0, 1], none, none⟩ none = (.error 9, s')
      ∧ has s'.r 0 = false :=
  ⟨_, rfl, by decide +kernel⟩

/-- C55 fails for short times: 999 microseconds are no time at all. -/
theorem C55_round_violation : selectTimeout 0 (some (0, 999)) = 0 := by decide +kernel

/-- C55 fails for long times: 2³² seconds are no time at all. -/
theorem C55_timeout_violation : selectTimeout 0 (some (0x100000000, 0)) = 0 := by decide +kernel

/-! ## Examples -/

/-- Descriptors 0 (readable), 3 (writable) and 5 (a regular file); 4 is not ready. -/
example : ∃ n s', select (fun fd => if fd = 5 then .eperm else .ok) (simpleWait fun fd => if fd = 0 then 1 else if fd = 3 then 4 else 0)
      6 ⟨setOf [0, 3, 5], setOf [3, 4], none⟩ (some (1, 0)) = (.ok n, s')
    ∧ n = 3 ∧ (List.range 6).map (has s'.r) = [true, false, false, false, false, true]
    ∧ (List.range 6).map (has s'.w) = [false, false, false, true, false, false] :=
  ⟨_, _, rfl, by decide +kernel, by decide +kernel, by decide +kernel⟩

example : (selectTimeout 0 (some (2, 500000))) = 2500 := by decide +kernel

end Verif.Poll
