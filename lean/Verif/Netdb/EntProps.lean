import Verif.Netdb.EntModel
import Verif.Netdb.RlbProps
/-!
# Enumerating and searching the databases (C69)
-/

namespace Verif.Netdb
open Verif.Stdio

/-! ## Specification -/

/-- The lines of a text, without their newlines. -/
def linesOf : List UInt8 → List (List UInt8)
  | [] => []
  | b :: t =>
    let l := (b :: t).takeWhile (· != 0x0A)
    l :: linesOf ((b :: t).drop (l.length + 1))
termination_by l => l.length
decreasing_by
  rw [List.length_drop, List.length_cons]
  omega

/-- The entries a database file has from `pos` on. -/
def Db.entries (t : Kind) (d : Db) (pos : Nat) : List (List UInt8) := (linesOf (d.k.data.drop pos)).filter t.accept

/-- Every line has its newline. -/
def Terminated (l : List UInt8) : Prop := l = [] ∨ l.getLast? = some 0x0A

/-- The file can be read without errors, its last line is terminated, the stored position is in it, and no entry makes
the code panic. -/
structure Db.Good (t : Kind) (d : Db) : Prop where
  seekable : d.k.seekable = true
  answer : ∀ n, d.k.answer n ≠ .err
  small : d.k.data.length < 2 ^ 63
  pos : d.pos ≤ d.k.data.length
  terminated : Terminated d.k.data
  sound : ∀ l, l ∈ d.entries t 0 → t.panics l = false
  start : linesOf (d.k.data.drop d.pos) <:+ linesOf d.k.data

/-! ## Lemmas -/

theorem linesOf_line {l t : List UInt8} (h : 0x0A ∉ l) : linesOf (l ++ 0x0A :: t) = l :: linesOf t := by
  have : ∃ b u, l ++ 0x0A :: t = b :: u := by
    cases l with
    | nil => exact ⟨_, _, rfl⟩
    | cons a l => exact ⟨_, _, rfl⟩
  obtain ⟨b, u, hbu⟩ := this
  have htw := takeWhile_line (t := t) h
  rw [hbu] at htw ⊢
  rw [linesOf]
  simp only [htw]
  rw [← hbu, List.drop_append, List.drop_eq_nil_iff.2 (by omega), List.nil_append, show l.length + 1 - l.length = 1 by omega]
  rfl

theorem linesOf_last {l : List UInt8} (h : 0x0A ∉ l) (hne : l ≠ []) : linesOf l = [l] := by
  obtain ⟨b, u, rfl⟩ := List.exists_cons_of_ne_nil hne
  rw [linesOf]
  simp only [takeWhile_last h]
  rw [List.drop_eq_nil_iff.2 (by omega)]
  simp [linesOf]

theorem Terminated.tail {l t : List UInt8} (h : Terminated (l ++ 0x0A :: t)) : Terminated t := by
  by_cases hz : t = []
  · exact .inl hz
  · rcases h with z | z
    · simp at z
    · obtain ⟨a, u, rfl⟩ := List.exists_cons_of_ne_nil hz
      exact .inr (by simpa using z)

theorem Terminated.drop {l : List UInt8} (h : Terminated l) (n : Nat) : Terminated (l.drop n) := by
  rcases h with rfl | h
  · exact .inl (by simp)
  · by_cases hz : l.drop n = []
    · exact .inl hz
    · refine .inr ?_
      rw [List.getLast?_drop]
      rw [List.drop_eq_nil_iff] at hz
      rw [if_neg hz]
      exact h

/-- What the reader has to give is the file from its offset on. -/
theorem unread_eq {r : RLB} (h : r.Ok) : r.unread = r.k.data.drop r.offset := by
  have hs := h.same
  have hb := h.before
  unfold RLB.unread RLB.offset RLB.ahead
  cases hn : r.newline with
  | none => exact hs.symm
  | some i =>
    have hi := h.newline i hn
    simp only [List.length_drop]
    have h1 := congrArg (List.drop (i + 1)) hs
    rw [List.drop_drop, List.drop_append_of_le_length (by omega)] at h1
    rw [← h1]
    congr 1
    omega

theorem next_offset {r r' : RLB} {x : Line} (h : Next r r' x) (hx : x ≠ .error) : r'.linePos = r.offset := by
  cases h with
  | error => exact absurd rfl hx
  | line l _ _ h _ => exact h
  | eof _ _ h _ => exact h
  | last _ _ _ h _ => exact h

/-- The loop that finds an entry. -/
theorem findEntry_spec (t : Kind) (n : Nat) {r : RLB} (h : r.Ok) (hk : ∀ n, r.k.answer n ≠ .err)
    (ht : Terminated r.unread) (hn : r.unread.length < n) :
    ∃ x r', findEntry t r = some (x, r') ∧ r'.Ok ∧ Moved r.k r'.k ∧ r.offset ≤ r'.offset ∧
      (x = none ∧ (linesOf r.unread).filter t.accept = []
        ∨ ∃ pre l, x = some l ∧ t.accept l = true ∧ linesOf r.unread = pre ++ l :: linesOf r'.unread
          ∧ pre.filter t.accept = [] ∧ r'.offset + r'.unread.length = r.offset + r.unread.length) := by
  induction n generalizing r with
  | zero => omega
  | succ n ih =>
    obtain ⟨x, r', e, ok', nx, mv⟩ := C46_next h
    unfold findEntry
    simp only [e, Option.bind_eq_bind, Option.bind_some]
    cases nx with
    | error q1 q2 q3 =>
      obtain ⟨t, _, _, ht⟩ := q1
      exact absurd ht (hk t)
    | eof q1 q2 q3 q4 =>
      exact ⟨none, r', rfl, ok', mv, Nat.le_of_eq q4.symm, .inl ⟨rfl, by rw [q1]; simp [linesOf]⟩⟩
    | last q1 q2 q3 q4 q5 =>
      exfalso
      rcases ht with z | z
      · exact q1 z
      · exact q2 (List.mem_of_getLast? z)
    | line l q1 q2 q3 q4 =>
      have hlen := congrArg List.length q2
      rw [List.length_append, List.length_cons] at hlen
      have hlines : linesOf r.unread = l :: linesOf r'.unread := by rw [q2, linesOf_line q1]
      by_cases ha : t.accept l = true
      · simp only [if_pos ha]
        exact ⟨some l, r', rfl, ok', mv, by omega, .inr ⟨[], l, rfl, ha, hlines, rfl, by omega⟩⟩
      · simp only [if_neg ha]
        obtain ⟨x, r2, e2, ok2, mv2, o2, y⟩ := ih ok' (by rw [mv.answer]; exact hk) (by rw [q2] at ht; exact ht.tail) (by omega)
        refine ⟨x, r2, e2, ok2, mv.trans mv2, by omega, ?_⟩
        rcases y with y | ⟨pre, l2, y1, y2, y3, y4, y5⟩
        · refine .inl ⟨y.1, ?_⟩
          rw [hlines, List.filter_cons_of_neg (by simpa using ha)]
          exact y.2
        · refine .inr ⟨l :: pre, l2, y1, y2, by rw [hlines, y3]; rfl, ?_, by omega⟩
          rw [List.filter_cons_of_neg (by simpa using ha)]
          exact y4

/-! ## C69 -/

/-- One `get…ent`. -/
theorem get_spec {t : Kind} {d : Db} (h : d.Good t) :
    ∃ d', d.get t = some (((d.entries t d.pos).head?).map fields, d') ∧ d'.Good t ∧ d'.k.data = d.k.data
      ∧ d'.entries t d'.pos = (d.entries t d.pos).tail ∧ d'.stayopen = d.stayopen
      ∧ d'.isOpen = (if d.entries t d.pos = [] then d.stayopen else !t.closes || d.stayopen) := by
  obtain ⟨d1, e1, f1, f2, f3, f4⟩ : ∃ d1, d.ensure = d1 ∧ Moved d.k d1.k ∧ d1.isOpen = true ∧ d1.pos = d.pos
      ∧ d1.stayopen = d.stayopen := by
    refine ⟨_, rfl, ?_⟩
    unfold Db.ensure
    split
    · rename_i ho
      exact ⟨.refl _, ho, rfl, rfl⟩
    · exact ⟨⟨rfl, rfl, Nat.le_refl _, rfl⟩, rfl, rfl, rfl⟩
  have hsmall := h.small
  have hpos := h.pos
  obtain ⟨r, e2, ok, un, off, mv⟩ := C46_seek d1.k (by rw [f1.seekable]; exact h.seekable) d1.pos (by omega)
  rw [f1.data, f3] at un
  have mv1 := f1.trans mv
  obtain ⟨x, r1, e3, ok1, mv2, o2, y⟩ := findEntry_spec t _ ok (by rw [mv1.answer]; exact h.answer)
    (by rw [un]; exact h.terminated.drop _) (Nat.lt_succ_self _)
  have mv3 := mv1.trans mv2
  unfold Db.get
  simp only [e1, e2, e3, Option.bind_eq_bind, Option.bind_some]
  rcases y with ⟨rfl, y⟩ | ⟨pre, l, rfl, y1, y2, y3, y4⟩
  · rw [un] at y
    have hent : d.entries t d.pos = [] := y
    simp only [hent, List.head?_nil, Option.map_none, if_true]
    refine ⟨_, rfl, ?_⟩
    have hgood : ∀ b, ({ d1 with k := r1.k, isOpen := b } : Db).Good t := by
      intro b
      refine ⟨mv3.seekable.trans h.seekable, by rw [mv3.answer]; exact h.answer, by rw [mv3.data]; exact h.small,
        by rw [mv3.data, f3]; exact h.pos, by rw [mv3.data]; exact h.terminated, ?_, ?_⟩
      · unfold Db.entries
        rw [mv3.data]
        exact h.sound
      · rw [mv3.data, f3]
        exact h.start
    have he : ∀ b, ({ d1 with k := r1.k, isOpen := b } : Db).entries t d1.pos = [] := by
      intro b
      unfold Db.entries
      rw [mv3.data, f3]
      exact y
    by_cases hs : d1.stayopen = true
    · rw [if_pos hs]
      have : ({ d1 with k := r1.k } : Db) = { d1 with k := r1.k, isOpen := true } := by rw [f2]
      rw [this]
      exact ⟨hgood true, mv3.data, by rw [he]; rfl, f4, by simp only; rw [← f4, hs]⟩
    · rw [if_neg hs]
      exact ⟨hgood false, mv3.data, he false, f4,
        by rw [← f4, Bool.eq_false_iff.2 hs]; rfl⟩
  · rw [un] at y2
    have hent : d.entries t d.pos = l :: (linesOf r1.unread).filter t.accept := by
      unfold Db.entries
      rw [y2, List.filter_append, y3, List.nil_append, List.filter_cons_of_pos y1]
    obtain ⟨x2, r2, e4, ok2, nx2, mv4⟩ := C46_next ok1
    have mv5 := mv3.trans mv4
    have hne : x2 ≠ .error := by
      rintro rfl
      cases nx2 with
      | error q =>
        obtain ⟨t, _, _, ht⟩ := q
        rw [mv3.answer] at ht
        exact h.answer t ht
    have hlp := next_offset nx2 hne
    have hu1 := unread_eq ok1
    rw [mv3.data] at hu1
    have hsuf : linesOf (d.k.data.drop r1.offset) <:+ linesOf d.k.data := by
      rw [← hu1]
      refine List.IsSuffix.trans ⟨pre ++ [l], ?_⟩ h.start
      rw [y2]
      simp
    have hmem : l ∈ d.entries t 0 := by
      unfold Db.entries
      rw [List.drop_zero, List.mem_filter]
      refine ⟨h.start.subset ?_, y1⟩
      rw [y2]
      simp
    simp only [e4, Option.bind_some, h.sound l hmem, Bool.false_eq_true, if_false, hent, List.head?_cons, Option.map_some,
      List.tail_cons, List.cons_ne_nil]
    have hoff : r1.offset ≤ d.k.data.length := by
      have h1 : r.offset + r.unread.length ≤ d.k.data.length := by
        rw [un, off, f3, List.length_drop]
        omega
      omega
    refine ⟨_, rfl, ?_⟩
    have hgood : ∀ b, ({ d1 with k := r2.k, pos := r2.linePos, isOpen := b } : Db).Good t := by
      intro b
      refine ⟨mv5.seekable.trans h.seekable, by rw [mv5.answer]; exact h.answer, by rw [mv5.data]; exact h.small,
        by rw [mv5.data, hlp]; exact hoff, by rw [mv5.data]; exact h.terminated, ?_, ?_⟩
      · unfold Db.entries
        rw [mv5.data]
        exact h.sound
      · rw [mv5.data, hlp]
        exact hsuf
    have he : ∀ b, ({ d1 with k := r2.k, pos := r2.linePos, isOpen := b } : Db).entries t r2.linePos
        = (linesOf r1.unread).filter t.accept := by
      intro b
      unfold Db.entries
      rw [mv5.data, hlp, ← hu1]
    have hopen : ({ d1 with k := r2.k, pos := r2.linePos } : Db) = { d1 with k := r2.k, pos := r2.linePos, isOpen := true } := by
      rw [f2]
    by_cases hc : (t.closes && !d1.stayopen) = true
    · rw [if_pos hc]
      refine ⟨hgood false, mv5.data, he false, f4, ?_⟩
      rw [← f4]
      revert hc
      cases t.closes <;> cases d1.stayopen <;> simp [Db.finish]
    · rw [if_neg hc, hopen]
      refine ⟨hgood true, mv5.data, he true, f4, ?_⟩
      rw [← f4]
      revert hc
      cases t.closes <;> cases d1.stayopen <;> simp

/-- `n` calls of `get…ent`. -/
def gets (t : Kind) (d : Db) : Nat → Option (List (Option (List (List UInt8))) × Db)
  | 0 => some ([], d)
  | n + 1 => do
    let (e, d) ← d.get t
    let (es, d) ← gets t d n
    some (e :: es, d)

/-- C69, `get…ent`: repeated calls return the entries of the file from the stored position on, in order, each once, and
then null pointers, whatever parts the kernel delivers the file in. -/
theorem C69_get {t : Kind} (n : Nat) {d : Db} (h : d.Good t) :
    ∃ d', gets t d n
      = some (((d.entries t d.pos).take n).map (some ∘ fields) ++ List.replicate (n - (d.entries t d.pos).length) none, d') := by
  induction n generalizing d with
  | zero => exact ⟨d, by simp [gets]⟩
  | succ n ih =>
    obtain ⟨d1, e1, g1, k1, l1, s1, o1⟩ := get_spec h
    obtain ⟨d2, e2⟩ := ih g1
    refine ⟨d2, ?_⟩
    unfold gets
    simp only [e1, e2, Option.bind_eq_bind, Option.bind_some, l1]
    cases d.entries t d.pos with
    | nil => simp [List.replicate_succ]
    | cons a l => simp

theorem set_moved (t : Kind) (d : Db) (s : Bool) :
    Moved d.k (d.set t s).k ∧ (d.set t s).isOpen = true ∧ (d.set t s).stayopen = s := by
  have hl : Moved d.k (d.k.lseek 0 0).2 := by
    unfold Kernel.lseek
    simp only [if_true]
    split
    · exact ⟨rfl, rfl, Nat.le_refl _, rfl⟩
    · exact .refl _
  unfold Db.set
  dsimp only
  split
  · rename_i ho
    unfold Db.ensure
    simp only [ho, Bool.false_eq_true, if_false]
    split <;> exact ⟨⟨rfl, rfl, Nat.le_refl _, rfl⟩, rfl, rfl⟩
  · rename_i ho
    exact ⟨hl, by simpa using ho, rfl⟩

/-- `set…ent` starts at the first entry: always for hosts, otherwise only if the file is open (or was never read). -/
theorem set_spec {t : Kind} {d : Db} (h : d.Good t) (s : Bool) (hr : t.rewinds = true ∨ d.isOpen = true ∨ d.pos = 0) :
    (d.set t s).Good t ∧ (d.set t s).pos = 0 ∧ (d.set t s).k.data = d.k.data ∧ (d.set t s).isOpen = true
      ∧ (d.set t s).stayopen = s := by
  have hgood : ∀ {d' : Db}, Moved d.k d'.k → d'.pos = 0 → d'.Good t := by
    intro d' mv hp
    refine ⟨mv.seekable.trans h.seekable, by rw [mv.answer]; exact h.answer, by rw [mv.data]; exact h.small,
      by rw [hp]; exact Nat.zero_le _, by rw [mv.data]; exact h.terminated, ?_, ?_⟩
    · unfold Db.entries
      rw [mv.data]
      exact h.sound
    · rw [hp, List.drop_zero]
      exact List.suffix_refl _
  obtain ⟨mv, ho, hs⟩ := set_moved t d s
  have hp : (d.set t s).pos = 0 := by
    unfold Db.set
    dsimp only
    split
    · rename_i ho
      split
      · rfl
      · rename_i hw
        unfold Db.ensure
        simp only [ho, Bool.false_eq_true, if_false]
        rcases hr with z | z | z
        · exact absurd z hw
        · rw [ho] at z
          cases z
        · exact z
    · rfl
  exact ⟨hgood mv hp, hp, mv.data, ho, hs⟩

/-- C69: after `set…ent` the whole file is enumerated. Missing: networks, protocols and services when the file is
closed and was read before (`C69_rewind_violation`). -/
theorem C69_enumerate_partial {t : Kind} (n : Nat) {d : Db} (h : d.Good t) (s : Bool)
    (hr : t.rewinds = true ∨ d.isOpen = true ∨ d.pos = 0) :
    ∃ d', gets t (d.set t s) n
      = some (((d.entries t 0).take n).map (some ∘ fields) ++ List.replicate (n - (d.entries t 0).length) none, d') := by
  obtain ⟨g, p, e, _, _⟩ := set_spec h s hr
  obtain ⟨d', e1⟩ := C69_get n g
  refine ⟨d', ?_⟩
  rw [e1, p]
  unfold Db.entries
  rw [e]

theorem search_spec {t : Kind} (want : List (List UInt8) → Bool) (n : Nat) {d : Db} (h : d.Good t)
    (hn : (d.entries t d.pos).length < n) :
    ∃ d', Db.search t want d = some (((d.entries t d.pos).map fields).find? want, d') ∧ d'.Good t ∧ d'.k.data = d.k.data
      ∧ d'.stayopen = d.stayopen := by
  induction n generalizing d with
  | zero => omega
  | succ n ih =>
    obtain ⟨d1, e1, g1, k1, l1, s1, o1⟩ := get_spec h
    unfold Db.search
    simp only [e1, Option.bind_eq_bind, Option.bind_some]
    cases he : d.entries t d.pos with
    | nil => exact ⟨d1, rfl, g1, k1, s1⟩
    | cons a l =>
      rw [he] at l1 hn
      simp only [List.head?_cons, Option.map_some, List.map_cons]
      by_cases hw : want (fields a) = true
      · rw [if_pos hw, List.find?_cons_of_pos hw]
        exact ⟨d1, rfl, g1, k1, s1⟩
      · rw [if_neg hw, List.find?_cons_of_neg hw]
        obtain ⟨d2, e2, g2, k2, s2⟩ := ih g1 (by rw [l1]; simp only [List.length_cons, List.tail_cons] at hn ⊢; omega)
        rw [l1] at e2
        exact ⟨d2, e2, g2, k2.trans k1, s2.trans s1⟩

/-- C69: `getnetbyname`, `getprotobynumber`, `getservbyname`, `getservbyport` and `gethostbyname` (its file part) return
the first entry of the file that satisfies the condition, and leave the database fit for the next search. Missing: as
in `C69_enumerate_partial`. -/
theorem C69_lookup_partial {t : Kind} (want : List (List UInt8) → Bool) {d : Db} (h : d.Good t)
    (hr : t.rewinds = true ∨ d.isOpen = true ∨ d.pos = 0) :
    ∃ d', d.lookup t want = some (((d.entries t 0).map fields).find? want, d') ∧ d'.isOpen = true
      ∧ d'.k.data = d.k.data := by
  obtain ⟨g, p, e, _, s⟩ := set_spec h d.stayopen hr
  obtain ⟨d1, e1, g1, k1, s1⟩ := search_spec want _ g (Nat.lt_succ_self _)
  unfold Db.lookup
  simp only [e1, Option.bind_eq_bind, Option.bind_some]
  obtain ⟨mv, ho, _⟩ := set_moved t d1 d1.stayopen
  exact ⟨_, by rw [p]; unfold Db.entries; rw [e], ho, mv.data.trans (k1.trans e)⟩

theorem fieldsAux_word {w : List UInt8} (h : ∀ b ∈ w, isSpace b = false) (acc : List UInt8) :
    fieldsAux acc w = if acc.reverse ++ w = [] then [] else [acc.reverse ++ w] := by
  induction w generalizing acc with
  | nil => simp [fieldsAux]
  | cons b t ih =>
    rw [fieldsAux, if_neg (by simp [h b (by simp)]), ih (fun x hx => h x (by simp [hx]))]
    simp

theorem fieldsAux_append (a : List UInt8) {s : UInt8} (hs : isSpace s = true) (b : List UInt8) (acc : List UInt8) :
    fieldsAux acc (a ++ s :: b) = fieldsAux acc a ++ fieldsAux [] b := by
  induction a generalizing acc with
  | nil =>
    by_cases h : acc = []
    · simp [fieldsAux, hs, h]
    · simp [fieldsAux, hs, h]
  | cons c t ih =>
    rw [List.cons_append, fieldsAux, fieldsAux]
    split
    · split
      · exact ih []
      · rw [ih [], List.cons_append]
    · exact ih (c :: acc)

theorem isSpace_iff (b : UInt8) : isSpace b = true ↔ (b = 32 ∨ b = 9 ∨ b = 10 ∨ b = 11 ∨ b = 12 ∨ b = 13) := by
  unfold isSpace
  simp only [Bool.or_eq_true, beq_iff_eq, Bool.and_eq_true, decide_eq_true_eq, UInt8.le_iff_toNat_le, ← UInt8.toNat_inj]
  simp
  omega

/-- C69, the fields of an entry: the pieces between space, tab, line feed, vertical tab, form feed and carriage return,
empty ones left out. (The three equations determine the fields of every line.) -/
theorem C69_fields : fields [] = []
    ∧ (∀ w : List UInt8, w ≠ [] → (∀ b ∈ w, ¬ (b = 32 ∨ b = 9 ∨ b = 10 ∨ b = 11 ∨ b = 12 ∨ b = 13)) → fields w = [w])
    ∧ (∀ (a b : List UInt8) (s : UInt8), s = 32 ∨ s = 9 ∨ s = 10 ∨ s = 11 ∨ s = 12 ∨ s = 13 →
        fields (a ++ s :: b) = fields a ++ fields b) := by
  refine ⟨rfl, fun w hw hb => ?_, fun a b s hs => fieldsAux_append a ((isSpace_iff s).2 hs) b []⟩
  unfold fields
  rw [fieldsAux_word (fun b h => by simpa using fun z => hb b h ((isSpace_iff b).1 z))]
  simp [hw]

theorem fieldsAux_nil {w acc : List UInt8} : fieldsAux acc w = [] ↔ acc = [] ∧ ∀ b ∈ w, isSpace b = true := by
  induction w generalizing acc with
  | nil => by_cases h : acc = [] <;> simp [fieldsAux, h]
  | cons b t ih =>
    rw [fieldsAux]
    by_cases hb : isSpace b = true
    · by_cases h : acc = []
      · simp [hb, h, ih]
      · simp [hb, h]
    · simp [hb, ih]

/-- C69, what an entry is: in the files of hosts, networks and protocols every line that does not begin with `#` and is
not blank; in that of services every line with a second field that contains a slash. -/
theorem C69_accept (l : List UInt8) :
    (∀ t, t = hosts ∨ t = networks ∨ t = protocols →
        (t.accept l = true ↔ l.head? ≠ some 35
          ∧ ∃ b ∈ l, ¬ (b = 32 ∨ b = 9 ∨ b = 10 ∨ b = 11 ∨ b = 12 ∨ b = 13)))
    ∧ (services.accept l = true ↔ ∃ name p rest, fields l = name :: p :: rest ∧ 47 ∈ p) := by
  constructor
  · rintro t ht
    have ha : t.accept l = notComment l := by rcases ht with rfl | rfl | rfl <;> rfl
    rw [ha]
    unfold notComment fields
    simp only [Bool.not_eq_true', Bool.or_eq_false_iff, decide_eq_false_iff_not, fieldsAux_nil, isSpace_iff]
    constructor
    · rintro ⟨⟨_, h2⟩, h3⟩
      refine ⟨h3, ?_⟩
      simpa using h2
    · rintro ⟨h1, b, hb, hn⟩
      exact ⟨⟨List.ne_nil_of_mem hb, fun z => hn (z.2 b hb)⟩, h1⟩
  · unfold services
    simp only
    split
    · rename_i name p rest he
      rw [he]
      simp
      grind
    · rename_i hne
      simp only [Bool.false_eq_true, false_iff]
      rintro ⟨a, p, r, e, _⟩
      exact hne _ _ _ e

/-! ## What does not hold -/

/-- C69 fails for networks, protocols and services: `set…ent` after the file was closed does not go back. With files
that do not stay open a second enumeration continues after the first entry of the first one. -/
theorem C69_rewind_violation {d : Db} (h : d.Good protocols) (ho : d.isOpen = false) (hp : d.pos = 0)
    {e1 e2 : List UInt8} {es : List (List UInt8)} (he : d.entries protocols 0 = e1 :: e2 :: es) :
    ∃ d1 d2, (d.set protocols false).get protocols = some (some (fields e1), d1)
      ∧ (d1.set protocols false).get protocols = some (some (fields e2), d2) := by
  obtain ⟨g, p, k, _, s⟩ := set_spec h false (.inr (.inr hp))
  obtain ⟨d1, q1, q2, q3, q4, q5, q6⟩ := get_spec g
  have hent : (d.set protocols false).entries protocols (d.set protocols false).pos = e1 :: e2 :: es := by
    rw [p, ← he]
    unfold Db.entries
    rw [k]
  rw [hent] at q1 q4 q6
  have hopen : d1.isOpen = false := by rw [q6, s]; rfl
  have hset : d1.set protocols false = { d1 with stayopen := false, isOpen := true, k := { d1.k with pos := 0 } } := by
    unfold Db.set
    simp only [hopen, if_true, Db.ensure, Bool.false_eq_true, if_false]
    rw [if_neg (by simp [protocols])]
  have g2 : (d1.set protocols false).Good protocols := by
    rw [hset]
    exact ⟨q2.seekable, q2.answer, q2.small, q2.pos, q2.terminated, q2.sound, q2.start⟩
  obtain ⟨d2, r1, _⟩ := get_spec g2
  have hent2 : (d1.set protocols false).entries protocols (d1.set protocols false).pos = e2 :: es := by
    have : (d1.set protocols false).entries protocols (d1.set protocols false).pos = d1.entries protocols d1.pos := by
      rw [hset]
      rfl
    rw [this, q4]
    rfl
  rw [hent2] at r1
  exact ⟨d1, d2, q1, r1⟩

/-- The file at the stored position consists of one line without newline. -/
structure Db.Stuck (d : Db) (l : List UInt8) : Prop where
  seekable : d.k.seekable = true
  answer : ∀ n, d.k.answer n ≠ .err
  small : d.k.data.length < 2 ^ 63
  rest : d.k.data.drop d.pos = l
  ne : l ≠ []
  newline : 0x0A ∉ l

theorem stuck_start {d : Db} {l : List UInt8} (h : d.Stuck l) :
    ∃ d1 r, d.ensure = d1 ∧ ((RLB.new d1.k).seek d1.pos).2 = r ∧ r.Ok ∧ r.unread = l ∧ r.offset = d.pos ∧ Moved d.k r.k
      ∧ d1.pos = d.pos ∧ d1.stayopen = d.stayopen := by
  obtain ⟨d1, e1, f1, f3, f4⟩ : ∃ d1, d.ensure = d1 ∧ Moved d.k d1.k ∧ d1.pos = d.pos ∧ d1.stayopen = d.stayopen := by
    refine ⟨_, rfl, ?_⟩
    unfold Db.ensure
    split
    · exact ⟨.refl _, rfl, rfl⟩
    · exact ⟨⟨rfl, rfl, Nat.le_refl _, rfl⟩, rfl, rfl⟩
  have hpos : d.pos < 2 ^ 63 := by
    have := h.small
    have hl := congrArg List.length h.rest
    rw [List.length_drop] at hl
    have := List.length_pos_iff.2 h.ne
    omega
  obtain ⟨r, e2, ok, un, off, mv⟩ := C46_seek d1.k (by rw [f1.seekable]; exact h.seekable) d1.pos (by omega)
  exact ⟨d1, r, e1, by rw [e2], ok, by rw [un, f1.data, f3, h.rest], by rw [off, f3], f1.trans mv, f3, f4⟩

theorem stuck_next {r : RLB} {l : List UInt8} (h : r.Ok) (hk : ∀ n, r.k.answer n ≠ .err) (hu : r.unread = l) (hne : l ≠ [])
    (hl : 0x0A ∉ l) :
    ∃ r', r.next = some (.some l, r') ∧ r'.Ok ∧ r'.unread = l ∧ r'.offset = r.offset ∧ r'.linePos = r.offset ∧ Moved r.k r'.k := by
  obtain ⟨x, r', e, ok', nx, mv⟩ := C46_next h
  cases nx with
  | error q1 =>
    obtain ⟨t, _, _, ht⟩ := q1
    exact absurd ht (hk t)
  | line l2 q1 q2 q3 q4 => exact absurd (by rw [← hu, q2]; simp) hl
  | eof q1 q2 q3 q4 => exact absurd (hu.symm.trans q1) hne
  | last q1 q2 q3 q4 q5 =>
    rw [hu] at e q3
    exact ⟨r', e, ok', q3, q5, q4, mv⟩

/-- C69 fails if the last line of the file has no newline: `get…ent` returns that entry again and again. -/
theorem C69_last_violation {t : Kind} (n : Nat) {d : Db} {l : List UInt8} (h : d.Stuck l) (ha : t.accept l = true)
    (hp : t.panics l = false) : ∃ d', gets t d n = some (List.replicate n (some (fields l)), d') := by
  induction n generalizing d with
  | zero => exact ⟨d, rfl⟩
  | succ n ih =>
    obtain ⟨d1, r, e1, e2, ok, un, off, mv, hpos, hstay⟩ := stuck_start h
    obtain ⟨r1, e3, ok1, un1, off1, lp1, mv1⟩ := stuck_next ok (by rw [mv.answer]; exact h.answer) un h.ne h.newline
    have mv2 := mv.trans mv1
    obtain ⟨r2, e4, ok2, un2, off2, lp2, mv3⟩ := stuck_next ok1 (by rw [mv2.answer]; exact h.answer) un1 h.ne h.newline
    have mv4 := mv2.trans mv3
    have hget : ∃ d', d.get t = some (some (fields l), d') ∧ d'.k = r2.k ∧ d'.pos = d.pos := by
      unfold Db.get findEntry
      simp only [e1, e2, e3, Option.bind_eq_bind, Option.bind_some, ha, if_true, e4, hp, Bool.false_eq_true, if_false]
      refine ⟨_, rfl, ?_⟩
      split <;> exact ⟨rfl, by simp only [Db.finish]; rw [lp2, off1, off]⟩
    obtain ⟨d', e5, e6, e7⟩ := hget
    have hs : d'.Stuck l := ⟨by rw [e6, mv4.seekable]; exact h.seekable, by rw [e6, mv4.answer]; exact h.answer,
      by rw [e6, mv4.data]; exact h.small, by rw [e6, mv4.data, e7]; exact h.rest, h.ne, h.newline⟩
    obtain ⟨d2, e8⟩ := ih hs
    refine ⟨d2, ?_⟩
    unfold gets
    simp only [e5, e8, Option.bind_eq_bind, Option.bind_some, List.replicate_succ]

/-- C69 fails, worse, if that line is a comment: `get…ent` does not return. -/
theorem C69_comment_violation {t : Kind} {d : Db} {l : List UInt8} (h : d.Stuck l) (ha : t.accept l = false) :
    d.get t = none := by
  have hdiv : ∀ (r : RLB) (x : Option (List UInt8) × RLB), findEntry t r = some x →
      ¬ (r.Ok ∧ (∀ n, r.k.answer n ≠ .err) ∧ r.unread = l) := by
    apply findEntry.partial_correctness t (motive := fun r _ => ¬ (r.Ok ∧ (∀ n, r.k.answer n ≠ .err) ∧ r.unread = l))
    rintro f ih r x e ⟨ok, hk, un⟩
    obtain ⟨r1, e3, ok1, un1, _, _, mv1⟩ := stuck_next ok hk un h.ne h.newline
    simp only [e3, Option.bind_eq_bind, Option.bind_some, ha, Bool.false_eq_true, if_false] at e
    exact ih r1 x e ⟨ok1, by rw [mv1.answer]; exact hk, un1⟩
  obtain ⟨d1, r, e1, e2, ok, un, off, mv, hpos, hstay⟩ := stuck_start h
  unfold Db.get
  simp only [e1, e2]
  cases hf : findEntry t r with
  | none => rfl
  | some x => exact absurd ⟨ok, by rw [mv.answer]; exact h.answer, un⟩ (hdiv r x hf)

/-- C69 fails for a line with one field only, such as "tcp": `getprotoent` panics. -/
theorem C69_panic_violation {t : Kind} {d : Db} (hs : d.k.seekable = true) (hk : ∀ n, d.k.answer n ≠ .err)
    (hp : d.pos < 2 ^ 63) {l u : List UInt8} (hd : d.k.data.drop d.pos = l ++ 0x0A :: u) (hl : 0x0A ∉ l)
    (ha : t.accept l = true) (hpan : t.panics l = true) : d.get t = none := by
  obtain ⟨d1, e1, f1, f3⟩ : ∃ d1, d.ensure = d1 ∧ Moved d.k d1.k ∧ d1.pos = d.pos := by
    refine ⟨_, rfl, ?_⟩
    unfold Db.ensure
    split
    · exact ⟨.refl _, rfl⟩
    · exact ⟨⟨rfl, rfl, Nat.le_refl _, rfl⟩, rfl⟩
  obtain ⟨r, e2, ok, un, off, mv⟩ := C46_seek d1.k (by rw [f1.seekable]; exact hs) d1.pos (by omega)
  rw [f1.data, f3, hd] at un
  obtain ⟨x, r', e, ok', nx, mv'⟩ := C46_next ok
  have hx : x = .some l := by
    cases nx with
    | error q1 =>
      obtain ⟨t, _, _, ht⟩ := q1
      rw [(f1.trans mv).answer] at ht
      exact absurd ht (hk t)
    | line l2 q1 q2 q3 q4 =>
      rw [un] at q2
      have h1 := takeWhile_line (t := u) hl
      rw [q2, takeWhile_line q1] at h1
      rw [h1]
    | eof q1 => rw [un] at q1; simp at q1
    | last q1 q2 => exact absurd (by rw [un]; simp) q2
  subst hx
  obtain ⟨x2, r2, e4, _⟩ := C46_next ok'
  unfold Db.get findEntry
  simp only [e1, e2, e, Option.bind_eq_bind, Option.bind_some, ha, if_true, e4, hpan]

/-- C69 fails for `getprotobyname` with a file that stays open: if the first entry is not the one looked for, the search
begins again and again with the first entry, and the call does not return. -/
theorem C69_protobyname_violation (want : List (List UInt8) → Bool) {d : Db} (h : d.Good protocols) (hs : d.stayopen = true)
    (hr : d.isOpen = true ∨ d.pos = 0) {e1 : List UInt8} {es : List (List UInt8)}
    (he : d.entries protocols 0 = e1 :: es) (hw : want (fields e1) = false) : d.protoByName want = none := by
  have hdiv : ∀ (c : Db) (x : Option (List (List UInt8)) × Db), Db.protoSearch want c = some x →
      ¬ (c.Good protocols ∧ c.stayopen = true ∧ c.pos = 0 ∧ c.k.data = d.k.data) := by
    apply Db.protoSearch.partial_correctness want
      (motive := fun c _ => ¬ (c.Good protocols ∧ c.stayopen = true ∧ c.pos = 0 ∧ c.k.data = d.k.data))
    rintro f ih c x e ⟨g, s, p, k⟩
    obtain ⟨c1, q1, q2, q3, q4, q5, q6⟩ := get_spec g
    have hent : c.entries protocols c.pos = e1 :: es := by
      rw [p, ← he]
      unfold Db.entries
      rw [k]
    rw [hent] at q1 q6
    simp only [q1, List.head?_cons, Option.map_some, Option.bind_eq_bind, Option.bind_some, hw, Bool.false_eq_true, if_false] at e
    have hopen : c1.isOpen = true := by
      rw [q6, s]
      rfl
    obtain ⟨a1, a2, a3, _, a5⟩ := set_spec q2 c1.stayopen (.inr (.inl hopen))
    exact ih _ x e ⟨a1, a5.trans (q5.trans s), a2, a3.trans (q3.trans k)⟩
  obtain ⟨g, p, k, _, s⟩ := set_spec h d.stayopen (.inr hr)
  unfold Db.protoByName
  cases hf : Db.protoSearch want (d.set protocols d.stayopen) with
  | none => rfl
  | some x => exact absurd ⟨g, s.trans hs, p, k⟩ (hdiv _ x hf)

theorem protoSearch_spec (want : List (List UInt8) → Bool) (n : Nat) {d : Db} (h : d.Good protocols) (hs : d.stayopen = false)
    (hn : (d.entries protocols d.pos).length < n) :
    ∃ d', Db.protoSearch want d = some (((d.entries protocols d.pos).map fields).find? want, d') := by
  induction n generalizing d with
  | zero => omega
  | succ n ih =>
    obtain ⟨d1, e1, g1, k1, l1, s1, o1⟩ := get_spec h
    unfold Db.protoSearch
    simp only [e1, Option.bind_eq_bind, Option.bind_some]
    cases he : d.entries protocols d.pos with
    | nil => exact ⟨d1, rfl⟩
    | cons a l =>
      rw [he] at l1 hn o1
      simp only [List.head?_cons, Option.map_some, List.map_cons]
      by_cases hw : want (fields a) = true
      · rw [if_pos hw, List.find?_cons_of_pos hw]
        exact ⟨d1, rfl⟩
      · rw [if_neg hw, List.find?_cons_of_neg hw]
        have hopen : d1.isOpen = false := by rw [o1, hs]; rfl
        have hset : d1.set protocols d1.stayopen = { d1 with isOpen := true, k := { d1.k with pos := 0 } } := by
          unfold Db.set
          simp only [hopen, if_true, Db.ensure, Bool.false_eq_true, if_false]
          rw [if_neg (by simp [protocols])]
        have g2 : (d1.set protocols d1.stayopen).Good protocols := by
          rw [hset]
          exact ⟨g1.seekable, g1.answer, g1.small, g1.pos, g1.terminated, g1.sound, g1.start⟩
        have l2 : (d1.set protocols d1.stayopen).entries protocols (d1.set protocols d1.stayopen).pos = l := by
          rw [hset]
          exact l1
        obtain ⟨d2, e2⟩ := ih g2 (by rw [hset]; exact s1.trans hs) (by rw [l2]; simp only [List.length_cons] at hn; omega)
        rw [l2] at e2
        exact ⟨d2, e2⟩

/-- C69: `getprotobyname` finds the first entry with the name if the file does not stay open. Missing: a file that stays
open (`C69_protobyname_violation`), and a closed file read before (`C69_rewind_violation`). -/
theorem C69_protobyname_partial (want : List (List UInt8) → Bool) {d : Db} (h : d.Good protocols) (hs : d.stayopen = false)
    (hr : d.isOpen = true ∨ d.pos = 0) :
    ∃ d', d.protoByName want = some (((d.entries protocols 0).map fields).find? want, d') := by
  obtain ⟨g, p, k, _, s⟩ := set_spec h d.stayopen (.inr hr)
  obtain ⟨d1, e1⟩ := protoSearch_spec want _ g (s.trans hs) (Nat.lt_succ_self _)
  unfold Db.protoByName
  simp only [e1, Option.bind_eq_bind, Option.bind_some]
  exact ⟨_, by rw [p]; unfold Db.entries; rw [k]⟩

/-! ## Examples -/

/-- "ip 0 IP\n# c\n\ntcp 6\n" -/
def exampleText : List UInt8 := [105, 112, 32, 48, 32, 73, 80, 10, 35, 32, 99, 10, 10, 116, 99, 112, 32, 54, 10]

def exampleDb (l : List UInt8) : Db := ⟨exampleFile l, false, 0, false⟩

example : (exampleDb exampleText).entries protocols 0 = [[105, 112, 32, 48, 32, 73, 80], [116, 99, 112, 32, 54]] := by
  decide +kernel

example : (exampleDb exampleText).Good protocols := by
  refine ⟨rfl, fun n => nofun, by decide +kernel, by decide +kernel, .inr (by decide +kernel), ?_, List.suffix_refl _⟩
  have : ∀ l ∈ (exampleDb exampleText).entries protocols 0, protocols.panics l = false := by decide +kernel
  exact this

example : fields [105, 112, 32, 48, 9, 32, 73, 80] = [[105, 112], [48], [73, 80]] := by decide +kernel

/-- A service that was commented out, "#ftp 21/tcp", is taken for an entry. -/
example : services.accept [35, 102, 116, 112, 32, 50, 49, 47, 116, 99, 112] = true := by decide +kernel

/-- "tcp" -/
example : protocols.accept [116, 99, 112] = true ∧ protocols.panics [116, 99, 112] = true := by decide +kernel

/-- "ip 0\n# end", a file that makes `getprotoent` hang at the second call. -/
example : ({ exampleDb [105, 112, 32, 48, 10, 35, 32, 101] with pos := 5 } : Db).Stuck [35, 32, 101] :=
  ⟨rfl, fun n => nofun, by decide +kernel, by decide +kernel, by decide, by decide⟩

end Verif.Netdb
