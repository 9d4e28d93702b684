/-!
# Memory

Model of the memory the C string functions work on: a partial map from addresses (natural numbers, in units of one
element) to elements. Reading or writing an unmapped address faults (`none`). A function that never returns is also
`none` (`partial_fixpoint`). So `f … = some r` says that `f` terminates and touches mapped addresses only, and since
the mapped set is arbitrary, that it touches no address which the hypotheses do not say is mapped.
-/

namespace Verif.Mem

/-- Memory: `m a = some b` if address `a` is mapped and holds `b`. -/
abbrev Mem (α : Type) := Nat → Option α

variable {α : Type}

/-- `*p = b`. -/
def store (m : Mem α) (p : Nat) (b : α) : Option (Mem α) :=
  match m p with
  | none => none
  | some _ => some (fun a => if a = p then some b else m a)

/-- The elements `l` are in memory at `p`. -/
def Bytes (m : Mem α) (p : Nat) : List α → Prop
  | [] => True
  | b :: l => m p = some b ∧ Bytes m (p + 1) l

/-- `n` elements at `p` are mapped. -/
def Mapped (m : Mem α) (p n : Nat) : Prop := ∀ i, i < n → (m (p + i)).isSome

/-- `m` with the elements `l` written at `p` and nothing else changed. -/
def patch (m : Mem α) (p : Nat) (l : List α) : Mem α :=
  fun a => if p ≤ a ∧ a < p + l.length then l[a - p]? else m a

/-- A NUL-terminated string `s` is at `p`. -/
def CStr [OfNat α 0] (m : Mem α) (p : Nat) (s : List α) : Prop :=
  Bytes m p s ∧ m (p + s.length) = some 0 ∧ (0 : α) ∉ s

/-- The array at `p`, of which at most `n` elements may be looked at, holds the string `s`: `s` is ended by a NUL or
by the bound. -/
def BStr [OfNat α 0] (m : Mem α) (p n : Nat) (s : List α) : Prop :=
  Bytes m p s ∧ (0 : α) ∉ s ∧ (s.length = n ∨ s.length < n ∧ m (p + s.length) = some 0)

/-- `[p,p+n)` and `[q,q+k)` do not overlap. -/
def Disjoint (p n q k : Nat) : Prop := p + n ≤ q ∨ q + k ≤ p

theorem Bytes.get {m : Mem α} {p : Nat} {l : List α} (h : Bytes m p l) (i : Nat) (hi : i < l.length) :
    m (p + i) = l[i]? := by
  induction l generalizing p i with
  | nil => simp at hi
  | cons b l ih =>
    cases i with
    | zero => simpa using h.1
    | succ i =>
      have := ih h.2 i (by simpa using hi)
      rw [show p + (i + 1) = p + 1 + i by omega, this]
      simp

theorem bytes_iff {m : Mem α} {p : Nat} {l : List α} :
    Bytes m p l ↔ ∀ i, i < l.length → m (p + i) = l[i]? := by
  constructor
  · intro h i hi; exact h.get i hi
  · intro h
    induction l generalizing p with
    | nil => trivial
    | cons b l ih =>
      refine ⟨by simpa using h 0 (by simp), ih ?_⟩
      intro i hi
      have := h (i + 1) (by simpa using hi)
      rw [show p + 1 + i = p + (i + 1) by omega, this]
      simp

theorem bytes_append {m : Mem α} {p : Nat} {l k : List α} :
    Bytes m p (l ++ k) ↔ Bytes m p l ∧ Bytes m (p + l.length) k := by
  induction l generalizing p with
  | nil => simp [Bytes]
  | cons b l ih =>
    simp only [List.cons_append, Bytes, ih, List.length_cons]
    rw [show p + (l.length + 1) = p + 1 + l.length by omega, and_assoc]

theorem Bytes.congr {m m' : Mem α} {p : Nat} {l : List α} (h : Bytes m p l)
    (e : ∀ a, p ≤ a → a < p + l.length → m' a = m a) : Bytes m' p l := by
  rw [bytes_iff] at *
  intro i hi
  rw [e _ (by omega) (by omega), h i hi]

theorem Bytes.mapped {m : Mem α} {p : Nat} {l : List α} (h : Bytes m p l) : Mapped m p l.length := by
  intro i hi
  rw [h.get i hi]
  simp [hi]

theorem Bytes.unique {m : Mem α} {p : Nat} {l l' : List α} (h : Bytes m p l) (h' : Bytes m p l')
    (e : l.length = l'.length) : l = l' := by
  apply List.ext_getElem? 
  intro i
  by_cases hi : i < l.length
  · rw [← h.get i hi, ← h'.get i (by omega)]
  · rw [List.getElem?_eq_none (by omega), List.getElem?_eq_none (by omega)]

/-- Mapped memory holds some elements. -/
theorem Mapped.exists_bytes {m : Mem α} {p n : Nat} (h : Mapped m p n) : ∃ l, l.length = n ∧ Bytes m p l := by
  induction n generalizing p with
  | zero => exact ⟨[], rfl, trivial⟩
  | succ n ih =>
    have h0 := h 0 (by omega)
    obtain ⟨b, hb⟩ := Option.isSome_iff_exists.1 h0
    obtain ⟨l, hl, hl'⟩ := ih (p := p + 1) (fun i hi => by
      have := h (i + 1) (by omega)
      rwa [show p + (i + 1) = p + 1 + i by omega] at this)
    exact ⟨b :: l, by simp [hl], hb, hl'⟩

theorem Mapped.mono {m : Mem α} {p n k : Nat} (h : Mapped m p n) (hk : k ≤ n) : Mapped m p k :=
  fun i hi => h i (by omega)

theorem Mapped.shift {m : Mem α} {p n : Nat} (h : Mapped m p (n + 1)) : Mapped m (p + 1) n := by
  intro i hi
  have := h (i + 1) (by omega)
  rwa [show p + (i + 1) = p + 1 + i by omega] at this

theorem Mapped.head {m : Mem α} {p n : Nat} (h : Mapped m p (n + 1)) : (m p).isSome := by
  simpa using h 0 (by omega)

theorem store_eq {m : Mem α} {p : Nat} (h : (m p).isSome) (b : α) :
    store m p b = some (fun a => if a = p then some b else m a) := by
  unfold store
  cases e : m p with
  | none => simp [e] at h
  | some _ => rfl

theorem store_patch {m : Mem α} {p : Nat} (h : (m p).isSome) (b : α) : store m p b = some (patch m p [b]) := by
  rw [store_eq h]
  congr 1
  funext a
  unfold patch
  by_cases e : a = p
  · subst e; simp
  · have : ¬ (p ≤ a ∧ a < p + [b].length) := by simp only [List.length_singleton]; omega
    rw [if_neg e, if_neg this]

@[simp] theorem patch_nil (m : Mem α) (p : Nat) : patch m p [] = m := by
  funext a
  unfold patch
  rw [if_neg (by simp only [List.length_nil]; omega)]

theorem patch_out {m : Mem α} {p : Nat} {l : List α} {a : Nat} (h : a < p ∨ p + l.length ≤ a) :
    patch m p l a = m a := by
  unfold patch
  rw [if_neg (by omega)]

theorem patch_in {m : Mem α} {p : Nat} {l : List α} {i : Nat} (h : i < l.length) :
    patch m p l (p + i) = l[i]? := by
  unfold patch
  rw [if_pos (by omega)]
  congr 1
  omega

theorem bytes_patch (m : Mem α) (p : Nat) (l : List α) : Bytes (patch m p l) p l :=
  bytes_iff.2 (fun _ hi => patch_in hi)

theorem patch_append (m : Mem α) (p : Nat) (l k : List α) :
    patch (patch m p l) (p + l.length) k = patch m p (l ++ k) := by
  funext a
  unfold patch
  simp only [List.length_append]
  by_cases h1 : p + l.length ≤ a ∧ a < p + l.length + k.length
  · rw [if_pos h1, if_pos (by omega), List.getElem?_append_right (by omega)]
    congr 1
    omega
  · rw [if_neg h1]
    by_cases h2 : p ≤ a ∧ a < p + l.length
    · rw [if_pos h2, if_pos (by omega), List.getElem?_append_left (by omega)]
    · rw [if_neg h2, if_neg (by omega)]

/-- Writing `b` at `p` and then `l` just after it. -/
theorem patch_cons (m : Mem α) (p : Nat) (b : α) (l : List α) :
    patch (patch m p [b]) (p + 1) l = patch m p (b :: l) := patch_append m p [b] l

/-- Writing `l` and then the element just before it. -/
theorem patch_before (m : Mem α) (p : Nat) (b : α) (l : List α) :
    patch (patch m (p + 1) l) p [b] = patch m p (b :: l) := by
  funext a
  unfold patch
  simp only [List.length_nil, List.length_cons, Nat.zero_add]
  by_cases h1 : p ≤ a ∧ a < p + 1
  · have : a = p := by omega
    subst this
    simp
  · rw [if_neg h1]
    by_cases h2 : p + 1 ≤ a ∧ a < p + 1 + l.length
    · rw [if_pos h2, if_pos (by omega)]
      rw [show a - p = a - (p + 1) + 1 by omega, List.getElem?_cons_succ]
    · rw [if_neg h2, if_neg (by omega)]

/-- Writing `k` and then `l` just before it. -/
theorem patch_append' (m : Mem α) (p : Nat) (l k : List α) :
    patch (patch m (p + l.length) k) p l = patch m p (l ++ k) := by
  funext a
  unfold patch
  simp only [List.length_append]
  by_cases h2 : p ≤ a ∧ a < p + l.length
  · rw [if_pos h2, if_pos (by omega), List.getElem?_append_left (by omega)]
  · rw [if_neg h2]
    by_cases h1 : p + l.length ≤ a ∧ a < p + l.length + k.length
    · rw [if_pos h1, if_pos (by omega), List.getElem?_append_right (by omega)]
      congr 1
      omega
    · rw [if_neg h1, if_neg (by omega)]

theorem mapped_patch {m : Mem α} {p : Nat} {l : List α} {q n : Nat} (h : Mapped m q n) :
    Mapped (patch m p l) q n := by
  intro i hi
  have := h i hi
  unfold patch
  split
  · rename_i h
    rw [List.getElem?_eq_getElem (by omega)]
    simp
  · exact this

theorem isSome_patch {m : Mem α} {p : Nat} {l : List α} {q : Nat} (h : (m q).isSome) :
    (patch m p l q).isSome := by
  have : Mapped m q 1 := fun i hi => by
    have : i = 0 := by omega
    subst this; exact h
  simpa using mapped_patch this 0 (by omega)

theorem Bytes.patch_disjoint {m : Mem α} {p q : Nat} {l k : List α} (h : Bytes m q k)
    (d : Disjoint p l.length q k.length) : Bytes (patch m p l) q k := by
  refine h.congr (fun a h1 h2 => patch_out ?_)
  unfold Disjoint at d
  omega

/-- A patch that writes what is there already changes nothing. -/
theorem patch_same {m : Mem α} {p : Nat} {l : List α} (h : Bytes m p l) : patch m p l = m := by
  funext a
  unfold patch
  split
  · rename_i c
    have := h.get (a - p) (by omega)
    rw [← this]
    congr 1
    omega
  · rfl

/-- Read `n` elements at `p` (a slice `slice::from_raw_parts(p, n)` is valid only if all of them are mapped). -/
def readN (m : Mem α) (p : Nat) : Nat → Option (List α)
  | 0 => some []
  | n + 1 => do
    let b ← m p
    let l ← readN m (p + 1) n
    some (b :: l)

theorem Bytes.readN {m : Mem α} {p : Nat} {l : List α} (h : Bytes m p l) : readN m p l.length = some l := by
  induction l generalizing p with
  | nil => rfl
  | cons b l ih => simp [Mem.readN, h.1, ih h.2]

section
variable [OfNat α 0]

theorem CStr.tail {m : Mem α} {p : Nat} {b : α} {s : List α} (h : CStr m p (b :: s)) : CStr m (p + 1) s := by
  obtain ⟨h1, h2, h3⟩ := h
  refine ⟨h1.2, ?_, fun h => h3 (List.mem_cons_of_mem _ h)⟩
  rw [← h2]
  congr 1
  simp only [List.length_cons]
  omega

theorem CStr.head {m : Mem α} {p : Nat} {b : α} {s : List α} (h : CStr m p (b :: s)) : m p = some b ∧ b ≠ 0 := by
  refine ⟨h.1.1, ?_⟩
  rintro rfl
  exact h.2.2 (List.mem_cons_self ..)

theorem CStr.nul {m : Mem α} {p : Nat} (h : CStr m p []) : m p = some 0 := h.2.1

/-- Bytes including the terminator. -/
theorem CStr.bytes0 {m : Mem α} {p : Nat} {s : List α} (h : CStr m p s) : Bytes m p (s ++ [0]) :=
  bytes_append.2 ⟨h.1, h.2.1, trivial⟩

theorem cstr_iff {m : Mem α} {p : Nat} {s : List α} :
    CStr m p s ↔ Bytes m p (s ++ [0]) ∧ (0 : α) ∉ s := by
  constructor
  · intro h; exact ⟨h.bytes0, h.2.2⟩
  · intro ⟨h, h0⟩
    obtain ⟨h1, h2, -⟩ := bytes_append.1 h
    exact ⟨h1, h2, h0⟩

/-- There is at most one string at an address. -/
theorem CStr.unique {m : Mem α} {p : Nat} {s t : List α} (h : CStr m p s) (h' : CStr m p t) : s = t := by
  induction s generalizing p t with
  | nil =>
    cases t with
    | nil => rfl
    | cons b t => have := h'.head; rw [h.nul] at this; simp at this; exact absurd this.1.symm this.2
  | cons a s ih =>
    cases t with
    | nil => have := h.head; rw [h'.nul] at this; simp at this; exact absurd this.1.symm this.2
    | cons b t =>
      have h1 := h.head.1
      rw [h'.head.1] at h1
      simp only [Option.some.injEq] at h1
      rw [ih h.tail h'.tail, h1]

/-- The string starting inside a string. -/
theorem CStr.drop {m : Mem α} {p : Nat} {s t : List α} (h : CStr m p (s ++ t)) : CStr m (p + s.length) t := by
  induction s generalizing p with
  | nil => exact h
  | cons b s ih =>
    have := ih h.tail
    rwa [show p + (b :: s).length = p + 1 + s.length by simp only [List.length_cons]; omega]

theorem CStr.congr {m m' : Mem α} {p : Nat} {s : List α} (h : CStr m p s)
    (e : ∀ a, p ≤ a → a ≤ p + s.length → m' a = m a) : CStr m' p s := by
  obtain ⟨h1, h2, h3⟩ := h
  exact ⟨h1.congr (fun a x y => e a x (by omega)), by rw [e _ (by omega) (by omega), h2], h3⟩

theorem CStr.bstr {m : Mem α} {p : Nat} {s : List α} (h : CStr m p s) (n : Nat) : BStr m p n (s.take n) := by
  obtain ⟨h1, h2, h3⟩ := h
  refine ⟨?_, fun h => h3 (List.mem_of_mem_take h), ?_⟩
  · rw [← List.take_append_drop n s] at h1
    exact (bytes_append.1 h1).1
  · by_cases hn : n ≤ s.length
    · left; simp; omega
    · right
      rw [List.take_of_length_le (by omega)]
      exact ⟨by omega, h2⟩

theorem BStr.tail {m : Mem α} {p n : Nat} {b : α} {s : List α} (h : BStr m p (n + 1) (b :: s)) :
    BStr m (p + 1) n s := by
  obtain ⟨h1, h2, h3⟩ := h
  refine ⟨h1.2, fun h => h2 (List.mem_cons_of_mem _ h), ?_⟩
  rcases h3 with h3 | ⟨h3, h4⟩
  · left; simpa using h3
  · right
    refine ⟨by simpa using h3, ?_⟩
    rw [← h4]
    congr 1
    simp only [List.length_cons]
    omega

theorem BStr.head {m : Mem α} {p n : Nat} {b : α} {s : List α} (h : BStr m p n (b :: s)) :
    m p = some b ∧ b ≠ 0 := by
  refine ⟨h.1.1, ?_⟩
  rintro rfl
  exact h.2.1 (List.mem_cons_self ..)

theorem BStr.nul {m : Mem α} {p n : Nat} (h : BStr m p (n + 1) []) : m p = some 0 := by
  rcases h.2.2 with h | h
  · simp at h
  · exact h.2

theorem BStr.zero {m : Mem α} {p : Nat} {s : List α} (h : BStr m p 0 s) : s = [] := by
  rcases h.2.2 with h | h
  · exact List.length_eq_zero_iff.1 h
  · omega

theorem BStr.le {m : Mem α} {p n : Nat} {s : List α} (h : BStr m p n s) : s.length ≤ n := by
  rcases h.2.2 with h | h <;> omega

end

/-- A statement about all bytes can be decided on the table of all 256 of them. -/
theorem byte_table {P : UInt8 → Prop} (h : ∀ i : Fin 256, P (UInt8.ofFin i)) (x : UInt8) : P x := h x.toFin

/-- Memory holding exactly the list `l`, from address `p` on. -/
def ofList (p : Nat) (l : List α) : Mem α := fun a => if p ≤ a then l[a - p]? else none

theorem bytes_ofList (p : Nat) (l : List α) : Bytes (ofList p l) p l := by
  rw [bytes_iff]
  intro i _
  simp [ofList]

end Verif.Mem
