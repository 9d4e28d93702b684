import Verif.Exec.StartModel
import Verif.Str.StrLemmas

/-!
# C105: what a program is started with
-/

namespace Verif.Exec

open Verif.Mem Verif.Str

/-! ## Specification -/

/-- The pointers point to the strings, and none is null. -/
def Strs (m : Mem UInt8) : List Nat → List (List UInt8) → Prop
  | [], [] => True
  | p :: ps, s :: l => (p ≠ 0 ∧ CStr m p s) ∧ Strs m ps l
  | _, _ => False

/-- A vector like `argv`: pointers to the strings, then a null pointer. -/
def IsVector (m : Mem UInt8) (v : List Nat) (l : List (List UInt8)) : Prop := ∃ ps, v = ps ++ [0] ∧ Strs m ps l

/-- Strings one after the other, each with its NUL. -/
def addrsFrom (a : Nat) : List (List UInt8) → List Nat
  | [] => []
  | s :: l => a :: addrsFrom (a + (s.length + 1)) l

/-- The size of strings with their NULs. -/
def bytesOf (l : List (List UInt8)) : Nat := (l.map fun s => s.length + 1).sum

/-- The program has from the one before: working directory, signal masks, file mode creation mask, and the descriptors of the
thread, the process and the namespace. -/
def Inherits (s : Started) (x : ExtraInfo) : Prop :=
  s.cwd = (match x.cwd, x.cwdFd with | some d, some fd => some (d, fd) | _, _ => none)
  ∧ s.sigignmask = x.sigignmask ∧ s.sigprocmask = x.sigprocmask ∧ s.umask = some x.umask
  ∧ s.thrFd = x.thrFd ∧ s.procFd = x.procFd ∧ s.nsFd = x.nsFd

/-- The memory given by the allocator was not in use. -/
def FreshAt (m : Mem UInt8) (p n : Nat) : Prop := 0 < p ∧ ∀ a, p ≤ a → a < p + n → m a = none

/-! ## Lists of pointers -/

theorem Strs.congr {m m' : Mem UInt8} {ps : List Nat} {l : List (List UInt8)} (h : Strs m ps l)
    (e : ∀ a, (m a).isSome → m' a = m a) : Strs m' ps l := by
  induction ps generalizing l with
  | nil => cases l with
    | nil => trivial
    | cons _ _ => exact h.elim
  | cons p ps ih => cases l with
    | nil => exact h.elim
    | cons s l =>
      refine ⟨⟨h.1.1, ?_⟩, ih h.2⟩
      have hc := h.1.2
      rw [cstr_iff] at *
      refine ⟨?_, hc.2⟩
      refine hc.1.congr fun a h1 h2 => e a ?_
      have := hc.1.mapped (a - p) (by omega)
      rwa [show p + (a - p) = a by omega] at this

theorem Strs.append {m : Mem UInt8} {ps qs : List Nat} {l k : List (List UInt8)} (h : Strs m ps l) (h' : Strs m qs k) :
    Strs m (ps ++ qs) (l ++ k) := by
  induction ps generalizing l with
  | nil => cases l with
    | nil => exact h'
    | cons _ _ => exact h.elim
  | cons p ps ih => cases l with
    | nil => exact h.elim
    | cons s l => exact ⟨h.1, ih h.2⟩

theorem Strs.reverse {m : Mem UInt8} {ps : List Nat} {l : List (List UInt8)} (h : Strs m ps l) : Strs m ps.reverse l.reverse := by
  induction ps generalizing l with
  | nil => cases l with
    | nil => trivial
    | cons _ _ => exact h.elim
  | cons p ps ih => cases l with
    | nil => exact h.elim
    | cons s l =>
      simp only [List.reverse_cons]
      exact (ih h.2).append ⟨h.1, trivial⟩

theorem Strs.length {m : Mem UInt8} {ps : List Nat} {l : List (List UInt8)} (h : Strs m ps l) : ps.length = l.length := by
  induction ps generalizing l with
  | nil => cases l with
    | nil => rfl
    | cons _ _ => exact h.elim
  | cons p ps ih => cases l with
    | nil => exact h.elim
    | cons s l => simp [ih h.2]

theorem Strs.nonzero {m : Mem UInt8} {ps : List Nat} {l : List (List UInt8)} (h : Strs m ps l) : ∀ p ∈ ps, p ≠ 0 := by
  induction ps generalizing l with
  | nil => simp
  | cons p ps ih => cases l with
    | nil => exact h.elim
    | cons s l =>
      intro q hq
      cases List.mem_cons.1 hq with
      | inl e => exact e ▸ h.1.1
      | inr hq => exact ih h.2 q hq

/-! ## The stack is built -/

/-- The words of pairs. -/
def auxWords (l : List (Nat × Nat)) : List Nat := l.flatMap fun kv => [kv.1, kv.2]

theorem auxWords_length (l : List (Nat × Nat)) : (auxWords l).length = 2 * l.length := by
  induction l with
  | nil => rfl
  | cons kv l ih => simp only [auxWords, List.flatMap_cons, List.length_append] at *; simp [ih]; omega

theorem auxWords_append (l k : List (Nat × Nat)) : auxWords (l ++ k) = auxWords l ++ auxWords k := by
  simp [auxWords]

theorem push_ok {w : Nat} {b : Build} (h : b.words.length < stackWords) : push w b = some { b with words := w :: b.words } := by
  simp [push, h]

theorem pushAux_fold (l : List (Nat × Nat)) : ∀ b : Build, b.words.length + 2 * l.length ≤ stackWords →
    l.foldlM pushAux b = some { b with words := auxWords l.reverse ++ b.words } := by
  induction l with
  | nil => intro b _; rfl
  | cons kv l ih =>
    intro b h
    simp only [List.length_cons] at h
    have e : pushAux b kv = some { b with words := kv.1 :: kv.2 :: b.words } := by
      simp only [pushAux, Option.bind_eq_bind]
      rw [push_ok (by omega), Option.bind_some, push_ok (by simp only [List.length_cons]; omega)]
    rw [List.foldlM_cons, e]
    simp only [Option.bind_eq_bind, Option.bind_some]
    rw [ih _ (by simp only [List.length_cons]; omega)]
    simp [auxWords_append, auxWords]

/-- The area of the strings is zero from an offset on. -/
def Blank (m : Mem UInt8) (base off size : Nat) : Prop := ∀ a, base + off ≤ a → a < base + size → m a = some 0

theorem append_cstr {base size : Nat} {s : List UInt8} {b : Build} (h0 : (0 : UInt8) ∉ s) (hb : Blank b.mem base b.offset size)
    (hs : b.offset + (s.length + 1) ≤ size) :
    CStr (append base s b).2.mem (base + b.offset) s ∧ Blank (append base s b).2.mem base (b.offset + (s.length + 1)) size
      ∧ (∀ a, a < base + b.offset → (append base s b).2.mem a = b.mem a)
      ∧ (∀ a, (b.mem a).isSome ↔ ((append base s b).2.mem a).isSome) := by
  have e : (append base s b).2.mem = patch b.mem (base + b.offset) s := by
    simp only [append]
    cases s with
    | nil => simp
    | cons c s => simp
  rw [e]
  refine ⟨⟨bytes_patch _ _ _, ?_, h0⟩, ?_, ?_, ?_⟩
  · rw [patch_out (by omega)]; exact hb _ (by omega) (by omega)
  · intro a h1 h2
    rw [patch_out (by omega)]; exact hb _ (by omega) (by omega)
  · intro a h
    exact patch_out (by omega)
  · intro a
    constructor
    · exact isSome_patch
    · intro h
      by_cases ha : base + b.offset ≤ a ∧ a < base + b.offset + s.length
      · rw [hb a (by omega) (by omega)]; rfl
      · rwa [patch_out (by omega)] at h

/-- What a sequence of `append` and `push` does. -/
theorem pushString_fold {base size : Nat} (hbase : 0 < base) (l : List (List UInt8)) : ∀ b : Build,
    (∀ s ∈ l, (0 : UInt8) ∉ s) → Blank b.mem base b.offset size → b.offset + bytesOf l ≤ size →
    b.words.length + l.length ≤ stackWords →
    ∃ ps m', l.foldlM (pushString base) b = some ⟨ps.reverse ++ b.words, m', b.offset + bytesOf l⟩
      ∧ (∀ m'' : Mem UInt8, (∀ a, a < base + (b.offset + bytesOf l) → m'' a = m' a) → Strs m'' ps l)
      ∧ Blank m' base (b.offset + bytesOf l) size ∧ (∀ a, a < base + b.offset → m' a = b.mem a)
      ∧ (∀ a, (b.mem a).isSome ↔ (m' a).isSome) := by
  induction l with
  | nil =>
    intro b _ hb _ _
    exact ⟨[], b.mem, rfl, fun _ _ => trivial, by simpa [bytesOf] using hb, fun _ _ => rfl, fun _ => Iff.rfl⟩
  | cons s l ih =>
    intro b h0 hb hs hw
    have hsz : bytesOf (s :: l) = (s.length + 1) + bytesOf l := by simp [bytesOf]
    simp only [List.length_cons] at hw
    obtain ⟨a1, a2, a3, a4⟩ := append_cstr (base := base) (size := size) (b := b) (h0 s (by simp)) hb (by omega)
    have e : pushString base b s = some ⟨(base + b.offset) :: b.words, (append base s b).2.mem, b.offset + (s.length + 1)⟩ := by
      simp only [pushString]
      rw [push_ok (by simp only [append]; omega)]
      simp [append]
    obtain ⟨ps, m', i1, i2, i3, i4, i5⟩ := ih ⟨(base + b.offset) :: b.words, (append base s b).2.mem, b.offset + (s.length + 1)⟩
      (fun t ht => h0 t (by simp [ht])) a2 (by simp only; omega) (by simp only [List.length_cons]; omega)
    refine ⟨(base + b.offset) :: ps, m', ?_, fun m'' hm => ⟨⟨by omega, ?_⟩, i2 m'' ?_⟩, ?_, ?_, ?_⟩
    · rw [List.foldlM_cons, e]
      simp only [Option.bind_eq_bind, Option.bind_some]
      rw [i1]
      simp [hsz, Nat.add_assoc]
    · refine a1.congr fun a _ h2 => ?_
      rw [hm a (by omega), i4 a (by simp only; omega)]
    · intro a ha
      refine hm a ?_
      simp only at ha; omega
    · rw [hsz]; simpa [Nat.add_assoc] using i3
    · intro a ha
      rw [i4 a (by simp only; omega), a3 a ha]
    · intro a
      exact (a4 a).trans (i5 a)

/-! ## The auxiliary vector -/

theorem auxvIter_eq (l : List (Nat × Nat)) (h : ∀ kv ∈ l, kv.1 ≠ 0) (v : Nat) : auxvIter (auxWords l ++ [0, v]) = some l := by
  induction l with
  | nil => rfl
  | cons kv l ih =>
    have h0 := h kv (by simp)
    have := ih fun k hk => h k (by simp [hk])
    simp only [auxWords, List.flatMap_cons] at *
    simp [auxvIter, AT_NULL, h0, this]

theorem find_key {l : List (Nat × Nat)} (hd : (l.map (·.1)).Nodup) {k v : Nat} (h : (k, v) ∈ l) :
    (l.find? fun kv => kv.1 == k).map (·.2) = some v := by
  induction l with
  | nil => simp at h
  | cons x l ih =>
    simp only [List.map_cons, List.nodup_cons] at hd
    rw [List.find?_cons]
    cases List.mem_cons.1 h with
    | inl e => subst e; simp
    | inr h' =>
      have : x.1 ≠ k := by
        intro e
        exact hd.1 (e ▸ List.mem_map.2 ⟨_, h', rfl⟩)
      have hf : (x.1 == k) = false := by simp [this]
      rw [hf]
      exact ih hd.2 h'

/-- Strictly increasing keys. -/
def Sorted (l : List (Nat × Nat)) : Prop := l.Pairwise fun a b => a.1 < b.1

theorem mem_insertKey {kv x : Nat × Nat} {l : List (Nat × Nat)} : x ∈ insertKey kv l ↔ x = kv ∨ x ∈ l := by
  induction l with
  | nil => simp [insertKey]
  | cons y l ih =>
    rw [insertKey]
    split
    · simp
    · simp only [List.mem_cons, ih]
      constructor
      · rintro (h | h | h) <;> simp [h]
      · rintro (h | h | h) <;> simp [h]

theorem mem_sortByKey {x : Nat × Nat} {l : List (Nat × Nat)} : x ∈ sortByKey l ↔ x ∈ l := by
  induction l with
  | nil => simp [sortByKey]
  | cons y l ih =>
    have : sortByKey (y :: l) = insertKey y (sortByKey l) := rfl
    rw [this, mem_insertKey, ih]; simp

theorem insertKey_sorted {kv : Nat × Nat} {l : List (Nat × Nat)} (h : Sorted l) (hk : ∀ x ∈ l, x.1 ≠ kv.1) : Sorted (insertKey kv l) := by
  induction l with
  | nil => simp [insertKey, Sorted]
  | cons y l ih =>
    rw [insertKey]
    have h' := List.pairwise_cons.1 h
    have hy := hk y (by simp)
    split
    · rename_i hle
      refine List.pairwise_cons.2 ⟨?_, h⟩
      intro z hz
      cases List.mem_cons.1 hz with
      | inl e => subst e; omega
      | inr hz => have := h'.1 z hz; omega
    · refine List.pairwise_cons.2 ⟨?_, ih h'.2 fun x hx => hk x (by simp [hx])⟩
      intro z hz
      cases mem_insertKey.1 hz with
      | inl e => subst e; omega
      | inr hz => exact h'.1 z hz

theorem sortByKey_sorted {l : List (Nat × Nat)} (hd : (l.map (·.1)).Nodup) : Sorted (sortByKey l) := by
  induction l with
  | nil => exact List.Pairwise.nil
  | cons y l ih =>
    simp only [List.map_cons, List.nodup_cons] at hd
    have : sortByKey (y :: l) = insertKey y (sortByKey l) := rfl
    rw [this]
    refine insertKey_sorted (ih hd.2) fun x hx e => hd.1 ?_
    exact List.mem_map.2 ⟨x, mem_sortByKey.1 hx, e⟩

theorem sorted_get {l : List (Nat × Nat)} (h : Sorted l) {i j : Nat} (hij : i < j) (hj : j < l.length) : (l[i]'(by omega)).1 < l[j].1 :=
  List.pairwise_iff_getElem.1 h i j (by omega) hj hij

theorem searchLoop_eq {l : List (Nat × Nat)} (h : Sorted l) {i : Nat} (hi : i < l.length) : ∀ size base, base ≤ i → i < base + size →
    base + size ≤ l.length → searchLoop l l[i].1 base size = some i := by
  intro size
  induction size using Nat.strongRecOn with
  | _ size ih =>
    intro base h1 h2 h3
    rw [searchLoop]
    split
    · rename_i hs
      have hm : base + size / 2 < l.length := by omega
      dsimp only
      rw [List.getElem?_eq_getElem hm]
      dsimp only
      split
      · rename_i hlt
        refine ih _ (by omega) _ h1 ?_ (by omega)
        rcases Nat.lt_or_ge i (base + size / 2) with hh | hh
        · omega
        · exfalso
          rcases Nat.lt_or_eq_of_le hh with hh | hh
          · have := sorted_get h hh hi; omega
          · subst hh; omega
      · rename_i hlt
        have hle : base + size / 2 ≤ i := by
          rcases Nat.lt_or_ge i (base + size / 2) with hh | hh
          · have := sorted_get h hh hm; omega
          · exact hh
        exact ih _ (by omega) _ hle (by omega) (by omega)
    · congr 1; omega

theorem getAuxv_some {l : List (Nat × Nat)} (h : Sorted l) {k v : Nat} (hm : (k, v) ∈ l) : getAuxv l k = some v := by
  obtain ⟨i, hi, he⟩ := List.getElem_of_mem hm
  have := searchLoop_eq h hi l.length 0 (by omega) (by omega) (by omega)
  rw [he] at this
  simp only [getAuxv]
  rw [if_neg (by omega)]
  simp only at this
  rw [this]
  simp only [List.getElem?_eq_getElem hi, he, if_true]

theorem getAuxv_mem {l : List (Nat × Nat)} {k v : Nat} (h : getAuxv l k = some v) : (k, v) ∈ l := by
  simp only [getAuxv] at h
  split at h
  · cases h
  · split at h
    · cases h
    · split at h
      · cases h
      · rename_i kv hk
        split at h
        · rename_i e
          cases h
          have := List.mem_of_getElem? hk
          rwa [show kv = (k, kv.2) by rw [← e]] at this
        · cases h

theorem getAuxv_none {l : List (Nat × Nat)} {k : Nat} (h : ∀ kv ∈ l, kv.1 ≠ k) : getAuxv l k = none := by
  cases e : getAuxv l k with
  | none => rfl
  | some v => exact absurd rfl (h _ (getAuxv_mem e))

/-! ## The copies -/

theorem copyBytes_eq {m : Mem UInt8} {src dst : Nat} {s : List UInt8} (h : CStr m src s) (hd : Mapped m dst (s.length + 1)) :
    copyBytes m src dst (s.length + 1) = some (patch m dst (s ++ [0])) := by
  have h1 := h.bytes0.readN
  rw [List.length_append, List.length_singleton] at h1
  obtain ⟨l, hl, hl'⟩ := hd.exists_bytes
  have h2 := hl'.readN
  rw [hl] at h2
  simp only [copyBytes, h1, h2, Option.bind_eq_bind, Option.bind_some]

theorem copyLoop_eq {m0 : Mem UInt8} {buf size : Nat} (hb : 0 < buf) (hf : ∀ a, buf ≤ a → a < buf + size → m0 a = none)
    (ps : List Nat) : ∀ (l : List (List UInt8)) (m : Mem UInt8) (off : Nat), Strs m0 ps l →
    (∀ a, (m0 a).isSome → m a = m0 a) → (∀ a, buf ≤ a → a < buf + size → (m a).isSome) → off + bytesOf l ≤ size →
    ∃ m', copyLoop m buf (ps.zip (l.map fun s => s.length + 1)) off = some (addrsFrom (buf + off) l ++ [0], m')
      ∧ Strs m' (addrsFrom (buf + off) l) l ∧ (∀ a, (m0 a).isSome → m' a = m0 a) ∧ (∀ a, a < buf + off → m' a = m a)
      ∧ (∀ a, (m' a).isSome ↔ (m a).isSome) := by
  induction ps with
  | nil =>
    intro l m off hs he _ _
    cases l with
    | nil => exact ⟨m, rfl, trivial, he, fun _ _ => rfl, fun _ => Iff.rfl⟩
    | cons _ _ => exact hs.elim
  | cons p ps ih =>
    intro l m off hs he hm hsz
    cases l with
    | nil => exact hs.elim
    | cons s l =>
      have hlen : bytesOf (s :: l) = (s.length + 1) + bytesOf l := by simp [bytesOf]
      have hc : CStr m p s := by
        have : Strs m [p] [s] := Strs.congr (m := m0) (ps := [p]) (l := [s]) ⟨hs.1, trivial⟩ he
        exact this.1.2
      have hmap : Mapped m (buf + off) (s.length + 1) := fun i hi => hm _ (by omega) (by omega)
      have hcopy := copyBytes_eq hc hmap
      have hout : ∀ a, a < buf + off ∨ buf + off + (s.length + 1) ≤ a → patch m (buf + off) (s ++ [0]) a = m a := by
        intro a ha
        exact patch_out (by simp only [List.length_append, List.length_singleton]; omega)
      have hiff : ∀ a, (patch m (buf + off) (s ++ [0]) a).isSome ↔ (m a).isSome := by
        intro a
        by_cases ha : buf + off ≤ a ∧ a < buf + off + (s.length + 1)
        · have h1 := hm a (by omega) (by omega)
          exact ⟨fun _ => h1, fun _ => isSome_patch h1⟩
        · rw [hout a (by omega)]
      obtain ⟨m', i1, i2, i3, i4, i5⟩ := ih l (patch m (buf + off) (s ++ [0])) (off + (s.length + 1)) hs.2
        (by
          intro a ha
          have : ¬ (buf ≤ a ∧ a < buf + size) := by
            intro hh
            rw [hf a hh.1 hh.2] at ha; simp at ha
          rw [hout a (by omega)]; exact he a ha)
        (fun a h1 h2 => (hiff a).2 (hm a h1 h2))
        (by omega)
      refine ⟨m', ?_, ⟨⟨by omega, ?_⟩, ?_⟩, i3, ?_, fun a => (i5 a).trans (hiff a)⟩
      · simp only [List.map_cons, List.zip_cons_cons, copyLoop]
        rw [hcopy]
        simp only [Option.bind_eq_bind, Option.bind_some]
        rw [i1]
        simp only [Option.bind_some, addrsFrom, List.cons_append]
        rw [Nat.add_assoc buf off]
      · have h1 : CStr (patch m (buf + off) (s ++ [0])) (buf + off) s := by
          rw [cstr_iff]
          exact ⟨bytes_patch _ _ _, hc.2.2⟩
        refine h1.congr fun a h2 h3 => i4 a ?_
        omega
      · rw [Nat.add_assoc buf off]; exact i2
      · intro a ha
        rw [i4 a (by omega), hout a (by omega)]

theorem lengthsOf_eq {m : Mem UInt8} (ps : List Nat) : ∀ l, Strs m ps l → lengthsOf m ps = some (l.map fun s => s.length + 1) := by
  induction ps with
  | nil =>
    intro l h
    cases l with
    | nil => rfl
    | cons _ _ => exact h.elim
  | cons p ps ih =>
    intro l h
    cases l with
    | nil => exact h.elim
    | cons s l =>
      have := ih l h.2
      simp only [lengthsOf] at *
      rw [List.mapM_cons, strlen_eq h.1.2]
      simp [this]

/-- `copy_string_array` copies the strings and leaves everything else as it was. -/
theorem copyStringArray_eq {m : Mem UInt8} {ps : List Nat} {l : List (List UInt8)} (h : Strs m ps l) (alloc : Nat → Nat)
    (junk : Nat → UInt8) (hf : FreshAt m (alloc (bytesOf l)) (bytesOf l)) :
    ∃ m', copyStringArray m ps alloc junk = some (addrsFrom (alloc (bytesOf l)) l ++ [0], m')
      ∧ Strs m' (addrsFrom (alloc (bytesOf l)) l) l ∧ (∀ a, (m a).isSome → m' a = m a)
      ∧ (∀ a, (m' a).isSome → (m a).isSome ∨ (alloc (bytesOf l) ≤ a ∧ a < alloc (bytesOf l) + bytesOf l)) := by
  obtain ⟨m', i1, i2, i3, _, i5⟩ := copyLoop_eq (m0 := m) hf.1 hf.2 ps l (allocAt m (alloc (bytesOf l)) (bytesOf l) junk) 0 h
    (by
      intro a ha
      simp only [allocAt]
      rw [if_neg]
      intro hh
      rw [hf.2 a hh.1 hh.2] at ha; simp at ha)
    (by
      intro a h1 h2
      simp only [allocAt]
      rw [if_pos ⟨h1, h2⟩]; rfl)
    (by omega)
  refine ⟨m', ?_, i2, i3, ?_⟩
  · simp only [copyStringArray]
    rw [lengthsOf_eq ps l h]
    simp only [Option.bind_eq_bind, Option.bind_some]
    exact i1
  · intro a ha
    have := (i5 a).1 ha
    simp only [allocAt] at this
    split at this
    · exact Or.inr ‹_›
    · exact Or.inl this

theorem countNonNull_eq (l : List Nat) (h : ∀ p ∈ l, p ≠ 0) (k : List Nat) : countNonNull (l ++ 0 :: k) = some l.length := by
  induction l with
  | nil => simp [countNonNull]
  | cons p l ih =>
    simp [countNonNull, h p (by simp), ih fun q hq => h q (by simp [hq])]

/-! ## Together -/

/-- The pairs about the working directory. -/
def cwdAux (base : Nat) : Option (List UInt8) → List (Nat × Nat)
  | none => []
  | some s => [(AT_CWD_PTR, base), (AT_CWD_LEN, s.length)]

/-- The size of the working directory with its NUL. -/
def cwdSize : Option (List UInt8) → Nat
  | none => 0
  | some s => s.length + 1

/-- All pairs, in the order in which they are read. -/
def allAux (base : Nat) (img : Image) (x : ExtraInfo) : List (Nat × Nat) := (img.aux ++ cwdAux base x.cwd ++ x.aux).reverse

theorem allAux_keys (base : Nat) (img : Image) (x : ExtraInfo) :
    ((allAux base img x).map (·.1)).Nodup ∧ (∀ kv ∈ allAux base img x, kv.1 ≠ 0) ∧ (allAux base img x).length ≤ 15 := by
  simp only [allAux, Image.aux, ExtraInfo.aux]
  cases img.interp <;> cases x.cwd <;> simp [cwdAux, AT_ENTRY, AT_BASE, AT_PHDR, AT_PHNUM, AT_PHENT, AT_CWD_PTR, AT_CWD_LEN, AT_SIGIGNMASK,
    AT_SIGPROCMASK, AT_UMASK, AT_THR_FD, AT_PROC_FD, AT_NS_FD, AT_CWD_FD, AT_FILETABLE_FD]

theorem pushCwd_eq {base size : Nat} (hbase : 0 < base) (cwd : Option (List UInt8)) (b : Build) (h0 : ∀ s ∈ cwd, (0 : UInt8) ∉ s)
    (hoff : b.offset = 0) (hb : Blank b.mem base 0 size) (hs : cwdSize cwd ≤ size)
    (hw : b.words.length + 4 ≤ stackWords) :
    ∃ m', pushCwd base cwd b = some ⟨auxWords (cwdAux base cwd).reverse ++ b.words, m', cwdSize cwd⟩
      ∧ Blank m' base (cwdSize cwd) size ∧ (∀ s ∈ cwd, CStr m' base s)
      ∧ (∀ a, (b.mem a).isSome ↔ (m' a).isSome) := by
  cases cwd with
  | none =>
    refine ⟨b.mem, ?_, hb, by simp, fun _ => Iff.rfl⟩
    cases b; simp only at hoff; subst hoff; rfl
  | some s =>
    have hb' : Blank b.mem base b.offset size := by rw [hoff]; exact hb
    obtain ⟨a1, a2, _, a4⟩ := append_cstr (b := b) (h0 s rfl) hb' (by rw [hoff]; simpa [cwdSize] using hs)
    refine ⟨(append base s b).2.mem, ?_, ?_, ?_, a4⟩
    · simp only [pushCwd]
      rw [pushAux_fold _ _ (by simpa [append] using hw)]
      simp [append, hoff, cwdAux, cwdSize]
    · rw [hoff] at a2; simpa [cwdSize] using a2
    · intro t ht
      cases ht
      rw [hoff] at a1; simpa using a1

theorem readN_isSome {m : Mem UInt8} {p : Nat} {s : List UInt8} (h : CStr m p s) : readN m p s.length = some s := h.1.readN

theorem drop_past (l k : List Nat) (w : Nat) : (l ++ w :: k).drop (l.length + 1) = k := by
  induction l with
  | nil => rfl
  | cons _ l ih => simpa using ih

theorem umask_kept {u : Nat} (h : u ≤ 0o777) : u % 2 ^ 32 &&& 0o7777 &&& 0o6777 = u := by
  rw [Nat.mod_eq_of_lt (by omega), show (0o7777 : Nat) = 2 ^ 12 - 1 by rfl, Nat.and_two_pow_sub_one_eq_mod, Nat.mod_eq_of_lt (by omega)]
  have h1 : (0o6777 : Nat) = 2 ^ 10 * 3 + (2 ^ 9 - 1) := by rfl
  have h2 : u = u &&& (2 ^ 9 - 1) := by
    rw [Nat.and_two_pow_sub_one_eq_mod, Nat.mod_eq_of_lt (by omega)]
  rw [h2, Nat.and_assoc]
  rfl

/-- C105: a program is started with the arguments and the environment given to `exec`, in this order, each vector ended by a null
pointer and its strings one after the other in memory; and it has the working directory, the signal masks, the file mode creation
mask and the descriptors which it is to inherit. The stack has room for them, and the allocator gives unused memory. -/
theorem C105_exec_start (m : Mem UInt8) (base : Nat) (img : Image) (x : ExtraInfo) (args envs : List (List UInt8))
    (alloc1 alloc2 : Nat → Nat) (junk : Nat → UInt8)
    (hfit : args.length + envs.length + 35 ≤ 131072) (hbase : 0 < base)
    (hargs : ∀ s ∈ args, (0 : UInt8) ∉ s) (henvs : ∀ s ∈ envs, (0 : UInt8) ∉ s) (hcwd : ∀ s ∈ x.cwd, (0 : UInt8) ∉ s)
    (humask : x.umask ≤ 0o777)
    (hcfd : x.cwdFd ≠ some (2 ^ 64 - 1)) (hnfd : x.nsFd ≠ some (2 ^ 64 - 1))
    (h1 : FreshAt (stringPages m base (totalSize args envs x.cwd)) (alloc1 (bytesOf args)) (bytesOf args))
    (h2 : FreshAt (stringPages m base (totalSize args envs x.cwd)) (alloc2 (bytesOf envs)) (bytesOf envs))
    (h12 : Disjoint (alloc1 (bytesOf args)) (bytesOf args) (alloc2 (bytesOf envs)) (bytesOf envs)) :
    ∃ b s, buildStack m base img x args envs = some b ∧ start b.words b.mem alloc1 alloc2 junk = some s
      ∧ s.argc = args.length ∧ IsVector s.mem s.argv args ∧ IsVector s.mem s.environ envs
      ∧ s.argv = addrsFrom (alloc1 (bytesOf args)) args ++ [0] ∧ s.environ = addrsFrom (alloc2 (bytesOf envs)) envs ++ [0]
      ∧ Inherits s x := by
  obtain ⟨k1, k2, k3⟩ := allAux_keys base img x
  have hlen : img.aux.length + (cwdAux base x.cwd).length + x.aux.length ≤ 15 := by
    simpa [allAux, Nat.add_assoc, Nat.add_comm, Nat.add_left_comm] using k3
  have hx : x.aux.length = 8 := rfl
  have hi : img.aux.length ≤ 5 := by simp only [Image.aux]; cases img.interp <;> simp
  have hcl : (cwdAux base x.cwd).length ≤ 2 := by cases x.cwd <;> simp [cwdAux]
  generalize hsize : totalSize args envs x.cwd = size at *
  have hsz : bytesOf args + bytesOf envs + cwdSize x.cwd = size := by
    rw [← hsize]; simp only [totalSize, bytesOf]; cases x.cwd <;> rfl
  generalize hcs : cwdSize x.cwd = csize at *
  have hblank : Blank (stringPages m base size) base 0 size := by
    intro a ha hb
    simp only [stringPages]
    rw [if_pos (by omega)]
  -- the stack
  have hstack : stackWords = 131072 := rfl
  obtain ⟨mc, c1, c2, c3, c4⟩ := pushCwd_eq (size := size) hbase x.cwd
    ⟨auxWords img.aux.reverse ++ [AT_NULL, 0], stringPages m base size, 0⟩ hcwd rfl hblank (by omega)
    (by simp only [List.length_append, auxWords_length, List.length_reverse, List.length_cons, List.length_nil]; omega)
  rw [hcs] at c1 c2
  obtain ⟨eps, me, e1, e2, e3, e4, e5⟩ := pushString_fold (size := size) hbase envs.reverse
    ⟨0 :: (auxWords x.aux.reverse ++ (auxWords (cwdAux base x.cwd).reverse ++ (auxWords img.aux.reverse ++ [AT_NULL, 0]))), mc, csize⟩
    (fun s hs => henvs s (by simpa using hs)) c2
    (by simp only [bytesOf, List.map_reverse, List.sum_reverse] at *; omega)
    (by
      simp only [List.length_cons, List.length_append, auxWords_length, List.length_reverse, List.length_nil]
      omega)
  have hbe : bytesOf envs.reverse = bytesOf envs := by simp [bytesOf, List.map_reverse, List.sum_reverse]
  have hba : bytesOf args.reverse = bytesOf args := by simp [bytesOf, List.map_reverse, List.sum_reverse]
  have hel : eps.length = envs.length := by simpa using (e2 me fun _ _ => rfl).length
  obtain ⟨aps, ma, a1, a2, a3, a4, a5⟩ := pushString_fold (size := size) hbase args.reverse
    ⟨0 :: (eps.reverse ++ 0 :: (auxWords x.aux.reverse ++ (auxWords (cwdAux base x.cwd).reverse ++ (auxWords img.aux.reverse ++ [AT_NULL, 0])))),
      me, csize + bytesOf envs.reverse⟩
    (fun s hs => hargs s (by simpa using hs)) e3 (by simp only [hba, hbe]; omega)
    (by
      simp only [List.length_cons, List.length_append, auxWords_length, List.length_reverse, List.length_nil]
      omega)
  have hal : aps.length = args.length := by simpa using (a2 ma fun _ _ => rfl).length
  have haux : auxWords x.aux.reverse ++ (auxWords (cwdAux base x.cwd).reverse ++ (auxWords img.aux.reverse ++ [AT_NULL, 0]))
      = auxWords (allAux base img x) ++ [0, 0] := by
    simp [allAux, auxWords_append, AT_NULL]
  let W := args.length :: (aps.reverse ++ 0 :: (eps.reverse ++ 0 :: (auxWords (allAux base img x) ++ [0, 0])))
  refine ⟨⟨W, ma, csize + bytesOf envs.reverse + bytesOf args.reverse⟩, ?_⟩
  have hbuild : buildStack m base img x args envs = some ⟨W, ma, csize + bytesOf envs.reverse + bytesOf args.reverse⟩ := by
    simp only [buildStack, Option.bind_eq_bind]
    rw [hsize, push_ok (by simp [hstack]), Option.bind_some, push_ok (by simp [hstack]), Option.bind_some,
      pushAux_fold _ _ (by simp only [List.length_cons, List.length_nil]; omega), Option.bind_some, c1, Option.bind_some,
      pushAux_fold _ _ (by
        simp only [List.length_append, auxWords_length, List.length_reverse, List.length_cons, List.length_nil]; omega),
      Option.bind_some,
      push_ok (by
        simp only [List.length_append, auxWords_length, List.length_reverse, List.length_cons, List.length_nil]; omega),
      Option.bind_some, e1, Option.bind_some,
      push_ok (by
        simp only [List.length_append, auxWords_length, List.length_reverse, List.length_cons, List.length_nil]; omega),
      Option.bind_some, a1, Option.bind_some,
      push_ok (by
        simp only [List.length_append, auxWords_length, List.length_reverse, List.length_cons, List.length_nil]; omega)]
    simp only [W, haux]
  -- the strings
  have hA : Strs ma aps.reverse args := by
    have := (a2 ma fun _ _ => rfl).reverse; rwa [List.reverse_reverse] at this
  have hE : Strs ma eps.reverse envs := by
    have := (e2 ma a4).reverse; rwa [List.reverse_reverse] at this
  have hC : ∀ s ∈ x.cwd, CStr ma base s := by
    intro s hs
    have hl : csize = s.length + 1 := by
      rw [← hcs]
      cases hx : x.cwd with
      | none => rw [hx] at hs; cases hs
      | some t => rw [hx] at hs; cases hs; rfl
    refine (c3 s hs).congr fun a _ ha => ?_
    exact (a4 a (by simp only; omega)).trans (e4 a (by simp only; omega))
  have hsome : ∀ a, (stringPages m base size a).isSome ↔ (ma a).isSome := fun a => ((c4 a).trans (e5 a)).trans (a5 a)
  have hnone : ∀ a, stringPages m base size a = none → ma a = none := by
    intro a ha
    cases hh : ma a with
    | none => rfl
    | some v => have := (hsome a).2 (by rw [hh]; rfl); rw [ha] at this; cases this
  -- the copies
  obtain ⟨m1, f1, f2, f3, f4⟩ := copyStringArray_eq hA alloc1 junk ⟨h1.1, fun a p q => hnone a (h1.2 a p q)⟩
  obtain ⟨m2, g1, g2, g3, _⟩ := copyStringArray_eq (hE.congr f3) alloc2 junk
    ⟨h2.1, fun a p q => by
      cases hh : m1 a with
      | none => rfl
      | some v =>
        exfalso
        cases f4 a (by rw [hh]; rfl) with
        | inl h => rw [hnone a (h2.2 a p q)] at h; cases h
        | inr h => cases h12 with
          | inl h' => omega
          | inr h' => omega⟩
  have hEp : ∀ p ∈ eps.reverse, p ≠ 0 := hE.nonzero
  -- the positions
  have hargc : W[0]? = some args.length := rfl
  have henvp : envpIndex W = some (1 + (args.length + 1)) := by simp [envpIndex, hargc]
  have hdrop : W.drop (1 + (args.length + 1)) = eps.reverse ++ 0 :: (auxWords (allAux base img x) ++ [0, 0]) := by
    simp only [W]
    rw [show 1 + (args.length + 1) = (args.length + 1) + 1 by omega, List.drop_succ_cons,
      show args.length + 1 = aps.reverse.length + 1 by simp [hal], drop_past]
  have hcount : countNonNull (W.drop (1 + (args.length + 1))) = some envs.length := by
    rw [hdrop, countNonNull_eq _ hEp]; simp [hel]
  have hauxi : auxvIndex W = some (1 + (args.length + 1) + envs.length + 1) := by
    simp only [auxvIndex, henvp, hcount, Option.bind_eq_bind, Option.bind_some]
  have hauxd : W.drop (1 + (args.length + 1) + envs.length + 1) = auxWords (allAux base img x) ++ [0, 0] := by
    rw [Nat.add_assoc _ envs.length, ← List.drop_drop, hdrop, show envs.length + 1 = eps.reverse.length + 1 by simp [hel], drop_past]
  have hiter := auxvIter_eq (allAux base img x) k2 0
  have hsorted := sortByKey_sorted k1
  have hget : ∀ k v, (k, v) ∈ allAux base img x → getAuxv (sortByKey (allAux base img x)) k = some v :=
    fun k v h => getAuxv_some hsorted (mem_sortByKey.2 h)
  have hmemx : ∀ kv, kv ∈ x.aux → kv ∈ allAux base img x := by
    intro kv h; simp [allAux, h]
  have hthr : getAuxvRaw (W.drop (1 + (args.length + 1) + envs.length + 1)) AT_THR_FD = some (some x.thrFd) := by
    simp only [getAuxvRaw, hauxd, hiter, Option.map_some]
    rw [find_key k1 (hmemx (AT_THR_FD, x.thrFd) (by simp [ExtraInfo.aux]))]
  have htake1 : (W.drop 1).take args.length = aps.reverse := by
    simp only [W, List.drop_succ_cons, List.drop_zero]
    rw [List.take_append_of_le_length (by simp [hal]), List.take_of_length_le (by simp [hal])]
  have htake2 : (W.drop (1 + (args.length + 1))).take envs.length = eps.reverse := by
    rw [hdrop, List.take_append_of_le_length (by simp [hel]), List.take_of_length_le (by simp [hel])]
  have hC2 : ∀ s ∈ x.cwd, readN m2 base s.length = some s := by
    intro s hs
    have : Strs ma [base] [s] := ⟨⟨by omega, hC s hs⟩, trivial⟩
    exact ((this.congr f3).congr g3).1.2.1.readN
  have q1 := hget _ _ (hmemx (AT_PROC_FD, x.procFd) (by simp [ExtraInfo.aux]))
  have q2 := hget _ _ (hmemx (AT_NS_FD, x.nsFd.getD usizeMax) (by simp [ExtraInfo.aux]))
  have q3 := hget _ _ (hmemx (AT_CWD_FD, x.cwdFd.getD usizeMax) (by simp [ExtraInfo.aux]))
  have q4 := hget _ _ (hmemx (AT_SIGIGNMASK, x.sigignmask) (by simp [ExtraInfo.aux]))
  have q5 := hget _ _ (hmemx (AT_SIGPROCMASK, x.sigprocmask) (by simp [ExtraInfo.aux]))
  have q6 := hget _ _ (hmemx (AT_UMASK, x.umask) (by simp [ExtraInfo.aux]))
  have hinit : ∀ st : Started, init m2 (sortByKey (allAux base img x)) st = some { st with
      procFd := x.procFd
      nsFd := x.nsFd
      cwd := (match x.cwd, x.cwdFd with | some d, some fd => some (d, fd) | _, _ => none)
      sigignmask := x.sigignmask
      sigprocmask := x.sigprocmask
      umask := some x.umask } := by
    intro st
    have hns : (if x.nsFd.getD usizeMax = usizeMax then none else some (x.nsFd.getD usizeMax)) = x.nsFd := by
      cases hh : x.nsFd with
      | none => simp
      | some fd =>
        rw [hh] at hnfd
        have : fd ≠ usizeMax := fun e => hnfd (by rw [e]; rfl)
        simp [this]
    have hcw : initCwd m2 (sortByKey (allAux base img x))
        = some (match x.cwd, x.cwdFd with | some d, some fd => some (d, fd) | _, _ => none) := by
      simp only [initCwd]
      cases hh : x.cwd with
      | none =>
        have : getAuxv (sortByKey (allAux base img x)) AT_CWD_PTR = none := by
          have hk : AT_CWD_PTR ∉ (allAux base img x).map (·.1) := by
            simp only [allAux, hh, cwdAux, Image.aux, ExtraInfo.aux]
            cases img.interp <;> simp [AT_ENTRY, AT_BASE, AT_PHDR, AT_PHNUM, AT_PHENT, AT_CWD_PTR, AT_SIGIGNMASK,
              AT_SIGPROCMASK, AT_UMASK, AT_THR_FD, AT_PROC_FD, AT_NS_FD, AT_CWD_FD, AT_FILETABLE_FD]
          refine getAuxv_none fun kv hkv e => hk ?_
          rw [← e]
          exact List.mem_map.2 ⟨kv, mem_sortByKey.1 hkv, rfl⟩
        rw [this]
      | some d =>
        have r1 := hget AT_CWD_PTR base (by simp [allAux, hh, cwdAux])
        have r2 := hget AT_CWD_LEN d.length (by simp [allAux, hh, cwdAux])
        rw [r1, r2, q3]
        simp only [hC2 d hh, Option.bind_eq_bind, Option.bind_some]
        cases hf : x.cwdFd with
        | none => simp
        | some fd =>
          rw [hf] at hcfd
          have : fd ≠ usizeMax := fun e => hcfd (by rw [e]; rfl)
          simp [this]
    simp only [init, q1, q2, hcw, q4, q5, q6, hns, Option.bind_eq_bind, Option.bind_some, Option.getD_some, Option.map_some,
      umask_kept humask]
  refine ⟨{ argc := args.length, argv := _, environ := _, mem := m2, thrFd := x.thrFd, procFd := x.procFd, nsFd := x.nsFd
            cwd := (match x.cwd, x.cwdFd with | some d, some fd => some (d, fd) | _, _ => none)
            sigignmask := x.sigignmask, sigprocmask := x.sigprocmask, umask := some x.umask }, hbuild, ?_, rfl,
    ⟨_, rfl, f2.congr g3⟩, ⟨_, rfl, g2⟩, rfl, rfl, rfl, rfl, rfl, rfl, rfl, rfl, rfl⟩
  simp only [start, hauxi, hthr, hargc, htake1, f1, henvp, hcount, htake2, g1, Option.bind_eq_bind, Option.bind_some]
  simp only [getAuxvs, hauxd, hiter, Option.map_some, Option.bind_some, hinit]

theorem push_length {w : Nat} {b b' : Build} (h : push w b = some b') :
    b'.words.length = b.words.length + 1 ∧ b'.words.length ≤ stackWords := by
  simp only [push] at h
  split at h
  · cases h; simp; omega
  · cases h

theorem fold_length {α : Type} (f : Build → α → Option Build) (n : Nat) (hf : ∀ b a b', f b a = some b' →
    b'.words.length = b.words.length + n) (l : List α) : ∀ b b', l.foldlM f b = some b' → b'.words.length = b.words.length + n * l.length := by
  induction l with
  | nil => intro b b' h; cases h; simp
  | cons a l ih =>
    intro b b' h
    rw [List.foldlM_cons] at h
    simp only [Option.bind_eq_bind, Option.bind_eq_some_iff] at h
    obtain ⟨c, h1, h2⟩ := h
    rw [ih c b' h2, hf b a c h1, List.length_cons, Nat.mul_succ]; omega

theorem pushAux_length (b : Build) (kv : Nat × Nat) (b' : Build) (h : pushAux b kv = some b') : b'.words.length = b.words.length + 2 := by
  simp only [pushAux, Option.bind_eq_bind, Option.bind_eq_some_iff] at h
  obtain ⟨c, h1, h2⟩ := h
  rw [(push_length h2).1, (push_length h1).1]

theorem pushString_length (base : Nat) (b : Build) (s : List UInt8) (b' : Build) (h : pushString base b s = some b') :
    b'.words.length = b.words.length + 1 := by
  have := (push_length h).1
  simpa [append] using this

/-- C105: more arguments and variables than the stack has words for are not cut off: there is no new program. -/
theorem C105_exec_too_many (m : Mem UInt8) (base : Nat) (img : Image) (x : ExtraInfo) (args envs : List (List UInt8))
    (h : 131072 < args.length + envs.length + 29) : buildStack m base img x args envs = none := by
  cases e : buildStack m base img x args envs with
  | none => rfl
  | some b =>
    exfalso
    simp only [buildStack, Option.bind_eq_bind, Option.bind_eq_some_iff] at e
    obtain ⟨b1, e1, b2, e2, b3, e3, b4, e4, b5, e5, b6, e6, b7, e7, b8, e8, b9, e9, e10⟩ := e
    have l1 := (push_length e1).1
    have l2 := (push_length e2).1
    have l3 := fold_length pushAux 2 pushAux_length _ _ _ e3
    have l4 : b3.words.length ≤ b4.words.length := by
      cases hc : x.cwd with
      | none => rw [hc] at e4; cases e4; exact Nat.le_refl _
      | some s =>
        rw [hc] at e4
        have := fold_length pushAux 2 pushAux_length _ _ _ e4
        simp only [append] at this
        omega
    have l5 := fold_length pushAux 2 pushAux_length _ _ _ e5
    have l6 := (push_length e6).1
    have l7 := fold_length _ 1 (pushString_length base) _ _ _ e7
    have l8 := (push_length e8).1
    have l9 := fold_length _ 1 (pushString_length base) _ _ _ e9
    have l10 := push_length e10
    have hi : 4 ≤ img.aux.length := by simp only [Image.aux]; cases img.interp <;> simp
    have hx : x.aux.length = 8 := rfl
    have hstack : stackWords = 131072 := rfl
    simp only [List.length_nil, List.length_reverse] at *
    omega

/-- Two arguments, one variable. -/
example : ∃ b s, buildStack (fun _ => none) 4096 ⟨0x1000, 0x40, 0x1040, 3, 56, none⟩
      ⟨some [47], 0, 4, 0o22, 5, 6, some 7, some 8, none⟩ [[108, 115], []] [[65, 61, 98]] = some b
    ∧ start b.words b.mem (fun _ => 0x10000) (fun _ => 0x20000) (fun _ => 1) = some s
    ∧ s.argc = 2 ∧ s.argv = [0x10000, 0x10003, 0] ∧ s.environ = [0x20000, 0] ∧ CStr s.mem 0x10000 [108, 115] ∧ CStr s.mem 0x10003 []
    ∧ CStr s.mem 0x20000 [65, 61, 98] ∧ s.cwd = some ([47], 8) ∧ s.umask = some 0o22 ∧ s.sigprocmask = 4 := by
  have hfresh : ∀ p n, 0x10000 ≤ p → FreshAt (stringPages (fun _ => none) 4096 (totalSize [[108, 115], []] [[65, 61, 98]] (some [47]))) p n := by
    intro p n hp
    refine ⟨by omega, fun a h1 _ => ?_⟩
    have hs : totalSize [[108, 115], []] [[65, 61, 98]] (some [47]) = 10 := by decide
    simp only [stringPages, hs]
    rw [if_neg (by omega)]
  obtain ⟨b, s, h1, h2, h3, h4, h5, h6, h7, h8⟩ := C105_exec_start (fun _ => none) 4096 ⟨0x1000, 0x40, 0x1040, 3, 56, none⟩
    ⟨some [47], 0, 4, 0o22, 5, 6, some 7, some 8, none⟩ [[108, 115], []] [[65, 61, 98]] (fun _ => 0x10000) (fun _ => 0x20000) (fun _ => 1)
    (by decide) (by decide) (by decide) (by decide) (by decide) (by decide) (by decide) (by decide) (hfresh _ _ (by decide))
    (hfresh _ _ (by decide)) (Or.inl (by decide))
  obtain ⟨ps, e1, e2⟩ := h4
  obtain ⟨qs, e3, e4⟩ := h5
  rw [h6] at e1; rw [h7] at e3
  have := List.append_cancel_right e1
  subst this
  have := List.append_cancel_right e3
  subst this
  exact ⟨b, s, h1, h2, h3, h6, h7, e2.1.2, e2.2.1.2, e4.1.2, h8.1, h8.2.2.2.1, h8.2.2.1⟩

end Verif.Exec
