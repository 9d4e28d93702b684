import Verif.Str.MemProps
import Verif.Str.StrLemmas

/-!
# C22: string copies

In every statement the memory after the call is given completely, as `patch m address bytes` (the memory before with
`bytes` written at `address`): nothing else changes, and nothing outside the regions named in the hypotheses is
touched.
-/

namespace Verif.Str

open Verif.Mem

/-- **C22** (`strlen`). -/
theorem C22_strlen (m : Mem UInt8) (p : Nat) (s : List UInt8) (h : CStr m p s) : strlen m p = some s.length :=
  strlen_eq h

/-- **C22** (`strnlen`). Length of the string or the bound, whichever is smaller, with nothing read beyond either. -/
theorem C22_strnlen (m : Mem UInt8) (p n : Nat) (s : List UInt8) (h : BStr m p n s) :
    strnlen m p n = some s.length := strnlen_eq h

/-! ## strcpy, stpcpy -/

theorem strcpyLoop_eq {α : Type} [DecidableEq α] [OfNat α 0] (s : List α) : ∀ (m : Mem α) d p, CStr m p s →
    Mapped m d (s.length + 1) → Disjoint d (s.length + 1) p (s.length + 1) →
    strcpyLoop m d p = some (patch m d (s ++ [0])) := by
  induction s with
  | nil =>
    intro m d p h hm _
    rw [strcpyLoop, h.nul]
    simp only [Option.bind_eq_bind, Option.bind_some]
    rw [store_patch hm.head]
    simp
  | cons b s ih =>
    intro m d p h hm hd
    rw [strcpyLoop, h.head.1]
    simp only [Option.bind_eq_bind, Option.bind_some]
    rw [store_patch hm.head]
    simp only [Option.bind_some, if_neg h.head.2]
    simp only [List.length_cons] at hm hd
    rw [ih (patch m d [b]) (d + 1) (p + 1), patch_cons]
    · rfl
    · refine h.tail.congr (fun a h1 h2 => patch_out ?_)
      unfold Disjoint at hd
      simp only [List.length_singleton]
      omega
    · exact mapped_patch hm.shift
    · unfold Disjoint at *; omega

/-- **C22** (`strcpy`). -/
theorem C22_strcpy (m : Mem UInt8) (d p : Nat) (s : List UInt8) (h : CStr m p s) (hm : Mapped m d (s.length + 1))
    (hd : Disjoint d (s.length + 1) p (s.length + 1)) :
    strcpy m d p = some (patch m d (s ++ [0]), d) := by
  simp [strcpy, strcpyLoop_eq s m d p h hm hd]

/-- **C22** (`stpcpy`). Returns the address of the terminator it wrote. -/
theorem C22_stpcpy (s : List UInt8) : ∀ (m : Mem UInt8) (d p : Nat), CStr m p s → Mapped m d (s.length + 1) →
    Disjoint d (s.length + 1) p (s.length + 1) →
    stpcpy m d p = some (patch m d (s ++ [0]), d + s.length) := by
  induction s with
  | nil =>
    intro m d p h hm _
    rw [stpcpy, h.nul]
    simp only [Option.bind_eq_bind, Option.bind_some]
    rw [store_patch hm.head]
    simp [patch]
  | cons b s ih =>
    intro m d p h hm hd
    rw [stpcpy, h.head.1]
    simp only [Option.bind_eq_bind, Option.bind_some]
    rw [store_patch hm.head]
    have hread : patch m d [b] d = some b := by simp [patch]
    simp only [Option.bind_some, hread, if_neg h.head.2]
    simp only [List.length_cons] at hm hd
    rw [ih (patch m d [b]) (d + 1) (p + 1), patch_cons]
    · simp only [List.length_cons, List.cons_append]
      congr 2
      omega
    · refine h.tail.congr (fun a h1 h2 => patch_out ?_)
      unfold Disjoint at hd
      simp only [List.length_singleton]
      omega
    · exact mapped_patch hm.shift
    · unfold Disjoint at *; omega

/-! ## stpncpy, strncpy -/

theorem memset_zero (m : Mem UInt8) (d n : Nat) (h : Mapped m d n) :
    memset m d 0 n = some (patch m d (List.replicate n 0), d) := C17_memset m d 0 n h

/-- Overwriting the first byte of what was written. -/
theorem patch_over {α : Type} (m : Mem α) (d : Nat) (l k : List α) (h : l.length ≤ k.length) :
    patch (patch m d l) d k = patch m d k := by
  funext a
  unfold patch
  by_cases h1 : d ≤ a ∧ a < d + k.length
  · rw [if_pos h1, if_pos h1]
  · rw [if_neg h1, if_neg h1, if_neg (by omega)]

/-- **C22** (`stpncpy`). Exactly `n` bytes of the destination are written: the string, cut at `n` bytes, then NULs. The
result is the address of the first NUL written, or `d + n`. -/
theorem C22_stpncpy (n : Nat) : ∀ (m : Mem UInt8) (d p : Nat) (s : List UInt8), BStr m p n s → Mapped m d n →
    Disjoint d n p (min (s.length + 1) n) →
    stpncpy m d p n = some (patch m d (s ++ List.replicate (n - s.length) 0), d + s.length) := by
  induction n with
  | zero =>
    intro m d p s h hm _
    rw [h.zero, stpncpy, memset_zero m d 0 hm]
    simp
  | succ n ih =>
    intro m d p s h hm hd
    cases s with
    | nil =>
      rw [stpncpy, h.nul]
      simp only [Option.bind_eq_bind, Option.bind_some]
      rw [store_patch hm.head]
      have hread : patch m d [0] d = some 0 := by simp [patch]
      simp only [Option.bind_some, hread, if_true]
      rw [memset_zero _ _ _ (mapped_patch hm)]
      simp only [Option.bind_some]
      rw [patch_over _ _ _ _ (by simp)]
      simp
    | cons b s =>
      rw [stpncpy, h.head.1]
      simp only [Option.bind_eq_bind, Option.bind_some]
      rw [store_patch hm.head]
      have hread : patch m d [b] d = some b := by simp [patch]
      simp only [Option.bind_some, hread, if_neg h.head.2]
      simp only [List.length_cons] at hd
      have hle := h.le
      simp only [List.length_cons] at hle
      rw [ih (patch m d [b]) (d + 1) (p + 1) s, patch_cons]
      · simp only [List.length_cons, List.cons_append]
        rw [show n + 1 - (s.length + 1) = n - s.length by omega]
        congr 2
        omega
      · obtain ⟨h1, h2, h3⟩ := h.tail
        have out : ∀ a, p + 1 ≤ a → a < p + min (s.length + 1 + 1) (n + 1) → patch m d [b] a = m a := by
          intro a x y
          apply patch_out
          unfold Disjoint at hd
          simp only [List.length_singleton]
          omega
        refine ⟨h1.congr (fun a x y => out a x (by omega)), h2, ?_⟩
        rcases h3 with h3 | ⟨h3, h4⟩
        · exact Or.inl h3
        · right
          refine ⟨h3, ?_⟩
          rw [out _ (by omega) (by omega), h4]
      · exact mapped_patch hm.shift
      · unfold Disjoint at *; omega

/-- **C22** (`strncpy`). -/
theorem C22_strncpy (m : Mem UInt8) (d p n : Nat) (s : List UInt8) (h : BStr m p n s) (hm : Mapped m d n)
    (hd : Disjoint d n p (min (s.length + 1) n)) :
    strncpy m d p n = some (patch m d (s ++ List.replicate (n - s.length) 0), d) := by
  simp [strncpy, C22_stpncpy n m d p s h hm hd]

/-! ## strncat, strcat -/

theorem strncatLoop_eq {α : Type} [DecidableEq α] [OfNat α 0] (d p len n : Nat) (s : List α) :
    ∀ (m : Mem α) (i : Nat), i ≤ n →
    BStr m (p + i) (n - i) s → Mapped m (d + (len + i)) (s.length + 1) →
    Disjoint (d + (len + i)) (s.length + 1) (p + i) (min (s.length + 1) (n - i)) →
    strncatLoop m d p len n i = some (patch m (d + (len + i)) (s ++ [0])) := by
  induction s with
  | nil =>
    intro m i hi h hm _
    rw [strncatLoop]
    by_cases e : i < n
    · rw [if_pos e]
      have hnul : m (p + i) = some 0 := by
        obtain ⟨k, hk⟩ : ∃ k, n - i = k + 1 := ⟨n - i - 1, by omega⟩
        rw [hk] at h
        exact h.nul
      rw [hnul]
      simp only [Option.bind_eq_bind, Option.bind_some, if_true]
      rw [store_patch hm.head]
      simp
    · rw [if_neg e, store_patch hm.head]
      simp
  | cons b s ih =>
    intro m i hi h hm hd
    have hle := h.le
    simp only [List.length_cons] at hle hm hd
    rw [strncatLoop, if_pos (by omega), h.head.1]
    simp only [Option.bind_eq_bind, Option.bind_some, if_neg h.head.2]
    rw [store_patch hm.head]
    simp only [Option.bind_some]
    obtain ⟨k, hk⟩ : ∃ k, n - i = k + 1 := ⟨n - i - 1, by omega⟩
    have hk' : n - (i + 1) = k := by omega
    rw [hk] at h hd
    rw [ih (patch m (d + (len + i)) [b]) (i + 1) (by omega)]
    · rw [show d + (len + (i + 1)) = d + (len + i) + 1 by omega, patch_cons]
      rfl
    · rw [hk', show p + (i + 1) = p + i + 1 by omega]
      obtain ⟨h1, h2, h3⟩ := h.tail
      have out : ∀ a, p + i + 1 ≤ a → a < p + i + min (s.length + 1 + 1) (k + 1) →
          patch m (d + (len + i)) [b] a = m a := by
        intro a x y
        apply patch_out
        unfold Disjoint at hd
        simp only [List.length_singleton]
        omega
      refine ⟨h1.congr (fun a x y => out a x (by omega)), h2, ?_⟩
      rcases h3 with h3 | ⟨h3, h4⟩
      · exact Or.inl h3
      · right
        refine ⟨h3, ?_⟩
        rw [out _ (by omega) (by omega), h4]
    · rw [show d + (len + (i + 1)) = d + (len + i) + 1 by omega]
      exact mapped_patch hm.shift
    · unfold Disjoint at *
      omega

/-- **C22** (`strncat`). At most `n` bytes of the source are appended, and a terminator always is; the part of the
destination string already there is not touched. -/
theorem C22_strncat (m : Mem UInt8) (d p n : Nat) (t s : List UInt8) (ht : CStr m d t) (hs : BStr m p n s)
    (hm : Mapped m (d + t.length) (s.length + 1))
    (hd : Disjoint (d + t.length) (s.length + 1) p (min (s.length + 1) n)) :
    strncat m d p n = some (patch m (d + t.length) (s ++ [0]), d) := by
  unfold strncat
  rw [strlen_eq ht]
  simp only [Option.bind_eq_bind, Option.bind_some]
  rw [strncatLoop_eq d p t.length n s m 0 (by omega) hs hm (by simpa using hd)]
  rfl

/-- **C22** (`strcat`). -/
theorem C22_strcat (m : Mem UInt8) (d p : Nat) (t s : List UInt8) (ht : CStr m d t) (hs : CStr m p s)
    (hlen : s.length < 2 ^ 64 - 1)
    (hm : Mapped m (d + t.length) (s.length + 1)) (hd : Disjoint (d + t.length) (s.length + 1) p (s.length + 1)) :
    strcat m d p = some (patch m (d + t.length) (s ++ [0]), d) := by
  have h := hs.bstr USIZE_MAX
  rw [List.take_of_length_le (by unfold USIZE_MAX; omega)] at h
  refine C22_strncat m d p _ t s ht h hm ?_
  unfold Disjoint at *
  omega

/-- After a concatenation the destination holds the joined string. -/
theorem cstr_concat {α : Type} [OfNat α 0] (m : Mem α) (d : Nat) (t s : List α) (ht : CStr m d t) (hs : (0 : α) ∉ s) :
    CStr (patch m (d + t.length) (s ++ [0])) d (t ++ s) := by
  rw [cstr_iff]
  constructor
  · rw [List.append_assoc]
    refine bytes_append.2 ⟨?_, bytes_patch _ _ _⟩
    exact ht.1.congr (fun a x y => patch_out (by omega))
  · intro h
    rcases List.mem_append.1 h with h | h
    · exact ht.2.2 h
    · exact hs h

/-- **C22**: the string at the destination after `strncat` is the old one followed by the source cut at `n`. -/
theorem C22_strncat_string (m : Mem UInt8) (d p n : Nat) (t s : List UInt8) (ht : CStr m d t) (hs : BStr m p n s)
    (hm : Mapped m (d + t.length) (s.length + 1))
    (hd : Disjoint (d + t.length) (s.length + 1) p (min (s.length + 1) n)) :
    ∃ m', strncat m d p n = some (m', d) ∧ CStr m' d (t ++ s) :=
  ⟨_, C22_strncat m d p n t s ht hs hm hd, cstr_concat m d t s ht hs.2.1⟩

/-! ## strlcpy, strlcat -/

theorem strlcpyLoop_eq (d p size : Nat) (s : List UInt8) : ∀ (m : Mem UInt8) (i : Nat), i < size →
    CStr m (p + i) s → Mapped m (d + i) (min (size - i) (s.length + 1)) →
    Disjoint (d + i) (min (size - i) (s.length + 1)) (p + i) (s.length + 1) →
    strlcpyLoop m d p size i =
      some (patch m (d + i) (s.take (size - 1 - i) ++ [0]), i + min (size - 1 - i) s.length) := by
  induction s with
  | nil =>
    intro m i hi h hm _
    rw [strlcpyLoop, h.nul]
    simp only [Option.bind_eq_bind, Option.bind_some, ne_eq, not_true_eq_false, false_and, if_false]
    have : (m (d + i)).isSome := by simpa using hm 0 (by simp; omega)
    rw [store_patch this]
    simp
  | cons b s ih =>
    intro m i hi h hm hd
    simp only [List.length_cons] at hm hd
    have hs : (m (d + i)).isSome := by simpa using hm 0 (by omega)
    rw [strlcpyLoop, h.head.1]
    simp only [Option.bind_eq_bind, Option.bind_some]
    by_cases e : i < size - 1
    · rw [if_pos ⟨h.head.2, e⟩, store_patch hs]
      simp only [Option.bind_some]
      rw [ih (patch m (d + i) [b]) (i + 1) (by omega)]
      · rw [show d + (i + 1) = d + i + 1 by omega, patch_cons]
        obtain ⟨k, hk⟩ : ∃ k, size - 1 - i = k + 1 := ⟨size - 1 - i - 1, by omega⟩
        rw [hk, show size - 1 - (i + 1) = k by omega]
        simp only [List.take_succ_cons, List.cons_append, List.length_cons]
        congr 2
        omega
      · rw [show p + (i + 1) = p + i + 1 by omega]
        refine h.tail.congr (fun a x y => patch_out ?_)
        unfold Disjoint at hd
        simp only [List.length_singleton]
        omega
      · intro j hj
        have := mapped_patch (p := d + i) (l := [b]) hm (j + 1) (by omega)
        rwa [show d + i + (j + 1) = d + (i + 1) + j by omega] at this
      · unfold Disjoint at *; omega
    · rw [if_neg (fun x => e x.2), store_patch hs]
      have : size - 1 - i = 0 := by omega
      simp [this]

/-- **C22** (`strlcpy`). At most `size` bytes of the destination are written: the longest prefix of the source that
fits, and a terminator unless `size` is 0. The result is the length of the source. -/
theorem C22_strlcpy (m : Mem UInt8) (d p size : Nat) (s : List UInt8) (h : CStr m p s)
    (hm : Mapped m d (min size (s.length + 1))) (hd : Disjoint d (min size (s.length + 1)) p (s.length + 1)) :
    strlcpy m d p size =
      some (if size = 0 then m else patch m d (s.take (size - 1) ++ [0]), s.length) := by
  unfold strlcpy
  by_cases e : size = 0
  · subst e
    simp [strlenLoop_eq m s p 0 h]
  · rw [if_pos e, if_neg e, strlcpyLoop_eq d p size s m 0 (by omega) h (by simpa using hm) (by simpa using hd)]
    simp only [Option.bind_eq_bind, Option.bind_some, Nat.zero_add, Nat.add_zero, Nat.sub_zero]
    have hl : (s.take (size - 1)).length = min (size - 1) s.length := List.length_take
    have hsrc : CStr (patch m d (s.take (size - 1) ++ [0])) (p + (s.take (size - 1)).length) (s.drop (size - 1)) := by
      have h0 : CStr (patch m d (s.take (size - 1) ++ [0])) p (s.take (size - 1) ++ s.drop (size - 1)) := by
        rw [List.take_append_drop]
        refine h.congr (fun a x y => patch_out ?_)
        unfold Disjoint at hd
        simp only [List.length_append, List.length_singleton, hl]
        omega
      exact h0.drop
    rw [hl] at hsrc
    rw [strlenLoop_eq _ _ _ _ hsrc]
    simp only [Option.bind_some, List.length_drop]
    congr 2
    omega

/-- **C22** (`strlcat`). When the destination string fits in `size` bytes with its terminator, the longest prefix of
the source that fits is appended and terminated; otherwise nothing is written. The result is the length it tried to
create: that of the destination (at most `size`) plus that of the source. -/
theorem C22_strlcat (m : Mem UInt8) (d p size : Nat) (t s : List UInt8) (ht : BStr m d size t) (h : CStr m p s)
    (hm : Mapped m (d + t.length) (min (size - t.length) (s.length + 1)))
    (hd : Disjoint (d + t.length) (min (size - t.length) (s.length + 1)) p (s.length + 1)) :
    strlcat m d p size =
      some (if t.length = size then m else patch m (d + t.length) (s.take (size - t.length - 1) ++ [0]),
        t.length + s.length) := by
  unfold strlcat
  rw [strnlen_eq ht]
  simp only [Option.bind_eq_bind, Option.bind_some]
  rw [C22_strlcpy m (d + t.length) p (size - t.length) s h hm hd]
  have := ht.le
  simp only [Option.bind_some]
  have e1 : (if t.length > size then size else t.length) = t.length := if_neg (by omega)
  rw [e1, Nat.add_comm s.length]
  by_cases e : t.length = size
  · have e2 : size - t.length = 0 := by omega
    rw [if_pos e2, if_pos e]
  · have e2 : ¬ size - t.length = 0 := by omega
    rw [if_neg e2, if_neg e]

/-- **C22**: the bytes `strlcpy` writes stay within `size`. -/
theorem C22_strlcpy_bound (m : Mem UInt8) (d size : Nat) (s : List UInt8) (hs : size ≠ 0) :
    (s.take (size - 1) ++ [0]).length ≤ size ∧
    ∀ a, (a < d ∨ d + size ≤ a) → patch m d (s.take (size - 1) ++ [0]) a = m a := by
  have hl : (s.take (size - 1) ++ [(0 : UInt8)]).length ≤ size := by
    simp only [List.length_append, List.length_take, List.length_singleton]
    omega
  exact ⟨hl, fun a ha => patch_out (by omega)⟩

/-! ## strndup, strxfrm -/

/-- **C22** (`strndup`). Either the allocator fails and NULL is returned with memory unchanged, or the returned block
holds the string cut at `size`, terminated. The block asked for is one byte longer than that string. -/
theorem C22_strndup (m : Mem UInt8) (p size : Nat) (s : List UInt8) (h : BStr m p size s) (alloc : Nat → Option Nat)
    (ha : ∀ b, alloc (s.length + 1) = some b →
      Mapped m b (s.length + 1) ∧ Disjoint b (s.length + 1) p (s.length + 1)) :
    (alloc (s.length + 1) = none ∧ strndup m p size alloc = some (m, none)) ∨
    ∃ b, alloc (s.length + 1) = some b ∧ strndup m p size alloc = some (patch m b (s ++ [0]), some b) := by
  unfold strndup
  rw [strnlen_eq h]
  simp only [Option.bind_eq_bind, Option.bind_some]
  cases hb : alloc (s.length + 1) with
  | none => left; exact ⟨rfl, rfl⟩
  | some b =>
    right
    obtain ⟨h1, h2⟩ := ha b hb
    refine ⟨b, rfl, ?_⟩
    simp only
    rw [memcpyLoop_eq b p s.length s m 0 (by omega) h.1 (h1.mono (by omega))
      (Or.inr (by unfold Disjoint at *; omega))]
    simp only [Option.bind_some, Nat.add_zero]
    rw [store_patch (isSome_patch (h1 s.length (by omega)))]
    simp only [Option.bind_some]
    rw [patch_append]

/-- **C22** (`strxfrm`). The string is copied only if it fits with its terminator; the length is returned. -/
theorem C22_strxfrm (m : Mem UInt8) (d p n : Nat) (s : List UInt8) (h : CStr m p s)
    (hm : s.length < n → Mapped m d (s.length + 1) ∧ Disjoint d (s.length + 1) p (s.length + 1)) :
    strxfrm m d p n = some (if s.length < n then patch m d (s ++ [0]) else m, s.length) := by
  unfold strxfrm
  rw [strlen_eq h]
  simp only [Option.bind_eq_bind, Option.bind_some]
  by_cases e : s.length < n
  · rw [if_pos e, if_pos e, C22_strcpy m d p s h (hm e).1 (hm e).2]
    rfl
  · rw [if_neg e, if_neg e]

/-! ## Cases meeting the hypotheses -/

/-- Memory of the examples: "ab", then six bytes of room. -/
def demo : Mem UInt8 := ofList 1 [97, 98, 0, 9, 9, 9, 9, 9, 9]

example : CStr demo 1 [97, 98] ∧ Mapped demo 4 6 := by
  refine ⟨by simp [CStr, Bytes, demo, ofList], ?_⟩
  intro i hi
  have : i = 0 ∨ i = 1 ∨ i = 2 ∨ i = 3 ∨ i = 4 ∨ i = 5 := by omega
  rcases this with rfl | rfl | rfl | rfl | rfl | rfl <;> simp [demo, ofList]

/-- A truncating `strlcpy` and a padding `strncpy`. -/
example : strlcpy demo 4 1 2 = some (patch demo 4 [97, 0], 2) ∧
    strncpy demo 4 1 5 = some (patch demo 4 [97, 98, 0, 0, 0], 4) := by
  have hm : Mapped demo 4 6 := by
    intro i hi
    have : i = 0 ∨ i = 1 ∨ i = 2 ∨ i = 3 ∨ i = 4 ∨ i = 5 := by omega
    rcases this with rfl | rfl | rfl | rfl | rfl | rfl <;> simp [demo, ofList]
  constructor
  · exact C22_strlcpy demo 4 1 2 [97, 98] (by simp [CStr, Bytes, demo, ofList]) (hm.mono (by simp))
      (by simp [Disjoint])
  · exact C22_strncpy demo 4 1 5 [97, 98] (by simp [BStr, Bytes, demo, ofList]) (hm.mono (by simp))
      (by simp [Disjoint])

end Verif.Str
