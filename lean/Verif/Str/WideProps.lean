import Verif.Str.WideModel
import Verif.Str.StrSearchProps
import Verif.Str.StrCopyProps
import Verif.Str.StrTokProps

/-!
# C53: wide strings
-/

namespace Verif.Str

open Verif.Mem

/-! ## Specification -/

/-- The sign of `r` tells how `l` and `k` compare lexicographically as sequences of `wchar_t`. -/
def WSignAgrees (r : Int) (l k : List Int32) : Prop :=
  (r < 0 ↔ l < k) ∧ (r = 0 ↔ l = k) ∧ (0 < r ↔ k < l)

/-- Byte representation of a wide character (little endian). -/
def encW (c : Int32) : List UInt8 :=
  [c.toUInt32.toUInt8, (c.toUInt32 >>> 8).toUInt8, (c.toUInt32 >>> 16).toUInt8, (c.toUInt32 >>> 24).toUInt8]

/-- A program that calls `wcstok` first with `s` and then with NULL until it gets NULL. -/
inductive WcstokRun (q : Nat) : Mem Int32 → Option Nat → Option Nat → List Nat → Mem Int32 → Prop
  | stop {m s state m' l} : wcstok m s q state = some (m', l, none) → WcstokRun q m s state [] m'
  | more {m s state m₁ l p ps m'} : wcstok m s q state = some (m₁, l, some p) → WcstokRun q m₁ none l ps m' →
      WcstokRun q m s state (p :: ps) m'

/-! ## Length and copies -/

theorem C53_wcslen (m : Mem Int32) (p : Nat) (s : List Int32) (h : CStr m p s) : wcslen m p = some s.length :=
  strlen_eq h

theorem C53_wcsnlen (m : Mem Int32) (p n : Nat) (s : List Int32) (h : BStr m p n s) : wcsnlen m p n = some s.length :=
  strnlen_eq h

theorem C53_wcscpy (m : Mem Int32) (d p : Nat) (s : List Int32) (h : CStr m p s) (hm : Mapped m d (s.length + 1))
    (hd : Disjoint d (s.length + 1) p (s.length + 1)) :
    wcscpy m d p = some (patch m d (s ++ [0]), d) := by
  simp [wcscpy, strcpy, strcpyLoop_eq s m d p h hm hd]

/-- Returns the address of the terminator written. -/
theorem C53_wcpcpy (m : Mem Int32) (d p : Nat) (s : List Int32) (h : CStr m p s) (hm : Mapped m d (s.length + 1))
    (hd : Disjoint d (s.length + 1) p (s.length + 1)) :
    wcpcpy m d p = some (patch m d (s ++ [0]), d + s.length) := by
  unfold wcpcpy
  rw [C53_wcscpy m d p s h hm hd]
  simp only [Option.bind_eq_bind, Option.bind_some]
  have : CStr (patch m d (s ++ [0])) p s := by
    refine h.congr (fun a x y => patch_out ?_)
    unfold Disjoint at hd
    simp only [List.length_append, List.length_singleton]
    omega
  rw [C53_wcslen _ _ _ this]
  rfl

theorem wcsncpyLoop_eq (d p n : Nat) (s : List Int32) : ∀ (m : Mem Int32) (i : Nat), i ≤ n →
    BStr m (p + i) (n - i) s → Mapped m (d + i) (n - i) →
    Disjoint (d + i) (n - i) (p + i) (min (s.length + 1) (n - i)) →
    wcsncpyLoop m d p n i = some (patch m (d + i) (s ++ List.replicate (n - i - s.length) 0)) := by
  induction s with
  | nil =>
    intro m i hi h hm _
    rw [wcsncpyLoop]
    by_cases e : i < n
    · obtain ⟨k, hk⟩ : ∃ k, n - i = k + 1 := ⟨n - i - 1, by omega⟩
      rw [hk] at h hm ⊢
      rw [if_pos e, h.nul]
      simp only [Option.bind_eq_bind, Option.bind_some]
      rw [store_patch hm.head]
      simp only [Option.bind_some, if_true]
      rw [memsetLoop_eq d n 0 k _ (i + 1) (by omega) (mapped_patch (by
        have := hm.shift; rwa [show d + (i + 1) = d + i + 1 by omega]))]
      rw [show d + (i + 1) = d + i + 1 by omega, patch_cons]
      simp [List.replicate_succ]
    · have : n - i = 0 := by omega
      rw [if_neg e, this, memsetLoop, if_neg e]
      simp
  | cons b s ih =>
    intro m i hi h hm hd
    have hle := h.le
    simp only [List.length_cons] at hle hd
    obtain ⟨k, hk⟩ : ∃ k, n - i = k + 1 := ⟨n - i - 1, by omega⟩
    have hk' : n - (i + 1) = k := by omega
    rw [hk] at h hm hd
    rw [wcsncpyLoop, if_pos (by omega), h.head.1]
    simp only [Option.bind_eq_bind, Option.bind_some]
    rw [store_patch hm.head]
    simp only [Option.bind_some, if_neg h.head.2]
    rw [ih (patch m (d + i) [b]) (i + 1) (by omega)]
    · rw [show d + (i + 1) = d + i + 1 by omega, patch_cons]
      simp only [List.length_cons, List.cons_append]
      rw [show n - (i + 1) - s.length = n - i - (s.length + 1) by omega]
    · rw [hk', show p + (i + 1) = p + i + 1 by omega]
      obtain ⟨h1, h2, h3⟩ := h.tail
      have out : ∀ a, p + i + 1 ≤ a → a < p + i + min (s.length + 1 + 1) (k + 1) →
          patch m (d + i) [b] a = m a := by
        intro a x y
        apply patch_out
        unfold Disjoint at hd
        simp only [List.length_singleton]
        omega
      refine ⟨h1.congr (fun a x y => out a x (by omega)), h2, ?_⟩
      rcases h3 with h3 | ⟨h3, h4⟩
      · exact Or.inl h3
      · right
        refine ⟨h3, ?_⟩
        rw [out _ (by omega) (by omega), h4]
    · rw [hk', show d + (i + 1) = d + i + 1 by omega]
      exact mapped_patch hm.shift
    · unfold Disjoint at *
      omega

/-- Exactly `n` elements are written: the string cut at `n`, then NULs. -/
theorem C53_wcsncpy (m : Mem Int32) (d p n : Nat) (s : List Int32) (h : BStr m p n s) (hm : Mapped m d n)
    (hd : Disjoint d n p (min (s.length + 1) n)) :
    wcsncpy m d p n = some (patch m d (s ++ List.replicate (n - s.length) 0), d) := by
  unfold wcsncpy
  rw [wcsncpyLoop_eq d p n s m 0 (by omega) h hm hd]
  rfl

/-- `wcpncpy` returns the address of the first NUL written, or `d + n`. -/
theorem C53_wcpncpy (m : Mem Int32) (d p n : Nat) (s : List Int32) (h : BStr m p n s) (hm : Mapped m d n)
    (hd : Disjoint d n p (min (s.length + 1) n)) :
    wcpncpy m d p n = some (patch m d (s ++ List.replicate (n - s.length) 0), d + s.length) := by
  unfold wcpncpy
  rw [C53_wcsncpy m d p n s h hm hd]
  simp only [Option.bind_eq_bind, Option.bind_some]
  have hle := h.le
  have out : ∀ a, p ≤ a → a < p + min (s.length + 1) n → patch m d (s ++ List.replicate (n - s.length) 0) a = m a := by
    intro a x y
    apply patch_out
    unfold Disjoint at hd
    simp only [List.length_append, List.length_replicate]
    omega
  have : BStr (patch m d (s ++ List.replicate (n - s.length) 0)) p n s := by
    refine ⟨h.1.congr (fun a x y => out a x (by omega)), h.2.1, ?_⟩
    rcases h.2.2 with h3 | ⟨h3, h4⟩
    · exact Or.inl h3
    · exact Or.inr ⟨h3, by rw [out _ (by omega) (by omega), h4]⟩
  rw [C53_wcsnlen _ _ _ _ this]
  rfl

/-- At most `n` elements of the source are appended, and a terminator always is. -/
theorem C53_wcsncat (m : Mem Int32) (d p n : Nat) (t s : List Int32) (ht : CStr m d t) (hs : BStr m p n s)
    (hm : Mapped m (d + t.length) (s.length + 1))
    (hd : Disjoint (d + t.length) (s.length + 1) p (min (s.length + 1) n)) :
    wcsncat m d p n = some (patch m (d + t.length) (s ++ [0]), d) ∧
      CStr (patch m (d + t.length) (s ++ [0])) d (t ++ s) := by
  constructor
  · unfold wcsncat wcslen
    rw [strlen_eq ht]
    simp only [Option.bind_eq_bind, Option.bind_some]
    rw [strncatLoop_eq d p t.length n s m 0 (by omega) hs hm (by simpa using hd)]
    rfl
  · exact cstr_concat m d t s ht hs.2.1

theorem C53_wcscat (m : Mem Int32) (d p : Nat) (t s : List Int32) (ht : CStr m d t) (hs : CStr m p s)
    (hlen : s.length < 2 ^ 64 - 1)
    (hm : Mapped m (d + t.length) (s.length + 1)) (hd : Disjoint (d + t.length) (s.length + 1) p (s.length + 1)) :
    wcscat m d p = some (patch m (d + t.length) (s ++ [0]), d) ∧
      CStr (patch m (d + t.length) (s ++ [0])) d (t ++ s) := by
  have h := hs.bstr USIZE_MAX
  rw [List.take_of_length_le (by unfold USIZE_MAX; omega)] at h
  refine C53_wcsncat m d p _ t s ht h hm ?_
  unfold Disjoint at *
  omega

/-- The result of `wcsdup` is NULL exactly when the allocation fails; otherwise a copy in the new block. -/
theorem C53_wcsdup (m : Mem Int32) (p : Nat) (s : List Int32) (h : CStr m p s) (malloc : Nat → Option Nat)
    (ha : ∀ b, malloc ((s.length + 1) * 4) = some b →
      Mapped m b (s.length + 1) ∧ Disjoint b (s.length + 1) p (s.length + 1)) :
    (malloc ((s.length + 1) * 4) = none ∧ wcsdup m p malloc = some (m, none)) ∨
    ∃ b, malloc ((s.length + 1) * 4) = some b ∧ wcsdup m p malloc = some (patch m b (s ++ [0]), some b) := by
  unfold wcsdup wcslen
  rw [strlen_eq h]
  simp only [Option.bind_eq_bind, Option.bind_some]
  cases hb : malloc ((s.length + 1) * 4) with
  | none => left; exact ⟨rfl, rfl⟩
  | some b =>
    right
    obtain ⟨h1, h2⟩ := ha b hb
    refine ⟨b, rfl, ?_⟩
    simp only
    rw [memcpyLoop_eq b p (s.length + 1) (s ++ [0]) m 0 (by simp) (cstr_iff.1 h).1 (by simpa using h1) (Or.inr h2)]
    rfl

/-! ## Comparison -/

theorem WSignAgrees.cons {r : Int} {l k : List Int32} (h : WSignAgrees r l k) (b : Int32) :
    WSignAgrees r (b :: l) (b :: k) := by
  obtain ⟨h1, h2, h3⟩ := h
  refine ⟨?_, ?_, ?_⟩
  · rw [h1, List.cons_lt_cons_iff]; simp [Int32.lt_irrefl]
  · rw [h2]; simp
  · rw [h3, List.cons_lt_cons_iff]; simp [Int32.lt_irrefl]

theorem WSignAgrees.ne {b c : Int32} (h : b ≠ c) (l k : List Int32) :
    WSignAgrees (b.toInt - c.toInt) (b :: l) (c :: k) := by
  have hn : b.toInt ≠ c.toInt := fun e => h (Int32.toInt_inj.1 e)
  refine ⟨?_, ?_, ?_⟩
  · rw [List.cons_lt_cons_iff, Int32.lt_iff_toInt_lt]
    constructor
    · intro h; left; omega
    · rintro (h' | h')
      · omega
      · exact absurd h'.1 h
  · constructor
    · intro h; omega
    · intro h'; simp at h'; exact absurd h'.1 h
  · rw [List.cons_lt_cons_iff, Int32.lt_iff_toInt_lt]
    constructor
    · intro h; left; omega
    · rintro (h' | h')
      · omega
      · exact absurd h'.1.symm h

theorem sub_nonneg_exact {a b : Int32} (ha : 0 ≤ a.toInt) (hb : 0 ≤ b.toInt) : (a - b).toInt = a.toInt - b.toInt := by
  rw [Int32.toInt_sub]
  have h1 := Int32.toInt_lt a
  have h2 := Int32.toInt_lt b
  rw [Int.bmod_def]
  omega

theorem toInt_ne_zero {a : Int32} (h : a ≠ 0) (h' : 0 ≤ a.toInt) : 0 < a.toInt := by
  have : a.toInt ≠ (0 : Int32).toInt := fun e => h (Int32.toInt_inj.1 e)
  have z : (0 : Int32).toInt = 0 := rfl
  omega

/-- **C53** (`wcsncmp`), for non-negative elements (wide characters are). Missing: negative `wchar_t` values, see the
violation below. -/
theorem C53_wcsncmp_partial (m : Mem Int32) (n : Nat) : ∀ (s t : List Int32) (p q : Nat), BStr m p n s → BStr m q n t →
    (∀ x ∈ s, 0 ≤ x.toInt) → (∀ x ∈ t, 0 ≤ x.toInt) →
    ∃ r, wcsncmp m p q n = some r ∧ WSignAgrees r.toInt s t := by
  unfold wcsncmp
  induction n with
  | zero =>
    intro s t p q hs ht _ _
    rw [hs.zero, ht.zero]
    exact ⟨0, rfl, by simp [WSignAgrees]⟩
  | succ n ih =>
    intro s t p q hs ht ps pt
    have z : (0 : Int32).toInt = 0 := rfl
    cases s with
    | nil =>
      cases t with
      | nil =>
        refine ⟨0, ?_, by simp [WSignAgrees]⟩
        simp [wcsncmpLoop, hs.nul, ht.nul]
      | cons c t =>
        have hc := toInt_ne_zero ht.head.2 (pt c (by simp))
        refine ⟨0 - c, ?_, ?_⟩
        · simp [wcsncmpLoop, hs.nul, ht.head.1, ht.head.2.symm]
        · rw [sub_nonneg_exact (by rw [z]; omega) (by omega), z]
          refine ⟨?_, ?_, ?_⟩ <;> simp <;> omega
    | cons b s =>
      have hb := toInt_ne_zero hs.head.2 (ps b (by simp))
      cases t with
      | nil =>
        refine ⟨b - 0, ?_, ?_⟩
        · simp [wcsncmpLoop, ht.nul, hs.head.1, hs.head.2]
        · rw [sub_nonneg_exact (by omega) (by rw [z]; omega), z]
          refine ⟨?_, ?_, ?_⟩ <;> simp <;> omega
      | cons c t =>
        simp only [wcsncmpLoop, hs.head.1, ht.head.1, Option.bind_eq_bind, Option.bind_some]
        by_cases e : b = c
        · subst e
          rw [if_neg (by simp), if_neg hs.head.2]
          obtain ⟨r, h1, h2⟩ := ih s t (p + 1) (q + 1) hs.tail ht.tail (fun x hx => ps x (by simp [hx]))
            (fun x hx => pt x (by simp [hx]))
          exact ⟨r, h1, h2.cons b⟩
        · rw [if_pos e]
          refine ⟨_, rfl, ?_⟩
          rw [sub_nonneg_exact (ps b (by simp)) (pt c (by simp))]
          exact .ne e s t

theorem C53_wcscmp_partial (m : Mem Int32) (p q : Nat) (s t : List Int32) (hs : CStr m p s) (ht : CStr m q t)
    (ls : s.length < 2 ^ 64) (lt : t.length < 2 ^ 64) (ps : ∀ x ∈ s, 0 ≤ x.toInt) (pt : ∀ x ∈ t, 0 ≤ x.toInt) :
    ∃ r, wcscmp m p q = some r ∧ WSignAgrees r.toInt s t := by
  have h1 := hs.bstr USIZE_MAX
  have h2 := ht.bstr USIZE_MAX
  rw [List.take_of_length_le (by unfold USIZE_MAX; omega)] at h1 h2
  exact C53_wcsncmp_partial m _ s t p q h1 h2 ps pt

/-- **C53** (violation): the difference of two `wchar_t` wraps, so a string starting with `INT_MIN` compares greater
than one starting with 1. -/
theorem C53_wcscmp_violation :
    ∃ (m : Mem Int32) (p q : Nat) (s t : List Int32) (r : Int32), CStr m p s ∧ CStr m q t ∧ wcscmp m p q = some r ∧
      ¬ WSignAgrees r.toInt s t := by
  refine ⟨ofList 1 [-2147483648, 0, 1, 0], 1, 3, [-2147483648], [1], 2147483647, by simp [CStr, Bytes, ofList],
    by simp [CStr, Bytes, ofList], rfl, ?_⟩
  intro h
  have := h.1.2 (by decide)
  revert this
  decide

/-- Equality is right for all elements. -/
theorem C53_wcsncmp_equal (m : Mem Int32) (n : Nat) : ∀ (s t : List Int32) (p q : Nat), BStr m p n s → BStr m q n t →
    ∃ r, wcsncmp m p q n = some r ∧ (r = 0 ↔ s = t) := by
  unfold wcsncmp
  have sub : ∀ a b : Int32, a ≠ b → ¬ a - b = 0 := by
    intro a b h e
    have := congrArg (· + b) e
    simp only [Int32.sub_add_cancel, Int32.zero_add] at this
    exact h this
  induction n with
  | zero =>
    intro s t p q hs ht
    rw [hs.zero, ht.zero]
    exact ⟨0, rfl, by simp⟩
  | succ n ih =>
    intro s t p q hs ht
    cases s with
    | nil =>
      cases t with
      | nil => exact ⟨0, by simp [wcsncmpLoop, hs.nul, ht.nul], by simp⟩
      | cons c t =>
        refine ⟨0 - c, ?_, ?_⟩
        · simp [wcsncmpLoop, hs.nul, ht.head.1, ht.head.2.symm]
        · simp only [reduceCtorEq, iff_false]; exact sub _ _ ht.head.2.symm
    | cons b s =>
      cases t with
      | nil =>
        refine ⟨b - 0, ?_, ?_⟩
        · simp [wcsncmpLoop, ht.nul, hs.head.1, hs.head.2]
        · simp only [reduceCtorEq, iff_false]; exact sub _ _ hs.head.2
      | cons c t =>
        simp only [wcsncmpLoop, hs.head.1, ht.head.1, Option.bind_eq_bind, Option.bind_some]
        by_cases e : b = c
        · subst e
          rw [if_neg (by simp), if_neg hs.head.2]
          obtain ⟨r, h1, h2⟩ := ih s t (p + 1) (q + 1) hs.tail ht.tail
          exact ⟨r, h1, by rw [h2]; simp⟩
        · rw [if_pos e]
          refine ⟨_, rfl, ?_⟩
          simp only [List.cons.injEq, e, false_and, iff_false]
          exact sub _ _ e

/-- **C53** (`wmemcmp`), for non-negative elements; NULs are ordinary elements. -/
theorem C53_wmemcmp_partial (m : Mem Int32) : ∀ (l k : List Int32) (p q : Nat), l.length = k.length → Bytes m p l →
    Bytes m q k → (∀ x ∈ l, 0 ≤ x.toInt) → (∀ x ∈ k, 0 ≤ x.toInt) →
    ∃ r, wmemcmp m p q l.length = some r ∧ WSignAgrees r.toInt l k
  | [], [], p, q, _, _, _, _, _ => ⟨0, rfl, by simp [WSignAgrees]⟩
  | [], _ :: _, _, _, h, _, _, _, _ => by simp at h
  | _ :: _, [], _, _, h, _, _, _, _ => by simp at h
  | a :: l, b :: k, p, q, h, h1, h2, h3, h4 => by
    simp only [List.length_cons, wmemcmp, h1.1, h2.1, Option.bind_eq_bind, Option.bind_some]
    by_cases e : a = b
    · subst e
      rw [if_neg (by simp)]
      obtain ⟨r, k1, k2⟩ := C53_wmemcmp_partial m l k (p + 1) (q + 1) (by simpa using h) h1.2 h2.2
        (fun x hx => h3 x (by simp [hx])) (fun x hx => h4 x (by simp [hx]))
      exact ⟨r, k1, k2.cons a⟩
    · rw [if_pos e]
      refine ⟨_, rfl, ?_⟩
      rw [sub_nonneg_exact (h3 a (by simp)) (h4 b (by simp))]
      exact .ne e l k

/-! ## Searching -/

theorem C53_wcschr (m : Mem Int32) (p : Nat) (c : Int32) (s : List Int32) (h : CStr m p s) :
    ∃ r, wcschr m p c = some r ∧ Finds p r (FirstAt (s ++ [0]) c) := strchrLoop_eq m c s p h

theorem wcsrchrLoop_eq (m : Mem Int32) (c : Int32) (s : List Int32) : ∀ p last, CStr m p s →
    (wcsrchrLoop m p c last = some last ∧ c ∉ s) ∨
    ∃ i, wcsrchrLoop m p c last = some (some (p + i)) ∧ LastAt s c i := by
  induction s with
  | nil =>
    intro p last h
    left
    rw [wcsrchrLoop, h.nul]
    simp
  | cons b s ih =>
    intro p last h
    rw [wcsrchrLoop, h.head.1]
    simp only [Option.bind_eq_bind, Option.bind_some, ne_eq, h.head.2, not_false_eq_true, if_true]
    rcases ih (p + 1) (if b = c then some p else last) h.tail with ⟨h1, h2⟩ | ⟨i, h1, h2⟩
    · by_cases e : b = c
      · right
        refine ⟨0, by rw [h1, if_pos e]; rfl, by simp [e], ?_⟩
        intro j hj hjc
        obtain ⟨j, rfl⟩ : ∃ k, j = k + 1 := ⟨j - 1, by omega⟩
        exact h2 (List.mem_of_getElem? (by simpa using hjc))
      · left
        rw [h1, if_neg e]
        refine ⟨rfl, ?_⟩
        simp only [List.mem_cons, not_or]
        exact ⟨fun h => e h.symm, h2⟩
    · right
      refine ⟨i + 1, by rw [h1]; congr 2; omega, by simpa using h2.1, ?_⟩
      intro j hj
      obtain ⟨j, rfl⟩ : ∃ k, j = k + 1 := ⟨j - 1, by omega⟩
      simpa using h2.2 j (by omega)

/-- **C53** (`wcsrchr`), for every element except the terminator. Missing: `wcsrchr(s, 0)` must return the
terminator. -/
theorem C53_wcsrchr_partial (m : Mem Int32) (p : Nat) (c : Int32) (s : List Int32) (h : CStr m p s) (hc : c ≠ 0) :
    ∃ r, wcsrchr m p c = some r ∧ Finds p r (LastAt (s ++ [0]) c) := by
  rcases wcsrchrLoop_eq m c s p none h with ⟨x, y⟩ | ⟨i, x, y⟩
  · refine ⟨none, x, Or.inl ⟨rfl, ?_⟩⟩
    intro i hi
    have := List.mem_of_getElem? hi.1
    simp only [List.mem_append, List.mem_singleton] at this
    rcases this with h | h
    · exact y h
    · exact hc h
  · have hi : i < s.length := by
      have := y.1
      rw [List.getElem?_eq_some_iff] at this
      exact this.1
    refine ⟨_, x, Or.inr ⟨i, rfl, by rw [List.getElem?_append_left hi]; exact y.1, ?_⟩⟩
    intro j hj
    by_cases hjl : j < s.length
    · rw [List.getElem?_append_left hjl]; exact y.2 j hj
    · rw [List.getElem?_append_right (by omega)]
      cases hk : j - s.length with
      | zero => simpa using fun h : (0 : Int32) = c => hc h.symm
      | succ k => simp

/-- **C53** fails for `wcsrchr(s, 0)`: NULL for every string. -/
theorem C53_wcsrchr_nul_violation (m : Mem Int32) (p : Nat) (s : List Int32) (h : CStr m p s) :
    wcsrchr m p 0 = some none ∧ LastAt (s ++ [0]) 0 s.length := by
  constructor
  · rcases wcsrchrLoop_eq m 0 s p none h with ⟨x, y⟩ | ⟨i, x, y⟩
    · exact x
    · exact absurd (List.mem_of_getElem? y.1) h.2.2
  · refine ⟨by simp, ?_⟩
    intro j hj
    rw [List.getElem?_eq_none (by simp; omega)]
    simp

theorem C53_wmemchr (m : Mem Int32) (c : Int32) : ∀ (l : List Int32) (p : Nat), Bytes m p l →
    ∃ r, wmemchr m p c l.length = some r ∧ Finds p r (FirstAt l c)
  | [], p, _ => ⟨none, rfl, Or.inl ⟨rfl, by simp [FirstAt]⟩⟩
  | b :: l, p, h => by
    simp only [List.length_cons, wmemchr, h.1, Option.bind_eq_bind, Option.bind_some]
    by_cases e : b = c
    · exact ⟨some p, by simp [e], Or.inr ⟨0, rfl, by simp [FirstAt, e]⟩⟩
    · rw [if_neg e]
      obtain ⟨r, h1, h2⟩ := C53_wmemchr m c l (p + 1) h.2
      refine ⟨r, h1, ?_⟩
      rcases h2 with ⟨rfl, h2⟩ | ⟨i, rfl, h2⟩
      · left
        refine ⟨rfl, ?_⟩
        intro i hi
        cases i with
        | zero => have := hi.1; simp at this; exact e this
        | succ i =>
          apply h2 i
          refine ⟨by simpa using hi.1, fun j hj => ?_⟩
          have := hi.2 (j + 1) (by omega)
          simpa using this
      · right
        refine ⟨i + 1, by congr 1; omega, by simpa using h2.1, ?_⟩
        intro j hj
        cases j with
        | zero => simpa using e
        | succ j => simpa using h2.2 j (by omega)

/-- **C53** (`wcsstr`): the leftmost occurrence; the empty needle matches at the start. -/
theorem C53_wcsstr (m : Mem Int32) (p q : Nat) (s t : List Int32) (hs : CStr m p s) (ht : CStr m q t) :
    ∃ r, wcsstr m p q = some r ∧ Finds p r (LeftmostAt s t) := by
  unfold wcsstr wcslen
  rw [strlen_eq ht]
  simp only [Option.bind_eq_bind, Option.bind_some]
  by_cases e : t = []
  · subst e
    refine ⟨some p, by simp, Or.inr ⟨0, rfl, ⟨by omega, s, rfl⟩, fun j hj => by omega⟩⟩
  · rw [if_neg (by simpa using e), strlen_eq hs]
    simp only [Option.bind_some]
    rw [hs.1.readN, ht.1.readN]
    simp only [Option.bind_some]
    rcases findWindow_spec t e s 0 with ⟨x, y⟩ | ⟨i, x, y⟩
    · rw [x]; exact ⟨none, rfl, Or.inl ⟨rfl, fun i hi => y i hi.1⟩⟩
    · rw [x]; exact ⟨_, rfl, Or.inr ⟨i, by simp, y⟩⟩

/-! ## Spans and tokens -/

theorem wcschr_isNone (m : Mem Int32) (q : Nat) (c : Int32) (set : List Int32) (h : CStr m q set) (hc : c ≠ 0) :
    ∃ r, wcschr m q c = some r ∧ (r.isNone = true ↔ c ∉ set) := by
  obtain ⟨r, h1, h2⟩ := C53_wcschr m q c set h
  refine ⟨r, h1, ?_⟩
  rcases h2 with ⟨rfl, h2⟩ | ⟨i, rfl, h2⟩
  · simp only [Option.isNone_none, true_iff]
    intro hm
    have : ∃ i, FirstAt (set ++ [0]) c i := by
      have hm' : c ∈ set ++ [0] := by simp [hm]
      refine ⟨(set ++ [0]).idxOf c, ?_, ?_⟩
      · rw [List.getElem?_eq_getElem (List.idxOf_lt_length_of_mem hm')]
        simp
      · intro j hj hjc
        have hlt : j < (set ++ [0]).length := by
          rw [List.getElem?_eq_some_iff] at hjc
          exact hjc.1
        have := List.not_of_lt_findIdx hj
        rw [List.getElem?_eq_getElem hlt] at hjc
        simp only [Option.some.injEq] at hjc
        simp [hjc] at this
    obtain ⟨i, hi⟩ := this
    exact h2 i hi
  · simp only [Option.isNone_some, Bool.false_eq_true, false_iff, Classical.not_not]
    have := List.mem_of_getElem? h2.1
    simpa [hc] using this

theorem wcsspnLoop_eq (m : Mem Int32) (q : Nat) (set : List Int32) (reject : Bool) (hq : CStr m q set) (s : List Int32) :
    ∀ p n, CStr m p s →
    ∃ a b, LongestPrefix (fun x => decide (x ∉ set) = reject) s a b ∧ wcsspnLoop m p q reject n = some (n + a.length) := by
  induction s with
  | nil =>
    intro p n h
    rw [wcsspnLoop, h.nul]
    exact ⟨[], [], by simp [LongestPrefix], by simp⟩
  | cons x s ih =>
    intro p n h
    rw [wcsspnLoop, h.head.1]
    simp only [Option.bind_eq_bind, Option.bind_some, ne_eq, h.head.2, not_false_eq_true, if_true]
    obtain ⟨r, h1, h2⟩ := wcschr_isNone m q x set hq h.head.2
    rw [h1]
    simp only [Option.bind_some]
    have h3 : r.isNone = decide (x ∉ set) := by
      rw [Bool.eq_iff_iff, h2]; simp
    rw [h3]
    by_cases e : decide (x ∉ set) = reject
    · rw [if_pos e]
      obtain ⟨a, b, ⟨k1, k2, k3⟩, k4⟩ := ih (p + 1) (n + 1) h.tail
      refine ⟨x :: a, b, ⟨by simp [k1], ?_, k3⟩, by rw [k4]; simp; omega⟩
      intro y hy
      rcases List.mem_cons.1 hy with rfl | hy
      · exact e
      · exact k2 y hy
    · rw [if_neg e]
      refine ⟨[], x :: s, ⟨rfl, by simp, ?_⟩, by simp⟩
      intro y hy
      simp at hy
      subst hy
      exact e

/-- **C53** (`wcsspn`). -/
theorem C53_wcsspn (m : Mem Int32) (p q : Nat) (s set : List Int32) (hs : CStr m p s) (hq : CStr m q set) :
    ∃ a b, LongestPrefix (· ∈ set) s a b ∧ wcsspn m p q = some a.length := by
  obtain ⟨a, b, ⟨h1, h2, h3⟩, h4⟩ := wcsspnLoop_eq m q set false hq s p 0 hs
  refine ⟨a, b, ⟨h1, fun x hx => ?_, fun x hx hm => h3 x hx ?_⟩, by simpa [wcsspn, wcscspn] using h4⟩
  · have := h2 x hx
    simpa using this
  · simpa using hm

/-- **C53** (`wcscspn`). -/
theorem C53_wcscspn (m : Mem Int32) (p q : Nat) (s set : List Int32) (hs : CStr m p s) (hq : CStr m q set) :
    ∃ a b, LongestPrefix (· ∉ set) s a b ∧ wcscspn m p q = some a.length := by
  obtain ⟨a, b, ⟨h1, h2, h3⟩, h4⟩ := wcsspnLoop_eq m q set true hq s p 0 hs
  refine ⟨a, b, ⟨h1, fun x hx => ?_, fun x hx hm => h3 x hx ?_⟩, by simpa [wcsspn, wcscspn] using h4⟩
  · have := h2 x hx
    simpa using this
  · simpa using hm

/-- **C53** (`wcspbrk`). -/
theorem C53_wcspbrk (m : Mem Int32) (p q : Nat) (s sep : List Int32) (hs : CStr m p s) (hq : CStr m q sep) :
    (wcspbrk m p q = some none ∧ ∀ x ∈ s, x ∉ sep) ∨
    ∃ a c b, s = a ++ c :: b ∧ (∀ x ∈ a, x ∉ sep) ∧ c ∈ sep ∧ wcspbrk m p q = some (some (p + a.length)) := by
  obtain ⟨a, b, ⟨h1, h2, h3⟩, h4⟩ := C53_wcscspn m p q s sep hs hq
  subst h1
  have hd := hs.drop
  unfold wcspbrk
  rw [h4]
  simp only [Option.bind_eq_bind, Option.bind_some]
  cases b with
  | nil => left; rw [hd.nul]; exact ⟨by simp, by simpa using h2⟩
  | cons c b =>
    right
    refine ⟨a, c, b, rfl, h2, ?_, ?_⟩
    · exact Classical.not_not.1 (h3 c rfl)
    · rw [hd.head.1]; simp [hd.head.2]

theorem wcstokFrom_eq (m : Mem Int32) (h q : Nat) (s sep : List Int32) (hs : CStr m h s) (hq : CStr m q sep) :
    ((∀ x ∈ s, x ∈ sep) ∧ wcstokFrom m h q = some (m, none, none)) ∨
    ∃ d t r, s = d ++ t ++ r ∧ (∀ x ∈ d, x ∈ sep) ∧ t ≠ [] ∧ (∀ x ∈ t, x ∉ sep) ∧
      ((r = [] ∧ wcstokFrom m h q = some (m, none, some (h + d.length))) ∨
       ∃ c r', r = c :: r' ∧ c ∈ sep ∧
        wcstokFrom m h q = some (patch m (h + d.length + t.length) [0],
          some (h + d.length + t.length + 1), some (h + d.length))) := by
  obtain ⟨d, b, ⟨h1, h2, h3⟩, h4⟩ := C53_wcsspn m h q s sep hs hq
  subst h1
  have hd := hs.drop
  unfold wcstokFrom
  rw [h4]
  simp only [Option.bind_eq_bind, Option.bind_some]
  cases b with
  | nil => left; rw [hd.nul]; exact ⟨by simpa using h2, by simp⟩
  | cons x b =>
    right
    rw [hd.head.1]
    simp only [Option.bind_some, if_neg hd.head.2]
    have hx : x ∉ sep := h3 x rfl
    rcases C53_wcspbrk m (h + d.length) q (x :: b) sep hd hq with ⟨e1, e2⟩ | ⟨t, c, r, e1, e2, e3, e4⟩
    · refine ⟨d, x :: b, [], by simp, h2, by simp, e2, Or.inl ⟨rfl, ?_⟩⟩
      rw [e1]
      rfl
    · have ht : t ≠ [] := by
        rintro rfl
        simp only [List.nil_append, List.cons.injEq] at e1
        exact hx (e1.1 ▸ e3)
      refine ⟨d, t, c :: r, by rw [e1]; simp, h2, ht, e2, Or.inr ⟨c, r, rfl, e3, ?_⟩⟩
      rw [e4]
      simp only [Option.bind_some]
      have : (m (h + d.length + t.length)).isSome := by
        rw [e1] at hd
        rw [hd.drop.head.1]; rfl
      rw [store_patch this]
      rfl

theorem wcstok_run (q : Nat) (sep : List Int32) (n : Nat) : ∀ (m : Mem Int32) (h : Nat) (s : List Int32),
    s.length ≤ n → CStr m h s → CStr m q sep → Disjoint h s.length q (sep.length + 1) →
    ∀ a b, wcstok m a q b = wcstokFrom m h q →
    ∃ ts ps m', Tokens sep s ts ∧ WcstokRun q m a b ps m' ∧ AllStr m' ps ts ∧
      ∀ x, (x < h ∨ h + s.length ≤ x) → m' x = m x := by
  induction n with
  | zero =>
    intro m h s hn hs hq hd a b hab
    have : s = [] := List.length_eq_zero_iff.1 (by omega)
    subst this
    rcases wcstokFrom_eq m h q [] sep hs hq with ⟨-, h2⟩ | ⟨d, t, r, h1, -, h2, -⟩
    · exact ⟨[], [], m, .done (by simp), .stop (by rw [hab, h2]), trivial, fun _ _ => rfl⟩
    · simp at h1; exact absurd h1.2.1 h2
  | succ n ih =>
    intro m h s hn hs hq hd a b hab
    rcases wcstokFrom_eq m h q s sep hs hq with ⟨h1, h2⟩ | ⟨d, t, r, h1, h2, h3, h4, h5⟩
    · exact ⟨[], [], m, .done h1, .stop (by rw [hab, h2]), trivial, fun _ _ => rfl⟩
    · have ht : 0 < t.length := List.length_pos_iff.2 h3
      subst h1
      simp only [List.length_append] at hn hd
      have hdt : CStr m (h + d.length) (t ++ r) := by rw [List.append_assoc] at hs; exact hs.drop
      rcases h5 with ⟨rfl, h5⟩ | ⟨c, r', rfl, hc, h5⟩
      · simp only [List.append_nil] at hdt
        refine ⟨[t], [h + d.length], m, .token h2 h3 h4 (by simp) (.done (by simp)),
          .more (by rw [hab, h5]) (.stop (m' := m) (l := none) rfl), ⟨hdt, trivial⟩, fun _ _ => rfl⟩
      · simp only [List.length_cons] at hn hd
        have hdr := hdt.drop
        have hq' : CStr (patch m (h + d.length + t.length) [0]) q sep := by
          refine hq.congr (fun a x y => patch_out ?_)
          unfold Disjoint at hd
          simp only [List.length_singleton]
          omega
        have hr' : CStr (patch m (h + d.length + t.length) [0]) (h + d.length + t.length + 1) r' := by
          refine hdr.tail.congr (fun a x y => patch_out ?_)
          simp only [List.length_singleton]
          omega
        have htok : CStr (patch m (h + d.length + t.length) [0]) (h + d.length) t := by
          refine ⟨(bytes_append.1 hdt.1).1.congr (fun a x y => patch_out (by omega)), ?_, ?_⟩
          · simp [patch]
          · exact fun h0 => hdt.2.2 (List.mem_append_left _ h0)
        obtain ⟨ts, ps, m', k1, k2, k3, k4⟩ := ih _ (h + d.length + t.length + 1) r' (by omega) hr' hq'
          (by unfold Disjoint at *; omega) none (some (h + d.length + t.length + 1)) rfl
        refine ⟨t :: ts, (h + d.length) :: ps, m', ?_, .more (by rw [hab, h5]) k2, ?_, ?_⟩
        · refine .token h2 h3 h4 ?_ (k1.cons_sep hc)
          intro x hx
          simp at hx
          subst hx
          exact hc
        · refine ⟨htok.congr (fun a x y => k4 a ?_), k3⟩
          omega
        · intro x hx
          simp only [List.length_append, List.length_cons] at hx
          rw [k4 x (by omega)]
          apply patch_out
          simp only [List.length_singleton]
          omega

/-- **C53** (`wcstok`): exactly the tokens, as for `strtok_r` (C21). -/
theorem C53_wcstok (m : Mem Int32) (p q : Nat) (s sep : List Int32) (state : Option Nat) (hs : CStr m p s)
    (hq : CStr m q sep) (hd : Disjoint p s.length q (sep.length + 1)) :
    ∃ ts ps m', Tokens sep s ts ∧ WcstokRun q m (some p) state ps m' ∧ AllStr m' ps ts ∧
      ∀ x, (x < p ∨ p + s.length ≤ x) → m' x = m x :=
  wcstok_run q sep s.length m p s (by omega) hs hq hd (some p) state rfl

/-! ## wmem functions -/

theorem C53_wmemset (m : Mem Int32) (p : Nat) (c : Int32) (n : Nat) (h : Mapped m p n) :
    wmemset m p c n = some (patch m p (List.replicate n c), p) := by
  unfold wmemset
  rw [memsetLoop_eq p n c n m 0 (by omega) h]
  rfl

theorem encW_length (l : List Int32) : (l.flatMap encW).length = l.length * 4 := by
  induction l with
  | nil => rfl
  | cons a l ih => simp [List.flatMap_cons, ih, encW]; omega

/-- Representation is faithful. -/
theorem encW_inj {a b : Int32} (h : encW a = encW b) : a = b := by
  simp only [encW, List.cons.injEq, and_true] at h
  obtain ⟨h0, h1, h2, h3⟩ := h
  rw [← UInt8.toNat_inj] at h0 h1 h2 h3
  simp only [UInt32.toNat_toUInt8, UInt32.toNat_shiftRight] at h0 h1 h2 h3
  have e8 : (8 : UInt32).toNat % 32 = 8 := rfl
  have e16 : (16 : UInt32).toNat % 32 = 16 := rfl
  have e24 : (24 : UInt32).toNat % 32 = 24 := rfl
  rw [e8] at h1
  rw [e16] at h2
  rw [e24] at h3
  simp only [Nat.shiftRight_eq_div_pow] at h1 h2 h3
  have ha := UInt32.toNat_lt a.toUInt32
  have hb := UInt32.toNat_lt b.toUInt32
  have : a.toUInt32 = b.toUInt32 := by
    rw [← UInt32.toNat_inj]
    omega
  have := congrArg UInt32.toInt32 this
  simpa using this

/-- **C53** (`wmemcpy`): for disjoint arrays of `n` wide characters. -/
theorem C53_wmemcpy (m : Mem UInt8) (d s : Nat) (l : List Int32) (hl : l.length * 4 < 2 ^ 64)
    (hs : Bytes m s (l.flatMap encW)) (hd : Mapped m d (l.length * 4))
    (h : Disjoint d (l.length * 4) s (l.length * 4)) :
    wmemcpy m d s l.length = some (patch m d (l.flatMap encW), d) := by
  unfold wmemcpy
  rw [Nat.mod_eq_of_lt hl, ← encW_length]
  rw [← encW_length] at hd h
  exact C17_memcpy m d s _ hs hd h

/-- **C53** (`wmemmove`): also for overlapping arrays. -/
theorem C53_wmemmove (m : Mem UInt8) (d s : Nat) (l : List Int32) (hl : l.length * 4 < 2 ^ 64)
    (hs : Bytes m s (l.flatMap encW)) (hd : Mapped m d (l.length * 4)) :
    wmemmove m d s l.length = some (patch m d (l.flatMap encW), d) := by
  unfold wmemmove
  rw [Nat.mod_eq_of_lt hl, ← encW_length]
  rw [← encW_length] at hd
  exact C17_memmove m d s _ hs hd

/-! ## Cases meeting the hypotheses -/

example : ∃ r, wcscmp (ofList 1 [0x20ac, 0, 0x20ad, 0]) 1 3 = some r ∧ r.toInt < 0 := by
  obtain ⟨r, h1, h2⟩ := C53_wcscmp_partial (ofList 1 [0x20ac, 0, 0x20ad, 0]) 1 3 [0x20ac] [0x20ad]
    (by simp [CStr, Bytes, ofList]) (by simp [CStr, Bytes, ofList]) (by simp) (by simp) (by decide) (by decide)
  exact ⟨r, h1, h2.1.2 (by decide)⟩

example : ∃ r, wcsstr (ofList 1 [65, 0x20ac, 66, 0, 0x20ac, 66, 0]) 1 5 = some r ∧
    Finds 1 r (LeftmostAt [(65 : Int32), 0x20ac, 66] [0x20ac, 66]) :=
  C53_wcsstr _ 1 5 _ _ (by simp [CStr, Bytes, ofList]) (by simp [CStr, Bytes, ofList])

example : ∃ m : Mem Int32, CStr m 1 [44, 97, 44, 44, 98] ∧ CStr m 7 [44] ∧ Disjoint 1 5 7 2 :=
  ⟨ofList 1 [44, 97, 44, 44, 98, 0, 44, 0], by simp [CStr, Bytes, ofList], by simp [CStr, Bytes, ofList],
    by simp [Disjoint]⟩

end Verif.Str
