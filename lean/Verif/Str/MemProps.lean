import Verif.Str.MemModel

/-!
# C17, C18, C19, C20 for the `mem*` functions
-/

namespace Verif.Str

open Verif.Mem

/-! ## Specifications -/

/-- The sign of `r` tells how `l` and `k` compare lexicographically as sequences of unsigned bytes. -/
def SignAgrees (r : Int) (l k : List UInt8) : Prop :=
  (r < 0 ↔ l < k) ∧ (r = 0 ↔ l = k) ∧ (0 < r ↔ k < l)

/-- An `int` converted to `unsigned char`: the value modulo 256. -/
def uchar (c : Int) : UInt8 := UInt8.ofNat (c % 256).toNat

theorem toUChar_eq (c : Int) : toUChar c = uchar c := rfl

/-- `i` is the first index of `c` in `l`. -/
def FirstAt {α : Type} (l : List α) (c : α) (i : Nat) : Prop := l[i]? = some c ∧ ∀ j, j < i → l[j]? ≠ some c

/-- `i` is the last index of `c` in `l`. -/
def LastAt {α : Type} (l : List α) (c : α) (i : Nat) : Prop := l[i]? = some c ∧ ∀ j, i < j → l[j]? ≠ some c

/-- The pointer result `r` of a search in an array at `p` is the first position with property `P`, NULL if none. -/
def Finds (p : Nat) (r : Option Nat) (P : Nat → Prop) : Prop :=
  (r = none ∧ ∀ i, ¬ P i) ∨ ∃ i, r = some (p + i) ∧ P i

/-- `needle` occurs in `hay` at offset `i`. -/
def OccursAt {α : Type} (hay needle : List α) (i : Nat) : Prop :=
  i ≤ hay.length ∧ ∃ rest, hay.drop i = needle ++ rest

/-- `i` is the leftmost offset at which `needle` occurs. -/
def LeftmostAt {α : Type} (hay needle : List α) (i : Nat) : Prop :=
  OccursAt hay needle i ∧ ∀ j, j < i → ¬ OccursAt hay needle j

/-! ## Copying -/

theorem memcpyLoop_eq {α : Type} (d s n : Nat) (l : List α) : ∀ (m : Mem α) (i : Nat), i + l.length = n →
    Bytes m (s + i) l → Mapped m (d + i) l.length → (d ≤ s ∨ Disjoint d n s n) →
    memcpyLoop m d s n i = some (patch m (d + i) l) := by
  induction l with
  | nil =>
    intro m i hi _ _ _
    rw [memcpyLoop, if_neg (by simp at hi; omega)]
    simp
  | cons b l ih =>
    intro m i hi hb hm ho
    simp only [List.length_cons] at hi hm
    rw [memcpyLoop, if_pos (by omega), hb.1]
    simp only [Option.bind_eq_bind, Option.bind_some]
    rw [store_patch hm.head]
    simp only [Option.bind_some]
    rw [ih _ (i + 1) (by omega) ?_ ?_ ho]
    · rw [show d + (i + 1) = d + i + 1 by omega, patch_cons]
    · refine Bytes.congr (m := m) hb.2 ?_
      intro a h1 h2
      apply patch_out
      simp only [List.length_singleton]
      rcases ho with ho | ho
      · right; omega
      · unfold Disjoint at ho; omega
    · exact mapped_patch (by have := hm.shift; rwa [show d + (i + 1) = d + i + 1 by omega])

/-- **C17** (`memcpy`). For disjoint regions the `n` source bytes end up at the destination, every other byte of
memory is unchanged, only the two regions are touched, and the destination is returned. -/
theorem C17_memcpy (m : Mem UInt8) (d s : Nat) (l : List UInt8) (hs : Bytes m s l) (hd : Mapped m d l.length)
    (h : Disjoint d l.length s l.length) : memcpy m d s l.length = some (patch m d l, d) := by
  unfold memcpy
  rw [memcpyLoop_eq d s _ l m 0 (by omega) hs hd (Or.inr h)]
  rfl

theorem memmoveDown_eq {α : Type} (d s : Nat) (hsd : s ≤ d) (n : Nat) : ∀ (m : Mem α) (l : List α), l.length = n →
    Bytes m s l → Mapped m d n → memmoveDown m d s n = some (patch m d l) := by
  induction n with
  | zero =>
    intro m l hl _ _
    rw [List.length_eq_zero_iff.1 hl]
    simp [memmoveDown]
  | succ n ih =>
    intro m l hl hb hm
    obtain ⟨l', b, rfl⟩ : ∃ l' b, l = l' ++ [b] := by
      have hne : l ≠ [] := by intro h; simp [h] at hl
      exact ⟨l.dropLast, l.getLast hne, (List.dropLast_concat_getLast hne).symm⟩
    simp only [List.length_append, List.length_singleton] at hl
    have hl' : l'.length = n := by omega
    obtain ⟨h1, h2, -⟩ := bytes_append.1 hb
    rw [memmoveDown, ← hl', h2]
    simp only [Option.bind_eq_bind, Option.bind_some]
    rw [store_patch (by rw [hl']; exact hm n (by omega))]
    simp only [Option.bind_some]
    rw [hl', ih _ l' hl' ?_ ?_]
    · rw [← hl', patch_append']
    · refine Bytes.congr (m := m) h1 ?_
      intro a _ h
      exact patch_out (by left; omega)
    · exact mapped_patch (hm.mono (by omega))

/-- **C17** (`memmove`). Whatever the overlap, the `n` bytes that were at `s` end up at `d`, every other byte of
memory is unchanged, only the two regions are touched, and `d` is returned. -/
theorem C17_memmove (m : Mem UInt8) (d s : Nat) (l : List UInt8) (hs : Bytes m s l) (hd : Mapped m d l.length) :
    memmove m d s l.length = some (patch m d l, d) := by
  unfold memmove
  split
  · rw [memmoveDown_eq d s (by omega) _ m l rfl hs hd]
    rfl
  · rw [memcpyLoop_eq d s _ l m 0 (by omega) hs hd (Or.inl (by omega))]
    rfl

theorem memsetLoop_eq {α : Type} (s n : Nat) (b : α) (k : Nat) : ∀ (m : Mem α) (i : Nat), i + k = n →
    Mapped m (s + i) k → memsetLoop m s b n i = some (patch m (s + i) (List.replicate k b)) := by
  induction k with
  | zero =>
    intro m i hi _
    rw [memsetLoop, if_neg (by omega)]
    simp
  | succ k ih =>
    intro m i hi hm
    rw [memsetLoop, if_pos (by omega), store_patch hm.head]
    simp only [Option.bind_eq_bind, Option.bind_some]
    rw [ih _ (i + 1) (by omega) (mapped_patch (by have := hm.shift; rwa [show s + (i + 1) = s + i + 1 by omega]))]
    rw [show s + (i + 1) = s + i + 1 by omega, patch_cons, List.replicate_succ]

/-- **C17** (`memset`). The `n` bytes at `s` become `c` modulo 256, nothing else changes, `s` is returned. -/
theorem C17_memset (m : Mem UInt8) (s : Nat) (c : Int) (n : Nat) (h : Mapped m s n) :
    memset m s c n = some (patch m s (List.replicate n (uchar c)), s) := by
  unfold memset
  rw [memsetLoop_eq s n _ n m 0 (by omega) h]
  rfl

/-- What `patch` means, so that the statements above can be read on their own: inside the region the new bytes,
outside the old ones. -/
theorem C17_patch_meaning (m : Mem UInt8) (d : Nat) (l : List UInt8) :
    Bytes (patch m d l) d l ∧ ∀ a, (a < d ∨ d + l.length ≤ a) → patch m d l a = m a :=
  ⟨bytes_patch m d l, fun _ h => patch_out h⟩

/-! ## Searching -/

theorem crateMemchr_spec (c : UInt8) (l : List UInt8) :
    (crateMemchr c l = none ∧ ∀ i, ¬ FirstAt l c i) ∨ ∃ i, crateMemchr c l = some i ∧ FirstAt l c i := by
  induction l with
  | nil => left; simp [crateMemchr, FirstAt]
  | cons b l ih =>
    by_cases hb : b = c
    · right
      exact ⟨0, by simp [crateMemchr, hb], by simp [FirstAt, hb]⟩
    · rcases ih with ⟨h1, h2⟩ | ⟨i, h1, h2⟩
      · left
        refine ⟨by simp [crateMemchr, hb, h1], ?_⟩
        intro i hi
        cases i with
        | zero => have := hi.1; simp at this; exact hb this
        | succ i =>
          refine h2 i ⟨by simpa using hi.1, fun j hj => ?_⟩
          simpa using hi.2 (j + 1) (by omega)
      · right
        refine ⟨i + 1, by simp [crateMemchr, hb, h1], by simpa using h2.1, ?_⟩
        intro j hj
        cases j with
        | zero => simpa using hb
        | succ j => simpa using h2.2 j (by omega)

/-- **C19** (`memchr`). Pointer to the first occurrence in the range, NULL exactly when there is none. -/
theorem C19_memchr (m : Mem UInt8) (p : Nat) (c : Int) (l : List UInt8) (h : Bytes m p l) :
    ∃ r, memchr m p c l.length = some r ∧ Finds p r (FirstAt l (uchar c)) := by
  unfold memchr
  rw [h.readN]
  simp only [Option.bind_eq_bind, Option.bind_some, toUChar_eq]
  rcases crateMemchr_spec (uchar c) l with ⟨h1, h2⟩ | ⟨i, h1, h2⟩
  · rw [h1]; exact ⟨none, rfl, Or.inl ⟨rfl, h2⟩⟩
  · rw [h1]; exact ⟨_, rfl, Or.inr ⟨i, rfl, h2⟩⟩

theorem crateMemrchr_spec (c : UInt8) (l : List UInt8) :
    (crateMemrchr c l = none ∧ c ∉ l) ∨ ∃ i, crateMemrchr c l = some i ∧ LastAt l c i := by
  induction l with
  | nil => left; simp [crateMemrchr]
  | cons b l ih =>
    rcases ih with ⟨h1, h2⟩ | ⟨i, h1, h2⟩
    · by_cases hb : b = c
      · right
        refine ⟨0, by simp [crateMemrchr, h1, hb], by simp [hb], ?_⟩
        intro j hj
        obtain ⟨j, rfl⟩ : ∃ k, j = k + 1 := ⟨j - 1, by omega⟩
        simp only [List.getElem?_cons_succ]
        intro h
        exact h2 (List.mem_of_getElem? h)
      · left
        refine ⟨by simp [crateMemrchr, h1, hb], ?_⟩
        simp only [List.mem_cons, not_or]
        exact ⟨fun h => hb h.symm, h2⟩
    · right
      refine ⟨i + 1, by simp [crateMemrchr, h1], by simpa using h2.1, ?_⟩
      intro j hj
      obtain ⟨j, rfl⟩ : ∃ k, j = k + 1 := ⟨j - 1, by omega⟩
      simpa using h2.2 j (by omega)

/-- **C19** (`memrchr`). Pointer to the last occurrence in the range, NULL exactly when there is none. -/
theorem C19_memrchr (m : Mem UInt8) (p : Nat) (c : Int) (l : List UInt8) (h : Bytes m p l) :
    ∃ r, memrchr m p c l.length = some r ∧ Finds p r (LastAt l (uchar c)) := by
  unfold memrchr
  rw [h.readN]
  simp only [Option.bind_eq_bind, Option.bind_some, toUChar_eq]
  rcases crateMemrchr_spec (uchar c) l with ⟨h1, h2⟩ | ⟨i, h1, h2⟩
  · rw [h1]
    exact ⟨none, rfl, Or.inl ⟨rfl, fun i hi => h2 (List.mem_of_getElem? hi.1)⟩⟩
  · rw [h1]; exact ⟨_, rfl, Or.inr ⟨i, rfl, h2⟩⟩

/-- **C17** (`memccpy`). Copies up to and including the first `c`, or all `n` bytes if there is none, and returns the
address after the copied `c`, NULL if there is none. -/
theorem C17_memccpy (m : Mem UInt8) (d s : Nat) (c : Int) (l : List UInt8) (hs : Bytes m s l)
    (hd : Mapped m d l.length) (h : Disjoint d l.length s l.length) :
    (∃ pre post, l = pre ++ uchar c :: post ∧ uchar c ∉ pre ∧
      memccpy m d s c l.length = some (patch m d (pre ++ [uchar c]), some (d + pre.length + 1))) ∨
    (uchar c ∉ l ∧ memccpy m d s c l.length = some (patch m d l, none)) := by
  unfold memccpy memchr
  rw [hs.readN]
  simp only [Option.bind_eq_bind, Option.bind_some, toUChar_eq]
  rcases crateMemchr_spec (uchar c) l with ⟨h1, h2⟩ | ⟨i, h1, h2⟩
  · right
    have hn : uchar c ∉ l := by
      intro hmem
      have key : ∀ i j : Nat, j < i → l[j]? ≠ some (uchar c) := by
        intro i
        induction i with
        | zero => intro j hj; omega
        | succ i ih =>
          intro j hj
          by_cases e : j < i
          · exact ih j e
          · have : j = i := by omega
            subst this
            exact fun hc => h2 j ⟨hc, ih⟩
      obtain ⟨j, hj⟩ := List.mem_iff_getElem?.1 hmem
      exact key (j + 1) j (by omega) hj
    refine ⟨hn, ?_⟩
    simp only [h1, Option.bind_some]
    rw [C17_memcpy m d s l hs hd h]
    rfl
  · left
    have hi : i < l.length := by
      have := h2.1
      rw [List.getElem?_eq_some_iff] at this
      exact this.1
    have hc : l[i] = uchar c := by
      have := h2.1
      rw [List.getElem?_eq_getElem hi] at this
      simpa using this
    have hsplit : l = l.take i ++ uchar c :: l.drop (i + 1) := by
      rw [← hc]; simp
    refine ⟨l.take i, l.drop (i + 1), hsplit, ?_, ?_⟩
    · intro hmem
      obtain ⟨j, hj⟩ := List.mem_iff_getElem?.1 hmem
      rw [List.getElem?_take] at hj
      split at hj
      · rename_i hji; exact h2.2 j hji hj
      · simp at hj
    · simp only [h1, Option.bind_some]
      have hlen : (l.take i ++ [uchar c]).length = i + 1 := by simp; omega
      rw [show s + i - s + 1 = (l.take i ++ [uchar c]).length by rw [hlen]; omega]
      rw [C17_memcpy m d s (l.take i ++ [uchar c])]
      · simp only [Option.bind_some]
        rw [hlen]
        have : (l.take i).length = i := by simp; omega
        rw [this]
        rfl
      · rw [hsplit, show l.take i ++ uchar c :: l.drop (i + 1) =
          (l.take i ++ [uchar c]) ++ l.drop (i + 1) by simp] at hs
        exact (bytes_append.1 hs).1
      · rw [hlen]; exact hd.mono (by omega)
      · rw [hlen]; unfold Disjoint at *; omega

/-! ## Comparing -/

theorem SignAgrees.nil : SignAgrees 0 [] [] := by simp [SignAgrees]

theorem SignAgrees.cons {r : Int} {l k : List UInt8} (h : SignAgrees r l k) (b : UInt8) :
    SignAgrees r (b :: l) (b :: k) := by
  obtain ⟨h1, h2, h3⟩ := h
  refine ⟨?_, ?_, ?_⟩
  · rw [h1, List.cons_lt_cons_iff]; simp [UInt8.lt_irrefl]
  · rw [h2]; simp
  · rw [h3, List.cons_lt_cons_iff]; simp [UInt8.lt_irrefl]

theorem SignAgrees.ne {b c : UInt8} (h : b ≠ c) (l k : List UInt8) :
    SignAgrees ((b.toNat : Int) - c.toNat) (b :: l) (c :: k) := by
  have hn : b.toNat ≠ c.toNat := fun e => h (UInt8.toNat_inj.1 e)
  refine ⟨?_, ?_, ?_⟩
  · rw [List.cons_lt_cons_iff, UInt8.lt_iff_toNat_lt]
    constructor
    · intro h; left; omega
    · rintro (h' | h')
      · omega
      · exact absurd h'.1 h
  · constructor
    · intro h; omega
    · intro h'; simp at h'; exact absurd h'.1 h
  · rw [List.cons_lt_cons_iff, UInt8.lt_iff_toNat_lt]
    constructor
    · intro h; left; omega
    · rintro (h' | h')
      · omega
      · exact absurd h'.1.symm h

theorem SignAgrees.append {r : Int} {l k : List UInt8} (h : SignAgrees r l k) (pre : List UInt8) :
    SignAgrees r (pre ++ l) (pre ++ k) := by
  induction pre with
  | nil => exact h
  | cons b pre ih => exact ih.cons b

theorem leValue_inj {l k : List UInt8} (hl : l.length = k.length) (h : leValue l = leValue k) : l = k := by
  induction l generalizing k with
  | nil => simp at hl; exact (List.length_eq_zero_iff.1 hl.symm).symm
  | cons b l ih =>
    cases k with
    | nil => simp at hl
    | cons c k =>
      simp only [leValue] at h
      have hb := b.toNat_lt
      have hc := c.toNat_lt
      have h1 : b.toNat = c.toNat := by omega
      have h2 : leValue l = leValue k := by omega
      rw [UInt8.toNat_inj.1 h1, ih (by simpa using hl) h2]

theorem memcmpTail_eq (l : List UInt8) : ∀ (m : Mem UInt8) (k : List UInt8) (a b : Nat), l.length = k.length →
    Bytes m a l → Bytes m b k → ∃ r, memcmpTail m a b l.length = some r ∧ SignAgrees r l k := by
  induction l with
  | nil =>
    intro m k a b hl _ _
    rw [List.length_eq_zero_iff.1 hl.symm]
    exact ⟨0, rfl, .nil⟩
  | cons c l ih =>
    intro m k a b hl ha hb
    cases k with
    | nil => simp at hl
    | cons d k =>
      simp only [List.length_cons, memcmpTail, ha.1, hb.1, Option.bind_eq_bind, Option.bind_some]
      by_cases e : c = d
      · subst e
        simp only [ne_eq, not_true_eq_false, if_false]
        obtain ⟨r, h1, h2⟩ := ih m k (a + 1) (b + 1) (by simpa using hl) ha.2 hb.2
        exact ⟨r, h1, h2.cons c⟩
      · rw [if_pos e]
        exact ⟨_, rfl, .ne e l k⟩

theorem memcmpWord_eq (l : List UInt8) : ∀ (m : Mem UInt8) (k : List UInt8) (a b i : Nat),
    l.length = k.length → i + l.length = 8 → l ≠ k →
    Bytes m (a + i) l → Bytes m (b + i) k → ∃ r, memcmpWord m a b i = some r ∧ r ≠ 0 ∧ SignAgrees r l k := by
  induction l with
  | nil =>
    intro m k a b i hl _ hne
    exact absurd (List.length_eq_zero_iff.1 hl.symm).symm hne
  | cons c l ih =>
    intro m k a b i hl hi hne ha hb
    cases k with
    | nil => simp at hl
    | cons d k =>
      simp only [List.length_cons] at hi
      rw [memcmpWord, if_pos (by omega), ha.1, hb.1]
      simp only [Option.bind_eq_bind, Option.bind_some]
      by_cases e : c = d
      · subst e
        simp only [ne_eq, not_true_eq_false, if_false]
        obtain ⟨r, h1, h0, h2⟩ := ih m k a b (i + 1) (by simpa using hl) (by omega) (by simpa using hne) ha.2 hb.2
        exact ⟨r, h1, h0, h2.cons c⟩
      · rw [if_pos e]
        refine ⟨_, rfl, ?_, .ne e l k⟩
        intro h
        exact e (UInt8.toNat_inj.1 (by omega))

/-- Once two prefixes of equal length differ, what follows does not matter. -/
theorem SignAgrees.extend {r : Int} (l : List UInt8) : ∀ (k l' k' : List UInt8), l.length = k.length → r ≠ 0 →
    SignAgrees r l k → SignAgrees r (l ++ l') (k ++ k') := by
  induction l with
  | nil =>
    intro k l' k' hl h0 h
    rw [List.length_eq_zero_iff.1 hl.symm] at h
    exact absurd (h.2.1.2 rfl) h0
  | cons b l ih =>
    intro k l' k' hl h0 h
    cases k with
    | nil => simp at hl
    | cons c k =>
      by_cases e : b = c
      · subst e
        have h' : SignAgrees r l k := by
          obtain ⟨h1, h2, h3⟩ := h
          rw [List.cons_lt_cons_iff] at h1 h3
          simp only [UInt8.lt_irrefl, false_or, true_and] at h1 h3
          exact ⟨h1, by simpa using h2, h3⟩
        exact (ih k l' k' (by simpa using hl) h0 h').cons b
      · obtain ⟨h1, h2, h3⟩ := h
        rw [List.cons_lt_cons_iff] at h1 h3
        have e' : ¬ c = b := fun h => e h.symm
        simp only [e, false_and, or_false, e'] at h1 h3
        refine ⟨?_, ?_, ?_⟩
        · rw [List.cons_append, List.cons_append, List.cons_lt_cons_iff]; simp [e, h1]
        · simp [e, h0]
        · rw [List.cons_append, List.cons_append, List.cons_lt_cons_iff]; simp [e', h3]

theorem memcmpLoop_eq (div : Nat) : ∀ (m : Mem UInt8) (l k : List UInt8) (a b rem : Nat), l.length = k.length →
    l.length = 8 * div + rem → Bytes m a l → Bytes m b k →
    ∃ r, memcmpLoop m a b rem div = some r ∧ SignAgrees r l k := by
  induction div with
  | zero =>
    intro m l k a b rem hl hr ha hb
    have : rem = l.length := by omega
    subst this
    exact memcmpTail_eq l m k a b hl ha hb
  | succ div ih =>
    intro m l k a b rem hl hr ha hb
    obtain ⟨l1, l2, rfl, h1⟩ : ∃ l1 l2, l = l1 ++ l2 ∧ l1.length = 8 :=
      ⟨l.take 8, l.drop 8, by simp, by simp; omega⟩
    obtain ⟨k1, k2, rfl, h2⟩ : ∃ l1 l2, k = l1 ++ l2 ∧ l1.length = 8 :=
      ⟨k.take 8, k.drop 8, by simp, by simp; omega⟩
    simp only [List.length_append] at hl hr
    obtain ⟨ha1, ha2⟩ := bytes_append.1 ha
    obtain ⟨hb1, hb2⟩ := bytes_append.1 hb
    rw [h1] at ha2
    rw [h2] at hb2
    have r1 := ha1.readN
    have r2 := hb1.readN
    rw [h1] at r1
    rw [h2] at r2
    simp only [memcmpLoop, readWord, r1, r2, Option.map_some, Option.bind_eq_bind, Option.bind_some]
    by_cases e : leValue l1 = leValue k1
    · have := leValue_inj (by omega) e
      subst this
      simp only [ne_eq, not_true_eq_false, if_false]
      obtain ⟨r, x, y⟩ := ih m l2 k2 (a + 8) (b + 8) rem (by omega) (by omega) ha2 hb2
      exact ⟨r, x, y.append l1⟩
    · rw [if_pos e]
      have hne : l1 ≠ k1 := fun h => e (by rw [h])
      obtain ⟨r, x, x0, y⟩ := memcmpWord_eq l1 m k1 a b 0 (by omega) (by omega) hne ha1 hb1
      exact ⟨r, x, y.extend l1 k1 l2 k2 (by omega) x0⟩

/-- **C18** (`memcmp`). For all lengths, contents and alignments the sign of the result is the lexicographic order of
the two ranges as unsigned bytes. -/
theorem C18_memcmp (m : Mem UInt8) (a b : Nat) (l k : List UInt8) (hl : l.length = k.length)
    (ha : Bytes m a l) (hb : Bytes m b k) :
    ∃ r, memcmp m a b l.length = some r ∧ SignAgrees r l k :=
  memcmpLoop_eq _ m l k a b _ hl (by omega) ha hb

/-! ## memmem -/

theorem findWindow_spec {α : Type} [DecidableEq α] (needle : List α) (hn : needle ≠ []) (hay : List α) : ∀ i0,
    (findWindow needle hay i0 = none ∧ ∀ i, ¬ OccursAt hay needle i) ∨
    ∃ i, findWindow needle hay i0 = some (i0 + i) ∧ LeftmostAt hay needle i := by
  induction hay with
  | nil =>
    intro i0
    left
    refine ⟨rfl, ?_⟩
    rintro i ⟨hi, rest, h⟩
    simp at h
    exact hn h.1
  | cons b l ih =>
    intro i0
    unfold findWindow
    by_cases hlen : (b :: l).length < needle.length
    · rw [if_pos hlen]
      left
      refine ⟨rfl, ?_⟩
      rintro i ⟨hi, rest, h⟩
      have := congrArg List.length h
      simp only [List.length_drop, List.length_append] at this
      omega
    · rw [if_neg hlen]
      by_cases heq : (b :: l).take needle.length = needle
      · rw [if_pos heq]
        right
        refine ⟨0, rfl, ⟨by omega, (b :: l).drop needle.length, ?_⟩, fun j hj => by omega⟩
        rw [List.drop_zero]
        conv => lhs; rw [← List.take_append_drop needle.length (b :: l), heq]
      · rw [if_neg heq]
        have h0 : ¬ OccursAt (b :: l) needle 0 := by
          rintro ⟨-, rest, h⟩
          rw [List.drop_zero] at h
          rw [h] at heq
          simp at heq
        rcases ih (i0 + 1) with ⟨h1, h2⟩ | ⟨i, h1, h2, h3⟩
        · left
          refine ⟨h1, ?_⟩
          intro i hi
          cases i with
          | zero => exact h0 hi
          | succ i => exact h2 i ⟨by simpa using hi.1, by simpa using hi.2⟩
        · right
          refine ⟨i + 1, by rw [h1]; congr 1; omega, ⟨by simpa using h2.1, by simpa using h2.2⟩, ?_⟩
          intro j hj
          cases j with
          | zero => exact h0
          | succ j => exact fun hj' => h3 j (by omega) ⟨by simpa using hj'.1, by simpa using hj'.2⟩

/-- **C20** (`memmem`). Leftmost occurrence of the needle, NULL exactly when there is none; an empty needle matches
at the start. -/
theorem C20_memmem (m : Mem UInt8) (h p : Nat) (hay needle : List UInt8) (h1 : Bytes m h hay)
    (h2 : Bytes m p needle) :
    ∃ r, memmem m h hay.length p needle.length = some r ∧ Finds h r (LeftmostAt hay needle) := by
  unfold memmem
  split
  · rename_i e
    rw [List.length_eq_zero_iff.1 e]
    refine ⟨_, rfl, Or.inr ⟨0, rfl, ⟨by omega, hay, rfl⟩, fun j hj => by omega⟩⟩
  · rename_i e
    have hn : needle ≠ [] := fun h => e (by simp [h])
    rw [h1.readN, h2.readN]
    simp only [Option.bind_eq_bind, Option.bind_some]
    rcases findWindow_spec needle hn hay 0 with ⟨x, y⟩ | ⟨i, x, y⟩
    · rw [x]; exact ⟨none, rfl, Or.inl ⟨rfl, fun i hi => y i hi.1⟩⟩
    · rw [x]; exact ⟨_, rfl, Or.inr ⟨i, by simp, y⟩⟩

/-! ## Cases meeting the hypotheses -/

/-- Overlapping move inside one array. -/
example : memmove (ofList 0 [1, 2, 3, 4, 5]) 1 0 4 = some (patch (ofList 0 [1, 2, 3, 4, 5]) 1 [1, 2, 3, 4], 1) :=
  C17_memmove _ 1 0 [1, 2, 3, 4] (by simp [Bytes, ofList])
    (by intro i hi
        have : i = 0 ∨ i = 1 ∨ i = 2 ∨ i = 3 := by simp at hi; omega
        rcases this with rfl | rfl | rfl | rfl <;> simp [ofList])

/-- A copy between disjoint arrays. -/
example : ∃ m', memcpy (ofList 0 [1, 2, 9, 9]) 2 0 2 = some (m', 2) ∧ Bytes m' 0 [1, 2, 1, 2] := by
  refine ⟨_, C17_memcpy _ 2 0 [1, 2] (by simp [Bytes, ofList]) ?_ (by simp [Disjoint]), ?_⟩
  · intro i hi
    have : i = 0 ∨ i = 1 := by simp at hi; omega
    rcases this with rfl | rfl <;> simp [ofList]
  · simp [Bytes, patch, ofList]

/-- A comparison that takes the word path: the ninth byte differs. -/
example : memcmp (ofList 0 [1, 2, 3, 4, 5, 6, 7, 8, 200, 1, 2, 3, 4, 5, 6, 7, 8, 3]) 0 9 9 = some 197 := by
  decide +kernel

/-- A search. -/
example : memchr (ofList 4 [7, 8, 9, 8]) 4 264 4 = some (some 5) ∧ memrchr (ofList 4 [7, 8, 9, 8]) 4 8 4 = some (some 7) ∧
    memmem (ofList 4 [7, 8, 9, 8]) 4 4 6 2 = some (some 6) := by decide +kernel

end Verif.Str
