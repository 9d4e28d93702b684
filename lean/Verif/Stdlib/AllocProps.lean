import Verif.Stdlib.AllocModel
import Verif.Stdlib.SortProps
/-!
# Allocation sizes and alignments (C48), the Rust allocator interface (C58)
-/

namespace Verif.Stdlib
open Verif.Mem

/-! ## Specification -/

/-- The bytes of the live blocks for which `keep` holds are unchanged. -/
def SameBytes (keep : Nat → Prop) (h h' : Heap) : Prop :=
  ∀ q k, h.live q = some k → keep q → ∀ a, q ≤ a → a < q + k → h'.mem a = h.mem a

/-- A call failed: null pointer, same blocks, same contents. -/
structure Failed (h : Heap) (p : Nat) (h' : Heap) : Prop where
  null : p = 0
  live : h'.live = h.live
  same : SameBytes (fun _ => True) h h'

/-- A call provided a new block of `size` bytes at `p`: not null, apart from all live blocks, accessible; the old
blocks are still there with the same contents. -/
structure Provided (h : Heap) (p : Nat) (h' : Heap) (size : Nat) : Prop where
  nonnull : p ≠ 0
  fresh : ∀ q k, h.live q = some k → p ≠ q ∧ Disjoint p size q k
  live : h'.live = fun x => if x = p then some size else h.live x
  mapped : Mapped h'.mem p size
  same : SameBytes (fun _ => True) h h'

/-- A call moved the block of `old` bytes at `p` to a block of `size` bytes at `q` with the same contents up to the
smaller size. -/
structure Moved (h : Heap) (p old q : Nat) (h' : Heap) (size : Nat) : Prop where
  nonnull : q ≠ 0
  fresh : ∀ r k, r ≠ p → h.live r = some k → q ≠ r ∧ Disjoint q size r k
  live : h'.live = fun x => if x = q then some size else if x = p then none else h.live x
  mapped : Mapped h'.mem q size
  contents : ∀ i, i < old → i < size → h'.mem (q + i) = h.mem (p + i)
  same : SameBytes (fun r => r ≠ p) h h'

/-- What is assumed of the allocator crate. -/
structure Allocator.Sound (al : Allocator) : Prop where
  malloc : ∀ h size, Failed h (al.malloc h size).1 (al.malloc h size).2
    ∨ Provided h (al.malloc h size).1 (al.malloc h size).2 size
  memalign : ∀ h k size, Failed h (al.memalign h (2 ^ k) size).1 (al.memalign h (2 ^ k) size).2
    ∨ (Provided h (al.memalign h (2 ^ k) size).1 (al.memalign h (2 ^ k) size).2 size
      ∧ 2 ^ k ∣ (al.memalign h (2 ^ k) size).1)
  realloc : ∀ h p old size, p ≠ 0 → h.live p = some old →
    Failed h (al.realloc h p size).1 (al.realloc h p size).2
      ∨ Moved h p old (al.realloc h p size).1 (al.realloc h p size).2 size
  free : ∀ h p, (al.free h p).live = (fun x => if x = p then none else h.live x)
    ∧ SameBytes (fun r => r ≠ p) h (al.free h p)

/-! ## Lemmas -/

theorem countOnes_eq (n : Nat) : countOnes n = n % 2 + countOnes (n / 2) := by
  cases n with
  | zero => simp [countOnes]
  | succ n => rw [countOnes]

theorem countOnes_two_mul (n : Nat) : countOnes (2 * n) = countOnes n := by
  rw [countOnes_eq, Nat.mul_mod_right, Nat.zero_add, Nat.mul_div_cancel_left _ (by decide)]

theorem countOnes_pow (k : Nat) : countOnes (2 ^ k) = 1 := by
  induction k with
  | zero => rw [Nat.pow_zero, countOnes_eq]; simp [countOnes]
  | succ k ih => rw [Nat.pow_succ, Nat.mul_comm, countOnes_two_mul, ih]

theorem countOnes_pos (n : Nat) (h : n ≠ 0) : countOnes n ≠ 0 := by
  induction n using Nat.strongRecOn with
  | _ n ih =>
    rw [countOnes_eq]
    rcases Nat.mod_two_eq_zero_or_one n with e | e
    · have := ih (n / 2) (by omega) (by omega)
      omega
    · omega

theorem countOnes_one (n : Nat) (h : countOnes n = 1) : ∃ k, n = 2 ^ k := by
  induction n using Nat.strongRecOn with
  | _ n ih =>
    by_cases h0 : n = 0
    · subst h0; simp [countOnes] at h
    · rw [countOnes_eq] at h
      rcases Nat.mod_two_eq_zero_or_one n with e | e
      · obtain ⟨k, hk⟩ := ih (n / 2) (by omega) (by omega)
        exact ⟨k + 1, by rw [Nat.pow_succ, ← hk]; omega⟩
      · have : countOnes (n / 2) = 0 := by omega
        have : n / 2 = 0 := Classical.byContradiction fun hc => countOnes_pos _ hc this
        exact ⟨0, by omega⟩

theorem isPowerOfTwo_iff (a : UInt64) : isPowerOfTwo a = true ↔ ∃ k, a.toNat = 2 ^ k := by
  unfold isPowerOfTwo
  rw [decide_eq_true_eq]
  constructor
  · exact countOnes_one _
  · rintro ⟨k, hk⟩; rw [hk]; exact countOnes_pow k

theorem isMultipleOf_iff (a b : UInt64) : isMultipleOf a b = true ↔ b.toNat ∣ a.toNat := by
  unfold isMultipleOf
  split
  · rename_i h
    subst h
    rw [decide_eq_true_eq, show (0 : UInt64).toNat = 0 from rfl, Nat.zero_dvd]
    exact ⟨fun h => by rw [h]; rfl, fun h => UInt64.toNat.inj h⟩
  · rw [decide_eq_true_eq, Nat.dvd_iff_mod_eq_zero, ← UInt64.toNat_mod]
    exact ⟨fun h => by rw [h]; rfl, fun h => UInt64.toNat.inj h⟩

theorem checkedMul_eq (a b : UInt64) :
    checkedMul a b = if a.toNat * b.toNat < 2 ^ 64 then some (a.toNat * b.toNat) else none := by
  unfold checkedMul
  split
  · rename_i h; rw [UInt64.toNat_mul, Nat.mod_eq_of_lt h]
  · rfl

/-! ## C48 -/

/-- C48, `calloc`: never provides less than `nelem * elsize` bytes, the mathematical product. Either it fails with
`ENOMEM` and changes nothing, or it provides a block of that size, all zero. It always fails if the product does not
fit into `size_t`. -/
theorem C48_calloc {al : Allocator} (hal : al.Sound) (h : Heap) (nelem elsize : UInt64) :
    ∃ p h', calloc al h nelem elsize = some (p, h')
      ∧ ((Failed h p h' ∧ h'.errno = some .enomem)
        ∨ (Provided h p h' (nelem.toNat * elsize.toNat)
          ∧ Bytes h'.mem p (List.replicate (nelem.toNat * elsize.toNat) 0)))
      ∧ (2 ^ 64 ≤ nelem.toNat * elsize.toNat → p = 0) := by
  unfold calloc
  rw [checkedMul_eq]
  by_cases hc : nelem.toNat * elsize.toNat < 2 ^ 64
  · rw [if_pos hc]
    have hm := hal.malloc h (nelem.toNat * elsize.toNat)
    simp only []
    unfold Stdlib.malloc
    generalize al.malloc h (nelem.toNat * elsize.toNat) = r at hm ⊢
    obtain ⟨p, h'⟩ := r
    simp only at hm ⊢
    by_cases hp : p = 0
    · subst hp
      rcases hm with hf | hf
      · refine ⟨0, { h' with errno := some .enomem }, ?_, .inl ⟨⟨rfl, hf.live, hf.same⟩, rfl⟩, fun hh => absurd hc (by omega)⟩
        simp
      · exact absurd rfl hf.nonnull
    · rcases hm with hf | hf
      · exact absurd hf.null hp
      · refine ⟨p, { h' with mem := patch h'.mem p (List.replicate (nelem.toNat * elsize.toNat) 0) }, ?_,
          .inr ⟨⟨hp, hf.fresh, hf.live, mapped_patch hf.mapped, ?_⟩, bytes_patch ..⟩, fun hh => absurd hc (by omega)⟩
        · rw [if_neg hp, if_pos hp, writeN_eq (by simpa using hf.mapped)]
          rfl
        · intro q k hq _ a h1 h2
          have hd := (hf.fresh q k hq).2
          rw [← hf.same q k hq trivial a h1 h2]
          apply patch_out
          rw [List.length_replicate]
          unfold Disjoint at hd
          omega
  · rw [if_neg hc]
    exact ⟨0, _, rfl, .inl ⟨⟨rfl, rfl, fun _ _ _ _ _ _ _ => rfl⟩, rfl⟩, fun _ => rfl⟩

/-- C48, `reallocarray` of a live block: either fails with `ENOMEM` and leaves the block alone, or moves it to a block
of `m * n` bytes, the mathematical product. -/
theorem C48_reallocarray {al : Allocator} (hal : al.Sound) (h : Heap) {p old : Nat} (hp : p ≠ 0) (hl : h.live p = some old)
    (m n : UInt64) :
    ∃ q h', reallocarray al h p m n = (q, h')
      ∧ ((Failed h q h' ∧ h'.errno = some .enomem) ∨ Moved h p old q h' (m.toNat * n.toNat))
      ∧ (2 ^ 64 ≤ m.toNat * n.toNat → q = 0) := by
  unfold reallocarray
  rw [checkedMul_eq]
  by_cases hc : m.toNat * n.toNat < 2 ^ 64
  · rw [if_pos hc]
    have hm := hal.realloc h p old (m.toNat * n.toNat) hp hl
    simp only []
    unfold Stdlib.realloc platformRealloc
    rw [if_neg hp]
    generalize al.realloc h p (m.toNat * n.toNat) = r at hm ⊢
    obtain ⟨q, h'⟩ := r
    simp only at hm ⊢
    by_cases hq : q = 0
    · subst hq
      rcases hm with hf | hf
      · exact ⟨0, { h' with errno := some .enomem }, by rw [if_pos rfl], .inl ⟨⟨rfl, hf.live, hf.same⟩, rfl⟩, fun hh => absurd hc (by omega)⟩
      · exact absurd rfl hf.nonnull
    · rcases hm with hf | hf
      · exact absurd hf.null hq
      · exact ⟨q, h', by rw [if_neg hq], .inr hf, fun hh => absurd hc (by omega)⟩
  · rw [if_neg hc]
    exact ⟨0, _, rfl, .inl ⟨⟨rfl, rfl, fun _ _ _ _ _ _ _ => rfl⟩, rfl⟩, fun _ => rfl⟩

/-- C48, `reallocarray` of a null pointer provides a new block. -/
theorem C48_reallocarray_null {al : Allocator} (hal : al.Sound) (h : Heap) (m n : UInt64) :
    ∃ q h', reallocarray al h 0 m n = (q, h')
      ∧ ((Failed h q h' ∧ h'.errno = some .enomem) ∨ Provided h q h' (m.toNat * n.toNat))
      ∧ (2 ^ 64 ≤ m.toNat * n.toNat → q = 0) := by
  unfold reallocarray
  rw [checkedMul_eq]
  by_cases hc : m.toNat * n.toNat < 2 ^ 64
  · rw [if_pos hc]
    have hm := hal.malloc h (m.toNat * n.toNat)
    simp only []
    unfold Stdlib.realloc platformRealloc
    rw [if_pos rfl]
    generalize al.malloc h (m.toNat * n.toNat) = r at hm ⊢
    obtain ⟨q, h'⟩ := r
    simp only at hm ⊢
    by_cases hq : q = 0
    · subst hq
      rcases hm with hf | hf
      · exact ⟨0, { h' with errno := some .enomem }, by rw [if_pos rfl], .inl ⟨⟨rfl, hf.live, hf.same⟩, rfl⟩, fun hh => absurd hc (by omega)⟩
      · exact absurd rfl hf.nonnull
    · rcases hm with hf | hf
      · exact absurd hf.null hq
      · exact ⟨q, h', by rw [if_neg hq], .inr hf, fun hh => absurd hc (by omega)⟩
  · rw [if_neg hc]
    exact ⟨0, _, rfl, .inl ⟨⟨rfl, rfl, fun _ _ _ _ _ _ _ => rfl⟩, rfl⟩, fun _ => rfl⟩

/-- What an aligned allocation may do with valid arguments. -/
def AlignedOutcome (h : Heap) (align size p : Nat) (h' : Heap) : Prop :=
  (Failed h p h' ∧ h'.errno = some .enomem) ∨ (Provided h p h' size ∧ align ∣ p)

theorem memalign_eq {al : Allocator} (hal : al.Sound) (h : Heap) (a size : UInt64) :
    ((∃ k, a.toNat = 2 ^ k) → AlignedOutcome h a.toNat size.toNat (memalign al h a size).1 (memalign al h a size).2)
    ∧ ((¬ ∃ k, a.toNat = 2 ^ k) → memalign al h a size = (0, { h with errno := some .einval })) := by
  constructor
  · rintro ⟨k, hk⟩
    unfold memalign
    rw [if_pos ((isPowerOfTwo_iff a).2 ⟨k, hk⟩), hk]
    have hm := hal.memalign h k size.toNat
    generalize al.memalign h (2 ^ k) size.toNat = r at hm ⊢
    obtain ⟨p, h'⟩ := r
    simp only at hm ⊢
    by_cases hp : p = 0
    · subst hp
      rw [if_pos rfl]
      rcases hm with hf | hf
      · exact .inl ⟨⟨rfl, hf.live, hf.same⟩, rfl⟩
      · exact absurd rfl hf.1.nonnull
    · rw [if_neg hp]
      rcases hm with hf | hf
      · exact absurd hf.null hp
      · exact .inr hf
  · intro hk
    unfold memalign
    rw [if_neg (fun h => hk ((isPowerOfTwo_iff a).1 h))]

/-- C48, `aligned_alloc` accepts exactly the powers of two that divide the size; everything else is refused with
`EINVAL`, nothing changed. -/
theorem C48_aligned_alloc {al : Allocator} (hal : al.Sound) (h : Heap) (a size : UInt64) :
    ((∃ k, a.toNat = 2 ^ k) ∧ a.toNat ∣ size.toNat →
      AlignedOutcome h a.toNat size.toNat (alignedAlloc al h a size).1 (alignedAlloc al h a size).2)
    ∧ (¬ ((∃ k, a.toNat = 2 ^ k) ∧ a.toNat ∣ size.toNat) →
      alignedAlloc al h a size = (0, { h with errno := some .einval })) := by
  obtain ⟨m1, m2⟩ := memalign_eq hal h a size
  constructor
  · rintro ⟨⟨k, hk⟩, hd⟩
    have h0 : a ≠ 0 := by
      rintro rfl
      have := Nat.two_pow_pos k
      rw [← hk] at this
      exact absurd this (by decide)
    unfold alignedAlloc
    rw [if_neg (by simp [h0, (isMultipleOf_iff size a).2 hd])]
    exact m1 ⟨k, hk⟩
  · intro hn
    unfold alignedAlloc
    by_cases hd : a.toNat ∣ size.toNat
    · have hk : ¬ ∃ k, a.toNat = 2 ^ k := fun hk => hn ⟨hk, hd⟩
      split
      · rfl
      · exact m2 hk
    · rw [if_pos]
      have : isMultipleOf size a ≠ true := fun hc => hd ((isMultipleOf_iff size a).1 hc)
      simp [this]

/-- C48, `posix_memalign` accepts exactly the powers of two that are multiples of `sizeof(void *)`: on success it
returns 0 and stores an aligned block of the size, otherwise it returns `EINVAL` or `ENOMEM` and provides nothing. It
does not touch `errno` of its own accord. -/
theorem C48_posix_memalign {al : Allocator} (hal : al.Sound) (h : Heap) (a size : UInt64) :
    ((∃ k, a.toNat = 2 ^ k) ∧ 8 ∣ a.toNat → ∃ e p h', posixMemalign al h a size = (e, p, h')
      ∧ ((e = some .enomem ∧ Failed h p h') ∨ (e = none ∧ Provided h p h' size.toNat ∧ a.toNat ∣ p)))
    ∧ (¬ ((∃ k, a.toNat = 2 ^ k) ∧ 8 ∣ a.toNat) → posixMemalign al h a size = (some .einval, 0, h)) := by
  constructor
  · rintro ⟨⟨k, hk⟩, hd⟩
    unfold posixMemalign
    rw [if_pos (by simp [(isMultipleOf_iff a 8).2 hd, (isPowerOfTwo_iff a).2 ⟨k, hk⟩]), hk]
    have hm := hal.memalign h k size.toNat
    generalize al.memalign h (2 ^ k) size.toNat = r at hm ⊢
    obtain ⟨p, h'⟩ := r
    simp only at hm ⊢
    refine ⟨_, p, h', rfl, ?_⟩
    rcases hm with hf | hf
    · exact .inl ⟨by rw [if_pos hf.null], hf⟩
    · exact .inr ⟨by rw [if_neg hf.1.nonnull], hf⟩
  · intro hn
    unfold posixMemalign
    rw [if_neg]
    intro hc
    rw [Bool.and_eq_true] at hc
    exact hn ⟨(isPowerOfTwo_iff a).1 hc.2, (isMultipleOf_iff a 8).1 hc.1⟩

/-! ## Sound allocators exist -/

/-- An allocator that succeeds whenever it can. -/
noncomputable def bestAllocator : Allocator :=
  open Classical in
  { malloc := fun h size => if e : ∃ r : Nat × Heap, Provided h r.1 r.2 size then e.choose else (0, h)
    memalign := fun h a size => if e : ∃ r : Nat × Heap, Provided h r.1 r.2 size ∧ a ∣ r.1 then e.choose else (0, h)
    realloc := fun h p size =>
      if e : ∃ r : Nat × Heap, ∃ old, h.live p = some old ∧ Moved h p old r.1 r.2 size then e.choose else (0, h)
    free := fun h p => { h with live := fun x => if x = p then none else h.live x } }

theorem bestAllocator_sound : bestAllocator.Sound := by
  have f : ∀ h : Heap, Failed h 0 h := fun h => ⟨rfl, rfl, fun _ _ _ _ _ _ _ => rfl⟩
  refine ⟨?_, ?_, ?_, fun h p => ⟨rfl, fun _ _ _ _ _ _ _ => rfl⟩⟩
  · intro h size
    simp only [bestAllocator]
    split
    · rename_i e; exact .inr e.choose_spec
    · exact .inl (f h)
  · intro h k size
    simp only [bestAllocator]
    split
    · rename_i e; exact .inr e.choose_spec
    · exact .inl (f h)
  · intro h p old size _ hl
    simp only [bestAllocator]
    split
    · rename_i e
      obtain ⟨o, h1, h2⟩ := e.choose_spec
      rw [hl] at h1
      obtain rfl := Option.some.inj h1
      exact .inr h2
    · exact .inl (f h)

-- with memory everywhere and one live block, `calloc` of 3 elements of 5 bytes succeeds and yields 15 zeros
example : ∃ p h', calloc bestAllocator ⟨fun _ => some 7, fun x => if x = 100 then some 8 else none, none⟩ 3 5 = some (p, h')
    ∧ p ≠ 0 ∧ Bytes h'.mem p (List.replicate 15 0) ∧ Disjoint p 15 100 8 := by
  have e : ∃ r : Nat × Heap, Provided ⟨fun _ => some 7, fun x => if x = 100 then some 8 else none, none⟩ r.1 r.2 15 := by
    refine ⟨⟨200, ⟨fun _ => some 7, fun x => if x = 200 then some 15 else if x = 100 then some 8 else none, none⟩⟩,
      by decide, ?_, rfl, fun _ _ => rfl, fun _ _ _ _ _ _ _ => rfl⟩
    intro q k hq
    simp only at hq
    split at hq
    · obtain rfl := Option.some.inj hq; subst q; exact ⟨by decide, by unfold Disjoint; omega⟩
    · simp at hq
  obtain ⟨p, h', h1, h2, -⟩ := C48_calloc bestAllocator_sound
    ⟨fun _ => some 7, fun x => if x = 100 then some 8 else none, none⟩ 3 5
  have e15 : (3 : UInt64).toNat * (5 : UInt64).toNat = 15 := rfl
  rw [e15] at h2
  rcases h2 with ⟨hf, -⟩ | ⟨hp, hb⟩
  · exfalso
    unfold calloc at h1
    rw [checkedMul_eq, e15, if_pos (by decide)] at h1
    have hs := e.choose_spec
    simp only [Stdlib.malloc, bestAllocator, dif_pos e] at h1
    rw [if_neg hs.nonnull, if_pos hs.nonnull, writeN_eq (by simpa using hs.mapped)] at h1
    simp only [Option.bind_eq_bind, Option.bind_some, Option.some.injEq, Prod.mk.injEq] at h1
    exact hs.nonnull (h1.1.trans hf.null)
  · exact ⟨p, h', h1, hp.nonnull, hb, (hp.fresh 100 8 rfl).2⟩

-- a product that does not fit
example : ∃ h', calloc bestAllocator ⟨fun _ => some 7, fun _ => none, none⟩ (2 ^ 33) (2 ^ 31) = some (0, h') := by
  obtain ⟨p, h', h1, -, h3⟩ := C48_calloc bestAllocator_sound ⟨fun _ => some 7, fun _ => none, none⟩ (2 ^ 33) (2 ^ 31)
  exact ⟨h', by rw [h1, h3 (by decide)]⟩

-- alignments
example : isPowerOfTwo 64 = true ∧ isPowerOfTwo 0 = false ∧ isPowerOfTwo 24 = false := by
  refine ⟨(isPowerOfTwo_iff 64).2 ⟨6, rfl⟩, by simp [isPowerOfTwo, countOnes], ?_⟩
  rw [Bool.eq_false_iff]
  intro h
  obtain ⟨k, hk⟩ := (isPowerOfTwo_iff 24).1 h
  have h24 : (24 : UInt64).toNat = 24 := rfl
  rw [h24] at hk
  have : k < 5 := Nat.lt_of_not_le fun hc => by
    have := Nat.pow_le_pow_right (n := 2) (by decide) hc
    omega
  have : k = 0 ∨ k = 1 ∨ k = 2 ∨ k = 3 ∨ k = 4 := by omega
  rcases this with rfl | rfl | rfl | rfl | rfl <;> exact absurd hk (by decide)

/-! ## C58: reallocation through the Rust allocator interface -/

/-- The contract of `GlobalAlloc::realloc`: on success the block has moved; on failure it is still there. -/
def GlobalReallocOk (h : Heap) (p old newSize : Nat) (r : Option (Nat × Heap)) : Prop :=
  ∃ q h', r = some (q, h') ∧ (Failed h q h' ∨ Moved h p old q h' newSize)

/-- C58, for alignments up to 16: the contract holds. For larger alignments it holds whenever the new block can be
allocated. -/
theorem C58_global_realloc_partial {al : Allocator} (hal : al.Sound) (h : Heap) {p old align newSize : Nat} (hp : p ≠ 0)
    (hl : h.live p = some old) (hm : Mapped h.mem p old)
    (ha : align ≤ 16 ∨ ∃ k, align = 2 ^ k ∧ (al.memalign h align newSize).1 ≠ 0) :
    GlobalReallocOk h p old newSize (globalRealloc al h p old align newSize) := by
  unfold globalRealloc
  by_cases hal16 : align ≤ maxAlign
  · rw [if_pos hal16]
    exact ⟨_, _, rfl, hal.realloc h p old newSize hp hl⟩
  · rw [if_neg hal16]
    rcases ha with ha | ⟨k, rfl, hne⟩
    · exact absurd ha hal16
    · have hma := hal.memalign h k newSize
      unfold globalAlloc
      rw [if_neg hal16]
      generalize al.memalign h (2 ^ k) newSize = r at hma hne ⊢
      obtain ⟨q, h₁⟩ := r
      simp only at hma hne ⊢
      rcases hma with hf | ⟨hf, -⟩
      · exact absurd hf.null hne
      · have hpq := hf.fresh p old hl
        have hsame : ∀ i, i < old → h₁.mem (p + i) = h.mem (p + i) := fun i hi =>
          hf.same p old hl trivial (p + i) (by omega) (by omega)
        have hm₁ : Mapped h₁.mem p (min old newSize) := fun i hi => by
          rw [hsame i (by omega)]; exact hm i (by omega)
        obtain ⟨l, hlen, hb⟩ := hm₁.exists_bytes
        rw [if_pos hne, readN_of hb hlen]
        simp only [Option.bind_eq_bind, Option.bind_some]
        rw [writeN_eq (by rw [hlen]; exact hf.mapped.mono (by omega))]
        simp only [Option.bind_some]
        have hfree := hal.free { h₁ with mem := patch h₁.mem q l } p
        refine ⟨q, _, rfl, .inr ⟨hne, ?_, ?_, ?_, ?_, ?_⟩⟩
        · intro r k' hr hlr
          exact hf.fresh r k' hlr
        · rw [hfree.1]
          funext x
          simp only [hf.live]
          by_cases hx : x = q
          · rw [if_pos hx, if_neg (by rw [hx]; exact hpq.1), if_pos hx]
          · rw [if_neg hx, if_neg hx]
        · intro i hi
          rw [hfree.2 q newSize (by simp [hf.live]) hpq.1 (q + i) (by omega) (by omega)]
          exact mapped_patch hf.mapped i hi
        · intro i h1 h2
          rw [hfree.2 q newSize (by simp [hf.live]) hpq.1 (q + i) (by omega) (by omega), ← hsame i h1]
          show patch h₁.mem q l (q + i) = _
          rw [(bytes_patch h₁.mem q l).get i (by omega), hb.get i (by omega)]
        · intro r k' hlr hr a h1 h2
          have hrq := hf.fresh r k' hlr
          rw [hfree.2 r k' (by simp only [hf.live]; rw [if_neg (fun h => hrq.1 h.symm)]; exact hlr) hr a h1 h2,
            ← hf.same r k' hlr trivial a h1 h2]
          apply patch_out
          have hd := hrq.2
          unfold Disjoint at hd
          rw [hlen]
          omega

/-- C58 fails otherwise: when a block with a larger alignment cannot be allocated, the old block is freed although the
caller is told that nothing happened. -/
theorem C58_global_realloc_violation {al : Allocator} (hal : al.Sound) (h : Heap) {p old align newSize : Nat}
    (hl : h.live p = some old) (ha : 16 < align) (hf : (al.memalign h align newSize).1 = 0) :
    ∃ h', globalRealloc al h p old align newSize = some (0, h') ∧ h'.live p = none
      ∧ ¬ GlobalReallocOk h p old newSize (globalRealloc al h p old align newSize) := by
  have e : globalRealloc al h p old align newSize = some (0, al.free (al.memalign h align newSize).2 p) := by
    unfold globalRealloc
    rw [if_neg (by unfold maxAlign; omega)]
    unfold globalAlloc
    rw [if_neg (by unfold maxAlign; omega)]
    generalize al.memalign h align newSize = r at hf ⊢
    obtain ⟨q, h₁⟩ := r
    simp only at hf ⊢
    subst hf
    rw [if_neg (by simp)]
    rfl
  have hlive : (al.free (al.memalign h align newSize).2 p).live p = none := by
    rw [(hal.free _ p).1]; simp
  refine ⟨_, e, hlive, ?_⟩
  rintro ⟨q, h', h1, h2⟩
  rw [e] at h1
  simp only [Option.some.injEq, Prod.mk.injEq] at h1
  obtain ⟨rfl, rfl⟩ := h1
  rcases h2 with h2 | h2
  · rw [h2.live, hl] at hlive; simp at hlive
  · exact h2.nonnull rfl

/-- An allocator that never succeeds. -/
def noMemory : Allocator :=
  { malloc := fun h _ => (0, h)
    memalign := fun h _ _ => (0, h)
    realloc := fun h _ _ => (0, h)
    free := fun h p => { h with live := fun x => if x = p then none else h.live x } }

theorem noMemory_sound : noMemory.Sound := by
  have f : ∀ h : Heap, Failed h 0 h := fun h => ⟨rfl, rfl, fun _ _ _ _ _ _ _ => rfl⟩
  exact ⟨fun h _ => .inl (f h), fun h _ _ => .inl (f h), fun h _ _ _ _ _ => .inl (f h),
    fun h p => ⟨rfl, fun _ _ _ _ _ _ _ => rfl⟩⟩

-- the situation of the violation: a block of 8 bytes with alignment 64, to be grown to 16 when memory has run out
example : ∃ h', globalRealloc noMemory ⟨fun _ => some 7, fun x => if x = 64 then some 8 else none, none⟩ 64 8 64 16
    = some (0, h') ∧ h'.live 64 = none := by
  obtain ⟨h', h1, h2, -⟩ := C58_global_realloc_violation noMemory_sound
    ⟨fun _ => some 7, fun x => if x = 64 then some 8 else none, none⟩ (p := 64) (old := 8) (align := 64) (newSize := 16)
    rfl (by decide) rfl
  exact ⟨h', h1, h2⟩

end Verif.Stdlib
