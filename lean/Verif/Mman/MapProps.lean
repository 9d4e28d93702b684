import Verif.Mman.MapModel
/-!
# C157: `mmap`, `munmap`, `mprotect` ask for whole pages
-/

namespace Verif.Mman

/-! ## Specification -/

/-- The pages from `addr` on, `size` bytes, are exactly those that hold one of the `len` bytes at `addr`. -/
def Covers (addr size len : Nat) : Prop :=
  ∀ q, q % 4096 = 0 → ((addr ≤ q ∧ q + 4096 ≤ addr + size) ↔ ∃ x, addr ≤ x ∧ x < addr + len ∧ q ≤ x ∧ x < q + 4096)

/-- Two pieces of a word: the upper bits and the lower 16. -/
def Pieces (w upper lower : Nat) : Prop := w / 2 ^ 16 = upper ∧ w % 2 ^ 16 = lower

/-! ## Lemmas -/

theorem roundUp_some {len size : Nat} (h : roundUp len = some size) : size % 4096 = 0 ∧ len ≤ size ∧ size < len + 4096 ∧ size < 2 ^ 64 := by
  unfold roundUp at h
  split at h
  · cases h
    refine ⟨Nat.mul_mod_left _ _, ?_, ?_, ?_⟩ <;> omega
  · cases h

theorem covers_of {addr size len : Nat} (ha : addr % 4096 = 0) (h1 : size % 4096 = 0) (h2 : len ≤ size) (h3 : size < len + 4096) :
    Covers addr size len := by
  intro q hq
  constructor
  · rintro ⟨a, b⟩
    exact ⟨q, a, by omega, Nat.le_refl _, by omega⟩
  · rintro ⟨x, a, b, c, d⟩
    exact ⟨by omega, by omega⟩

theorem word_pieces {p f : Nat} (hp : p < 2 ^ 32) (hf : f < 2 ^ 16) : Pieces ((p <<< 16) % 2 ^ 64 ||| (f &&& 0xFFFF)) p f := by
  have e1 : f &&& 0xFFFF = f := by
    rw [show (0xFFFF : Nat) = 2 ^ 16 - 1 from rfl, Nat.and_two_pow_sub_one_eq_mod]
    exact Nat.mod_eq_of_lt hf
  have e2 : (p <<< 16) % 2 ^ 64 = 2 ^ 16 * p := by
    rw [Nat.shiftLeft_eq, Nat.mod_eq_of_lt (by omega), Nat.mul_comm]
  rw [e1, e2, ← Nat.two_pow_add_eq_or_of_lt hf]
  exact ⟨by omega, by omega⟩

theorem asUsize_of {n : Nat} (h : n < 2 ^ 64) : asUsize (n : Int) = n := by
  unfold asUsize
  omega

/-! ## The claims -/

/-- `mmap`: the kernel is asked for exactly the pages with the bytes, at the address, with the offset, the protection and the flags;
of the file, or of no file with `MAP_ANONYMOUS`. `known` is assumed to have names for all the bits used. -/
theorem C157_mmap_partial (known addr len prot flags fildes off : Nat) (ha : addr % 4096 = 0) (h0 : 0 < len) (hlen : len + 4096 < 2 ^ 64)
    (hp : prot < 2 ^ 31) (hf : flags < 2 ^ 16) (ho : off < 2 ^ 63)
    (hk : ((prot <<< 16) % 2 ^ 64 ||| (flags &&& 0xFFFF)) &&& known = ((prot <<< 16) % 2 ^ 64 ||| (flags &&& 0xFFFF))) :
    ∃ r, mmap known addr len prot flags fildes off = .ok r ∧ r.address = addr ∧ r.offset = off ∧ Covers addr r.size len ∧
      Pieces r.flags prot flags ∧ (r.fd = none ↔ flags.testBit 5) ∧ (¬ flags.testBit 5 → r.fd = some (fildes : Int)) := by
  have hr : roundUp len = some ((len + 4096 - 1) / 4096 * 4096) := by unfold roundUp; rw [if_pos hlen]
  obtain ⟨q1, q2, q3, _⟩ := roundUp_some hr
  unfold mmap
  rw [if_neg (by omega), hr]
  dsimp only
  rw [asUsize_of (n := flags) (by omega), asUsize_of (n := prot) (by omega), asUsize_of (n := off) (by omega)]
  have hbit : flags &&& MAP_ANONYMOUS = MAP_ANONYMOUS ↔ flags.testBit 5 = true := by
    constructor
    · intro h
      have := congrArg (fun n => Nat.testBit n 5) h
      rw [Nat.testBit_and, show Nat.testBit MAP_ANONYMOUS 5 = true from by decide, Bool.and_true] at this
      exact this
    · intro h
      apply Nat.eq_of_testBit_eq
      intro i
      rw [Nat.testBit_and]
      by_cases hi : i = 5
      · subst hi; rw [h]; rfl
      · have : Nat.testBit MAP_ANONYMOUS i = false := by
          rw [show MAP_ANONYMOUS = 2 ^ 5 from rfl, Nat.testBit_two_pow]
          simp; omega
        rw [this, Bool.and_false]
  refine ⟨_, rfl, rfl, rfl, covers_of ha q1 q2 q3, ?_, ?_, ?_⟩
  · dsimp only
    rw [hk]
    exact word_pieces (by omega) hf
  · dsimp only
    by_cases h : flags &&& MAP_ANONYMOUS = MAP_ANONYMOUS
    · rw [if_pos h]; exact ⟨fun _ => hbit.1 h, fun _ => rfl⟩
    · rw [if_neg h]; exact ⟨fun e => (by cases e), fun e => absurd (hbit.2 e) h⟩
  · intro h
    dsimp only
    rw [if_neg (fun e => h (hbit.1 e))]

/-- `munmap` with the length given to `mmap` removes exactly the pages that `mmap` asked for. -/
theorem C157_munmap (known addr len : Nat) (prot flags fildes off : Int) (r : Request) (h : mmap known addr len prot flags fildes off = .ok r)
    (at_ : Nat) : munmap at_ len = .ok (at_, r.size) := by
  unfold mmap at h
  split at h
  · cases h
  · rename_i h0
    split at h
    · cases h
    · rename_i size hs
      cases h
      unfold munmap
      rw [if_neg h0, hs]

/-- `mprotect` asks for exactly the pages with the bytes, or none for no bytes. -/
theorem C157_mprotect (known addr len prot : Nat) (ha : addr % 4096 = 0) (hlen : len + 4096 < 2 ^ 64) (hp : prot < 2 ^ 31) :
    (∃ size w, mprotect known addr len prot = .ok (addr, size, w) ∧ Pieces w prot 0 ∧ (0 < len → Covers addr size len) ∧ (len = 0 → size = 0)) ∨
    (mprotect known addr len prot = .error 22 ∧ ∃ i, Nat.testBit prot i = true ∧ Nat.testBit known (i + 16) = false) := by
  have hr : roundUp len = some ((len + 4096 - 1) / 4096 * 4096) := by unfold roundUp; rw [if_pos hlen]
  obtain ⟨q1, q2, q3, _⟩ := roundUp_some hr
  have hm : prot <<< 16 = prot * 65536 := Nat.shiftLeft_eq prot 16
  have hw : (prot <<< 16) % 2 ^ 64 = prot <<< 16 := by generalize prot <<< 16 = w at hm ⊢; omega
  unfold mprotect
  rw [hr]
  dsimp only
  rw [asUsize_of (n := prot) (by omega), hw]
  by_cases hk : prot <<< 16 &&& known = prot <<< 16
  · left
    rw [if_pos hk]
    refine ⟨_, _, rfl, ⟨?_, ?_⟩, fun _ => covers_of ha q1 q2 q3, ?_⟩
    · generalize prot <<< 16 = w at hm ⊢; omega
    · generalize prot <<< 16 = w at hm ⊢; omega
    · intro e; subst e; rfl
  · right
    rw [if_neg hk]
    refine ⟨rfl, ?_⟩
    apply Classical.byContradiction
    intro hn
    apply hk
    apply Nat.eq_of_testBit_eq
    intro i
    rw [Nat.testBit_and, Nat.testBit_shiftLeft]
    by_cases hi : 16 ≤ i
    · cases hb : Nat.testBit prot (i - 16) with
      | false => simp
      | true =>
        cases hc : Nat.testBit known i with
        | true => simp
        | false => exact absurd ⟨i - 16, hb, by rw [show i - 16 + 16 = i from by omega]; exact hc⟩ hn
    · simp; omega

/-- A length of 0 is refused by `mmap` and `munmap`; a length whose pages do not fit the address space by all three. -/
theorem C157_lengths (known addr : Nat) (prot flags fildes off : Int) :
    mmap known addr 0 prot flags fildes off = .error 22 ∧ munmap addr 0 = .error 22 ∧
    ∀ len, 2 ^ 64 - 4096 < len → mmap known addr len prot flags fildes off = .error 12 ∧ munmap addr len = .error 12 ∧
      mprotect known addr len prot = .error 12 := by
  refine ⟨rfl, rfl, ?_⟩
  intro len h
  have hr : roundUp len = none := by unfold roundUp; rw [if_neg (by omega)]
  refine ⟨?_, ?_, ?_⟩
  · unfold mmap; rw [if_neg (by omega), hr]
  · unfold munmap; rw [if_neg (by omega), hr]
  · unfold mprotect; rw [hr]

/-- `MAP_POPULATE` and `MAP_HUGETLB` are not bits of their own: with either, memory that was to be put anywhere is asked for with
`MAP_FIXED`, at address 0; with `MAP_POPULATE` it is shared as well as private. -/
theorem C157_flags_violation (known len : Nat) (prot : Int) (h0 : 0 < len) (hlen : len + 4096 < 2 ^ 64)
    (hk : ∀ i < 16, Nat.testBit known i = true) :
    (∃ r, mmap known 0 len prot (MAP_PRIVATE ||| MAP_ANONYMOUS ||| MAP_POPULATE : Nat) (-1) 0 = .ok r ∧ r.address = 0 ∧
      Nat.testBit r.flags 2 = true ∧ Nat.testBit r.flags 0 = true ∧ Nat.testBit r.flags 1 = true) ∧
    (∃ r, mmap known 0 len prot (MAP_PRIVATE ||| MAP_ANONYMOUS ||| MAP_HUGETLB : Nat) (-1) 0 = .ok r ∧ r.address = 0 ∧
      Nat.testBit r.flags 2 = true) := by
  have hr : roundUp len = some ((len + 4096 - 1) / 4096 * 4096) := by unfold roundUp; rw [if_pos hlen]
  have bit : ∀ (f i : Nat), i < 16 → Nat.testBit (asUsize (f : Nat)) i = true → ∀ p, Nat.testBit ((p ||| (asUsize (f : Nat) &&& 0xFFFF)) &&& known) i = true := by
    intro f i hi hb p
    rw [Nat.testBit_and, Nat.testBit_or, Nat.testBit_and, hb, hk i hi]
    have : Nat.testBit 0xFFFF i = true := by
      rw [show (0xFFFF : Nat) = 2 ^ 16 - 1 from rfl, Nat.testBit_two_pow_sub_one]
      simpa using hi
    rw [this]
    simp
  constructor
  · unfold mmap
    rw [if_neg (by omega), hr]
    exact ⟨_, rfl, rfl, bit _ 2 (by omega) (by decide +kernel) _, bit _ 0 (by omega) (by decide +kernel) _, bit _ 1 (by omega) (by decide +kernel) _⟩
  · unfold mmap
    rw [if_neg (by omega), hr]
    exact ⟨_, rfl, rfl, bit _ 2 (by omega) (by decide +kernel) _⟩

/-- `msync` always fails: what was written through a shared mapping cannot be made to reach the file. -/
theorem C157_msync_violation (addr len : Nat) (flags : Int) : msync addr len flags = .error 38 := rfl

/-- 5000 bytes of private memory of no file take two pages. -/
example : ∃ r, mmap 0x7003F 0 5000 (PROT_READ ||| PROT_WRITE : Nat) (MAP_PRIVATE ||| MAP_ANONYMOUS : Nat) (-1) 0 = .ok r ∧ r.size = 8192 ∧
    r.fd = none ∧ r.flags = 0x60022 := ⟨_, rfl, by decide, by decide, by decide⟩

end Verif.Mman
