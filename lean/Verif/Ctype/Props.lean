import Verif.Ctype.Model

/-!
# C49: character classes, C51: lowest set bit
-/

namespace Verif.Ctype

/-! ## Specification -/

/-- `c` is the code of one of the characters of `s`. -/
def In (c : Int32) (s : String) : Prop := ∃ ch ∈ s.toList, c.toInt = (ch.toNat : Int)

/-- The POSIX locale's class definitions (XBD 7.3.1). -/
def UPPER := "ABCDEFGHIJKLMNOPQRSTUVWXYZ"
def LOWER := "abcdefghijklmnopqrstuvwxyz"
def DIGIT := "0123456789"
def XDIGIT := "0123456789ABCDEFabcdef"
def PUNCT := "!\"#$%&'()*+,-./:;<=>?@[\\]^_`{|}~"
def SPACE := " \x0c\n\r\t\x0b"
def BLANK := " \t"

/-! ## Reduction to a table -/

theorem int32_range (c : Int32) : c.toInt < 0 ∨ 128 ≤ c.toInt ∨ ∃ i : Fin 128, c = Int32.ofNat i := by
  by_cases h : c.toInt < 0
  · exact .inl h
  by_cases h' : 128 ≤ c.toInt
  · exact .inr (.inl h')
  · refine .inr (.inr ⟨⟨c.toInt.toNat, by omega⟩, ?_⟩)
    apply Int32.toInt_inj.1
    rw [Int32.toInt_ofNat_of_lt (by simp only; omega)]
    simp only
    omega

theorem or32 (c : Int32) : c ||| 32 = c ∨ c = (c ||| 32) ^^^ 32 := by
  by_cases h : c.toBitVec.getLsbD 5
  · left
    apply Int32.toBitVec_inj.1
    rw [Int32.toBitVec_or]
    apply BitVec.eq_of_getLsbD_eq
    intro i hi
    rw [BitVec.getLsbD_or]
    have : ∀ j : Fin 32, (32 : Int32).toBitVec.getLsbD j = decide ((j : Nat) = 5) := by decide
    rw [this ⟨i, hi⟩]
    by_cases e : i = 5
    · subst e; simp [h]
    · simp [e]
  · right
    apply Int32.toBitVec_inj.1
    rw [Int32.toBitVec_xor, Int32.toBitVec_or]
    apply BitVec.eq_of_getLsbD_eq
    intro i hi
    rw [BitVec.getLsbD_xor, BitVec.getLsbD_or]
    have : ∀ j : Fin 32, (32 : Int32).toBitVec.getLsbD j = decide ((j : Nat) = 5) := by decide
    rw [this ⟨i, hi⟩]
    by_cases e : i = 5
    · subst e; rw [Bool.not_eq_true] at h; rw [h]; rfl
    · simp [e]

theorem or32_small (c : Int32) (h : 97 ≤ c ||| 32 ∧ c ||| 32 ≤ 102) : 0 ≤ c.toInt ∧ c.toInt < 128 := by
  have h' : 97 ≤ (c ||| 32).toInt ∧ (c ||| 32).toInt ≤ 102 := ⟨Int32.le_iff_toInt_le.1 h.1, Int32.le_iff_toInt_le.1 h.2⟩
  rcases or32 c with e | e
  · rw [e] at h'; omega
  · rcases int32_range (c ||| 32) with k | k | ⟨i, k⟩
    · omega
    · omega
    · rw [e, k]
      have : ∀ i : Fin 128, 0 ≤ (Int32.ofNat i ^^^ 32).toInt ∧ (Int32.ofNat i ^^^ 32).toInt < 128 := by decide +kernel
      exact this i

theorem in_small {c : Int32} {s : String} (hs : ∀ ch ∈ s.toList, ch.toNat < 128) (h : In c s) :
    0 ≤ c.toInt ∧ c.toInt < 128 := by
  obtain ⟨ch, h1, h2⟩ := h
  have := hs ch h1
  omega

/-- Decision of `In` on the table. -/
theorem in_ofNat (i : Fin 128) (s : String) : In (Int32.ofNat i) s ↔ (s.toList.map Char.toNat).contains i.val = true := by
  have hi : (Int32.ofNat i).toInt = (i.val : Int) := Int32.toInt_ofNat_of_lt (by omega)
  unfold In
  rw [hi, List.contains_iff_mem, List.mem_map]
  constructor
  · rintro ⟨ch, h1, h2⟩; exact ⟨ch, h1, by omega⟩
  · rintro ⟨ch, h1, h2⟩; exact ⟨ch, h1, by omega⟩

theorem ofBool_ne {b : Bool} : ofBool b ≠ 0 ↔ b = true := by cases b <;> decide

theorem class_of_table {f : Int32 → Int32} {s : String} (hs : ∀ ch ∈ s.toList, ch.toNat < 128)
    (hf : ∀ c, f c ≠ 0 → 0 ≤ c.toInt ∧ c.toInt < 128)
    (ht : ∀ i : Fin 128, f (Int32.ofNat i) ≠ 0 ↔ (s.toList.map Char.toNat).contains i.val = true) (c : Int32) :
    f c ≠ 0 ↔ In c s := by
  rcases int32_range c with h | h | ⟨i, rfl⟩
  · exact ⟨fun k => absurd (hf c k).1 (by omega), fun k => absurd (in_small hs k).1 (by omega)⟩
  · exact ⟨fun k => absurd (hf c k).2 (by omega), fun k => absurd (in_small hs k).2 (by omega)⟩
  · rw [ht, in_ofNat]

/-- Bounds from comparisons. -/
macro "class_bounds" : tactic => `(tactic| (
  intro c h
  simp only [isdigit, islower, isupper, isalpha, isalnum, isblank, iscntrl, isgraph, isprint, ispunct, isspace,
    ofBool_ne, Bool.and_eq_true, Bool.or_eq_true, decide_eq_true_eq, ge_iff_le, Int32.le_iff_toInt_le,
    Int32.lt_iff_toInt_lt, ← Int32.toInt_inj, Int32.reduceToInt] at h
  omega))

theorem ascii_small (c : Int32) (k : isascii c ≠ 0) : 0 ≤ c.toInt ∧ c.toInt < 128 := by
  simp only [isascii, ofBool_ne, decide_eq_true_eq] at k
  have e : c = (c &&& 127) ||| (c &&& ~~~127) := by
    apply Int32.toBitVec_inj.1
    simp only [Int32.toBitVec_or, Int32.toBitVec_and, Int32.toBitVec_not]
    apply BitVec.eq_of_getLsbD_eq
    intro i hi
    simp only [BitVec.getLsbD_or, BitVec.getLsbD_and, BitVec.getLsbD_not, hi]
    cases c.toBitVec.getLsbD i <;> cases (Int32.toBitVec 127).getLsbD i <;> simp
  rw [k] at e
  have hz : (c &&& 127).toInt < 128 ∧ 0 ≤ (c &&& 127).toInt := by
    have hn : (c &&& 127).toBitVec.toNat < 128 := by
      rw [Int32.toBitVec_and, BitVec.toNat_and]
      have : (Int32.toBitVec 127).toNat = 2 ^ 7 - 1 := by decide
      rw [this, Nat.and_two_pow_sub_one_eq_mod]
      omega
    rw [← Int32.toInt_toBitVec, BitVec.toInt_eq_toNat_of_lt (by omega)]
    omega
  have e' : c = c &&& 127 := by
    rw [Int32.or_zero] at e; exact e
  rw [e']; exact ⟨hz.2, hz.1⟩

/-! ## Theorems -/

theorem C49_isupper (c : Int32) : isupper c ≠ 0 ↔ In c UPPER :=
  class_of_table (by decide) (by class_bounds) (by decide +kernel) c

theorem C49_islower (c : Int32) : islower c ≠ 0 ↔ In c LOWER :=
  class_of_table (by decide) (by class_bounds) (by decide +kernel) c

theorem C49_isdigit (c : Int32) : isdigit c ≠ 0 ↔ In c DIGIT :=
  class_of_table (by decide) (by class_bounds) (by decide +kernel) c

theorem C49_isspace (c : Int32) : isspace c ≠ 0 ↔ In c SPACE :=
  class_of_table (by decide) (by class_bounds) (by decide +kernel) c

theorem C49_isblank (c : Int32) : isblank c ≠ 0 ↔ In c BLANK :=
  class_of_table (by decide) (by class_bounds) (by decide +kernel) c

theorem C49_ispunct (c : Int32) : ispunct c ≠ 0 ↔ In c PUNCT :=
  class_of_table (by decide) (by class_bounds) (by decide +kernel) c

theorem C49_isxdigit (c : Int32) : isxdigit c ≠ 0 ↔ In c XDIGIT := by
  refine class_of_table (by decide) ?_ (by decide +kernel) c
  intro c h
  simp only [isxdigit, ofBool_ne, Bool.or_eq_true, Bool.and_eq_true, decide_eq_true_eq] at h
  rcases h with h | h
  · rw [C49_isdigit] at h
    exact in_small (by decide) h
  · exact or32_small c h

/-- Control characters: codes 0 to 31 and 127. -/
theorem C49_iscntrl (c : Int32) : iscntrl c ≠ 0 ↔ (0 ≤ c.toInt ∧ c.toInt ≤ 31) ∨ c.toInt = 127 := by
  simp only [iscntrl, ofBool_ne, Bool.or_eq_true, decide_eq_true_eq, Int32.le_iff_toInt_le, ← Int32.toInt_inj,
    Int32.reduceToInt]

theorem C49_isalpha (c : Int32) : isalpha c ≠ 0 ↔ In c UPPER ∨ In c LOWER := by
  simp only [isalpha, ofBool_ne, Bool.or_eq_true, decide_eq_true_eq, C49_islower, C49_isupper]
  exact Or.comm

theorem C49_isalnum (c : Int32) : isalnum c ≠ 0 ↔ In c UPPER ∨ In c LOWER ∨ In c DIGIT := by
  simp only [isalnum, ofBool_ne, Bool.or_eq_true, decide_eq_true_eq, C49_isalpha, C49_isdigit]
  constructor
  · rintro (h | h | h) <;> simp [h]
  · rintro (h | h | h) <;> simp [h]

/-- `graph` is `alnum` or `punct`. -/
theorem C49_isgraph (c : Int32) : isgraph c ≠ 0 ↔ isalnum c ≠ 0 ∨ ispunct c ≠ 0 := by
  have hb : ∀ c, isgraph c ≠ 0 → 0 ≤ c.toInt ∧ c.toInt < 128 := by class_bounds
  have hb' : ∀ c, isalnum c ≠ 0 → 0 ≤ c.toInt ∧ c.toInt < 128 := by
    intro c h
    rw [C49_isalnum] at h
    rcases h with h | h | h <;> exact in_small (by decide) h
  have hb'' : ∀ c, ispunct c ≠ 0 → 0 ≤ c.toInt ∧ c.toInt < 128 := by class_bounds
  rcases int32_range c with h | h | ⟨i, rfl⟩
  · constructor
    · intro k; have := hb c k; omega
    · rintro (k | k)
      · have := hb' c k; omega
      · have := hb'' c k; omega
  · constructor
    · intro k; have := hb c k; omega
    · rintro (k | k)
      · have := hb' c k; omega
      · have := hb'' c k; omega
  · revert i; decide +kernel

/-- `print` is `graph` and the space. -/
theorem C49_isprint (c : Int32) : isprint c ≠ 0 ↔ isgraph c ≠ 0 ∨ c.toInt = 32 := by
  simp only [isprint, isgraph, ofBool_ne, decide_eq_true_eq, Int32.le_iff_toInt_le, Int32.lt_iff_toInt_lt,
    Int32.reduceToInt]
  omega

/-- An ASCII character is either a control character or printable; nothing else is in a class. -/
theorem C49_partition (c : Int32) :
    (isascii c ≠ 0 ↔ 0 ≤ c.toInt ∧ c.toInt < 128) ∧ (isascii c ≠ 0 ↔ (iscntrl c ≠ 0 ∨ isprint c ≠ 0)) ∧
    ¬ (iscntrl c ≠ 0 ∧ isprint c ≠ 0) := by
  have h1 : isascii c ≠ 0 ↔ 0 ≤ c.toInt ∧ c.toInt < 128 := by
    rcases int32_range c with h | h | ⟨i, rfl⟩
    · exact ⟨ascii_small c, fun k => by omega⟩
    · exact ⟨ascii_small c, fun k => by omega⟩
    · revert i; decide +kernel
  refine ⟨h1, ?_, ?_⟩
  · rw [h1, C49_iscntrl]
    simp only [isprint, ofBool_ne, decide_eq_true_eq, Int32.le_iff_toInt_le, Int32.lt_iff_toInt_lt,
      Int32.reduceToInt]
    omega
  · rw [C49_iscntrl]
    simp only [isprint, ofBool_ne, decide_eq_true_eq, Int32.le_iff_toInt_le, Int32.lt_iff_toInt_lt,
      Int32.reduceToInt]
    omega

/-- `tolower` adds 32 to upper-case letters and leaves everything else, EOF included, alone. -/
theorem C49_tolower (c : Int32) :
    (In c UPPER → (tolower c).toInt = c.toInt + 32) ∧ (¬ In c UPPER → tolower c = c) := by
  unfold tolower
  constructor
  · intro h
    have hs := in_small (by decide) h
    rw [if_pos ((C49_isupper c).2 h)]
    rcases int32_range c with k | k | ⟨i, rfl⟩
    · omega
    · omega
    · rw [in_ofNat] at h
      revert i; decide +kernel
  · intro h
    rw [if_neg (by rw [C49_isupper]; exact h)]

/-- `toupper` subtracts 32 from lower-case letters and leaves everything else alone. -/
theorem C49_toupper (c : Int32) :
    (In c LOWER → (toupper c).toInt = c.toInt - 32) ∧ (¬ In c LOWER → toupper c = c) := by
  unfold toupper
  constructor
  · intro h
    have hs := in_small (by decide) h
    rw [if_pos ((C49_islower c).2 h)]
    rcases int32_range c with k | k | ⟨i, rfl⟩
    · omega
    · omega
    · rw [in_ofNat] at h
      revert i; decide +kernel
  · intro h
    rw [if_neg (by rw [C49_islower]; exact h)]

/-- `toascii` keeps the low seven bits. -/
theorem C49_toascii (c : Int32) : (toascii c).toInt = c.toInt % 128 := by
  have hn : (c &&& 127).toBitVec.toNat = c.toBitVec.toNat % 128 := by
    rw [Int32.toBitVec_and, BitVec.toNat_and]
    have : (Int32.toBitVec 127).toNat = 2 ^ 7 - 1 := by decide
    rw [this, Nat.and_two_pow_sub_one_eq_mod]
  unfold toascii
  rw [← Int32.toInt_toBitVec, BitVec.toInt_eq_toNat_of_lt (by omega), hn, ← Int32.toInt_toBitVec,
    BitVec.toInt_eq_toNat_cond]
  split <;> omega

/-! ## C51 -/

theorem trailingZerosFrom_spec {w : Nat} (x : BitVec w) : ∀ k i, i + k = w → (∀ j, j < i → x.getLsbD j = false) →
    (trailingZerosFrom x i k = w ∧ ∀ j, j < w → x.getLsbD j = false) ∨
    (trailingZerosFrom x i k < w ∧ x.getLsbD (trailingZerosFrom x i k) = true ∧
      ∀ j, j < trailingZerosFrom x i k → x.getLsbD j = false) := by
  intro k
  induction k with
  | zero => intro i h1 h2; left; simp only [trailingZerosFrom]; exact ⟨by omega, fun j hj => h2 j (by omega)⟩
  | succ k ih =>
    intro i h1 h2
    unfold trailingZerosFrom
    by_cases h : x.getLsbD i
    · right; rw [if_pos h]; exact ⟨by omega, h, h2⟩
    · rw [if_neg h]
      refine ih (i + 1) (by omega) (fun j hj => ?_)
      by_cases e : j = i
      · subst e; simpa using h
      · exact h2 j (by omega)

/-- **C51**. `ffs` is 0 for 0, otherwise the 1-based position of the lowest set bit. -/
theorem C51_ffs {w : Nat} (x : BitVec w) :
    (x = 0 → ffs x = 0) ∧
    (x ≠ 0 → 1 ≤ ffs x ∧ ffs x ≤ w ∧ x.getLsbD (ffs x - 1) = true ∧ ∀ j, j < ffs x - 1 → x.getLsbD j = false) := by
  unfold ffs
  constructor
  · intro h; rw [if_pos h]
  · intro h
    rw [if_neg h]
    rcases trailingZerosFrom_spec x w 0 (by omega) (by simp) with ⟨-, k⟩ | ⟨k1, k2, k3⟩
    · exfalso
      apply h
      apply BitVec.eq_of_getLsbD_eq
      intro i hi
      rw [k i hi]; simp
    · unfold trailingZeros
      refine ⟨by omega, by omega, ?_, ?_⟩
      · rw [show 1 + trailingZerosFrom x 0 w - 1 = trailingZerosFrom x 0 w by omega]; exact k2
      · intro j hj; exact k3 j (by omega)

/-- **C51**, in numbers: `2^(ffs-1)` is the largest power of two dividing the value. -/
theorem C51_ffs_dvd {w : Nat} (x : BitVec w) (h : x ≠ 0) :
    2 ^ (ffs x - 1) ∣ x.toNat ∧ ¬ 2 ^ ffs x ∣ x.toNat := by
  obtain ⟨h1, h2, h3, h4⟩ := (C51_ffs x).2 h
  have key : ∀ k, (∀ j, j < k → x.getLsbD j = false) → 2 ^ k ∣ x.toNat := by
    intro k hk
    apply Nat.dvd_of_mod_eq_zero
    apply Nat.eq_of_testBit_eq
    intro i
    rw [Nat.testBit_mod_two_pow]
    by_cases e : i < k
    · have := hk i e
      rw [BitVec.getLsbD] at this
      simp [this]
    · simp [e]
  refine ⟨key _ h4, ?_⟩
  intro hd
  obtain ⟨c, hc⟩ := hd
  rw [BitVec.getLsbD, hc] at h3
  rw [Nat.testBit_two_pow_mul] at h3
  simp at h3
  omega

example : ffs (40 : BitVec 32) = 4 := by decide
example : ffs (BitVec.ofNat 32 0x80000000) = 32 := by decide
example : In 70 XDIGIT ∧ ¬ In 71 XDIGIT ∧ ¬ In (-1) XDIGIT := by
  refine ⟨⟨'F', by decide, rfl⟩, ?_, ?_⟩
  · rintro ⟨ch, h1, h2⟩
    have : ∀ ch ∈ XDIGIT.toList, (71 : Int32).toInt ≠ (ch.toNat : Int) := by decide
    exact this ch h1 h2
  · rintro ⟨ch, h1, h2⟩
    have : ∀ ch ∈ XDIGIT.toList, (-1 : Int32).toInt ≠ (ch.toNat : Int) := by decide
    exact this ch h1 h2

end Verif.Ctype
