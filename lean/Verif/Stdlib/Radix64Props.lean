import Verif.Stdlib.Radix64Model
import Verif.Stdlib.SortProps
/-!
# Radix-64 numbers (C24)
-/

namespace Verif.Stdlib
open Verif.Mem

/-! ## Specification -/

/-- The 64 digits, in the order POSIX gives them: `./0123456789A…Za…z`. -/
def alphabet : List UInt8 :=
  [46, 47] ++ (List.range 10).map (fun i => UInt8.ofNat (48 + i))
    ++ (List.range 26).map (fun i => UInt8.ofNat (65 + i)) ++ (List.range 26).map (fun i => UInt8.ofNat (97 + i))

/-- `s` spells the digits `ds` (all below 64). -/
def Spells (s : List UInt8) (ds : List Nat) : Prop := s.map some = ds.map (fun d => alphabet[d]?)

/-- The number with the given radix-64 digits, least significant first. -/
def value64 : List Nat → Nat
  | [] => 0
  | d :: ds => d + 64 * value64 ds

/-! ## Lemmas -/

/-- The three ranges of the decoder. -/
def digitOf (c : UInt8) : Option Nat :=
  if 46 ≤ c ∧ c ≤ 57 then some (c - 46).toNat
  else if 65 ≤ c ∧ c ≤ 90 then some (c - 53).toNat
  else if 97 ≤ c ∧ c ≤ 122 then some (c - 59).toNat
  else none

theorem a64lLoop_succ (m : Mem UInt8) (s n i : Nat) (l : BitVec 32) (c : UInt8) (h : m (s + i) = some c) :
    a64lLoop m s (n + 1) i l = if c = 0 then some (l.signExtend 64) else
      match digitOf c with
      | some d => a64lLoop m s n (i + 1) (l ||| (BitVec.ofNat 32 d <<< (6 * i)))
      | none => some 0 := by
  rw [a64lLoop, h]
  simp only [Option.bind_eq_bind, Option.bind_some, digitOf]
  split
  · rfl
  · split
    · rfl
    · split
      · rfl
      · split <;> rfl

theorem digitOf_alphabet : ∀ d : Fin 64, ∃ c, alphabet[d.val]? = some c ∧ digitOf c = some d.val ∧ c ≠ 0
    ∧ l64aDigit d.val = some c ∧ (c = 46 ↔ d.val = 0) := by
  intro d
  refine ⟨alphabet[d.val]'(by have := d.2; simp [alphabet]), by simp, ?_⟩
  revert d
  decide +kernel

theorem digitOf_none : ∀ c : UInt8, digitOf c = none ↔ c ∉ alphabet :=
  byte_table (by decide +kernel)

theorem alphabet_length : alphabet.length = 64 := by decide

theorem spells_cons {c : UInt8} {s : List UInt8} {d : Nat} {ds : List Nat} :
    Spells (c :: s) (d :: ds) ↔ alphabet[d]? = some c ∧ Spells s ds := by
  simp [Spells, eq_comm]

theorem or_step (l : BitVec 32) (d i : Nat) (hl : l.toNat < 64 ^ i) (hd : d < 64) :
    (l ||| (BitVec.ofNat 32 d <<< (6 * i))).toNat = (l.toNat + d * 64 ^ i) % 2 ^ 32 := by
  have e : 64 ^ i = 2 ^ (6 * i) := by rw [Nat.pow_mul]
  rw [BitVec.toNat_or, BitVec.toNat_shiftLeft, BitVec.toNat_ofNat, Nat.mod_eq_of_lt (show d < 2 ^ 32 by omega)]
  have h1 : l.toNat = l.toNat % 2 ^ 32 := (Nat.mod_eq_of_lt l.isLt).symm
  conv => lhs; rw [h1]
  rw [← Nat.or_mod_two_pow, Nat.or_comm, ← Nat.shiftLeft_add_eq_or_of_lt (show l.toNat < 2 ^ (6 * i) by rw [← e]; exact hl), Nat.shiftLeft_eq, Nat.add_comm, e]

theorem a64lLoop_eq {m : Mem UInt8} {s : Nat} (str : List UInt8) (ds : List Nat) (n i : Nat) (l : BitVec 32)
    (h : Spells str ds) (hb : BStr m (s + i) n str) (hl : l.toNat < 64 ^ i) (hn : i + n = 6) :
    a64lLoop m s n i l
      = some ((BitVec.ofNat 32 (l.toNat + value64 ds * 64 ^ i)).signExtend 64) := by
  induction str generalizing ds n i l with
  | nil =>
    have : ds = [] := by cases ds <;> simp_all [Spells]
    subst this
    cases n with
    | zero => simp [a64lLoop, value64]
    | succ n =>
      rw [a64lLoop_succ _ _ _ _ _ 0 hb.nul]
      simp [value64]
  | cons c str ih =>
    cases ds with
    | nil => simp [Spells] at h
    | cons d ds =>
      obtain ⟨h1, h2⟩ := spells_cons.1 h
      have hd : d < 64 := by
        have := (List.getElem?_eq_some_iff.1 h1).1
        rwa [alphabet_length] at this
      obtain ⟨c', e1, e2, e3, -⟩ := digitOf_alphabet ⟨d, hd⟩
      rw [h1] at e1
      obtain rfl := Option.some.inj e1
      cases n with
      | zero => have := hb.zero; simp at this
      | succ n =>
        rw [a64lLoop_succ _ _ _ _ _ c hb.head.1, if_neg e3, e2]
        simp only
        have hs := or_step l d i hl hd
        have hlt : (l ||| (BitVec.ofNat 32 d <<< (6 * i))).toNat < 64 ^ (i + 1) := by
          rw [hs]
          refine Nat.lt_of_le_of_lt (Nat.mod_le _ _) ?_
          rw [Nat.pow_succ, Nat.mul_comm (64 ^ i)]
          have : d * 64 ^ i ≤ 63 * 64 ^ i := Nat.mul_le_mul_right _ (by omega)
          omega
        rw [ih ds n (i + 1) _ h2 (by rw [← Nat.add_assoc]; exact hb.tail) hlt (by omega)]
        congr 2
        apply BitVec.eq_of_toNat_eq
        rw [BitVec.toNat_ofNat, BitVec.toNat_ofNat, hs, Nat.mod_add_mod]
        congr 1
        rw [value64, Nat.pow_succ, Nat.add_mul, Nat.mul_comm (64 ^ i) 64, ← Nat.mul_assoc, Nat.mul_comm (value64 ds) 64]
        omega

/-- The radix-64 digits of a number, `n` of them. -/
def digits64 (v : Int) : (n i : Nat) → List Nat
  | 0, _ => []
  | n + 1, i => (v / 64 ^ i % 64).toNat :: digits64 v n (i + 1)

theorem digits64_length (v : Int) (n i : Nat) : (digits64 v n i).length = n := by
  induction n generalizing i with
  | zero => rfl
  | succ n ih => simp [digits64, ih]

theorem digits64_lt (v : Int) (n i : Nat) : ∀ d ∈ digits64 v n i, d < 64 := by
  induction n generalizing i with
  | zero => simp [digits64]
  | succ n ih =>
    intro d hd
    rcases List.mem_cons.1 hd with rfl | hd
    · omega
    · exact ih _ d hd

theorem emod_mul64 {w k : Int} (hk : 0 < k) : w % (k * 64) = w % 64 + 64 * (w / 64 % k) := by
  refine ((Int.ediv_emod_unique (q := w / 64 / k) (by omega)).2 ⟨?_, ?_, ?_⟩).2
  · have h1 := Int.mul_ediv_add_emod w 64
    have h2 := Int.mul_ediv_add_emod (w / 64) k
    have h3 : k * 64 * (w / 64 / k) = 64 * (k * (w / 64 / k)) := by
      rw [Int.mul_comm k 64, Int.mul_assoc]
    rw [h3]
    omega
  · have h1 := Int.emod_nonneg (w / 64) (show k ≠ 0 by omega)
    have h2 := Int.emod_nonneg w (show (64 : Int) ≠ 0 by decide)
    omega
  · have h1 := Int.emod_lt_of_pos (w / 64) hk
    have h2 := Int.emod_lt_of_pos w (show (0 : Int) < 64 by decide)
    omega

theorem value64_digits (v : Int) (n i : Nat) : (value64 (digits64 v n i) : Int) = v / 64 ^ i % 64 ^ n := by
  induction n generalizing i with
  | zero => simp [digits64, value64, Int.emod_one]
  | succ n ih =>
    simp only [digits64, value64]
    have h0 : (0 : Int) ≤ v / 64 ^ i % 64 := Int.emod_nonneg _ (by decide)
    rw [Int.natCast_add, Int.natCast_mul, ih, Int.toNat_of_nonneg h0, Int.pow_succ 64 i,
      ← Int.ediv_ediv_of_nonneg (Int.le_of_lt (Int.pow_pos (by decide))), Int.pow_succ,
      emod_mul64 (Int.pow_pos (by decide))]
    rfl

theorem sshift_digit (x : BitVec 32) (i : Nat) :
    ((x.sshiftRight (6 * i) &&& 63).toNat : Int) = x.toInt / 64 ^ i % 64 := by
  have h1 : (x.sshiftRight (6 * i) &&& 63).toNat = (x.sshiftRight (6 * i)).toNat % 64 := by
    rw [BitVec.toNat_and]
    exact Nat.and_two_pow_sub_one_eq_mod _ 6
  have h2 := BitVec.toInt_sshiftRight (x := x) (n := 6 * i)
  rw [Int.shiftRight_eq_div_pow] at h2
  have h3 := BitVec.toInt_eq_toNat_bmod (x.sshiftRight (6 * i))
  rw [h1]
  have e : ((2 ^ (6 * i) : Nat) : Int) = 64 ^ i := by
    rw [Nat.pow_mul]; simp
  rw [e] at h2
  rw [← h2, h3, Int.bmod_def]
  split <;> omega

theorem digits64_getElem (v : Int) (n i j : Nat) (h : j < n) :
    (digits64 v n i)[j]? = some (v / 64 ^ (i + j) % 64).toNat := by
  induction n generalizing i j with
  | zero => omega
  | succ n ih =>
    cases j with
    | zero => simp [digits64]
    | succ j =>
      rw [digits64, List.getElem?_cons_succ, ih _ _ (by omega)]
      rw [show i + 1 + j = i + (j + 1) by omega]

theorem l64aLoop_eq (x : BitVec 32) (buf n i : Nat) (m : Mem UInt8) (h : Mapped m (buf + i) n) :
    ∃ s, Spells s (digits64 x.toInt n i) ∧ l64aLoop x buf n i m = some (patch m (buf + i) s) := by
  induction n generalizing i m with
  | zero => exact ⟨[], rfl, by simp [l64aLoop]⟩
  | succ n ih =>
    have hd := sshift_digit x i
    have e : (x.sshiftRight (6 * i) &&& 63).toNat = (x.toInt / 64 ^ i % 64).toNat := by omega
    have lt : (x.toInt / 64 ^ i % 64).toNat < 64 := by omega
    obtain ⟨c, e1, e2, e3, e4, -⟩ := digitOf_alphabet ⟨_, lt⟩
    simp only at e1 e4
    obtain ⟨s, hs, he⟩ := ih (i + 1) (patch m (buf + i) [c]) (mapped_patch h.shift)
    refine ⟨c :: s, spells_cons.2 ⟨e1, hs⟩, ?_⟩
    rw [l64aLoop, e, e4]
    simp only [Option.bind_eq_bind, Option.bind_some]
    rw [store_patch h.head, Option.bind_some, he, ← Nat.add_assoc, patch_cons]

/-- What the number of digits computed by `l64a` means. -/
theorem num_digits (x : BitVec 32) (n : Nat) (h : n = 6 - (leadingZeros x + 4) / 6) :
    n ≤ 6 ∧ (n < 6 → 0 ≤ x.toInt ∧ x.toInt < 64 ^ n)
      ∧ (0 < n → 64 ^ (n - 1) ≤ x.toNat) := by
  have hx := x.isLt
  have ht := BitVec.toInt_eq_toNat_cond x
  unfold leadingZeros at h
  by_cases h0 : x.toNat = 0
  · rw [if_pos h0] at h
    have : n = 0 := by omega
    subst this
    simp [h0] at ht
    simp [ht]
  · rw [if_neg h0] at h
    have l1 := Nat.log2_self_le h0
    have l2 := Nat.lt_log2_self (n := x.toNat)
    have l3 : x.toNat.log2 < 32 := (Nat.log2_lt h0).2 hx
    generalize x.toNat.log2 = g at *
    have hn : n = g / 6 + 1 := by omega
    have e : ∀ k, (64 : Nat) ^ k = 2 ^ (6 * k) := fun k => by rw [Nat.pow_mul]
    refine ⟨by omega, fun hlt => ?_, fun _ => ?_⟩
    · have h30 : x.toNat < 2 ^ 30 := Nat.lt_of_lt_of_le l2 (Nat.pow_le_pow_right (by decide) (by omega))
      have h4 : x.toNat < 64 ^ n := by
        rw [e]; exact Nat.lt_of_lt_of_le l2 (Nat.pow_le_pow_right (by decide) (by omega))
      have h5 : ((64 ^ n : Nat) : Int) = 64 ^ n := by simp
      rw [if_pos (by omega)] at ht
      omega
    · rw [e]
      exact Nat.le_trans (Nat.pow_le_pow_right (by decide) (by omega)) l1

theorem spells_alphabet {s : List UInt8} {ds : List Nat} (h : Spells s ds) : ∀ c ∈ s, c ∈ alphabet := by
  induction s generalizing ds with
  | nil => simp
  | cons c s ih =>
    cases ds with
    | nil => simp [Spells] at h
    | cons d ds =>
      obtain ⟨h1, h2⟩ := spells_cons.1 h
      intro x hx
      rcases List.mem_cons.1 hx with rfl | hx
      · exact List.mem_of_getElem? h1
      · exact ih h2 x hx

theorem l64a_eq {m : Mem UInt8} {buf : Nat} (v : BitVec 64) (h : Mapped m buf 7) :
    ∃ m' s ds, l64a m buf v = some m' ∧ CStr m' buf s ∧ Spells s ds ∧ s.length ≤ 6
      ∧ BitVec.ofNat 32 (value64 ds) = v.truncate 32 ∧ (∀ c ∈ s, c ∈ alphabet)
      ∧ s.getLast? ≠ some 46 ∧ (∀ a, (a < buf ∨ buf + 7 ≤ a) → m' a = m a) := by
  unfold l64a
  simp only
  generalize v.truncate 32 = x
  obtain ⟨hn1, hn2, hn3⟩ := num_digits x _ rfl
  generalize 6 - (leadingZeros x + 4) / 6 = n at *
  rw [writeN_eq (l := [0, 0, 0, 0, 0, 0, 0]) h]
  simp only [Option.bind_eq_bind, Option.bind_some]
  obtain ⟨s, hs, e⟩ := l64aLoop_eq x buf n 0 (patch m buf [0, 0, 0, 0, 0, 0, 0])
    (mapped_patch (by simpa using h.mono (by omega)))
  have hl : s.length = n := by
    have := congrArg List.length hs
    simpa [digits64_length] using this
  have ha := spells_alphabet hs
  simp only [Nat.add_zero] at e
  refine ⟨_, s, _, e, ⟨bytes_patch .., ?_, ?_⟩, hs, by omega, ?_, ha, ?_, ?_⟩
  · rw [patch_out (by omega), patch_in (by simp; omega), hl]
    have : n < 7 := by omega
    match n, this with
    | 0, _ | 1, _ | 2, _ | 3, _ | 4, _ | 5, _ | 6, _ => rfl
  · intro h0
    exact absurd (ha _ h0) (by decide)
  · have hv := value64_digits x.toInt n 0
    simp only [Int.pow_zero, Int.ediv_one] at hv
    apply BitVec.eq_of_toNat_eq
    rw [BitVec.toNat_ofNat]
    have ht := BitVec.toInt_eq_toNat_cond x
    have hx := x.isLt
    by_cases h6 : n < 6
    · obtain ⟨h1, h2⟩ := hn2 h6
      rw [Int.emod_eq_of_lt h1 h2] at hv
      rw [hv.symm] at h1
      split at ht <;> omega
    · have : n = 6 := by omega
      subst this
      have : (64 : Int) ^ 6 = 68719476736 := by decide
      rw [this] at hv
      split at ht <;> omega
  · intro hlast
    cases hc : n with
    | zero => rw [hc] at hl; rw [List.length_eq_zero_iff.1 hl] at hlast; simp at hlast
    | succ k =>
      rw [hc] at hl hs
      have h1 : s[k]? = some 46 := by
        rw [List.getLast?_eq_getElem?, hl] at hlast; simpa using hlast
      have h2 := congrArg (fun l => l[k]?) hs
      simp only [List.getElem?_map, h1, digits64_getElem _ _ _ _ (show k < k + 1 by omega)] at h2
      simp only [Option.map_some, Option.some.injEq, Nat.zero_add] at h2
      have lt : (x.toInt / 64 ^ k % 64).toNat < 64 := by omega
      obtain ⟨c, e1, -, -, -, e5⟩ := digitOf_alphabet ⟨_, lt⟩
      simp only at e1 e5
      rw [← h2] at e1
      obtain rfl := Option.some.inj e1
      have z := e5.1 rfl
      have h3 := hn3 (by omega)
      rw [hc] at h3 hn2
      simp only [Nat.add_sub_cancel] at h3
      have ht := BitVec.toInt_eq_toNat_cond x
      have hx := x.isLt
      have e64 : ((64 ^ k : Nat) : Int) = 64 ^ k := by simp
      by_cases h6 : k + 1 < 6
      · obtain ⟨h4, h5⟩ := hn2 h6
        rw [Int.pow_succ] at h5
        have p1 : (0 : Int) < 64 ^ k := Int.pow_pos (by decide)
        have q1 : x.toInt / 64 ^ k < 64 := Int.ediv_lt_of_lt_mul p1 (by rw [Int.mul_comm]; exact h5)
        have q2 : 1 ≤ x.toInt / 64 ^ k := by
          rw [Int.le_ediv_iff_mul_le p1]; split at ht <;> omega
        omega
      · have : k = 5 := by omega
        subst this
        have p1 : (64 : Int) ^ 5 = 1073741824 := by decide
        have p2 : (64 : Nat) ^ 5 = 1073741824 := by decide
        rw [p1] at z
        rw [p2] at h3
        split at ht <;> omega
  · intro a ha
    rw [patch_out (by omega), patch_out (by simp; omega)]

/-! ## C24 -/

/-- C24: `a64l` returns the value of the radix-64 number (at most six digits are looked at), reduced to 32 bits and
sign-extended. -/
theorem C24_a64l {m : Mem UInt8} {p : Nat} {s : List UInt8} {ds : List Nat} (h : BStr m p 6 s) (sp : Spells s ds) :
    a64l m (some p) = some ((BitVec.ofNat 32 (value64 ds)).signExtend 64) := by
  have := a64lLoop_eq (m := m) (s := p) s ds 6 0 0 sp (by simpa using h) (by simp) rfl
  simpa [a64l] using this

/-- C24: `l64a` fills its own seven-byte buffer and nothing else; the buffer holds a string of at most six digits of
the radix-64 alphabet, whose last (most significant) digit is not `.`. -/
theorem C24_l64a {m : Mem UInt8} {buf : Nat} (v : BitVec 64) (h : Mapped m buf 7) :
    ∃ m' s, l64a m buf v = some m' ∧ CStr m' buf s ∧ s.length ≤ 6 ∧ (∀ c ∈ s, c ∈ alphabet)
      ∧ s.getLast? ≠ some 46 ∧ (∀ a, (a < buf ∨ buf + 7 ≤ a) → m' a = m a) := by
  obtain ⟨m', s, ds, e, h1, h2, h3, h4, h5, h6, h7⟩ := l64a_eq v h
  exact ⟨m', s, e, h1, h3, h5, h6, h7⟩

/-- C24: `a64l` undoes `l64a`, up to the 32 bits they work on. -/
theorem C24_roundtrip {m : Mem UInt8} {buf : Nat} (v : BitVec 64) (h : Mapped m buf 7) :
    ∃ m', l64a m buf v = some m' ∧ a64l m' (some buf) = some ((v.truncate 32).signExtend 64) := by
  obtain ⟨m', s, ds, e, h1, h2, h3, h4, -⟩ := l64a_eq v h
  refine ⟨m', e, ?_⟩
  have hb := h1.bstr 6
  rw [List.take_of_length_le h3] at hb
  rw [C24_a64l hb h2, h4]

/-- C24: a string with a character outside the alphabet among the first six gives 0. -/
theorem C24_invalid {m : Mem UInt8} {p : Nat} {s t : List UInt8} {ds : List Nat} {c : UInt8}
    (h : BStr m p 6 (s ++ c :: t)) (sp : Spells s ds) (hc : c ∉ alphabet) : a64l m (some p) = some 0 := by
  suffices ∀ (s : List UInt8) (ds : List Nat) (n i : Nat) (l : BitVec 32), Spells s ds →
      BStr m (p + i) n (s ++ c :: t) → a64lLoop m p n i l = some 0 from
    this s ds 6 0 0 sp h
  intro s
  induction s with
  | nil =>
    intro ds n i l _ hb
    cases n with
    | zero => have := hb.zero; simp at this
    | succ n =>
      have hh := BStr.head hb
      rw [a64lLoop_succ _ _ _ _ _ c hh.1, if_neg hh.2, (digitOf_none c).2 hc]
  | cons d s ih =>
    intro ds n i l sp hb
    cases n with
    | zero => have := hb.zero; simp at this
    | succ n =>
      cases ds with
      | nil => simp [Spells] at sp
      | cons k ds =>
        have hh := BStr.head hb
        obtain ⟨h1, h2⟩ := spells_cons.1 sp
        have hk : k < 64 := by
          have := (List.getElem?_eq_some_iff.1 h1).1
          rwa [alphabet_length] at this
        obtain ⟨c', e1, e2, e3, -⟩ := digitOf_alphabet ⟨k, hk⟩
        rw [h1] at e1
        obtain rfl := Option.some.inj e1
        rw [a64lLoop_succ _ _ _ _ _ d hh.1, if_neg e3, e2]
        exact ih ds n (i + 1) _ h2 (by rw [← Nat.add_assoc]; exact BStr.tail hb)

-- `a64l("zz1")`: 63 + 63 * 64 + 3 * 4096.
example : a64l (ofList 5 [122, 122, 49, 0]) (some 5) = some 16383 := by
  rw [C24_a64l (s := [122, 122, 49]) (ds := [63, 63, 3])
    (by refine ⟨?_, by decide, Or.inr ⟨by decide, ?_⟩⟩ <;> simp [Bytes, ofList]) rfl]
  rfl

example : ∃ m', l64a (fun _ => some 0) 5 (-1) = some m' ∧ a64l m' (some 5) = some (-1) :=
  C24_roundtrip (-1) (fun _ _ => rfl)

end Verif.Stdlib
