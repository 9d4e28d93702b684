import Verif.Float.Lemmas
/-!
# The floating-point conversions of `printf`: properties

C128: `%f`. C129: `%e`. C130: `%g`.
-/

namespace Verif.Float
open Verif.Strtod

/-! ## What the properties speak of -/

/-- `v` is the integer nearest to `a/b`, the even one of two. -/
def RoundEven (v a b : Nat) : Prop := 2 * dist (v * b) a ≤ b ∧ (2 * dist (v * b) a = b → v % 2 = 0)

/-- The text of the magnitude `n` (in units of `2^-1074`) with `p` digits behind the point: correctly rounded, no superfluous zeros in front, and a point if there are digits behind it or it is asked for. -/
def Decimal (n p : Nat) (point : Bool) (t : List UInt8) : Prop :=
  ∃ ip fp dsI dsF, t = ip ++ (if p = 0 ∧ point = false then [] else 0x2E :: fp) ∧ Text 10 ip dsI ∧ Text 10 fp dsF ∧ dsF.length = p ∧ dsI ≠ [] ∧ (dsI.head? = some 0 → dsI = [0])
    ∧ RoundEven (value 10 (dsI ++ dsF)) (n * 10 ^ p) (2 ^ 1074)

/-- The text of an exponent: a sign and at least two digits, no more than necessary. -/
def ExpText (e : Int) (t : List UInt8) : Prop :=
  ∃ u ds, t = (if e < 0 then 0x2D else 0x2B) :: u ∧ Text 10 u ds ∧ value 10 ds = e.natAbs ∧ 2 ≤ ds.length ∧ (2 < ds.length → ds.head? ≠ some 0)

/-- Zeros at the end of the part behind the point, and the point if nothing is left behind it, are removed. -/
def Trimmed (t t' : List UInt8) : Prop :=
  (0x2E ∉ t ∧ t' = t) ∨ ∃ ip fp k, 0x2E ∉ ip ∧ t = ip ++ 0x2E :: (fp ++ List.replicate k 0x30) ∧ fp.getLast? ≠ some 0x30 ∧ 0x2E ∉ fp ∧ t' = if fp = [] then ip else ip ++ 0x2E :: fp

/-- Sign and text in a field: ISO C's rules for the width and the flags `-` and `0`. -/
def justify (left zero : Bool) (width : Int) (sign body : List UInt8) : List UInt8 :=
  let k := width.natAbs - (sign.length + body.length)
  if left ∨ width < 0 then sign ++ body ++ List.replicate k 0x20
  else if zero then sign ++ List.replicate k 0x30 ++ body
  else List.replicate k 0x20 ++ sign ++ body

/-- What is left out: the flags for a sign with a number that has none; the flag `0` for a field filled on the right side. The width is an `int`. -/
def Conv.Plain (c : Conv) (neg : Bool) : Prop :=
  (c.signReserve = true ∨ c.signAlways = true → neg = true) ∧ ¬ (c.zero = true ∧ (c.left = true ∨ c.width < 0)) ∧ -2 ^ 31 ≤ c.width ∧ c.width < 2 ^ 31

/-- The sign. -/
def minus (neg : Bool) : List UInt8 := if neg then [0x2D] else []

/-- `a` is `b` up to `e` relative errors of `2^-53`. -/
def Close (e a b : Nat) : Prop := a * (2 ^ 53) ^ e ≤ b * (2 ^ 53 + 1) ^ e ∧ b * (2 ^ 53 - 1) ^ e ≤ a * (2 ^ 53) ^ e

/-- `m * 10^E` is `n` up to `|E|` relative errors. -/
def Scaled (n m : Nat) (E : Int) : Prop := ∃ e : Nat, E = e ∧ Close e (m * 10 ^ e) n ∨ E = -e ∧ Close e m (n * 10 ^ e)

/-! ## Texts -/

theorem fixed_decimal (n p : Nat) : ∃ t, fixed n p = decimal (nearest (n * 10 ^ p) one / 10 ^ p) ++ t ∧ Decimal n p false (fixed n p) ∧ (p = 0 → Decimal n p true (fixed n p ++ [0x2E])) ∧ (p ≠ 0 → Decimal n p true (fixed n p)) := by
  obtain ⟨di, hi, hi0, hi1, hi2⟩ := decimal_text (nearest (n * 10 ^ p) one / 10 ^ p)
  obtain ⟨df, hf, hf1, hf2⟩ := lastDigits_text p (nearest (n * 10 ^ p) one)
  have hv : value 10 (di ++ df) = nearest (n * 10 ^ p) one := by
    rw [value_append, hi2, hf2, hf1, Nat.mul_comm]
    exact Nat.div_add_mod _ _
  have hr : RoundEven (value 10 (di ++ df)) (n * 10 ^ p) (2 ^ 1074) := by
    rw [hv]
    unfold one
    exact nearest_spec _ (Nat.two_pow_pos 1074)
  refine ⟨_, rfl, ⟨_, lastDigits p (nearest (n * 10 ^ p) one), di, df, ?_, hi, hf, hf1, hi0, hi1, hr⟩, fun h => ⟨_, lastDigits p (nearest (n * 10 ^ p) one), di, df, ?_, hi, hf, hf1, hi0, hi1, hr⟩,
    fun h => ⟨_, lastDigits p (nearest (n * 10 ^ p) one), di, df, ?_, hi, hf, hf1, hi0, hi1, hr⟩⟩
  · unfold fixed
    simp only [and_true]
  · subst h
    unfold fixed
    simp [lastDigits]
  · unfold fixed
    simp [h]

theorem exp_text (e : Int) : ExpText e (expDigits e) := by
  obtain ⟨ds, h1, h2, h3, h4⟩ := decimal_text e.natAbs
  have hl := Text.len h1
  have hz : ∀ k, Text 10 (List.replicate k 0x30) (List.replicate k 0) := by
    intro k
    induction k with
    | zero => exact .nil
    | succ k ih => exact .cons ⟨by decide, .inl ⟨by decide, rfl⟩⟩ ih
  have hz0 : ∀ k, value 10 (List.replicate k 0) = 0 := by
    intro k
    induction k with
    | zero => rfl
    | succ k ih => exact ih
  refine ⟨_, List.replicate (2 - (decimal e.natAbs).length) 0 ++ ds, rfl, Text.app (hz _) h1, ?_, ?_, ?_⟩
  · rw [value_append, hz0, h4]
    omega
  · rw [List.length_append, List.length_replicate, hl]
    omega
  · rw [List.length_append, List.length_replicate, hl]
    intro h
    have h5 : 2 - ds.length = 0 := by omega
    rw [h5, List.replicate_zero, List.nil_append]
    intro h6
    rw [h3 h6] at h
    simp at h

theorem expDigits_len (e : Int) (h : -100 < e) : (expDigits e).length = 1 + max 2 (expLen e) := by
  unfold expDigits expLen
  rw [List.length_cons, List.length_append, List.length_replicate]
  by_cases h1 : e < 10
  · rw [if_pos h1]
    have : (decimal e.natAbs).length ≤ 2 := by
      rw [decimal]
      by_cases h2 : e.natAbs < 10
      · rw [if_pos h2]; simp
      · rw [if_neg h2, decimal, if_pos (by omega)]; simp
    omega
  · rw [if_neg h1]
    omega

/-- The field. -/
theorem layout {c : Conv} {neg : Bool} (hc : c.Plain neg) (X : Bool) (hX : X = true ∨ X = !c.isLeft) (sign body : List UInt8) (len : Nat) (hlen : len = sign.length + body.length) :
    pad (!c.isLeft) 0x20 len c.padSpace ++ sign ++ pad X 0x30 len c.padZero ++ body ++ pad c.isLeft 0x20 len c.padSpace = justify c.left c.zero c.width sign body := by
  obtain ⟨_, h2, h3, h4⟩ := hc
  subst hlen
  unfold justify
  by_cases hz : c.zero = true
  · have hl : c.left = false := by
      cases h : c.left
      · rfl
      · exact absurd ⟨hz, .inl h⟩ h2
    have hw : 0 ≤ c.width := Int.not_lt.1 fun h => h2 ⟨hz, .inr h⟩
    have hpz : c.padZero = c.width.natAbs := by
      unfold Conv.padZero
      rw [if_pos hz, Int.emod_eq_of_lt hw (by omega)]
      omega
    have hsp : c.padSpace = 0 ∧ c.isLeft = false := by
      unfold Conv.padSpace Conv.isLeft Conv.signedSpace
      rw [hpz, hl]
      by_cases h0 : c.width.natAbs = 0
      · rw [if_pos h0]
        have : c.width = 0 := by omega
        rw [this]
        decide
      · rw [if_neg h0]
        decide
    rw [hsp.1, hsp.2, hpz, hz, hl]
    have hX' : X = true := by
      rcases hX with h | h
      · exact h
      · rw [h, hsp.2]; rfl
    have hneg : ¬ (false = true ∨ c.width < 0) := by
      rintro (h | h)
      · cases h
      · omega
    rw [if_neg hneg, hX']
    simp [pad]
  · have hz' : c.zero = false := by simpa using hz
    have hpz : c.padZero = 0 := by
      unfold Conv.padZero
      rw [if_neg hz]
    have hss : c.signedSpace = c.width := by
      unfold Conv.signedSpace
      rw [if_pos hpz]
    have hps : c.padSpace = c.width.natAbs := by
      unfold Conv.padSpace
      rw [hss]
    have hnil : pad X 0x30 (sign.length + body.length) c.padZero = [] := by
      rw [hpz]
      unfold pad
      split
      · rw [Nat.zero_sub, List.replicate_zero]
      · rfl
    rw [hnil, hps, hz']
    by_cases hl : c.left = true ∨ c.width < 0
    · have hil : c.isLeft = true := by
        unfold Conv.isLeft
        rw [hss]
        simpa using hl
      dsimp only
      rw [hil, if_pos hl]
      simp [pad]
    · have hil : c.isLeft = false := by
        unfold Conv.isLeft
        rw [hss]
        simpa using hl
      dsimp only
      rw [hil, if_neg hl]
      simp [pad]

/-- The text of `float_string` without trimming. -/
theorem floatString_plain (neg : Bool) (n p : Nat) (hp : p ≤ 65535) (alt : Bool) :
    ∃ t, floatString neg n p false alt = some (minus neg ++ t) ∧ Decimal n p alt t ∧ splitSign (minus neg ++ t) = (minus neg, t) := by
  obtain ⟨u, h1, h2, h3, h4⟩ := fixed_decimal n p
  unfold floatString
  rw [if_neg (by omega)]
  by_cases h : alt = true ∧ p = 0
  · refine ⟨fixed n p ++ [0x2E], ?_, ?_, ?_⟩
    · simp only [if_pos h]
      rw [List.append_assoc]
      rfl
    · rw [h.1]
      exact h3 h.2
    · rw [h1, List.append_assoc]
      exact splitSign_eq neg _ _
  · refine ⟨fixed n p, ?_, ?_, ?_⟩
    · simp only [if_neg h]
      rfl
    · cases alt
      · exact h2
      · exact h4 fun hp0 => h ⟨rfl, hp0⟩
    · rw [h1]
      exact splitSign_eq neg _ _

/-! ## C128 -/

/-- C128, part: **`%f` is correctly rounded**: for every finite number, every precision up to 65535, and every width, the text is a minus sign if the number is negative, and the decimal with that many digits that is nearest to the number
(of two, the even one), placed in the field as ISO C says. Missing: the flags `+` and space for numbers that are not negative, `0` together with `-`, and larger precisions (below). -/
theorem C128_fixed_partial (c : Conv) (neg : Bool) (n : Nat) (hs : c.style = .f) (hp : c.precision.getD 6 ≤ 65535) (hc : c.Plain neg) :
    ∃ t, print c neg (.fin n) = some (justify c.left c.zero c.width (minus neg) t) ∧ Decimal n (c.precision.getD 6) c.alternate t := by
  obtain ⟨t, h1, h2, h3⟩ := floatString_plain neg n _ hp c.alternate
  refine ⟨t, ?_, h2⟩
  unfold print
  simp only [hs]
  unfold fmtNormal
  simp only [h1, h3, Option.bind_eq_bind, Option.bind_some]
  rw [layout hc true (.inl rfl) _ _ _ (List.length_append ..)]

/-! ## The exponent -/

set_option exponentiation.threshold 3000

theorem ten : ofNat double 10 = .fin (10 * one) := by
  have h := ofNat_exact formats_ok.1 (n := 10) (repr_small formats_ok.1 (c := 10) (j := double.k) (by decide) (by decide))
  rw [h]
  unfold one
  rfl

theorem one_eq : one = 2 ^ 1074 := by unfold one; rfl

theorem one_pos : 0 < one := by rw [one_eq]; exact Nat.two_pow_pos 1074

theorem down_succ (fuel n e : Nat) : down (fuel + 1) n e = if 10 * one ≤ n then
      (finite (div double (.fin n) (ofNat double 10))).bind fun n => down fuel n (e + 1)
    else some (n, e) := by rw [down]

theorem up_succ (fuel n e : Nat) : up (fuel + 1) n e = if epsilon < n ∧ n < one then
      (finite (mul double (.fin n) (ofNat double 10))).bind fun n => up fuel n (e + 1)
    else some (n, e) := by rw [up]

theorem div_eq (n m : Nat) (hm : m ≠ 0) : div double (.fin n) (.fin m) = rnd double (n * one) m := by
  rw [one_eq]
  exact if_neg hm

theorem mul_eq (n m : Nat) : mul double (.fin n) (.fin m) = rnd double (n * m) one := by
  rw [one_eq]
  rfl

theorem repr_one : Repr double one := by
  rw [one_eq]
  exact repr_pow formats_ok.1 (by decide)

theorem dp : double.p = 53 := rfl

theorem dtop : double.top = 2098 := rfl

seal double

theorem rnd_repr (f : Fmt) (hp : 0 < f.p) {a b r : Nat} (hb : 0 < b) (hr : rnd f a b = .fin r) : Repr f r := by
  unfold rnd at hr
  dsimp only at hr
  generalize hs : (a / b).log2 + 1 - f.p = s at hr
  have hm : a / (b * 2 ^ s) < 2 ^ f.p := by
    rw [← Nat.div_div_eq_div_mul]
    apply Nat.div_lt_of_lt_mul
    have h1 : a / b < 2 ^ ((a / b).log2 + 1) := Nat.lt_log2_self
    rw [← Nat.pow_add]
    exact Nat.lt_of_lt_of_le h1 (Nat.pow_le_pow_right (by decide) (by omega))
  generalize a / (b * 2 ^ s) = m at hr hm
  have main : ∀ x, x ≤ 2 ^ f.p → x * 2 ^ s < 2 ^ f.top → Repr f (x * 2 ^ s) := by
    intro x hx ht
    by_cases h : x = 2 ^ f.p
    · exact ⟨1, f.p + s, by rw [h, Nat.pow_add, Nat.one_mul], Nat.one_lt_two_pow (by omega), ht⟩
    · exact ⟨x, s, rfl, by omega, ht⟩
  split at hr
  · split at hr
    · injection hr with hr
      rw [← hr]
      exact main _ (by omega) (by assumption)
    · exact absurd hr (by simp)
  · split at hr
    · injection hr with hr
      rw [← hr]
      exact main _ (by omega) (by assumption)
    · exact absurd hr (by simp)

/-- A number below 1 is below it by at least `2^-53`. -/
theorem below_one {n : Nat} (hn : Repr double n) (h : n < one) : n * 2 ^ 53 ≤ one * (2 ^ 53 - 1) := by
  obtain ⟨c, j, hc, hlt, _⟩ := hn
  rw [dp] at hlt
  by_cases hj : j ≤ 1021
  · have h1 : n ≤ (2 ^ 53 - 1) * 2 ^ 1021 := by
      rw [hc]
      exact Nat.mul_le_mul (by omega) (Nat.pow_le_pow_right (by decide) hj)
    have h2 := Nat.mul_le_mul_right (2 ^ 53) h1
    have h3 : (2 ^ 53 - 1) * 2 ^ 1021 * 2 ^ 53 = one * (2 ^ 53 - 1) := by decide +kernel
    rw [h3] at h2
    exact h2
  · obtain ⟨i, rfl⟩ : ∃ i, j = 1022 + i := ⟨j - 1022, by omega⟩
    have h1 : c * 2 ^ i < 2 ^ 52 := by
      have : c * 2 ^ i * 2 ^ 1022 < 2 ^ 52 * 2 ^ 1022 := by
        rw [Nat.mul_assoc, ← Nat.pow_add, Nat.add_comm i, ← hc]
        refine Nat.lt_of_lt_of_le h ?_
        decide +kernel
      exact Nat.lt_of_mul_lt_mul_right this
    have h2 : n = c * 2 ^ i * 2 ^ 1022 := by rw [hc, Nat.pow_add, Nat.mul_assoc, Nat.mul_comm (2 ^ 1022)]
    have h3 : n ≤ (2 ^ 52 - 1) * 2 ^ 1022 := by
      rw [h2]
      exact Nat.mul_le_mul_right _ (by omega)
    have h4 := Nat.mul_le_mul_right (2 ^ 53) h3
    exact Nat.le_trans h4 (by decide +kernel)

theorem Close.refl (a : Nat) : Close 0 a a := by simp [Close]

/-- One more error. -/
theorem Close.step {e m x r n : Nat} (h1 : Close e (m * x) r) (y : Nat) (h2 : r * y * 2 ^ 53 ≤ n * (2 ^ 53 + 1)) (h3 : n * (2 ^ 53 - 1) ≤ r * y * 2 ^ 53) : Close (e + 1) (m * (x * y)) n := by
  obtain ⟨ha, hb⟩ := h1
  unfold Close
  rw [Nat.pow_succ (2 ^ 53) e, Nat.pow_succ (2 ^ 53 + 1) e, Nat.pow_succ (2 ^ 53 - 1) e]
  generalize 2 ^ 53 - 1 = Q at *
  generalize 2 ^ 53 + 1 = R at *
  generalize 2 ^ 53 = P at *
  have e1 : m * (x * y) * (P ^ e * P) = m * x * P ^ e * (y * P) := by simp only [Nat.mul_comm, Nat.mul_left_comm, Nat.mul_assoc]
  rw [e1]
  constructor
  · calc m * x * P ^ e * (y * P) ≤ r * R ^ e * (y * P) := Nat.mul_le_mul_right _ ha
      _ = r * y * P * R ^ e := by simp only [Nat.mul_comm, Nat.mul_left_comm, Nat.mul_assoc]
      _ ≤ n * R * R ^ e := Nat.mul_le_mul_right _ h2
      _ = n * (R ^ e * R) := by simp only [Nat.mul_comm, Nat.mul_left_comm, Nat.mul_assoc]
  · calc n * (Q ^ e * Q) = n * Q * Q ^ e := by simp only [Nat.mul_comm, Nat.mul_left_comm, Nat.mul_assoc]
      _ ≤ r * y * P * Q ^ e := Nat.mul_le_mul_right _ h3
      _ = r * Q ^ e * (y * P) := by simp only [Nat.mul_comm, Nat.mul_left_comm, Nat.mul_assoc]
      _ ≤ m * x * P ^ e * (y * P) := Nat.mul_le_mul_right _ hb

/-- A division by ten. -/
theorem div_ten {n : Nat} (hn : Repr double n) (h : 10 * one ≤ n) :
    ∃ r, div double (.fin n) (ofNat double 10) = .fin r ∧ Repr double r ∧ r * 10 * 2 ^ 53 ≤ n * (2 ^ 53 + 1) ∧ n * (2 ^ 53 - 1) ≤ r * 10 * 2 ^ 53 ∧ ∀ z, Repr double z → z * 10 ≤ n → z ≤ r := by
  have hone := one_pos
  have hb : 0 < 10 * one := by omega
  have ht : n < 2 ^ 2098 := by obtain ⟨_, _, _, _, h⟩ := hn; rwa [dtop] at h
  have hdiv : div double (.fin n) (ofNat double 10) = rnd double (n * one) (10 * one) := by
    rw [ten]
    exact div_eq _ _ (by omega)
  obtain ⟨r, h1, h2, h3⟩ := rnd_rel double (by rw [dp]; decide) hb (a := n * one) (by
      rw [dp]
      rw [← Nat.mul_assoc]
      apply Nat.mul_le_mul_right
      refine Nat.le_trans ?_ h
      decide +kernel) (by
      rw [dp, dtop]
      have e1 : n * one * (2 ^ 53 + 1) = n * (one * (2 ^ 53 + 1)) := Nat.mul_assoc _ _ _
      rw [e1, Nat.mul_comm (10 * one * 2 ^ 53)]
      exact Nat.mul_lt_mul'' ht (by decide +kernel))
  rw [dp] at h2 h3
  have e1 : r * (10 * one) * 2 ^ 53 = r * 10 * 2 ^ 53 * one := by simp only [Nat.mul_comm, Nat.mul_left_comm, Nat.mul_assoc]
  have e2 : ∀ x, n * one * x = n * x * one := fun x => by simp only [Nat.mul_comm, Nat.mul_left_comm, Nat.mul_assoc]
  rw [e1, e2] at h2 h3
  refine ⟨r, by rw [hdiv, h1], rnd_repr double (by rw [dp]; decide) hb h1, Nat.le_of_mul_le_mul_right h2 hone, Nat.le_of_mul_le_mul_right h3 hone, fun z hz hle => ?_⟩
  refine rnd_ge double (by rw [dp]; decide) hb hz ?_ h1
  rw [← Nat.mul_assoc]
  exact Nat.mul_le_mul_right _ hle

/-- A multiplication by ten. -/
theorem mul_ten {n : Nat} (hn : Repr double n) (h : epsilon < n) (h' : n < one) :
    ∃ r, mul double (.fin n) (ofNat double 10) = .fin r ∧ Repr double r ∧ r * 2 ^ 53 ≤ n * 10 * (2 ^ 53 + 1) ∧ n * 10 * (2 ^ 53 - 1) ≤ r * 2 ^ 53 ∧ r < 10 * one := by
  have hone := one_pos
  have hmul : mul double (.fin n) (ofNat double 10) = rnd double (n * 10 * one) one := by
    rw [ten, Nat.mul_assoc]
    exact mul_eq _ _
  obtain ⟨r, h1, h2, h3⟩ := rnd_rel double (by rw [dp]; decide) hone (a := n * 10 * one) (by
      apply Nat.mul_le_mul_right
      have : 2 ^ (double.p - 1) ≤ epsilon := by decide +kernel
      generalize 2 ^ (double.p - 1) = x at *
      omega) (by
      rw [dp, dtop]
      have e1 : n * 10 * one * (2 ^ 53 + 1) = n * (10 * one * (2 ^ 53 + 1)) := by simp only [Nat.mul_assoc]
      rw [e1]
      refine Nat.lt_of_lt_of_le (Nat.mul_lt_mul_of_pos_right h' (by decide +kernel)) (by decide +kernel))
  rw [dp] at h2 h3
  have e1 : r * one * 2 ^ 53 = r * 2 ^ 53 * one := by simp only [Nat.mul_comm, Nat.mul_left_comm, Nat.mul_assoc]
  have e2 : ∀ x, n * 10 * one * x = n * 10 * x * one := fun x => by simp only [Nat.mul_comm, Nat.mul_left_comm, Nat.mul_assoc]
  rw [e1, e2] at h2 h3
  have h2 := Nat.le_of_mul_le_mul_right h2 hone
  refine ⟨r, by rw [hmul, h1], rnd_repr double (by rw [dp]; decide) hone h1, h2, Nat.le_of_mul_le_mul_right h3 hone, ?_⟩
  have h4 := below_one hn h'
  have h5 : r * 2 ^ 53 * 2 ^ 53 ≤ 10 * (2 ^ 53 + 1) * (one * (2 ^ 53 - 1)) := by
    calc r * 2 ^ 53 * 2 ^ 53 ≤ n * 10 * (2 ^ 53 + 1) * 2 ^ 53 := Nat.mul_le_mul_right _ h2
      _ = 10 * (2 ^ 53 + 1) * (n * 2 ^ 53) := by simp only [Nat.mul_comm, Nat.mul_left_comm, Nat.mul_assoc]
      _ ≤ _ := Nat.mul_le_mul_left _ h4
  have h6 : 10 * (2 ^ 53 + 1) * (one * (2 ^ 53 - 1)) < 10 * one * 2 ^ 53 * 2 ^ 53 := by decide +kernel
  have h7 := Nat.lt_of_le_of_lt h5 h6
  exact Nat.lt_of_mul_lt_mul_right (Nat.lt_of_mul_lt_mul_right h7)

theorem down_some : ∀ fuel n e0, Repr double n → n < 2 ^ fuel * one →
    ∃ m e, down (fuel + 1) n e0 = some (m, e0 + e) ∧ Repr double m ∧ m < 10 * one ∧ (one ≤ n → one ≤ m) ∧ (n < 10 * one → m = n ∧ e = 0) ∧ Close e (m * 10 ^ e) n
      ∧ ∀ X, 5 ^ X < 2 ^ 53 → 10 ^ X * one ≤ n → X ≤ e := by
  intro fuel
  induction fuel with
  | zero =>
    intro n e0 hn hlt
    rw [Nat.pow_zero, Nat.one_mul] at hlt
    have hone := one_pos
    refine ⟨n, 0, ?_, hn, by omega, fun h => h, fun _ => ⟨rfl, rfl⟩, by simpa using Close.refl n, ?_⟩
    · rw [down_succ, if_neg (by omega), Nat.add_zero]
    · intro X _ h
      have : 1 * one ≤ 10 ^ X * one := Nat.mul_le_mul_right _ (Nat.pow_pos (by decide))
      omega
  | succ fuel ih =>
    intro n e0 hn hlt
    have hone := one_pos
    by_cases h : 10 * one ≤ n
    · obtain ⟨r, h1, h2, h3, h4, h5⟩ := div_ten hn h
      have hr : r < 2 ^ fuel * one := by
        rw [Nat.pow_succ, Nat.mul_right_comm] at hlt
        generalize 2 ^ fuel * one = y at *
        omega
      obtain ⟨m, e, g1, g2, g3, g4, g5, g6, g7⟩ := ih r (e0 + 1) h2 hr
      have hro : one ≤ r := h5 one repr_one (by omega)
      refine ⟨m, e + 1, ?_, g2, g3, fun _ => g4 hro, fun h' => by omega, ?_, ?_⟩
      · rw [down_succ, if_pos h, h1]
        simp only [finite, Option.bind_some, g1]
        congr 2
        omega
      · rw [Nat.pow_succ]
        exact Close.step g6 10 h3 h4
      · intro X hX hle
        cases X with
        | zero => omega
        | succ X =>
          have hX' : 5 ^ X < 2 ^ 53 := Nat.lt_of_le_of_lt (Nat.pow_le_pow_right (by decide) (Nat.le_succ X)) hX
          have hXs : X ≤ 22 := by
            apply Nat.le_of_not_lt
            intro hgt
            have : 5 ^ 23 ≤ 5 ^ X := Nat.pow_le_pow_right (by decide) hgt
            have h23 : (2 : Nat) ^ 53 < 5 ^ 23 := by decide
            omega
          have hz : Repr double (10 ^ X * one) := by
            have : 10 ^ X * one = 5 ^ X * 2 ^ (X + 1074) := by
              rw [show (10 : Nat) = 5 * 2 by decide, Nat.mul_pow, Nat.pow_add, Nat.mul_assoc, one_eq]
            rw [this]
            exact repr_small formats_ok.1 (by rw [dp]; exact hX') (by rw [dp, dtop]; omega)
          have := g7 X hX' (h5 _ hz (by rw [Nat.pow_succ] at hle; rw [Nat.mul_right_comm]; exact hle))
          omega
    · refine ⟨n, 0, ?_, hn, by omega, fun h => h, fun _ => ⟨rfl, rfl⟩, by simpa using Close.refl n, ?_⟩
      · rw [down_succ, if_neg h, Nat.add_zero]
      · intro X _ hle
        cases X with
        | zero => exact Nat.le_refl 0
        | succ X =>
          have : 10 ^ 1 * one ≤ 10 ^ (X + 1) * one := Nat.mul_le_mul_right _ (Nat.pow_le_pow_right (by decide) (by omega))
          omega

theorem up_some : ∀ fuel n e0, Repr double n → n < 10 * one → one ≤ n * 2 ^ fuel ∨ n ≤ epsilon →
    ∃ m e, up (fuel + 1) n e0 = some (m, e0 + e) ∧ (n < one → epsilon < n → one ≤ m ∧ m < 10 * one ∧ 0 < e) ∧ (one ≤ n ∨ n ≤ epsilon → m = n ∧ e = 0) ∧ Close e m (n * 10 ^ e)
      ∧ ∀ k, one ≤ n * 2 ^ k → e ≤ k := by
  intro fuel
  induction fuel with
  | zero =>
    intro n e0 hn hlt hs
    rw [Nat.pow_zero, Nat.mul_one] at hs
    refine ⟨n, 0, ?_, fun h h' => by omega, fun _ => ⟨rfl, rfl⟩, by simpa using Close.refl n, fun _ _ => Nat.zero_le _⟩
    rw [up_succ, if_neg (by omega), Nat.add_zero]
  | succ fuel ih =>
    intro n e0 hn hlt hs
    by_cases h : epsilon < n ∧ n < one
    · obtain ⟨r, h1, h2, h3, h4, h5⟩ := mul_ten hn h.1 h.2
      have h2n : 2 * n ≤ r := by omega
      obtain ⟨m, e, g1, g2, g3, g4, g5⟩ := ih r (e0 + 1) h2 h5 (by
        rcases hs with hs | hs
        · left
          rw [Nat.pow_succ, Nat.mul_comm (2 ^ fuel), ← Nat.mul_assoc] at hs
          exact Nat.le_trans hs (Nat.mul_le_mul_right _ (by omega))
        · omega)
      refine ⟨m, e + 1, ?_, fun _ _ => ?_, fun h' => by omega, ?_, ?_⟩
      · rw [up_succ, if_pos h, h1]
        simp only [finite, Option.bind_some, g1]
        congr 2
        omega
      · by_cases hr : r < one
        · have := g2 hr (by omega)
          omega
        · have := g3 (.inl (by omega))
          omega
      · unfold Close at g4 ⊢
        rw [Nat.pow_succ (2 ^ 53) e, Nat.pow_succ (2 ^ 53 + 1) e, Nat.pow_succ (2 ^ 53 - 1) e, Nat.pow_succ 10 e]
        generalize 2 ^ 53 - 1 = Q at *
        generalize 2 ^ 53 + 1 = R at *
        generalize 2 ^ 53 = P at *
        constructor
        · calc m * (P ^ e * P) = m * P ^ e * P := (Nat.mul_assoc _ _ _).symm
            _ ≤ r * 10 ^ e * R ^ e * P := Nat.mul_le_mul_right _ g4.1
            _ = r * P * (10 ^ e * R ^ e) := by simp only [Nat.mul_comm, Nat.mul_left_comm, Nat.mul_assoc]
            _ ≤ n * 10 * R * (10 ^ e * R ^ e) := Nat.mul_le_mul_right _ h3
            _ = n * (10 ^ e * 10) * (R ^ e * R) := by simp only [Nat.mul_comm, Nat.mul_left_comm, Nat.mul_assoc]
        · calc n * (10 ^ e * 10) * (Q ^ e * Q) = n * 10 * Q * (10 ^ e * Q ^ e) := by simp only [Nat.mul_comm, Nat.mul_left_comm, Nat.mul_assoc]
            _ ≤ r * P * (10 ^ e * Q ^ e) := Nat.mul_le_mul_right _ h4
            _ = r * 10 ^ e * Q ^ e * P := by simp only [Nat.mul_comm, Nat.mul_left_comm, Nat.mul_assoc]
            _ ≤ m * P ^ e * P := Nat.mul_le_mul_right _ g4.2
            _ = m * (P ^ e * P) := Nat.mul_assoc _ _ _
      · intro k hk
        cases k with
        | zero =>
          rw [Nat.pow_zero] at hk
          omega
        | succ k =>
          have := g5 k (by
            rw [Nat.pow_succ, Nat.mul_comm (2 ^ k), ← Nat.mul_assoc] at hk
            exact Nat.le_trans hk (Nat.mul_le_mul_right _ (by omega)))
          omega
    · refine ⟨n, 0, ?_, fun h1 h2 => absurd ⟨h2, h1⟩ h, fun _ => ⟨rfl, rfl⟩, by simpa using Close.refl n, fun _ _ => Nat.zero_le _⟩
      rw [up_succ, if_neg h, Nat.add_zero]

end Verif.Float
