import Verif.Float.ExpProps
/-!
# `%f`, `%e`, `%g`: infinities, what the code does wrong, and examples
-/

namespace Verif.Float
open Verif.Strtod

set_option exponentiation.threshold 3000

/-! ## C128 -/

theorem widths {c : Conv} {neg : Bool} (hc : c.Plain neg) : c.padSpace + c.padZero = c.width.natAbs ∧ (c.isLeft = true ↔ c.left = true ∨ c.width < 0) := by
  obtain ⟨_, h2, h3, h4⟩ := hc
  unfold Conv.padSpace Conv.isLeft Conv.signedSpace Conv.padZero
  by_cases hz : c.zero = true
  · have hl : c.left = false := by
      cases h : c.left
      · rfl
      · exact absurd ⟨hz, .inl h⟩ h2
    have hw : 0 ≤ c.width := Int.not_lt.1 fun h => h2 ⟨hz, .inr h⟩
    rw [if_pos hz, Int.emod_eq_of_lt hw (by omega), hl]
    by_cases h0 : c.width.toNat = 0
    · rw [if_pos h0]
      simp
      omega
    · rw [if_neg h0]
      simp
      omega
  · rw [if_neg hz, if_pos rfl]
    simp

/-- C128, part: **infinities and not-a-number** are `inf` and `nan`, in upper case for the upper case conversions, placed in the field with spaces, even with the flag `0`. Missing: negative ones in a field of more than three characters
(below). -/
theorem C128_nonfinite_partial (c : Conv) (neg : Bool) (hc : c.Plain neg) (hneg : neg = true → c.width.natAbs ≤ 3) :
    print c neg .inf = some (justify c.left false c.width (minus neg) (if c.upper then [0x49, 0x4E, 0x46] else [0x69, 0x6E, 0x66]))
      ∧ print c neg .nan = some (justify c.left false c.width (minus neg) (if c.upper then [0x4E, 0x41, 0x4E] else [0x6E, 0x61, 0x6E])) := by
  obtain ⟨h1, h2⟩ := widths hc
  have main : ∀ s : List UInt8, s.length = 3 →
      pad (!c.isLeft) 0x20 3 (c.padSpace + c.padZero) ++ (if neg then [0x2D] else []) ++ s ++ pad c.isLeft 0x20 3 (c.padSpace + c.padZero) = justify c.left false c.width (minus neg) s := by
    intro s hs
    rw [h1]
    unfold justify
    have hk : c.width.natAbs - ((minus neg).length + s.length) = c.width.natAbs - 3 := by
      rw [hs]
      cases neg
      · simp [minus]
      · have := hneg rfl
        omega
    dsimp only
    rw [hk]
    by_cases hl : c.left = true ∨ c.width < 0
    · rw [h2.2 hl, if_pos hl]
      simp [pad, minus]
    · have : c.isLeft = false := by
        cases h : c.isLeft
        · rfl
        · exact absurd (h2.1 h) hl
      rw [this, if_neg hl]
      simp [pad, minus]
  unfold print fmtNonfinite
  cases c.upper
  · exact ⟨congrArg some (main _ rfl), congrArg some (main _ rfl)⟩
  · exact ⟨congrArg some (main _ rfl), congrArg some (main _ rfl)⟩

/-- C128, with C127: **there and back**: an integer below `2^53`, with either sign, printed with `%.0f` and converted by `strtod`, is the same number. -/
theorem C128_roundtrip (v : Nat) (hv : v < 2 ^ 53) (neg : Bool) :
    ∃ s, print { style := .f, precision := some 0 } neg (.fin (v * 2 ^ 1074)) = some s ∧ strtod double s = (neg, .fin (v * 2 ^ 1074), []) := by
  obtain ⟨t, h1, ip, fp, dsI, dsF, ht, hi, hf, hfl, hne, _, hr⟩ := C128_fixed_partial { style := .f, precision := some 0 } neg (v * 2 ^ 1074) rfl (by decide)
    ⟨by simp, by simp, by decide, by decide⟩
  have hj : justify false false 0 (minus neg) t = minus neg ++ t := by simp [justify]
  refine ⟨_, h1, ?_⟩
  show strtod double (justify false false 0 (minus neg) t) = _
  rw [hj]
  have hf0 : dsF = [] := List.eq_nil_of_length_eq_zero hfl
  have hti : t = ip := by
    rw [ht]
    simp
  rw [hf0, List.append_nil] at hr
  have hval : value 10 dsI = v := by
    have h2 := hr.1
    simp only [Option.getD_some, Nat.pow_zero, Nat.mul_one] at h2
    generalize value 10 dsI = x at h2
    have hpos := Nat.two_pow_pos 1074
    generalize (2 : Nat) ^ 1074 = y at h2 hpos
    unfold dist at h2
    rcases Nat.lt_trichotomy x v with h | h | h
    · have h3 : (x + 1) * y ≤ v * y := Nat.mul_le_mul_right _ h
      rw [Nat.add_mul, Nat.one_mul] at h3
      omega
    · exact h
    · have h3 : (v + 1) * y ≤ x * y := Nat.mul_le_mul_right _ h
      rw [Nat.add_mul, Nat.one_mul] at h3
      omega
  have hsg : Sign (minus neg) neg := by
    cases neg
    · exact .inl ⟨rfl, rfl⟩
    · exact .inr (.inr ⟨rfl, rfl⟩)
  have := C127_integer double formats_ok.1 [] (minus neg) ip [] neg dsI (by simp [Space]) hsg hi hne (by rw [hval]; exact hv) (by simp [Stop])
  rw [hval] at this
  rw [hti]
  simp only [List.nil_append, List.append_nil] at this
  exact this

/-- C128, violated by the code: **the flags `+` and space** do nothing: `%+f` and `% f` of 1 print `1.000000`. -/
theorem C128_sign_violation :
    print { style := .f, signAlways := true } false (.fin (2 ^ 1074)) = some [0x31, 0x2E, 0x30, 0x30, 0x30, 0x30, 0x30, 0x30]
      ∧ print { style := .f, signReserve := true } false (.fin (2 ^ 1074)) = some [0x31, 0x2E, 0x30, 0x30, 0x30, 0x30, 0x30, 0x30] := by decide +kernel

/-- C128, violated by the code: **the flag `-` with `0`**: `%-010f` of 1 prints `001.000000`. -/
theorem C128_left_zero_violation : print { style := .f, left := true, zero := true, width := 10 } false (.fin (2 ^ 1074)) = some [0x30, 0x30, 0x31, 0x2E, 0x30, 0x30, 0x30, 0x30, 0x30, 0x30] := by decide +kernel

/-- C128, violated by the code: **the flag `0` with a negative width from an argument**: `%0*.0f` with -5 writes 18446744073709551611 characters. -/
theorem C128_negative_width_violation : ∃ s, print { style := .f, zero := true, width := -5, precision := some 0 } false (.fin (2 ^ 1074)) = some s ∧ s.length = 2 ^ 64 - 5 := by
  have hfs : floatString false (2 ^ 1074) 0 false false = some [0x31] := by decide +kernel
  have hn : ∀ z n, floatString false n 0 false false = some [0x31] → fmtNormal false false 0 false n false 0 z = some (List.replicate (z - 1) 0x30 ++ [0x31]) := by
    intro z n h
    simp [fmtNormal, h, pad, splitSign]
  have h1 : Conv.padZero { style := .f, zero := true, width := -5, precision := some 0 } = 2 ^ 64 - 5 := by decide +kernel
  have h2 : Conv.padSpace { style := .f, zero := true, width := -5, precision := some 0 } = 0 := by decide +kernel
  have h3 : Conv.isLeft { style := .f, zero := true, width := -5, precision := some 0 } = false := by decide +kernel
  refine ⟨List.replicate (2 ^ 64 - 5 - 1) 0x30 ++ [0x31], ?_, by rw [List.length_append, List.length_replicate]; decide⟩
  generalize (2 : Nat) ^ 1074 = n at hfs ⊢
  unfold print
  simp only [Option.getD_some, h1, h2, h3]
  exact hn _ _ hfs

/-- C128, violated by the code: **a precision above 65535** makes it panic. -/
theorem C128_precision_violation (c : Conv) (neg : Bool) (n : Nat) (hs : c.style = .f) (hp : 65535 < c.precision.getD 6) : print c neg (.fin n) = none := by
  unfold print
  simp only [hs]
  unfold fmtNormal floatString
  rw [if_pos hp]
  rfl

/-- C128, violated by the code: **negative infinity in a field**: `%5f` prints six characters. -/
theorem C128_infinity_violation : print { style := .f, width := 5 } true .inf = some [0x20, 0x20, 0x2D, 0x69, 0x6E, 0x66] := by decide +kernel

/-- `%8.2f` of -2.625 is `   -2.62`: the even one of two. `%08.1f` of 0.1 is `000000.1`. -/
example : print { style := .f, width := 8, precision := some 2 } true (.fin (21 * 2 ^ 1071)) = some [0x20, 0x20, 0x20, 0x2D, 0x32, 0x2E, 0x36, 0x32]
    ∧ print { style := .f, width := 8, zero := true, precision := some 1 } false (.fin (7205759403792794 * 2 ^ 1018)) = some [0x30, 0x30, 0x30, 0x30, 0x30, 0x30, 0x2E, 0x31] := by decide +kernel

example : print { style := .f, width := -6 } false .nan = some [0x6E, 0x61, 0x6E, 0x20, 0x20, 0x20] := by decide +kernel

/-! ## C129 -/

/-- C129, violated by the code: **small numbers**: `2^-74`, about `5.3e-23`, is printed as `0.000000e+00`. -/
theorem C129_small_violation : print { style := .e } false (.fin (2 ^ 1000)) = some [0x30, 0x2E, 0x30, 0x30, 0x30, 0x30, 0x30, 0x30, 0x65, 0x2B, 0x30, 0x30] := by decide +kernel

/-- C129, violated by the code: **rounding up**: `10 - 2^-44` is printed as `10.000000e+00`. -/
theorem C129_carry_violation : print { style := .e } false (.fin (10 * 2 ^ 1074 - 2 ^ 1030)) = some [0x31, 0x30, 0x2E, 0x30, 0x30, 0x30, 0x30, 0x30, 0x30, 0x65, 0x2B, 0x30, 0x30] := by decide +kernel

/-- C129, violated by the code: **the flag `-` with `0`**: the width is ignored: `%-016e` of 1 prints `1.000000e+00` and no spaces. -/
theorem C129_left_zero_violation : print { style := .e, left := true, zero := true, width := 16 } false (.fin (2 ^ 1074)) = some [0x31, 0x2E, 0x30, 0x30, 0x30, 0x30, 0x30, 0x30, 0x65, 0x2B, 0x30, 0x30] := by decide +kernel

/-- `%.2E` of -1536.0 is `-1.54E+03`; `%e` of `2^-10`, that is 0.0009765625, is `9.765625e-04`. -/
example : print { style := .e, upper := true, precision := some 2 } true (.fin (1536 * 2 ^ 1074)) = some [0x2D, 0x31, 0x2E, 0x35, 0x34, 0x45, 0x2B, 0x30, 0x33]
    ∧ print { style := .e } false (.fin (2 ^ 1064)) = some [0x39, 0x2E, 0x37, 0x36, 0x35, 0x36, 0x32, 0x35, 0x65, 0x2D, 0x30, 0x34] := by decide +kernel

/-- `1e100` is printed with three digits in the exponent. -/
example : (print { style := .e, precision := some 1 } false (rnd double (10 ^ 100 * 2 ^ 1074) 1)) = some [0x31, 0x2E, 0x30, 0x65, 0x2B, 0x31, 0x30, 0x30] := by decide +kernel

/-! ## C130 -/

/-- C130, violated by the code: **numbers below 1** lose digits: `2^-13`, that is 0.0001220703125, is printed as `0.00012` instead of `0.00012207`. -/
theorem C130_small_violation : print { style := .g } false (.fin (2 ^ 1061)) = some [0x30, 0x2E, 0x30, 0x30, 0x30, 0x31, 0x32] := by decide +kernel

/-- C130, violated by the code: **rounding up**: 999999.5 is printed as `1000000` instead of `1e+06`. -/
theorem C130_carry_violation : print { style := .g } false (.fin (1999999 * 2 ^ 1073)) = some [0x31, 0x30, 0x30, 0x30, 0x30, 0x30, 0x30] := by decide +kernel

/-- C130, violated by the code: **the precision 0** is not taken as 1: `%.0g` of 5 is `5e+00`. -/
theorem C130_precision_violation : print { style := .g, precision := some 0 } false (.fin (5 * 2 ^ 1074)) = some [0x35, 0x65, 0x2B, 0x30, 0x30] := by decide +kernel

/-- `%g` of 100000 is `100000`, of 1000000 `1e+06`, of 2.5 `2.5`, and with `#` `2.50000`. -/
example : print { style := .g } false (.fin (100000 * 2 ^ 1074)) = some [0x31, 0x30, 0x30, 0x30, 0x30, 0x30] ∧ print { style := .g } false (.fin (1000000 * 2 ^ 1074)) = some [0x31, 0x65, 0x2B, 0x30, 0x36]
    ∧ print { style := .g } false (.fin (5 * 2 ^ 1073)) = some [0x32, 0x2E, 0x35] ∧ print { style := .g, alternate := true } false (.fin (5 * 2 ^ 1073)) = some [0x32, 0x2E, 0x35, 0x30, 0x30, 0x30, 0x30] := by decide +kernel

/-- The conditions of `C130_general_partial` hold for 123456.75. -/
example : 10 ^ 5 * 2 ^ 1074 ≤ 493827 * 2 ^ 1072 ∧ 493827 * 2 ^ 1072 * (2 ^ 53 + 1) ^ 6 < 10 ^ 6 * 2 ^ 1074 * (2 ^ 53) ^ 6 ∧ Repr double (493827 * 2 ^ 1072) :=
  ⟨by decide +kernel, by decide +kernel, 493827, 1072, rfl, by decide +kernel⟩

/-- The two sides of the threshold: `2^-16`, that is 1.52587890625e-05, is printed as `1.52588e-05`, and `2^-13` as `0.00012`. -/
example : print { style := .g } false (.fin (2 ^ 1058)) = some [0x31, 0x2E, 0x35, 0x32, 0x35, 0x38, 0x38, 0x65, 0x2D, 0x30, 0x35] ∧ print { style := .g } false (.fin (2 ^ 1061)) = some [0x30, 0x2E, 0x30, 0x30, 0x30, 0x31, 0x32] := by decide +kernel

end Verif.Float
