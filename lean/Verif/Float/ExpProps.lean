import Verif.Float.Props
/-!
# `%e` and `%g`
-/

namespace Verif.Float
open Verif.Strtod

set_option exponentiation.threshold 3000

seal double

theorem epsilon_eq : epsilon * 2 ^ 52 = one := by decide +kernel

theorem floatExp_spec {n : Nat} (hn : Repr double n) :
    ∃ m E, floatExp n = some (m, E) ∧ Scaled n m E ∧ (epsilon < n → one ≤ m ∧ m < 10 * one) ∧ (n ≤ epsilon ∨ one ≤ n ∧ n < 10 * one → m = n ∧ E = 0) ∧ -100 < E
      ∧ (one ≤ n → ∃ e : Nat, E = e ∧ Close e (m * 10 ^ e) n ∧ ∀ X, 5 ^ X < 2 ^ 53 → 10 ^ X * one ≤ n → X ≤ e) := by
  have hone := one_pos
  have heps := epsilon_eq
  have ht : n < 2 ^ 1999 * one := by
    obtain ⟨_, _, _, _, h⟩ := hn
    rw [dtop] at h
    exact Nat.lt_of_lt_of_le h (by decide +kernel)
  obtain ⟨m0, d, h1, h2, h3, h4, h5, h6, h7⟩ := down_some 1999 n 0 hn ht
  obtain ⟨m, u, g1, g2, g3, g4, g5⟩ := up_some 1999 m0 0 h2 h3 (by
    by_cases h : epsilon < m0
    · left
      rw [← heps]
      exact Nat.mul_le_mul (Nat.le_of_lt h) (Nat.pow_le_pow_right (by decide) (by decide))
    · right
      omega)
  have hfe : floatExp n = some (m, ((0 + d : Nat) : Int) - ((0 + u : Nat) : Int)) := by
    unfold floatExp
    rw [h1]
    simp only [Option.bind_eq_bind, Option.bind_some]
    rw [g1]
    rfl
  rw [Nat.zero_add, Nat.zero_add] at hfe
  by_cases h : one ≤ n
  · obtain ⟨rfl, rfl⟩ := g3 (.inl (h4 h))
    refine ⟨m, _, hfe, ⟨d, .inl ⟨by omega, h6⟩⟩, fun _ => ⟨h4 h, h3⟩, fun h' => ?_, by omega, fun _ => ⟨d, by omega, h6, h7⟩⟩
    obtain ⟨e1, e2⟩ := h5 (by omega)
    exact ⟨e1, by omega⟩
  · obtain ⟨rfl, rfl⟩ := h5 (by omega)
    refine ⟨m, _, hfe, ⟨u, .inr ⟨by omega, g4⟩⟩, fun h' => ?_, fun h' => ?_, ?_, fun h' => absurd h' h⟩
    · have := g2 (by omega) h'
      omega
    · obtain ⟨e1, e2⟩ := g3 (.inr (by omega))
      exact ⟨e1, by omega⟩
    · by_cases h' : epsilon < m0
      · have := g5 52 (by omega)
        omega
      · obtain ⟨e1, e2⟩ := g3 (.inr (by omega))
        omega

/-! ## C129 -/

/-- The text of a number with an exponent. -/
def Sci (m p : Nat) (point : Bool) (letter : UInt8) (E : Int) (body : List UInt8) : Prop := ∃ t et, body = t ++ letter :: et ∧ Decimal m p point t ∧ ExpText E et

theorem fmtExp_eq {c : Conv} {neg : Bool} (hc : c.Plain neg) {letter : UInt8} {trim : Bool} {p m : Nat} {E : Int} (hE : -100 < E) {s t : List UInt8} (h : floatString neg m p trim c.alternate = some s)
    (hs : s = minus neg ++ t) (hsp : splitSign s = (minus neg, t)) :
    fmtExp letter trim c.alternate p neg m E c.isLeft c.padSpace c.padZero = some (justify c.left c.zero c.width (minus neg) (t ++ letter :: expDigits E)) := by
  unfold fmtExp
  simp only [h, hsp, Option.bind_eq_bind, Option.bind_some]
  rw [← layout hc (!c.isLeft) (.inr rfl) (minus neg) (t ++ letter :: expDigits E) (s.length + 2 + max 2 (expLen E)) (by
    rw [hs, List.length_append, List.length_append, List.length_cons, expDigits_len E hE]
    omega)]
  simp only [List.append_assoc, List.cons_append]

/-- C129, part: **`%e`**: for every finite number, precision up to 65535 and width, the text is a minus sign if the number is negative, a mantissa `m` as a correctly rounded decimal, the letter, and the exponent `E` with its sign and at least
two digits; `1 ≤ m < 10`, and `m * 10^E` is the number up to `|E|` relative errors of `2^-53`. Missing: numbers of at most `2^-52` (they come out as they are, with exponent 0, below); that the mantissa is still less than 10 when rounded
to the digits printed; that there is no error but the rounding to these digits; the flags as for C128. -/
theorem C129_exponent_partial (c : Conv) (neg : Bool) (n : Nat) (hn : Repr double n) (hs : c.style = .e) (hp : c.precision.getD 6 ≤ 65535) (hc : c.Plain neg) :
    ∃ m E body, print c neg (.fin n) = some (justify c.left c.zero c.width (minus neg) body) ∧ Sci m (c.precision.getD 6) c.alternate (if c.upper then 0x45 else 0x65) E body ∧ Scaled n m E
      ∧ (2 ^ 1022 < n → 2 ^ 1074 ≤ m ∧ m < 10 * 2 ^ 1074) := by
  obtain ⟨m, E, h1, h2, h3, _, h5, _⟩ := floatExp_spec hn
  obtain ⟨t, g1, g2, g3⟩ := floatString_plain neg m _ hp c.alternate
  refine ⟨m, E, t ++ (if c.upper then 0x45 else 0x65) :: expDigits E, ?_, ⟨t, _, rfl, g2, exp_text E⟩, h2, ?_⟩
  · unfold print
    simp only [hs, h1, Option.bind_eq_bind, Option.bind_some]
    exact fmtExp_eq hc h5 g1 rfl g3
  · unfold epsilon at h3
    rw [one_eq] at h3
    exact h3

/-- C129: numbers from 1 up to 10, and 0: the exponent is 0 and **the mantissa is the number itself, correctly rounded**. -/
theorem C129_unit (c : Conv) (neg : Bool) (n : Nat) (hn : Repr double n) (h10 : n = 0 ∨ 2 ^ 1074 ≤ n ∧ n < 10 * 2 ^ 1074) (hs : c.style = .e) (hp : c.precision.getD 6 ≤ 65535) (hc : c.Plain neg) :
    ∃ body, print c neg (.fin n) = some (justify c.left c.zero c.width (minus neg) body) ∧ Sci n (c.precision.getD 6) c.alternate (if c.upper then 0x45 else 0x65) 0 body := by
  obtain ⟨m, E, h1, _, _, h4, _⟩ := floatExp_spec hn
  rw [← one_eq] at h10
  obtain ⟨rfl, rfl⟩ := h4 (h10.elim (fun h => .inl (by rw [h]; exact Nat.zero_le _)) .inr)
  obtain ⟨t, g1, g2, g3⟩ := floatString_plain neg m _ hp c.alternate
  refine ⟨t ++ (if c.upper then 0x45 else 0x65) :: expDigits 0, ?_, ⟨t, _, rfl, g2, exp_text 0⟩⟩
  unfold print
  simp only [hs, h1, Option.bind_eq_bind, Option.bind_some]
  exact fmtExp_eq hc (by decide) g1 rfl g3

theorem floatExp_of {n m m' d u : Nat} (h1 : down 2000 n 0 = some (m, d)) (h2 : up 2000 m 0 = some (m', u)) : floatExp n = some (m', (d : Int) - (u : Int)) := by
  unfold floatExp
  rw [h1]
  simp only [Option.bind_eq_bind, Option.bind_some]
  rw [h2]
  rfl

theorem finite_fin (n : Nat) : finite (.fin n) = some n := rfl

theorem down_exact (d : Nat) (hd : 0 < d) (hd10 : d < 10) : ∀ X fuel e0, 5 ^ X * d < 2 ^ 53 → X ≤ 22 → down (fuel + X + 1) (d * 10 ^ X * one) e0 = some (d * one, e0 + X) := by
  have hone := one_pos
  intro X
  induction X with
  | zero =>
    intro fuel e0 _ _
    rw [down_succ, if_neg]
    · rw [Nat.pow_zero, Nat.mul_one, Nat.add_zero]
    · rw [Nat.pow_zero, Nat.mul_one]
      exact Nat.not_le.2 (Nat.mul_lt_mul_of_pos_right hd10 hone)
  | succ X ih =>
    intro fuel e0 h hX
    have h5 : 5 ^ X * d < 2 ^ 53 := by
      rw [Nat.pow_succ] at h
      have : 5 ^ X * 1 * d ≤ 5 ^ X * 5 * d := Nat.mul_le_mul_right _ (Nat.mul_le_mul_left _ (by decide))
      rw [Nat.mul_one] at this
      omega
    have hz : Repr double (d * 10 ^ X * one) := by
      have : d * 10 ^ X * one = 5 ^ X * d * 2 ^ (X + 1074) := by
        rw [show (10 : Nat) = 5 * 2 by decide, Nat.mul_pow, Nat.pow_add, ← one_eq]
        generalize 5 ^ X = x
        generalize 2 ^ X = y
        rw [Nat.mul_left_comm d x y, Nat.mul_assoc x, Nat.mul_assoc d, Nat.mul_assoc x d]
      rw [this]
      exact repr_small formats_ok.1 (by rw [dp]; exact h5) (by rw [dp, dtop]; omega)
    have hge : 10 * one ≤ d * 10 ^ (X + 1) * one := by
      apply Nat.mul_le_mul_right
      have : 1 * 10 ^ 1 ≤ d * 10 ^ (X + 1) := Nat.mul_le_mul hd (Nat.pow_le_pow_right (by decide) (by omega))
      omega
    have hdiv : div double (.fin (d * 10 ^ (X + 1) * one)) (ofNat double 10) = .fin (d * 10 ^ X * one) := by
      rw [ten]
      refine (div_eq _ _ (by omega)).trans ?_
      have : d * 10 ^ (X + 1) * one * one = d * 10 ^ X * one * (10 * one) := by
        rw [Nat.pow_succ]
        simp only [Nat.mul_comm, Nat.mul_left_comm, Nat.mul_assoc]
      rw [this]
      exact rnd_exact formats_ok.1 (by omega) hz
    rw [← Nat.add_assoc fuel X 1, down_succ, if_pos hge, hdiv, finite_fin, Option.bind_some, ih fuel (e0 + 1) h5 (Nat.le_of_succ_le hX), Nat.add_assoc e0 1 X, Nat.add_comm 1 X]

/-- C129: **one digit and zeros**: `d * 10^X`, with a digit `d` and `X` up to 22, is printed exactly: mantissa `d` and exponent `X`. -/
theorem C129_round (c : Conv) (neg : Bool) (d X : Nat) (hd : 0 < d) (hd10 : d < 10) (hX : X ≤ 22) (h5 : 5 ^ X * d < 2 ^ 53) (hs : c.style = .e) (hp : c.precision.getD 6 ≤ 65535) (hc : c.Plain neg) :
    ∃ body, print c neg (.fin (d * 10 ^ X * 2 ^ 1074)) = some (justify c.left c.zero c.width (minus neg) body) ∧ Sci (d * 2 ^ 1074) (c.precision.getD 6) c.alternate (if c.upper then 0x45 else 0x65) X body := by
  have hdn := down_exact d hd hd10 X (1999 - X) 0 h5 hX
  rw [show 1999 - X + X + 1 = 2000 by omega, Nat.zero_add] at hdn
  have hup : up 2000 (d * one) 0 = some (d * one, 0) := by
    rw [up_succ, if_neg]
    have : 1 * one ≤ d * one := Nat.mul_le_mul_right _ hd
    omega
  have hfe : floatExp (d * 10 ^ X * one) = some (d * one, (X : Int)) := by
    rw [floatExp_of hdn hup]
    simp
  obtain ⟨t, g1, g2, g3⟩ := floatString_plain neg (d * one) _ hp c.alternate
  rw [← one_eq]
  refine ⟨t ++ (if c.upper then 0x45 else 0x65) :: expDigits X, ?_, ⟨t, _, rfl, g2, exp_text X⟩⟩
  unfold print
  simp only [hs, hfe, Option.bind_eq_bind, Option.bind_some]
  exact fmtExp_eq hc (by omega) g1 rfl g3

/-! ## C130 -/

theorem strip_eq (a : List UInt8) (k : Nat) (c : UInt8) (h : a.getLast? ≠ some c) : ((a ++ List.replicate k c).reverse.dropWhile (· == c)).reverse = a := by
  rw [List.reverse_append, List.reverse_replicate]
  have h1 : ∀ k, (List.replicate k c ++ a.reverse).dropWhile (· == c) = a.reverse := by
    intro k
    induction k with
    | zero =>
      rw [List.replicate_zero, List.nil_append]
      cases hr : a.reverse with
      | nil => rfl
      | cons b l =>
        have : a.getLast? = some b := by
          rw [← List.head?_reverse, hr]
          rfl
        rw [List.dropWhile_cons, if_neg]
        intro hb
        have hb : b = c := by simpa using hb
        rw [this, hb] at h
        exact h rfl
    | succ k ih =>
      rw [List.replicate_succ, List.cons_append, List.dropWhile_cons, if_pos (by simp)]
      exact ih
  rw [h1, List.reverse_reverse]

theorem zeros_split (c : UInt8) (l : List UInt8) : ∃ a k, l = a ++ List.replicate k c ∧ a.getLast? ≠ some c := by
  have h : ∀ r : List UInt8, ∃ a k, r.reverse = a ++ List.replicate k c ∧ a.getLast? ≠ some c := by
    intro r
    induction r with
    | nil => exact ⟨[], 0, rfl, by simp⟩
    | cons b r ih =>
      by_cases hb : b = c
      · obtain ⟨a, k, h1, h2⟩ := ih
        refine ⟨a, k + 1, ?_, h2⟩
        rw [List.reverse_cons, h1, hb, List.append_assoc, List.replicate_succ']
      · refine ⟨r.reverse ++ [b], 0, by simp, ?_⟩
        simpa using hb
  obtain ⟨a, k, h1, h2⟩ := h l.reverse
  exact ⟨a, k, by rw [← h1, List.reverse_reverse], h2⟩

theorem no_point {t : List UInt8} {ds : List Nat} (h : Text 10 t ds) : 0x2E ∉ t := fun hm => by
  have := (text_byte h _ hm).1
  have h46 : (0x2E : UInt8).toNat = 0x2E := rfl
  omega

/-- The text of `float_string` for `%g`. -/
theorem floatString_g (neg : Bool) (n p : Nat) (hp : p ≤ 65535) (alt : Bool) :
    ∃ t t', floatString neg n p (!alt) alt = some (minus neg ++ t') ∧ Decimal n p alt t ∧ (if alt then t' = t else Trimmed t t') ∧ splitSign (minus neg ++ t') = (minus neg, t') := by
  cases alt with
  | true =>
    obtain ⟨t, h1, h2, h3⟩ := floatString_plain neg n p hp true
    exact ⟨t, t, h1, h2, rfl, h3⟩
  | false =>
    obtain ⟨_, _, hD, _⟩ := fixed_decimal n p
    obtain ⟨di, hi, hi0, _⟩ := decimal_text (nearest (n * 10 ^ p) one / 10 ^ p)
    obtain ⟨df, hf, _⟩ := lastDigits_text p (nearest (n * 10 ^ p) one)
    have hip := no_point hi
    have hfp := no_point hf
    have hm : 0x2E ∉ minus neg := by cases neg <;> simp [minus]
    unfold floatString
    rw [if_neg (by omega)]
    have hfx : fixed n p = decimal (nearest (n * 10 ^ p) one / 10 ^ p) ++ if p = 0 then [] else 0x2E :: lastDigits p (nearest (n * 10 ^ p) one) := rfl
    generalize hv : nearest (n * 10 ^ p) one = v at *
    have hl := splitSign_eq neg (v / 10 ^ p)
    have hne : decimal (v / 10 ^ p) ≠ [] := by
      intro h
      have := Text.len hi
      rw [h] at this
      exact hi0 (List.eq_nil_of_length_eq_zero this.symm)
    by_cases hp0 : p = 0
    · refine ⟨fixed n p, fixed n p, ?_, hD, ?_, ?_⟩
      · rw [hfx, if_pos hp0, List.append_nil]
        have : ¬ (0x2E ∈ minus neg ++ decimal (v / 10 ^ p)) := by simp [hm, hip]
        unfold minus at this ⊢
        simp only [this, Bool.false_eq_true, false_and, and_false, if_false]
      · rw [hfx, if_pos hp0, List.append_nil]
        exact .inl ⟨hip, rfl⟩
      · rw [hfx]
        exact hl _
    · rw [if_neg hp0] at hfx
      obtain ⟨fp, k, e1, e2⟩ := zeros_split 0x30 (lastDigits p v)
      have hfp' : 0x2E ∉ fp := fun h => hfp (by rw [e1]; exact List.mem_append_left _ h)
      refine ⟨fixed n p, decimal (v / 10 ^ p) ++ (if fp = [] then [] else 0x2E :: fp), ?_, hD, .inr ⟨_, fp, k, hip, by rw [hfx, e1], e2, hfp', ?_⟩, hl _⟩
      · have hmem : (0x2E : UInt8) ∈ minus neg ++ fixed n p := by rw [hfx]; simp
        have hstrip : ((minus neg ++ fixed n p).reverse.dropWhile (· == 0x30)).reverse = minus neg ++ decimal (v / 10 ^ p) ++ 0x2E :: fp := by
          rw [hfx, e1]
          have : minus neg ++ (decimal (v / 10 ^ p) ++ 0x2E :: (fp ++ List.replicate k 0x30)) = (minus neg ++ decimal (v / 10 ^ p) ++ 0x2E :: fp) ++ List.replicate k 0x30 := by simp
          rw [this]
          apply strip_eq
          rw [List.getLast?_append, List.getLast?_cons]
          cases hfl : fp.getLast? with
          | none => simp
          | some b =>
            rw [hfl] at e2
            simpa using e2
        have hcond : ¬ (false = true ∧ p = 0) := fun h => by cases h.1
        show some (if false = true ∧ p = 0 then _ else if (!false) = true ∧ 0x2E ∈ minus neg ++ fixed n p then _ else _) = _
        rw [if_neg hcond, if_pos ⟨rfl, hmem⟩]
        show some (if ((minus neg ++ fixed n p).reverse.dropWhile (· == 0x30)).reverse.getLast? = some 0x2E then ((minus neg ++ fixed n p).reverse.dropWhile (· == 0x30)).reverse.dropLast
          else ((minus neg ++ fixed n p).reverse.dropWhile (· == 0x30)).reverse) = _
        rw [hstrip]
        by_cases hfp0 : fp = []
        · subst hfp0
          rw [if_pos (by simp), if_pos rfl, List.append_nil, List.dropLast_concat]
        · rw [if_neg, if_neg hfp0, List.append_assoc]
          rw [List.getLast?_append, List.getLast?_cons]
          cases hfl : fp.getLast? with
          | none => exact absurd (List.getLast?_eq_none_iff.1 hfl) hfp0
          | some b =>
            intro h
            have hb : b = 0x2E := by simpa using h
            rw [hb] at hfl
            exact hfp' (List.mem_of_getLast? hfl)
      · split <;> simp

/-- The decimal exponent of a number is found if the number is not just below a power of ten. -/
theorem floatExp_exact {n X : Nat} (hn : Repr double n) (h5 : 5 ^ X < 2 ^ 53) (h1 : 10 ^ X * one ≤ n) (h2 : n * (2 ^ 53 + 1) ^ (X + 1) < 10 ^ (X + 1) * one * (2 ^ 53) ^ (X + 1)) :
    ∃ m, floatExp n = some (m, (X : Int)) ∧ Close X (m * 10 ^ X) n := by
  obtain ⟨m, E, g1, _, g3, _, _, g6⟩ := floatExp_spec hn
  have hone := one_pos
  have h1n : one ≤ n := by
    have : 1 * one ≤ 10 ^ X * one := Nat.mul_le_mul_right _ (Nat.pow_pos (by decide))
    rw [Nat.one_mul] at this
    exact Nat.le_trans this h1
  obtain ⟨e, rfl, hcl, hX⟩ := g6 h1n
  have heps : epsilon < n := by
    refine Nat.lt_of_lt_of_le ?_ h1n
    decide +kernel
  have hm := (g3 heps).1
  have hle := hX X h5 h1
  have hge : e ≤ X := by
    apply Nat.le_of_not_lt
    intro hgt
    obtain ⟨j, rfl⟩ : ∃ j, e = X + 1 + j := ⟨e - (X + 1), by omega⟩
    have hc := hcl.1
    rw [Nat.pow_add (2 ^ 53) (X + 1) j, Nat.pow_add (2 ^ 53 + 1) (X + 1) j, Nat.pow_add 10 (X + 1) j] at hc
    have hj : (2 ^ 53 + 1) ^ j ≤ 10 ^ j * (2 ^ 53) ^ j := by
      rw [← Nat.mul_pow]
      exact Nat.pow_le_pow_left (by decide) j
    have hj0 : 0 < (2 ^ 53 + 1) ^ j := Nat.pow_pos (by decide)
    generalize (2 ^ 53 + 1) ^ (X + 1) = R at *
    generalize (2 ^ 53) ^ (X + 1) = P at *
    generalize (2 ^ 53 + 1) ^ j = Rj at *
    generalize (2 ^ 53) ^ j = Pj at *
    generalize 10 ^ (X + 1) = T at *
    generalize 10 ^ j = Tj at *
    have c1 : n * R * Rj < T * one * P * Rj := Nat.mul_lt_mul_of_pos_right h2 hj0
    have c2 : T * one * P * Rj ≤ T * one * P * (Tj * Pj) := Nat.mul_le_mul_left _ hj
    have c3 : T * one * P * (Tj * Pj) = one * (T * Tj) * (P * Pj) := by simp only [Nat.mul_comm, Nat.mul_left_comm, Nat.mul_assoc]
    have c4 : one * (T * Tj) * (P * Pj) ≤ m * (T * Tj) * (P * Pj) := Nat.mul_le_mul_right _ (Nat.mul_le_mul_right _ hm)
    have c5 : n * (R * Rj) = n * R * Rj := (Nat.mul_assoc _ _ _).symm
    rw [c5] at hc
    rw [c3] at c2
    exact absurd (Nat.lt_of_lt_of_le c1 (Nat.le_trans c2 (Nat.le_trans c4 hc))) (Nat.lt_irrefl _)
  have : e = X := Nat.le_antisymm hge hle
  subst this
  exact ⟨m, g1, hcl⟩

/-- The trailing zeros are removed unless the flag `#` is given. -/
def Cut (alternate : Bool) (t t' : List UInt8) : Prop := if alternate then t' = t else Trimmed t t'

/-- C130, part: **`%g`** of a number `10^X ≤ x < 10^(X+1)` with `X` from 0 to 22, not within `X + 1` units in the last place below the power of ten, with a precision `P` of at least 1: for `X < P` the text is that of `%f` with `P - 1 - X`
digits behind the point, for `P ≤ X` it is that of `%e` with `P - 1` digits; then the zeros at the end are removed, unless there is the flag `#`. Missing: numbers below 1, the precision 0, numbers rounded up to a power of ten (below). -/
theorem C130_general_partial (c : Conv) (neg : Bool) (n X P : Nat) (hn : Repr double n) (h1 : 10 ^ X * 2 ^ 1074 ≤ n) (h2 : n * (2 ^ 53 + 1) ^ (X + 1) < 10 ^ (X + 1) * 2 ^ 1074 * (2 ^ 53) ^ (X + 1)) (h5 : 5 ^ X < 2 ^ 53)
    (hs : c.style = .g) (hP : P = c.precision.getD 6) (hP1 : 1 ≤ P) (hp : P ≤ 65535) (hc : c.Plain neg) :
    ∃ body, print c neg (.fin n) = some (justify c.left c.zero c.width (minus neg) body)
      ∧ (X < P → ∃ t, Decimal n (P - 1 - X) c.alternate t ∧ Cut c.alternate t body)
      ∧ (P ≤ X → ∃ m t t' et, Close X (m * 10 ^ X) n ∧ Decimal m (P - 1) c.alternate t ∧ Cut c.alternate t t' ∧ ExpText X et ∧ body = t' ++ (if c.upper then 0x45 else 0x65) :: et) := by
  rw [← one_eq] at h1 h2
  obtain ⟨m, hfe, hcl⟩ := floatExp_exact hn h5 h1 h2
  by_cases hX : X < P
  · obtain ⟨t, t', g1, g2, g3, g4⟩ := floatString_g neg n (P - 1 - X) (by omega) c.alternate
    refine ⟨t', ?_, fun _ => ⟨t, g2, g3⟩, fun h => by omega⟩
    unfold print
    simp only [hs, hfe, ← hP, Option.bind_eq_bind, Option.bind_some]
    rw [if_neg (by omega), show P - (1 + (max 0 (X : Int)).toNat) = P - 1 - X by omega]
    unfold fmtNormal
    simp only [g1, g4, Option.bind_eq_bind, Option.bind_some]
    rw [layout hc true (.inl rfl) _ _ _ (List.length_append ..)]
  · obtain ⟨t, t', g1, g2, g3, g4⟩ := floatString_g neg m (P - 1) (by omega) c.alternate
    refine ⟨t' ++ (if c.upper then 0x45 else 0x65) :: expDigits X, ?_, fun h => absurd h hX, fun _ => ⟨m, t, t', _, hcl, g2, g3, exp_text X, rfl⟩⟩
    unfold print
    simp only [hs, hfe, ← hP, Option.bind_eq_bind, Option.bind_some]
    rw [if_pos (by omega)]
    exact fmtExp_eq hc (by omega) g1 rfl g4

/-- C130: zero. -/
theorem C130_zero (c : Conv) (neg : Bool) (P : Nat) (hs : c.style = .g) (hP : P = c.precision.getD 6) (hP1 : 1 ≤ P) (hp : P ≤ 65535) (hc : c.Plain neg) :
    ∃ t body, print c neg (.fin 0) = some (justify c.left c.zero c.width (minus neg) body) ∧ Decimal 0 (P - 1) c.alternate t ∧ Cut c.alternate t body := by
  obtain ⟨m, E, h1, _, _, h4, _⟩ := floatExp_spec (n := 0) ⟨0, 0, by simp, Nat.two_pow_pos _, Nat.two_pow_pos _⟩
  obtain ⟨rfl, rfl⟩ := h4 (.inl (Nat.zero_le _))
  obtain ⟨t, t', g1, g2, g3, g4⟩ := floatString_g neg 0 (P - 1) (by omega) c.alternate
  refine ⟨t, t', ?_, g2, g3⟩
  unfold print
  simp only [hs, h1, ← hP, Option.bind_eq_bind, Option.bind_some]
  rw [if_neg (by omega), show P - (1 + (max 0 (0 : Int)).toNat) = P - 1 by omega]
  unfold fmtNormal
  simp only [g1, g4, Option.bind_eq_bind, Option.bind_some]
  rw [layout hc true (.inl rfl) _ _ _ (List.length_append ..)]

/-- C130, part: **every number above `2^-52`**, those below 1 among them: with `m * 10^E` the number, up to an error of one unit in the last place for each step, and `1 ≤ m < 10`: for `E` below -4, or not below the precision, the text is that of `%e` with `P - 1` digits,
otherwise that of `%f` — with `P - 1 - E` digits for `E ≥ 0`, but only `P - 1` for a negative `E` (`C130_small_violation`). -/
theorem C130_threshold_partial (c : Conv) (neg : Bool) (n P : Nat) (hn : Repr double n) (hne : 2 ^ 1022 < n) (hs : c.style = .g) (hP : P = c.precision.getD 6) (hP1 : 1 ≤ P) (hp : P ≤ 65535) (hc : c.Plain neg) :
    ∃ m E body, print c neg (.fin n) = some (justify c.left c.zero c.width (minus neg) body) ∧ Scaled n m E ∧ 2 ^ 1074 ≤ m ∧ m < 10 * 2 ^ 1074
      ∧ (E < -4 ∨ (P : Int) ≤ E → ∃ t t' et, Decimal m (P - 1) c.alternate t ∧ Cut c.alternate t t' ∧ ExpText E et ∧ body = t' ++ (if c.upper then 0x45 else 0x65) :: et)
      ∧ (-4 ≤ E ∧ E < P → ∃ t, Decimal n (P - 1 - E.toNat) c.alternate t ∧ Cut c.alternate t body) := by
  obtain ⟨m, E, h1, h2, h3, _, h5, _⟩ := floatExp_spec hn
  unfold epsilon at h3
  rw [one_eq] at h3
  have h3 := h3 hne
  by_cases hX : E < -4 ∨ (P : Int) ≤ E
  · obtain ⟨t, t', g1, g2, g3, g4⟩ := floatString_g neg m (P - 1) (by omega) c.alternate
    refine ⟨m, E, t' ++ (if c.upper then 0x45 else 0x65) :: expDigits E, ?_, h2, h3.1, h3.2, fun _ => ⟨t, t', _, g2, g3, exp_text E, rfl⟩, fun h => by omega⟩
    unfold print
    simp only [hs, h1, ← hP, Option.bind_eq_bind, Option.bind_some]
    rw [if_pos hX]
    exact fmtExp_eq hc h5 g1 rfl g4
  · obtain ⟨t, t', g1, g2, g3, g4⟩ := floatString_g neg n (P - 1 - E.toNat) (by omega) c.alternate
    refine ⟨m, E, t', ?_, h2, h3.1, h3.2, fun h => absurd h hX, fun _ => ⟨t, g2, g3⟩⟩
    unfold print
    simp only [hs, h1, ← hP, Option.bind_eq_bind, Option.bind_some]
    rw [if_neg hX, show P - (1 + (max 0 E).toNat) = P - 1 - E.toNat by omega]
    unfold fmtNormal
    simp only [g1, g4, Option.bind_eq_bind, Option.bind_some]
    rw [layout hc true (.inl rfl) _ _ _ (List.length_append ..)]

end Verif.Float
