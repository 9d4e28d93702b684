import Verif.Float.Model
import Verif.Strtod.Props
/-!
# Lemmas about the texts of numbers
-/

namespace Verif.Float
open Verif.Strtod

theorem digit_ofNat {d : Nat} (h : d < 10) : Digit 10 (UInt8.ofNat (0x30 + d)) d := by
  refine ⟨h, .inl ⟨h, ?_⟩⟩
  rw [UInt8.toNat_ofNat']
  omega

theorem Text.app {r : Nat} {t u : List UInt8} {ds es : List Nat} (h : Text r t ds) (h' : Text r u es) : Text r (t ++ u) (ds ++ es) := by
  induction h with
  | nil => exact h'
  | cons hd _ ih => exact .cons hd ih

theorem Text.len {r : Nat} {t : List UInt8} {ds : List Nat} (h : Text r t ds) : t.length = ds.length := by
  induction h with
  | nil => rfl
  | cons _ _ ih => simp [ih]

theorem value_foldl (ds : List Nat) : ∀ v, ds.foldl (fun v d => v * 10 + d) v = v * 10 ^ ds.length + value 10 ds := by
  induction ds with
  | nil => intro v; simp [value]
  | cons d ds ih =>
    intro v
    unfold value
    rw [List.foldl_cons, List.foldl_cons, ih (v * 10 + d), ih (0 * 10 + d), List.length_cons, Nat.pow_succ, Nat.add_mul, Nat.zero_mul, Nat.zero_add, Nat.add_assoc, Nat.mul_assoc, Nat.mul_comm 10]

theorem value_append (a b : List Nat) : value 10 (a ++ b) = value 10 a * 10 ^ b.length + value 10 b := by
  show (a ++ b).foldl _ 0 = _
  rw [List.foldl_append, value_foldl]
  rfl

theorem lastDigits_text : ∀ p n, ∃ ds, Text 10 (lastDigits p n) ds ∧ ds.length = p ∧ value 10 ds = n % 10 ^ p := by
  intro p
  induction p with
  | zero => intro n; exact ⟨[], .nil, rfl, by simp [value, Nat.mod_one]⟩
  | succ p ih =>
    intro n
    obtain ⟨ds, h1, h2, h3⟩ := ih (n / 10)
    refine ⟨ds ++ [n % 10], Text.app h1 (.cons (digit_ofNat (Nat.mod_lt _ (by decide))) .nil), by simp [h2], ?_⟩
    rw [value_append, h3]
    show n / 10 % 10 ^ p * 10 ^ 1 + (0 * 10 + n % 10) = _
    rw [Nat.pow_succ 10 p, Nat.mul_comm (10 ^ p) 10, Nat.mod_mul]
    omega

theorem decimal_text (n : Nat) : ∃ ds, Text 10 (decimal n) ds ∧ ds ≠ [] ∧ (ds.head? = some 0 → ds = [0]) ∧ value 10 ds = n := by
  induction n using Nat.strongRecOn with
  | _ n ih =>
    rw [decimal]
    by_cases h : n < 10
    · rw [if_pos h]
      refine ⟨[n], .cons (digit_ofNat h) .nil, by simp, fun e => ?_, by simp [value]⟩
      injection e with e
      rw [e]
    · rw [if_neg h]
      obtain ⟨ds, h1, h2, h3, h4⟩ := ih (n / 10) (by omega)
      refine ⟨ds ++ [n % 10], Text.app h1 (.cons (digit_ofNat (Nat.mod_lt _ (by decide))) .nil), by simp, ?_, ?_⟩
      · intro e
        have e : ds.head? = some 0 := by
          cases ds with
          | nil => exact absurd rfl h2
          | cons a l => simpa using e
        rw [h3 e] at h4
        have : value 10 [0] = 0 := rfl
        omega
      · rw [value_append, h4]
        show n / 10 * 10 ^ 1 + (0 * 10 + n % 10) = n
        omega

/-- The bytes of a text of digits are digits. -/
theorem text_byte {t : List UInt8} {ds : List Nat} (h : Text 10 t ds) : ∀ b ∈ t, 0x30 ≤ b.toNat ∧ b.toNat ≤ 0x39 := by
  induction h with
  | nil => intro b hb; cases hb
  | cons hd _ ih =>
    intro b hb
    rcases List.mem_cons.1 hb with rfl | hb
    · exact digit_byte hd
    · exact ih b hb

theorem decimal_head (n : Nat) (t : List UInt8) : (decimal n ++ t).head? ≠ some 0x2D := by
  obtain ⟨ds, h1, h2, _⟩ := decimal_text n
  have hl := Text.len h1
  intro e
  have hb := text_byte h1
  cases hd : decimal n with
  | nil =>
    rw [hd] at hl
    exact h2 (List.eq_nil_of_length_eq_zero hl.symm)
  | cons b u =>
    rw [hd] at e hb
    injection e with e
    subst e
    have := hb _ List.mem_cons_self
    have h45 : (0x2D : UInt8).toNat = 0x2D := rfl
    omega

theorem splitSign_eq (neg : Bool) (n : Nat) (t : List UInt8) : splitSign ((if neg then [0x2D] else []) ++ (decimal n ++ t)) = (if neg then [0x2D] else [], decimal n ++ t) := by
  unfold splitSign
  cases neg
  · exact if_neg (decimal_head n t)
  · rfl

/-! ## Rounding -/

theorem nearest_spec (a : Nat) {b : Nat} (hb : 0 < b) : 2 * dist (nearest a b * b) a ≤ b ∧ (2 * dist (nearest a b * b) a = b → nearest a b % 2 = 0) := by
  have hdm := Nat.div_add_mod a b
  have hml := Nat.mod_lt a hb
  have e1 : a / b * b = b * (a / b) := Nat.mul_comm _ _
  have e2 : (a / b + 1) * b = b * (a / b) + b := by rw [Nat.add_mul, e1, Nat.one_mul]
  unfold nearest
  by_cases h : 2 * (a % b) > b ∨ (2 * (a % b) = b ∧ a / b % 2 = 1)
  · rw [if_pos h, e2]
    unfold dist
    constructor
    · omega
    · intro e; omega
  · rw [if_neg h, e1]
    unfold dist
    constructor
    · omega
    · intro e; omega

/-- Rounding keeps the quotient above a number of the format. -/
theorem rnd_ge (f : Fmt) (hp : 0 < f.p) {a b z r : Nat} (hb : 0 < b) (hz : Repr f z) (h : z * b ≤ a) (hr : rnd f a b = .fin r) : z ≤ r := by
  obtain ⟨c, j, hzc, hc, _⟩ := hz
  unfold rnd at hr
  dsimp only at hr
  have hn : z ≤ a / b := (Nat.le_div_iff_mul_le hb).2 h
  generalize hs : (a / b).log2 + 1 - f.p = s at hr
  have hq : 0 < 2 ^ s := Nat.two_pow_pos s
  have hdiv : a / (b * 2 ^ s) = a / b / 2 ^ s := (Nat.div_div_eq_div_mul _ _ _).symm
  have key : z ≤ a / (b * 2 ^ s) * 2 ^ s := by
    rw [hdiv]
    by_cases hj : s ≤ j
    · obtain ⟨w, hw⟩ : 2 ^ s ∣ z := by
        rw [hzc]
        exact Nat.dvd_trans (Nat.pow_dvd_pow 2 hj) (Nat.dvd_mul_left _ _)
      have hw' : z = w * 2 ^ s := by rw [hw, Nat.mul_comm]
      have : w ≤ a / b / 2 ^ s := (Nat.le_div_iff_mul_le hq).2 (by rw [← hw']; exact hn)
      rw [hw']
      exact Nat.mul_le_mul_right _ this
    · have h0 : a / b ≠ 0 := by
        intro h0
        rw [h0] at hs
        rw [h0] at hn
        simp at hs
        omega
      have hl := Nat.log2_self_le h0
      have hps : f.p + j ≤ (a / b).log2 := by omega
      have hz1 : z ≤ 2 ^ (a / b).log2 := by
        rw [hzc]
        refine Nat.le_trans (Nat.mul_le_mul_right _ (Nat.le_of_lt hc)) ?_
        rw [← Nat.pow_add]
        exact Nat.pow_le_pow_right (by decide) hps
      have e : 2 ^ (a / b).log2 = 2 ^ ((a / b).log2 - s) * 2 ^ s := by rw [← Nat.pow_add]; congr 1; omega
      have : 2 ^ ((a / b).log2 - s) ≤ a / b / 2 ^ s := (Nat.le_div_iff_mul_le hq).2 (by rw [← e]; exact hl)
      rw [e] at hz1
      exact Nat.le_trans hz1 (Nat.mul_le_mul_right _ this)
  generalize a / (b * 2 ^ s) = m at hr key
  have key2 : m * 2 ^ s ≤ (m + 1) * 2 ^ s := Nat.mul_le_mul_right _ (Nat.le_succ _)
  split at hr
  · split at hr
    · injection hr with hr
      rw [← hr]
      exact Nat.le_trans key key2
    · exact absurd hr (by simp)
  · split at hr
    · injection hr with hr
      rw [← hr]
      exact key
    · exact absurd hr (by simp)

/-- The error of rounding, relative to the value, if that is not below the normal numbers. -/
theorem rnd_rel (f : Fmt) (hp : 0 < f.p) {a b : Nat} (hb : 0 < b) (hn : 2 ^ (f.p - 1) * b ≤ a) (ht : a * (2 ^ f.p + 1) < b * 2 ^ f.p * 2 ^ f.top) :
    ∃ r, rnd f a b = .fin r ∧ r * b * 2 ^ f.p ≤ a * (2 ^ f.p + 1) ∧ a * (2 ^ f.p - 1) ≤ r * b * 2 ^ f.p := by
  have hn' : 2 ^ (f.p - 1) ≤ a / b := (Nat.le_div_iff_mul_le hb).2 hn
  have h0 : a / b ≠ 0 := by have := Nat.two_pow_pos (f.p - 1); omega
  have hl := Nat.log2_self_le h0
  have hlp : f.p ≤ (a / b).log2 + 1 := by
    have : f.p - 1 ≤ (a / b).log2 := (Nat.le_log2 h0).2 hn'
    omega
  have hq : 2 ^ ((a / b).log2 + 1 - f.p) * 2 ^ f.p = 2 * 2 ^ (a / b).log2 := by
    rw [← Nat.pow_add, Nat.mul_comm 2, ← Nat.pow_succ]
    congr 1
    omega
  have hqa : b * 2 ^ ((a / b).log2 + 1 - f.p) * 2 ^ f.p ≤ 2 * a := by
    rw [Nat.mul_assoc, hq]
    have h1 : b * 2 ^ (a / b).log2 ≤ b * (a / b) := Nat.mul_le_mul_left b hl
    have h2 := Nat.mul_div_le a b
    rw [Nat.mul_left_comm]
    omega
  unfold rnd
  dsimp only
  have hq0 : 0 < 2 ^ ((a / b).log2 + 1 - f.p) := Nat.two_pow_pos _
  generalize 2 ^ ((a / b).log2 + 1 - f.p) = q at hqa hq0
  have hB0 : 0 < b * q := Nat.mul_pos hb hq0
  have hdm := Nat.div_add_mod a (b * q)
  have hml := Nat.mod_lt a hB0
  have e1 : a / (b * q) * q * b = b * q * (a / (b * q)) := by rw [Nat.mul_assoc, Nat.mul_comm, Nat.mul_comm q b]
  have e2 : (a / (b * q) + 1) * q * b = b * q * (a / (b * q)) + b * q := by rw [Nat.add_mul, Nat.add_mul, e1, Nat.one_mul, Nat.mul_comm q b]
  generalize a % (b * q) = r at *
  generalize a / (b * q) = m at *
  have hP := Nat.two_pow_pos f.p
  generalize 2 ^ f.p = P at *
  generalize hBq : b * q = B at *
  have fits : ∀ x, x * b * P ≤ a * (P + 1) → x < 2 ^ f.top := by
    intro x hx
    have h1 : b * P * x < b * P * 2 ^ f.top := by
      have : b * P * x = x * b * P := by rw [Nat.mul_comm, ← Nat.mul_assoc]
      rw [this]
      exact Nat.lt_of_le_of_lt hx ht
    exact Nat.lt_of_mul_lt_mul_left h1
  -- `2 * error ≤ B`
  have main : ∀ y : Nat, 2 * y ≤ 2 * a + B → 2 * a ≤ 2 * y + B → y * P ≤ a * (P + 1) ∧ a * (P - 1) ≤ y * P := by
    intro y hy1 hy2
    have h1 : 2 * y * P ≤ (2 * a + B) * P := Nat.mul_le_mul_right _ hy1
    have h2 : 2 * a * P ≤ (2 * y + B) * P := Nat.mul_le_mul_right _ hy2
    rw [Nat.add_mul, Nat.mul_assoc 2] at h1 h2
    rw [Nat.mul_assoc 2] at h1 h2
    rw [Nat.mul_add, Nat.mul_one, Nat.mul_sub, Nat.mul_one]
    generalize y * P = yP at *
    generalize a * P = aP at *
    generalize B * P = BP at *
    omega
  by_cases hup : 2 * r > B ∨ (2 * r = B ∧ m % 2 = 1)
  · rw [if_pos hup]
    obtain ⟨h1, h2⟩ := main ((m + 1) * q * b) (by rw [e2]; omega) (by rw [e2]; omega)
    rw [if_pos (fits _ h1)]
    exact ⟨_, rfl, h1, h2⟩
  · rw [if_neg hup]
    obtain ⟨h1, h2⟩ := main (m * q * b) (by rw [e1]; omega) (by rw [e1]; omega)
    rw [if_pos (fits _ h1)]
    exact ⟨_, rfl, h1, h2⟩

end Verif.Float
