import Verif.Stdio.PrintfModel
import Verif.Stdio.PrintfSpec
/-!
# Single conversions of `printf`: lemmas
-/

namespace Verif.Stdio
open Verif.Mem Verif.Stdlib Verif.Wchar

/-! ## Numerals -/

theorem digitByte_eq {d : Nat} (h : d < 16) (up : Bool) :
    digitByte up d = UInt8.ofNat (if up then d.digitChar.toUpper else d.digitChar).toNat := by
  have key : ∀ d : Fin 16, ∀ up : Bool,
      digitByte up d.val = UInt8.ofNat (if up then d.val.digitChar.toUpper else d.val.digitChar).toNat := by decide
  exact key ⟨d, h⟩ up

theorem digitsOf_eq {b : Nat} (hb : 2 ≤ b) (hb' : b ≤ 16) (up : Bool) (n : Nat) : digitsOf b up n = numeral b up n := by
  induction n using Nat.strongRecOn with
  | ind n ih =>
    unfold digitsOf numeral
    rw [Nat.toDigits_eq_if (by omega)]
    by_cases h : n < b
    · rw [dif_pos (.inl h), if_pos h, List.map_singleton, digitByte_eq (by omega)]
    · rw [dif_neg (by omega), if_neg h, List.map_append, List.map_singleton, ih _ (Nat.div_lt_self (by omega) (by omega)),
        digitByte_eq (Nat.lt_of_lt_of_le (Nat.mod_lt _ (by omega)) hb')]
      rfl

theorem numeral_zero (b : Nat) (up : Bool) : numeral b up 0 = [0x30] := by
  unfold numeral
  rw [Nat.toDigits_zero]
  cases up <;> decide

theorem numeral_pos (b : Nat) (up : Bool) (n : Nat) : 1 ≤ (numeral b up n).length := by
  unfold numeral
  rw [List.length_map]
  exact Nat.length_toDigits_pos

/-- The first digit of a number other than 0 is the digit of a number from 1 to 15. -/
theorem numeral_head {b : Nat} (hb : 2 ≤ b) (hb' : b ≤ 16) (up : Bool) {n : Nat} (hn : n ≠ 0) :
    ∃ d, 1 ≤ d ∧ d < 16 ∧ (numeral b up n).head? = some (digitByte up d) := by
  rw [← digitsOf_eq hb hb']
  induction n using Nat.strongRecOn with
  | ind n ih =>
    unfold digitsOf
    by_cases h : n < b
    · rw [dif_pos (.inl h)]
      exact ⟨n, by omega, by omega, rfl⟩
    · rw [dif_neg (by omega)]
      have h0 : n / b ≠ 0 := by
        have := Nat.div_pos (Nat.le_of_not_lt h) (by omega)
        omega
      obtain ⟨d, h1, h2, h3⟩ := ih _ (Nat.div_lt_self (by omega) (by omega)) h0
      refine ⟨d, h1, h2, ?_⟩
      rw [List.head?_append, h3]
      rfl

theorem digitByte_ne {d : Nat} (h1 : 1 ≤ d) (h2 : d < 16) (up : Bool) : digitByte up d ≠ 0x30 ∧ digitByte up d ≠ 0x2D := by
  have key : ∀ d : Fin 16, 1 ≤ d.val → ∀ up : Bool, digitByte up d.val ≠ 0x30 ∧ digitByte up d.val ≠ 0x2D := by decide
  exact key ⟨d, h2⟩ h1 up

theorem numeral_ne {b : Nat} (hb : 2 ≤ b) (hb' : b ≤ 16) (up : Bool) {n : Nat} (hn : n ≠ 0) :
    (numeral b up n).head? ≠ some 0x30 := by
  obtain ⟨d, h1, h2, h3⟩ := numeral_head hb hb' up hn
  rw [h3]
  intro h
  exact (digitByte_ne h1 h2 up).1 (Option.some.inj h)

theorem numeral_dash {b : Nat} (hb : 2 ≤ b) (hb' : b ≤ 16) (up : Bool) (n : Nat) :
    (numeral b up n).head? ≠ some 0x2D := by
  by_cases hn : n = 0
  · subst hn; rw [numeral_zero]; decide
  · obtain ⟨d, h1, h2, h3⟩ := numeral_head hb hb' up hn
    rw [h3]
    intro h
    exact (digitByte_ne h1 h2 up).2 (Option.some.inj h)

theorem numeral_eq_zero {b : Nat} (hb : 2 ≤ b) (hb' : b ≤ 16) (up : Bool) (n : Nat) :
    numeral b up n = [0x30] ↔ n = 0 := by
  constructor
  · intro h
    by_cases hn : n = 0
    · exact hn
    · exact absurd (by rw [h]; rfl) (numeral_ne hb hb' up hn)
  · rintro rfl; exact numeral_zero b up

theorem flatten_pad (side : Bool) (c : UInt8) (a b : Nat) :
    (pad side c a b).flatten = if side then List.replicate (b - a) c else [] := by
  unfold pad
  split
  · generalize b - a = n
    induction n with
    | zero => rfl
    | succ n ih => rw [List.replicate_succ, List.flatten_cons, ih, List.replicate_succ]; rfl
  · rfl

/-! ## Layout -/

/-- The layout a conversion should get: `zeroEff` = the `0` flag applies in the code. -/
def Call.layout (c : Call) (zeroEff : Bool) : Layout :=
  ⟨c.has .alt, c.left, c.has .space, c.has .plus, if zeroEff then 0 else c.width.natAbs,
    if zeroEff then c.width.natAbs else 0, c.prec⟩

/-- Where `%d` does what it should. -/
def Call.SignedOk (c : Call) (v : Int) : Prop :=
  (0 ≤ v → ¬ (c.has .plus = true ∧ c.has .space = true))
  ∧ (v < 0 → ∀ p, c.prec = some p → p ≤ (numeral 10 false v.natAbs).length)
  ∧ (c.has .zero = true → c.prec = none → c.dir.prec = .none ∧ 0 ≤ c.width
    ∧ (c.width ≤ (numeral 10 false v.natAbs).length
      ∨ (c.has .left = false ∧ (v < 0 ∨ (c.has .plus = false ∧ c.has .space = false)))))
  ∧ (v = 0 → c.prec = some 0 → (c.has .plus = true ∨ c.has .space = true) → c.width = 0)

theorem signedString_neg {v : Int} (h : v < 0) : signedString v = 0x2D :: numeral 10 false v.natAbs := by
  unfold signedString
  rw [if_pos h, digitsOf_eq (by omega) (by omega)]

theorem signedString_nonneg {v : Int} (h : 0 ≤ v) : signedString v = numeral 10 false v.natAbs := by
  unfold signedString
  rw [if_neg (by omega), digitsOf_eq (by omega) (by omega)]

/-- The bytes of `pad`, prefix, zeros, digits, `pad`. -/
def lay (left : Bool) (S F : Nat) (pre : List UInt8) (zs : Nat) (ds : List UInt8) : List UInt8 :=
  (if left then [] else List.replicate (S - F) 0x20) ++ (pre ++ (List.replicate zs 0x30 ++ (ds
    ++ (if left then List.replicate (S - F) 0x20 else []))))

theorem field_plain {c : Call} {pre ds : List UInt8} (h : ¬ (c.has .zero = true ∧ c.prec = none)) {F zs : Nat}
    (hF : F = pre.length + zs + ds.length) :
    lay c.left c.width.natAbs F pre zs ds = c.field pre (List.replicate zs 0x30 ++ ds) := by
  unfold lay Call.field
  subst hF
  simp only [List.length_append, List.length_replicate, if_neg h]
  cases c.left
  · simp [List.append_assoc, Nat.add_assoc]
  · simp [List.append_assoc, Nat.add_assoc]

/-- With zeros for padding. -/
theorem field_zero {c : Call} {pre ds : List UInt8} (h : c.has .zero = true ∧ c.prec = none) {zs : Nat}
    (hzs : zs = c.width.natAbs - (pre.length + ds.length)) (hl : c.left = true → zs = 0) (S F : Nat) (hS : S ≤ F):
    lay c.left S F pre zs ds = c.field pre ds := by
  unfold lay Call.field
  simp only [if_pos h]
  rw [← hzs]
  have e : S - F = 0 := by omega
  rw [e]
  cases hc : c.left with
  | false => simp
  | true => simp [hl hc]

theorem signedChunks_eq {c : Call} {v : Int} {z : Bool} (h : c.SignedOk v)
    (hz : z = (c.has .zero && decide (c.dir.prec = .none))) (hn : c.dir.prec = .none → c.prec = none) :
    (signedChunks (c.layout z) v).flatten = c.signed v := by
  obtain ⟨h1, h2, h3, h4⟩ := h
  have hpos := numeral_pos 10 false v.natAbs
  have hcase : (c.has .zero = true ∧ c.prec = none ∧ z = true) ∨ (¬ (c.has .zero = true ∧ c.prec = none) ∧ z = false) := by
    by_cases hzz : c.has .zero = true
    · by_cases hp : c.prec = none
      · refine .inl ⟨hzz, hp, ?_⟩
        rw [hz, hzz, (h3 hzz hp).1]; simp
      · refine .inr ⟨fun h => hp h.2, ?_⟩
        rw [hz]
        have : ¬ c.dir.prec = .none := fun h => hp (hn h)
        simp [this]
    · refine .inr ⟨fun h => hzz h.1, ?_⟩
      rw [hz]; simp at hzz; simp [hzz]
  have hleft : z = true → c.width ≥ 0 → c.left = c.has .left := by
    intro _ hw
    unfold Call.left
    have : ¬ c.width < 0 := by omega
    simp [this]
  unfold Call.signed Call.sign
  by_cases hv : v < 0
  · -- negative
    have hcode : (signedChunks (c.layout z) v).flatten
        = lay c.left (if z then 0 else c.width.natAbs) (max ((numeral 10 false v.natAbs).length + 1) (c.prec.getD 0)) [0x2D]
          (c.prec.getD (if z then c.width.natAbs else 0) - ((numeral 10 false v.natAbs).length + 1))
          (numeral 10 false v.natAbs) := by
      have hne : (numeral 10 false v.natAbs) ≠ [] := by intro h; rw [h] at hpos; simp at hpos
      simp only [signedChunks, signedString_neg hv, Call.layout, lay]
      generalize c.left = lf
      cases lf <;> simp [flatten_pad]
    rw [hcode, if_pos hv]
    have hw : withPrec c.prec (v = 0) (numeral 10 false v.natAbs) = numeral 10 false v.natAbs := by
      unfold withPrec
      cases hp : c.prec with
      | none => rfl
      | some p =>
        have := h2 hv p hp
        dsimp only
        rw [if_neg (by omega), show p - (numeral 10 false v.natAbs).length = 0 by omega]
        rfl
    rw [hw]
    rcases hcase with ⟨hzz, hp, rfl⟩ | ⟨hnz, rfl⟩
    · simp only [if_true, hp, Option.getD_none]
      obtain ⟨g1, g2, g3⟩ := h3 hzz hp
      apply field_zero ⟨hzz, hp⟩ (by simp; omega) _ _ _ (by omega)
      intro hl
      rw [hleft rfl g2] at hl
      rcases g3 with g3 | g3
      · omega
      · rw [g3.1] at hl; simp at hl
    · simp only [Bool.false_eq_true, if_false]
      have : c.prec.getD 0 ≤ (numeral 10 false v.natAbs).length := by
        cases hp : c.prec with
        | none => simp
        | some p => exact h2 hv p hp
      rw [show c.prec.getD 0 - ((numeral 10 false v.natAbs).length + 1) = 0 by omega]
      exact field_plain hnz (by simp; omega)
  · have hv0 : 0 ≤ v := by omega
    rw [if_neg hv]
    have hsp := h1 hv0
    have hsp' : (c.has .plus = true ∧ c.has .space = false) ∨ (c.has .plus = false ∧ c.has .space = true)
        ∨ (c.has .plus = false ∧ c.has .space = false) := by
      revert hsp
      cases c.has .plus <;> cases c.has .space <;> simp
    by_cases hzero : v = 0 ∧ c.prec = some 0
    · -- no digits
      obtain ⟨rfl, hp⟩ := hzero
      have hcode : (signedChunks (c.layout z) 0).flatten
          = lay c.left (if z then 0 else c.width.natAbs) 0
            (if c.has .plus then [0x2B] else if c.has .space then [0x20] else []) 0 [] := by
        simp only [signedChunks, signedString_nonneg (Int.le_refl 0), Call.layout, lay, hp]
        generalize c.left = lf
        generalize (if z = true then 0 else c.width.natAbs) = S
        rcases hsp' with ⟨h5, h6⟩ | ⟨h5, h6⟩ | ⟨h5, h6⟩ <;> cases lf <;> simp [flatten_pad, numeral_zero, h5, h6]
      rw [hcode]
      have hw : withPrec c.prec ((0 : Int) = 0) (numeral 10 false (0 : Int).natAbs) = [] := by
        unfold withPrec; rw [hp]; simp
      rw [hw]
      rcases hcase with ⟨hzz, hp', rfl⟩ | ⟨hnz, rfl⟩
      · rw [hp] at hp'; simp at hp'
      · simp only [Bool.false_eq_true, if_false]
        cases h5 : c.has .plus <;> cases h6 : c.has .space
        · exact field_plain hnz (by simp)
        · have := h4 rfl hp (.inr h6)
          unfold lay Call.field; simp [this]
        · have := h4 rfl hp (.inl h5)
          unfold lay Call.field; simp [this]
        · exact absurd ⟨h5, h6⟩ hsp
    · have hnz0 : ¬ (c.prec = some 0 ∧ numeral 10 false v.natAbs = [0x30]) := by
        rintro ⟨hp, hnum⟩
        rw [numeral_eq_zero (by omega) (by omega)] at hnum
        exact hzero ⟨by omega, hp⟩
      have hcode : (signedChunks (c.layout z) v).flatten
          = lay c.left (if z then 0 else c.width.natAbs) (max (numeral 10 false v.natAbs).length (c.prec.getD 0)
              + (if c.has .plus then [0x2B] else if c.has .space then [0x20] else ([] : List UInt8)).length)
            (if c.has .plus then [0x2B] else if c.has .space then [0x20] else [])
            (c.prec.getD (if z then c.width.natAbs else 0) - (numeral 10 false v.natAbs).length)
            (numeral 10 false v.natAbs) := by
        have hd := numeral_dash (b := 10) (by omega) (by omega) false v.natAbs
        simp only [signedChunks, signedString_nonneg hv0, Call.layout, lay]
        have hd' : ((numeral 10 false v.natAbs).head? != some 0x2D) = true := by simpa using hd
        simp only [hd', hnz0, decide_false, if_true, Bool.true_and]
        generalize c.left = lf
        rcases hsp' with ⟨h5, h6⟩ | ⟨h5, h6⟩ | ⟨h5, h6⟩ <;> cases lf <;> simp [flatten_pad, h5, h6]
      rw [hcode]
      have hw : withPrec c.prec (v = 0) (numeral 10 false v.natAbs)
          = List.replicate (c.prec.getD 0 - (numeral 10 false v.natAbs).length) 0x30 ++ numeral 10 false v.natAbs := by
        unfold withPrec
        cases hp : c.prec with
        | none => simp
        | some p =>
          dsimp only
          rw [if_neg]
          · rfl
          · rintro ⟨rfl, h0⟩; exact hzero ⟨h0, hp⟩
      rw [hw]
      generalize hs : (if c.has .plus then [0x2B] else if c.has .space then [0x20] else ([] : List UInt8)) = sg
      rcases hcase with ⟨hzz, hp, rfl⟩ | ⟨hnz, rfl⟩
      · simp only [if_true, hp, Option.getD_none, Nat.zero_sub, List.replicate_zero, List.nil_append]
        obtain ⟨g1, g2, g3⟩ := h3 hzz hp
        apply field_zero ⟨hzz, hp⟩ _ _ _ _ (by omega)
        · rcases g3 with g3 | ⟨_, g3 | g3⟩
          · omega
          · omega
          · rw [g3.1, g3.2] at hs
            simp at hs
            subst hs
            simp
        · intro hl
          rw [hleft rfl g2] at hl
          rcases g3 with g3 | g3
          · omega
          · rw [g3.1] at hl; simp at hl
      · simp only [Bool.false_eq_true, if_false]
        exact field_plain hnz (by omega)

/-- Where the unsigned conversions do what they should. -/
def Call.UnsignedOk (c : Call) (v : Nat) : Prop :=
  (c.has .alt = true → c.dir.cv = .o → (v ≠ 0 → ∀ p, c.prec = some p → p ≠ (numeral 8 false v).length)
    ∧ (v = 0 → c.prec ≠ some 0))
  ∧ (c.has .zero = true → c.prec = none → c.dir.prec = .none ∧ 0 ≤ c.width
    ∧ (c.width ≤ (numeral c.dir.cv.base (c.dir.cv = .X) v).length
      ∨ (c.has .left = false ∧ (c.has .alt = false ∨ v = 0 ∨ c.dir.cv = .u))))

theorem fmtInt_eq {cv : Cv} (h : cv ∈ [Cv.o, .u, .x, .X, .b, .B]) (v : Nat) :
    fmtInt cv.byte v = some (numeral cv.base (cv = .X) v) ∧ 2 ≤ cv.base ∧ cv.base ≤ 16 := by
  simp only [List.mem_cons, List.not_mem_nil, or_false] at h
  rcases h with rfl | rfl | rfl | rfl | rfl | rfl <;>
    exact ⟨by simp only [fmtInt, Cv.byte, Cv.base]; simp [digitsOf_eq], by decide, by decide⟩

theorem octal_lay (left : Bool) (S F : Nat) (ds : List UInt8) :
    lay left S F [0x30] 0 ds = lay left S F [] 0 (0x30 :: ds) := by
  unfold lay; simp

theorem unsignedChunks_eq {c : Call} {v : Nat} {z : Bool} (hcv : c.dir.cv ∈ [Cv.o, .u, .x, .X, .b, .B]) (h : c.UnsignedOk v)
    (hz : z = (c.has .zero && decide (c.dir.prec = .none))) (hn : c.dir.prec = .none → c.prec = none) :
    ∃ cs, unsignedChunks (c.layout z) c.dir.cv.byte v = some cs ∧ cs.flatten = c.unsigned v := by
  obtain ⟨h1, h3⟩ := h
  obtain ⟨hf, hb, hb'⟩ := fmtInt_eq hcv v
  generalize hU : numeral c.dir.cv.base (decide (c.dir.cv = .X)) v = U at *
  have hpos : 1 ≤ U.length := by rw [← hU]; exact numeral_pos _ _ _
  have hU0 : U = [0x30] ↔ v = 0 := by rw [← hU]; exact numeral_eq_zero hb hb' _ v
  have hUne : v ≠ 0 → U.head? ≠ some 0x30 := by intro h; rw [← hU]; exact numeral_ne hb hb' _ h
  have hcase : (c.has .zero = true ∧ c.prec = none ∧ z = true) ∨ (¬ (c.has .zero = true ∧ c.prec = none) ∧ z = false) := by
    by_cases hzz : c.has .zero = true
    · by_cases hp : c.prec = none
      · refine .inl ⟨hzz, hp, ?_⟩
        rw [hz, hzz, (h3 hzz hp).1]; simp
      · refine .inr ⟨fun h => hp h.2, ?_⟩
        rw [hz]
        have : ¬ c.dir.prec = .none := fun h => hp (hn h)
        simp [this]
    · refine .inr ⟨fun h => hzz h.1, ?_⟩
      rw [hz]; simp at hzz; simp [hzz]
  have hleft : z = true → c.width ≥ 0 → c.left = c.has .left := by
    intro _ hw
    unfold Call.left
    have : ¬ c.width < 0 := by omega
    simp [this]
  unfold unsignedChunks
  rw [hf]
  refine ⟨_, rfl, ?_⟩
  unfold Call.unsigned
  rw [hU]
  by_cases hzero : c.prec = some 0 ∧ v = 0
  · -- no digits
    obtain ⟨hp, rfl⟩ := hzero
    have e1 : U = [0x30] := hU0.2 rfl
    have e2 : withPrec c.prec ((0 : Nat) = 0) U = [] := by unfold withPrec; rw [hp]; simp
    have e3 : c.prefix 0 = [] := by unfold Call.prefix; simp
    have e4 : octal (c.has .alt && decide (c.dir.cv = .o)) [] = [] := by
      unfold octal
      rw [if_neg]
      simp only [Bool.and_eq_true, decide_eq_true_eq]
      rintro ⟨⟨ha, ho⟩, _⟩
      exact (h1 ha ho).2 rfl hp
    rw [e2, e3, e4]
    rcases hcase with ⟨hzz, hp', rfl⟩ | ⟨hnz, rfl⟩
    · rw [hp] at hp'; simp at hp'
    · have := field_plain (c := c) (pre := []) (ds := []) hnz (F := 0) (zs := 0) rfl
      rw [List.replicate_zero, List.nil_append] at this
      rw [← this, lay]
      simp only [Call.layout, hp, e1, altPrefix]
      generalize c.left = lf
      cases lf <;> simp [flatten_pad]
  · have hnz0 : ¬ (c.prec = some 0 ∧ U = [0x30]) := fun h => hzero ⟨h.1, hU0.1 h.2⟩
    have hcode : (pad (!(c.layout z).left) 0x20 (if (decide ((c.layout z).precision = some 0 ∧ U = [0x30])) = true then 0
          else max U.length ((c.layout z).precision.getD 0) + (altPrefix (c.layout z) c.dir.cv.byte U).length)
          (c.layout z).padSpace
        ++ [altPrefix (c.layout z) c.dir.cv.byte U]
        ++ pad true 0x30 (if (decide ((c.layout z).precision = some 0 ∧ U = [0x30])) = true then 0 else U.length)
          ((c.layout z).precision.getD (c.layout z).padZero)
        ++ (if (decide ((c.layout z).precision = some 0 ∧ U = [0x30])) = true then [] else [U])
        ++ pad (c.layout z).left 0x20 (if (decide ((c.layout z).precision = some 0 ∧ U = [0x30])) = true then 0
          else max U.length ((c.layout z).precision.getD 0) + (altPrefix (c.layout z) c.dir.cv.byte U).length)
          (c.layout z).padSpace).flatten
        = lay c.left (if z then 0 else c.width.natAbs)
            (max U.length (c.prec.getD 0) + (altPrefix (c.layout z) c.dir.cv.byte U).length)
            (altPrefix (c.layout z) c.dir.cv.byte U) (c.prec.getD (if z then c.width.natAbs else 0) - U.length) U := by
      have hl : (c.layout z).precision = c.prec := rfl
      rw [hl]
      generalize altPrefix (c.layout z) c.dir.cv.byte U = A
      simp only [hnz0, decide_false, Bool.false_eq_true, if_false, Call.layout, lay]
      generalize c.left = lf
      cases lf <;> simp [flatten_pad]
    rw [hcode]
    clear hcode
    have hw : withPrec c.prec (v = 0) U = List.replicate (c.prec.getD 0 - U.length) 0x30 ++ U := by
      unfold withPrec
      cases hp : c.prec with
      | none => simp
      | some p =>
        dsimp only
        rw [if_neg]
        · rfl
        · rintro ⟨rfl, h0⟩; exact hzero ⟨hp, h0⟩
    rw [hw]
    by_cases hoct : c.has .alt = true ∧ c.dir.cv = .o ∧ v ≠ 0
    · -- `%#o`
      obtain ⟨ha, ho, hv⟩ := hoct
      have hpne := (h1 ha ho).1 hv
      have e8 : (numeral 8 false v) = U := by rw [← hU, ho]; rfl
      rw [e8] at hpne
      have hpre : c.prefix v = [] := by unfold Call.prefix; rw [ho]; simp
      rw [hpre]
      have hal : (c.has .alt && decide (c.dir.cv = .o)) = true := by simp [ha, ho]
      rw [hal]
      have hU1 : U ≠ [0x30] := fun h => hv (hU0.1 h)
      by_cases hpl : c.prec.getD 0 < U.length
      · have hA : altPrefix (c.layout z) c.dir.cv.byte U = [0x30] := by
          unfold altPrefix
          have hl : (c.layout z).precision = c.prec := rfl
          have hl2 : (c.layout z).alternate = true := ha
          rw [hl, hl2, ho]
          cases hp : c.prec with
          | none => simp [Cv.byte, hU1]
          | some p =>
            rw [hp] at hpl
            have : p < U.length := hpl
            simp [Cv.byte, hU1, this]
        rw [hA, show c.prec.getD 0 - U.length = 0 by omega]
        have hoc : octal true (List.replicate 0 0x30 ++ U) = 0x30 :: U := by
          unfold octal; simp [hUne hv]
        rw [hoc]
        rcases hcase with ⟨hzz, hp, rfl⟩ | ⟨hnz, rfl⟩
        · simp only [if_true, hp, Option.getD_none]
          obtain ⟨g1, g2, g3⟩ := h3 hzz hp
          have gw : c.width ≤ U.length := by
            rcases g3 with g3 | ⟨_, g3 | g3 | g3⟩
            · exact g3
            · rw [ha] at g3; simp at g3
            · exact absurd g3 hv
            · rw [ho] at g3; simp at g3
          rw [show c.width.natAbs - U.length = 0 by omega, octal_lay]
          exact field_zero ⟨hzz, hp⟩ (by simp; omega) (fun _ => rfl) _ _ (by simp)
        · simp only [Bool.false_eq_true, if_false]
          rw [show c.prec.getD 0 - U.length = 0 by omega, octal_lay]
          have := field_plain (c := c) (pre := []) (ds := 0x30 :: U) hnz (F := max U.length (c.prec.getD 0) + ([0x30] : List UInt8).length) (zs := 0)
            (by simp; omega)
          rw [this]; simp
      · obtain ⟨p, hp⟩ : ∃ p, c.prec = some p := by
          cases hp : c.prec with
          | none => rw [hp] at hpl; exact absurd hpos (by simpa using hpl)
          | some p => exact ⟨p, rfl⟩
        have hpp : U.length < p := by
          have := hpne p hp
          rw [hp] at hpl
          simp at hpl
          omega
        have hA : altPrefix (c.layout z) c.dir.cv.byte U = [] := by
          unfold altPrefix
          have hl : (c.layout z).precision = some p := hp
          rw [hl, ho]
          have : ¬ p < U.length := by omega
          simp [Cv.byte, this]
        have hoc : octal true (List.replicate (p - U.length) 0x30 ++ U) = List.replicate (p - U.length) 0x30 ++ U := by
          unfold octal
          obtain ⟨k, hk⟩ : ∃ k, p - U.length = k + 1 := ⟨p - U.length - 1, by omega⟩
          rw [hk]; simp [List.replicate_succ]
        rw [hA, hp]
        simp only [Option.getD_some]
        rw [hoc]
        rcases hcase with ⟨hzz, hp', rfl⟩ | ⟨hnz, rfl⟩
        · rw [hp] at hp'; simp at hp'
        · simp only [Bool.false_eq_true, if_false]
          exact field_plain hnz (by simp; omega)
    · have hoc : octal (c.has .alt && decide (c.dir.cv = .o)) (List.replicate (c.prec.getD 0 - U.length) 0x30 ++ U)
          = List.replicate (c.prec.getD 0 - U.length) 0x30 ++ U := by
        unfold octal
        rw [if_neg]
        simp only [Bool.and_eq_true, decide_eq_true_eq]
        rintro ⟨⟨ha, ho⟩, hh⟩
        have hv : v = 0 := Classical.byContradiction (fun hv => hoct ⟨ha, ho, hv⟩)
        rw [hU0.2 hv] at hh
        apply hh
        cases c.prec.getD 0 - ([0x30] : List UInt8).length <;> simp [List.replicate_succ]
      rw [hoc]
      have hA : altPrefix (c.layout z) c.dir.cv.byte U = c.prefix v := by
        unfold altPrefix Call.prefix
        have hl2 : (c.layout z).alternate = c.has .alt := rfl
        rw [hl2]
        by_cases ha : c.has .alt = true
        · by_cases hv : v = 0
          · have : U = [0x30] := hU0.2 hv
            simp [this, hv]
          · have hU1 : U ≠ [0x30] := fun h => hv (hU0.1 h)
            have hno : c.dir.cv ≠ .o := fun ho => hoct ⟨ha, ho, hv⟩
            have e1 : (c.has .alt && U != [0x30]) = true := by simp [ha, hU1]
            have e2 : (c.has .alt = true ∧ v ≠ 0) := ⟨ha, hv⟩
            rw [if_pos e1, if_pos e2]
            simp only [List.mem_cons, List.not_mem_nil, or_false] at hcv
            rcases hcv with h | h | h | h | h | h
            · exact absurd h hno
            all_goals (rw [h]; simp [Cv.byte])
        · simp at ha; simp [ha]
      rw [hA]
      rcases hcase with ⟨hzz, hp, rfl⟩ | ⟨hnz, rfl⟩
      · simp only [if_true, hp, Option.getD_none, Nat.zero_sub, List.replicate_zero, List.nil_append]
        obtain ⟨g1, g2, g3⟩ := h3 hzz hp
        apply field_zero ⟨hzz, hp⟩ _ _ _ _ (by omega)
        · rcases g3 with g3 | ⟨_, g3 | g3 | g3⟩
          · omega
          · have : c.prefix v = [] := by unfold Call.prefix; simp [g3]
            rw [this]; simp
          · have : c.prefix v = [] := by unfold Call.prefix; simp [g3]
            rw [this]; simp
          · have : c.prefix v = [] := by unfold Call.prefix; rw [g3]; simp
            rw [this]; simp
        · intro hl
          rw [hleft rfl g2] at hl
          rcases g3 with g3 | g3
          · omega
          · rw [g3.1] at hl; simp at hl
      · simp only [Bool.false_eq_true, if_false]
        exact field_plain hnz (by omega)

end Verif.Stdio
