import Verif.Time.TimespecModel
/-!
# `struct timespec` arithmetic (C33)
-/

namespace Verif.Time

/-! ## Specification -/

/-- The instant in nanoseconds. -/
def Timespec.ns (t : Timespec) : Int := t.sec.toInt * 10 ^ 9 + t.nsec.toInt

/-- Nanoseconds in range. -/
def Timespec.Normal (t : Timespec) : Prop := 0 ≤ t.nsec.toInt ∧ t.nsec.toInt < 10 ^ 9

/-! ## Lemmas -/

theorem range (a : Int64) : -2 ^ 63 ≤ a.toInt ∧ a.toInt < 2 ^ 63 := ⟨a.le_toInt, a.toInt_lt⟩

theorem bmod_id {x : Int} (h1 : -2 ^ 63 ≤ x) (h2 : x < 2 ^ 63) : x.bmod (2 ^ 64) = x :=
  Int.bmod_eq_of_le (by omega) (by omega)

theorem add_toInt {a b : Int64} (h1 : -2 ^ 63 ≤ a.toInt + b.toInt) (h2 : a.toInt + b.toInt < 2 ^ 63) :
    (a + b).toInt = a.toInt + b.toInt := by rw [Int64.toInt_add, bmod_id h1 h2]

theorem sub_toInt {a b : Int64} (h1 : -2 ^ 63 ≤ a.toInt - b.toInt) (h2 : a.toInt - b.toInt < 2 ^ 63) :
    (a - b).toInt = a.toInt - b.toInt := by rw [Int64.toInt_sub, bmod_id h1 h2]

theorem nanos_toInt : nanos.toInt = 10 ^ 9 := rfl

theorem lt_zero (a : Int64) : a < 0 ↔ a.toInt < 0 := by
  rw [Int64.lt_iff_toInt_lt]; rfl

theorem mod_nanos (a : Int64) (h : 0 ≤ a.toInt) : (a % nanos).toInt = a.toInt % 10 ^ 9 := by
  rw [Int64.toInt_mod, nanos_toInt, Int.tmod_eq_emod_of_nonneg h]

theorem div_nanos (a : Int64) (h : 0 ≤ a.toInt) : (a / nanos).toInt = a.toInt / 10 ^ 9 := by
  rw [Int64.toInt_div, nanos_toInt, Int.tdiv_eq_ediv_of_nonneg h]
  have := range a
  exact bmod_id (by omega) (by omega)

/-! ## C33 -/

/-- C33, `add`, for normal operands whose seconds do not add up to less than 0: if the sum is representable, the result
is normal and exactly the sum. Missing: sums that are not representable, and sums of seconds below 0. -/
theorem C33_add_partial {a b : Timespec} (ha : a.Normal) (hb : b.Normal) (hs0 : 0 ≤ a.sec.toInt + b.sec.toInt)
    (hr : a.ns + b.ns < 2 ^ 63 * 10 ^ 9) : ∃ t, a.add b = some t ∧ t.Normal ∧ t.ns = a.ns + b.ns := by
  unfold Timespec.ns at hr
  unfold Timespec.Normal at ha hb
  have hs1 : a.sec.toInt + b.sec.toInt < 2 ^ 63 := by omega
  have es : (a.sec + b.sec).toInt = _ := add_toInt (by omega) hs1
  have en : (a.nsec + b.nsec).toInt = _ := add_toInt (a := a.nsec) (b := b.nsec) (by omega) (by omega)
  have hd := div_nanos (a.nsec + b.nsec) (by omega)
  have hm := mod_nanos (a.nsec + b.nsec) (by omega)
  have e : a.add b = some ⟨a.sec + b.sec + (a.nsec + b.nsec) / nanos, (a.nsec + b.nsec) % nanos⟩ := by
    unfold Timespec.add checkedAdd
    rw [if_pos ⟨by omega, hs1⟩, if_pos (by omega)]
    simp only [Option.bind_eq_bind, Option.bind_some]
    rw [if_neg]
    simp only [lt_zero, Bool.or_eq_true, decide_eq_true_eq]
    omega
  have et : (a.sec + b.sec + (a.nsec + b.nsec) / nanos).toInt = _ := add_toInt (a := a.sec + b.sec) (b := (a.nsec + b.nsec) / nanos)
    (by omega) (by omega)
  refine ⟨_, e, ?_, ?_⟩
  · unfold Timespec.Normal; simp only [hm, en]; omega
  · unfold Timespec.ns; simp only [et, hm, hd, es, en]; omega

/-- C33, `add`: whatever the operands, a result is normal. -/
theorem C33_add_normal {a b t : Timespec} (h : a.add b = some t) : t.Normal := by
  unfold Timespec.add at h
  simp only [Option.bind_eq_bind, Option.bind_eq_some_iff] at h
  obtain ⟨ds, _, dn, _, h⟩ := h
  split at h
  · cases h
  · rename_i hneg
    cases h
    simp only [lt_zero, Bool.or_eq_true, decide_eq_true_eq] at hneg
    have hm := mod_nanos dn (by omega)
    unfold Timespec.Normal
    simp only
    rw [hm]
    omega

/-- C33, `add`: a sum below 0 is refused. -/
theorem C33_add_negative {a b : Timespec} (ha : a.Normal) (hb : b.Normal) (h : a.ns + b.ns < 0) : a.add b = none := by
  unfold Timespec.ns at h
  unfold Timespec.Normal at ha hb
  unfold Timespec.add checkedAdd
  by_cases hlow : -2 ^ 63 ≤ a.sec.toInt + b.sec.toInt
  · have es : (a.sec + b.sec).toInt = _ := add_toInt hlow (by omega)
    rw [if_pos ⟨hlow, by omega⟩, if_pos (by omega)]
    simp only [Option.bind_eq_bind, Option.bind_some]
    rw [if_pos]
    simp only [lt_zero, Bool.or_eq_true, decide_eq_true_eq]
    omega
  · rw [if_neg (fun c => hlow c.1)]
    rfl

/-- C33 fails: a sum of seconds at the upper end with a carry from the nanoseconds wraps around to the far past instead
of being reported as unrepresentable. -/
theorem C33_add_overflow_violation :
    (⟨Int64.maxValue, 500000000⟩ : Timespec).add ⟨0, 500000000⟩ = some ⟨Int64.minValue, 0⟩ := by decide

/-- C33 fails: a sum that is representable and not negative is refused when the seconds alone add up to less than 0. -/
theorem C33_add_negative_violation :
    (⟨-1, 600000000⟩ : Timespec).add ⟨0, 500000000⟩ = none
      ∧ (⟨-1, 600000000⟩ : Timespec).ns + (⟨0, 500000000⟩ : Timespec).ns = (⟨0, 100000000⟩ : Timespec).ns := by decide

/-- C33, `subtract`, when the nanoseconds need no borrow: the exact difference, or failure exactly if it is negative. -/
theorem C33_subtract_partial {a b : Timespec} (ha : a.Normal) (hb : b.Normal) (hn : b.nsec.toInt ≤ a.nsec.toInt)
    (h1 : a.sec.toInt - b.sec.toInt < 2 ^ 63) :
    (a.ns < b.ns → a.subtract b = none)
    ∧ (b.ns ≤ a.ns → ∃ t, a.subtract b = some t ∧ t.Normal ∧ t.ns = a.ns - b.ns) := by
  unfold Timespec.ns
  unfold Timespec.Normal at ha hb
  have en : (a.nsec - b.nsec).toInt = _ := sub_toInt (a := a.nsec) (b := b.nsec) (by omega) (by omega)
  have hd := div_nanos (a.nsec - b.nsec) (by omega)
  have hm := mod_nanos (a.nsec - b.nsec) (by omega)
  have hnn : ¬ (a.nsec - b.nsec < 0) := by rw [lt_zero]; omega
  by_cases hlow : -2 ^ 63 ≤ a.sec.toInt - b.sec.toInt
  · have es : (a.sec - b.sec).toInt = _ := sub_toInt hlow h1
    have et : (a.sec - b.sec + (a.nsec - b.nsec) / nanos).toInt = _ :=
      add_toInt (a := a.sec - b.sec) (b := (a.nsec - b.nsec) / nanos) (by omega) (by omega)
    have e : a.subtract b = if a.sec - b.sec + (a.nsec - b.nsec) / nanos < 0 then none
        else some ⟨a.sec - b.sec + (a.nsec - b.nsec) / nanos, (a.nsec - b.nsec) % nanos⟩ := by
      unfold Timespec.subtract checkedSub
      rw [if_pos ⟨hlow, h1⟩, if_pos (by omega)]
      simp only [Option.bind_eq_bind, Option.bind_some]
      rw [if_neg hnn]
    constructor
    · intro hlt
      rw [e, if_pos]
      rw [lt_zero, et, hd, es]
      omega
    · intro hle
      refine ⟨_, by rw [e, if_neg (by rw [lt_zero, et, hd, es]; omega)], ?_, ?_⟩
      · unfold Timespec.Normal; simp only [hm, en]; omega
      · simp only [et, hm, hd, es, en]; omega
  · constructor
    · intro _
      unfold Timespec.subtract checkedSub
      rw [if_neg (fun h => hlow h.1)]
      rfl
    · intro hle; omega

/-- C33 fails whenever a borrow is needed: the result is neither normal nor the difference, it is too large by twice the
missing nanoseconds. Only the sign is right. -/
theorem C33_subtract_violation {a b : Timespec} (ha : a.Normal) (hb : b.Normal) (hn : a.nsec.toInt < b.nsec.toInt)
    (h1 : a.sec.toInt - b.sec.toInt < 2 ^ 63) (h2 : b.ns ≤ a.ns) :
    ∃ t, a.subtract b = some t ∧ ¬ t.Normal ∧ t.ns = a.ns - b.ns + 2 * (b.nsec.toInt - a.nsec.toInt) := by
  unfold Timespec.ns at h2 ⊢
  unfold Timespec.Normal at ha hb ⊢
  have en : (a.nsec - b.nsec).toInt = _ := sub_toInt (a := a.nsec) (b := b.nsec) (by omega) (by omega)
  have es : (a.sec - b.sec).toInt = _ := sub_toInt (by omega) h1
  have eneg : (-(a.nsec - b.nsec)).toInt = b.nsec.toInt - a.nsec.toInt := by
    rw [Int64.toInt_neg, en, bmod_id (by omega) (by omega)]; omega
  have hq : ((-(a.nsec - b.nsec)) / nanos).toInt = 0 := by
    rw [div_nanos _ (by omega), eneg]; omega
  have hq0 : (-(a.nsec - b.nsec)) / nanos = 0 := Int64.toInt_inj.1 hq
  have hrn : ((1 : Int64) * nanos - (a.nsec - b.nsec)).toInt = 10 ^ 9 - (a.nsec.toInt - b.nsec.toInt) := by
    have e1 : ((1 : Int64) * nanos).toInt = 10 ^ 9 := rfl
    have := sub_toInt (a := (1 : Int64) * nanos) (b := a.nsec - b.nsec) (by omega) (by omega)
    rw [this, e1, en]
  have h1' : (1 : Int64).toInt = 1 := rfl
  have esec : (a.sec - b.sec - 1).toInt = a.sec.toInt - b.sec.toInt - 1 := by
    have := sub_toInt (a := a.sec - b.sec) (b := 1) (by omega) (by omega)
    rw [this, es, h1']
  have e : a.subtract b = some ⟨a.sec - b.sec - 1, 1 * nanos - (a.nsec - b.nsec)⟩ := by
    unfold Timespec.subtract checkedSub
    rw [if_pos ⟨by omega, h1⟩, if_pos (by omega)]
    simp only [Option.bind_eq_bind, Option.bind_some]
    have hlt : a.nsec - b.nsec < 0 := by rw [lt_zero]; omega
    have h01 : (0 : Int64) + 1 = 1 := rfl
    simp only [if_pos hlt, hq0, h01]
    rw [if_neg]
    rw [lt_zero, esec]
    omega
  refine ⟨_, e, ?_, ?_⟩
  · simp only [hrn]; omega
  · simp only [hrn, esec]; omega

/-- C33, deadlines: if the deadline's nanoseconds are not below those of the clock, the converted deadline is exactly as
far from the monotonic clock as the deadline is from the realtime clock; a deadline that has passed is reported. -/
theorem C33_deadline_partial {now mono abs : Timespec} (hn : now.Normal) (hm : mono.Normal) (ha : abs.Normal)
    (hnow : 0 ≤ now.sec.toInt) (hmono : 0 ≤ mono.sec.toInt) (hcmp : now.nsec.toInt ≤ abs.nsec.toInt) :
    (abs.ns < now.ns → realtimeToMonotonic now mono abs = .error .etimedout)
    ∧ (now.ns ≤ abs.ns → mono.ns + (abs.ns - now.ns) < 2 ^ 63 * 10 ^ 9 →
      ∃ t, realtimeToMonotonic now mono abs = .ok t ∧ t.Normal ∧ t.ns - mono.ns = abs.ns - now.ns) := by
  have hr := range abs.sec
  obtain ⟨h1, h2⟩ := C33_subtract_partial ha hn hcmp (by omega)
  constructor
  · intro h
    unfold realtimeToMonotonic
    rw [h1 h]
  · intro h hlim
    obtain ⟨d, e1, e2, e3⟩ := h2 h
    have hd0 : 0 ≤ d.sec.toInt := by
      unfold Timespec.ns at e3 h
      unfold Timespec.Normal at e2
      omega
    obtain ⟨t, f1, f2, f3⟩ := C33_add_partial hm e2 (by omega) (by rw [e3]; exact hlim)
    refine ⟨t, ?_, f2, by omega⟩
    unfold realtimeToMonotonic
    rw [e1]
    simp only [f1]

/-- C33 fails otherwise: a deadline 0.5 s away is converted to one 1.5 s away. -/
theorem C33_deadline_violation :
    realtimeToMonotonic ⟨100, 600000000⟩ ⟨7, 0⟩ ⟨101, 100000000⟩ = .ok ⟨8, 500000000⟩
      ∧ (⟨101, 100000000⟩ : Timespec).ns - (⟨100, 600000000⟩ : Timespec).ns = 500000000
      ∧ (⟨8, 500000000⟩ : Timespec).ns - (⟨7, 0⟩ : Timespec).ns = 1500000000 := ⟨rfl, by decide, by decide⟩

-- the cases of the theorems
example : (⟨5, 700000000⟩ : Timespec).add ⟨1, 600000000⟩ = some ⟨7, 300000000⟩ := by decide
example : (⟨5, 700000000⟩ : Timespec).subtract ⟨4, 600000000⟩ = some ⟨1, 100000000⟩ := by decide
example : (⟨5, 0⟩ : Timespec).subtract ⟨4, 500000000⟩ = some ⟨0, 1500000000⟩ := by decide
example : realtimeToMonotonic ⟨100, 100000000⟩ ⟨7, 950000000⟩ ⟨101, 200000000⟩ = .ok ⟨9, 50000000⟩ := rfl

end Verif.Time
