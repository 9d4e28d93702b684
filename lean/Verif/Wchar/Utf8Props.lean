import Verif.Wchar.Utf8Model
import Verif.Stdlib.SortProps
import Verif.Stdlib.Rand48Props
/-!
# UTF-8 (C31, C32, C59, C60)
-/

namespace Verif.Wchar
open Verif.Mem Verif.Stdlib

/-! ## Specification -/

/-- The Unicode scalar values. -/
def Scalar (c : Nat) : Prop := c < 0xD800 ∨ (0xE000 ≤ c ∧ c < 0x110000)

/-- The UTF-8 encoding of a scalar value (RFC 3629), in decimal arithmetic. -/
def utf8 (c : Nat) : List UInt8 :=
  (if c < 0x80 then [c]
    else if c < 0x800 then [0xC0 + c / 64, 0x80 + c % 64]
    else if c < 0x10000 then [0xE0 + c / 4096, 0x80 + c / 64 % 64, 0x80 + c % 64]
    else [0xF0 + c / 262144, 0x80 + c / 4096 % 64, 0x80 + c / 64 % 64, 0x80 + c % 64]).map UInt8.ofNat

/-- The characters whose encoding agrees with the memory at `s` as far as the first `n` bytes go. -/
def Possible (m : Mem UInt8) (s n c : Nat) : Prop := Scalar c ∧ Bytes m s ((utf8 c).take n)

/-! ## Lemmas -/

theorem width_cases (b : UInt8) :
    charWidth b = if b.toNat < 0x80 then 1 else if b.toNat < 0xC2 then 0 else if b.toNat < 0xE0 then 2
      else if b.toNat < 0xF0 then 3 else if b.toNat < 0xF5 then 4 else 0 := by
  revert b
  exact byte_table (by decide +kernel)

theorem isCont_iff (b : UInt8) : isCont b = true ↔ 0x80 ≤ b.toNat ∧ b.toNat < 0xC0 := by
  revert b
  exact byte_table (by decide +kernel)

theorem and3F (b : UInt8) : (b &&& 0x3F).toNat = b.toNat % 64 := by
  revert b
  exact byte_table (by decide +kernel)

theorem and1F (b : UInt8) : (b &&& 0x1F).toNat = b.toNat % 32 := by
  revert b
  exact byte_table (by decide +kernel)

theorem pair3_iff (x y : UInt8) : pair3 x y = true ↔
    (x.toNat = 0xE0 ∧ 0xA0 ≤ y.toNat ∧ y.toNat ≤ 0xBF) ∨ (0xE1 ≤ x.toNat ∧ x.toNat ≤ 0xEC ∧ 0x80 ≤ y.toNat ∧ y.toNat ≤ 0xBF)
      ∨ (x.toNat = 0xED ∧ 0x80 ≤ y.toNat ∧ y.toNat ≤ 0x9F)
      ∨ (0xEE ≤ x.toNat ∧ x.toNat ≤ 0xEF ∧ 0x80 ≤ y.toNat ∧ y.toNat ≤ 0xBF) := by
  simp only [pair3, Bool.or_eq_true, Bool.and_eq_true, decide_eq_true_eq, UInt8.le_iff_toNat_le, ← UInt8.toNat_inj,
    UInt8.reduceToNat]
  omega

theorem pair4_iff (x y : UInt8) : pair4 x y = true ↔
    (x.toNat = 0xF0 ∧ 0x90 ≤ y.toNat ∧ y.toNat ≤ 0xBF) ∨ (0xF1 ≤ x.toNat ∧ x.toNat ≤ 0xF3 ∧ 0x80 ≤ y.toNat ∧ y.toNat ≤ 0xBF)
      ∨ (x.toNat = 0xF4 ∧ 0x80 ≤ y.toNat ∧ y.toNat ≤ 0x8F) := by
  simp only [pair4, Bool.or_eq_true, Bool.and_eq_true, decide_eq_true_eq, UInt8.le_iff_toNat_le, ← UInt8.toNat_inj,
    UInt8.reduceToNat]
  omega

theorem shl_toNat (c : UInt32) (k : Nat) (hk : k < 32) (h : c.toNat * 2 ^ k < 2 ^ 32) :
    (c <<< UInt32.ofNat k).toNat = c.toNat * 2 ^ k := by
  rw [UInt32.toNat_shiftLeft, UInt32.toNat_ofNat_of_lt' (by unfold UInt32.size; omega), Nat.mod_eq_of_lt hk, Nat.shiftLeft_eq,
    Nat.mod_eq_of_lt h]

theorem accCont_toNat (c : UInt32) (b : UInt8) (h : c.toNat < 2 ^ 20) :
    (accCont c b).toNat = c.toNat * 64 + b.toNat % 64 := by
  unfold accCont
  have := shl_toNat c 6 (by decide) (by omega)
  rw [UInt32.toNat_or, show (6 : UInt32) = UInt32.ofNat 6 from rfl, this, UInt8.toNat_toUInt32, and3F, Nat.or_comm,
    or_add _ _ 6 (by omega)]
  omega

theorem firstBits_toNat (x : UInt8) : (firstBits x).toNat = x.toNat % 32 := by
  unfold firstBits; rw [UInt8.toNat_toUInt32, and1F]

theorem ofNat_toNat {k : Nat} (h : k < 256) : (UInt8.ofNat k).toNat = k := UInt8.toNat_ofNat_of_lt' h

theorem eq_ofNat {b : UInt8} {k : Nat} (h : b.toNat = k) : b = UInt8.ofNat k := by
  rw [← h]; simp

/-- Values of the two-, three- and four-byte forms. -/
theorem val2 (x y : UInt8) : (accCont (firstBits x) y).toNat = x.toNat % 32 * 64 + y.toNat % 64 := by
  rw [accCont_toNat _ _ (by rw [firstBits_toNat]; omega), firstBits_toNat]

theorem val3 (x y z : UInt8) :
    ((firstBits x <<< 12) ||| accCont (y &&& 0x3F).toUInt32 z).toNat
      = x.toNat % 32 * 4096 + y.toNat % 64 * 64 + z.toNat % 64 := by
  have hy : (y &&& 0x3F).toUInt32.toNat = y.toNat % 64 := by rw [UInt8.toNat_toUInt32, and3F]
  have h1 := shl_toNat (firstBits x) 12 (by decide) (by rw [firstBits_toNat]; omega)
  rw [UInt32.toNat_or, show (12 : UInt32) = UInt32.ofNat 12 from rfl, h1, accCont_toNat _ _ (by rw [hy]; omega), hy,
    Nat.or_comm, or_add _ _ 12 (by omega), firstBits_toNat]
  omega

theorem val4 (x y z w : UInt8) :
    (((firstBits x &&& 7) <<< 18) ||| accCont (accCont (y &&& 0x3F).toUInt32 z) w).toNat
      = x.toNat % 8 * 262144 + y.toNat % 64 * 4096 + z.toNat % 64 * 64 + w.toNat % 64 := by
  have hy : (y &&& 0x3F).toUInt32.toNat = y.toNat % 64 := by rw [UInt8.toNat_toUInt32, and3F]
  have h7 : (firstBits x &&& 7).toNat = x.toNat % 8 := by
    rw [UInt32.toNat_and, firstBits_toNat, show (7 : UInt32).toNat = 2 ^ 3 - 1 from rfl, Nat.and_two_pow_sub_one_eq_mod]
    omega
  have h1 := shl_toNat (firstBits x &&& 7) 18 (by decide) (by rw [h7]; omega)
  have h2 : (accCont (y &&& 0x3F).toUInt32 z).toNat = y.toNat % 64 * 64 + z.toNat % 64 := by
    rw [accCont_toNat _ _ (by rw [hy]; omega), hy]
  rw [UInt32.toNat_or, show (18 : UInt32) = UInt32.ofNat 18 from rfl, h1, accCont_toNat _ _ (by rw [h2]; omega), h2,
    Nat.or_comm, or_add _ _ 18 (by omega), h7]
  omega

/-- The four forms, in numbers. -/
inductive Form : Nat → List Nat → Prop
  | one {c} (h : c < 0x80) : Form c [c]
  | two {c x y} (h1 : 0x80 ≤ c) (h2 : c < 0x800) (hx : x = 0xC0 + c / 64) (hy : y = 0x80 + c % 64) : Form c [x, y]
  | three {c x y z} (h1 : 0x800 ≤ c) (h2 : c < 0x10000) (hx : x = 0xE0 + c / 4096) (hy : y = 0x80 + c / 64 % 64)
    (hz : z = 0x80 + c % 64) : Form c [x, y, z]
  | four {c x y z w} (h1 : 0x10000 ≤ c) (h2 : c < 0x110000) (hx : x = 0xF0 + c / 262144) (hy : y = 0x80 + c / 4096 % 64)
    (hz : z = 0x80 + c / 64 % 64) (hw : w = 0x80 + c % 64) : Form c [x, y, z, w]

theorem utf8_form {c : Nat} (h : Scalar c) : ∃ l, Form c l ∧ utf8 c = l.map UInt8.ofNat := by
  have hc : c < 0x110000 := by unfold Scalar at h; omega
  unfold utf8
  split
  · exact ⟨_, .one ‹_›, rfl⟩
  · split
    · exact ⟨_, .two (by omega) ‹_› rfl rfl, rfl⟩
    · split
      · exact ⟨_, .three (by omega) ‹_› rfl rfl rfl, rfl⟩
      · exact ⟨_, .four (by omega) hc rfl rfl rfl rfl, rfl⟩

theorem form_utf8 {c : Nat} {l : List Nat} (h : Form c l) : utf8 c = l.map UInt8.ofNat := by
  unfold utf8
  cases h with
  | one h => rw [if_pos h]
  | two h1 h2 hx hy => subst hx hy; rw [if_neg (by omega), if_pos h2]
  | three h1 h2 hx hy hz => subst hx hy hz; rw [if_neg (by omega), if_neg (by omega), if_pos h2]
  | four h1 h2 hx hy hz hw => subst hx hy hz hw; rw [if_neg (by omega), if_neg (by omega), if_neg (by omega)]

theorem bytes1 {m : Mem UInt8} {s : Nat} {a : UInt8} : Bytes m s [a] ↔ m s = some a := by simp [Bytes]
theorem bytes2 {m : Mem UInt8} {s : Nat} {a b : UInt8} : Bytes m s [a, b] ↔ m s = some a ∧ m (s + 1) = some b := by
  simp [Bytes]
theorem bytes3 {m : Mem UInt8} {s : Nat} {a b c : UInt8} :
    Bytes m s [a, b, c] ↔ m s = some a ∧ m (s + 1) = some b ∧ m (s + 2) = some c := by simp [Bytes]
theorem bytes4 {m : Mem UInt8} {s : Nat} {a b c d : UInt8} :
    Bytes m s [a, b, c, d] ↔ m s = some a ∧ m (s + 1) = some b ∧ m (s + 2) = some c ∧ m (s + 3) = some d := by
  simp [Bytes]

theorem length_utf8 {c : Nat} : 1 ≤ (utf8 c).length ∧ (utf8 c).length ≤ 4 := by
  unfold utf8
  split
  · simp
  · split
    · simp
    · split <;> simp

/-- Every encoding is decoded. -/
theorem decode_utf8 {m : Mem UInt8} {s c : Nat} (hc : Scalar c) (h : Bytes m s (utf8 c)) :
    ∃ b, m s = some b ∧ charWidth b = (utf8 c).length ∧ ∃ v, decode m s (charWidth b) = some (some v) ∧ v.toNat = c := by
  obtain ⟨l, hf, e⟩ := utf8_form hc
  rw [e] at h ⊢
  unfold Scalar at hc
  cases hf with
  | one h1 =>
    rw [List.map_cons, List.map_nil, bytes1] at h
    have n1 := ofNat_toNat (k := c) (by omega)
    have hw : charWidth (UInt8.ofNat c) = 1 := by rw [width_cases, n1, if_pos h1]
    refine ⟨_, h, hw, (UInt8.ofNat c).toUInt32, ?_, ?_⟩
    · rw [hw]
      unfold decode
      rw [h]
      simp only [Option.bind_eq_bind, Option.bind_some, if_true]
      rw [if_pos]
      rw [UInt8.lt_iff_toNat_lt, n1]
      exact h1
    · rw [UInt8.toNat_toUInt32, n1]
  | @two x y h1 h2 hx hy =>
    rw [List.map_cons, List.map_cons, List.map_nil, bytes2] at h
    have n1 := ofNat_toNat (k := x) (by omega)
    have n2 := ofNat_toNat (k := y) (by omega)
    have hw : charWidth (UInt8.ofNat x) = 2 := by
      rw [width_cases, n1, if_neg (by omega), if_neg (by omega), if_pos (by omega)]
    refine ⟨_, h.1, hw, accCont (firstBits (UInt8.ofNat x)) (UInt8.ofNat y), ?_, ?_⟩
    · rw [hw]
      unfold decode
      rw [h.1]
      simp only [Option.bind_eq_bind, Option.bind_some, h.2, if_true]
      rw [if_neg (by decide), if_pos ((isCont_iff _).2 (by rw [n2]; omega))]
    · rw [val2, n1, n2]; omega
  | @three x y z h1 h2 hx hy hz =>
    rw [List.map_cons, List.map_cons, List.map_cons, List.map_nil, bytes3] at h
    have n1 := ofNat_toNat (k := x) (by omega)
    have n2 := ofNat_toNat (k := y) (by omega)
    have n3 := ofNat_toNat (k := z) (by omega)
    have hw : charWidth (UInt8.ofNat x) = 3 := by
      rw [width_cases, n1, if_neg (by omega), if_neg (by omega), if_neg (by omega), if_pos (by omega)]
    refine ⟨_, h.1, hw, (firstBits (UInt8.ofNat x) <<< 12) ||| accCont (UInt8.ofNat y &&& 0x3F).toUInt32 (UInt8.ofNat z), ?_, ?_⟩
    · rw [hw]
      unfold decode
      rw [h.1]
      simp only [Option.bind_eq_bind, Option.bind_some, h.2.1, h.2.2, if_true]
      rw [if_neg (by decide), if_neg (by decide), if_pos ((pair3_iff _ _).2 (by rw [n1, n2]; omega)),
        if_pos ((isCont_iff _).2 (by rw [n3]; omega))]
    · rw [val3, n1, n2, n3]; omega
  | @four x y z w h1 h2 hx hy hz hw' =>
    rw [List.map_cons, List.map_cons, List.map_cons, List.map_cons, List.map_nil, bytes4] at h
    have n1 := ofNat_toNat (k := x) (by omega)
    have n2 := ofNat_toNat (k := y) (by omega)
    have n3 := ofNat_toNat (k := z) (by omega)
    have n4 := ofNat_toNat (k := w) (by omega)
    have hw : charWidth (UInt8.ofNat x) = 4 := by
      rw [width_cases, n1, if_neg (by omega), if_neg (by omega), if_neg (by omega), if_neg (by omega), if_pos (by omega)]
    refine ⟨_, h.1, hw, ((firstBits (UInt8.ofNat x) &&& 7) <<< 18)
      ||| accCont (accCont (UInt8.ofNat y &&& 0x3F).toUInt32 (UInt8.ofNat z)) (UInt8.ofNat w), ?_, ?_⟩
    · rw [hw]
      unfold decode
      rw [h.1]
      simp only [Option.bind_eq_bind, Option.bind_some, h.2.1, h.2.2.1, h.2.2.2]
      rw [if_neg (by decide), if_neg (by decide), if_neg (by decide), if_pos ((pair4_iff _ _).2 (by rw [n1, n2]; omega)),
        if_pos ((isCont_iff _).2 (by rw [n3]; omega)), if_pos ((isCont_iff _).2 (by rw [n4]; omega))]
    · rw [val4, n1, n2, n3, n4]; omega

/-- Whatever is decoded is an encoding. -/
theorem decode_sound {m : Mem UInt8} {s : Nat} {b : UInt8} {v : UInt32} (hb : m s = some b) (hw : charWidth b ≠ 0)
    (h : decode m s (charWidth b) = some (some v)) :
    Scalar v.toNat ∧ Bytes m s (utf8 v.toNat) ∧ (utf8 v.toNat).length = charWidth b := by
  have hwc := width_cases b
  unfold decode at h
  rw [hb] at h
  simp only [Option.bind_eq_bind, Option.bind_some] at h
  by_cases h1 : b.toNat < 0x80
  · rw [if_pos h1] at hwc
    rw [hwc, if_pos rfl, if_pos (by rw [UInt8.lt_iff_toNat_lt]; exact h1)] at h
    simp only [Option.some.injEq] at h
    have hv : v.toNat = b.toNat := by rw [← h, UInt8.toNat_toUInt32]
    have hf : Form v.toNat [b.toNat] := by rw [hv]; exact .one h1
    rw [form_utf8 hf, hwc]
    refine ⟨by unfold Scalar; omega, ?_, rfl⟩
    rw [List.map_cons, List.map_nil, bytes1, hb, ← eq_ofNat rfl]
  · rw [if_neg h1] at hwc
    by_cases h2 : b.toNat < 0xC2
    · rw [if_pos h2] at hwc; exact absurd hwc hw
    · rw [if_neg h2] at hwc
      have hne : charWidth b ≠ 1 := by
        rw [hwc]; split
        · decide
        · split
          · decide
          · split <;> decide
      rw [if_neg hne] at h
      cases hy : m (s + 1) with
      | none => rw [hy] at h; simp at h
      | some y =>
        rw [hy] at h
        simp only [Option.bind_some] at h
        by_cases h3 : b.toNat < 0xE0
        · rw [if_pos h3] at hwc
          rw [if_pos hwc] at h
          by_cases hcy : isCont y = true
          · rw [if_pos hcy] at h
            simp only [Option.some.injEq] at h
            rw [isCont_iff] at hcy
            have hv : v.toNat = b.toNat % 32 * 64 + y.toNat % 64 := by rw [← h, val2]
            have hf : Form v.toNat [b.toNat, y.toNat] := .two (by omega) (by omega) (by omega) (by omega)
            rw [form_utf8 hf, hwc]
            refine ⟨by unfold Scalar; omega, ?_, rfl⟩
            rw [List.map_cons, List.map_cons, List.map_nil, bytes2, hb, hy, ← eq_ofNat rfl, ← eq_ofNat rfl]
            exact ⟨rfl, rfl⟩
          · rw [if_neg hcy] at h; simp at h
        · rw [if_neg h3] at hwc
          by_cases h4 : b.toNat < 0xF0
          · rw [if_pos h4] at hwc
            rw [if_neg (by omega), if_pos hwc] at h
            by_cases hp : pair3 b y = true
            · rw [if_pos hp] at h
              rw [pair3_iff] at hp
              cases hz : m (s + 2) with
              | none => rw [hz] at h; simp at h
              | some z =>
                rw [hz] at h
                simp only [Option.bind_some] at h
                by_cases hcz : isCont z = true
                · rw [if_pos hcz] at h
                  simp only [Option.some.injEq] at h
                  rw [isCont_iff] at hcz
                  have hv : v.toNat = b.toNat % 32 * 4096 + y.toNat % 64 * 64 + z.toNat % 64 := by rw [← h, val3]
                  have hf : Form v.toNat [b.toNat, y.toNat, z.toNat] :=
                    .three (by omega) (by omega) (by omega) (by omega) (by omega)
                  rw [form_utf8 hf, hwc]
                  refine ⟨by unfold Scalar; omega, ?_, rfl⟩
                  rw [List.map_cons, List.map_cons, List.map_cons, List.map_nil, bytes3, hb, hy, hz, ← eq_ofNat rfl,
                    ← eq_ofNat rfl, ← eq_ofNat rfl]
                  exact ⟨rfl, rfl, rfl⟩
                · rw [if_neg hcz] at h; simp at h
            · rw [if_neg hp] at h; simp at h
          · rw [if_neg h4] at hwc
            by_cases h5 : b.toNat < 0xF5
            · rw [if_pos h5] at hwc
              rw [if_neg (by omega), if_neg (by omega)] at h
              by_cases hp : pair4 b y = true
              · rw [if_pos hp] at h
                rw [pair4_iff] at hp
                cases hz : m (s + 2) with
                | none => rw [hz] at h; simp at h
                | some z =>
                  rw [hz] at h
                  simp only [Option.bind_some] at h
                  by_cases hcz : isCont z = true
                  · rw [if_pos hcz] at h
                    rw [isCont_iff] at hcz
                    cases hw4 : m (s + 3) with
                    | none => rw [hw4] at h; simp at h
                    | some w =>
                      rw [hw4] at h
                      simp only [Option.bind_some] at h
                      by_cases hcw : isCont w = true
                      · rw [if_pos hcw] at h
                        simp only [Option.some.injEq] at h
                        rw [isCont_iff] at hcw
                        have hv : v.toNat = b.toNat % 8 * 262144 + y.toNat % 64 * 4096 + z.toNat % 64 * 64 + w.toNat % 64 := by
                          rw [← h, val4]
                        have hf : Form v.toNat [b.toNat, y.toNat, z.toNat, w.toNat] :=
                          .four (by omega) (by omega) (by omega) (by omega) (by omega) (by omega)
                        rw [form_utf8 hf, hwc]
                        refine ⟨by unfold Scalar; omega, ?_, rfl⟩
                        rw [List.map_cons, List.map_cons, List.map_cons, List.map_cons, List.map_nil, bytes4, hb, hy, hz,
                          hw4, ← eq_ofNat rfl, ← eq_ofNat rfl, ← eq_ofNat rfl, ← eq_ofNat rfl]
                        exact ⟨rfl, rfl, rfl, rfl⟩
                      · rw [if_neg hcw] at h; simp at h
                  · rw [if_neg hcz] at h; simp at h
              · rw [if_neg hp] at h; simp at h
            · rw [if_neg h5] at hwc; exact absurd hwc hw

theorem utf8_head {c : Nat} (hc : Scalar c) : ∃ b t, utf8 c = b :: t ∧ charWidth b = (utf8 c).length := by
  have hb : Bytes (ofList 0 (utf8 c)) 0 (utf8 c) := bytes_ofList 0 _
  obtain ⟨b, h1, h2, -⟩ := decode_utf8 hc hb
  have hl := (length_utf8 (c := c)).1
  cases e : utf8 c with
  | nil => rw [e] at hl; simp at hl
  | cons a t =>
    rw [e] at hb
    have : (ofList 0 (utf8 c)) 0 = some a := by rw [e]; exact hb.1
    rw [h1] at this
    obtain rfl := Option.some.inj this
    exact ⟨b, t, rfl, by rw [← e]; exact h2⟩

theorem decode_total {m : Mem UInt8} {s size : Nat} (h : Mapped m s size) (h1 : 1 ≤ size) (h4 : size ≤ 4) :
    ∃ r, decode m s size = some r := by
  obtain ⟨x, hx⟩ := Option.isSome_iff_exists.1 (h 0 (by omega))
  rw [Nat.add_zero] at hx
  unfold decode
  rw [hx]
  simp only [Option.bind_eq_bind, Option.bind_some]
  split
  · exact ⟨_, rfl⟩
  · obtain ⟨y, hy⟩ := Option.isSome_iff_exists.1 (h 1 (by omega))
    rw [hy]
    simp only [Option.bind_some]
    split
    · exact ⟨_, rfl⟩
    · obtain ⟨z, hz⟩ := Option.isSome_iff_exists.1 (h 2 (by omega))
      rw [hz]
      simp only [Option.bind_some]
      split
      · split <;> exact ⟨_, rfl⟩
      · obtain ⟨w, hw⟩ := Option.isSome_iff_exists.1 (h 3 (by omega))
        rw [hw]
        simp only [Option.bind_some]
        split
        · split <;> exact ⟨_, rfl⟩
        · exact ⟨_, rfl⟩

theorem toInt32_toInt (v : UInt32) (h : v.toNat < 2 ^ 31) : v.toInt32.toInt = v.toNat := by
  show v.toBitVec.toInt = v.toBitVec.toNat
  exact BitVec.toInt_eq_toNat_of_lt (by show 2 * v.toNat < 2 ^ 32; omega)

theorem toInt_toUInt32 {wc : Int32} {c : Nat} (h : wc.toInt = c) : wc.toUInt32.toNat = c := by
  have h' : wc.toBitVec.toInt = c := h
  show wc.toBitVec.toNat = c
  rw [BitVec.toInt_eq_toNat_cond] at h'
  have := wc.toBitVec.isLt
  split at h' <;> omega

theorem toUInt32_toInt {wc : Int32} (h : wc.toUInt32.toNat < 2 ^ 31) : wc.toInt = wc.toUInt32.toNat := by
  show wc.toBitVec.toInt = wc.toBitVec.toNat
  exact BitVec.toInt_eq_toNat_of_lt (by show 2 * wc.toUInt32.toNat < 2 ^ 32; omega)

theorem Scalar.lt {c : Nat} (h : Scalar c) : c < 0x110000 := by unfold Scalar at h; omega

/-! ## C32 -/

/-- What `mbrtowc` may report for the first `n` bytes at `s`. -/
inductive MbrtowcSpec (m : Mem UInt8) (s n : Nat) (r : UInt64) (wc : Option Int32) : Prop
  /-- A character `c`: the bytes start with its encoding. -/
  | char (c : Nat) (w : Int32) (hc : Scalar c) (enc : Bytes m s (utf8 c)) (fits : (utf8 c).length ≤ n) (hw : wc = some w)
    (val : w.toInt = c) (ret : r.toNat = if c = 0 then 0 else (utf8 c).length)
  /-- `(size_t)-1`: no character's encoding begins like this. -/
  | invalid (hr : r = sizeMax) (hw : wc = none) (no : ∀ c, ¬ Possible m s n c)
  /-- `(size_t)-2`: no character's encoding is complete within `n` bytes. -/
  | incomplete (hr : r = sizeMax1) (hw : wc = none) (no : ∀ c, Scalar c → Bytes m s (utf8 c) → n < (utf8 c).length)

/-- C32: whenever `mbrtowc` reports a character, the bytes are that character's encoding; `(size_t)-1` is reported only
if no character is possible, `(size_t)-2` only if none is complete. It reads no more than the first `n` bytes
(and the first one, if `n` is 0). -/
theorem C32_mbrtowc {m : Mem UInt8} {s : Nat} {n : UInt64} (hm : Mapped m s (max n.toNat 1)) :
    ∃ r wc, mbrtowc m s n = some (r, wc) ∧ (n ≠ 0 → MbrtowcSpec m s n.toNat r wc) := by
  obtain ⟨b, hb⟩ := Option.isSome_iff_exists.1 (hm 0 (by omega))
  rw [Nat.add_zero] at hb
  unfold mbrtowc
  rw [hb]
  simp only [Option.bind_eq_bind, Option.bind_some]
  have head : ∀ c n, Scalar c → Bytes m s ((utf8 c).take n) → 1 ≤ n → (utf8 c).length = charWidth b := by
    intro c n hc hbc hn
    obtain ⟨b', t, e1, e2⟩ := utf8_head hc
    rw [e1] at hbc
    obtain ⟨k, rfl⟩ : ∃ k, n = k + 1 := ⟨n - 1, by omega⟩
    rw [List.take_succ_cons] at hbc
    have := hbc.1
    rw [hb] at this
    obtain rfl := Option.some.inj this
    exact e2.symm
  have hpos : n ≠ 0 → 1 ≤ n.toNat := fun h0 => by
    have : n.toNat ≠ 0 := fun h => h0 (UInt64.toNat.inj h)
    omega
  by_cases h1 : charWidth b > n.toNat
  · rw [if_pos h1]
    refine ⟨_, _, rfl, fun h0 => .incomplete rfl rfl fun c hc hbc => ?_⟩
    have := head c 4 hc (by rw [List.take_of_length_le length_utf8.2]; exact hbc) (by decide)
    omega
  · rw [if_neg h1]
    by_cases h2 : charWidth b = 0
    · rw [if_pos h2]
      refine ⟨_, _, rfl, fun h0 => .invalid rfl rfl fun c hp => ?_⟩
      have := head c n.toNat hp.1 hp.2 (hpos h0)
      have := (length_utf8 (c := c)).1
      omega
    · rw [if_neg h2]
      have hw4 : charWidth b ≤ 4 := by
        rw [width_cases]; repeat' split
        all_goals omega
      obtain ⟨d, hd⟩ := decode_total (m := m) (s := s) (size := charWidth b) (hm.mono (by omega)) (by omega) hw4
      rw [hd]
      simp only [Option.bind_some]
      cases d with
      | none =>
        refine ⟨_, _, rfl, fun h0 => .invalid rfl rfl fun c hp => ?_⟩
        have hl := head c n.toNat hp.1 hp.2 (hpos h0)
        have hbc := hp.2
        rw [List.take_of_length_le (by omega)] at hbc
        obtain ⟨b', e1, -, v, e2, -⟩ := decode_utf8 hp.1 hbc
        rw [hb] at e1
        obtain rfl := Option.some.inj e1
        rw [hd] at e2
        simp at e2
      | some v =>
        obtain ⟨s1, s2, s3⟩ := decode_sound hb h2 hd
        refine ⟨_, _, rfl, fun h0 => .char v.toNat v.toInt32 s1 s2 (by omega) rfl (toInt32_toInt v ?_) ?_⟩
        · have := s1.lt; omega
        · have h00 : v = 0 ↔ v.toNat = 0 := ⟨fun h => by rw [h]; rfl, fun h => UInt32.toNat.inj h⟩
          by_cases hv : v = 0
          · rw [if_pos (h00.1 hv), hv]; rfl
          · rw [if_neg (fun h => hv (h00.2 h)), if_pos hv, s3, UInt64.toNat_ofNat_of_lt' (by unfold UInt64.size; omega)]

/-- C32: the encoding at an address is unique. -/
theorem C32_unique {m : Mem UInt8} {s c d : Nat} (hc : Scalar c) (hd : Scalar d) (h1 : Bytes m s (utf8 c))
    (h2 : Bytes m s (utf8 d)) : c = d := by
  obtain ⟨b, e1, -, v, e2, e3⟩ := decode_utf8 hc h1
  obtain ⟨b', e1', -, v', e2', e3'⟩ := decode_utf8 hd h2
  rw [e1] at e1'
  obtain rfl := Option.some.inj e1'
  rw [e2] at e2'
  simp only [Option.some.injEq] at e2'
  rw [← e3, ← e3', e2']

/-! ## C31 -/

theorem encode_eq (c : UInt32) (h : c.toNat < 0x110000) : encode c = utf8 c.toNat := by
  have l1 : ∀ k : UInt32, c < k ↔ c.toNat < k.toNat := fun k => UInt32.lt_iff_toNat_lt
  have m1 : ∀ k : Nat, k &&& 0x3F = k % 2 ^ 6 := fun k => Nat.and_two_pow_sub_one_eq_mod k 6
  have m2 : ∀ k : Nat, k &&& 0x1F = k % 2 ^ 5 := fun k => Nat.and_two_pow_sub_one_eq_mod k 5
  have m3 : ∀ k : Nat, k &&& 0x0F = k % 2 ^ 4 := fun k => Nat.and_two_pow_sub_one_eq_mod k 4
  have m4 : ∀ k : Nat, k &&& 0x07 = k % 2 ^ 3 := fun k => Nat.and_two_pow_sub_one_eq_mod k 3
  have o1 : ∀ k : Nat, k < 2 ^ 6 → k ||| 0x80 = 0x80 + k := fun k hk => by
    exact (or_add k 2 6 hk).trans (by omega)
  have o2 : ∀ k : Nat, k < 2 ^ 5 → k ||| 0xC0 = 0xC0 + k := fun k hk => by
    exact (or_add k 6 5 hk).trans (by omega)
  have o3 : ∀ k : Nat, k < 2 ^ 4 → k ||| 0xE0 = 0xE0 + k := fun k hk => by
    exact (or_add k 14 4 hk).trans (by omega)
  have o4 : ∀ k : Nat, k < 2 ^ 3 → k ||| 0xF0 = 0xF0 + k := fun k hk => by
    exact (or_add k 30 3 hk).trans (by omega)
  unfold encode utf8
  simp only [l1, UInt32.reduceToNat]
  by_cases h1 : c.toNat < 0x80
  · rw [if_pos h1, if_pos h1]
    simp only [List.map_cons, List.map_nil, List.cons.injEq, and_true]
    exact eq_ofNat (by rw [UInt32.toNat_toUInt8]; omega)
  · rw [if_neg h1, if_neg h1]
    by_cases h2 : c.toNat < 0x800
    · rw [if_pos h2, if_pos h2]
      simp only [List.map_cons, List.map_nil, List.cons.injEq, and_true]
      refine ⟨eq_ofNat ?_, eq_ofNat ?_⟩
      · rw [UInt8.toNat_or, UInt32.toNat_toUInt8, UInt32.toNat_and, UInt32.toNat_shiftRight, Nat.shiftRight_eq_div_pow]
        simp only [UInt32.reduceToNat, UInt8.reduceToNat, Nat.reduceMod, m2]
        rw [o2 _ (by omega)]; omega
      · rw [UInt8.toNat_or, UInt32.toNat_toUInt8, UInt32.toNat_and]
        simp only [UInt32.reduceToNat, UInt8.reduceToNat, m1]
        rw [o1 _ (by omega)]; omega
    · rw [if_neg h2, if_neg h2]
      by_cases h3 : c.toNat < 0x10000
      · rw [if_pos h3, if_pos h3]
        simp only [List.map_cons, List.map_nil, List.cons.injEq, and_true]
        refine ⟨eq_ofNat ?_, eq_ofNat ?_, eq_ofNat ?_⟩
        · rw [UInt8.toNat_or, UInt32.toNat_toUInt8, UInt32.toNat_and, UInt32.toNat_shiftRight, Nat.shiftRight_eq_div_pow]
          simp only [UInt32.reduceToNat, UInt8.reduceToNat, Nat.reduceMod, m3]
          rw [o3 _ (by omega)]; omega
        · rw [UInt8.toNat_or, UInt32.toNat_toUInt8, UInt32.toNat_and, UInt32.toNat_shiftRight, Nat.shiftRight_eq_div_pow]
          simp only [UInt32.reduceToNat, UInt8.reduceToNat, Nat.reduceMod, m1]
          rw [o1 _ (by omega)]; omega
        · rw [UInt8.toNat_or, UInt32.toNat_toUInt8, UInt32.toNat_and]
          simp only [UInt32.reduceToNat, UInt8.reduceToNat, m1]
          rw [o1 _ (by omega)]; omega
      · rw [if_neg h3, if_neg h3]
        simp only [List.map_cons, List.map_nil, List.cons.injEq, and_true]
        refine ⟨eq_ofNat ?_, eq_ofNat ?_, eq_ofNat ?_, eq_ofNat ?_⟩
        · rw [UInt8.toNat_or, UInt32.toNat_toUInt8, UInt32.toNat_and, UInt32.toNat_shiftRight, Nat.shiftRight_eq_div_pow]
          simp only [UInt32.reduceToNat, UInt8.reduceToNat, Nat.reduceMod, m4]
          rw [o4 _ (by omega)]; omega
        · rw [UInt8.toNat_or, UInt32.toNat_toUInt8, UInt32.toNat_and, UInt32.toNat_shiftRight, Nat.shiftRight_eq_div_pow]
          simp only [UInt32.reduceToNat, UInt8.reduceToNat, Nat.reduceMod, m1]
          rw [o1 _ (by omega)]; omega
        · rw [UInt8.toNat_or, UInt32.toNat_toUInt8, UInt32.toNat_and, UInt32.toNat_shiftRight, Nat.shiftRight_eq_div_pow]
          simp only [UInt32.reduceToNat, UInt8.reduceToNat, Nat.reduceMod, m1]
          rw [o1 _ (by omega)]; omega
        · rw [UInt8.toNat_or, UInt32.toNat_toUInt8, UInt32.toNat_and]
          simp only [UInt32.reduceToNat, UInt8.reduceToNat, m1]
          rw [o1 _ (by omega)]; omega

theorem isChar_iff (c : UInt32) : isChar c = true ↔ Scalar c.toNat := by
  unfold isChar Scalar
  simp only [Bool.or_eq_true, Bool.and_eq_true, decide_eq_true_eq, UInt32.lt_iff_toNat_lt, UInt32.le_iff_toNat_le,
    UInt32.reduceToNat]

/-- C31, encoding: for a scalar value `wcrtomb` writes its UTF-8 encoding, and nothing else, and returns its length. -/
theorem C31_wcrtomb {m : Mem UInt8} {s c : Nat} {wc : Int32} (hc : Scalar c) (hwc : wc.toInt = c)
    (hm : Mapped m s (utf8 c).length) :
    ∃ r, wcrtomb m s wc = some (r, patch m s (utf8 c)) ∧ r.toNat = (utf8 c).length := by
  have e := toInt_toUInt32 hwc
  have he : encode wc.toUInt32 = utf8 c := by rw [encode_eq _ (by rw [e]; exact hc.lt), e]
  refine ⟨UInt64.ofNat (utf8 c).length, ?_, ?_⟩
  · unfold wcrtomb
    simp only [he]
    rw [if_pos ((isChar_iff _).2 (by rw [e]; exact hc)), writeN_eq hm]
    rfl
  · rw [UInt64.toNat_ofNat_of_lt' (by have := (length_utf8 (c := c)).2; unfold UInt64.size; omega)]

/-- C31: everything else is refused, nothing is written. -/
theorem C31_wcrtomb_invalid (m : Mem UInt8) (s : Nat) {wc : Int32} (h : ¬ ∃ c : Nat, Scalar c ∧ wc.toInt = c) :
    wcrtomb m s wc = some (sizeMax, m) := by
  unfold wcrtomb
  rw [if_neg]
  intro hc
  rw [isChar_iff] at hc
  exact h ⟨_, hc, toUInt32_toInt (by have := hc.lt; omega)⟩

/-- C31, decoding: `mbrtowc` on an encoding, given enough bytes, returns the character and the length of its encoding
(0 for the null character). It reads only the bytes of the encoding. -/
theorem C31_mbrtowc {m : Mem UInt8} {s c : Nat} {n : UInt64} (hc : Scalar c) (hb : Bytes m s (utf8 c))
    (hn : (utf8 c).length ≤ n.toNat) :
    ∃ r w, mbrtowc m s n = some (r, some w) ∧ w.toInt = c ∧ r.toNat = if c = 0 then 0 else (utf8 c).length := by
  obtain ⟨b, e1, e2, v, e3, e4⟩ := decode_utf8 hc hb
  have hl := length_utf8 (c := c)
  refine ⟨if v ≠ 0 then UInt64.ofNat (charWidth b) else 0, v.toInt32, ?_, ?_, ?_⟩
  · unfold mbrtowc
    rw [e1]
    simp only [Option.bind_eq_bind, Option.bind_some]
    rw [if_neg (by omega), if_neg (by omega), e3]
    rfl
  · rw [toInt32_toInt v (by have := hc.lt; omega), e4]
  · have h00 : v = 0 ↔ c = 0 := ⟨fun h => by rw [← e4, h]; rfl, fun h => UInt32.toNat.inj (by rw [e4, h]; rfl)⟩
    by_cases hv : v = 0
    · rw [if_pos (h00.1 hv), hv]; rfl
    · rw [if_neg (fun h => hv (h00.2 h)), if_pos hv, e2, UInt64.toNat_ofNat_of_lt' (by unfold UInt64.size; omega)]

/-- C31, both: what `wcrtomb` wrote, `mbrtowc` reads back. -/
theorem C31_round_trip {m : Mem UInt8} {s c : Nat} {wc : Int32} (hc : Scalar c) (hwc : wc.toInt = c)
    (hm : Mapped m s (utf8 c).length) :
    ∃ r m', wcrtomb m s wc = some (r, m') ∧ ∀ n : UInt64, r ≤ n →
      mbrtowc m' s n = some (if wc = 0 then 0 else r, some wc) := by
  obtain ⟨r, e1, e2⟩ := C31_wcrtomb hc hwc hm
  refine ⟨r, _, e1, fun n hn => ?_⟩
  obtain ⟨r', w, f1, f2, f3⟩ := C31_mbrtowc (n := n) hc (bytes_patch m s (utf8 c))
    (by rw [← e2]; exact UInt64.le_iff_toNat_le.1 hn)
  have hw : w = wc := Int32.toInt_inj.1 (by rw [f2, hwc])
  subst hw
  rw [f1]
  congr 2
  apply UInt64.toNat.inj
  have h00 : w = 0 ↔ c = 0 := by
    rw [← Int32.toInt_inj, hwc, show (0 : Int32).toInt = 0 from rfl]
    omega
  rw [f3]
  by_cases h0 : c = 0
  · rw [if_pos h0, if_pos (h00.2 h0)]; rfl
  · rw [if_neg h0, if_neg (fun h => h0 (h00.1 h)), e2]

-- the euro sign
example : utf8 0x20AC = [0xE2, 0x82, 0xAC] := by decide
-- an overlong form, a surrogate, a value that is too large, a bad continuation byte
example : mbrtowc (ofList 5 [0xC0, 0x80]) 5 2 = some (sizeMax, none) := by decide +kernel
example : mbrtowc (ofList 5 [0xED, 0xA0, 0x80]) 5 3 = some (sizeMax, none) := by decide +kernel
example : mbrtowc (ofList 5 [0xF4, 0x90, 0x80, 0x80]) 5 4 = some (sizeMax, none) := by decide +kernel
example : mbrtowc (ofList 5 [0xE2, 0x82, 0x41]) 5 3 = some (sizeMax, none) := by decide +kernel
example : mbrtowc (ofList 5 [0xE2, 0x82, 0xAC]) 5 6 = some (3, some 0x20AC) := by decide +kernel

end Verif.Wchar
