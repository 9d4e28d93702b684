import Verif.Net.InetModel
import Verif.Net.EndianProps
import Verif.Str.StrLemmas
import Verif.Stdio.SnprintfProps
import Verif.Stdio.PrintfConv
import Verif.Path.LibgenProps
/-!
# IPv4 addresses as text (C41)
-/

namespace Verif.Net
open Verif.Mem Verif.Stdlib

/-! ## Specification -/

/-- `b` is the digit `d` of base `base`. -/
def Digit (base : Nat) (b : UInt8) (d : Nat) : Prop :=
  d < base ∧ (d < 10 ∧ b.toNat = 0x30 + d ∨ 10 ≤ d ∧ (b.toNat = 0x61 + (d - 10) ∨ b.toNat = 0x41 + (d - 10)))

/-- `s` consists of digits, at least one, and has the value `v`. -/
inductive Numeral (base : Nat) : List UInt8 → Nat → Prop
  | one {b : UInt8} {d : Nat} : Digit base b d → Numeral base [b] d
  | snoc {s : List UInt8} {v : Nat} {b : UInt8} {d : Nat} :
      Numeral base s v → Digit base b d → Numeral base (s ++ [b]) (v * base + d)

/-- `s` is a number as in C: hexadecimal with `0x` in front, octal with `0`, otherwise decimal. -/
def CNumber (s : List UInt8) (v : Nat) : Prop :=
  (s.head? ≠ some 0x30 ∨ s = [0x30]) ∧ Numeral 10 s v
  ∨ (∃ t, s = 0x30 :: t ∧ Numeral 8 t v)
  ∨ (∃ t, (s = 0x30 :: 0x78 :: t ∨ s = 0x30 :: 0x58 :: t) ∧ Numeral 16 t v)

/-- The address in the forms a, a.b, a.b.c, a.b.c.d: the last number fills the remaining bytes. -/
def classful : List Nat → Option Nat
  | [a] => if a < 2 ^ 32 then some a else none
  | [a, b] => if a < 256 ∧ b < 2 ^ 24 then some (a * 2 ^ 24 + b) else none
  | [a, b, c] => if a < 256 ∧ b < 256 ∧ c < 2 ^ 16 then some (a * 2 ^ 24 + b * 2 ^ 16 + c) else none
  | [a, b, c, d] =>
    if a < 256 ∧ b < 256 ∧ c < 256 ∧ d < 256 then some (a * 2 ^ 24 + b * 2 ^ 16 + c * 2 ^ 8 + d) else none
  | _ => none

/-- `s` is the text of the address `a`, in any of the forms. -/
def Address (s : List UInt8) (a : Nat) : Prop :=
  ∃ l : List (List UInt8 × Nat), s = List.intercalate [0x2E] (l.map (·.1)) ∧ (∀ x ∈ l, CNumber x.1 x.2)
    ∧ classful (l.map (·.2)) = some a

/-- An octet of a dotted quad: one to three decimal digits, at most 255. -/
def Octet (s : List UInt8) (v : Nat) : Prop := Numeral 10 s v ∧ s.length ≤ 3 ∧ v ≤ 255

/-- `s` is the dotted quad `a.b.c.d`. -/
def Quad (s : List UInt8) (a b c d : Nat) : Prop :=
  ∃ wa wb wc wd, s = wa ++ [0x2E] ++ wb ++ [0x2E] ++ wc ++ [0x2E] ++ wd
    ∧ Octet wa a ∧ Octet wb b ∧ Octet wc c ∧ Octet wd d

/-- The four bytes of an address in network order. -/
def netBytes (a : Nat) : List UInt8 :=
  [UInt8.ofNat (a / 2 ^ 24), UInt8.ofNat (a / 2 ^ 16), UInt8.ofNat (a / 2 ^ 8), UInt8.ofNat a]

/-! ## Numbers -/

theorem toDigit_iff {base : Nat} (hb : base ≤ 36) {b : UInt8} {d : Nat} : toDigit base b = some d ↔ Digit base b d := by
  unfold toDigit Digit
  simp only [UInt8.le_iff_toNat_le]
  have := b.toNat_lt
  simp only [show (0x30 : UInt8).toNat = 0x30 from rfl, show (0x39 : UInt8).toNat = 0x39 from rfl,
    show (0x61 : UInt8).toNat = 0x61 from rfl, show (0x7A : UInt8).toNat = 0x7A from rfl,
    show (0x41 : UInt8).toNat = 0x41 from rfl, show (0x5A : UInt8).toNat = 0x5A from rfl]
  generalize b.toNat = n at *
  repeat' split
  all_goals simp only [Option.some.injEq, reduceCtorEq, false_iff]
  all_goals omega

theorem acc_snoc (bits radix r : Nat) (s : List UInt8) (b : UInt8) :
    accDigits bits radix r (s ++ [b]) = (accDigits bits radix r s).bind fun v => accDigits bits radix v [b] := by
  induction s generalizing r with
  | nil => rfl
  | cons c t ih =>
    simp only [List.cons_append, accDigits, Option.bind_eq_bind]
    cases toDigit radix c with
    | none => rfl
    | some d =>
      simp only [Option.bind_some]
      split
      · rw [ih]
        rfl
      · rfl

theorem acc_one {bits radix r : Nat} (hb : radix ≤ 36) {b : UInt8} {v : Nat} :
    accDigits bits radix r [b] = some v ↔ ∃ d, Digit radix b d ∧ v = r * radix + d ∧ v < 2 ^ bits := by
  simp only [accDigits, Option.bind_eq_bind]
  cases h : toDigit radix b with
  | none =>
    simp only [Option.bind_none, reduceCtorEq, false_iff]
    rintro ⟨d, h1, _⟩
    rw [(toDigit_iff hb).2 h1] at h
    cases h
  | some d =>
    simp only [Option.bind_some]
    constructor
    · intro e
      split at e
      · cases e
        exact ⟨d, (toDigit_iff hb).1 h, rfl, by assumption⟩
      · cases e
    · rintro ⟨d', h1, rfl, h3⟩
      have := (toDigit_iff hb).2 h1
      rw [h] at this
      cases this
      rw [if_pos h3]

theorem acc_iff {bits radix : Nat} (h0 : 0 < radix) (hb : radix ≤ 36) {s : List UInt8} (hs : s ≠ []) {v : Nat} :
    accDigits bits radix 0 s = some v ↔ Numeral radix s v ∧ v < 2 ^ bits := by
  induction s using Path.snocRec generalizing v with
  | nil => exact absurd rfl hs
  | append s b ih =>
    by_cases hz : s = []
    · subst hz
      rw [List.nil_append, acc_one hb]
      constructor
      · rintro ⟨d, h1, h2, h3⟩
        rw [Nat.zero_mul, Nat.zero_add] at h2
        subst h2
        exact ⟨.one h1, h3⟩
      · rintro ⟨h1, h2⟩
        generalize hl : ([b] : List UInt8) = l at h1
        cases h1 with
        | one h =>
          cases hl
          exact ⟨v, h, by omega, h2⟩
        | @snoc s' w b' d h1 h =>
          exfalso
          have := congrArg List.length hl
          simp only [List.length_append, List.length_cons, List.length_nil] at this
          have hz : s' = [] := List.length_eq_zero_iff.1 (by omega)
          generalize hl' : s' = l at h1
          cases h1 <;> simp [hz] at hl'
    · rw [acc_snoc]
      constructor
      · intro e
        cases h1 : accDigits bits radix 0 s with
        | none =>
          rw [h1] at e
          cases e
        | some w =>
          rw [h1, Option.bind_some, acc_one hb] at e
          obtain ⟨d, e1, rfl, e3⟩ := e
          exact ⟨.snoc ((ih hz).1 h1).1 e1, e3⟩
      · rintro ⟨h1, h2⟩
        generalize hl : s ++ [b] = l at h1
        cases h1 with
        | one h =>
          exfalso
          have := congrArg List.length hl
          simp only [List.length_append, List.length_cons, List.length_nil] at this
          exact hz (List.length_eq_zero_iff.1 (by omega))
        | @snoc s' w b' d h1 h =>
          obtain ⟨rfl, hb'⟩ := List.append_inj' hl rfl
          cases hb'
          have hw : w < 2 ^ bits := by
            have := Nat.le_mul_of_pos_right w h0
            omega
          rw [(ih hz).2 ⟨h1, hw⟩, Option.bind_some, acc_one hb]
          exact ⟨d, h, rfl, h2⟩

theorem Numeral.ne {base : Nat} {s : List UInt8} {v : Nat} (h : Numeral base s v) : s ≠ [] := by
  cases h <;> simp

theorem Numeral.mem {base : Nat} {s : List UInt8} {v : Nat} (h : Numeral base s v) {b : UInt8} (hb : b ∈ s) :
    ∃ d, Digit base b d := by
  induction h with
  | one h =>
    simp only [List.mem_singleton] at hb
    exact ⟨_, hb ▸ h⟩
  | snoc h1 h ih =>
    rcases List.mem_append.1 hb with z | z
    · exact ih z
    · simp only [List.mem_singleton] at z
      exact ⟨_, z ▸ h⟩

/-- A sign, a point or a colon is not a digit. -/
theorem Digit.ge {base : Nat} {b : UInt8} {d : Nat} (h : Digit base b d) :
    0x30 ≤ b.toNat ∧ b.toNat ≠ 0x3A := by
  obtain ⟨_, h⟩ := h
  omega

theorem Numeral.not_mem {base : Nat} {s : List UInt8} {v : Nat} (h : Numeral base s v) {b : UInt8} (hb : b.toNat < 0x30) :
    b ∉ s := by
  intro hm
  obtain ⟨d, hd⟩ := h.mem hm
  have := hd.ge
  omega

theorem fromStr_iff {bits radix : Nat} (h0 : 0 < radix) (hb : radix ≤ 36) {s : List UInt8} (hs : 0x2B ∉ s) {v : Nat} :
    fromStrRadix bits radix s = some v ↔ Numeral radix s v ∧ v < 2 ^ bits := by
  match s, hs with
  | [], _ => exact ⟨nofun, fun h => absurd rfl h.1.ne⟩
  | [b], hs =>
    have hb1 : b ≠ 0x2B := by
      rintro rfl
      simp at hs
    rw [fromStrRadix]
    by_cases hm : b = 0x2D
    · subst hm
      rw [if_pos (.inr rfl)]
      simp only [reduceCtorEq, false_iff]
      rintro ⟨h, _⟩
      exact h.not_mem (b := 0x2D) (by decide) (by simp)
    · rw [if_neg (by simp [hb1, hm])]
      exact acc_iff h0 hb (by simp)
  | b :: c :: t, hs =>
    have hb1 : b ≠ 0x2B := by
      rintro rfl
      simp at hs
    rw [fromStrRadix, if_neg hb1]
    · exact acc_iff h0 hb (by simp)
    · simp

/-- Numbers are accepted in any case. -/
theorem fromStr_of {bits radix : Nat} (h0 : 0 < radix) (hb : radix ≤ 36) {s : List UInt8} {v : Nat} (h : Numeral radix s v)
    (hv : v < 2 ^ bits) : fromStrRadix bits radix s = some v :=
  (fromStr_iff h0 hb (h.not_mem (by decide))).2 ⟨h, hv⟩

theorem part_iff {s : List UInt8} (hs : 0x2B ∉ s) {v : Nat} : partValue s = some v ↔ CNumber s v ∧ v < 2 ^ 32 := by
  have hz : ∀ t, s = 0x30 :: t → t ≠ [] → ∀ w, Numeral 10 s w → ¬ (s.head? ≠ some 0x30 ∨ s = [0x30]) := by
    rintro t rfl ht w _ (h | h)
    · exact h rfl
    · simp only [List.cons.injEq, true_and] at h
      exact ht h
  unfold partValue
  split
  · rename_i b t
    split
    · rename_i hx
      rw [fromStr_iff (by decide) (by decide) (by simp only [List.mem_cons, not_or] at hs; exact hs.2.2)]
      constructor
      · rintro ⟨h1, h2⟩
        refine ⟨.inr (.inr ⟨t, ?_, h1⟩), h2⟩
        rcases hx with rfl | rfl
        · exact .inl rfl
        · exact .inr rfl
      · rintro ⟨h1, h2⟩
        refine ⟨?_, h2⟩
        rcases h1 with ⟨g, h1⟩ | ⟨u, e, h1⟩ | ⟨u, e, h1⟩
        · exact absurd g (hz _ rfl (by simp) v h1)
        · cases e
          obtain ⟨d, hd, h3⟩ := h1.mem (b := b) (by simp)
          rcases hx with rfl | rfl
          · simp at h3
            omega
          · simp at h3
            omega
        · rcases e with e | e <;> (cases e; exact h1)
    · rename_i hx
      rw [fromStr_iff (by decide) (by decide) (by simp only [List.mem_cons, not_or] at hs ⊢; exact hs.2)]
      constructor
      · rintro ⟨h1, h2⟩
        exact ⟨.inr (.inl ⟨_, rfl, h1⟩), h2⟩
      · rintro ⟨h1, h2⟩
        refine ⟨?_, h2⟩
        rcases h1 with ⟨g, h1⟩ | ⟨u, e, h1⟩ | ⟨u, e, h1⟩
        · exact absurd g (hz _ rfl (by simp) v h1)
        · cases e
          exact h1
        · exfalso
          rcases e with e | e <;> (cases e; simp at hx)
  · rename_i hne
    rw [fromStr_iff (by decide) (by decide) hs]
    constructor
    · rintro ⟨h1, h2⟩
      refine ⟨.inl ⟨?_, h1⟩, h2⟩
      match s with
      | [] => exact .inl (by simp)
      | [b] =>
        by_cases hb : b = 0x30
        · exact .inr (by rw [hb])
        · exact .inl (by simpa using hb)
      | b :: c :: t =>
        refine .inl ?_
        simp only [List.head?_cons, ne_eq, Option.some.injEq]
        rintro rfl
        exact hne _ _ rfl
    · rintro ⟨h1, h2⟩
      refine ⟨?_, h2⟩
      rcases h1 with ⟨g, h1⟩ | ⟨u, e, h1⟩ | ⟨u, e, h1⟩
      · exact h1
      · exfalso
        obtain ⟨b, t, rfl⟩ := List.exists_cons_of_ne_nil h1.ne
        exact hne _ _ e
      · exfalso
        rcases e with e | e <;> exact hne _ _ e

theorem CNumber.not_mem {s : List UInt8} {v : Nat} (h : CNumber s v) {b : UInt8} (hb : b.toNat < 0x30) : b ∉ s := by
  have h30 : b ≠ 0x30 := by rintro rfl; simp at hb
  have h78 : b ≠ 0x78 := by rintro rfl; simp at hb
  have h58 : b ≠ 0x58 := by rintro rfl; simp at hb
  rcases h with ⟨_, h⟩ | ⟨t, rfl, h⟩ | ⟨t, rfl | rfl, h⟩
  · exact h.not_mem hb
  · simp [h30, h.not_mem hb]
  · simp [h30, h78, h.not_mem hb]
  · simp [h30, h58, h.not_mem hb]

/-! ## Parts -/

theorem split_ne (c : UInt8) (s : List UInt8) : split c s ≠ [] := by
  cases s with
  | nil => simp [split]
  | cons b t =>
    rw [split]
    split
    · simp
    · split <;> simp

theorem split_word {c : UInt8} {w : List UInt8} (h : c ∉ w) : split c w = [w] := by
  induction w with
  | nil => rfl
  | cons b t ih =>
    simp only [List.mem_cons, not_or] at h
    rw [split, if_neg (Ne.symm h.1), ih h.2]

theorem split_cons {c : UInt8} {w : List UInt8} (h : c ∉ w) (s : List UInt8) : split c (w ++ c :: s) = w :: split c s := by
  induction w with
  | nil => simp [split]
  | cons b t ih =>
    simp only [List.mem_cons, not_or] at h
    rw [List.cons_append, split, if_neg (Ne.symm h.1), ih h.2]

theorem split_intercalate {c : UInt8} {ws : List (List UInt8)} (hne : ws ≠ []) (h : ∀ w ∈ ws, c ∉ w) :
    split c (List.intercalate [c] ws) = ws := by
  induction ws with
  | nil => exact absurd rfl hne
  | cons w ws ih =>
    cases ws with
    | nil =>
      rw [List.intercalate_singleton]
      exact split_word (h w (by simp))
    | cons v vs =>
      rw [List.intercalate_cons_cons, List.append_assoc, List.singleton_append, split_cons (h w (by simp)),
        ih (by simp) (fun x hx => h x (by simp [hx]))]

theorem intercalate_split (c : UInt8) (s : List UInt8) : List.intercalate [c] (split c s) = s := by
  induction s with
  | nil => rfl
  | cons b t ih =>
    rw [split]
    split
    · rename_i hb
      subst hb
      obtain ⟨w, ws, e⟩ := List.exists_cons_of_ne_nil (split_ne b t)
      rw [e] at ih ⊢
      rw [List.intercalate_cons_cons, ih]
      rfl
    · obtain ⟨w, ws, e⟩ := List.exists_cons_of_ne_nil (split_ne c t)
      rw [e] at ih ⊢
      simp only
      cases ws with
      | nil =>
        rw [List.intercalate_singleton] at ih ⊢
        rw [ih]
      | cons v vs =>
        rw [List.intercalate_cons_cons] at ih ⊢
        rw [List.cons_append, List.cons_append, ih]

theorem mem_intercalate {b c : UInt8} {ws : List (List UInt8)} (h : b ∈ List.intercalate [c] ws) :
    b = c ∨ ∃ w ∈ ws, b ∈ w := by
  induction ws with
  | nil => cases h
  | cons w ws ih =>
    cases ws with
    | nil =>
      rw [List.intercalate_singleton] at h
      exact .inr ⟨w, by simp, h⟩
    | cons v vs =>
      rw [List.intercalate_cons_cons, List.append_assoc, List.singleton_append] at h
      rcases List.mem_append.1 h with z | z
      · exact .inr ⟨w, by simp, z⟩
      · rcases List.mem_cons.1 z with z | z
        · exact .inl z
        · rcases ih z with z | ⟨x, hx, z⟩
          · exact .inl z
          · exact .inr ⟨x, by simp [hx], z⟩

theorem split_subset (c : UInt8) (s : List UInt8) {w : List UInt8} (hw : w ∈ split c s) {b : UInt8} (hb : b ∈ w) : b ∈ s := by
  induction s generalizing w with
  | nil =>
    simp only [split, List.mem_singleton] at hw
    rw [hw] at hb
    cases hb
  | cons a t ih =>
    rw [split] at hw
    split at hw
    · rcases List.mem_cons.1 hw with rfl | z
      · cases hb
      · exact List.mem_cons_of_mem _ (ih z hb)
    · obtain ⟨v, vs, e⟩ := List.exists_cons_of_ne_nil (split_ne c t)
      rw [e] at hw ih
      rcases List.mem_cons.1 hw with rfl | z
      · rcases List.mem_cons.1 hb with rfl | z
        · exact List.mem_cons_self
        · exact List.mem_cons_of_mem _ (ih List.mem_cons_self z)
      · exact List.mem_cons_of_mem _ (ih (List.mem_cons_of_mem _ z) hb)

/-! ## `inet_aton` -/

theorem add_shift {r : UInt32} {v k : Nat} (hk : k < 32) (hr : r.toNat + v * 2 ^ k < 2 ^ 32) :
    (r + UInt32.ofNat v <<< UInt32.ofNat k).toNat = r.toNat + v * 2 ^ k := by
  have h1 : v < 2 ^ 32 := by
    have := Nat.le_mul_of_pos_right v (Nat.two_pow_pos k)
    omega
  rw [UInt32.toNat_add, UInt32.toNat_shiftLeft, UInt32.toNat_ofNat', UInt32.toNat_ofNat', Nat.shiftLeft_eq]
  rw [Nat.mod_eq_of_lt h1, Nat.mod_eq_of_lt (a := k) (by omega), Nat.mod_eq_of_lt (a := k) (by omega),
    Nat.mod_eq_of_lt (a := v * 2 ^ k) (by omega), Nat.mod_eq_of_lt hr]

theorem add_last {r : UInt32} {v : Nat} (hr : r.toNat + v < 2 ^ 32) : (r + UInt32.ofNat v).toNat = r.toNat + v := by
  rw [UInt32.toNat_add, UInt32.toNat_ofNat', Nat.mod_eq_of_lt (a := v) (by omega), Nat.mod_eq_of_lt hr]

/-- The loop on the values of the parts. -/
def valuesLoop (result : UInt32) (index : Nat) : List Nat → Option UInt32
  | [] => some result
  | v :: rest =>
    if rest ≠ [] then
      if v > 0xFF then none else valuesLoop (result + UInt32.ofNat v <<< UInt32.ofNat (24 - index * 8)) (index + 1) rest
    else if index > 0 ∧ v ≥ 2 ^ (32 - index * 8) then none
    else valuesLoop (result + UInt32.ofNat v) (index + 1) rest

theorem atonLoop_values {l : List (List UInt8 × Nat)} (h : ∀ x ∈ l, partValue x.1 = some x.2) (r : UInt32) (i : Nat) :
    atonLoop r i (l.map (·.1)) = valuesLoop r i (l.map (·.2)) := by
  induction l generalizing r i with
  | nil => rfl
  | cons x l ih =>
    have ih' := ih fun y hy => h y (by simp [hy])
    simp only [List.map_cons, atonLoop, valuesLoop, h x (by simp), ih', ne_eq, List.map_eq_nil_iff]

theorem atonLoop_some {ws : List (List UInt8)} {r : UInt32} {i : Nat} {a : UInt32} (h : atonLoop r i ws = some a) :
    ∃ l : List (List UInt8 × Nat), ws = l.map (·.1) ∧ ∀ x ∈ l, partValue x.1 = some x.2 := by
  induction ws generalizing r i with
  | nil => exact ⟨[], rfl, nofun⟩
  | cons w ws ih =>
    rw [atonLoop] at h
    cases hp : partValue w with
    | none =>
      rw [hp] at h
      cases h
    | some v =>
      rw [hp] at h
      simp only at h
      have : ∃ r' i', atonLoop r' i' ws = some a := by
        split at h
        · split at h
          · cases h
          · exact ⟨_, _, h⟩
        · split at h
          · cases h
          · exact ⟨_, _, h⟩
      obtain ⟨r', i', e⟩ := this
      obtain ⟨l, rfl, hl⟩ := ih e
      refine ⟨(w, v) :: l, rfl, ?_⟩
      intro x hx
      rcases List.mem_cons.1 hx with rfl | z
      · exact hp
      · exact hl x z

theorem valuesLoop_eq {vs : List Nat} (h1 : vs ≠ []) (h4 : vs.length ≤ 4) (h32 : ∀ v ∈ vs, v < 2 ^ 32) :
    valuesLoop 0 0 vs = (classful vs).map UInt32.ofNat := by
  match vs, h1, h4, h32 with
  | [a], _, _, h32 =>
    have ha := h32 a (by simp)
    simp [valuesLoop, classful]
    omega
  | [a, b], _, _, h32 =>
    simp only [valuesLoop, classful, ne_eq, List.cons_ne_nil, not_false_eq_true, if_true, not_true_eq_false, if_false,
      Nat.zero_add, Nat.one_mul, Nat.zero_mul, Nat.sub_zero]
    by_cases ha : a > 0xFF
    · rw [if_pos ha, if_neg (by omega)]
      rfl
    · rw [if_neg ha]
      by_cases hb : b < 2 ^ 24
      · rw [if_neg (by omega), if_pos (by omega)]
        simp only [Option.map_some, Option.some.injEq]
        apply UInt32.toNat_inj.1
        have e1 := add_shift (r := 0) (v := a) (k := 24) (by omega) (by simp; omega)
        rw [add_last (by rw [e1]; simp; omega), e1, UInt32.toNat_ofNat']
        simp
        omega
      · rw [if_pos (by omega), if_neg (by omega)]
        rfl
  | [a, b, c], _, _, h32 =>
    simp only [valuesLoop, classful, ne_eq, List.cons_ne_nil, not_false_eq_true, if_true, not_true_eq_false, if_false,
      Nat.zero_add, Nat.one_mul, Nat.zero_mul, Nat.sub_zero]
    by_cases ha : a > 0xFF
    · rw [if_pos ha, if_neg (by omega)]
      rfl
    · rw [if_neg ha]
      by_cases hb : b > 0xFF
      · rw [if_pos hb, if_neg (by omega)]
        rfl
      · rw [if_neg hb]
        by_cases hc : c < 2 ^ 16
        · rw [if_neg (by omega), if_pos (by omega)]
          simp only [Option.map_some, Option.some.injEq]
          apply UInt32.toNat_inj.1
          have e1 := add_shift (r := 0) (v := a) (k := 24) (by omega) (by simp; omega)
          have e2 := add_shift (r := 0 + UInt32.ofNat a <<< UInt32.ofNat 24) (v := b) (k := 16) (by omega)
            (by rw [e1]; simp; omega)
          rw [e1] at e2
          rw [add_last (by rw [e2]; simp; omega), e2, UInt32.toNat_ofNat']
          simp
          omega
        · rw [if_pos (by omega), if_neg (by omega)]
          rfl
  | [a, b, c, d], _, _, h32 =>
    simp only [valuesLoop, classful, ne_eq, List.cons_ne_nil, not_false_eq_true, if_true, not_true_eq_false, if_false,
      Nat.zero_add, Nat.one_mul, Nat.zero_mul, Nat.sub_zero]
    by_cases ha : a > 0xFF
    · rw [if_pos ha, if_neg (by omega)]
      rfl
    · rw [if_neg ha]
      by_cases hb : b > 0xFF
      · rw [if_pos hb, if_neg (by omega)]
        rfl
      · rw [if_neg hb]
        by_cases hc : c > 0xFF
        · rw [if_pos hc, if_neg (by omega)]
          rfl
        · rw [if_neg hc]
          by_cases hd : d < 256
          · rw [if_neg (by omega), if_pos (by omega)]
            simp only [Option.map_some, Option.some.injEq]
            apply UInt32.toNat_inj.1
            have e1 := add_shift (r := 0) (v := a) (k := 24) (by omega) (by simp; omega)
            have e2 := add_shift (r := 0 + UInt32.ofNat a <<< UInt32.ofNat 24) (v := b) (k := 16) (by omega)
              (by rw [e1]; simp; omega)
            rw [e1] at e2
            have e3 := add_shift (r := 0 + UInt32.ofNat a <<< UInt32.ofNat 24 + UInt32.ofNat b <<< UInt32.ofNat 16) (v := c)
              (k := 8) (by omega) (by rw [e2]; simp; omega)
            rw [e2] at e3
            rw [add_last (by rw [e3]; simp; omega), e3, UInt32.toNat_ofNat']
            simp
            omega
          · rw [if_pos (by omega), if_neg (by omega)]
            rfl

theorem classful_length {vs : List Nat} {a : Nat} (h : classful vs = some a) : vs ≠ [] ∧ vs.length ≤ 4 := by
  unfold classful at h
  split at h
  all_goals first
    | (simp; done)
    | cases h

theorem classful_lt {vs : List Nat} {a : Nat} (h : classful vs = some a) : a < 2 ^ 32 ∧ ∀ v ∈ vs, v < 2 ^ 32 := by
  unfold classful at h
  split at h
  all_goals first
    | (split at h
       · cases h
         simp
         omega
       · cases h)
    | cases h

theorem netBytes_eq {a : Nat} (h : a < 2 ^ 32) : leBytes 4 (be32 (UInt32.ofNat a)).toNat = netBytes a := by
  rw [be32_toNat, leBytes_swap, UInt32.toNat_ofNat', Nat.mod_eq_of_lt h]
  have h256 : ∀ n, UInt8.ofNat (n % 256) = UInt8.ofNat n := by
    intro n
    apply UInt8.toNat_inj.1
    simp
  simp [leBytes, netBytes, Nat.div_div_eq_div_mul, h256]

theorem inetAton_cstr {m : Mem UInt8} {cp inp : Nat} {s : List UInt8} (h : CStr m cp s) (hm : Mapped m inp 4) :
    inetAton m cp inp = if (split 0x2E s).length > 4 then (some (0, m) : Option (Int32 × Mem UInt8))
      else match atonLoop 0 0 (split 0x2E s) with
        | none => some (0, m)
        | some r => some (1, patch m inp (leBytes 4 (be32 r).toNat)) := by
  unfold inetAton
  simp only [Str.strlen_eq h, h.1.readN, Option.bind_eq_bind, Option.bind_some]
  split
  · rfl
  · cases atonLoop 0 0 (split 0x2E s) with
    | none => rfl
    | some r =>
      simp only
      rw [writeN_eq (by rw [leBytes_length]; exact hm)]
      rfl

/-- C41, `inet_aton`: the four forms are accepted, numbers may be decimal, octal or hexadecimal, and the address is stored
in network order; nothing else is touched. -/
theorem C41_aton {m : Mem UInt8} {cp inp a : Nat} {s : List UInt8} (h : CStr m cp s) (hm : Mapped m inp 4)
    (ha : Address s a) : inetAton m cp inp = some (1, patch m inp (netBytes a)) := by
  obtain ⟨l, rfl, hl, hc⟩ := ha
  obtain ⟨c1, c2⟩ := classful_length hc
  obtain ⟨c3, c4⟩ := classful_lt hc
  have hsplit : split 0x2E (List.intercalate [0x2E] (l.map (·.1))) = l.map (·.1) := by
    apply split_intercalate
    · simpa using c1
    · intro w hw
      obtain ⟨x, hx, rfl⟩ := List.mem_map.1 hw
      exact (hl x hx).not_mem (by decide)
  rw [inetAton_cstr h hm, hsplit, if_neg (by simpa using c2), atonLoop_values, valuesLoop_eq c1 c2 c4, hc]
  · simp only [Option.map_some, netBytes_eq c3]
  · intro x hx
    exact (part_iff ((hl x hx).not_mem (by decide))).2 ⟨hl x hx, c4 _ (List.mem_map.2 ⟨x, hx, rfl⟩)⟩

/-- C41, `inet_aton`: a string that is none of the forms is refused and nothing is stored. Missing: strings with a `+`
(`C41_plus_violation`). -/
theorem C41_aton_partial {m : Mem UInt8} {cp inp : Nat} {s : List UInt8} (h : CStr m cp s) (hm : Mapped m inp 4)
    (hp : 0x2B ∉ s) (ha : ¬ ∃ a, Address s a) : inetAton m cp inp = some (0, m) := by
  rw [inetAton_cstr h hm]
  split
  · rfl
  · rename_i h4
    cases e : atonLoop 0 0 (split 0x2E s) with
    | none => rfl
    | some r =>
      exfalso
      obtain ⟨l, hl, hv⟩ := atonLoop_some e
      have hc : ∀ x ∈ l, CNumber x.1 x.2 ∧ x.2 < 2 ^ 32 := by
        intro x hx
        refine (part_iff fun hb => hp ?_).1 (hv x hx)
        exact split_subset 0x2E s (by rw [hl]; exact List.mem_map.2 ⟨x, hx, rfl⟩) hb
      rw [hl] at e h4
      have hne : l ≠ [] := by
        rintro rfl
        exact split_ne 0x2E s hl
      rw [atonLoop_values hv, valuesLoop_eq (by simpa using hne) (by simpa using h4)
        (fun v hv => by obtain ⟨x, hx, rfl⟩ := List.mem_map.1 hv; exact (hc x hx).2)] at e
      cases hcl : classful (l.map (·.2)) with
      | none =>
        rw [hcl] at e
        cases e
      | some a => exact ha ⟨a, l, by rw [← hl, intercalate_split], fun x hx => (hc x hx).1, hcl⟩

/-- C41, `inet_addr`: the address in network order, or all ones. -/
theorem C41_addr {m : Mem UInt8} {cp val a : Nat} {s : List UInt8} (h : CStr m cp s) (hm : Mapped m val 4)
    (hd : Disjoint cp (s.length + 1) val 4) (ha : Address s a) :
    ∃ r, inetAddr m val cp = some r ∧ leBytes 4 r.toNat = netBytes a := by
  have h1 : CStr (patch m val [0, 0, 0, 0]) cp s := by
    refine ⟨h.1.patch_disjoint (by unfold Disjoint at *; simp; omega), ?_, h.2.2⟩
    rw [patch_out (by unfold Disjoint at hd; simp; omega)]
    exact h.2.1
  have h2 := C41_aton h1 (mapped_patch hm) ha
  unfold inetAddr
  rw [writeN_eq (by simpa using hm)]
  simp only [h2, Option.bind_eq_bind, Option.bind_some]
  rw [if_pos (by decide)]
  have h3 : Bytes (patch (patch m val [0, 0, 0, 0]) val (netBytes a)) val (netBytes a) := bytes_patch _ _ _
  rw [readN_of (n := 4) h3 rfl]
  refine ⟨_, rfl, ?_⟩
  rw [UInt32.toNat_ofNat', Nat.mod_eq_of_lt]
  · exact leBytes_leValue (netBytes a)
  · have := leValue_lt (netBytes a)
    rw [show (netBytes a).length = 4 from rfl] at this
    omega

/-- C41, `inet_addr`: a string that is none of the forms gives `INADDR_NONE`, -1. Missing: strings with a `+`. -/
theorem C41_addr_partial {m : Mem UInt8} {cp val : Nat} {s : List UInt8} (h : CStr m cp s) (hm : Mapped m val 4)
    (hd : Disjoint cp (s.length + 1) val 4) (hp : 0x2B ∉ s) (ha : ¬ ∃ a, Address s a) :
    inetAddr m val cp = some 0xFFFFFFFF := by
  have h1 : CStr (patch m val [0, 0, 0, 0]) cp s := by
    refine ⟨h.1.patch_disjoint (by unfold Disjoint at *; simp; omega), ?_, h.2.2⟩
    rw [patch_out (by unfold Disjoint at hd; simp; omega)]
    exact h.2.1
  have h2 := C41_aton_partial h1 (mapped_patch hm) hp ha
  unfold inetAddr
  rw [writeN_eq (by simpa using hm)]
  simp only [h2, Option.bind_eq_bind, Option.bind_some]
  rw [if_neg (by decide)]

/-- C41, `inet_network`: the number of the address. -/
theorem C41_network {m : Mem UInt8} {cp val a : Nat} {s : List UInt8} (h : CStr m cp s) (hm : Mapped m val 4)
    (hd : Disjoint cp (s.length + 1) val 4) (ha : Address s a) :
    ∃ r, inetNetwork m val cp = some r ∧ r.toNat = a := by
  obtain ⟨r, h1, h2⟩ := C41_addr h hm hd ha
  unfold inetNetwork
  simp only [h1, Option.bind_eq_bind, Option.bind_some]
  obtain ⟨l, rfl, hl, hc⟩ := ha
  have hlt := (classful_lt hc).1
  rw [← netBytes_eq hlt] at h2
  have e : r = be32 (UInt32.ofNat a) := by
    apply UInt32.toNat_inj.1
    rw [← leValue_leBytes 4 r.toNat r.toNat_lt, h2, leValue_leBytes 4 _ (UInt32.toNat_lt _)]
  refine ⟨_, rfl, ?_⟩
  rw [e, ntohl, be32_be32, UInt32.toNat_ofNat', Nat.mod_eq_of_lt hlt]

/-- Words with a `+` in front are taken: "+1.0x+2.0+3.+4" is no address but accepted as 1.2.3.4. -/
theorem C41_plus_violation {m : Mem UInt8} {cp inp : Nat}
    (h : CStr m cp [0x2B, 0x31, 0x2E, 0x30, 0x78, 0x2B, 0x32, 0x2E, 0x30, 0x2B, 0x33, 0x2E, 0x2B, 0x34]) (hm : Mapped m inp 4) :
    (¬ ∃ a, Address [0x2B, 0x31, 0x2E, 0x30, 0x78, 0x2B, 0x32, 0x2E, 0x30, 0x2B, 0x33, 0x2E, 0x2B, 0x34] a)
      ∧ inetAton m cp inp = some (1, patch m inp [1, 2, 3, 4]) := by
  constructor
  · rintro ⟨a, l, e, hl, hc⟩
    have hmem : (0x2B : UInt8) ∈ List.intercalate [0x2E] (l.map (·.1)) := by rw [← e]; simp
    rcases mem_intercalate hmem with z | ⟨w, hw, z⟩
    · cases z
    · obtain ⟨x, hx, rfl⟩ := List.mem_map.1 hw
      exact (hl x hx).not_mem (by decide) z
  · rw [inetAton_cstr h hm]
    have : atonLoop 0 0 (split 0x2E [0x2B, 0x31, 0x2E, 0x30, 0x78, 0x2B, 0x32, 0x2E, 0x30, 0x2B, 0x33, 0x2E, 0x2B, 0x34])
      = some 0x01020304 := by decide +kernel
    rw [if_neg (by decide +kernel), this]
    have : leBytes 4 (be32 0x01020304).toNat = [1, 2, 3, 4] := by decide +kernel
    simp only [this]

/-! ## `inet_pton` -/

/-- The word is taken for an octet. -/
def octet? (w : List UInt8) : Option Nat := if w.length ≤ 3 then fromStrRadix 8 10 w else none

theorem octet_iff {w : List UInt8} (h : 0x2B ∉ w) {v : Nat} : octet? w = some v ↔ Octet w v := by
  unfold octet? Octet
  split
  · rw [fromStr_iff (by decide) (by decide) h]
    constructor
    · exact fun g => ⟨g.1, by assumption, by omega⟩
    · exact fun g => ⟨g.1, by omega⟩
  · simp only [reduceCtorEq, false_iff]
    rintro ⟨_, h, _⟩
    omega

theorem Octet.not_mem {w : List UInt8} {v : Nat} (h : Octet w v) {b : UInt8} (hb : b.toNat < 0x30) : b ∉ w :=
  h.1.not_mem hb

theorem ptonLoop_step {m : Mem UInt8} {dst n : Nat} {w : List UInt8} {ws : List (List UInt8)} {v : Nat}
    (h : octet? w = some v) (hm : (m dst).isSome) :
    ptonLoop m dst (n + 1) (w :: ws) = ptonLoop (patch m dst [UInt8.ofNat v]) (dst + 1) n ws := by
  unfold octet? at h
  split at h
  · rename_i hl
    simp only [ptonLoop, if_pos hl, h, store_patch hm, Option.bind_eq_bind, Option.bind_some]
  · cases h

theorem ptonLoop_fail {m : Mem UInt8} {dst n : Nat} {w : List UInt8} {ws : List (List UInt8)}
    (h : octet? w = none) : ptonLoop m dst (n + 1) (w :: ws) = some (0, m) := by
  unfold octet? at h
  rw [ptonLoop]
  split at h
  · rename_i hl
    rw [if_pos hl, h]
  · rename_i hl
    rw [if_neg hl]

theorem pton_values {m : Mem UInt8} {src dst a b c d : Nat} {s wa wb wc wd : List UInt8} (h : CStr m src s)
    (hm : Mapped m dst 4) (hs : split 0x2E s = [wa, wb, wc, wd]) (ha : octet? wa = some a) (hb : octet? wb = some b)
    (hc : octet? wc = some c) (hd : octet? wd = some d) :
    inetPton4 m src dst = some (1, patch m dst [UInt8.ofNat a, UInt8.ofNat b, UInt8.ofNat c, UInt8.ofNat d]) := by
  unfold inetPton4
  simp only [Str.strlen_eq h, h.1.readN, Option.bind_eq_bind, Option.bind_some, hs]
  have g : ∀ i, i < 4 → (m (dst + i)).isSome := hm
  have g0 : (m dst).isSome := g 0 (by omega)
  rw [ptonLoop_step ha g0, ptonLoop_step hb (isSome_patch (g 1 (by omega))),
    ptonLoop_step hc (isSome_patch (isSome_patch (g 2 (by omega)))),
    ptonLoop_step hd (isSome_patch (isSome_patch (isSome_patch (g 3 (by omega)))))]
  have e1 := patch_append m dst [UInt8.ofNat a] [UInt8.ofNat b]
  have e2 := patch_append m dst [UInt8.ofNat a, UInt8.ofNat b] [UInt8.ofNat c]
  have e3 := patch_append m dst [UInt8.ofNat a, UInt8.ofNat b, UInt8.ofNat c] [UInt8.ofNat d]
  simp only [List.length_cons, List.length_nil, List.cons_append, List.nil_append, Nat.zero_add] at e1 e2 e3
  rw [e1, show dst + 1 + 1 = dst + (1 + 1) by omega, e2, show dst + (1 + 1) + 1 = dst + (1 + 1 + 1) by omega, e3]
  rfl

/-- C41, `inet_pton` with `AF_INET`: a dotted quad is accepted and its four bytes are stored. -/
theorem C41_pton {m : Mem UInt8} {src dst a b c d : Nat} {s : List UInt8} (h : CStr m src s) (hm : Mapped m dst 4)
    (hq : Quad s a b c d) :
    inetPton4 m src dst = some (1, patch m dst [UInt8.ofNat a, UInt8.ofNat b, UInt8.ofNat c, UInt8.ofNat d]) := by
  obtain ⟨wa, wb, wc, wd, rfl, ha, hb, hc, hd⟩ := hq
  have z : (0x2E : UInt8).toNat < 0x30 := by decide
  have y : (0x2B : UInt8).toNat < 0x30 := by decide
  have hsplit : split 0x2E (wa ++ [0x2E] ++ wb ++ [0x2E] ++ wc ++ [0x2E] ++ wd) = [wa, wb, wc, wd] := by
    simp only [List.append_assoc, List.cons_append, List.nil_append]
    rw [split_cons (ha.not_mem z), split_cons (hb.not_mem z), split_cons (hc.not_mem z), split_word (hd.not_mem z)]
  exact pton_values h hm hsplit ((octet_iff (ha.not_mem y)).2 ha) ((octet_iff (hb.not_mem y)).2 hb)
    ((octet_iff (hc.not_mem y)).2 hc) ((octet_iff (hd.not_mem y)).2 hd)

theorem ptonLoop_range : ∀ (n : Nat) {m : Mem UInt8} {dst : Nat} (ws : List (List UInt8)), Mapped m dst n →
    ∃ r k, ptonLoop m dst n ws = some (r, patch m dst k) ∧ k.length ≤ n
      ∧ (r = 1 ∧ ws.length = n ∧ (∀ w ∈ ws, (octet? w).isSome) ∨ r = 0)
  | 0, m, dst, ws, _ => by
    refine ⟨if ws = [] then 1 else 0, [], by rw [ptonLoop, patch_nil], Nat.le_refl _, ?_⟩
    by_cases h : ws = []
    · subst h
      exact .inl ⟨rfl, rfl, nofun⟩
    · exact .inr (if_neg h)
  | n + 1, m, dst, [], _ => ⟨0, [], by rw [ptonLoop, patch_nil], Nat.zero_le _, .inr rfl⟩
  | n + 1, m, dst, w :: ws, hm => by
    cases h : octet? w with
    | none => exact ⟨0, [], by rw [ptonLoop_fail h, patch_nil], Nat.zero_le _, .inr rfl⟩
    | some v =>
      obtain ⟨r, k, e, hk, hr⟩ := ptonLoop_range n ws (m := patch m dst [UInt8.ofNat v]) (dst := dst + 1)
        (mapped_patch (fun i hi => by rw [Nat.add_assoc, Nat.add_comm 1]; exact hm (i + 1) (by omega)))
      refine ⟨r, UInt8.ofNat v :: k, ?_, by simp only [List.length_cons]; omega, ?_⟩
      · have g0 : (m dst).isSome := hm 0 (by omega)
        rw [ptonLoop_step h g0, e]
        have := patch_append m dst [UInt8.ofNat v] k
        simp only [List.length_cons, List.length_nil, List.cons_append, List.nil_append, Nat.zero_add] at this
        rw [this]
      · rcases hr with ⟨h1, h2, h3⟩ | h1
        · refine .inl ⟨h1, by rw [List.length_cons, h2], ?_⟩
          intro x hx
          rcases List.mem_cons.1 hx with rfl | z
          · rw [h]
            rfl
          · exact h3 x z
        · exact .inr h1

/-- C41, `inet_pton` with `AF_INET`: any other string is refused, and only the four bytes of the destination may have been
written. Missing: strings with a `+` (`C41_pton_violation`). -/
theorem C41_pton_partial {m : Mem UInt8} {src dst : Nat} {s : List UInt8} (h : CStr m src s) (hm : Mapped m dst 4)
    (hp : 0x2B ∉ s) (hq : ¬ ∃ a b c d, Quad s a b c d) :
    ∃ k, inetPton4 m src dst = some (0, patch m dst k) ∧ k.length ≤ 4 := by
  unfold inetPton4
  simp only [Str.strlen_eq h, h.1.readN, Option.bind_eq_bind, Option.bind_some]
  obtain ⟨r, k, e, hk, hr⟩ := ptonLoop_range 4 (split 0x2E s) hm
  rcases hr with ⟨_, h2, h3⟩ | h1
  · exfalso
    have hjoin := intercalate_split 0x2E s
    have hsub := fun w hw (hb : (0x2B : UInt8) ∈ w) => hp (split_subset 0x2E s hw hb)
    match hs : split 0x2E s, h2 with
    | [wa, wb, wc, wd], _ =>
      rw [hs] at hjoin h3 hsub
      have g : ∀ w ∈ [wa, wb, wc, wd], ∃ v, Octet w v := by
        intro w hw
        obtain ⟨v, hv⟩ := Option.isSome_iff_exists.1 (h3 w hw)
        exact ⟨v, (octet_iff (hsub w hw)).1 hv⟩
      obtain ⟨a, ha⟩ := g wa (by simp)
      obtain ⟨b, hb⟩ := g wb (by simp)
      obtain ⟨c, hc⟩ := g wc (by simp)
      obtain ⟨d, hd⟩ := g wd (by simp)
      refine hq ⟨a, b, c, d, wa, wb, wc, wd, ?_, ha, hb, hc, hd⟩
      rw [← hjoin]
      simp [List.intercalate_cons_cons, List.intercalate_singleton]
  · subst h1
    exact ⟨k, e, hk⟩

/-- "+1.2.3.4" is accepted by `inet_pton`. -/
theorem C41_pton_violation {m : Mem UInt8} {src dst : Nat}
    (h : CStr m src [0x2B, 0x31, 0x2E, 0x32, 0x2E, 0x33, 0x2E, 0x34]) (hm : Mapped m dst 4) :
    inetPton4 m src dst = some (1, patch m dst [1, 2, 3, 4])
      ∧ ¬ ∃ a b c d, Quad [0x2B, 0x31, 0x2E, 0x32, 0x2E, 0x33, 0x2E, 0x34] a b c d := by
  refine ⟨pton_values (a := 1) (b := 2) (c := 3) (d := 4) h hm (wa := [0x2B, 0x31]) (wb := [0x32]) (wc := [0x33])
    (wd := [0x34]) (by decide +kernel) (by decide +kernel) (by decide +kernel) (by decide +kernel) (by decide +kernel), ?_⟩
  rintro ⟨a, b, c, d, wa, wb, wc, wd, e, ha, hb, hc, hd⟩
  have y : (0x2B : UInt8).toNat < 0x30 := by decide
  have hmem : (0x2B : UInt8) ∈ wa ++ [0x2E] ++ wb ++ [0x2E] ++ wc ++ [0x2E] ++ wd := by rw [← e]; simp
  simp [ha.not_mem y, hb.not_mem y, hc.not_mem y, hd.not_mem y] at hmem

/-! ## `inet_ntop` -/

theorem digits_numeral (n : Nat) : Numeral 10 (Stdio.digitsOf 10 false n) n := by
  have hd : ∀ d, d < 10 → Digit 10 (Stdio.digitByte false d) d := by
    intro d h
    refine ⟨h, .inl ⟨h, ?_⟩⟩
    unfold Stdio.digitByte
    rw [if_pos h, UInt8.toNat_ofNat', Nat.mod_eq_of_lt (by omega)]
  induction n using Nat.strongRecOn with
  | _ n ih =>
    rw [Stdio.digitsOf]
    split
    · rename_i h
      exact .one (hd n (by omega))
    · have h1 := Numeral.snoc (ih (n / 10) (by omega)) (hd (n % 10) (by omega))
      rw [show n / 10 * 10 + n % 10 = n by omega] at h1
      exact h1

theorem digits_length (n : Nat) (h : n < 1000) : (Stdio.digitsOf 10 false n).length ≤ 3 := by
  rw [Stdio.digitsOf]
  split
  · simp
  · rw [Stdio.digitsOf]
    split
    · simp
    · rw [Stdio.digitsOf]
      split
      · simp
      · omega

/-- The text of an address. -/
def quadText (a b c d : UInt8) : List UInt8 :=
  Stdio.numeral 10 false a.toNat ++ [0x2E] ++ Stdio.numeral 10 false b.toNat ++ [0x2E] ++ Stdio.numeral 10 false c.toNat
    ++ [0x2E] ++ Stdio.numeral 10 false d.toNat

theorem quadText_quad (a b c d : UInt8) : Quad (quadText a b c d) a.toNat b.toNat c.toNat d.toNat := by
  have g : ∀ x : UInt8, Octet (Stdio.numeral 10 false x.toNat) x.toNat := by
    intro x
    have := x.toNat_lt
    rw [← Stdio.digitsOf_eq (by decide) (by decide)]
    exact ⟨digits_numeral _, digits_length _ (by omega), by omega⟩
  exact ⟨_, _, _, _, rfl, g a, g b, g c, g d⟩

theorem quadText_length (a b c d : UInt8) : (quadText a b c d).length ≤ 15 := by
  have g : ∀ x : UInt8, (Stdio.numeral 10 false x.toNat).length ≤ 3 := by
    intro x
    have := x.toNat_lt
    rw [← Stdio.digitsOf_eq (by decide) (by decide)]
    exact digits_length _ (by omega)
  have := g a
  have := g b
  have := g c
  have := g d
  unfold quadText
  simp only [List.length_append, List.length_cons, List.length_nil]
  omega

/-- C41, `inet_ntop`: for a buffer of at least 16 bytes the text of the address with its terminator is stored at `dst`,
within the buffer. (A second terminator follows the first if there is room.) -/
theorem C41_ntop {m : Mem UInt8} {src dst : Nat} {a b c d : UInt8} {size : UInt32} (h : Bytes m src [a, b, c, d])
    (hm : Mapped m dst size.toNat) (hs : 16 ≤ size) :
    ∃ k, inetNtop m AF_INET src dst size = some (.ok dst, patch m dst (quadText a b c d ++ 0 :: k))
      ∧ (quadText a b c d ++ 0 :: k).length ≤ size.toNat := by
  have hs' : 16 ≤ size.toNat := UInt32.le_iff_toNat_le.1 hs
  have hl := quadText_length a b c d
  have hq : quadText a b c d ≠ [] := by
    unfold quadText
    simp
  unfold inetNtop
  rw [if_neg (by simp), if_neg (by rw [UInt32.lt_iff_toNat_lt]; simp; omega), readN_of (n := 4) h rfl]
  simp only [Option.bind_eq_bind, Option.bind_some, List.getD_cons_zero, List.getD_cons_succ]
  have hd : ∀ n, Stdio.digitsOf 10 false n = Stdio.numeral 10 false n :=
    fun n => Stdio.digitsOf_eq (by decide) (by decide) _ _
  simp only [hd]
  generalize hcs : [Stdio.numeral 10 false a.toNat, [0x2E], Stdio.numeral 10 false b.toNat, [0x2E],
    Stdio.numeral 10 false c.toNat, [0x2E], Stdio.numeral 10 false d.toNat, [0]] = cs
  have hflat : cs.flatten = quadText a b c d ++ [0] := by
    rw [← hcs]
    unfold quadText
    simp
  obtain ⟨w, e⟩ := Stdio.writeAll_eq hm (by omega) cs (by rw [hflat]; simp)
  rw [e, hflat]
  by_cases hfit : (quadText a b c d ++ [0]).length ≤ size.toNat - 1
  · rw [List.take_of_length_le hfit]
    refine ⟨[0], by simp, ?_⟩
    simp only [List.length_append, List.length_cons, List.length_nil] at hfit ⊢
    omega
  · simp only [List.length_append, List.length_cons, List.length_nil] at hfit
    rw [List.take_append_of_le_length (by omega), List.take_of_length_le (by omega)]
    exact ⟨[], rfl, by simp only [List.length_append, List.length_cons, List.length_nil]; omega⟩

/-- C41, errors of `inet_ntop`. -/
theorem C41_ntop_error (m : Mem UInt8) (af : Int32) (src dst : Nat) (size : UInt32) :
    (af ≠ 2 → inetNtop m af src dst size = some (.error .EAFNOSUPPORT, m))
      ∧ (size < 16 → inetNtop m 2 src dst size = some (.error .ENOSPC, m)) := by
  constructor
  · intro h
    unfold inetNtop
    rw [if_pos (show af ≠ AF_INET from h)]
  · intro h
    unfold inetNtop
    rw [if_neg (by simp [AF_INET]), if_pos h]

/-- C41: what `inet_ntop` wrote `inet_pton` reads back, for every address. -/
theorem C41_roundtrip {m : Mem UInt8} {src dst out : Nat} {a b c d : UInt8} {size : UInt32} (h : Bytes m src [a, b, c, d])
    (hm : Mapped m dst size.toNat) (hs : 16 ≤ size) (ho : Mapped m out 4) :
    ∃ m', inetNtop m AF_INET src dst size = some (.ok dst, m')
      ∧ inetPton4 m' dst out = some (1, patch m' out [a, b, c, d]) := by
  obtain ⟨k, e, hk⟩ := C41_ntop h hm hs
  refine ⟨_, e, ?_⟩
  have hq := quadText_quad a b c d
  have hz : (0 : UInt8) ∉ quadText a b c d := by
    obtain ⟨wa, wb, wc, wd, e, ha, hb, hc, hd⟩ := hq
    rw [e]
    have z : (0 : UInt8).toNat < 0x30 := by decide
    simp [ha.not_mem z, hb.not_mem z, hc.not_mem z, hd.not_mem z]
  have hb := bytes_patch m dst (quadText a b c d ++ 0 :: k)
  rw [bytes_append] at hb
  have hc : CStr (patch m dst (quadText a b c d ++ 0 :: k)) dst (quadText a b c d) := ⟨hb.1, hb.2.1, hz⟩
  rw [C41_pton hc (mapped_patch ho) hq]
  simp

/-- C41 fails for small buffers: `ENOSPC` is reported although the text would fit. -/
theorem C41_space_violation : (quadText 1 2 3 4).length + 1 = 8
    ∧ ∀ (m : Mem UInt8) (src dst : Nat), inetNtop m 2 src dst 8 = some (.error .ENOSPC, m) :=
  ⟨by decide +kernel, fun m src dst => (C41_ntop_error m 2 src dst 8).2 (by decide)⟩

/-! ## `inet_makeaddr`, `inet_netof`, `inet_lnaof` -/

/-- C41 fails for the functions that take addresses apart: for 127.0.0.1 (in network order) the network number is 127 but
the host number is 127 too, and they do not compose to the address. -/
theorem C41_makeaddr_violation : leBytes 4 (0x0100007F : UInt32).toNat = netBytes (127 * 2 ^ 24 + 1)
    ∧ inetNetof 0x0100007F = 127 ∧ inetLnaof 0x0100007F = 127
    ∧ inetMakeaddr (inetNetof 0x0100007F) (inetLnaof 0x0100007F) ≠ 0x0100007F := by decide +kernel

/-- The two functions are the same. -/
theorem C41_netof_violation : inetNetof = inetLnaof := rfl

/-! ## Examples -/

/-- "10.1", "0x7f.1", "127.0.0.010" and "4294967295" -/
example : Address [0x31, 0x30, 0x2E, 0x31] (10 * 2 ^ 24 + 1) :=
  ⟨[([0x31, 0x30], 10), ([0x31], 1)], by decide +kernel, by
    intro x hx
    simp only [List.mem_cons, List.not_mem_nil, or_false] at hx
    rcases hx with rfl | rfl
    · exact .inl ⟨.inl (by decide), .snoc (s := [0x31]) (v := 1) (d := 0) (.one ⟨by decide, .inl (by decide)⟩) ⟨by decide, .inl (by decide)⟩⟩
    · exact .inl ⟨.inl (by decide), .one ⟨by decide, .inl (by decide)⟩⟩, rfl⟩

example : partValue [0x30, 0x78, 0x37, 0x66] = some 127 ∧ partValue [0x30, 0x31, 0x30] = some 8
    ∧ partValue [0x30, 0x38] = none ∧ partValue [] = none := by decide +kernel

example : split 0x2E [0x31, 0x2E, 0x2E, 0x32] = [[0x31], [], [0x32]] := by decide +kernel

/-- "255.0.10.1" -/
example : quadText 255 0 10 1 = [0x32, 0x35, 0x35, 0x2E, 0x30, 0x2E, 0x31, 0x30, 0x2E, 0x31] := by decide +kernel

end Verif.Net
