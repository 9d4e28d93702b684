import Verif.Scanf.ScanfProps
/-!
# C78: what `sscanf` makes of an input that fits the format
-/

namespace Verif.Scanf

/-! ## The specification -/

/-- White space. -/
def Ws (b : UInt8) : Prop := b = 0x20 ∨ 9 ≤ b ∧ b ≤ 13

/-- A digit. -/
def Digit (b : UInt8) (v : Nat) : Prop :=
  v < 10 ∧ b.toNat = 48 + v ∨ 10 ≤ v ∧ v < 36 ∧ (b.toNat = 87 + v ∨ b.toNat = 55 + v)

/-- The text is a number to the base. -/
inductive Reads (base : Nat) : List UInt8 → Nat → Prop
  | one {b v} : Digit b v → v < base → Reads base [b] v
  | more {l n b v} : Reads base l n → Digit b v → v < base → Reads base (l ++ [b]) (n * base + v)

/-- The next character of the input, if there is one, is not such. -/
def NotNext (p : UInt8 → Prop) (rest : List UInt8) : Prop := ∀ b, rest.head? = some b → ¬p b

/-- A digit of the base. -/
def DigitOf (base : Nat) (b : UInt8) : Prop := ∃ v, Digit b v ∧ v < base

/-- `x` or `X`. -/
def IsX (b : UInt8) : Prop := b = 0x78 ∨ b = 0x58

/-- The base for a conversion character. -/
def baseOf (d : UInt8) : Nat := if d = 0x6F then 8 else if d = 0x78 ∨ d = 0x58 then 16 else 10

/-- The conversion takes the characters `text` (behind white space that is skipped), `rest` being what follows, and stores `o`. -/
inductive Takes (parses : Bool → List UInt8 → Bool) : Conv → List UInt8 → List UInt8 → Out → Prop
  /-- digits; `%i` only without a leading 0; `%x` not in front of an `x` -/
  | int {ignore width len d text rest v} : Reads (baseOf d) text v → (d = 0x69 → text.head? ≠ some 0x30) →
      (∀ w ∈ width, text.length ≤ w) → (width = some text.length ∨ NotNext (DigitOf (baseOf d)) rest ∧ (baseOf d = 16 → text = [0x30] → NotNext IsX rest)) →
      v < 2 ^ (if d = 0x64 ∨ d = 0x69 ∨ len = .t then len.bits - 1 else len.bits) →
      Takes parses ⟨ignore, width, len, .int d⟩ text rest (.int len.bits v)
  /-- `%i` and 0 -/
  | zero {ignore len rest} : NotNext (DigitOf 8) rest → NotNext IsX rest →
      Takes parses ⟨ignore, none, len, .int 0x69⟩ [0x30] rest (.int len.bits 0)
  /-- `%i` and a number to base 8 -/
  | octal {ignore len ds rest v} : Reads 8 ds v → ds.head? ≠ some 0x30 → NotNext (DigitOf 8) rest → v < 2 ^ (len.bits - 1) →
      Takes parses ⟨ignore, none, len, .int 0x69⟩ (0x30 :: ds) rest (.int len.bits v)
  /-- `%i` and a number to base 16 -/
  | hex {ignore len x ds rest v} : IsX x → Reads 16 ds v → ds.head? ≠ some 0x30 → NotNext (DigitOf 16) rest → v < 2 ^ (len.bits - 1) →
      Takes parses ⟨ignore, none, len, .int 0x69⟩ (0x30 :: x :: ds) rest (.int len.bits v)
  /-- digits with at most one point -/
  | real {ignore len d a b text rest} : (∀ x ∈ a ++ b, DigitOf 10 x) → text ≠ [] → (text = a ++ b ∨ text = a ++ 0x2E :: b) →
      NotNext (fun x => DigitOf 10 x ∨ x ∈ [0x2E, 0x65, 0x45, 0x78, 0x58]) rest → parses (len = .l) text = true →
      Takes parses ⟨ignore, none, len, .real d⟩ text rest (.real (len = .l) text)
  /-- as many characters as there are, up to white space -/
  | str {ignore width len text rest} : text ≠ [] → (∀ x ∈ text, ¬Ws x) → (∀ w ∈ width, text.length ≤ w) →
      (width = some text.length ∨ NotNext (fun x => ¬Ws x) rest) →
      Takes parses ⟨ignore, width, len, .str⟩ text rest (.str text)
  /-- as many characters as there are in the set -/
  | set {ignore width len invert cs text rest} : text ≠ [] → (∀ x ∈ text, InSet invert cs x) → (∀ w ∈ width, text.length ≤ w) →
      (width = some text.length ∨ NotNext (InSet invert cs) rest) →
      Takes parses ⟨ignore, width, len, .set invert cs⟩ text rest (.str text)
  /-- so many characters -/
  | chr {ignore width len text rest} : text.length = width.getD 1 → text ≠ [] →
      Takes parses ⟨ignore, width, len, .chr⟩ text rest (.chars text)

/-- What keeps the code in step with the input. `pushed` says that the character read last is still to be treated. A conversion that does not use up its
width leaves the next character in this state, and there must be one. Conversions that use up their width leave the state as it is, and then have to be met in
the right state. After the last part of the format nothing of this matters. -/
def Goes (c : Conv) (text rest : List UInt8) (is : List Item) (pushed pushed' : Bool) : Prop :=
  is = []
  ∨ c.width ≠ some text.length ∧ pushed' = true ∧ rest ≠ []
  ∨ c.width = some text.length ∧ c.what ≠ .str ∧ pushed = false ∧ pushed' = false
  ∨ c.width = some text.length ∧ c.what = .str ∧ pushed = true ∧ pushed' = true ∧ rest ≠ []

/-- The format fits the input, and these objects are to be stored. -/
inductive Matches (parses : Bool → List UInt8 → Bool) : Bool → List Item → List UInt8 → List Out → Prop
  | nil {p input} : Matches parses p [] input []
  /-- any white space -/
  | space {p is w rest outs} : (∀ b ∈ w, Ws b) → NotNext Ws rest → w ++ rest ≠ [] → (rest = [] → is = []) →
      Matches parses true is rest outs → Matches parses p (.space :: is) (w ++ rest) outs
  /-- the character itself -/
  | lit {p is c rest outs} : ¬Ws c → Matches parses false is rest outs → Matches parses p (.lit c :: is) (c :: rest) outs
  /-- another character: this is the end -/
  | other {p is c d rest} : ¬Ws c → c ≠ d → Matches parses p (.lit c :: is) (d :: rest) []
  /-- `%%` -/
  | percent {p is w rest outs} : (∀ b ∈ w, Ws b) → (rest = [] → is = []) →
      Matches parses true is rest outs → Matches parses p (.percent :: is) (w ++ 0x25 :: rest) outs
  /-- a conversion; white space is skipped, except for `%c` and `%[` -/
  | conv {p p' is c w text rest o outs} : (∀ b ∈ w, Ws b) → (c.what = .chr ∨ (∃ i cs, c.what = .set i cs) → w = []) →
      Takes parses c text rest o → Goes c text rest is p p' →
      Matches parses p' is rest outs → Matches parses p (.conv c :: is) (w ++ (text ++ rest)) ((if c.ignore then [] else [o]) ++ outs)

/-! ## Steps of the code -/

/-- The input that is still to be treated. -/
def Rem (s : St) (l : List UInt8) : Prop := (if s.skip then s.ch :: s.r else s.r) = l

/-- Nothing stored, and the last character as it was. -/
def Kept (s t : St) : Prop := Same s t ∧ t.skip = s.skip

theorem Kept.refl (s : St) : Kept s s := ⟨Same.refl s, rfl⟩

theorem Kept.trans {a b c : St} (h : Kept a b) (k : Kept b c) : Kept a c := ⟨h.1.trans k.1, k.2.trans h.2⟩

theorem read_cons {s : St} {b : UInt8} {l : List UInt8} (h : s.r = b :: l) : ∃ t, s.read = some t ∧ Kept s t ∧ t.ch = b ∧ t.r = l := by
  unfold St.read
  rw [h]
  exact ⟨_, rfl, ⟨⟨rfl, rfl, rfl⟩, rfl⟩, rfl, rfl⟩

theorem read_nil {s : St} (h : s.r = []) : s.read = none := by
  unfold St.read
  rw [h]

theorem maybeRead_cons {s : St} {b : UInt8} {l : List UInt8} (h : Rem s (b :: l)) : ∃ t, s.maybeRead = .ok t ∧ Kept s t ∧ t.ch = b ∧ t.r = l := by
  unfold Rem at h
  unfold St.maybeRead
  cases hs : s.skip with
  | true =>
    rw [hs] at h
    injection h with h1 h2
    exact ⟨s, rfl, Kept.refl s, h1, h2⟩
  | false =>
    rw [hs] at h
    obtain ⟨t, h1, h2⟩ := read_cons h
    rw [h1]
    exact ⟨t, rfl, h2⟩

theorem isWs_iff {b : UInt8} (h : b ≠ 0x85 ∧ b ≠ 0xA0) : isWs b = true ↔ Ws b := by
  unfold isWs Ws
  simp only [Bool.or_eq_true, Bool.and_eq_true, decide_eq_true_eq, beq_iff_eq]
  constructor
  · rintro (((h1 | h1) | h1) | h1)
    · exact .inr h1
    · exact .inl h1
    · exact absurd h1 h.1
    · exact absurd h1 h.2
  · rintro (h1 | h1)
    · exact .inl (.inl (.inr h1))
    · exact .inl (.inl (.inl h1))

theorem skipWs_run {w : List UInt8} {s : St} {b : UInt8} {l : List UInt8} (h : s.ch :: s.r = w ++ b :: l) (hw : ∀ x ∈ w, isWs x = true)
    (hb : isWs b = false) : ∃ t, s.skipWs = .ok t ∧ Kept s t ∧ t.ch = b ∧ t.r = l := by
  induction w generalizing s with
  | nil =>
    injection h with h1 h2
    unfold St.skipWs
    rw [h1, hb]
    exact ⟨s, rfl, Kept.refl s, h1, h2⟩
  | cons x w ih =>
    injection h with h1 h2
    have h2 : s.r = w ++ b :: l := h2
    have : ∃ y m, w ++ b :: l = y :: m := by cases w <;> exact ⟨_, _, rfl⟩
    obtain ⟨y, m, hy⟩ := this
    obtain ⟨t, h3, h4, h5, h6⟩ := read_cons (h2.trans hy)
    unfold St.skipWs
    rw [if_pos (by rw [h1]; exact hw x (List.mem_cons_self ..))]
    split
    · rename_i h; rw [h3] at h; cases h
    · rename_i t' h
      rw [h3] at h
      injection h with h
      subst h
      obtain ⟨u, g1, g2, g3⟩ := ih (s := t) (by rw [h5, h6, hy]) fun x hx => hw x (List.mem_cons_of_mem _ hx)
      exact ⟨u, g1, h4.trans g2, g3⟩

/-- White space up to the end of the input. -/
theorem skipWs_end {s : St} (h : ∀ x ∈ s.ch :: s.r, isWs x = true) : s.skipWs = ret s s.matched := by
  fun_induction St.skipWs s with
  | case1 s _ hr => rfl
  | case2 s _ t hr ih =>
    have hk : Same s t := read_same hr
    rw [ih ?_]
    · unfold ret
      rw [hk.1, hk.2.2]
    · unfold St.read at hr
      split at hr
      · cases hr
      · rename_i b r hb
        injection hr with hr
        subst hr
        intro x hx
        exact h x (List.mem_cons_of_mem _ (by rw [hb]; exact hx))
  | case3 s hn => exact absurd (h s.ch (List.mem_cons_self ..)) hn

/-- What is left behind a run of characters which was ended by the width or by the next character. -/
def Left (width : Option Nat) (text rest : List UInt8) (u : St) : Prop :=
  (width = some text.length → u.r = rest) ∧ (width ≠ some text.length → ∀ b l, rest = b :: l → u.ch = b ∧ u.r = l)

theorem more_of {width : Option Nat} {n : Nat} (h : ∀ w ∈ width, n + 1 ≤ w) : more width = true := by
  cases width with
  | none => rfl
  | some w => have := h w rfl; simp [more]; omega

theorem dec_eq {width : Option Nat} {n : Nat} (h : ∀ w ∈ width, n + 1 ≤ w) : dec width = some n ↔ width = some (n + 1) := by
  cases width with
  | none => simp [dec]
  | some w => have := h w rfl; simp only [dec, Option.map_some, Option.some.injEq]; omega

theorem more_dec {width : Option Nat} (h : ∀ w ∈ width, 1 ≤ w) : more (dec width) = false ↔ width = some 1 := by
  cases width with
  | none => simp [dec, more]
  | some w => have := h w rfl; simp [dec, more]; omega

theorem text_run {ok : UInt8 → Bool} {c : UInt8} {text : List UInt8} {s : St} {width : Option Nat} {rest l : List UInt8} (h : s.ch :: s.r = (c :: text) ++ rest)
    (hok : ∀ x ∈ c :: text, ok x = true) (hw : ∀ w ∈ width, (c :: text).length ≤ w)
    (hend : width = some (c :: text).length ∨ ∀ b, rest.head? = some b → ok b = false) :
    ∃ u, s.text ok width l = (l ++ c :: text, width.map (· - (c :: text).length), decide (rest = [] ∧ width ≠ some (c :: text).length), u) ∧ Kept s u ∧
      Left width (c :: text) rest u := by
  induction text generalizing s width l c with
  | nil =>
    injection h with h1 h2
    have h2 : s.r = rest := h2
    unfold St.text
    rw [if_pos (by rw [more_of (n := 0) hw, h1]; exact hok c (List.mem_cons_self ..))]
    dsimp only
    by_cases hm : width = some 1
    · rw [if_neg (by rw [(more_dec hw).2 hm]; decide)]
      refine ⟨s, by rw [h1]; simp [dec, hm], Kept.refl s, fun _ => h2, fun h => absurd hm h⟩
    · rw [if_pos (by cases h : more (dec width) with | true => rfl | false => exact absurd ((more_dec hw).1 h) hm)]
      cases hr : rest with
      | nil =>
        have := read_nil (h2.trans hr)
        split
        · exact ⟨s, by rw [h1]; simp [dec, hm], Kept.refl s, fun h => absurd h hm, fun _ b l hb => by cases hb⟩
        · rename_i h; rw [this] at h; cases h
      | cons b m =>
        obtain ⟨t, g1, g2, g3, g4⟩ := read_cons (h2.trans hr)
        split
        · rename_i h; rw [g1] at h; cases h
        · rename_i t' h
          rw [g1] at h
          injection h with h
          subst h
          unfold St.text
          have hb : ok t.ch = false := by
            rw [g3]
            rcases hend with h | h
            · exact absurd h hm
            · exact h b (by rw [hr]; rfl)
          rw [if_neg (by rw [hb]; simp)]
          refine ⟨t, by rw [h1]; simp [dec], g2, fun h => absurd h hm, fun _ b' l' hb' => ?_⟩
          injection hb' with e1 e2
          rw [g3, g4, e1, e2]
          exact ⟨rfl, rfl⟩
  | cons d text ih =>
    injection h with h1 h2
    have h2 : s.r = d :: (text ++ rest) := h2
    obtain ⟨t, g1, g2, g3, g4⟩ := read_cons h2
    have hw' : ∀ w ∈ dec width, (d :: text).length ≤ w := by
      intro w hw1
      cases width with
      | none => cases hw1
      | some v =>
        have := hw v rfl
        simp only [dec, Option.map_some, Option.mem_def, Option.some.injEq] at hw1
        simp only [List.length_cons] at this ⊢
        omega
    have hdec : dec width = some (d :: text).length ↔ width = some (c :: d :: text).length := dec_eq hw
    unfold St.text
    rw [if_pos (by rw [more_of (n := (d :: text).length) hw, h1]; exact hok c (List.mem_cons_self ..))]
    dsimp only
    rw [if_pos (more_of (n := text.length) hw')]
    split
    · rename_i h; rw [g1] at h; cases h
    · rename_i t' h
      rw [g1] at h
      injection h with h
      subst h
      obtain ⟨u, k1, k2, k3, k4⟩ := ih (s := t) (c := d) (l := l ++ [s.ch]) (width := dec width) (by rw [g3, g4]; rfl)
        (fun x hx => hok x (List.mem_cons_of_mem _ hx)) hw' (hend.imp hdec.2 id)
      refine ⟨u, ?_, g2.trans k2, fun h => k3 (hdec.2 h), fun h => k4 fun g => h (hdec.1 g)⟩
      rw [k1, h1]
      simp only [ne_eq, hdec, List.append_assoc, List.singleton_append, Prod.mk.injEq, true_and, and_true]
      cases width with
      | none => rfl
      | some w => simp only [dec, Option.map_some, Option.some.injEq, List.length_cons]; omega

/-- The characters are all taken by the loop over a number. -/
def Numerals (float : Bool) (radix : Nat) : Bool → List UInt8 → Prop
  | _, [] => True
  | dot, c :: l => numeral float dot radix c = true ∧ Numerals float radix (dot || c == 0x2E) l

theorem number_run {float auto pointer : Bool} {radix : Nat} {c : UInt8} {text : List UInt8} {s : St} {dot : Bool} {width : Option Nat} {rest n : List UInt8}
    (h : s.ch :: s.r = (c :: text) ++ rest) (hauto : auto = true → n = [] → c ≠ 0x30)
    (hok : Numerals float radix dot (c :: text)) (hw : ∀ w ∈ width, (c :: text).length ≤ w)
    (hend : width = some (c :: text).length ∨ ∀ b, rest.head? = some b → numeral float (dot || (c :: text).contains 0x2E) radix b = false) :
    ∃ u, s.number float auto pointer dot radix width n = .ok (radix, width.map (· - (c :: text).length), n ++ c :: text, u) ∧ Kept s u ∧
      Left width (c :: text) rest u := by
  induction text generalizing s width n c dot with
  | nil =>
    injection h with h1 h2
    have h2 : s.r = rest := h2
    unfold St.number
    rw [if_pos (by rw [more_of (n := 0) hw, h1]; exact hok.1)]
    rw [if_neg (by
      rw [h1]
      intro hh
      simp only [Bool.and_eq_true, List.isEmpty_iff, beq_iff_eq] at hh
      exact hauto hh.1.1 hh.1.2 hh.2)]
    dsimp only
    by_cases hm : width = some 1
    · rw [if_neg (by rw [(more_dec hw).2 hm]; decide)]
      refine ⟨s, by rw [h1]; simp [dec, hm], Kept.refl s, fun _ => h2, fun h => absurd hm h⟩
    · rw [if_pos (by cases h : more (dec width) with | true => rfl | false => exact absurd ((more_dec hw).1 h) hm)]
      cases hr : rest with
      | nil =>
        have := read_nil (h2.trans hr)
        split
        · exact ⟨s, by rw [h1]; simp [dec], Kept.refl s, fun h => absurd h hm, fun _ b l hb => by cases hb⟩
        · rename_i h; rw [this] at h; cases h
      | cons b m =>
        obtain ⟨t, g1, g2, g3, g4⟩ := read_cons (h2.trans hr)
        split
        · rename_i h; rw [g1] at h; cases h
        · rename_i t' h
          rw [g1] at h
          injection h with h
          subst h
          unfold St.number
          have hb : numeral float (dot || s.ch == 0x2E) radix t.ch = false := by
            rw [g3, h1]
            rcases hend with h | h
            · exact absurd h hm
            · have := h b (by rw [hr]; rfl)
              rw [List.contains_cons, List.contains_nil, Bool.or_false, Bool.beq_comm] at this
              exact this
          rw [if_neg (by rw [hb]; simp)]
          refine ⟨t, by rw [h1]; simp [dec], g2, fun h => absurd h hm, fun _ b' l' hb' => ?_⟩
          injection hb' with e1 e2
          rw [g3, g4, e1, e2]
          exact ⟨rfl, rfl⟩
  | cons d text ih =>
    injection h with h1 h2
    have h2 : s.r = d :: (text ++ rest) := h2
    obtain ⟨t, g1, g2, g3, g4⟩ := read_cons h2
    have hw' : ∀ w ∈ dec width, (d :: text).length ≤ w := by
      intro w hw1
      cases width with
      | none => cases hw1
      | some v =>
        have := hw v rfl
        simp only [dec, Option.map_some, Option.mem_def, Option.some.injEq] at hw1
        simp only [List.length_cons] at this ⊢
        omega
    have hdec : dec width = some (d :: text).length ↔ width = some (c :: d :: text).length := dec_eq hw
    unfold St.number
    rw [if_pos (by rw [more_of (n := (d :: text).length) hw, h1]; exact hok.1)]
    rw [if_neg (by
      rw [h1]
      intro hh
      simp only [Bool.and_eq_true, List.isEmpty_iff, beq_iff_eq] at hh
      exact hauto hh.1.1 hh.1.2 hh.2)]
    dsimp only
    rw [if_pos (more_of (n := text.length) hw')]
    split
    · rename_i h; rw [g1] at h; cases h
    · rename_i t' h
      rw [g1] at h
      injection h with h
      subst h
      obtain ⟨u, k1, k2, k3, k4⟩ := ih (s := t) (c := d) (n := n ++ [s.ch]) (width := dec width) (dot := dot || s.ch == 0x2E) (by rw [g3, g4]; rfl)
        (fun _ h => absurd h (by simp)) (by rw [h1]; exact hok.2) hw' (hend.imp hdec.2 fun h b hb => by
          have := h b hb
          rw [List.contains_cons] at this
          rw [h1, Bool.or_assoc]
          rwa [Bool.beq_comm] at this)
      refine ⟨u, ?_, g2.trans k2, fun h => k3 (hdec.2 h), fun h => k4 fun g => h (hdec.1 g)⟩
      rw [k1, h1]
      simp only [List.append_assoc, List.singleton_append]
      cases width with
      | none => rfl
      | some w =>
        simp only [dec, Option.map_some, List.length_cons]
        rw [show w - 1 - (text.length + 1) = w - (text.length + 1 + 1) by omega]

theorem chars_run {c : UInt8} {text : List UInt8} {s : St} {width : Option Nat} {rest l : List UInt8} (h : s.ch :: s.r = (c :: text) ++ rest)
    (hw : width = some (c :: text).length ∨ width = none ∧ text = []) :
    ∃ u, s.chars width l (c :: text).length = (l ++ c :: text, width.map (· - (c :: text).length), decide (rest = [] ∧ width = none), u) ∧ Kept s u ∧
      Left width (c :: text) rest u := by
  induction text generalizing s width l c with
  | nil =>
    injection h with h1 h2
    have h2 : s.r = rest := h2
    show ∃ u, s.chars width l 1 = _ ∧ _
    unfold St.chars
    dsimp only
    rcases hw with rfl | ⟨rfl, -⟩
    · rw [if_neg (by simp [more, dec])]
      exact ⟨s, by rw [h1]; simp [St.chars, dec], Kept.refl s, fun _ => h2, fun h => absurd rfl h⟩
    · rw [if_pos (by decide)]
      cases hr : rest with
      | nil =>
        rw [read_nil (h2.trans hr)]
        exact ⟨s, by rw [h1]; simp [dec], Kept.refl s, ⟨nofun, nofun⟩⟩
      | cons b m =>
        obtain ⟨t, g1, g2, g3, g4⟩ := read_cons (h2.trans hr)
        rw [g1]
        refine ⟨t, by rw [h1]; simp [St.chars, dec], g2, ⟨nofun, fun _ b' l' hb' => ?_⟩⟩
        injection hb' with e1 e2
        rw [g3, g4, e1, e2]
        exact ⟨rfl, rfl⟩
  | cons d text ih =>
    injection h with h1 h2
    have h2 : s.r = d :: (text ++ rest) := h2
    obtain ⟨t, g1, g2, g3, g4⟩ := read_cons h2
    rcases hw with rfl | ⟨-, hw⟩
    · show ∃ u, s.chars _ l ((d :: text).length + 1) = _ ∧ _
      unfold St.chars
      dsimp only
      rw [if_pos (by simp [more, dec]), g1]
      obtain ⟨u, k1, k2, k3, k4⟩ := ih (s := t) (c := d) (l := l ++ [s.ch]) (width := some (d :: text).length) (by rw [g3, g4]; rfl) (.inl rfl)
      refine ⟨u, ?_, g2.trans k2, fun _ => k3 rfl, fun h => absurd rfl h⟩
      show t.chars (some (d :: text).length) _ _ = _
      rw [k1, h1]
      simp
    · cases hw

theorem numeral_iff {base : Nat} (hb : base = 8 ∨ base = 10 ∨ base = 16) (dot : Bool) (b : UInt8) : numeral false dot base b = true ↔ DigitOf base b := by
  unfold numeral DigitOf Digit
  simp only [Bool.false_and, Bool.or_false, Bool.or_eq_true, Bool.and_eq_true, decide_eq_true_eq, beq_iff_eq, UInt8.le_iff_toNat_le, UInt8.reduceToNat]
  constructor
  · intro h
    by_cases h1 : b.toNat ≤ 57
    · exact ⟨b.toNat - 48, by omega, by omega⟩
    · by_cases h2 : b.toNat ≤ 70
      · exact ⟨b.toNat - 55, by omega, by omega⟩
      · exact ⟨b.toNat - 87, by omega, by omega⟩
  · rintro ⟨v, h, hv⟩
    omega

theorem numeral_real (dot : Bool) {b : UInt8} (h : DigitOf 10 b) : numeral true dot 10 b = true := by
  have := (numeral_iff (.inr (.inl rfl)) dot b).2 h
  unfold numeral at this ⊢
  simp only [Bool.or_eq_true, Bool.and_eq_true] at this ⊢
  rcases this with ((h | h) | h) | h
  · exact .inl (.inl (.inl h))
  · exact .inl (.inl (.inr h))
  · exact absurd h.1.1 (by decide)
  · exact .inr h

theorem digitVal_eq {b : UInt8} {v : Nat} (h : Digit b v) (hv : v < 16) : digitVal b = v := by
  unfold Digit at h
  unfold digitVal
  simp only [UInt8.le_iff_toNat_le, UInt8.reduceToNat]
  split
  · omega
  · split <;> omega

theorem reads_spec {base : Nat} (hb : base = 8 ∨ base = 10 ∨ base = 16) {l : List UInt8} {n : Nat} (h : Reads base l n) :
    value base l = n ∧ (∀ b ∈ l, DigitOf base b) ∧ l ≠ [] := by
  induction h with
  | @one b v h1 h2 =>
    refine ⟨?_, fun x hx => ?_, by simp⟩
    · simp [value, digitVal_eq h1 (by omega)]
    · rw [List.mem_singleton.1 hx]
      exact ⟨v, h1, h2⟩
  | @more l n b v _ h1 h2 ih =>
    obtain ⟨i1, i2, i3⟩ := ih
    refine ⟨?_, fun x hx => ?_, by simp⟩
    · unfold value at i1 ⊢
      rw [List.foldl_append, i1]
      simp [digitVal_eq h1 (by omega)]
    · rcases List.mem_append.1 hx with hx | hx
      · exact i2 x hx
      · rw [List.mem_singleton.1 hx]
        exact ⟨v, h1, h2⟩

theorem numerals_of {base : Nat} (hb : base = 8 ∨ base = 10 ∨ base = 16) {l : List UInt8} (h : ∀ b ∈ l, DigitOf base b) (dot : Bool) :
    Numerals false base dot l := by
  induction l generalizing dot with
  | nil => trivial
  | cons c l ih => exact ⟨(numeral_iff hb dot c).2 (h c (List.mem_cons_self ..)), ih (fun b hb => h b (List.mem_cons_of_mem _ hb)) _⟩

theorem numerals_real {a b text : List UInt8} (h : ∀ x ∈ a ++ b, DigitOf 10 x) (ht : text = a ++ b ∨ text = a ++ 0x2E :: b) :
    Numerals true 10 false text := by
  have h2 : ∀ (l : List UInt8) (dot : Bool), (∀ x ∈ l, DigitOf 10 x) → Numerals true 10 dot l := by
    intro l
    induction l with
    | nil => intros; trivial
    | cons c l ih => intro dot h; exact ⟨numeral_real dot (h c (List.mem_cons_self ..)), ih _ fun b hb => h b (List.mem_cons_of_mem _ hb)⟩
  rcases ht with rfl | rfl
  · exact h2 _ _ h
  · have h3 : ∀ x ∈ a, DigitOf 10 x := fun x hx => h x (List.mem_append_left _ hx)
    have h4 : ∀ x ∈ b, DigitOf 10 x := fun x hx => h x (List.mem_append_right _ hx)
    clear h
    induction a with
    | nil => exact ⟨by decide, h2 _ _ h4⟩
    | cons c a ih =>
      have hc := h3 c (List.mem_cons_self ..)
      refine ⟨numeral_real false hc, ?_⟩
      have : (c == 0x2E) = false := by
        rw [beq_eq_false_iff_ne]
        rintro rfl
        obtain ⟨v, h, hv⟩ := hc
        unfold Digit at h
        simp only [UInt8.reduceToNat] at h
        omega
      rw [this]
      exact ih fun x hx => h3 x (List.mem_cons_of_mem _ hx)

/-- The objects with the numbers of their arguments. -/
def numbered (k : Nat) (outs : List Out) : List (Nat × Out) := (List.range' k outs.length).zip outs

theorem numbered_append (k : Nat) (a b : List Out) : numbered k (a ++ b) = numbered k a ++ numbered (k + a.length) b := by
  unfold numbered
  rw [List.length_append, ← List.range'_append_1, List.zip_append (by simp)]

/-- One part of the format has been treated. -/
def Done (is : List Item) (s : St) (new : List Out) (rest : List UInt8) (p : Bool) (r : Run St) : Prop :=
  match r with
  | .ok t => t.out = s.out ++ numbered s.arg new ∧ t.arg = s.arg + new.length ∧ t.matched = s.matched + new.length ∧ (is = [] ∨ Rem t rest ∧ t.skip = p)
  | .error e => is = [] ∧ e = (s.matched + new.length, s.out ++ numbered s.arg new)

theorem done_of {is : List Item} {s t : St} {new : List Out} {rest : List UInt8} {p : Bool} {r : Run St} (h : Same s t) (k : Done is t new rest p r) :
    Done is s new rest p r := by
  unfold Done at *
  rw [h.1, h.2.1, h.2.2] at k
  exact k

theorem store_facts (u : St) (ignore : Bool) (o : Out) : (u.store ignore o).out = u.out ++ numbered u.arg (if ignore then [] else [o]) ∧
    (u.store ignore o).arg = u.arg + (if ignore then [] else [o]).length ∧
    (u.store ignore o).matched = u.matched + (if ignore then [] else [o]).length ∧ (u.store ignore o).skip = u.skip ∧
    (u.store ignore o).ch = u.ch ∧ (u.store ignore o).r = u.r := by
  unfold St.store
  cases ignore <;> simp [numbered]

theorem finish_done {is : List Item} {s u : St} {c : Conv} {text rest : List UInt8} {p p' eof : Bool} {d : UInt8} (o : Out) (hk : Kept s u) (hs : s.skip = p)
    (hl : Left c.width text rest u) (hg : Goes c text rest is p p') (hc : c.what ≠ .str) (hw : ∀ w ∈ c.width, text.length ≤ w) (hd : d ≠ 0x6E)
    (he : eof = true → rest = [] ∧ c.width ≠ some text.length) :
    Done is s (if c.ignore then [] else [o]) rest p' (finish (u.store c.ignore o) eof (c.width.map (· - text.length)) d) := by
  have hstore := store_facts u c.ignore o
  refine done_of hk.1 ?_
  generalize u.store c.ignore o = v at hstore ⊢
  generalize (if c.ignore then [] else [o]) = new at hstore ⊢
  obtain ⟨s1, s2, s3, s4, s5, s6⟩ := hstore
  unfold finish
  cases eof with
  | true =>
    obtain ⟨e1, e2⟩ := he rfl
    rw [if_pos rfl]
    refine ⟨?_, by rw [s1, s3]⟩
    rcases hg with h | h | h | h
    · exact h
    · exact absurd e1 h.2.2
    · exact absurd h.1 e2
    · exact absurd h.1 e2
  | false =>
    rw [if_neg (by decide)]
    rcases hg with h | h | h | h
    · unfold Done
      dsimp only
      split <;> exact ⟨s1, s2, s3, .inl h⟩
    · obtain ⟨h1, h2, h3⟩ := h
      rw [if_pos ⟨by
        intro h
        cases hcw : c.width with
        | none => rw [hcw] at h; cases h
        | some w =>
          have := hw w hcw
          rw [hcw] at h h1
          simp only [Option.map_some, Option.some.injEq, ne_eq] at h h1
          omega, hd⟩]
      refine ⟨s1, s2, s3, .inr ⟨?_, h2.symm⟩⟩
      cases hr : rest with
      | nil => exact absurd hr h3
      | cons b l =>
        obtain ⟨k1, k2⟩ := hl.2 h1 b l hr
        unfold Rem
        rw [if_pos rfl]
        dsimp only
        rw [s5, s6, k1, k2]
    · obtain ⟨h1, h2, h3, h4⟩ := h
      rw [if_neg (by rw [h1]; simp)]
      refine ⟨s1, s2, s3, .inr ⟨?_, by rw [s4, hk.2, hs, h3, h4]⟩⟩
      unfold Rem
      rw [s4, hk.2, hs, h3, if_neg (by decide), s6]
      exact hl.1 h1
    · exact absurd h.2.1 hc

theorem kind_bits (l : Len) : l.kind.bits = l.bits := by cases l <;> rfl

theorem execNumber_int {parses : Bool → List UInt8 → Bool} {s t u : St} {ignore : Bool} {width width' : Option Nat} {len : Len} {d : UInt8} {radix : Nat}
    {n : List UInt8} (hd : d ∈ [0x64, 0x69, 0x6F, 0x75, 0x78, 0x58]) (h1 : s.skipWs = .ok t)
    (h2 : t.number false (d == 0x69) false false (baseOf d) width [] = .ok (radix, width', n, u))
    (hv : value radix n < 2 ^ (if d = 0x64 ∨ d = 0x69 ∨ len = .t then len.bits - 1 else len.bits)) :
    execNumber parses s ignore width len.kind d = .ok (width', u.store ignore (.int len.bits (value radix n))) := by
  unfold execNumber
  rw [h1]
  rw [← kind_bits] at hv ⊢
  have key : ∀ d : UInt8, d ∈ [0x64, 0x69, 0x6F, 0x75, 0x78, 0x58] →
      (d == 0x66 || d == 0x65 || d == 0x67 || d == 0x45 || d == 0x61) = false ∧ (d == 0x70) = false ∧
      (if (d == 0x6F) = true then 8 else if (d == 0x78 || d == 0x58 || d == 0x70) = true then 16 else 10) = baseOf d ∧ ¬d = 0x70 ∧
      (d == 111 || d == 117 || d == 120 || d == 88) = !(decide (d = 0x64 ∨ d = 0x69)) := by
    unfold baseOf
    decide +kernel
  obtain ⟨e1, e2, e3, e4, e6⟩ := key d hd
  show ((t.number _ _ _ _ _ _ _) >>= _) = _
  rw [e1, e3, e2, Bool.or_false, h2]
  dsimp only [bind, Except.bind]
  rw [if_neg (by decide), if_neg e4]
  have e5 : (if ((d == 111 || d == 117 || d == 120 || d == 88) && len.kind != Kind.ptrDiff) = true then len.kind.bits else len.kind.bits - 1)
      = if d = 0x64 ∨ d = 0x69 ∨ len = .t then len.kind.bits - 1 else len.kind.bits := by
    rw [e6]
    by_cases h : d = 0x64 ∨ d = 0x69
    · rw [if_neg (by simp [h]), if_pos (h.elim .inl fun h => .inr (.inl h))]
    · have : (len.kind != Kind.ptrDiff) = !(decide (len = .t)) := by cases len <;> rfl
      rw [this]
      by_cases h' : len = .t
      · rw [if_neg (by simp [h']), if_pos (.inr (.inr h'))]
      · rw [if_pos (by simp [h, h']), if_neg (fun g => g.elim (fun g => h (.inl g)) fun g => g.elim (fun g => h (.inr g)) h')]
  rw [if_pos (by rw [e5]; exact hv)]
  rfl

/-- A number with a leading 0, base chosen by the input: the loop behind the 0. -/
theorem number_zero {s t : St} (h : s.ch = 0x30) (hr : s.read = some t) (hx : ¬IsX t.ch) :
    s.number false true false false 10 none [] = t.number false true false false 8 none [] := by
  rw [St.number]
  rw [if_pos (by rw [h]; decide), if_pos (by rw [h]; decide)]
  dsimp only
  split
  · rename_i h'; rw [hr] at h'; cases h'
  · rename_i t' h'
    rw [hr] at h'
    injection h' with h'
    subst h'
    rw [if_neg (by
      unfold IsX at hx
      simp only [Bool.and_eq_true, Bool.or_eq_true, beq_iff_eq]
      exact fun g => hx g.2)]
    rfl

theorem number_x {s t u : St} (h : s.ch = 0x30) (hr : s.read = some t) (hx : IsX t.ch) (hr2 : t.read = some u) :
    s.number false true false false 10 none [] = u.number false true false false 16 none [] := by
  rw [St.number]
  rw [if_pos (by rw [h]; decide), if_pos (by rw [h]; decide)]
  dsimp only
  split
  · rename_i h'; rw [hr] at h'; cases h'
  · rename_i t' h'
    rw [hr] at h'
    injection h' with h'
    subst h'
    rw [if_pos (by
      unfold IsX at hx
      simp only [Bool.and_eq_true, Bool.or_eq_true, beq_iff_eq]
      exact ⟨rfl, hx⟩), if_pos (show more (dec (dec none)) = true from rfl)]
    split
    · rename_i h'; rw [hr2] at h'; cases h'
    · rename_i t' h'
      rw [hr2] at h'
      injection h' with h'
      subst h'
      rfl

theorem digit_not_x {b : UInt8} (h : DigitOf 8 b) : ¬IsX b := by
  obtain ⟨v, h, hv⟩ := h
  unfold Digit at h
  rintro (rfl | rfl) <;> simp only [UInt8.reduceToNat] at h <;> omega

theorem base_cases (d : UInt8) : baseOf d = 8 ∨ baseOf d = 10 ∨ baseOf d = 16 := by
  unfold baseOf
  split
  · exact .inl rfl
  · split
    · exact .inr (.inr rfl)
    · exact .inr (.inl rfl)

/-- A conversion of a number, given what the loop does. -/
theorem int_done {parses : Bool → List UInt8 → Bool} {ignore : Bool} {width : Option Nat} {len : Len} {d : UInt8} {is : List Item} {p p' : Bool} {s t v u : St}
    {text rest : List UInt8} {radix : Nat} {n : List UInt8} (hd : d ∈ [0x64, 0x69, 0x6F, 0x75, 0x78, 0x58]) (hs : s.skip = p)
    (h0 : s.maybeRead = .ok t) (k0 : Kept s t) (h1 : t.skipWs = .ok v) (k1 : Kept t v)
    (h2 : v.number false (d == 0x69) false false (baseOf d) width [] = .ok (radix, width.map (· - text.length), n, u)) (k2 : Kept v u)
    (hl : Left width text rest u) (hv : value radix n < 2 ^ (if d = 0x64 ∨ d = 0x69 ∨ len = .t then len.bits - 1 else len.bits))
    (hw : ∀ w ∈ width, text.length ≤ w) (hg : Goes ⟨ignore, width, len, .int d⟩ text rest is p p') :
    ∃ r, exec parses s (Item.conv ⟨ignore, width, len, .int d⟩).dir = some r ∧
      Done is s (if ignore then [] else [.int len.bits (value radix n)]) rest p' r := by
  have key : ∀ d : UInt8, d ∈ [0x64, 0x69, 0x6F, 0x75, 0x78, 0x58] →
      d ∈ [0x64, 0x69, 0x6F, 0x75, 0x78, 0x58, 0x66, 0x65, 0x67, 0x45, 0x61, 0x70] ∧ d ≠ 0x6E := by decide +kernel
  refine ⟨finish (u.store ignore (.int len.bits (value radix n))) false (width.map (· - text.length)) d, ?_, ?_⟩
  · show execConv parses s ignore width len.kind d none = _
    rw [conv_number _ _ _ _ _ _ (key d hd).1, h0]
    dsimp only
    rw [execNumber_int hd h1 h2 hv]
    rfl
  · exact finish_done (c := ⟨ignore, width, len, .int d⟩) _ ((k0.trans k1).trans k2) hs hl hg (by simp) hw (key d hd).2 nofun

theorem conv_done {parses : Bool → List UInt8 → Bool} {c : Conv} {text rest w : List UInt8} {o : Out} {is : List Item} {p p' : Bool} {s : St} (hv : c.Valid)
    (hin : ∀ b ∈ text ++ rest, b ≠ 0x85 ∧ b ≠ 0xA0) (hr : Rem s (w ++ (text ++ rest))) (hs : s.skip = p) (hw : ∀ b ∈ w, isWs b = true)
    (hw2 : c.what = .chr ∨ (∃ i cs, c.what = .set i cs) → w = []) (ht : Takes parses c text rest o) (hg : Goes c text rest is p p') :
    ∃ r, exec parses s (Item.conv c).dir = some r ∧ Done is s (if c.ignore then [] else [o]) rest p' r := by
  have hne : text ≠ [] := by
    cases ht with
    | int h => exact (reads_spec (base_cases _) h).2.2
    | zero => simp
    | octal => simp
    | hex => simp
    | real _ h => exact h
    | str h => exact h
    | set h => exact h
    | chr _ h => exact h
  obtain ⟨x, tl, hx⟩ : ∃ x tl, text = x :: tl := by
    cases text with
    | nil => exact absurd rfl hne
    | cons x tl => exact ⟨x, tl, rfl⟩
  obtain ⟨y, m, hy⟩ : ∃ y m, w ++ (text ++ rest) = y :: m := by
    rw [hx]
    cases w <;> exact ⟨_, _, rfl⟩
  obtain ⟨t, h1, k1, h2, h3⟩ := maybeRead_cons (hy ▸ hr)
  have h4 : t.ch :: t.r = w ++ x :: (tl ++ rest) := by rw [h2, h3, ← hy, hx]; rfl
  have hskip : isWs x = false → ∃ v, t.skipWs = .ok v ∧ Kept t v ∧ v.ch = x ∧ v.r = tl ++ rest := skipWs_run h4 hw
  have hdigit : ∀ {base b}, base ≤ 16 → DigitOf base b → isWs b = false := by
    rintro base b hb ⟨v, h, hv⟩
    unfold Digit at h
    have : ¬isWs b = true := by
      unfold isWs
      simp only [Bool.or_eq_true, Bool.and_eq_true, decide_eq_true_eq, beq_iff_eq, UInt8.le_iff_toNat_le, ← UInt8.toNat_inj, UInt8.reduceToNat]
      omega
    simpa using this
  have h30 : DigitOf 10 0x30 := ⟨0, .inl ⟨by decide, by decide⟩, by decide⟩
  obtain ⟨hv1, hv2⟩ := hv
  cases ht with
  | @int ignore width len d _ _ v h5 h6 h7 h8 h9 =>
    obtain ⟨r1, r2, -⟩ := reads_spec (base_cases d) h5
    subst hx
    obtain ⟨v', g1, g2, g3, g4⟩ := hskip (hdigit (by rcases base_cases d with h | h | h <;> rw [h] <;> decide) (r2 x (List.mem_cons_self ..)))
    obtain ⟨u, e1, e2, e3⟩ := number_run (s := v') (n := []) (auto := d == 0x69) (pointer := false) (dot := false) (c := x) (text := tl) (rest := rest)
      (by rw [g3, g4]; rfl) (fun ha _ hx => h6 (by simpa using ha) (by rw [hx]; rfl)) (numerals_of (base_cases d) r2 false) h7
      (h8.imp id fun h b hb => by
        rw [← Bool.not_eq_true, numeral_iff (base_cases d)]
        exact h.1 b hb)
    have := int_done (parses := parses) (ignore := ignore) (len := len) hv2 hs h1 k1 g1 g2 e1 e2 e3 (by rw [List.nil_append, r1]; exact h9) h7 hg
    rw [List.nil_append, r1] at this
    exact this
  | @zero ignore len _ h5 h6 =>
    injection hx with hx1 hx2
    subst hx1 hx2
    obtain ⟨v', g1, g2, g3, g4⟩ := hskip (hdigit (by decide) h30)
    have : ∃ u, v'.number false true false false 10 none [] = .ok (8, none, [], u) ∧ Kept v' u ∧ Left none [0x30] rest u := by
      cases hrest : rest with
      | nil =>
        refine ⟨v', ?_, Kept.refl v', ⟨nofun, nofun⟩⟩
        rw [St.number]
        rw [if_pos (by rw [g3]; decide), if_pos (by rw [g3]; decide)]
        dsimp only
        split
        · rfl
        · rename_i h'
          rw [read_nil (g4.trans hrest)] at h'
          cases h'
      | cons b l =>
        obtain ⟨q, q1, q2, q3, q4⟩ := read_cons (g4.trans hrest)
        have hx := h6 b (by rw [hrest]; rfl)
        have hd := h5 b (by rw [hrest]; rfl)
        refine ⟨q, ?_, q2, ⟨nofun, fun _ b' l' h => ?_⟩⟩
        · rw [number_zero g3 q1 (by rw [q3]; exact hx), St.number]
          rw [if_neg (by
            rw [q3, Bool.and_eq_true, numeral_iff (.inl rfl)]
            exact fun h => hd h.2)]
        · injection h with e1 e2
          rw [q3, q4, e1, e2]
          exact ⟨rfl, rfl⟩
    obtain ⟨u, e1, e2, e3⟩ := this
    exact int_done (parses := parses) (ignore := ignore) (len := len) (width := none) (d := 0x69) (text := [0x30]) (by decide) hs h1 k1 g1 g2 e1 e2 e3
      (Nat.pow_pos (by decide)) nofun hg
  | @octal ignore len ds _ v h5 h6 h7 h8 =>
    obtain ⟨r1, r2, r3⟩ := reads_spec (.inl rfl) h5
    injection hx with hx1 hx2
    subst hx1 hx2
    obtain ⟨v', g1, g2, g3, g4⟩ := hskip (hdigit (by decide) h30)
    cases ds with
    | nil => exact absurd rfl r3
    | cons y ds =>
      obtain ⟨q, q1, q2, q3, q4⟩ := read_cons (b := y) (l := ds ++ rest) g4
      obtain ⟨u, e1, e2, e3⟩ := number_run (s := q) (n := []) (auto := true) (pointer := false) (dot := false) (width := none) (c := y) (text := ds) (rest := rest)
        (by rw [q3, q4]; rfl) (fun _ _ hy => h6 (by rw [hy]; rfl)) (numerals_of (.inl rfl) r2 false) nofun
        (.inr fun b hb => by
          rw [← Bool.not_eq_true, numeral_iff (.inl rfl)]
          exact h7 b hb)
      have hxq : ¬IsX q.ch := by rw [q3]; exact digit_not_x (r2 y (List.mem_cons_self ..))
      have := int_done (parses := parses) (ignore := ignore) (len := len) (width := none) (d := 0x69) (text := 0x30 :: y :: ds) (rest := rest) (by decide) hs h1 k1 g1 g2
        ((number_zero g3 q1 hxq).trans e1) (q2.trans e2) ⟨nofun, fun _ => e3.2 nofun⟩ (by rw [List.nil_append, r1]; exact h8) nofun hg
      rw [List.nil_append, r1] at this
      exact this
  | @hex ignore len xx ds _ v h0 h5 h6 h7 h8 =>
    obtain ⟨r1, r2, r3⟩ := reads_spec (.inr (.inr rfl)) h5
    injection hx with hx1 hx2
    subst hx1 hx2
    obtain ⟨v', g1, g2, g3, g4⟩ := hskip (hdigit (by decide) h30)
    cases ds with
    | nil => exact absurd rfl r3
    | cons y ds =>
      obtain ⟨q, q1, q2, q3, q4⟩ := read_cons (b := xx) (l := y :: ds ++ rest) g4
      obtain ⟨q', q1', q2', q3', q4'⟩ := read_cons (b := y) (l := ds ++ rest) q4
      obtain ⟨u, e1, e2, e3⟩ := number_run (s := q') (n := []) (auto := true) (pointer := false) (dot := false) (width := none) (c := y) (text := ds) (rest := rest)
        (by rw [q3', q4']; rfl) (fun _ _ hy => h6 (by rw [hy]; rfl)) (numerals_of (.inr (.inr rfl)) r2 false) nofun
        (.inr fun b hb => by
          rw [← Bool.not_eq_true, numeral_iff (.inr (.inr rfl))]
          exact h7 b hb)
      have := int_done (parses := parses) (ignore := ignore) (len := len) (width := none) (d := 0x69) (text := 0x30 :: xx :: y :: ds) (rest := rest) (by decide) hs h1 k1 g1 g2
        ((number_x g3 q1 (by rw [q3]; exact h0) q1').trans e1) ((q2.trans q2').trans e2) ⟨nofun, fun _ => e3.2 nofun⟩
        (by rw [List.nil_append, r1]; exact h8) nofun hg
      rw [List.nil_append, r1] at this
      exact this
  | @real ignore len d a b _ _ h5 h6 h7 h8 h9 =>
    obtain ⟨hd, hlen⟩ := hv2
    have hn := numerals_real h5 h7
    have hxd : isWs x = false := by
      have : x = 0x2E ∨ DigitOf 10 x := by
        have : x ∈ text := by rw [hx]; exact List.mem_cons_self ..
        rcases h7 with h | h
        · rw [h] at this
          exact .inr (h5 x this)
        · rw [h] at this
          simp only [List.mem_append, List.mem_cons] at this h5
          rcases this with h | h | h
          · exact .inr (h5 x (.inl h))
          · exact .inl h
          · exact .inr (h5 x (.inr h))
      rcases this with rfl | h
      · decide
      · exact hdigit (by decide) h
    subst hx
    obtain ⟨v', g1, g2, g3, g4⟩ := hskip hxd
    obtain ⟨u, e1, e2, e3⟩ := number_run (s := v') (n := []) (auto := false) (pointer := false) (dot := false) (width := none) (c := x) (text := tl) (rest := rest)
      (by rw [g3, g4]; rfl) nofun hn nofun
      (.inr fun b hb => by
        have hb' := h8 b hb
        rw [← Bool.not_eq_true]
        intro hh
        by_cases hdot : b = 0x2E
        · exact hb' (.inr (by rw [hdot]; decide))
        · refine hb' (.inl ((numeral_iff (.inr (.inl rfl)) false b).1 ?_))
          unfold numeral at hh ⊢
          simp only [Bool.or_eq_true, Bool.and_eq_true, beq_iff_eq] at hh ⊢
          rcases hh with ((h | h) | h) | h
          · exact .inl (.inl (.inl h))
          · exact .inl (.inl (.inr h))
          · exact absurd h.2 hdot
          · exact .inr h)
    have key : ∀ d : UInt8, d ∈ [0x66, 0x65, 0x67, 0x45, 0x61] →
        d ∈ [0x64, 0x69, 0x6F, 0x75, 0x78, 0x58, 0x66, 0x65, 0x67, 0x45, 0x61, 0x70] ∧ d ≠ 0x6E ∧ (d == 0x70) = false ∧ (d == 0x69) = false ∧
        (d == 0x66 || d == 0x65 || d == 0x67 || d == 0x45 || d == 0x61) = true ∧
        (if (d == 0x6F) = true then 8 else if (d == 0x78 || d == 0x58 || d == 0x70) = true then 16 else 10) = 10 := by
      decide +kernel
    obtain ⟨d1, d2, d3, d4, d5, d6⟩ := key d hd
    have hkind : decide (len.kind = .long ∨ len.kind = .longLong) = decide (len = .l) := by
      have h : len = .none ∨ len = .l := hlen
      rcases h with rfl | rfl <;> rfl
    refine ⟨finish (u.store ignore (.real (len = .l) (x :: tl))) false none d, ?_, ?_⟩
    · show execConv parses s ignore none len.kind d none = _
      rw [conv_number _ _ _ _ _ _ d1, h1]
      dsimp only
      have : execNumber parses t ignore none len.kind d = .ok (none, u.store ignore (.real (len = .l) (x :: tl))) := by
        unfold execNumber
        rw [g1]
        show ((v'.number _ _ _ _ _ _ _) >>= _) = _
        rw [d5, d6, d3, d4, Bool.or_false, e1]
        dsimp only [bind, Except.bind]
        rw [if_pos rfl, if_pos (.inr (by rw [hkind]; exact h9)), hkind]
        rfl
      rw [this]
      rfl
    · exact finish_done (c := ⟨ignore, none, len, .real d⟩) (text := x :: tl) _ ((k1.trans g2).trans e2) hs e3 hg (by simp) nofun d2 nofun
  | @str ignore width len _ _ h5 h6 h7 h8 =>
    have hws : ∀ b ∈ text ++ rest, (isWs b = true ↔ Ws b) := fun b hb => isWs_iff (hin b hb)
    subst hx
    obtain ⟨v', g1, g2, g3, g4⟩ := hskip (by
      rw [← Bool.not_eq_true, hws x (by simp)]
      exact h6 x (by simp))
    obtain ⟨u, e1, e2, e3⟩ := text_run (ok := fun b => !isWs b) (s := v') (c := x) (text := tl) (rest := rest) (width := width) (l := [])
      (by rw [g3, g4]; rfl) (fun b hb => by
        rw [Bool.not_eq_true', ← Bool.not_eq_true, hws b (List.mem_append_left _ hb)]
        exact h6 b hb) h7
      (h8.imp id fun h b hb => by
        have hm : b ∈ (x :: tl) ++ rest := by
          cases rest with
          | nil => cases hb
          | cons b' l =>
            injection hb with hb
            subst hb
            simp
        have := h b hb
        rw [Classical.not_not] at this
        rw [(hws b hm).2 this]
        rfl)
    have hexec : exec parses s (Item.conv ⟨ignore, width, len, .str⟩).dir =
        some (finish ((if width.map (· - (x :: tl).length) = some 0 then u.read.getD u else u).store ignore (.str (x :: tl)))
          (decide (rest = [] ∧ width ≠ some (x :: tl).length)) (width.map (· - (x :: tl).length)) 0x73) := by
      show execConv parses s ignore width len.kind 0x73 none = _
      rw [conv_str, h1]
      dsimp only
      rw [g1]
      show some (let r := v'.text (fun b => !isWs b) width []
        let s := if r.2.1 = some 0 then r.2.2.2.read.getD r.2.2.2 else r.2.2.2
        finish (s.store ignore (.str r.1)) r.2.2.1 r.2.1 0x73) = _
      rw [e1]
      rfl
    refine ⟨_, hexec, ?_⟩
    have hk := (k1.trans g2).trans e2
    by_cases hit : width = some (x :: tl).length
    · have hwid : width.map (· - (x :: tl).length) = some 0 := by rw [hit]; simp
      have heof : decide (rest = [] ∧ width ≠ some (x :: tl).length) = false := by simp [hit]
      rw [hwid, heof, if_pos rfl]
      have hu : Kept u (u.read.getD u) := by
        cases hrd : u.read with
        | none => exact Kept.refl u
        | some z =>
          refine ⟨read_same hrd, ?_⟩
          unfold St.read at hrd
          split at hrd
          · cases hrd
          · injection hrd with hrd
            subst hrd
            rfl
      obtain ⟨f1, f2, f3, f4, f5, f6⟩ := store_facts (u.read.getD u) ignore (.str (x :: tl))
      refine done_of (hk.trans hu).1 ⟨f1, f2, f3, ?_⟩
      rcases hg with h | h | h | h
      · exact .inl h
      · exact absurd hit h.1
      · exact absurd rfl h.2.1
      · obtain ⟨-, -, h3, h4, h5⟩ := h
        refine .inr ⟨?_, by rw [if_neg (by simp), f4, (hk.trans hu).2, hs, h3, h4]⟩
        rw [if_neg (by simp)]
        unfold Rem
        rw [f4, (hk.trans hu).2, hs, h3, if_pos rfl, f5, f6]
        cases hrest : rest with
        | nil => exact absurd hrest h5
        | cons b l =>
          obtain ⟨q, q1, q2, q3, q4⟩ := read_cons ((e3.1 hit).trans hrest)
          rw [q1]
          show q.ch :: q.r = _
          rw [q3, q4]
    · have hwid : width.map (· - (x :: tl).length) ≠ some 0 := by
        cases hwd : width with
        | none => nofun
        | some w =>
          have := h7 w hwd
          rw [hwd] at hit
          simp only [Option.map_some, ne_eq, Option.some.injEq] at hit ⊢
          omega
      rw [if_neg hwid]
      refine finish_done (c := ⟨ignore, width, len, .chr⟩) (text := x :: tl) (p := p) _ hk hs e3 ?_ (by simp) h7 (by decide) (by simp)
      rcases hg with h | h | h | h
      · exact .inl h
      · exact .inr (.inl h)
      · exact absurd h.1 hit
      · exact absurd h.1 hit
  | @set ignore width len invert cs _ _ h5 h6 h7 h8 =>
    obtain rfl := hw2 (.inr ⟨invert, cs, rfl⟩)
    obtain ⟨-, -, hel, -⟩ := hv2
    subst hx
    obtain ⟨u, e1, e2, e3⟩ := text_run (ok := fun b => invert != (cs.flatMap elemList).contains b) (s := t) (c := x) (text := tl) (rest := rest) (width := width) (l := [])
      h4 (fun b hb => (inSet_iff hel b).2 (h6 b hb)) h7
      (h8.imp id fun h b hb => by
        rw [← Bool.not_eq_true, inSet_iff hel b]
        exact h b hb)
    have hexec : exec parses s (Item.conv ⟨ignore, width, len, .set invert cs⟩).dir =
        some (finish (u.store ignore (.str (x :: tl)))
          (decide (rest = [] ∧ width ≠ some (x :: tl).length)) (width.map (· - (x :: tl).length)) 0x5B) := by
      show execConv parses s ignore width len.kind 0x5B (some (invert, cs.flatMap elemList)) = _
      rw [conv_set, h1]
      dsimp only
      rw [e1]
      dsimp only
      rw [List.nil_append, if_neg (show ¬x :: tl = [] by simp)]
      cases ignore <;> rfl
    exact ⟨_, hexec, finish_done (c := ⟨ignore, width, len, .set invert cs⟩) (text := x :: tl) _ (k1.trans e2) hs e3 hg (by simp) h7 (by decide) (by simp)⟩
  | @chr ignore width len _ _ h5 h6 =>
    obtain rfl := hw2 (.inl rfl)
    subst hx
    have hwid : width = some (x :: tl).length ∨ width = none ∧ tl = [] := by
      cases width with
      | none => exact .inr ⟨rfl, by simpa using h5⟩
      | some w => exact .inl (by rw [h5]; rfl)
    obtain ⟨u, e1, e2, e3⟩ := chars_run (s := t) (c := x) (text := tl) (rest := rest) (width := width) (l := []) h4 hwid
    have hexec : exec parses s (Item.conv ⟨ignore, width, len, .chr⟩).dir =
        some (finish (u.store ignore (.chars (x :: tl))) (decide (rest = [] ∧ width = none)) (width.map (· - (x :: tl).length)) 0x63) := by
      show execConv parses s ignore width len.kind 0x63 none = _
      rw [conv_chr, h1]
      dsimp only
      rw [← h5, e1]
      rfl
    refine ⟨_, hexec, finish_done (c := ⟨ignore, width, len, .chr⟩) (text := x :: tl) _ (k1.trans e2) hs e3 hg (by simp) ?_ (by decide) ?_⟩
    · intro w hw'
      rcases hwid with h | h
      · rw [h] at hw'
        injection hw' with hw'
        omega
      · rw [h.1] at hw'
        cases hw'
    · intro h
      simp only [decide_eq_true_eq] at h
      rw [h.2]
      exact ⟨h.1, nofun⟩

theorem execAll_match {parses : Bool → List UInt8 → Bool} {p : Bool} {is : List Item} {input : List UInt8} {outs : List Out} (h : Matches parses p is input outs)
    (hv : ∀ it ∈ is, it.Valid) (hin : ∀ b ∈ input, b ≠ 0x85 ∧ b ≠ 0xA0) {s : St} (hr : is = [] ∨ Rem s input ∧ s.skip = p) :
    execAll parses s is = some (s.matched + outs.length, s.out ++ numbered s.arg outs) := by
  have key : ∀ {it : Item} {is : List Item} {s : St} {new outs : List Out} {rest : List UInt8} {p' : Bool},
      (∃ r, exec parses s it.dir = some r ∧ Done is s new rest p' r) → (is = [] → outs = []) →
      (∀ {t : St}, is = [] ∨ Rem t rest ∧ t.skip = p' → execAll parses t is = some (t.matched + outs.length, t.out ++ numbered t.arg outs)) →
      execAll parses s (it :: is) = some (s.matched + (new ++ outs).length, s.out ++ numbered s.arg (new ++ outs)) := by
    intro it is s new outs rest p' ⟨r, h1, h2⟩ h3 ih
    unfold execAll
    rw [h1]
    cases r with
    | error e =>
      obtain ⟨h4, rfl⟩ := h2
      rw [h3 h4]
      simp
    | ok t =>
      obtain ⟨g1, g2, g3, g4⟩ := h2
      show execAll parses t is = _
      rw [ih g4, g1, g2, g3, numbered_append, List.append_assoc, List.length_append]
      congr 2
      omega
  have hnil : ∀ {p' rest outs}, Matches parses p' [] rest outs → outs = [] := by
    intro _ _ _ h
    cases h
    rfl
  induction h generalizing s with
  | nil => simp [execAll, numbered]
  | @space p is w rest outs h1 h2 h3 h4 hm ih =>
    obtain ⟨hr, hs⟩ := hr.resolve_left nofun
    refine key (new := []) (rest := rest) (p' := true) ?_ (fun h => hnil (h ▸ hm)) fun h => ih (fun i hi => hv i (List.mem_cons_of_mem _ hi))
      (fun b hb => hin b (List.mem_append_right _ hb)) h
    obtain ⟨y, m, hy⟩ : ∃ y m, w ++ rest = y :: m := by
      cases hw : w ++ rest with
      | nil => exact absurd hw h3
      | cons y m => exact ⟨y, m, rfl⟩
    obtain ⟨t, g1, k1, g2, g3⟩ := maybeRead_cons (hy ▸ hr)
    have hws : ∀ b ∈ w ++ rest, (isWs b = true ↔ Ws b) := fun b hb => isWs_iff (hin b hb)
    refine ⟨_, rfl, ?_⟩
    rw [g1]
    refine done_of k1.1 ?_
    cases hrest : rest with
    | nil =>
      have : t.skipWs = ret t t.matched := skipWs_end fun x hx => by
        rw [g2, g3, ← hy] at hx
        rw [hws x hx]
        rw [hrest, List.append_nil] at hx
        exact h1 x hx
      show Done _ _ _ _ _ (t.skipWs >>= _)
      rw [this]
      exact ⟨h4 hrest, by simp [numbered]⟩
    | cons b l =>
      obtain ⟨u, q1, q2, q3, q4⟩ := skipWs_run (s := t) (w := w) (b := b) (l := l) (by rw [g2, g3, ← hy, hrest])
        (fun x hx => (hws x (List.mem_append_left _ hx)).2 (h1 x hx))
        (by
          rw [← Bool.not_eq_true, hws b (by rw [hrest]; simp)]
          exact h2 b (by rw [hrest]; rfl))
      show Done _ _ _ _ _ (t.skipWs >>= _)
      rw [q1]
      refine ⟨by simp [q2.1.1, numbered], q2.1.2.1, by simp [q2.1.2.2], .inr ⟨?_, rfl⟩⟩
      show u.ch :: u.r = _
      rw [q3, q4]
  | @lit p is c rest outs h1 hm ih =>
    obtain ⟨hr, hs⟩ := hr.resolve_left nofun
    refine key (new := []) (rest := rest) (p' := false) ?_ (fun h => hnil (h ▸ hm)) fun h => ih (fun i hi => hv i (List.mem_cons_of_mem _ hi))
      (fun b hb => hin b (List.mem_cons_of_mem _ hb)) h
    obtain ⟨t, g1, k1, g2, g3⟩ := maybeRead_cons hr
    refine ⟨_, rfl, ?_⟩
    rw [g1]
    refine done_of k1.1 ?_
    show Done _ _ _ _ _ (if c ≠ t.ch then _ else _)
    rw [if_neg (by rw [g2]; simp)]
    exact ⟨by simp [numbered], rfl, by simp, .inr ⟨g3, rfl⟩⟩
  | @other p is c d rest h1 h2 =>
    obtain ⟨hr, hs⟩ := hr.resolve_left nofun
    obtain ⟨t, g1, k1, g2, g3⟩ := maybeRead_cons hr
    unfold execAll
    have : exec parses s (Item.lit c).dir = some (ret t t.matched) := by
      show some (s.maybeRead >>= _) = _
      rw [g1]
      show some (if c ≠ t.ch then _ else _) = _
      rw [if_pos (by rw [g2]; exact h2)]
      rfl
    rw [this]
    simp only [ret, k1.1.1, k1.1.2.2]
    simp [numbered]
  | @percent p is w rest outs h1 h2 hm ih =>
    obtain ⟨hr, hs⟩ := hr.resolve_left nofun
    refine key (new := []) (rest := rest) (p' := true) ?_ (fun h => hnil (h ▸ hm)) fun h => ih (fun i hi => hv i (List.mem_cons_of_mem _ hi))
      (fun b hb => hin b (List.mem_append_right _ (List.mem_cons_of_mem _ hb))) h
    obtain ⟨y, m, hy⟩ : ∃ y m, w ++ 0x25 :: rest = y :: m := by cases w <;> exact ⟨_, _, rfl⟩
    obtain ⟨t, g1, k1, g2, g3⟩ := maybeRead_cons (hy ▸ hr)
    obtain ⟨u, q1, q2, q3, q4⟩ := skipWs_run (s := t) (w := w) (b := 0x25) (l := rest) (by rw [g2, g3, ← hy])
        (fun x hx => (isWs_iff (hin x (List.mem_append_left _ hx))).2 (h1 x hx)) (by decide)
    have hexec : exec parses s Item.percent.dir = some (match u.read with | none => ret u u.matched | some s => finish s false none 0x25) := by
      show execConv parses s false none .int 0x25 none = _
      unfold execConv
      rw [if_pos (by decide), g1]
      dsimp only
      rw [if_pos rfl, q1]
      show some (if u.ch ≠ 0x25 then _ else _) = _
      rw [if_neg (by rw [q3]; simp)]
      rfl
    refine ⟨_, hexec, done_of (k1.trans q2).1 ?_⟩
    cases hrest : rest with
    | nil =>
      rw [read_nil (q4.trans hrest)]
      exact ⟨h2 hrest, by simp [numbered]⟩
    | cons b l =>
      obtain ⟨z, z1, z2, z3, z4⟩ := read_cons (q4.trans hrest)
      rw [z1]
      refine ⟨by simp [z2.1.1, numbered], z2.1.2.1, by simp [z2.1.2.2], .inr ⟨?_, rfl⟩⟩
      show z.ch :: z.r = _
      rw [z3, z4]
  | @conv p p' is c w text rest o outs h1 h2 h3 h4 hm ih =>
    obtain ⟨hr, hs⟩ := hr.resolve_left nofun
    refine key (rest := rest) (p' := p') ?_ (fun h => hnil (h ▸ hm)) fun h => ih (fun i hi => hv i (List.mem_cons_of_mem _ hi))
      (fun b hb => hin b (List.mem_append_right _ (List.mem_append_right _ hb))) h
    exact conv_done (hv _ (List.mem_cons_self ..)) (fun b hb => hin b (List.mem_append_right _ hb)) hr hs
      (fun x hx => (isWs_iff (hin x (List.mem_append_left _ hx))).2 (h1 x hx)) h2 h3 h4

/-! ## The theorem -/

/-- C78: if the input fits the format, `sscanf` stores, through the arguments in order, the values that the standard prescribes, and returns their number.
Missing from the full statement: negative numbers, exponents, `%p` and `%n`; `0x` for `%x`; numbers that are followed by the end of the input while the format goes on;
widths in the situations left out by `Goes`; see the witnesses below. -/
theorem C78_match_partial {parses : Bool → List UInt8 → Bool} {is : List Item} {input : List UInt8} {outs : List Out} (hv : ∀ it ∈ is, it.Valid)
    (hin : ∀ b ∈ input, b ≠ 0x85 ∧ b ≠ 0xA0) (h : Matches parses false is input outs) :
    sscanf parses input (format is) = some ((outs.length : Int), (List.range outs.length).zip outs) := by
  unfold sscanf
  rw [run_format parses hv, execAll_match (s := ⟨input, 0, false, 0, 0, 0, []⟩) h hv hin (.inr ⟨rfl, rfl⟩)]
  simp [numbered, List.range_eq_range']

/-- Negative numbers are stored as 0, and counted; what follows is out of step. -/
theorem C78_negative_violation : sscanf (fun _ _ => true) [0x2D, 0x35] [0x25, 0x64] = some (1, [(0, .int 32 0)]) := by decide +kernel

/-- Letters where a number should be: 0 is stored, and counted. -/
theorem C78_no_number_violation : sscanf (fun _ _ => true) [0x61] [0x25, 0x64] = some (1, [(0, .int 32 0)]) := by decide +kernel

/-- `12` for `%d%d`: the last digit is taken twice, and two numbers are counted. -/
theorem C78_end_violation : sscanf (fun _ _ => true) [0x31, 0x32] [0x25, 0x64, 0x25, 0x64] = some (2, [(0, .int 32 12), (1, .int 32 2)]) := by decide +kernel

/-- ` 1234` for ` %2d%2d`: 12 and 23. -/
theorem C78_width_violation : sscanf (fun _ _ => true) [0x20, 0x31, 0x32, 0x33, 0x34] [0x20, 0x25, 0x32, 0x64, 0x25, 0x32, 0x64] =
    some (2, [(0, .int 32 12), (1, .int 32 23)]) := by decide +kernel

/-- `abcdef` for `%3s%3s`: `abc` and `ef`. -/
theorem C78_string_width_violation : sscanf (fun _ _ => true) [0x61, 0x62, 0x63, 0x64, 0x65, 0x66] [0x25, 0x33, 0x73, 0x25, 0x33, 0x73] =
    some (2, [(0, .str [0x61, 0x62, 0x63]), (1, .str [0x65, 0x66])]) := by decide +kernel

/-- `12 x` for `%d%n`: two characters have been consumed, three are reported. -/
theorem C78_count_violation : sscanf (fun _ _ => true) [0x31, 0x32, 0x20, 0x78] [0x25, 0x64, 0x25, 0x6E] =
    some (1, [(0, .int 32 12), (1, .int 32 3)]) := by decide +kernel

/-- `0x0f` for `%i`: 0 instead of 15. -/
theorem C78_hex_zero_violation : sscanf (fun _ _ => true) [0x30, 0x78, 0x30, 0x66] [0x25, 0x69] = some (1, [(0, .int 32 0)]) := by decide +kernel

/-- `0x1f` for `%x`: 0 instead of 31. -/
theorem C78_hex_prefix_violation : sscanf (fun _ _ => true) [0x30, 0x78, 0x31, 0x66] [0x25, 0x78] = some (1, [(0, .int 32 0)]) := by decide +kernel

/-- The UTF-8 encoding of `à` (C3 A0) for `%s`: cut at the byte A0. -/
theorem C78_utf8_violation : sscanf (fun _ _ => true) [0xC3, 0xA0, 0x62] [0x25, 0x73] = some (1, [(0, .str [0xC3])]) := by decide +kernel

/-- A tab in the format matches only a tab. -/
theorem C78_tab_violation : sscanf (fun _ _ => true) [0x20, 0x35] [0x09, 0x25, 0x64] = some (0, []) := by decide +kernel

/-- `%hhn` stores 32 bits. -/
theorem C78_count_size_violation : sscanf (fun _ _ => true) [0x61] [0x61, 0x25, 0x68, 0x68, 0x6E] = some (0, [(0, .int 32 1)]) := by decide +kernel

/-- A character that is not in the set: the scan goes on with the next conversion, and the next argument. -/
theorem C78_set_violation : sscanf (fun _ _ => true) [0x35, 0x20] [0x25, 0x5B, 0x61, 0x5D, 0x25, 0x64] = some (1, [(1, .int 32 5)]) := by decide +kernel

/-- A format with an unfinished set: the function does not return. -/
theorem C78_hang_violation : sscanf (fun _ _ => true) [0x35] [0x25, 0x5B, 0x61] = none := by decide +kernel

/-- An exponent is not read. -/
theorem C78_exponent_violation : sscanf (fun _ _ => true) [0x31, 0x65, 0x35] [0x25, 0x66] = some (1, [(0, .real false [0x31])]) := by decide +kernel

/-- `12:07 ab` for `%2d:%2d %[a-z]`. -/
example : Matches (fun _ _ => true) false
    [.conv ⟨false, some 2, .none, .int 0x64⟩, .lit 0x3A, .conv ⟨false, some 2, .none, .int 0x64⟩, .space, .conv ⟨false, none, .none, .set false [(0x61, some 0x7A)]⟩]
    [0x31, 0x32, 0x3A, 0x30, 0x37, 0x20, 0x61, 0x62] [.int 32 12, .int 32 7, .str [0x61, 0x62]] := by
  have d : ∀ v, v < 10 → Digit (UInt8.ofNat (48 + v)) v := by unfold Digit; decide
  have r12 : Reads 10 [0x31, 0x32] 12 := .more (.one (d 1 (by decide)) (by decide)) (d 2 (by decide)) (by decide)
  have r07 : Reads 10 [0x30, 0x37] 7 := .more (.one (d 0 (by decide)) (by decide)) (d 7 (by decide)) (by decide)
  have hws : ¬Ws 0x61 := by unfold Ws; decide
  exact .conv (w := []) (text := [0x31, 0x32]) (rest := [0x3A, 0x30, 0x37, 0x20, 0x61, 0x62]) (o := .int 32 12) (outs := [.int 32 7, .str [0x61, 0x62]]) nofun nofun
    (.int (d := 0x64) (v := 12) r12 nofun (by simp) (.inl rfl) (by decide)) (.inr (.inr (.inl ⟨rfl, nofun, rfl, rfl⟩)))
    (.lit (by unfold Ws; decide) (.conv (w := []) (text := [0x30, 0x37]) (rest := [0x20, 0x61, 0x62]) (o := .int 32 7) (outs := [.str [0x61, 0x62]]) nofun nofun
      (.int (d := 0x64) (v := 7) r07 nofun (by simp) (.inl rfl) (by decide)) (.inr (.inr (.inl ⟨rfl, nofun, rfl, rfl⟩)))
      (.space (w := [0x20]) (rest := [0x61, 0x62]) (by unfold Ws; simp) (by rintro b ⟨⟩; exact hws) nofun nofun
        (.conv (w := []) (text := [0x61, 0x62]) (rest := []) (o := .str [0x61, 0x62]) (outs := []) nofun (fun _ => rfl)
          (.set nofun (by unfold InSet; decide) nofun (.inr nofun)) (.inl rfl) (.nil (p := false))))))

end Verif.Scanf
