import Verif.Time.StrptimeProps
/-!
# `strptime` reads what `strftime` writes (C96)
-/

namespace Verif.Time.Strptime
open Verif.Time Verif.Mem
open Verif.Wchar (utf8s Scalar)

/-! ## Specification -/

/-- What can stand between two conversions: ASCII, but not a letter, a digit, `%`. -/
def Separates (d : Char) : Prop := d.toNat < 0x80 ∧ ¬ d.isAlphanum ∧ d ≠ '%'

/-- The conversions the theorem is about. -/
def kinds : List Char := ['Y', 'm', 'd', 'H', 'M', 'S', 'j', 'a', 'A', 'b', 'B', 'h', 'F', 'T']

/-- A format made of such conversions, in this order, with characters in front of and between them. -/
inductive Layout : List Char → List Char → Prop
  | empty : Layout [] []
  | text {d f cs} : Separates d → Layout f cs → Layout (d :: f) cs
  | last {c} : c ∈ kinds → Layout ['%', c] [c]
  | next {c d f cs} : c ∈ kinds → Separates d → Layout f cs → Layout ('%' :: c :: d :: f) (c :: cs)

/-- The fields that a conversion is about, taken from `tm`. -/
def take (tm : Tm) (t : Tm) (c : Char) : Tm :=
  match c with
  | 'Y' => { t with year := tm.year }
  | 'm' | 'b' | 'B' | 'h' => { t with mon := tm.mon }
  | 'd' => { t with mday := tm.mday }
  | 'H' => { t with hour := tm.hour }
  | 'M' => { t with min := tm.min }
  | 'S' => { t with sec := tm.sec }
  | 'j' => { t with yday := tm.yday }
  | 'a' | 'A' => { t with wday := tm.wday }
  | 'F' => { t with year := tm.year, mon := tm.mon, mday := tm.mday }
  | 'T' => { t with hour := tm.hour, min := tm.min, sec := tm.sec }
  | _ => t

/-! ## Lemmas -/

theorem digit_toNat {k : Nat} (h : k < 10) : (digit k).toNat = 48 + k := by
  unfold digit
  rw [UInt8.toNat_ofNat']
  omega

theorem digit_is {k : Nat} (h : k < 10) : IsDigit (digit k) := by
  unfold IsDigit
  rw [UInt8.le_iff_toNat_le, UInt8.le_iff_toNat_le, digit_toNat h]
  exact ⟨by show 48 ≤ _; omega, by show _ ≤ 57; omega⟩

theorem decimal_two {n : Nat} (h : n < 100) : Decimal (two n) n := by
  refine ⟨by simp [two], ?_, ?_⟩
  · intro b hb
    simp only [two, List.mem_cons, List.not_mem_nil, or_false] at hb
    rcases hb with rfl | rfl <;> exact digit_is (by omega)
  · simp only [two, List.foldl_cons, List.foldl_nil, digit_toNat (show n / 10 < 10 by omega), digit_toNat (show n % 10 < 10 by omega)]
    omega

theorem decimal_three {n : Nat} (h : n < 1000) : Decimal (three n) n := by
  refine ⟨by simp [three], ?_, ?_⟩
  · intro b hb
    simp only [three, List.mem_cons, List.not_mem_nil, or_false] at hb
    rcases hb with rfl | rfl | rfl <;> exact digit_is (by omega)
  · simp only [three, List.foldl_cons, List.foldl_nil, digit_toNat (show n / 100 < 10 by omega), digit_toNat (show n / 10 % 10 < 10 by omega),
      digit_toNat (show n % 10 < 10 by omega)]
    omega

theorem decimal_four {n : Nat} (h : n < 10000) : Decimal (four n) n := by
  refine ⟨by simp [four], ?_, ?_⟩
  · intro b hb
    simp only [four, List.mem_cons, List.not_mem_nil, or_false] at hb
    rcases hb with rfl | rfl | rfl | rfl <;> exact digit_is (by omega)
  · simp only [four, List.foldl_cons, List.foldl_nil, digit_toNat (show n / 1000 < 10 by omega), digit_toNat (show n / 100 % 10 < 10 by omega),
      digit_toNat (show n / 10 % 10 < 10 by omega), digit_toNat (show n % 10 < 10 by omega)]
    omega

theorem short_length : (∀ k : Fin 7, ((text (weekdays.getD k.val "")).take 3).length = 3)
    ∧ (∀ k : Fin 12, ((text (months.getD k.val "")).take 3).length = 3) := by decide +kernel

theorem getD_mem {l : List String} {k : Nat} (h : k < l.length) : l.getD k "" ∈ l := by
  rw [List.getD_eq_getElem?_getD, List.getElem?_eq_getElem h]
  exact List.getElem_mem h

/-- What a conversion writes is what it reads. -/
theorem piece {tm : Tm} (hm : tm.Modern) {c : Char} (hc : c ∈ kinds) (hF : c ≠ 'F') (hT : c ≠ 'T') {i : List UInt8}
    (hd : NotNext IsDigit i) (hl : NotNext IsLetter i) :
    ∃ s, posixConversion tm c = some s ∧ ∀ t, Means c s t (take tm t c) ∧ Ends c s i t := by
  obtain ⟨⟨n1, n2, n3, n4, n5, n6, n7⟩, hy, _⟩ := hm
  have hfy : tm.fullYear = 1900 + tm.year.toInt := rfl
  obtain ⟨s1, s2⟩ := short_length
  simp only [kinds, List.mem_cons, List.not_mem_nil, or_false] at hc
  rcases hc with h | h | h | h | h | h | h | h | h | h | h | h | h | h <;> subst h
  · refine ⟨_, rfl, fun t => ⟨⟨tm.fullYear.toNat, decimal_four (by omega), by omega, ?_⟩, hd⟩⟩
    have : ((tm.fullYear.toNat : Int) - 1900) = tm.year.toInt := by omega
    rw [this, Int32.ofInt_toInt]
    rfl
  · refine ⟨_, rfl, fun t => ⟨⟨tm.mon.toInt.toNat + 1, decimal_two (by omega), Nat.le_refl _, by omega, by omega, ?_⟩, .inl rfl⟩⟩
    rw [Nat.add_sub_cancel, ← i32_nat n5.1]
    rfl
  · refine ⟨_, rfl, fun t => ⟨⟨tm.mday.toInt.toNat, decimal_two (by omega), Nat.le_refl _, by omega, by omega, ?_⟩, .inl rfl⟩⟩
    rw [← i32_nat (by omega)]
    rfl
  · refine ⟨_, rfl, fun t => ⟨⟨tm.hour.toInt.toNat, decimal_two (by omega), Nat.le_refl _, by omega, ?_⟩, .inl rfl⟩⟩
    rw [← i32_nat (by omega)]
    rfl
  · refine ⟨_, rfl, fun t => ⟨⟨tm.min.toInt.toNat, decimal_two (by omega), Nat.le_refl _, by omega, ?_⟩, .inl rfl⟩⟩
    rw [← i32_nat (by omega)]
    rfl
  · refine ⟨_, rfl, fun t => ⟨⟨tm.sec.toInt.toNat, decimal_two (by omega), Nat.le_refl _, by omega, ?_⟩, .inl rfl⟩⟩
    rw [← i32_nat (by omega)]
    rfl
  · refine ⟨_, rfl, fun t => ⟨⟨tm.yday.toInt.toNat + 1, decimal_three (by omega), Nat.le_refl _, by omega, by omega, ?_⟩, .inl rfl⟩⟩
    rw [Nat.add_sub_cancel, ← i32_nat n7.1]
    rfl
  · refine ⟨_, rfl, fun t => ⟨⟨tm.wday.toInt.toNat, by omega, .inr rfl, ?_⟩, s1 ⟨tm.wday.toInt.toNat, by omega⟩, hl⟩⟩
    rw [← i32_nat (by omega)]
    rfl
  · refine ⟨_, rfl, fun t => ⟨⟨tm.wday.toInt.toNat, by omega, .inl rfl, ?_⟩, _, getD_mem (by show _ < 7; omega), rfl⟩⟩
    rw [← i32_nat (by omega)]
    rfl
  · refine ⟨_, rfl, fun t => ⟨⟨tm.mon.toInt.toNat, by omega, .inr rfl, ?_⟩, s2 ⟨tm.mon.toInt.toNat, by omega⟩, hl⟩⟩
    rw [← i32_nat (by omega)]
    rfl
  · refine ⟨_, rfl, fun t => ⟨⟨tm.mon.toInt.toNat, by omega, .inl rfl, ?_⟩, _, getD_mem (by show _ < 12; omega), rfl⟩⟩
    rw [← i32_nat (by omega)]
    rfl
  · refine ⟨_, rfl, fun t => ⟨⟨tm.mon.toInt.toNat, by omega, .inr rfl, ?_⟩, s2 ⟨tm.mon.toInt.toNat, by omega⟩, hl⟩⟩
    rw [← i32_nat (by omega)]
    rfl
  · exact absurd rfl hF
  · exact absurd rfl hT

theorem notNext_cons {p : UInt8 → Prop} {b : UInt8} (l : List UInt8) (h : ¬ p b) : NotNext p (b :: l) := by
  intro x hx
  injection hx with hx
  rw [← hx]
  exact h

theorem letter_iff {b : UInt8} : IsLetter b ↔ 0x41 ≤ b ∧ b ≤ 0x5A ∨ 0x61 ≤ b ∧ b ≤ 0x7A := by
  unfold IsLetter
  revert b
  exact fun {b} => byte_table (P := fun b => 0x41 ≤ fold b - 0x20 ∧ fold b - 0x20 ≤ 0x5A ↔ 0x41 ≤ b ∧ b ≤ 0x5A ∨ 0x61 ≤ b ∧ b ≤ 0x7A)
    (by decide +kernel) b

theorem separates_byte {d : Char} (h : Separates d) : ¬ IsDigit (byteOf d) ∧ ¬ IsLetter (byteOf d) ∧ byteOf d ≠ byteOf '%' := by
  obtain ⟨h1, h2, h3⟩ := h
  have key : ∀ n : Fin 128, ¬ (Char.ofNat n.val).isAlphanum → Char.ofNat n.val ≠ '%' →
      ¬ (0x30 ≤ byteOf (Char.ofNat n.val) ∧ byteOf (Char.ofNat n.val) ≤ 0x39)
      ∧ ¬ (0x41 ≤ byteOf (Char.ofNat n.val) ∧ byteOf (Char.ofNat n.val) ≤ 0x5A ∨ 0x61 ≤ byteOf (Char.ofNat n.val) ∧ byteOf (Char.ofNat n.val) ≤ 0x7A)
      ∧ byteOf (Char.ofNat n.val) ≠ byteOf '%' := by decide +kernel
  have := key ⟨d.toNat, h1⟩
  rw [show Char.ofNat (Fin.val (⟨d.toNat, h1⟩ : Fin 128)) = d from Char.ofNat_toNat d] at this
  rw [letter_iff]
  exact this h2 h3

/-- The same for the conversions that stand for formats. -/
theorem piece_all {tm : Tm} (hm : tm.Modern) {c : Char} (hc : c ∈ kinds) {i : List UInt8} (hd : NotNext IsDigit i) (hl : NotNext IsLetter i) :
    ∃ s, posixConversion tm c = some s ∧ ∀ t f rest tm', Reads f i rest (take tm t c) tm' → Reads ('%' :: c :: f) (s ++ i) rest t tm' := by
  have colon : ∀ l, NotNext IsDigit ((0x3A : UInt8) :: l) ∧ NotNext IsLetter ((0x3A : UInt8) :: l) := fun l =>
    ⟨notNext_cons l (by unfold IsDigit; decide), notNext_cons l (by unfold IsLetter; decide)⟩
  have dash : ∀ l, NotNext IsDigit ((0x2D : UInt8) :: l) ∧ NotNext IsLetter ((0x2D : UInt8) :: l) := fun l =>
    ⟨notNext_cons l (by unfold IsDigit; decide), notNext_cons l (by unfold IsLetter; decide)⟩
  have one : ∀ {c : Char} {i : List UInt8}, c ∈ kinds → c ≠ 'F' → c ≠ 'T' → NotNext IsDigit i → NotNext IsLetter i →
      ∃ s, posixConversion tm c = some s ∧ ∀ t f rest tm', Reads f i rest (take tm t c) tm' → Reads ('%' :: c :: f) (s ++ i) rest t tm' := by
    intro c i hc hF hT hd hl
    obtain ⟨s, h1, h2⟩ := piece hm hc hF hT hd hl
    exact ⟨s, h1, fun t f rest tm' h => .conversion (p := ['%', c]) (.inl rfl) (h2 t).1 (h2 t).2 h⟩
  by_cases hF : c = 'F'
  · subst hF
    obtain ⟨s3, e3, r3⟩ := one (c := 'd') (i := i) (by simp [kinds]) (by decide) (by decide) hd hl
    obtain ⟨s2, e2, r2⟩ := one (c := 'm') (i := 0x2D :: (s3 ++ i)) (by simp [kinds]) (by decide) (by decide) (dash _).1 (dash _).2
    obtain ⟨s1, e1, r1⟩ := one (c := 'Y') (i := 0x2D :: (s2 ++ 0x2D :: (s3 ++ i))) (by simp [kinds]) (by decide) (by decide) (dash _).1 (dash _).2
    injection e1 with e1; injection e2 with e2; injection e3 with e3
    refine ⟨_, rfl, fun t f rest tm' h => ?_⟩
    refine .format (p := ['%', 'F']) (t := take tm t 'F') (j := i) (.inl rfl) rfl ?_ h
    have := r1 t _ i (take tm t 'F') (.byte (c := '-') (by decide) (r2 _ _ i _ (.byte (c := '-') (by decide) (r3 _ [] i _ .done))))
    rw [← e1, ← e2, ← e3] at this
    simp only [List.append_assoc]
    exact this
  · by_cases hT : c = 'T'
    · subst hT
      obtain ⟨s3, e3, r3⟩ := one (c := 'S') (i := i) (by simp [kinds]) (by decide) (by decide) hd hl
      obtain ⟨s2, e2, r2⟩ := one (c := 'M') (i := 0x3A :: (s3 ++ i)) (by simp [kinds]) (by decide) (by decide) (colon _).1 (colon _).2
      obtain ⟨s1, e1, r1⟩ := one (c := 'H') (i := 0x3A :: (s2 ++ 0x3A :: (s3 ++ i))) (by simp [kinds]) (by decide) (by decide) (colon _).1 (colon _).2
      injection e1 with e1; injection e2 with e2; injection e3 with e3
      refine ⟨_, rfl, fun t f rest tm' h => ?_⟩
      refine .format (p := ['%', 'T']) (t := take tm t 'T') (j := i) (.inl rfl) rfl ?_ h
      have := r1 t _ i (take tm t 'T') (.byte (c := ':') (by decide) (r2 _ _ i _ (.byte (c := ':') (by decide) (r3 _ [] i _ .done))))
      rw [← e1, ← e2, ← e3] at this
      simp only [List.append_assoc]
      exact this
    · exact one hc hF hT hd hl

theorem kinds_handled (tm : Tm) {c : Char} (h : c ∈ kinds) : Handled tm c := by
  refine .inl ?_
  have : ∀ c ∈ kinds, c ∈ ("%ntaAbhByYmdejHkIlMSpPuwzZDxFRTXr" : String).toList := by decide +kernel
  exact this c h

theorem kinds_ascii : ∀ c ∈ kinds, c.toNat < 0x80 := by decide

theorem layout_ascii {f cs : List Char} (h : Layout f cs) : Ascii f := by
  induction h with
  | empty => intro c hc; cases hc
  | text hd _ ih =>
    intro c hc
    rcases List.mem_cons.1 hc with h | h
    · rw [h]; exact hd.1
    · exact ih c h
  | last hc =>
    intro c h
    simp only [List.mem_cons, List.not_mem_nil, or_false] at h
    rcases h with h | h
    · rw [h]; decide
    · rw [h]; exact kinds_ascii _ hc
  | next hc hd _ ih =>
    intro c h
    simp only [List.mem_cons] at h
    rcases h with h | h | h | h
    · rw [h]; decide
    · rw [h]; exact kinds_ascii _ hc
    · rw [h]; exact hd.1
    · exact ih c h

theorem layout_reads {tm : Tm} (hm : tm.Modern) {f cs : List Char} (h : Layout f cs) :
    ∃ o, Describes tm (f.map byteOf) o ∧ ∀ t, Reads f o [] t (cs.foldl (take tm) t) := by
  have none : ∀ p : UInt8 → Prop, NotNext p [] := fun p b hb => by cases hb
  induction h with
  | empty => exact ⟨[], .done, fun t => .done⟩
  | @text d f cs hd _ ih =>
    obtain ⟨o, h1, h2⟩ := ih
    obtain ⟨b1, b2, b3⟩ := separates_byte hd
    exact ⟨byteOf d :: o, .byte b3 h1, fun t => .byte hd.2.2 (h2 t)⟩
  | @last c hc =>
    obtain ⟨s, h1, h2⟩ := piece_all hm hc (none _) (none _)
    exact ⟨s ++ [], .conversion h1 (kinds_handled tm hc) .done, fun t => h2 t [] [] _ .done⟩
  | @next c d f cs hc hd _ ih =>
    obtain ⟨o, h1, h2⟩ := ih
    obtain ⟨b1, b2, b3⟩ := separates_byte hd
    obtain ⟨s, g1, g2⟩ := piece_all hm hc (notNext_cons o b1) (notNext_cons o b2)
    exact ⟨s ++ byteOf d :: o, .conversion g1 (kinds_handled tm hc) (.byte b3 h1), fun t => g2 t _ [] _ (.byte hd.2.2 (h2 _))⟩

/-! ## Theorems -/

/-- C96, for the conversions `kinds` with something between them: whatever `strftime` has written into a buffer that is large enough, `strptime` with the
same format reads it to its end and gets back the fields. Missing: the other conversions that both functions know (`%p` with `%I`, `%y`, `%e`, `%D`,
`C96_blank_violation`), and formats without separators (`C96_adjacent_violation`). -/
theorem C96_roundtrip_partial (z : Zone) {m : Mem UInt8} {tm : Tm} {s maxsize : Nat} {f cs : List Char} (hm : tm.Modern) (hf : Layout f cs)
    (hne : f ≠ []) (hb : Mapped m s maxsize) {n : Nat} {m' : Mem UInt8} {tm' : Tm} (hn : 0 < n)
    (h : strftime z m s maxsize (f.map byteOf) tm = some (n, m', tm')) :
    ∃ o, o.length = n ∧ Bytes m' s (o ++ [0]) ∧ ∀ t, strptime o (f.map byteOf) t = some (cs.foldl (take tm) t, some []) := by
  obtain ⟨o, h1, h2⟩ := layout_reads hm hf
  have hmax : 2 ≤ maxsize := by
    unfold strftime at h
    cases h1 : Verif.Time.inner z 2 (f.map byteOf) tm [] with
    | none => rw [h1] at h; cases h
    | some r =>
      rw [h1] at h
      dsimp only [Option.bind_eq_bind, Option.bind_some] at h
      cases h2 : writeEach ⟨s, maxsize⟩ m r.2.2 with
      | none => rw [h2] at h; cases h
      | some q =>
        rw [h2] at h
        dsimp only [Option.bind_some] at h
        injection h with h
        injection h with h _
        generalize (if r.1 = true then r.2.2.flatten.length else 0) = x at h
        split at h <;> omega
  obtain ⟨c1, c2⟩ := C93_text_partial z hm h1 (by simpa using hne) hb hmax
  by_cases hlt : o.length < maxsize
  · have e := c1 hlt
    rw [h] at e
    injection e with e
    injection e with e1 e2
    injection e2 with e2 e3
    refine ⟨o, e1.symm, ?_, fun t => ?_⟩
    · rw [e2]
      exact bytes_patch m s _
    · exact C95_reads_partial (h2 t) (layout_ascii hf) ⟨[], by simp, rfl⟩
  · obtain ⟨m'', e, _⟩ := c2 (by omega)
    rw [h] at e
    injection e with e
    injection e with e1 _
    omega

/-! ## Concrete cases -/

/-- Nothing known. -/
def noTime : Tm := ⟨0, 0, 0, 0, 0, 0, 0, 0, -1, 0, none⟩

example : Layout "%A %F, %H:%M:%S".toList ['A', 'F', 'H', 'M', 'S'] :=
  .next (by decide) (by unfold Separates; decide) (.next (by decide) (by unfold Separates; decide) (.text (by unfold Separates; decide)
    (.next (by decide) (by unfold Separates; decide) (.next (by decide) (by unfold Separates; decide) (.last (by decide))))))

example : shown "%A %F, %H:%M:%S" leapTime 30 = some (29, some (Time.text "Thursday 2024-02-29, 13:05:09" ++ [0]))
    ∧ strptime (Time.text "Thursday 2024-02-29, 13:05:09") (Time.text "%A %F, %H:%M:%S") noTime
      = some (⟨9, 5, 13, 29, 1, 124, 4, 0, -1, 0, none⟩, some []) := by decide +kernel

/-- The result of `strptime` for texts: the structure is given by day, month, year and hour only, the rest as its number of bytes. -/
def result (i f : String) : Option (Option (List Int × Nat)) :=
  (strptime (Time.text i) (Time.text f) noTime).map fun r =>
    r.2.map fun rest => ([r.1.mday.toInt, r.1.mon.toInt, r.1.year.toInt, r.1.hour.toInt, r.1.wday.toInt], rest.length)

/-- C96 is violated: the blank that `%e` writes is not read, and neither are the texts of `%R`, `%r`, `%x`, `%X`, `%w`, `%u`, `%C`, `%Z`. -/
theorem C96_blank_violation : posixConversion newYear 'e' = some (Time.text " 1") ∧ Handled newYear 'e' ∧ result " 1" "%e" = some none
    ∧ result "13:05" "%R" = some none ∧ result "01:05:09 PM" "%r" = some none ∧ result "02/29/24" "%x" = some none
    ∧ result "13:05:09" "%X" = some none ∧ result "4" "%w" = some none ∧ result "4" "%u" = some none ∧ result "20" "%C" = some none
    ∧ result "UTC" "%Z" = some none :=
  ⟨by decide +kernel, .inl (by decide +kernel), by decide +kernel, by decide +kernel, by decide +kernel, by decide +kernel, by decide +kernel,
    by decide +kernel, by decide +kernel, by decide +kernel, by decide +kernel⟩

/-- C96 is violated: without separators, `%Y` reads all the digits. -/
theorem C96_adjacent_violation : shown "%Y%m%d" leapTime 8 = some (8, some (Time.text "20240229")) ∧ result "20240229" "%Y%m%d" = some none := by
  decide +kernel

end Verif.Time.Strptime
