import Verif.Time.AsctimeProps
import Verif.Time.CalendarProps
/-!
# `strftime` (C93)
-/

namespace Verif.Time
open Verif.Mem Verif.Stdlib Verif.Stdio
open Verif.Net (OnlyWithin within_patch)

/-! ## Specification -/

/-- The hour on a dial. -/
def dial (hour : Nat) : Nat := if hour % 12 = 0 then 12 else hour % 12

/-- The number of the week, if weeks begin `since` days before the day `yday`: days in front of the first beginning of a week
are in week 0. -/
def weekNumber (yday since : Int) : Nat :=
  let first := (yday - since) % 7
  if yday < first then 0 else ((yday - first) / 7).toNat + 1

/-- Year and number of the week according to ISO 8601: those of its Thursday, with week 1 being the one with the first
Thursday. -/
def isoWeek (year yday wday : Int) : Int × Nat :=
  let thursday := yday - (wday + 6) % 7 + 3
  if thursday < 0 then (year - 1, ((thursday + daysBefore (year - 1) 12) / 7).toNat + 1)
  else if daysBefore year 12 ≤ thursday then (year + 1, ((thursday - daysBefore year 12) / 7).toNat + 1)
  else (year, (thursday / 7).toNat + 1)

/-- `+hhmm` or `-hhmm`. -/
def utcOffset (seconds : Int) : List UInt8 :=
  (if seconds < 0 then 0x2D else 0x2B) :: (two (seconds.natAbs / 3600) ++ two (seconds.natAbs / 60 % 60))

/-- What the conversions of POSIX stand for, in the POSIX locale, for a normal broken-down time with a year of four digits
(`%k`, `%l`, `%P` are those of glibc). -/
def posixConversion (tm : Tm) : Char → Option (List UInt8)
  | '%' => some (text "%")
  | 'n' => some (text "\n")
  | 't' => some (text "\t")
  | 'a' => some ((text (weekdays.getD tm.wday.toInt.toNat "")).take 3)
  | 'A' => some (text (weekdays.getD tm.wday.toInt.toNat ""))
  | 'b' | 'h' => some ((text (months.getD tm.mon.toInt.toNat "")).take 3)
  | 'B' => some (text (months.getD tm.mon.toInt.toNat ""))
  | 'C' => some (two (tm.fullYear.toNat / 100))
  | 'y' => some (two (tm.fullYear.toNat % 100))
  | 'Y' => some (four tm.fullYear.toNat)
  | 'G' => some (four (isoWeek tm.fullYear tm.yday.toInt tm.wday.toInt).1.toNat)
  | 'g' => some (two ((isoWeek tm.fullYear tm.yday.toInt tm.wday.toInt).1.toNat % 100))
  | 'm' => some (two (tm.mon.toInt.toNat + 1))
  | 'd' => some (two tm.mday.toInt.toNat)
  | 'e' => some (blankTwo tm.mday.toInt.toNat)
  | 'j' => some (three (tm.yday.toInt.toNat + 1))
  | 'H' => some (two tm.hour.toInt.toNat)
  | 'k' => some (blankTwo tm.hour.toInt.toNat)
  | 'I' => some (two (dial tm.hour.toInt.toNat))
  | 'l' => some (blankTwo (dial tm.hour.toInt.toNat))
  | 'M' => some (two tm.min.toInt.toNat)
  | 'S' => some (two tm.sec.toInt.toNat)
  | 'p' => some (text (if tm.hour.toInt < 12 then "AM" else "PM"))
  | 'P' => some (text (if tm.hour.toInt < 12 then "am" else "pm"))
  | 'u' => some [digit (if tm.wday.toInt = 0 then 7 else tm.wday.toInt.toNat)]
  | 'w' => some [digit tm.wday.toInt.toNat]
  | 'U' => some (two (weekNumber tm.yday.toInt tm.wday.toInt))
  | 'W' => some (two (weekNumber tm.yday.toInt ((tm.wday.toInt + 6) % 7)))
  | 'V' => some (two (isoWeek tm.fullYear tm.yday.toInt tm.wday.toInt).2)
  | 'z' => some (utcOffset tm.gmtoff.toInt)
  | 'Z' => tm.zone.map fun s => s.toUTF8.data.toList
  | 'D' | 'x' => some (two (tm.mon.toInt.toNat + 1) ++ text "/" ++ two tm.mday.toInt.toNat ++ text "/"
      ++ two (tm.fullYear.toNat % 100))
  | 'F' => some (four tm.fullYear.toNat ++ text "-" ++ two (tm.mon.toInt.toNat + 1) ++ text "-" ++ two tm.mday.toInt.toNat)
  | 'R' => some (two tm.hour.toInt.toNat ++ text ":" ++ two tm.min.toInt.toNat)
  | 'T' | 'X' => some (two tm.hour.toInt.toNat ++ text ":" ++ two tm.min.toInt.toNat ++ text ":" ++ two tm.sec.toInt.toNat)
  | 'r' => some (two (dial tm.hour.toInt.toNat) ++ text ":" ++ two tm.min.toInt.toNat ++ text ":" ++ two tm.sec.toInt.toNat
      ++ text " " ++ text (if tm.hour.toInt < 12 then "AM" else "PM"))
  | 'c' => some ((text (weekdays.getD tm.wday.toInt.toNat "")).take 3 ++ text " "
      ++ (text (months.getD tm.mon.toInt.toNat "")).take 3 ++ text " " ++ blankTwo tm.mday.toInt.toNat ++ text " "
      ++ two tm.hour.toInt.toNat ++ text ":" ++ two tm.min.toInt.toNat ++ text ":" ++ two tm.sec.toInt.toNat ++ text " "
      ++ four tm.fullYear.toNat)
  | _ => none

/-- The conversions for which this is what happens: not `%c`, `%G`, `%g` and `%V`, `%C` only in the first year of a century,
and `%U` and `%W` only from the tenth week. -/
def Handled (tm : Tm) (c : Char) : Prop :=
  c ∈ ("%ntaAbhByYmdejHkIlMSpPuwzZDxFRTXr" : String).toList ∨ (c = 'C' ∧ tm.fullYear % 100 = 0)
    ∨ (c = 'U' ∧ 10 ≤ weekNumber tm.yday.toInt tm.wday.toInt)
    ∨ (c = 'W' ∧ 10 ≤ weekNumber tm.yday.toInt ((tm.wday.toInt + 6) % 7))

/-- The byte of an ASCII character. -/
def byteOf (c : Char) : UInt8 := UInt8.ofNat c.toNat

/-- `o` is the text that a format describes: bytes stand for themselves, conversions for what POSIX says. The modifiers `E`
and `O` make no difference in the POSIX locale. -/
inductive Describes (tm : Tm) : List UInt8 → List UInt8 → Prop
  | done : Describes tm [] []
  | byte {b f o} : b ≠ byteOf '%' → Describes tm f o → Describes tm (b :: f) (b :: o)
  | conversion {c s f o} : posixConversion tm c = some s → Handled tm c → Describes tm f o →
      Describes tm (byteOf '%' :: byteOf c :: f) (s ++ o)
  | modified {e c s f o} : e = byteOf 'E' ∨ e = byteOf 'O' → posixConversion tm c = some s → Handled tm c → Describes tm f o →
      Describes tm (byteOf '%' :: e :: byteOf c :: f) (s ++ o)

/-- The broken-down times the theorems are about. -/
structure Tm.Modern (tm : Tm) : Prop where
  normal : tm.Normal
  year : 1900 ≤ tm.fullYear ∧ tm.fullYear ≤ 9999
  gmtoff : -360000 < tm.gmtoff.toInt ∧ tm.gmtoff.toInt < 360000

/-! ## Integers -/

theorem i32_nat {x : Int32} (h : 0 ≤ x.toInt) : x = Int32.ofNat x.toInt.toNat := by
  rw [← Int32.toInt_inj, Int32.toInt_ofNat_of_lt]
  · omega
  · have := x.toInt_lt
    omega

theorem i32_add {a b : Int32} (h1 : -2 ^ 31 ≤ a.toInt + b.toInt) (h2 : a.toInt + b.toInt < 2 ^ 31) :
    (a + b).toInt = a.toInt + b.toInt := by
  rw [Int32.toInt_add]
  exact Int.bmod_eq_of_le (by omega) (by omega)

theorem i32_sub {a b : Int32} (h1 : -2 ^ 31 ≤ a.toInt - b.toInt) (h2 : a.toInt - b.toInt < 2 ^ 31) :
    (a - b).toInt = a.toInt - b.toInt := by
  rw [Int32.toInt_sub]
  exact Int.bmod_eq_of_le (by omega) (by omega)

theorem i32_div {a b : Int32} (h : 0 ≤ a.toInt) (hb : 0 < b.toInt) : (a / b).toInt = a.toInt / b.toInt := by
  rw [Int32.toInt_div, Int.tdiv_eq_ediv_of_nonneg h]
  have h1 := a.toInt_lt
  have h2 : a.toInt / b.toInt ≤ a.toInt := Int.ediv_le_self _ h
  have h3 : 0 ≤ a.toInt / b.toInt := Int.ediv_nonneg h (by omega)
  exact Int.bmod_eq_of_le (by omega) (by omega)

theorem i32_mod {a b : Int32} (h : 0 ≤ a.toInt) : (a % b).toInt = a.toInt % b.toInt := by
  rw [Int32.toInt_mod, Int.tmod_eq_emod_of_nonneg h]

theorem lit1 : (1 : Int32).toInt = 1 := rfl
theorem lit7 : (7 : Int32).toInt = 7 := rfl
theorem lit6 : (6 : Int32).toInt = 6 := rfl
theorem lit100 : (100 : Int32).toInt = 100 := rfl
theorem lit19 : (19 : Int32).toInt = 19 := rfl
theorem lit1900 : (1900 : Int32).toInt = 1900 := rfl

/-! ## Single conversions -/

theorem langinfo_names : (∀ n : Nat, n ≤ 6 → langinfo (14 + n) = (text (weekdays.getD n "")).take 3)
    ∧ (∀ n : Nat, n ≤ 6 → langinfo (7 + n) = text (weekdays.getD n ""))
    ∧ (∀ n : Nat, n ≤ 11 → langinfo (33 + n) = (text (months.getD n "")).take 3)
    ∧ (∀ n : Nat, n ≤ 11 → langinfo (21 + n) = text (months.getD n "")) := by
  decide +kernel

theorem item_eq {base : Nat} {x : Int32} (hb : base < 1000) (h : 0 ≤ x.toInt) : item base x = base + x.toInt.toNat := by
  have := x.toInt_lt
  unfold item
  omega

theorem dial_eq {h : Int32} (h1 : 0 ≤ h.toInt) (h2 : h.toInt ≤ 23) : ((h + 12 - 1) % 12 + 1).toInt = dial h.toInt.toNat := by
  have key : ∀ n : Nat, n ≤ 23 → ((Int32.ofNat n + 12 - 1) % 12 + 1).toInt = dial n := by decide +kernel
  have := key h.toInt.toNat (by omega)
  rw [← i32_nat h1] at this
  exact this

theorem weekday_eq {w : Int32} (h1 : 0 ≤ w.toInt) (h2 : w.toInt ≤ 6) :
    signedString ((w + 7 - 1) % 7 + 1).toInt = [digit (if w.toInt = 0 then 7 else w.toInt.toNat)] := by
  have key : ∀ n : Nat, n ≤ 6 → signedString ((Int32.ofNat n + 7 - 1) % 7 + 1).toInt
      = [digit (if (n : Int) = 0 then 7 else n)] := by decide +kernel
  have := key w.toInt.toNat (by omega)
  rw [← i32_nat h1, Int.toNat_of_nonneg h1] at this
  exact this

theorem am_pm : langinfo 5 = text "AM" ∧ langinfo 6 = text "PM" ∧ lowercase (langinfo 5) = text "am"
    ∧ lowercase (langinfo 6) = text "pm" := by decide +kernel

theorem hour_lt {h : Int32} : h < 12 ↔ h.toInt < 12 := by
  rw [Int32.lt_iff_toInt_lt]
  exact Iff.rfl

theorem zoneOffset_eq {g : Int64} (h1 : -360000 < g.toInt) (h2 : g.toInt < 360000) : zoneOffset g = utcOffset g.toInt := by
  unfold zoneOffset utcOffset
  have hneg : (-g).toInt = -g.toInt := by
    rw [Int64.toInt_neg]
    exact Int.bmod_eq_of_le (by omega) (by omega)
  have hlt : (g < 0) ↔ g.toInt < 0 := by
    rw [Int64.lt_iff_toInt_lt]
    exact Iff.rfl
  by_cases h : g.toInt < 0
  · simp only [hlt, h, decide_true, if_true, hneg]
    rw [zeroPadded_two (by omega) (by omega), zeroPadded_two (by omega) (by omega),
      show (-g.toInt / 60 / 60).toNat = g.toInt.natAbs / 3600 by omega,
      show (-g.toInt / 60 % 60).toNat = g.toInt.natAbs / 60 % 60 by omega]
    rfl
  · simp only [hlt, h, decide_false, if_false]
    rw [if_neg (by decide), if_neg (by decide), zeroPadded_two (by omega) (by omega), zeroPadded_two (by omega) (by omega),
      show (g.toInt / 60 / 60).toNat = g.toInt.natAbs / 3600 by omega,
      show (g.toInt / 60 % 60).toNat = g.toInt.natAbs / 60 % 60 by omega]
    rfl

theorem weekNumber_eq {y w : Int} (h : 0 ≤ y ∧ y ≤ 365) (hw : 0 ≤ w ∧ w ≤ 6) : ((y + 7 - w) / 7).toNat = weekNumber y w := by
  unfold weekNumber
  dsimp only
  split <;> omega

theorem weekNumber_le {y w : Int} (h : 0 ≤ y ∧ y ≤ 365) (hw : 0 ≤ w ∧ w ≤ 6) : weekNumber y w ≤ 53 := by
  unfold weekNumber
  dsimp only
  split <;> omega

/-- The conversions that are not abbreviations for formats. -/
def basic : List Char := ("%ntaAbhByYmdejHkIlMSpPuwzZ" : String).toList

theorem convert_basic (z : Zone) {tm : Tm} (hm : tm.Modern) {c : Char} {s : List UInt8} (hc : c ∈ basic)
    (hs : posixConversion tm c = some s) : convert z tm (byteOf c) = some (some (s, tm)) := by
  obtain ⟨⟨n1, n2, n3, n4, n5, n6, n7⟩, hy, hg⟩ := hm
  have hb : basic = ['%', 'n', 't', 'a', 'A', 'b', 'h', 'B', 'y', 'Y', 'm', 'd', 'e', 'j', 'H', 'k', 'I', 'l', 'M', 'S', 'p',
    'P', 'u', 'w', 'z', 'Z'] := by decide +kernel
  have hfy : tm.fullYear = 1900 + tm.year.toInt := rfl
  obtain ⟨l1, l2, l3, l4⟩ := langinfo_names
  rw [hb] at hc
  simp only [List.mem_cons, List.not_mem_nil, or_false] at hc
  rcases hc with h | h | h | h | h | h | h | h | h | h | h | h | h | h | h | h | h | h | h | h | h | h | h | h | h | h <;>
    subst h <;> simp only [posixConversion, Option.some.injEq] at hs
  · subst hs; rfl
  · subst hs; rfl
  · subst hs; rfl
  · subst hs; exact congrArg (fun l => some (some (l, tm))) (by rw [item_eq (by omega) n6.1, l1 _ (by omega)])
  · subst hs; exact congrArg (fun l => some (some (l, tm))) (by rw [item_eq (by omega) n6.1, l2 _ (by omega)])
  · subst hs; exact congrArg (fun l => some (some (l, tm))) (by rw [item_eq (by omega) n5.1, l3 _ (by omega)])
  · subst hs; exact congrArg (fun l => some (some (l, tm))) (by rw [item_eq (by omega) n5.1, l3 _ (by omega)])
  · subst hs; exact congrArg (fun l => some (some (l, tm))) (by rw [item_eq (by omega) n5.1, l4 _ (by omega)])
  · subst hs
    refine congrArg (fun l => some (some (l, tm))) ?_
    rw [i32_mod (by omega), lit100, zeroPadded_two (by omega) (by omega)]
    congr 1
    omega
  · subst hs
    refine congrArg (fun l => some (some (l, tm))) ?_
    rw [i32_add (by rw [lit1900]; omega) (by rw [lit1900]; omega), lit1900, signedString_nonneg (by omega),
      digits_lt10000 (by omega) (by omega), show (tm.year.toInt + 1900).toNat = tm.fullYear.toNat by omega]
    rfl
  · subst hs
    refine congrArg (fun l => some (some (l, tm))) ?_
    rw [i32_add (by rw [lit1]; omega) (by rw [lit1]; omega), lit1, zeroPadded_two (by omega) (by omega)]
    congr 1
    omega
  · subst hs; exact congrArg (fun l => some (some (l, tm))) (zeroPadded_two (by omega) (by omega))
  · subst hs; exact congrArg (fun l => some (some (l, tm))) (blankPadded_two (by omega) (by omega))
  · subst hs
    refine congrArg (fun l => some (some (l, tm))) ?_
    rw [i32_add (by rw [lit1]; omega) (by rw [lit1]; omega), lit1, zeroPadded_three (by omega) (by omega)]
    congr 1
    omega
  · subst hs; exact congrArg (fun l => some (some (l, tm))) (zeroPadded_two (by omega) (by omega))
  · subst hs; exact congrArg (fun l => some (some (l, tm))) (blankPadded_two (by omega) (by omega))
  · subst hs
    refine congrArg (fun l => some (some (l, tm))) ?_
    have : dial tm.hour.toInt.toNat ≤ 12 := by unfold dial; split <;> omega
    rw [dial_eq n3.1 n3.2, zeroPadded_two (by omega) (by omega), Int.toNat_natCast]
  · subst hs
    refine congrArg (fun l => some (some (l, tm))) ?_
    have : dial tm.hour.toInt.toNat ≤ 12 := by unfold dial; split <;> omega
    rw [dial_eq n3.1 n3.2, blankPadded_two (by omega) (by omega), Int.toNat_natCast]
  · subst hs; exact congrArg (fun l => some (some (l, tm))) (zeroPadded_two (by omega) (by omega))
  · subst hs; exact congrArg (fun l => some (some (l, tm))) (zeroPadded_two (by omega) (by omega))
  · subst hs
    refine congrArg (fun l => some (some (l, tm))) ?_
    by_cases h : tm.hour.toInt < 12
    · rw [if_pos (hour_lt.2 h), if_pos h, am_pm.1]
    · rw [if_neg (fun e => h (hour_lt.1 e)), if_neg h, am_pm.2.1]
  · subst hs
    refine congrArg (fun l => some (some (l, tm))) ?_
    by_cases h : tm.hour.toInt < 12
    · rw [if_pos (hour_lt.2 h), if_pos h, am_pm.2.2.1]
    · rw [if_neg (fun e => h (hour_lt.1 e)), if_neg h, am_pm.2.2.2]
  · subst hs; exact congrArg (fun l => some (some (l, tm))) (weekday_eq n6.1 n6.2)
  · subst hs
    refine congrArg (fun l => some (some (l, tm))) ?_
    rw [signedString_nonneg n6.1, digits_lt10 (by omega)]
    rfl
  · subst hs; exact congrArg (fun l => some (some (l, tm))) (zoneOffset_eq hg.1 hg.2)
  · cases hz : tm.zone with
    | none => rw [hz] at hs; cases hs
    | some v =>
      rw [hz] at hs
      cases hs
      show tm.zone.bind _ = _
      rw [hz]
      rfl

theorem convert_week (z : Zone) {tm : Tm} (hm : tm.Modern) :
    (10 ≤ weekNumber tm.yday.toInt tm.wday.toInt →
      convert z tm (byteOf 'U') = some (some (two (weekNumber tm.yday.toInt tm.wday.toInt), tm)))
    ∧ (10 ≤ weekNumber tm.yday.toInt ((tm.wday.toInt + 6) % 7) →
      convert z tm (byteOf 'W') = some (some (two (weekNumber tm.yday.toInt ((tm.wday.toInt + 6) % 7)), tm)))
    ∧ (tm.fullYear % 100 = 0 → convert z tm (byteOf 'C') = some (some (two (tm.fullYear.toNat / 100), tm))) := by
  obtain ⟨⟨n1, n2, n3, n4, n5, n6, n7⟩, hy, hg⟩ := hm
  have hfy : tm.fullYear = 1900 + tm.year.toInt := rfl
  have e7 : (tm.yday + 7).toInt = tm.yday.toInt + 7 := by
    rw [i32_add (by rw [lit7]; omega) (by rw [lit7]; omega), lit7]
  refine ⟨fun h => ?_, fun h => ?_, fun h => ?_⟩
  · refine congrArg (fun l => some (some (l, tm))) ?_
    have hle := weekNumber_le n7 n6
    have he := weekNumber_eq n7 n6
    rw [i32_div, i32_sub, e7, lit7, signedString_nonneg (by omega), he, digits_lt100 h (by omega)]
    · rfl
    · omega
    · omega
    · rw [i32_sub] <;> omega
    · rw [lit7]; omega
  · refine congrArg (fun l => some (some (l, tm))) ?_
    have hle := weekNumber_le (w := (tm.wday.toInt + 6) % 7) n7 (by omega)
    have he := weekNumber_eq (w := (tm.wday.toInt + 6) % 7) n7 (by omega)
    have e6 : ((tm.wday + 6) % 7).toInt = (tm.wday.toInt + 6) % 7 := by
      have : (tm.wday + 6).toInt = tm.wday.toInt + 6 := by
        rw [i32_add (by rw [lit6]; omega) (by rw [lit6]; omega), lit6]
      rw [i32_mod (by omega), this, lit7]
    rw [i32_div, i32_sub, e7, e6, lit7, signedString_nonneg (by omega), he, digits_lt100 h (by omega)]
    · rfl
    · omega
    · omega
    · rw [i32_sub] <;> omega
    · rw [lit7]; omega
  · refine congrArg (fun l => some (some (l, tm))) ?_
    have hmod : (tm.year % 100).toInt = 0 := by
      rw [i32_mod (by omega), lit100]
      omega
    rw [if_neg (by rw [Classical.not_not, ← Int32.toInt_inj, hmod]; rfl)]
    have hdiv : (tm.year / 100).toInt = tm.year.toInt / 100 := by
      rw [i32_div (by omega) (by rw [lit100]; omega), lit100]
    rw [i32_add (by rw [lit19]; omega) (by rw [lit19]; omega), hdiv, lit19, zeroPadded_two (by omega) (by omega)]
    congr 1
    omega

/-! ## Formats -/

/-- The calls for expansions. -/
def nestedCall (z : Zone) : Nat → List UInt8 → Tm → Chunks → Option (Bool × Tm × Chunks)
  | 0 => fun _ _ _ => none
  | d + 1 => inner z d

theorem inner_eq (z : Zone) (d : Nat) : inner z d = loop z (nestedCall z d) := by
  cases d <;> rfl

theorem inner_nil (z : Zone) (d : Nat) (t : Tm) (out : Chunks) : inner z d [] t out = some (true, t, out) := by
  rw [inner_eq, loop]

theorem inner_byte (z : Zone) (d : Nat) (t : Tm) (out : Chunks) {b : UInt8} (f : List UInt8) (h : b ≠ 0x25) :
    inner z d (b :: f) t out = inner z d f t (out ++ [[b]]) := by
  rw [inner_eq, loop, if_pos h]

theorem inner_end (z : Zone) (d : Nat) (t : Tm) (out : Chunks) {g : List UInt8} (h : skipModifier g = []) :
    inner z d (0x25 :: g) t out = some (false, t, out) := by
  rw [inner_eq, loop, if_neg (by simp)]
  split
  · rfl
  · rename_i h'; rw [h] at h'; cases h'

theorem inner_leaf (z : Zone) (d : Nat) (t : Tm) (out : Chunks) {c : UInt8} {g r : List UInt8} (h : skipModifier g = c :: r)
    (he : expansion c = none) :
    inner z d (0x25 :: g) t out = (convert z t c).bind fun x =>
      match x with
      | none => some (false, t, out)
      | some (l, t) => inner z d r t (out ++ [l]) := by
  rw [inner_eq, loop, if_neg (by simp)]
  split
  · rename_i h'; rw [h] at h'; cases h'
  · rename_i h'; rw [h] at h'; cases h'
    rw [he]
    rfl

theorem inner_expand (z : Zone) (d : Nat) (t : Tm) (out : Chunks) {c : UInt8} {g r e : List UInt8} (h : skipModifier g = c :: r)
    (he : expansion c = some e) :
    inner z (d + 1) (0x25 :: g) t out = (inner z d e t out).bind fun x =>
      if x.1 then inner z (d + 1) r x.2.1 x.2.2 else some (false, x.2.1, x.2.2) := by
  conv => lhs; rw [inner_eq, loop, if_neg (by simp)]
  split
  · rename_i h'; rw [h] at h'; cases h'
  · rename_i h'; rw [h] at h'; cases h'
    rw [he]
    rfl

/-- The format makes `inner` write `s` and go on. -/
def Emits (z : Zone) (d : Nat) (t : Tm) (f s : List UInt8) : Prop :=
  ∀ rest out, ∃ cs : Chunks, cs.flatten = s ∧ (f ≠ [] → cs ≠ []) ∧ inner z d (f ++ rest) t out = inner z d rest t (out ++ cs)

theorem Emits.nil (z : Zone) (d : Nat) (t : Tm) : Emits z d t [] [] :=
  fun _ out => ⟨[], rfl, fun h => absurd rfl h, by rw [List.nil_append, List.append_nil]⟩

theorem Emits.append {z : Zone} {d : Nat} {t : Tm} {f g s u : List UInt8} (h1 : Emits z d t f s) (h2 : Emits z d t g u) :
    Emits z d t (f ++ g) (s ++ u) := by
  intro rest out
  obtain ⟨cs, e1, e2, e3⟩ := h1 (g ++ rest) out
  obtain ⟨ds, e4, e5, e6⟩ := h2 rest (out ++ cs)
  refine ⟨cs ++ ds, by rw [List.flatten_append, e1, e4], fun h => ?_, ?_⟩
  · intro e
    rw [List.append_eq_nil_iff] at e
    apply h
    rw [List.append_eq_nil_iff]
    exact ⟨Classical.byContradiction fun h' => e2 h' e.1, Classical.byContradiction fun h' => e5 h' e.2⟩
  · rw [List.append_assoc, e3, e6, List.append_assoc]

theorem Emits.byte {z : Zone} {d : Nat} {t : Tm} {b : UInt8} (h : b ≠ 0x25) : Emits z d t [b] [b] := by
  intro rest out
  refine ⟨[[b]], rfl, fun _ => by simp, ?_⟩
  rw [List.singleton_append, inner_byte _ _ _ _ _ h]

/-- A conversion, with or without modifier. -/
inductive Percent (c : UInt8) : List UInt8 → Prop
  | plain : c ≠ 0x45 → c ≠ 0x4F → Percent c [0x25, c]
  | modified {e} : e = 0x45 ∨ e = 0x4F → Percent c [0x25, e, c]

theorem Percent.skip {c : UInt8} {f : List UInt8} (h : Percent c f) (rest : List UInt8) :
    ∃ g, f ++ rest = 0x25 :: g ∧ skipModifier g = c :: rest := by
  cases h with
  | plain h1 h2 =>
    refine ⟨c :: rest, rfl, ?_⟩
    rw [skipModifier, if_neg (by simp [h1, h2])]
  | @modified e h => exact ⟨e :: c :: rest, rfl, by rw [skipModifier, if_pos h]⟩

theorem Emits.leaf {z : Zone} {d : Nat} {t : Tm} {c : UInt8} {f s : List UInt8} (hp : Percent c f) (he : expansion c = none)
    (hc : convert z t c = some (some (s, t))) : Emits z d t f s := by
  intro rest out
  refine ⟨[s], by simp, fun _ => by simp, ?_⟩
  obtain ⟨g, h1, h2⟩ := hp.skip rest
  rw [h1, inner_leaf _ _ _ _ h2 he, hc]
  rfl

theorem Emits.expand {z : Zone} {d : Nat} {t : Tm} {c : UInt8} {f e s : List UInt8} (hp : Percent c f)
    (he : expansion c = some e) (hne : e ≠ []) (h : Emits z d t e s) : Emits z (d + 1) t f s := by
  intro rest out
  obtain ⟨cs, e1, e2, e3⟩ := h [] out
  refine ⟨cs, e1, fun _ => e2 hne, ?_⟩
  obtain ⟨g, h1, h2⟩ := hp.skip rest
  rw [List.append_nil, inner_nil] at e3
  rw [h1, inner_expand _ _ _ _ h2 he, e3]
  rfl

/-- The basic conversions are not expanded, and not modifiers. -/
theorem basic_byte : ∀ c ∈ basic, expansion (byteOf c) = none ∧ byteOf c ≠ 0x45 ∧ byteOf c ≠ 0x4F := by decide +kernel

theorem emits_basic (z : Zone) {tm : Tm} (hm : tm.Modern) (d : Nat) {c : Char} {f s : List UInt8} (hp : Percent (byteOf c) f)
    (hc : c ∈ basic) (hs : posixConversion tm c = some s) : Emits z d tm f s :=
  .leaf hp (basic_byte c hc).1 (convert_basic z hm hc hs)

theorem emits_plain (z : Zone) {tm : Tm} (hm : tm.Modern) (d : Nat) {c : Char} {s : List UInt8}
    (hc : c ∈ basic) (hs : posixConversion tm c = some s) : Emits z d tm [0x25, byteOf c] s :=
  emits_basic z hm d (.plain (basic_byte c hc).2.1 (basic_byte c hc).2.2) hc hs

theorem handled_cases {tm : Tm} {c : Char} (h : Handled tm c) :
    c ∈ basic ∨ c = 'D' ∨ c = 'x' ∨ c = 'F' ∨ c = 'R' ∨ c = 'T' ∨ c = 'X' ∨ c = 'r' ∨ (c = 'C' ∧ tm.fullYear % 100 = 0)
    ∨ (c = 'U' ∧ 10 ≤ weekNumber tm.yday.toInt tm.wday.toInt)
    ∨ (c = 'W' ∧ 10 ≤ weekNumber tm.yday.toInt ((tm.wday.toInt + 6) % 7)) := by
  have hl : ("%ntaAbhByYmdejHkIlMSpPuwzZDxFRTXr" : String).toList = basic ++ ['D', 'x', 'F', 'R', 'T', 'X', 'r'] := by
    decide +kernel
  rcases h with h | h
  · rw [hl, List.mem_append] at h
    simp only [List.mem_cons, List.not_mem_nil, or_false] at h
    rcases h with h | h | h | h | h | h | h | h <;> simp [h]
  · rcases h with h | h | h
    · simp [h]
    · simp [h]
    · simp [h]

theorem emits_T (z : Zone) {tm : Tm} (hm : tm.Modern) (d : Nat) :
    Emits z d tm (text "%H:%M:%S")
      (two tm.hour.toInt.toNat ++ text ":" ++ two tm.min.toInt.toNat ++ text ":" ++ two tm.sec.toInt.toNat) := by
  have e : text "%H:%M:%S" = [0x25, byteOf 'H'] ++ text ":" ++ [0x25, byteOf 'M'] ++ text ":" ++ [0x25, byteOf 'S'] := by
    decide +kernel
  have ec : text ":" = [0x3A] := by decide +kernel
  rw [e, ec]
  exact ((((emits_plain z hm d (by decide +kernel) rfl).append (.byte (by decide))).append
    (emits_plain z hm d (by decide +kernel) rfl)).append (.byte (by decide))).append
    (emits_plain z hm d (by decide +kernel) rfl)

theorem emits_D (z : Zone) {tm : Tm} (hm : tm.Modern) (d : Nat) :
    Emits z d tm (text "%m/%d/%y")
      (two (tm.mon.toInt.toNat + 1) ++ text "/" ++ two tm.mday.toInt.toNat ++ text "/" ++ two (tm.fullYear.toNat % 100)) := by
  have e : text "%m/%d/%y" = [0x25, byteOf 'm'] ++ text "/" ++ [0x25, byteOf 'd'] ++ text "/" ++ [0x25, byteOf 'y'] := by
    decide +kernel
  have ec : text "/" = [0x2F] := by decide +kernel
  rw [e, ec]
  exact ((((emits_plain z hm d (by decide +kernel) rfl).append (.byte (by decide))).append
    (emits_plain z hm d (by decide +kernel) rfl)).append (.byte (by decide))).append
    (emits_plain z hm d (by decide +kernel) rfl)

theorem emits_F (z : Zone) {tm : Tm} (hm : tm.Modern) (d : Nat) :
    Emits z d tm (text "%Y-%m-%d")
      (four tm.fullYear.toNat ++ text "-" ++ two (tm.mon.toInt.toNat + 1) ++ text "-" ++ two tm.mday.toInt.toNat) := by
  have e : text "%Y-%m-%d" = [0x25, byteOf 'Y'] ++ text "-" ++ [0x25, byteOf 'm'] ++ text "-" ++ [0x25, byteOf 'd'] := by
    decide +kernel
  have ec : text "-" = [0x2D] := by decide +kernel
  rw [e, ec]
  exact ((((emits_plain z hm d (by decide +kernel) rfl).append (.byte (by decide))).append
    (emits_plain z hm d (by decide +kernel) rfl)).append (.byte (by decide))).append
    (emits_plain z hm d (by decide +kernel) rfl)

theorem emits_R (z : Zone) {tm : Tm} (hm : tm.Modern) (d : Nat) :
    Emits z d tm (text "%H:%M") (two tm.hour.toInt.toNat ++ text ":" ++ two tm.min.toInt.toNat) := by
  have e : text "%H:%M" = [0x25, byteOf 'H'] ++ text ":" ++ [0x25, byteOf 'M'] := by decide +kernel
  have ec : text ":" = [0x3A] := by decide +kernel
  rw [e, ec]
  exact ((emits_plain z hm d (by decide +kernel) rfl).append (.byte (by decide))).append
    (emits_plain z hm d (by decide +kernel) rfl)

theorem emits_r (z : Zone) {tm : Tm} (hm : tm.Modern) (d : Nat) :
    Emits z d tm (text "%I:%M:%S %p")
      (two (dial tm.hour.toInt.toNat) ++ text ":" ++ two tm.min.toInt.toNat ++ text ":" ++ two tm.sec.toInt.toNat
        ++ text " " ++ text (if tm.hour.toInt < 12 then "AM" else "PM")) := by
  have e : text "%I:%M:%S %p" = [0x25, byteOf 'I'] ++ text ":" ++ [0x25, byteOf 'M'] ++ text ":" ++ [0x25, byteOf 'S']
      ++ text " " ++ [0x25, byteOf 'p'] := by
    decide +kernel
  have ec : text ":" = [0x3A] := by decide +kernel
  have eb : text " " = [0x20] := by decide +kernel
  rw [e, ec, eb]
  exact ((((((emits_plain z hm d (by decide +kernel) rfl).append (.byte (by decide))).append
    (emits_plain z hm d (by decide +kernel) rfl)).append (.byte (by decide))).append
    (emits_plain z hm d (by decide +kernel) rfl)).append (.byte (by decide))).append
    (emits_plain z hm d (by decide +kernel) rfl)

theorem emits_handled (z : Zone) {tm : Tm} (hm : tm.Modern) {c : Char} {f s : List UInt8} (hp : Percent (byteOf c) f)
    (hc : Handled tm c) (hs : posixConversion tm c = some s) : Emits z 2 tm f s := by
  rcases handled_cases hc with h | h | h | h | h | h | h | h | ⟨h, hc'⟩ | ⟨h, hc'⟩ | ⟨h, hc'⟩
  · exact emits_basic z hm 2 hp h hs
  all_goals subst h; simp only [posixConversion, Option.some.injEq] at hs; subst hs
  · exact .expand hp rfl (by decide +kernel) (emits_D z hm 1)
  · exact .expand hp rfl (by decide +kernel) (emits_D z hm 1)
  · exact .expand hp rfl (by decide +kernel) (emits_F z hm 1)
  · exact .expand hp rfl (by decide +kernel) (emits_R z hm 1)
  · exact .expand hp rfl (by decide +kernel) (emits_T z hm 1)
  · refine .expand hp rfl (by decide +kernel) ?_
    refine .expand (c := byteOf 'T') (e := text "%H:%M:%S") ?_ rfl (by decide +kernel) (emits_T z hm 0)
    have : text "%T" = [0x25, byteOf 'T'] := by decide +kernel
    rw [this]
    exact .plain (by decide) (by decide)
  · exact .expand hp rfl (by decide +kernel) (emits_r z hm 1)
  · exact .leaf hp rfl ((convert_week z hm).2.2 hc')
  · exact .leaf hp rfl ((convert_week z hm).1 hc')
  · exact .leaf hp rfl ((convert_week z hm).2.1 hc')

theorem handled_byte {tm : Tm} {c : Char} (h : Handled tm c) : byteOf c ≠ 0x45 ∧ byteOf c ≠ 0x4F := by
  rcases handled_cases h with h | h | h | h | h | h | h | h | ⟨h, _⟩ | ⟨h, _⟩ | ⟨h, _⟩
  · exact (basic_byte c h).2
  all_goals subst h; decide

theorem emits_describes (z : Zone) {tm : Tm} (hm : tm.Modern) {f o : List UInt8} (h : Describes tm f o) : Emits z 2 tm f o := by
  induction h with
  | done => exact Emits.nil z 2 tm
  | @byte b f o hb _ ih => exact (Emits.byte (b := b) hb).append ih
  | @conversion c s f o hs hc _ ih =>
    exact (emits_handled z hm (.plain (handled_byte hc).1 (handled_byte hc).2) hc hs).append ih
  | @modified e c s f o he hs hc _ ih => exact (emits_handled z hm (.modified he) hc hs).append ih

/-! ## Theorems -/

/-- C93: a format with conversions that are handled gives the text that POSIX says, if it fits, and its length; if it does
not fit, 0 is returned. The structure is not changed. Missing: `%c`, `%G`, `%g`, `%V`, `%C` in most years, `%U` and `%W`
in the first weeks, years before 1900 (`C93_century_violation`, `C93_week_violation`, `C93_unknown_violation`,
`C93_year_violation`), the empty format, and room for a terminator only (`C93_empty_violation`). -/
theorem C93_text_partial (z : Zone) {m : Mem UInt8} {tm : Tm} {s maxsize : Nat} {f o : List UInt8} (hm : tm.Modern)
    (hd : Describes tm f o) (hf : f ≠ []) (hb : Mapped m s maxsize) (h2 : 2 ≤ maxsize) :
    (o.length < maxsize → strftime z m s maxsize f tm = some (o.length, patch m s (o ++ [0]), tm))
    ∧ (maxsize ≤ o.length → ∃ m', strftime z m s maxsize f tm = some (0, m', tm) ∧ OnlyWithin m m' s maxsize) := by
  obtain ⟨cs, e1, e2, e3⟩ := emits_describes z hm hd [] []
  obtain ⟨w, e4⟩ := writeEach_eq hb h2 (e2 hf)
  rw [List.append_nil, List.nil_append, inner_nil] at e3
  rw [e1] at e4
  refine ⟨fun h => ?_, fun h => ⟨patch m s (o.take (maxsize - 1) ++ [0]), ?_, ?_⟩⟩
  · unfold strftime
    rw [e3]
    dsimp only [Option.bind_eq_bind, Option.bind_some]
    rw [e4, List.take_of_length_le (by omega)]
    dsimp only [Option.bind_some]
    rw [e1, if_pos rfl, if_pos h]
  · unfold strftime
    rw [e3]
    dsimp only [Option.bind_eq_bind, Option.bind_some]
    rw [e4]
    dsimp only [Option.bind_some]
    rw [e1, if_pos rfl, if_neg (by omega)]
  · exact within_patch _ _ _ _ (by rw [List.length_append, List.length_take, List.length_singleton]; omega)

/-- Formats whose expansions are nested at most `n` deep. -/
def Nested : Nat → List UInt8 → Prop
  | 0, f => ∀ c ∈ f, expansion c = none
  | n + 1, f => ∀ c ∈ f, ∀ e, expansion c = some e → Nested n e

theorem nested_two (f : List UInt8) : Nested 2 f := by
  have h0 : ∀ e ∈ [text "%m/%d/%y", text "%Y-%m-%d", text "%I:%M:%S %p", text "%H:%M", text "%H:%M:%S"],
      ∀ c ∈ e, expansion c = none := by decide +kernel
  have h1 : ∀ e ∈ [text "%T", text "%a %b %d %T %Z %Y"], ∀ c ∈ e, ∀ e', expansion c = some e' → e' = text "%H:%M:%S" := by
    intro e he c hc e' h
    have key : ∀ e ∈ [text "%T", text "%a %b %d %T %Z %Y"], ∀ c ∈ e,
        expansion c = none ∨ expansion c = some (text "%H:%M:%S") := by decide +kernel
    rcases key e he c hc with k | k
    · rw [k] at h; cases h
    · rw [k] at h; cases h; rfl
  have flat : ∀ e ∈ [text "%m/%d/%y", text "%Y-%m-%d", text "%I:%M:%S %p", text "%H:%M", text "%H:%M:%S"], Nested 1 e := by
    intro e he c hc e' h
    rw [h0 e he c hc] at h
    cases h
  have deep : ∀ e ∈ [text "%T", text "%a %b %d %T %Z %Y"], Nested 1 e := by
    intro e he c hc e' h
    rw [h1 e he c hc e' h]
    exact h0 _ (by simp)
  intro c _ e h
  unfold expansion at h
  repeat' split at h
  all_goals first | (cases h; done) | (cases h; first | (apply flat; simp; done) | (apply deep; simp; done))

theorem skipModifier_sub (f : List UInt8) : ∀ c ∈ skipModifier f, c ∈ f := by
  unfold skipModifier
  intro c hc
  repeat' split at hc
  · exact List.mem_cons_of_mem _ hc
  · exact hc
  · exact hc

theorem Nested.mono {n : Nat} {f g : List UInt8} (h : Nested n f) (hs : ∀ c ∈ g, c ∈ f) : Nested n g := by
  cases n with
  | zero => exact fun c hc => h c (hs c hc)
  | succ n => exact fun c hc => h c (hs c hc)

/-- No fault, and the zone is still a string. -/
def KeepsZone (x : Option (Option (List UInt8 × Tm))) : Prop :=
  ∃ r, x = some r ∧ ∀ l t', r = some (l, t') → t'.zone.isSome

theorem keepsZone {l : List UInt8} {t : Tm} (h : t.zone.isSome) : KeepsZone (some (some (l, t))) :=
  ⟨_, rfl, fun _ _ e => by cases e; exact h⟩

theorem KeepsZone.ite {p : Prop} [Decidable p] {x y : Option (Option (List UInt8 × Tm))} (hx : KeepsZone x)
    (hy : KeepsZone y) : KeepsZone (if p then x else y) := by
  split
  · exact hx
  · exact hy

theorem convert_some (z : Zone) {t : Tm} (ht : t.zone.isSome) (c : UInt8) : KeepsZone (convert z t c) := by
  have hmk : (mktime z t).tm.zone.isSome := by
    unfold mktime
    repeat' split
    all_goals first | exact ht | rfl
  obtain ⟨v, hv⟩ := Option.isSome_iff_exists.1 ht
  unfold convert
  dsimp only
  rw [hv]
  generalize mktime z t = r at hmk ⊢
  repeat' apply KeepsZone.ite
  all_goals first
    | exact keepsZone ht
    | exact keepsZone hmk
    | exact ⟨none, rfl, fun _ _ e => nomatch e⟩

theorem inner_some (z : Zone) (d : Nat) (n : Nat) : ∀ (f : List UInt8) (t : Tm) (out : Chunks), f.length ≤ n → Nested d f →
    t.zone.isSome → ∃ ok t' out', inner z d f t out = some (ok, t', out') ∧ t'.zone.isSome := by
  induction d generalizing n with
  | zero =>
    induction n with
    | zero =>
      intro f t out hl _ ht
      cases f with
      | nil => exact ⟨true, t, out, inner_nil .., ht⟩
      | cons b f => simp at hl
    | succ n ih =>
      intro f t out hl hn ht
      cases f with
      | nil => exact ⟨true, t, out, inner_nil .., ht⟩
      | cons b f =>
        rw [List.length_cons] at hl
        by_cases hb : b = 0x25
        · subst hb
          cases hsk : skipModifier f with
          | nil => exact ⟨false, t, out, inner_end _ _ _ _ hsk, ht⟩
          | cons c f'' =>
            have hsub : ∀ x ∈ c :: f'', x ∈ 0x25 :: f := fun x hx =>
              List.mem_cons_of_mem _ (skipModifier_sub f x (by rw [hsk]; exact hx))
            have hlen := skipModifier_length f
            rw [hsk, List.length_cons] at hlen
            rw [inner_leaf _ _ _ _ hsk (hn c (hsub c (by simp)))]
            obtain ⟨r, hr, hz⟩ := convert_some z ht c
            rw [hr]
            cases r with
            | none => exact ⟨false, t, out, rfl, ht⟩
            | some lt =>
              exact ih f'' lt.2 _ (by omega) (hn.mono fun x hx => hsub x (List.mem_cons_of_mem _ hx)) (hz _ _ rfl)
        · rw [inner_byte _ _ _ _ _ hb]
          exact ih f t _ (by omega) (hn.mono fun c hc => List.mem_cons_of_mem _ hc) ht
  | succ d ihd =>
    induction n with
    | zero =>
      intro f t out hl _ ht
      cases f with
      | nil => exact ⟨true, t, out, inner_nil .., ht⟩
      | cons b f => simp at hl
    | succ n ih =>
      intro f t out hl hn ht
      cases f with
      | nil => exact ⟨true, t, out, inner_nil .., ht⟩
      | cons b f =>
        rw [List.length_cons] at hl
        by_cases hb : b = 0x25
        · subst hb
          cases hsk : skipModifier f with
          | nil => exact ⟨false, t, out, inner_end _ _ _ _ hsk, ht⟩
          | cons c f'' =>
            have hsub : ∀ x ∈ c :: f'', x ∈ 0x25 :: f := fun x hx =>
              List.mem_cons_of_mem _ (skipModifier_sub f x (by rw [hsk]; exact hx))
            have hlen := skipModifier_length f
            rw [hsk, List.length_cons] at hlen
            have hrest : Nested (d + 1) f'' := hn.mono fun x hx => hsub x (List.mem_cons_of_mem _ hx)
            cases he : expansion c with
            | some e =>
              rw [inner_expand _ _ _ _ hsk he]
              obtain ⟨ok, t', out', h1, h2⟩ := ihd e.length e t out (Nat.le_refl _) (hn c (hsub c (by simp)) e he) ht
              rw [h1, Option.bind_some]
              cases ok with
              | true => exact ih f'' t' _ (by omega) hrest h2
              | false => exact ⟨false, t', out', rfl, h2⟩
            | none =>
              rw [inner_leaf _ _ _ _ hsk he]
              obtain ⟨r, hr, hz⟩ := convert_some z ht c
              rw [hr]
              cases r with
              | none => exact ⟨false, t, out, rfl, ht⟩
              | some lt => exact ih f'' lt.2 _ (by omega) hrest (hz _ _ rfl)
        · rw [inner_byte _ _ _ _ _ hb]
          exact ih f t _ (by omega) (hn.mono fun c hc => List.mem_cons_of_mem _ hc) ht

/-- C93: whatever the format and the fields are (the zone being a string), the call returns, changes nothing but the
`maxsize` bytes of the buffer, and if it returns a number other than 0, that many bytes and a terminator are there. -/
theorem C93_bounds (z : Zone) {m : Mem UInt8} {tm : Tm} {s maxsize : Nat} (f : List UInt8) (hz : tm.zone.isSome)
    (hb : Mapped m s maxsize) :
    ∃ ret m' tm', strftime z m s maxsize f tm = some (ret, m', tm') ∧ OnlyWithin m m' s maxsize
      ∧ (ret ≠ 0 → ret < maxsize ∧ ∃ o : List UInt8, o.length = ret ∧ m' = patch m s (o ++ [0])) := by
  obtain ⟨ok, t', out, h1, -⟩ := inner_some z 2 f.length f tm [] (Nat.le_refl _) (nested_two f) hz
  by_cases h2 : 2 ≤ maxsize ∧ out ≠ []
  · obtain ⟨w, e4⟩ := writeEach_eq hb h2.1 h2.2
    refine ⟨_, _, _, by unfold strftime; rw [h1]; dsimp only [Option.bind_eq_bind, Option.bind_some]; rw [e4]; rfl,
      within_patch _ _ _ _ (by rw [List.length_append, List.length_take, List.length_singleton]; omega), ?_⟩
    intro hr
    cases ok with
    | false => simp at hr
    | true =>
      rw [if_pos rfl] at hr ⊢
      split at hr
      · rename_i hlt
        rw [if_pos hlt]
        exact ⟨hlt, out.flatten, rfl, by rw [List.take_of_length_le (by omega)]⟩
      · exact absurd rfl hr
  · have e4 : ∃ w, writeEach ⟨s, maxsize⟩ m out = some (w, m) := by
      by_cases ho : out = []
      · subst ho; exact ⟨_, rfl⟩
      · have hsm : maxsize ≤ 1 := by
          apply Classical.byContradiction
          intro h
          exact h2 ⟨by omega, ho⟩
        exact ⟨_, writeEach_small hsm out⟩
    obtain ⟨w, e4⟩ := e4
    refine ⟨_, _, _, by unfold strftime; rw [h1]; dsimp only [Option.bind_eq_bind, Option.bind_some]; rw [e4]; rfl,
      .refl .., ?_⟩
    intro hr
    exfalso
    by_cases ho : out = []
    · subst ho
      simp at hr
    · have hsm : maxsize ≤ 1 := by
        apply Classical.byContradiction
        intro h
        exact h2 ⟨by omega, ho⟩
      cases ok with
      | false => simp at hr
      | true =>
        rw [if_pos rfl] at hr
        split at hr
        · rename_i hlt
          omega
        · exact hr rfl

/-! ## Concrete cases -/

/-- Thursday, 29 February 2024, 13:05:09, UTC. -/
def leapTime : Tm := ⟨9, 5, 13, 29, 1, 124, 4, 59, 0, 0, some "UTC"⟩

/-- A buffer of 40 bytes at 16. -/
def room : Mem UInt8 := ofList 16 (List.replicate 40 7)

/-- Result of a call with that buffer, and the first bytes of the buffer. -/
def shown (f : String) (t : Tm) (n : Nat) : Option (Nat × Option (List UInt8)) :=
  (strftime utc room 16 40 (text f) t).map fun r => (r.1, readN r.2.1 16 n)

example : leapTime.Modern := by constructor <;> (try constructor) <;> decide +kernel

example : shown "%Y-%m-%d %H:%M:%S %Z" leapTime 24 = some (23, some (text "2024-02-29 13:05:09 UTC" ++ [0])) := by decide +kernel

example : shown "%A, %e %B, %I:%M %p" leapTime 31 = some (31, some (text "Thursday, 29 February, 01:05 PM")) := by decide +kernel

/-- C93 is violated: `%C` of 2024 is "21". -/
theorem C93_century_violation : posixConversion leapTime 'C' = some (text "20")
    ∧ shown "%C" leapTime 3 = some (2, some (text "21" ++ [0])) := by decide +kernel

/-- Monday, 1 January 2024. -/
def newYear : Tm := ⟨0, 0, 0, 1, 0, 124, 1, 0, 0, 0, some "UTC"⟩

/-- C93 is violated: week numbers below ten have one digit, and the first week by ISO 8601 is given as the last one of a
year. -/
theorem C93_week_violation :
    (posixConversion newYear 'W' = some (text "01") ∧ shown "%W" newYear 2 = some (1, some (text "1" ++ [0])))
    ∧ (posixConversion newYear 'U' = some (text "00") ∧ shown "%U" newYear 2 = some (1, some (text "0" ++ [0])))
    ∧ (posixConversion newYear 'V' = some (text "01") ∧ shown "%V" newYear 3 = some (2, some (text "52" ++ [0]))) := by
  decide +kernel

/-- C93 is violated: `%c`, `%G` and `%g` are unknown; the call returns 0 as if there were no room. -/
theorem C93_unknown_violation : (posixConversion newYear 'c').map List.length = some 24
    ∧ posixConversion newYear 'G' = some (text "2024") ∧ posixConversion newYear 'g' = some (text "24")
    ∧ (shown "%c" newYear 0).map (·.1) = some 0 ∧ (shown "%G" newYear 0).map (·.1) = some 0
    ∧ (shown "%g" newYear 0).map (·.1) = some 0 := by decide +kernel

/-- 1 January 1850. -/
def oldYear : Tm := ⟨0, 0, 0, 1, 0, -50, 2, 0, 0, 0, some "UTC"⟩

/-- C93 is violated: the last two digits of 1850 are given as "-50". -/
theorem C93_year_violation : posixConversion oldYear 'y' = some (text "50")
    ∧ shown "%y" oldYear 4 = some (3, some (text "-50" ++ [0])) := by decide +kernel

/-- C93 is violated: for the empty format nothing is written, not even the terminator, and neither is there if the buffer has
room for the terminator only. -/
theorem C93_empty_violation (z : Zone) (m : Mem UInt8) (s maxsize : Nat) (t : Tm) :
    strftime z m s maxsize [] t = some (0, m, t)
    ∧ strftime z m s 1 (text "%Z") { t with zone := some "" } = some (0, m, { t with zone := some "" }) := by
  constructor
  · unfold strftime
    rw [inner_nil]
    dsimp only [Option.bind_eq_bind, Option.bind_some]
    rw [writeEach]
    dsimp only [Option.bind_some]
    rw [if_pos rfl, List.flatten_nil, List.length_nil, ite_self]
  · unfold strftime
    have hx : text "%Z" = [0x25, 0x5A] := by decide +kernel
    have hc : convert z { t with zone := some "" } 0x5A = some (some ([], { t with zone := some "" })) := rfl
    obtain ⟨cs, e1, e2, e3⟩ := Emits.leaf (z := z) (d := 2) (Percent.plain (c := 0x5A) (by decide) (by decide)) rfl hc [] []
    rw [List.append_nil, List.nil_append, inner_nil] at e3
    rw [hx, e3]
    dsimp only [Option.bind_eq_bind, Option.bind_some]
    rw [writeEach_small (Nat.le_refl 1), e1]
    rfl

/-- C93 is violated: `%s` changes the structure, which the caller passed as a constant. -/
theorem C93_const_violation :
    (strftime utc room 16 40 (text "%s") { leapTime with isdst := -1, yday := 0, wday := 0 }).map (fun r => (r.1, r.2.2))
      = some (10, leapTime) := by decide +kernel

end Verif.Time
