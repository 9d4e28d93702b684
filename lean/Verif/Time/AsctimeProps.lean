import Verif.Time.FormatLemmas
import Verif.Net.Inet6Props
/-!
# `asctime` (C92)
-/

namespace Verif.Time
open Verif.Mem Verif.Stdlib Verif.Stdio
open Verif.Net (OnlyWithin within_patch)

/-! ## Specification -/

/-- Names of days and months. -/
def weekdays : List String := ["Sunday", "Monday", "Tuesday", "Wednesday", "Thursday", "Friday", "Saturday"]
def months : List String :=
  ["January", "February", "March", "April", "May", "June", "July", "August", "September", "October", "November", "December"]

/-- A digit. -/
def digit (n : Nat) : UInt8 := UInt8.ofNat (48 + n)

/-- Two, three, four digits. -/
def two (n : Nat) : List UInt8 := [digit (n / 10), digit (n % 10)]
def three (n : Nat) : List UInt8 := [digit (n / 100), digit (n / 10 % 10), digit (n % 10)]
def four (n : Nat) : List UInt8 := [digit (n / 1000), digit (n / 100 % 10), digit (n / 10 % 10), digit (n % 10)]

/-- Two places, the first one blank instead of zero. -/
def blankTwo (n : Nat) : List UInt8 := if n < 10 then [0x20, digit n] else two n

/-- The fields are in the ranges of the C standard. -/
structure Tm.Normal (tm : Tm) : Prop where
  sec : 0 ≤ tm.sec.toInt ∧ tm.sec.toInt ≤ 60
  min : 0 ≤ tm.min.toInt ∧ tm.min.toInt ≤ 59
  hour : 0 ≤ tm.hour.toInt ∧ tm.hour.toInt ≤ 23
  mday : 1 ≤ tm.mday.toInt ∧ tm.mday.toInt ≤ 31
  mon : 0 ≤ tm.mon.toInt ∧ tm.mon.toInt ≤ 11
  wday : 0 ≤ tm.wday.toInt ∧ tm.wday.toInt ≤ 6
  yday : 0 ≤ tm.yday.toInt ∧ tm.yday.toInt ≤ 365

/-- "Sun Sep 16 01:03:52 1973\n". -/
def asctimeText (tm : Tm) (year : Nat) : List UInt8 :=
  (text (weekdays.getD tm.wday.toInt.toNat "")).take 3 ++ [0x20] ++ (text (months.getD tm.mon.toInt.toNat "")).take 3 ++ [0x20]
    ++ blankTwo tm.mday.toInt.toNat ++ [0x20] ++ two tm.hour.toInt.toNat ++ [0x3A] ++ two tm.min.toInt.toNat ++ [0x3A]
    ++ two tm.sec.toInt.toNat ++ [0x20] ++ four year ++ [0x0A]

/-! ## Lemmas -/

theorem zeroPadded_two {v : Int} (h1 : 0 ≤ v) (h2 : v ≤ 99) : zeroPadded 2 v = two v.toNat := by
  obtain ⟨n, rfl⟩ := Int.eq_ofNat_of_zero_le h1
  unfold zeroPadded two digit
  rw [if_neg (by omega), Int.natAbs_natCast, Int.toNat_natCast]
  by_cases h : n < 10
  · rw [digits_lt10 h, Nat.div_eq_of_lt h, Nat.mod_eq_of_lt h]
    rfl
  · rw [digits_lt100 (by omega) (by omega)]
    rfl

theorem zeroPadded_three {v : Int} (h1 : 0 ≤ v) (h2 : v ≤ 999) : zeroPadded 3 v = three v.toNat := by
  obtain ⟨n, rfl⟩ := Int.eq_ofNat_of_zero_le h1
  unfold zeroPadded three digit
  rw [if_neg (by omega), Int.natAbs_natCast, Int.toNat_natCast]
  by_cases h : n < 10
  · rw [digits_lt10 h, Nat.div_eq_of_lt (by omega : n < 100), Nat.div_eq_of_lt h, Nat.mod_eq_of_lt h]
    rfl
  · by_cases h' : n < 100
    · rw [digits_lt100 (by omega) (by omega), Nat.div_eq_of_lt h', Nat.mod_eq_of_lt (by omega : n / 10 < 10)]
      rfl
    · rw [digits_lt1000 (by omega) (by omega)]
      rfl

theorem signedString_nonneg {v : Int} (h : 0 ≤ v) : signedString v = digitsOf 10 false v.toNat := by
  unfold signedString
  rw [if_neg (by omega)]
  congr 1
  omega

theorem blankPadded_two {v : Int} (h1 : 0 ≤ v) (h2 : v ≤ 99) : blankPadded 2 v = blankTwo v.toNat := by
  unfold blankPadded blankTwo
  rw [signedString_nonneg h1]
  by_cases h : v.toNat < 10
  · rw [digits_lt10 h, if_pos h]
    rfl
  · rw [digits_lt100 (by omega) (by omega), if_neg h]
    rfl

theorem blankPadded_three {v : Int} (h1 : 0 ≤ v) (h2 : v ≤ 99) : blankPadded 3 v = 0x20 :: blankTwo v.toNat := by
  unfold blankPadded blankTwo
  rw [signedString_nonneg h1]
  by_cases h : v.toNat < 10
  · rw [digits_lt10 h, if_pos h]
    rfl
  · rw [digits_lt100 (by omega) (by omega), if_neg h]
    rfl

theorem digit_ne {n : Nat} (h : n < 10) : digit n ≠ 0 := by
  have : ∀ n : Fin 10, digit n.val ≠ 0 := by decide
  exact this ⟨n, h⟩

theorem dayName : ∀ n : Nat, n ≤ 6 → dayNames[n]?.map text = some ((text (weekdays.getD n "")).take 3) := by
  decide +kernel

theorem monName : ∀ n : Nat, n ≤ 11 → monNames[n]?.map text = some ((text (months.getD n "")).take 3) := by
  decide +kernel

theorem names_length : (∀ s ∈ dayNames, (text s).length = 3 ∧ 0 ∉ text s) ∧ ∀ s ∈ monNames, (text s).length = 3 ∧ 0 ∉ text s := by
  decide +kernel

theorem consts : (0 : Int32).toInt = 0 ∧ (99 : Int32).toInt = 99 ∧ (-99 : Int32).toInt = -99 ∧ (999 : Int32).toInt = 999
    ∧ (11 : Int32).toInt = 11 ∧ (-999 - 1900 : Int32).toInt = -2899 ∧ (9999 - 1900 : Int32).toInt = 8099
    ∧ (6 : Int32).toInt = 6 := by decide

theorem i32_le {a b : Int32} : a ≤ b ↔ a.toInt ≤ b.toInt := Int32.le_iff_toInt_le

theorem digits_nonzero (n : Nat) : 0 ∉ digitsOf 10 false n := by
  induction n using Nat.strongRecOn with
  | ind n ih =>
    have hd : ∀ d, d < 10 → (0 : UInt8) ≠ digitByte false d := by
      intro d h
      unfold digitByte
      rw [if_pos h]
      exact fun e => digit_ne h e.symm
    unfold digitsOf
    split
    · rename_i h
      rw [List.mem_singleton]
      exact hd _ (by omega)
    · rw [List.mem_append, List.mem_singleton]
      rintro (h | h)
      · exact ih _ (by omega) h
      · exact hd _ (by omega) h

theorem signedString_nonzero (v : Int) : 0 ∉ signedString v := by
  unfold signedString
  split
  · rw [List.mem_cons]
    rintro (h | h)
    · exact absurd h (by decide)
    · exact digits_nonzero _ h
  · exact digits_nonzero _

/-! ## Theorems -/

/-- C92: for a normal broken-down time with a year of four digits, the buffer of 26 bytes receives the text and its
terminator. -/
theorem C92_text {m : Mem UInt8} {tm : Tm} {buf year : Nat} (hn : tm.Normal) (hy : 1900 + tm.year.toInt = year)
    (hy' : 1000 ≤ year ∧ year ≤ 9999) (hm : Mapped m buf 26) :
    asctimeR m tm buf = some (patch m buf (asctimeText tm year ++ [0])) ∧ (asctimeText tm year ++ [0]).length = 26 := by
  obtain ⟨h1, h2, h3, h4, h5, h6, h7⟩ := hn
  have hyear : (1900 + tm.year).toInt = year := by
    rw [Int32.toInt_add, show (1900 : Int32).toInt = 1900 from rfl, hy]
    exact Int.bmod_eq_of_le (by omega) (by omega)
  have hd := dayName tm.wday.toInt.toNat (by omega)
  have hmn := monName tm.mon.toInt.toNat (by omega)
  obtain ⟨day, hd1, hd2⟩ := Option.map_eq_some_iff.1 hd
  obtain ⟨mon, hm1, hm2⟩ := Option.map_eq_some_iff.1 hmn
  have hdl := (names_length.1 day (List.mem_of_getElem? hd1)).1
  have hml := (names_length.2 mon (List.mem_of_getElem? hm1)).1
  have hlen : (asctimeText tm year ++ [0]).length = 26 := by
    unfold asctimeText
    rw [← hd2, ← hm2]
    simp only [List.length_append, List.length_singleton, hdl, hml, two, four, List.length_cons, List.length_nil]
    unfold blankTwo two
    split <;> simp
  refine ⟨?_, hlen⟩
  have hcs : asctimeChunks tm = some [(text day).take 3, [0x20], (text mon).take 3, 0x20 :: blankTwo tm.mday.toInt.toNat, [0x20],
      two tm.hour.toInt.toNat, [0x3A], two tm.min.toInt.toNat, [0x3A], two tm.sec.toInt.toNat, [0x20], four year, [0x0A]] := by
    unfold asctimeChunks
    rw [if_pos, hd1, hm1]
    · dsimp only [Option.bind_eq_bind, Option.bind_some]
      rw [blankPadded_three (by omega) (by omega), zeroPadded_two (by omega) (by omega), zeroPadded_two (by omega) (by omega),
        zeroPadded_two (by omega) (by omega), hyear, signedString_nonneg (by omega), Int.toNat_natCast,
        digits_lt10000 (by omega) (by omega)]
      rfl
    · simp only [i32_le, consts]
      omega
  have hfl : ([(text day).take 3, [0x20], (text mon).take 3, 0x20 :: blankTwo tm.mday.toInt.toNat, [0x20],
      two tm.hour.toInt.toNat, [0x3A], two tm.min.toInt.toNat, [0x3A], two tm.sec.toInt.toNat, [0x20], four year, [0x0A]]
      : Chunks).flatten = asctimeText tm year := by
    unfold asctimeText
    rw [← hd2, ← hm2, List.take_of_length_le (by omega), List.take_of_length_le (by omega)]
    simp
  unfold asctimeR
  rw [hcs]
  dsimp only [Option.bind_eq_bind, Option.bind_some]
  rw [unsafeWriteEach_eq _ _ _ _ (by simp), hfl]
  · rfl
  · rw [hfl]
    rw [List.length_append, List.length_singleton] at hlen
    rw [hlen]
    exact hm

/-- C92: whatever the fields are, the call aborts or leaves a string of at most 25 bytes in the buffer of 26, and nothing
else is changed. -/
theorem C92_bounds {m m' : Mem UInt8} {tm : Tm} {buf : Nat} (hm : Mapped m buf 26) (h : asctimeR m tm buf = some m') :
    OnlyWithin m m' buf 26 ∧ ∃ s, s.length ≤ 25 ∧ m' = patch m buf (s ++ [0]) ∧ 0 ∉ s := by
  unfold asctimeR at h
  cases hc : asctimeChunks tm with
  | none => rw [hc] at h; cases h
  | some cs =>
    have hcs : cs.flatten.length ≤ 25 ∧ 0 ∉ cs.flatten ∧ cs ≠ [] := by
      unfold asctimeChunks at hc
      split at hc
      · rename_i hr
        simp only [i32_le, consts] at hr
        obtain ⟨h1, h2, h3, h4, h5, h6, h7⟩ := hr
        have hyear : (1900 + tm.year).toInt = 1900 + tm.year.toInt := by
          rw [Int32.toInt_add, show (1900 : Int32).toInt = 1900 from rfl]
          exact Int.bmod_eq_of_le (by omega) (by omega)
        cases hd1 : dayNames[tm.wday.toInt.toNat]? with
        | none => rw [hd1] at hc; cases hc
        | some day =>
          cases hm1 : monNames[tm.mon.toInt.toNat]? with
          | none => rw [hd1, hm1] at hc; cases hc
          | some mon =>
            rw [hd1, hm1] at hc
            obtain ⟨hdl, hdz⟩ := names_length.1 day (List.mem_of_getElem? hd1)
            obtain ⟨hml, hmz⟩ := names_length.2 mon (List.mem_of_getElem? hm1)
            dsimp only [Option.bind_eq_bind, Option.bind_some] at hc
            rw [List.take_of_length_le (by omega), List.take_of_length_le (by omega),
              zeroPadded_two (by omega) (by omega), zeroPadded_two (by omega) (by omega),
              zeroPadded_two (by omega) (by omega), hyear] at hc
            have hzs : ∀ v : Int, 0 ∉ signedString v := signedString_nonzero
            have hmd : (blankPadded 3 tm.mday.toInt).length = 3 := by
              have : (signedString tm.mday.toInt).length ≤ 3 := by
                unfold signedString
                split
                · have := digits_length (k := 1) (n := tm.mday.toInt.natAbs) (by omega)
                  simp only [List.length_cons]
                  omega
                · exact digits_length (k := 2) (by omega)
              unfold blankPadded
              rw [List.length_append, List.length_replicate]
              omega
            have hmdz : 0 ∉ blankPadded 3 tm.mday.toInt := by
              unfold blankPadded
              rw [List.mem_append, List.mem_replicate]
              rintro (⟨_, h⟩ | h)
              · exact absurd h (by decide)
              · exact hzs _ h
            have hyl : (signedString (1900 + tm.year.toInt)).length ≤ 4 := by
              unfold signedString
              split
              · have := digits_length (k := 2) (n := (1900 + tm.year.toInt).natAbs) (by omega)
                simp only [List.length_cons]
                omega
              · exact digits_length (k := 3) (by omega)
            have htwo : ∀ n, n ≤ 99 → 0 ∉ two n := by
              intro n hn h
              simp only [two, List.mem_cons, List.not_mem_nil, or_false] at h
              rcases h with h | h
              · exact digit_ne (by omega) h.symm
              · exact digit_ne (by omega) h.symm
            cases hc
            refine ⟨?_, ?_, by simp⟩
            · simp only [List.flatten_cons, List.flatten_nil, List.length_append, List.length_cons, List.length_nil, hdl, hml,
                hmd, two]
              omega
            · simp only [List.flatten_cons, List.flatten_nil, List.mem_append, List.mem_singleton, List.not_mem_nil, or_false,
                not_or]
              refine ⟨hdz, by decide, hmz, hmdz, by decide, htwo _ (by omega), by decide, htwo _ (by omega), by decide,
                htwo _ (by omega), by decide, hzs _, by decide⟩
      · cases hc
    rw [hc] at h
    dsimp only [Option.bind_eq_bind, Option.bind_some] at h
    rw [unsafeWriteEach_eq _ _ _ (hm.mono (by omega)) hcs.2.2] at h
    cases h
    exact ⟨within_patch _ _ _ _ (by rw [List.length_append, List.length_singleton]; omega), _, hcs.1, rfl, hcs.2.1⟩

/-! ## A concrete case -/

/-- Sunday, 16 September 1973, 01:03:52. -/
def september : Tm := ⟨52, 3, 1, 16, 8, 73, 0, 258, 0, 0, none⟩

example : september.Normal := by constructor <;> decide +kernel

example : asctimeText september 1973 = text "Sun Sep 16 01:03:52 1973\n" := by decide +kernel

example : (asctimeR (ofList 8 (List.replicate 26 7)) september 8).bind (readN · 8 26)
    = some (text "Sun Sep 16 01:03:52 1973\n" ++ [0]) := by decide +kernel

end Verif.Time
