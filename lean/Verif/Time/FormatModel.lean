import Verif.Stdio.PrintfModel
import Verif.Time.CalendarModel
/-!
# Broken-down times as text

`asctime_r` (`src/header/time/mod.rs`), `strftime` (`src/header/time/strftime.rs`) and the part of `nl_langinfo`
(`src/header/langinfo/mod.rs`) it uses.

* As for `printf`, the functions give the slices handed to the writer, in order, and what the writer does with them is
  separate: a destination that overlaps the format or the structure is not modelled.
* `none` = a fault or a panic.
-/

namespace Verif.Time
open Verif.Mem Verif.Stdio

/-- The bytes of a text in ASCII. -/
def text (s : String) : List UInt8 := s.toList.map fun c => UInt8.ofNat c.toNat

/-! ## Rust's formatting of integers -/

/-- `{:0w}`: zeros between the sign and the digits. -/
def zeroPadded (w : Nat) (v : Int) : List UInt8 :=
  let ds := digitsOf 10 false v.natAbs
  if v < 0 then 0x2D :: (List.replicate (w - (ds.length + 1)) 0x30 ++ ds) else List.replicate (w - ds.length) 0x30 ++ ds

/-- `{:w}`: blanks in front. -/
def blankPadded (w : Nat) (v : Int) : List UInt8 :=
  List.replicate (w - (signedString v).length) 0x20 ++ signedString v

/-! ## `asctime_r` -/

/-- `DAY_NAMES` (`src/header/time/constants.rs:17`). -/
def dayNames : List String := ["Sun", "Mon", "Tue", "Wed", "Thu", "Fri", "Sat"]

/-- `MON_NAMES` (`src/header/time/constants.rs:19-21`). -/
def monNames : List String := ["Jan", "Feb", "Mar", "Apr", "May", "Jun", "Jul", "Aug", "Sep", "Oct", "Nov", "Dec"]

/-- The slices `asctime_r` writes (`src/header/time/mod.rs:183-208`); `none` = an assertion fails. -/
def asctimeChunks (tm : Tm) : Option Chunks :=
  if (0 ≤ tm.sec ∧ tm.sec ≤ 99) ∧ (0 ≤ tm.min ∧ tm.min ≤ 99) ∧ (0 ≤ tm.hour ∧ tm.hour ≤ 99)
      ∧ (-99 ≤ tm.mday ∧ tm.mday ≤ 999) ∧ (0 ≤ tm.mon ∧ tm.mon ≤ 11)
      ∧ (-999 - 1900 ≤ tm.year ∧ tm.year ≤ 9999 - 1900) ∧ (0 ≤ tm.wday ∧ tm.wday ≤ 6) then do
    let day ← dayNames[tm.wday.toInt.toNat]?
    let mon ← monNames[tm.mon.toInt.toNat]?
    some [(text day).take 3, [0x20], (text mon).take 3, blankPadded 3 tm.mday.toInt, [0x20], zeroPadded 2 tm.hour.toInt, [0x3A],
      zeroPadded 2 tm.min.toInt, [0x3A], zeroPadded 2 tm.sec.toInt, [0x20], signedString (1900 + tm.year).toInt, [0x0A]]
  else none

/-- `write_str` of `UnsafeStringWriter` (`src/platform/mod.rs:188-207`) for each slice. -/
def unsafeWriteEach (ptr : Nat) (m : Mem UInt8) : Chunks → Option (Nat × Mem UInt8)
  | [] => some (ptr, m)
  | buf :: l => do
    let (ptr, m) ← unsafeWrite ptr m buf
    unsafeWriteEach ptr m l

/-- `asctime_r` (`src/header/time/mod.rs:144-217`): memory afterwards. The function returns `buf`; the writer cannot fail.
`asctime` is this function with a buffer of 26 bytes (`src/header/time/mod.rs:80`). -/
def asctimeR (m : Mem UInt8) (tm : Tm) (buf : Nat) : Option (Mem UInt8) := do
  let cs ← asctimeChunks tm
  let (_, m) ← unsafeWriteEach buf m cs
  some m

/-! ## `nl_langinfo` -/

/-- `STRING_TABLE` (`src/header/langinfo/mod.rs:19-103`). -/
def stringTable : List String :=
  ["UTF-8", "%a %b %e %H:%M:%S %Y", "%m/%d/%y", "%H:%M:%S", "%I:%M:%S %p", "AM", "PM",
   "Sunday", "Monday", "Tuesday", "Wednesday", "Thursday", "Friday", "Saturday",
   "Sun", "Mon", "Tue", "Wed", "Thu", "Fri", "Sat",
   "January", "February", "March", "April", "May", "June", "July", "August", "September", "October", "November", "December",
   "Jan", "Feb", "Mar", "Apr", "May", "Jun", "Jul", "Aug", "Sep", "Oct", "Nov", "Dec",
   "", "", "", "", "", ".", "", "^[yY]", "^[nN]", "yes", "no", ".",
   "January", "February", "March", "April", "May", "June", "July", "August", "September", "October", "November", "December",
   "Jan", "Feb", "Mar", "Apr", "May", "Jun", "Jul", "Aug", "Sep", "Oct", "Nov", "Dec"]

/-- `nl_langinfo` (`src/header/langinfo/mod.rs:204-214`) with `langinfo_to_str`
(`src/header/time/strftime.rs:32-40`). -/
def langinfo (item : Nat) : List UInt8 := text (stringTable.getD item "")

/-- `BASE + field as usize`, wrapping around at 64 bits. -/
def item (base : Nat) (field : Int32) : Nat := ((base + field.toInt) % 2 ^ 64).toNat

/-! ## `strftime` -/

/-- `weeks_per_year` (`src/header/time/strftime.rs:293-297`). Simplified: the sum of `double`s is an exact fraction here.
(The exact sum is a multiple of 1/400; rounding is by much less for 32-bit years, and there is none if the sum is an
integer, since then all summands are. So the integer part is the same.) -/
def weeksPerYear (year : Int32) : Int32 :=
  if ((497 * year.toInt).tdiv 400).tmod 7 = 4 then 53 else 52

/-- `week_of_year` (`src/header/time/strftime.rs:303-313`). -/
def weekOfYear (t : Tm) : Int32 :=
  let week := (10 + t.yday - t.wday) / 7
  if week ≤ 1 then weeksPerYear (t.year - 1)
  else if week > weeksPerYear t.year then 1
  else week

/-- The conversions that are replaced by another format (`w!(recurse ...)`,
`src/header/time/strftime.rs:108-273`). -/
def expansion (c : UInt8) : Option (List UInt8) :=
  if c = 0x44 then some (text "%m/%d/%y")
  else if c = 0x46 then some (text "%Y-%m-%d")
  else if c = 0x72 then some (text "%I:%M:%S %p")
  else if c = 0x52 then some (text "%H:%M")
  else if c = 0x54 then some (text "%H:%M:%S")
  else if c = 0x78 then some (text "%m/%d/%y")
  else if c = 0x58 then some (text "%T")
  else if c = 0x2B then some (text "%a %b %d %T %Z %Y")
  else none

/-- `to_ascii_lowercase`. -/
def lowercase (l : List UInt8) : List UInt8 := l.map fun b => if 0x41 ≤ b ∧ b ≤ 0x5A then b + 0x20 else b

/-- `%z` (`src/header/time/strftime.rs:249-261`); the argument of `write!` has three parts. -/
def zoneOffset (gmtoff : Int64) : List UInt8 :=
  let neg : Bool := gmtoff < 0
  let offset := if neg then -gmtoff else gmtoff
  let mins := offset.toInt / 60
  [if neg then 0x2D else 0x2B] ++ zeroPadded 2 (mins / 60) ++ zeroPadded 2 (mins % 60)

/-- The other conversions (`src/header/time/strftime.rs:108-273`): `none` = fault, `some none` = unknown (`return false`),
otherwise what is written and the structure afterwards, which only `%s` changes. -/
def convert (z : Zone) (t : Tm) (c : UInt8) : Option (Option (List UInt8 × Tm)) :=
  let out := fun l => some (some (l, t))
  if c = 0x25 then out [0x25]
  else if c = 0x6E then out [0x0A]
  else if c = 0x74 then out [0x09]
  else if c = 0x61 then out (langinfo (item 14 t.wday))
  else if c = 0x41 then out (langinfo (item 7 t.wday))
  else if c = 0x62 ∨ c = 0x68 then out (langinfo (item 33 t.mon))
  else if c = 0x42 then out (langinfo (item 21 t.mon))
  else if c = 0x43 then
    let year := t.year / 100
    let year := if t.year % 100 ≠ 0 then year + 1 else year
    out (zeroPadded 2 (year + 19).toInt)
  else if c = 0x64 then out (zeroPadded 2 t.mday.toInt)
  else if c = 0x65 then out (blankPadded 2 t.mday.toInt)
  else if c = 0x48 then out (zeroPadded 2 t.hour.toInt)
  else if c = 0x49 then out (zeroPadded 2 ((t.hour + 12 - 1) % 12 + 1).toInt)
  else if c = 0x6A then out (zeroPadded 3 (t.yday + 1).toInt)
  else if c = 0x6B then out (blankPadded 2 t.hour.toInt)
  else if c = 0x6C then out (blankPadded 2 ((t.hour + 12 - 1) % 12 + 1).toInt)
  else if c = 0x6D then out (zeroPadded 2 (t.mon + 1).toInt)
  else if c = 0x4D then out (zeroPadded 2 t.min.toInt)
  else if c = 0x70 then out (langinfo (if t.hour < 12 then 5 else 6))
  else if c = 0x50 then out (lowercase (langinfo (if t.hour < 12 then 5 else 6)))
  else if c = 0x73 then some (some (signedString (mktime z t).ret, (mktime z t).tm))
  else if c = 0x53 then out (zeroPadded 2 t.sec.toInt)
  else if c = 0x75 then out (signedString ((t.wday + 7 - 1) % 7 + 1).toInt)
  else if c = 0x55 then out (signedString ((t.yday + 7 - t.wday) / 7).toInt)
  else if c = 0x56 then out (signedString (weekOfYear t).toInt)
  else if c = 0x77 then out (signedString t.wday.toInt)
  else if c = 0x57 then out (signedString ((t.yday + 7 - (t.wday + 6) % 7) / 7).toInt)
  else if c = 0x79 then out (zeroPadded 2 (t.year % 100).toInt)
  else if c = 0x59 then out (signedString (t.year + 1900).toInt)
  else if c = 0x7A then out (zoneOffset t.gmtoff)
  else if c = 0x5A then t.zone.bind fun s => out s.toUTF8.data.toList
  else some none

/-- The modifiers `E` and `O` are skipped (`src/header/time/strftime.rs:100-106`). -/
def skipModifier : List UInt8 → List UInt8
  | b :: f => if b = 0x45 ∨ b = 0x4F then f else b :: f
  | [] => []

theorem skipModifier_length (f : List UInt8) : (skipModifier f).length ≤ f.length := by
  unfold skipModifier
  repeat' split
  all_goals simp

/-- The loop of `inner_strftime` (`src/header/time/strftime.rs:88-278`) for the format `f` without its terminator, which fails
every match: whether the format was handled to its end, the structure, and the slices in addition to `out`. `nested` is the
call for an expansion. Slices that Rust's formatting hands over in several pieces (padding, digits) are one slice here; the
writer does not see the difference. -/
def loop (z : Zone) (nested : List UInt8 → Tm → Chunks → Option (Bool × Tm × Chunks)) (f : List UInt8) (t : Tm)
    (out : Chunks) : Option (Bool × Tm × Chunks) :=
  match f with
  | [] => some (true, t, out)
  | b :: f' =>
    if b ≠ 0x25 then loop z nested f' t (out ++ [[b]])
    else
      match _h : skipModifier f' with
      | [] => some (false, t, out)
      | c :: f'' =>
        match expansion c with
        | some e => do
          let (ok, t, out) ← nested e t out
          if ok then loop z nested f'' t out else some (false, t, out)
        | none => do
          match ← convert z t c with
          | none => some (false, t, out)
          | some (l, t) => loop z nested f'' t (out ++ [l])
termination_by f.length
decreasing_by
  all_goals
    simp only [List.length_cons]
    first
      | omega
      | (have := skipModifier_length f'
         rw [_h] at this
         simp only [List.length_cons] at this
         omega)

/-- `inner_strftime` (`src/header/time/strftime.rs:51-279`), with the nesting of expansions bounded by `depth`; they are nested
at most two deep (`nested_two`). -/
def inner (z : Zone) : Nat → List UInt8 → Tm → Chunks → Option (Bool × Tm × Chunks)
  | 0 => loop z fun _ _ _ => none
  | depth + 1 => loop z (inner z depth)

/-- `write_str` and `write_u8` of `StringWriter` (`src/platform/mod.rs:170-183`) for each slice: unlike `write_all`, they
call `write` for an empty slice too. -/
def writeEach (w : StringWriter) (m : Mem UInt8) : Chunks → Option (StringWriter × Mem UInt8)
  | [] => some (w, m)
  | buf :: l => do
    let (w, m) ← w.write m buf
    writeEach w m l

/-- `strftime` (`src/header/time/mod.rs:486-495`, `src/header/time/strftime.rs:49-287`): return value, memory, structure. -/
def strftime (z : Zone) (m : Mem UInt8) (s maxsize : Nat) (f : List UInt8) (t : Tm) : Option (Nat × Mem UInt8 × Tm) := do
  let (ok, t, out) ← inner z 2 f t []
  let (_, m) ← writeEach ⟨s, maxsize⟩ m out
  let ret := if ok then out.flatten.length else 0
  some (if ret < maxsize then ret else 0, m, t)

end Verif.Time
