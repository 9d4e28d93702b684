import Verif.Time.FormatModel
/-!
# `strptime`

`src/header/time/strptime.rs`. Strings are lists of bytes without the terminator; a format is the list of its characters
once it has been found to be UTF-8. The part of the input that is left is a list of bytes, too: it need not begin at the
boundary of a character.

* `none` = a panic (a slice that does not begin at a character); the result is otherwise the structure afterwards and what
  is left of the input, or `none` for a null pointer.
* Null pointers as arguments (the function then returns a null pointer) are not modelled.
-/

namespace Verif.Time.Strptime
open Verif.Time

/-! ## UTF-8 (Rust's standard library) -/

/-- A continuation byte. -/
def cont (b : UInt8) : Bool := 0x80 ≤ b && b < 0xC0

/-- `CStr::to_str`: the characters, or `None`. -/
def toStr : List UInt8 → Option (List Char)
  | [] => some []
  | a :: l =>
    if a < 0x80 then (toStr l).map (Char.ofNat a.toNat :: ·)
    else match l with
      | [] => none
      | b :: l =>
        if 0xC2 ≤ a && a < 0xE0 && cont b then (toStr l).map (Char.ofNat (a.toNat % 32 * 64 + b.toNat % 64) :: ·)
        else match l with
          | [] => none
          | c :: l =>
            let n := a.toNat % 16 * 4096 + b.toNat % 64 * 64 + c.toNat % 64
            if 0xE0 ≤ a && a < 0xF0 && cont b && cont c && 0x800 ≤ n && (n < 0xD800 || 0xE000 ≤ n) then
              (toStr l).map (Char.ofNat n :: ·)
            else match l with
              | [] => none
              | d :: l =>
                let n := a.toNat % 8 * 262144 + b.toNat % 64 * 4096 + c.toNat % 64 * 64 + d.toNat % 64
                if 0xF0 ≤ a && a < 0xF5 && cont b && cont c && cont d && 0x10000 ≤ n && n < 0x110000 then
                  (toStr l).map (Char.ofNat n :: ·)
                else none

/-- `&input_str[index_in_input..]`, which panics in the middle of a character. -/
def slice (i : List UInt8) : Option (List UInt8) :=
  match i with
  | b :: _ => if cont b then none else some i
  | [] => some i

/-- `str::trim_start`, on the bytes: the characters with the property `White_Space`. -/
def trimStart : List UInt8 → List UInt8
  | 0xC2 :: b :: l => if b = 0x85 ∨ b = 0xA0 then trimStart l else 0xC2 :: b :: l
  | 0xE1 :: 0x9A :: 0x80 :: l => trimStart l
  | 0xE2 :: 0x80 :: b :: l =>
    if 0x80 ≤ b ∧ b ≤ 0x8A ∨ b = 0xA8 ∨ b = 0xA9 ∨ b = 0xAF then trimStart l else 0xE2 :: 0x80 :: b :: l
  | 0xE2 :: 0x81 :: 0x9F :: l => trimStart l
  | 0xE3 :: 0x80 :: 0x80 :: l => trimStart l
  | b :: l => if b = 0x20 ∨ 9 ≤ b ∧ b ≤ 13 then trimStart l else b :: l
  | [] => []

/-- `str::get(0..n)`: `None` beyond the end or in the middle of a character. -/
def get (s : List UInt8) (n : Nat) : Option (List UInt8) :=
  if s.length < n then none
  else match s.drop n with
    | b :: _ => if cont b then none else some (s.take n)
    | [] => some s

/-- `u8::is_ascii_whitespace`, which does not have the vertical tab. -/
def asciiWhitespace (b : UInt8) : Bool := b == 0x20 || b == 9 || b == 10 || b == 12 || b == 13

/-- `eq_ignore_ascii_case`. -/
def eqIgnoreCase (a b : List UInt8) : Bool := lowercase a == lowercase b

/-! ## The helpers -/

/-- The loop of `parse_int` (`src/header/time/strptime.rs:437-451`); the characters are digits, that is bytes, up to the
one that ends the loop. `none` = the number is no `i32`. -/
def parseIntLoop (width : Nat) (allowVariable : Bool) : List UInt8 → Nat → Nat → Option (Nat × Nat)
  | [], val, count => some (val, count)
  | c :: l, val, count =>
    if 0x30 ≤ c && c ≤ 0x39 then
      let val := val * 10 + (c.toNat - 0x30)
      if 2 ^ 31 ≤ val then none
      else if count + 1 = width && !allowVariable then some (val, count + 1)
      else parseIntLoop width allowVariable l val (count + 1)
    else some (val, count)

/-- `parse_int` (`src/header/time/strptime.rs:432-454`). -/
def parseInt (input : List UInt8) (width : Nat) (allowVariable : Bool) : Option (Nat × Nat) :=
  match parseIntLoop width allowVariable input 0 0 with
  | none => none
  | some (val, count) => if count = 0 then none else some (val, count)

/-- `parse_am_pm` (`src/header/time/strptime.rs:458-471`). -/
def parseAmPm (s : List UInt8) : Option (Bool × Nat) :=
  let trimmed := trimStart s
  let diff := s.length - trimmed.length
  match get trimmed 2 with
  | none => none
  | some t =>
    if eqIgnoreCase t (text "AM") then some (false, diff + 2)
    else if eqIgnoreCase t (text "PM") then some (true, diff + 2)
    else none

/-- The tables (`src/header/time/strptime.rs:16-45`). -/
def shortDays : List String := ["Sun", "Mon", "Tue", "Wed", "Thu", "Fri", "Sat"]
def longDays : List String := ["Sunday", "Monday", "Tuesday", "Wednesday", "Thursday", "Friday", "Saturday"]
def shortMonths : List String := ["Jan", "Feb", "Mar", "Apr", "May", "Jun", "Jul", "Aug", "Sep", "Oct", "Nov", "Dec"]
def longMonths : List String :=
  ["January", "February", "March", "April", "May", "June", "July", "August", "September", "October", "November", "December"]

/-- `parse_weekday` (`src/header/time/strptime.rs:478-489`) and `parse_month` (`src/header/time/strptime.rs:496-507`) for a table, from index `i`: index and
length. -/
def parseName (s : List UInt8) : List String → Nat → Option (Nat × Nat)
  | [], _ => none
  | name :: l, i =>
    match get s (text name).length with
    | some sub => if eqIgnoreCase sub (text name) then some (i, (text name).length) else parseName s l (i + 1)
    | none => parseName s l (i + 1)

/-! ## The function -/

/-- The result of a part of the format. -/
abbrev Res := Option (Tm × Option (List UInt8))

/-- A conversion that uses `parse_int`; `store` gives the structure afterwards and whether the number is in the range. -/
def number (input : List UInt8) (width : Nat) (allowVariable : Bool) (tm : Tm) (store : Nat → Tm × Bool) : Res := do
  let s ← slice input
  match parseInt s width allowVariable with
  | none => some (tm, none)
  | some (val, len) =>
    let (tm, ok) := store val
    some (tm, if ok then some (s.drop len) else none)

/-- A conversion that uses `parse_weekday` or `parse_month`. -/
def named (input : List UInt8) (table : List String) (tm : Tm) (store : Nat → Tm) : Res := do
  let s ← slice input
  match parseName s table 0 with
  | none => some (tm, none)
  | some (i, len) => some (store i, some (s.drop len))

/-- `apply_subformat` (`src/header/time/strptime.rs:511-547`); `nested` is `strptime`. -/
def applySubformat (nested : List Char → List UInt8 → Tm → Res) (input : List UInt8) (subfmt : String) (tm : Tm) : Res := do
  let s ← slice input
  match ← nested subfmt.toList s tm with
  | (_, none) => some (tm, none)
  | (tm, some rest) => some (tm, some rest)

/-- The conversions (`src/header/time/strptime.rs:123-416`). Integers are 32 bits wide; they are small here, so that
the natural numbers of the model have the same values. -/
def conversion (nested : List Char → List UInt8 → Tm → Res) (spec : Char) (input : List UInt8) (tm : Tm) : Res :=
  match spec with
  | 'n' | 't' => some (tm, some (input.dropWhile asciiWhitespace))
  | '%' =>
    match input with
    | 0x25 :: r => some (tm, some r)
    | _ => some (tm, none)
  | 'd' | 'e' => number input 2 false tm fun val => ({ tm with mday := .ofNat val }, 1 ≤ val && val ≤ 31)
  | 'm' => number input 2 false tm fun val => ({ tm with mon := .ofNat val - 1 }, 1 ≤ val && val ≤ 12)
  | 'y' => number input 2 false tm fun val =>
    ({ tm with year := .ofNat ((if 69 ≤ val then val + 1900 else val + 2000) - 1900) }, true)
  | 'Y' => number input 4 true tm fun val => ({ tm with year := .ofNat val - 1900 }, true)
  | 'H' => number input 2 false tm fun val => if val > 23 then (tm, false) else ({ tm with hour := .ofNat val }, true)
  | 'I' => number input 2 false tm fun val =>
    if ¬(1 ≤ val ∧ val ≤ 12) then (tm, false) else ({ tm with hour := .ofNat val }, true)
  | 'M' => number input 2 false tm fun val => if val > 59 then (tm, false) else ({ tm with min := .ofNat val }, true)
  | 'S' => number input 2 false tm fun val => if val > 60 then (tm, false) else ({ tm with sec := .ofNat val }, true)
  | 'p' => do
    let s ← slice input
    match parseAmPm s with
    | none => some (tm, none)
    | some (isPm, used) =>
      let hour := if tm.hour = 12 then (if isPm then 12 else 0) else if isPm then tm.hour + 12 else tm.hour
      some ({ tm with hour := hour }, some (s.drop used))
  | 'a' => named input shortDays tm fun i => { tm with wday := .ofNat i }
  | 'A' => named input longDays tm fun i => { tm with wday := .ofNat i }
  | 'b' | 'h' => named input shortMonths tm fun i => { tm with mon := .ofNat i }
  | 'B' => named input longMonths tm fun i => { tm with mon := .ofNat i }
  | 'j' => number input 3 false tm fun val =>
    if ¬(1 ≤ val ∧ val ≤ 366) then (tm, false) else ({ tm with yday := .ofNat (val - 1) }, true)
  | 'D' => applySubformat nested input "%m/%d/%y" tm
  | 'F' => applySubformat nested input "%Y-%m-%d" tm
  | 'T' => applySubformat nested input "%H:%M:%S" tm
  | _ => some (tm, none)

/-- The loop over the format (`src/header/time/strptime.rs:90-417`). -/
def loop (nested : List Char → List UInt8 → Tm → Res) : List Char → List UInt8 → Tm → Res
  | [], input, tm => some (tm, some input)
  | fc :: f, input, tm =>
    if fc ≠ '%' then
      match input with
      | [] => some (tm, none)
      | b :: input => if Char.ofNat b.toNat ≠ fc then some (tm, none) else loop nested f input tm
    else match f with
      | [] => some (tm, none)
      | spec :: f =>
        if spec = 'E' ∨ spec = 'O' then
          match f with
          | [] => some (tm, none)
          | spec :: f =>
            match conversion nested spec input tm with
            | none => none
            | some (tm, none) => some (tm, none)
            | some (tm, some input) => loop nested f input tm
        else
          match conversion nested spec input tm with
          | none => none
          | some (tm, none) => some (tm, none)
          | some (tm, some input) => loop nested f input tm

/-- The function within itself: only the formats of `apply_subformat`, which need no further call. -/
def inner : Nat → List Char → List UInt8 → Tm → Res
  | 0 => loop fun _ _ _ => none
  | d + 1 => loop (inner d)

/-- `strptime` (`src/header/time/strptime.rs:49-423`) of the two strings. -/
def strptime (buf format : List UInt8) (tm : Tm) : Res :=
  match toStr buf, toStr format with
  | some _, some f => inner 1 f buf tm
  | _, _ => some (tm, none)

end Verif.Time.Strptime
