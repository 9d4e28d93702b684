import Verif.Str.StrModel
/-!
# Strings ended by a NUL: `NulStr` (`src/c_str.rs`)

`CStr` (bytes) and `WStr` (wide characters) are both `NulStr`; the model is for elements of any type with a zero. A string is the
address of its first element. `none` is a read of memory that is not mapped. The conversions `r2c` and `c2r` between `c_char` and `u8` keep the
bits and are left out.
-/

namespace Verif.NulStr
open Verif.Mem Verif.Str

variable {α : Type} [DecidableEq α] [OfNat α 0]

/-- `strchrnul` of `Wide` (`src/c_str.rs:83-89`); that of `Thin` is `strchrnul` (`src/header/string/mod.rs:300-312`), which does the same. -/
def chrnul (m : Mem α) (p : Nat) (c : α) : Option Nat := do
  let b ← m p
  if b ≠ c ∧ b ≠ 0 then chrnul m (p + 1) c else some p
partial_fixpoint

/-- `slice_until_substr` (`src/c_str.rs:161-168`). -/
def sliceUntil (m : Mem α) (p q : Nat) : Option (List α) := readN m p (q - p)

/-- `first` (`src/c_str.rs:200-206`). -/
def first (m : Mem α) (p : Nat) : Option α := m p

/-- `find_get_subslice_or_all` (`src/c_str.rs:135-157`): whether it is `Ok`, the part before, and the rest. -/
def findOrAll (m : Mem α) (p : Nat) (c : α) : Option (Bool × List α × Nat) := do
  let found ← chrnul m p c
  let before ← sliceUntil m p found
  let b ← first m found
  some (b ≠ 0, before, found)

/-- `find` (`src/c_str.rs:183-192`), with `strchr`, `wcschr`. -/
def find (m : Mem α) (p : Nat) (c : α) : Option (Option Nat) := strchrLoop m p c

/-- `find_get_subslice` (`src/c_str.rs:172-177`). -/
def findGet (m : Mem α) (p : Nat) (c : α) : Option (Option (List α × Nat)) := do
  match ← find m p c with
  | none => some none
  | some rest => do
    let before ← sliceUntil m p rest
    some (some (before, rest))

/-- `contains` (`src/c_str.rs:196-198`). -/
def contains (m : Mem α) (p : Nat) (c : α) : Option Bool := (find m p c).map Option.isSome

/-- `split_first` (`src/c_str.rs:219-226`). -/
def splitFirst (m : Mem α) (p : Nat) : Option (Option (α × Nat)) := do
  let b ← first m p
  if b = 0 then some none else some (some (b, p + 1))

/-- `char::from_u32`. -/
def fromU32 (n : Nat) : Option Nat := if n < 0xD800 ∨ 0xDFFF < n ∧ n < 0x110000 then some n else none

/-- `split_first_char` (`src/c_str.rs:213-216`); `u32` is the conversion of an element to a number. -/
def splitFirstChar (u32 : α → Nat) (m : Mem α) (p : Nat) : Option (Option (Nat × Nat)) := do
  match ← splitFirst m p with
  | none => some none
  | some (c, r) => some ((fromU32 (u32 c)).map (·, r))

/-- `to_chars_with_nul` (`src/c_str.rs:227-233`). -/
def toCharsWithNul (m : Mem α) (p : Nat) : Option (List α) := do
  let n ← strlen m p
  readN m p (n + 1)

/-- `to_chars` (`src/c_str.rs:234-237`). -/
def toChars (m : Mem α) (p : Nat) : Option (List α) := do
  let s ← toCharsWithNul m p
  some (s.take (s.length - 1))

/-- `len` (`src/c_str.rs:262-264`). -/
def len (m : Mem α) (p : Nat) : Option Nat := (toChars m p).map List.length

/-- `is_empty` (`src/c_str.rs:266-268`). -/
def isEmpty (m : Mem α) (p : Nat) : Option Bool := (first m p).map (· = 0)

/-- `from_chars_with_nul` (`src/c_str.rs:244-250`): whether the elements at an address are taken as a string. -/
def fromWithNul (chars : List α) : Bool :=
  if chars.getLast? ≠ some 0 ∨ (chars.take (chars.length - 1)).contains 0 then false else true

/-- `from_chars_until_nul` (`src/c_str.rs:251-257`). -/
def fromUntilNul (chars : List α) : Bool := if chars.contains 0 then true else false

end Verif.NulStr
