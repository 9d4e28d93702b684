import Verif.Mem.Basic

/-!
# Model of `src/header/ctype/mod.rs`, the integer and case-insensitive parts of `src/header/strings/mod.rs`

`c_int` is `Int32`. `b'x'` literals are written as their codes. The `_l` variants call the plain functions
(they ignore the locale) and are not repeated.
-/

namespace Verif.Ctype

open Verif.Mem

/-- `c_int::from(bool)` -/
def ofBool (b : Bool) : Int32 := if b then 1 else 0

/-- `isdigit` (`src/header/ctype/mod.rs:146-148`). -/
def isdigit (c : Int32) : Int32 := ofBool (decide (c ≥ 48) && decide (c ≤ 57))
/-- `islower` (`src/header/ctype/mod.rs:204-206`). -/
def islower (c : Int32) : Int32 := ofBool (decide (c ≥ 97) && decide (c ≤ 122))
/-- `isupper` (`src/header/ctype/mod.rs:332-334`). -/
def isupper (c : Int32) : Int32 := ofBool (decide (c ≥ 65) && decide (c ≤ 90))
/-- `isalpha` (`src/header/ctype/mod.rs:45-47`). -/
def isalpha (c : Int32) : Int32 := ofBool (decide (islower c ≠ 0) || decide (isupper c ≠ 0))
/-- `isalnum` (`src/header/ctype/mod.rs:17-19`). -/
def isalnum (c : Int32) : Int32 := ofBool (decide (isdigit c ≠ 0) || decide (isalpha c ≠ 0))
/-- `isascii` (`src/header/ctype/mod.rs:77-79`). -/
def isascii (c : Int32) : Int32 := ofBool (decide (c &&& ~~~127 = 0))
/-- `isblank` (`src/header/ctype/mod.rs:90-92`). -/
def isblank (c : Int32) : Int32 := ofBool (decide (c = 32) || decide (c = 9))
/-- `iscntrl` (`src/header/ctype/mod.rs:118-120`). -/
def iscntrl (c : Int32) : Int32 := ofBool (decide (0 ≤ c ∧ c ≤ 31) || decide (c = 127))
/-- `isgraph` (`src/header/ctype/mod.rs:175-177`). -/
def isgraph (c : Int32) : Int32 := ofBool (decide (33 ≤ c ∧ c ≤ 126))
/-- `isprint` (`src/header/ctype/mod.rs:233-235`). -/
def isprint (c : Int32) : Int32 := ofBool (decide (32 ≤ c ∧ c < 127))
/-- `ispunct` (`src/header/ctype/mod.rs:262-269`). -/
def ispunct (c : Int32) : Int32 :=
  ofBool (decide (c ≥ 33 ∧ c ≤ 47) || decide (c ≥ 58 ∧ c ≤ 64) || decide (c ≥ 91 ∧ c ≤ 96)
    || decide (c ≥ 123 ∧ c ≤ 126))
/-- `isspace` (`src/header/ctype/mod.rs:296-305`). -/
def isspace (c : Int32) : Int32 :=
  ofBool (decide (c = 32) || decide (c = 9) || decide (c = 10) || decide (c = 13) || decide (c = 11) || decide (c = 12))
/-- `isxdigit` (`src/header/ctype/mod.rs:361-363`). -/
def isxdigit (c : Int32) : Int32 :=
  ofBool (decide (isdigit c ≠ 0) || (decide (c ||| 32 ≥ 97) && decide (c ||| 32 ≤ 102)))
/-- `toascii` (`src/header/ctype/mod.rs:391-393`). -/
def toascii (c : Int32) : Int32 := c &&& 127
/-- `tolower` (`src/header/ctype/mod.rs:403-405`). -/
def tolower (c : Int32) : Int32 := if isupper c ≠ 0 then c ||| 0x20 else c
/-- `toupper` (`src/header/ctype/mod.rs:428-430`). -/
def toupper (c : Int32) : Int32 := if islower c ≠ 0 then c &&& ~~~0x20 else c

/-! ## `strings.h` -/

/-- `{integer}::trailing_zeros`, for a value of `w` bits, looked at from bit `i` on: Rust intrinsic, modelled from its
documentation by counting. -/
def trailingZerosFrom {w : Nat} (x : BitVec w) (i : Nat) : Nat → Nat
  | 0 => i
  | k + 1 => if x.getLsbD i then i else trailingZerosFrom x (i + 1) k

def trailingZeros {w : Nat} (x : BitVec w) : Nat := trailingZerosFrom x 0 w

/-- `ffs` (`w = 32`), `ffsl`, `ffsll` (`w = 64`) (`src/header/strings/mod.rs:67-89`). The `as c_int` and the addition do
not overflow, the count being at most 64. -/
def ffs {w : Nat} (x : BitVec w) : Nat := if x = 0 then 0 else 1 + trailingZeros x

/-- `c_char` to `c_int` with `.into()`: `c_char` is `i8` on the targets modelled (`src/platform/types.rs`), so this
extends the sign. -/
def charToInt (b : UInt8) : Int32 := b.toInt8.toInt32

/-- `inner_casecmp` over `zip` of the two NUL-including iterators (`src/header/strings/mod.rs:119-127, 152-156`): lazily
reads a pair, maps it to the difference, goes on while the difference is 0. Both iterators end after the NUL. -/
def strcasecmp (m : Mem UInt8) (p q : Nat) : Option Int32 := do
  let a ← m p
  let b ← m q
  let cmp := tolower (charToInt a) - tolower (charToInt b)
  if cmp ≠ 0 then some cmp
  else if a = 0 ∨ b = 0 then some 0
  else strcasecmp m (p + 1) (q + 1)
partial_fixpoint

/-- `strncasecmp` (`src/header/strings/mod.rs:136-143`): the same with `.take(n)`. -/
def strncasecmp (m : Mem UInt8) (p q : Nat) : Nat → Option Int32
  | 0 => some 0
  | n + 1 => do
    let a ← m p
    let b ← m q
    let cmp := tolower (charToInt a) - tolower (charToInt b)
    if cmp ≠ 0 then some cmp
    else if a = 0 ∨ b = 0 then some 0
    else strncasecmp m (p + 1) (q + 1) n

end Verif.Ctype
