import Verif.Strtod.Model
/-!
# The floating-point conversions of `printf`

`src/header/stdio/printf.rs`: `float_string`, `float_exp`, `fmt_float_exp`, `fmt_float_normal`, `fmt_float_nonfinite`, and the branches of `inner_printf` for `%e`, `%f` and `%g`.

* A `double` is its sign and its magnitude: see `Verif.Strtod.Model`. Magnitudes are in units of `2^-1074`, so that 1.0 is `2^1074`.
* The conversion is given as it comes out of `PrintfIter`; reading the format and the argument list is not part of this model (`Verif.Stdio.PrintfModel` has it for the other conversions). A `long double` is converted to `double` first by
  `relibc_ldtod`, which is not modelled.
* `format!("{:.p$}", float)` of the Rust library is taken to be exact: the decimal with `p` digits behind the point that is nearest to the value, ties to even. The library panics for a precision above 65535 (`none`).
* A writer that never fails is assumed; the result is the bytes written.
-/

namespace Verif.Float
open Verif.Strtod

/-- 1.0. -/
@[irreducible] def one : Nat := 2 ^ 1074

/-- `f64::EPSILON`, `2^-52`. -/
@[irreducible] def epsilon : Nat := 2 ^ 1022

/-! ## The Rust library -/

/-- The integer nearest to `a/b`, ties to even. -/
def nearest (a b : Nat) : Nat := if 2 * (a % b) > b ∨ (2 * (a % b) = b ∧ a / b % 2 = 1) then a / b + 1 else a / b

/-- The last `p` decimal digits of a number. -/
def lastDigits : Nat → Nat → List UInt8
  | 0, _ => []
  | p + 1, n => lastDigits p (n / 10) ++ [UInt8.ofNat (0x30 + n % 10)]

/-- The decimal digits of a number. -/
def decimal (n : Nat) : List UInt8 := if n < 10 then [UInt8.ofNat (0x30 + n)] else decimal (n / 10) ++ [UInt8.ofNat (0x30 + n % 10)]
decreasing_by omega

/-- `format!("{:.p$}", float)` (`src/header/stdio/printf.rs:458`) without the sign. -/
def fixed (n p : Nat) : List UInt8 :=
  let v := nearest (n * 10 ^ p) one
  decimal (v / 10 ^ p) ++ if p = 0 then [] else 0x2E :: lastDigits p v

/-- `{:+03}` of an exponent (`src/header/stdio/printf.rs:526`). -/
def expDigits (e : Int) : List UInt8 :=
  (if e < 0 then 0x2D else 0x2B) :: (List.replicate (2 - (decimal e.natAbs).length) 0x30 ++ decimal e.natAbs)

/-! ## `printf.rs` -/

/-- `float_string` (`src/header/stdio/printf.rs:450-478`). -/
def floatString (neg : Bool) (n p : Nat) (trim alternate : Bool) : Option (List UInt8) :=
  if 65535 < p then none
  else
    let s := (if neg then [0x2D] else []) ++ fixed n p
    some (
      if alternate ∧ p = 0 then s ++ [0x2E]
      else if trim ∧ 0x2E ∈ s then
        let slice := (s.reverse.dropWhile (· == 0x30)).reverse
        if slice.getLast? = some 0x2E then slice.dropLast else slice
      else s)

/-- The magnitude of a finite number. The loops below reach no other ones (`down_some`, `up_some`). -/
def finite : Mag → Option Nat
  | .fin n => some n
  | _ => none

/-- The first loop of `float_exp` (`src/header/stdio/printf.rs:482-485`): the value and the number of divisions. The number of turns is limited here, by more than a `double` can need (`down_some`). -/
def down : Nat → Nat → Nat → Option (Nat × Nat)
  | 0, _, _ => none
  | fuel + 1, n, e =>
    if 10 * one ≤ n then
      (finite (div double (.fin n) (ofNat double 10))).bind fun n => down fuel n (e + 1)
    else some (n, e)

/-- The second loop of `float_exp` (`src/header/stdio/printf.rs:486-489`): the value and the number of multiplications; limited likewise (`up_some`). -/
def up : Nat → Nat → Nat → Option (Nat × Nat)
  | 0, _, _ => none
  | fuel + 1, n, e =>
    if epsilon < n ∧ n < one then
      (finite (mul double (.fin n) (ofNat double 10))).bind fun n => up fuel n (e + 1)
    else some (n, e)

/-- `float_exp` (`src/header/stdio/printf.rs:480-491`). -/
def floatExp (n : Nat) : Option (Nat × Int) := do
  let (n, d) ← down 2000 n 0
  let (n, u) ← up 2000 n 0
  some (n, (d : Int) - u)

/-- `pad` (`src/header/stdio/printf.rs:436-448`). -/
def pad (side : Bool) (c : UInt8) (len width : Nat) : List UInt8 := if side then List.replicate (width - len) c else []

/-- The text without its sign, and the sign (`src/header/stdio/printf.rs:518-523`, `545-550`). -/
def splitSign (s : List UInt8) : List UInt8 × List UInt8 := if s.head? = some 0x2D then ([0x2D], s.drop 1) else ([], s)

/-- The number of digits of the exponent that `fmt_float_exp` counts (`src/header/stdio/printf.rs:507-512`): negative ones have one. -/
def expLen (e : Int) : Nat := if e < 10 then 1 else (decimal e.natAbs).length

/-- `fmt_float_exp` (`src/header/stdio/printf.rs:494-529`). -/
def fmtExp (letter : UInt8) (trim alternate : Bool) (p : Nat) (neg : Bool) (n : Nat) (e : Int) (left : Bool) (space zero : Nat) : Option (List UInt8) := do
  let s ← floatString neg n p trim alternate
  let len := s.length + 2 + max 2 (expLen e)
  let (sign, bytes) := splitSign s
  some (pad (!left) 0x20 len space ++ sign ++ pad (!left) 0x30 len zero ++ bytes ++ letter :: expDigits e ++ pad left 0x20 len space)

/-- `fmt_float_normal` (`src/header/stdio/printf.rs:532-556`). -/
def fmtNormal (trim alternate : Bool) (p : Nat) (neg : Bool) (n : Nat) (left : Bool) (space zero : Nat) : Option (List UInt8) := do
  let s ← floatString neg n p trim alternate
  let len := s.length
  let (sign, bytes) := splitSign s
  some (pad (!left) 0x20 len space ++ sign ++ pad true 0x30 len zero ++ bytes ++ pad left 0x20 len space)

/-- `fmt_float_nonfinite` (`src/header/stdio/printf.rs:559-591`); `inf` or not a number. -/
def fmtNonfinite (neg inf upper left : Bool) (space zero : Nat) : List UInt8 :=
  let s : List UInt8 := match inf, upper with
    | true, false => [0x69, 0x6E, 0x66]
    | true, true => [0x49, 0x4E, 0x46]
    | false, false => [0x6E, 0x61, 0x6E]
    | false, true => [0x4E, 0x41, 0x4E]
  pad (!left) 0x20 s.length (space + zero) ++ (if neg then [0x2D] else []) ++ s ++ pad left 0x20 s.length (space + zero)

/-- The three conversions, `FmtKind::{Scientific, Decimal, AnyNotation}`. -/
inductive Style
  | e
  | f
  | g
deriving DecidableEq

/-- A conversion, after width and precision have been resolved (`PrintfArg`, `src/header/stdio/printf.rs:600-613`, and `:822-826`). The width is negative if it was taken from a negative argument. -/
structure Conv where
  style : Style
  upper : Bool := false
  alternate : Bool := false
  zero : Bool := false
  left : Bool := false
  signReserve : Bool := false
  signAlways : Bool := false
  width : Int := 0
  precision : Option Nat := none

/-- `pad_zero` (`src/header/stdio/printf.rs:827`): a `usize`. -/
def Conv.padZero (c : Conv) : Nat := if c.zero then (c.width % 2 ^ 64).toNat else 0

/-- `signed_space` (`src/header/stdio/printf.rs:828-831`). -/
def Conv.signedSpace (c : Conv) : Int := if c.padZero = 0 then c.width else 0

/-- `pad_space` and `left` (`src/header/stdio/printf.rs:832-837`). -/
def Conv.padSpace (c : Conv) : Nat := c.signedSpace.natAbs

/-- See `padSpace`. -/
def Conv.isLeft (c : Conv) : Bool := c.left || decide (c.signedSpace < 0)

/-- The branches of `inner_printf` for the three conversions (`src/header/stdio/printf.rs:977-1052`): the bytes for a sign and a magnitude. The flags for a sign are not looked at. -/
def print (c : Conv) (neg : Bool) : Mag → Option (List UInt8)
  | .inf => some (fmtNonfinite neg true c.upper c.isLeft c.padSpace c.padZero)
  | .nan => some (fmtNonfinite neg false c.upper c.isLeft c.padSpace c.padZero)
  | .fin n =>
    let p := c.precision.getD 6
    let letter := if c.upper then 0x45 else 0x65
    match c.style with
    | .e => do
      let (m, e) ← floatExp n
      fmtExp letter false c.alternate p neg m e c.isLeft c.padSpace c.padZero
    | .f => fmtNormal false c.alternate p neg n c.isLeft c.padSpace c.padZero
    | .g => do
      let (m, e) ← floatExp n
      if e < -4 ∨ (p : Int) ≤ e then fmtExp letter (!c.alternate) c.alternate (p - 1) neg m e c.isLeft c.padSpace c.padZero
      else fmtNormal (!c.alternate) c.alternate (p - (1 + (max 0 e).toNat)) neg n c.isLeft c.padSpace c.padZero

end Verif.Float
