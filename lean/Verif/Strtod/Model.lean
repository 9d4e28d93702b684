/-!
# `strtod` and `strtof`

`strto_float_impl!` (`src/macros.rs:320-444`), used by `strtod` (`src/header/stdlib/mod.rs:1514-1518`) and `strtof` (`:1520-1524`).

* The operations of the processor on `f64` and `f32` are those of IEEE 754 with rounding to nearest, ties to even. All values the code calculates with before the last multiplication by the sign are not negative. A
  value that is not negative and finite is given by the number of times it contains the smallest positive value, `2^-1074` or `2^-149`: a natural number.
* A string is the list of its bytes before the NUL. The end pointer is given by the bytes from it on.
* `10u128.pow(n)` wraps, as do the sums for `n` (release build).
-/

namespace Verif.Strtod

/-! ## Arithmetic -/

/-- A format: bits of the significand, the smallest positive value `2^-k`, and `top`: `2^top` times that is the first power of two that is too large. -/
structure Fmt where
  p : Nat
  k : Nat
  top : Nat

/-- `f64`. -/
def double : Fmt := ⟨53, 1074, 2098⟩

/-- `f32`. -/
def single : Fmt := ⟨24, 149, 277⟩

/-- A value without sign: finite (in units of the smallest positive value), infinite, or not a number. -/
inductive Mag
  | fin (n : Nat)
  | inf
  | nan
deriving DecidableEq

/-- The fraction `a/b` (in units of the smallest positive value) rounded: to a multiple of `q`, the distance of the values near `a/b`. -/
def rnd (f : Fmt) (a b : Nat) : Mag :=
  let q := 2 ^ ((a / b).log2 + 1 - f.p)
  let m := a / (b * q)
  let r := a % (b * q)
  let m := if 2 * r > b * q ∨ (2 * r = b * q ∧ m % 2 = 1) then m + 1 else m
  if m * q < 2 ^ f.top then .fin (m * q) else .inf

/-- An integer as a floating-point number. -/
def ofNat (f : Fmt) (n : Nat) : Mag := rnd f (n * 2 ^ f.k) 1

/-- Multiplication. -/
def mul (f : Fmt) : Mag → Mag → Mag
  | .fin x, .fin y => rnd f (x * y) (2 ^ f.k)
  | .nan, _ => .nan
  | _, .nan => .nan
  | .inf, .fin y => if y = 0 then .nan else .inf
  | .fin x, .inf => if x = 0 then .nan else .inf
  | .inf, .inf => .inf

/-- Addition. -/
def add (f : Fmt) : Mag → Mag → Mag
  | .fin x, .fin y => rnd f (x + y) 1
  | .nan, _ => .nan
  | _, .nan => .nan
  | _, _ => .inf

/-- Division. -/
def div (f : Fmt) : Mag → Mag → Mag
  | .fin x, .fin y => if y = 0 then (if x = 0 then .nan else .inf) else rnd f (x * 2 ^ f.k) y
  | .nan, _ => .nan
  | _, .nan => .nan
  | .fin _, .inf => .fin 0
  | .inf, .fin _ => .inf
  | .inf, .inf => .nan

/-! ## The code -/

/-- `isspace` (`src/header/ctype/mod.rs:296-305`). -/
def isSpace (b : UInt8) : Bool := b == 0x20 || b == 9 || b == 10 || b == 13 || b == 11 || b == 12

/-- The value of a character as a digit; 36 for no digit. -/
def rawDigit (b : UInt8) : Nat :=
  if 0x30 ≤ b ∧ b ≤ 0x39 then b.toNat - 0x30 else if 0x61 ≤ b ∧ b ≤ 0x7A then b.toNat - 0x61 + 10 else if 0x41 ≤ b ∧ b ≤ 0x5A then b.toNat - 0x41 + 10 else 36

/-- `char::to_digit`. -/
def digit (radix : Nat) (b : UInt8) : Option Nat := if rawDigit b < radix then some (rawDigit b) else none

/-- The digits before the point (`src/macros.rs:364-368`). -/
def intLoop (f : Fmt) (radix : Nat) (result : Mag) : List UInt8 → Mag × List UInt8
  | [] => (result, [])
  | b :: t => match digit radix b with
    | some d => intLoop f radix (add f (mul f result (ofNat f radix)) (ofNat f d)) t
    | none => (result, b :: t)

/-- The digits behind the point (`src/macros.rs:373-378`). -/
def fracLoop (f : Fmt) (radix : Nat) (i result : Mag) : List UInt8 → Mag × List UInt8
  | [] => (result, [])
  | b :: t => match digit radix b with
    | some d =>
      let i := mul f i (ofNat f radix)
      fracLoop f radix i (add f result (div f (ofNat f d) i)) t
    | none => (result, b :: t)

/-- The digits of the exponent (`src/macros.rs:403-407`); the sum is a `u32`. -/
def expLoop (v : Nat) : List UInt8 → Nat × List UInt8
  | [] => (v, [])
  | b :: t => match digit 10 b with
    | some d => expLoop ((v * 10 + d) % 2 ^ 32) t
    | none => (v, b :: t)

/-- A sign (`src/macros.rs:335-345`, `387-397`): negative or not, and what follows. -/
def sign : List UInt8 → Bool × List UInt8
  | [] => (false, [])
  | b :: t => if b = 0x2D then (true, t) else if b = 0x2B then (false, t) else (false, b :: t)

/-- The power of the base for an exponent (`src/macros.rs:409-419`). -/
def factor (f : Fmt) (radix : Nat) (neg : Bool) (e : Nat) : Mag :=
  let v := ofNat f ((if radix = 10 then 10 else 2) ^ e % 2 ^ 128)
  if neg then div f (ofNat f 1) v else v

/-- The exponent (`src/macros.rs:381-427`): a factor, if there is one, and what follows. -/
def exponent (f : Fmt) (radix : Nat) (s : List UInt8) : Option Mag × List UInt8 :=
  match s with
  | [] => (none, [])
  | b :: t =>
    if (radix = 10 ∧ (b = 0x65 ∨ b = 0x45)) ∨ (radix = 16 ∧ (b = 0x70 ∨ b = 0x50)) then
      let (neg, t') := sign t
      match t' with
      | [] => (none, s)
      | c :: _ => if (digit 10 c).isSome then
          let (v, rest) := expLoop 0 t'
          (some (factor f radix neg v), rest)
        else (none, s)
    else (none, s)

/-- The lower case of an ASCII letter. -/
def lower (b : UInt8) : UInt8 := if 0x41 ≤ b ∧ b ≤ 0x5A then b + 32 else b

/-- The digits and the exponent (`src/macros.rs:364-442`). -/
def number (f : Fmt) (radix : Nat) (s : List UInt8) : Mag × List UInt8 :=
  let (r, s) := intLoop f radix (.fin 0) s
  let (r, s) := match s with
    | b :: t => if b = 0x2E then fracLoop f radix (ofNat f 1) r t else (r, s)
    | [] => (r, s)
  match exponent f radix s with
  | (some x, s) => (mul f r x, s)
  | (none, s) => (r, s)

/-- `strto_float_impl!` (`src/macros.rs:320-444`): the sign, the value without it, and the bytes from `*endptr` on. -/
def strtod (f : Fmt) (s : List UInt8) : Bool × Mag × List UInt8 :=
  let s := s.dropWhile isSpace
  let (neg, s) := sign s
  let w := (s.take 3).map lower
  let (r, s) :=
    if w = [0x69, 0x6E, 0x66] then (.inf, s.drop 3)
    else if w = [0x6E, 0x61, 0x6E] then (.nan, s.drop 3)
    else if s.take 2 = [0x30, 0x78] then number f 16 (s.drop 2)
    else number f 10 s
  (neg, r, s)

end Verif.Strtod
