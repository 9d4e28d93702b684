import Verif.Stdlib.StrtolModel
/-!
# `wcstol`, `wcstoul`, `wcstoll`, `wcstoull`, `wcstoimax`, `wcstoumax`

Transcription of the macros `skipws` and `wcsto_impl` of `src/macros.rs` for a 64-bit target. `wchar_t` is `i32`
(`Int32`, element addresses). The result type is described by its bounds `lo` and `hi`; values are integers.
-/

namespace Verif.Stdlib
open Verif.Mem Verif.Ctype

/-- Outcome of a wide conversion. `endp` is what is stored in `*endptr`, if anything is. -/
structure WConv where
  val : Int
  endp : Option Nat
  errno : Option Errno
deriving DecidableEq

/-- `skipws` (`src/macros.rs:133-139`). -/
def wskip (m : Mem Int32) (p : Nat) : Option Nat := do
  let c ← m p
  if isspace c ≠ 0 then wskip m (p + 1) else some p
partial_fixpoint

/-- `char::from_u32(c as u32).and_then(|c| c.to_digit(base))`: Rust library functions, modelled from their
documentation. `to_digit` panics (`none`) on a radix outside 2..=36 (the model also panics when `c` is not a `char`,
where the code would not get to `to_digit`). -/
def toDigit (c : Int32) (base : Int) : Option (Option Nat) :=
  if 2 ≤ base ∧ base ≤ 36 then
    let d := if 48 ≤ c.toInt ∧ c.toInt ≤ 57 then some (c.toInt - 48).toNat
      else if 97 ≤ c.toInt ∧ c.toInt ≤ 122 then some (c.toInt - 87).toNat
      else if 65 ≤ c.toInt ∧ c.toInt ≤ 90 then some (c.toInt - 55).toNat
      else none
    match d with
    | some k => if (k : Int) < base then some (some k) else some none
    | none => some none
  else none

/-- The digit loop of `wcsto_impl` (`src/macros.rs:171-206`): `none` is a fault or panic, `some none` is the early
`return !0` on overflow, otherwise the result and the final pointer. -/
def wdigits (lo hi : Int) (sub : Bool) (m : Mem Int32) (base : Int) (p : Nat) (result : Int) :
    Option (Option (Int × Nat)) := do
  let c ← m p
  match ← toDigit c base with
  | none => some (some (result, p))
  | some digit =>
    let mul := result * base
    let new := if sub then mul - digit else mul + digit
    if (lo ≤ mul ∧ mul ≤ hi) ∧ (lo ≤ new ∧ new ≤ hi) then wdigits lo hi sub m base (p + 1) new
    else some none
partial_fixpoint

/-- The test for `0x` (`src/macros.rs:158-161`). -/
def wprefix (m : Mem Int32) (p : Nat) (base : Int) : Option Bool :=
  if base = 16 ∨ base = 0 then
    (m p).bind fun c =>
      if c = 48 then (m (p + 1)).bind fun d => some (decide (d = 120 ∨ d = 88)) else some false
  else some false

/-- The detection of base 8 or 10 (`src/macros.rs:167-169`). -/
def wbase (m : Mem Int32) (p : Nat) (base : Int) : Option Int :=
  if base = 0 then (m p).bind fun c => some (if c = 48 then 8 else 10) else some base

/-- The end of `wcsto_impl` (`src/macros.rs:196-211`). -/
def wfinish (hi : Int) (hasMinus signed : Bool) : Option (Int × Nat) → WConv
  | none => ⟨if signed then -1 else hi, none, some .ERANGE⟩
  | some (result, p) =>
    ⟨if hasMinus && !signed then (hi - result + 1) % (hi + 1) else result, some p, none⟩

/-- `wcstol` and its siblings (`src/header/wchar/mod.rs:864-939`, `src/header/inttypes/mod.rs:105-139`) with the macro
`wcsto_impl` (`src/macros.rs:142-212`) expanded, at the integer type `[lo, hi]`. `!0` is −1 in a signed type and the
maximum in an unsigned one. `MAX - result + 1` wraps when `result` is 0 (release build). -/
def wcsto (lo hi : Int) (m : Mem Int32) (nptr : Nat) (base : Int) : Option WConv := do
  let p ← wskip m nptr
  let c ← m p
  let hasMinus : Bool := c = 45
  let hasPlus : Bool := c = 43
  let p := if hasMinus || hasPlus then p + 1 else p
  let signed : Bool := lo ≠ 0
  let pre ← wprefix m p base
  let (p, base) := if pre then (p + 2, 16) else (p, base)
  let base ← wbase m p base
  let r ← wdigits lo hi (hasMinus && signed) m base p 0
  some (wfinish hi hasMinus signed r)

/-- `wcstol`, `wcstoll`, `wcstoimax`. -/
def wcstol := wcsto (-2 ^ 63) (2 ^ 63 - 1)

/-- `wcstoul`, `wcstoull`, `wcstoumax`. -/
def wcstoul := wcsto 0 (2 ^ 64 - 1)

end Verif.Stdlib
