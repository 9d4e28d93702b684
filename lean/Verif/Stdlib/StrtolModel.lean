import Verif.Ctype.Model
/-!
# `strtol`, `strtoul`, `strtoll`, `strtoull`, `strtoimax`, `strtoumax`, `atoi`, `atol`, `atoll`

Transcription of the macro `strto_impl` of `src/macros.rs` and of the helpers in `src/header/stdlib/mod.rs`, for a
64-bit target: all six functions return 64 bits. A result records the value returned, the address stored in `*endptr`
(if `endptr` is not null) and what `errno` is set to, if it is.
-/

namespace Verif.Stdlib
open Verif.Mem Verif.Ctype

/-- The error numbers used by the functions of this directory. -/
inductive Errno where
  | EINVAL | ERANGE | ENOMEM
deriving DecidableEq, Repr

/-- Outcome of a conversion. -/
structure Conv where
  val : BitVec 64
  endp : Nat
  errno : Option Errno
deriving DecidableEq

/-- `is_positive` (`src/header/stdlib/mod.rs:1403-1410`): the sign and the number of characters it takes. -/
def isPositive (ch : UInt8) : Option (Bool × Nat) :=
  if ch = 0 then none
  else if ch = 43 then some (true, 1)
  else if ch = 45 then some (false, 1)
  else some (true, 0)

/-- `LOOKUP_TABLE` (`src/header/stdlib/mod.rs:1460-1477`), written as ranges; `none` stands for −1. -/
def lookupTable (c : UInt8) : Option Nat :=
  if 48 ≤ c ∧ c ≤ 57 then some (c.toNat - 48)
  else if 65 ≤ c ∧ c ≤ 90 then some (c.toNat - 55)
  else if 97 ≤ c ∧ c ≤ 122 then some (c.toNat - 87)
  else none

/-- The loop of `convert_integer` (`src/header/stdlib/mod.rs:1457-1511`): `(num, idx, overflowed)` at its end. `c_ulong`
is a natural number below 2^64; `errno` is set to `ERANGE` exactly when `overflowed` is set. -/
def convertLoop (m : Mem UInt8) (s base num idx : Nat) (overflowed : Bool) : Option (Nat × Nat × Bool) := do
  let c ← m (s + idx)
  match lookupTable c with
  | none => some (num, idx, overflowed)
  | some val =>
    if val ≥ base then some (num, idx, overflowed)
    else if num * base < 2 ^ 64 ∧ num * base + val < 2 ^ 64 then
      convertLoop m s base (num * base + val) (idx + 1) overflowed
    else convertLoop m s base (2 ^ 64 - 1) (idx + 1) true
partial_fixpoint

/-- `convert_integer` (`src/header/stdlib/mod.rs:1457-1511`). The outer `Option` is a fault. -/
def convertInteger (m : Mem UInt8) (s base : Nat) : Option (Option (Nat × Nat × Bool)) := do
  let (num, idx, overflowed) ← convertLoop m s base 0 0 false
  if idx > 0 then some (some (num, idx, overflowed)) else some none

/-- `convert_octal` (`src/header/stdlib/mod.rs:1431-1442`). -/
def convertOctal (m : Mem UInt8) (s : Nat) : Option (Option (Nat × Nat × Bool)) := do
  let c ← m s
  if c ≠ 0 ∧ c = 48 then do
    match ← convertInteger m (s + 1) 8 with
    | some (val, idx, overflow) => some (some (val, idx + 1, overflow))
    | none => some (some (0, 1, false))
  else some none

/-- `convert_hex` (`src/header/stdlib/mod.rs:1444-1455`). `&&` is lazy: the second character is read only if the first
is `0`. -/
def convertHex (m : Mem UInt8) (s : Nat) : Option (Option (Nat × Nat × Bool)) := do
  let c ← m s
  let pre ← if c ≠ 0 ∧ c = 48 then do
      let d ← m (s + 1)
      some (decide (d ≠ 0 ∧ (d = 120 ∨ d = 88)))
    else some false
  if pre then do
    match ← convertInteger m (s + 2) 16 with
    | some (val, idx, overflow) => some (some (val, idx + 2, overflow))
    | none => some none
  else convertInteger m s 16

/-- `detect_base` (`src/header/stdlib/mod.rs:1412-1429`): the base and the number of characters to skip. -/
def detectBase (m : Mem UInt8) (s : Nat) : Option (Option (Nat × Nat)) := do
  let first ← m s
  if first = 0 then some none
  else if first = 48 then do
    let second ← m (s + 1)
    if second = 88 ∨ second = 120 then some (some (16, 2))
    else if 48 ≤ second ∧ second ≤ 55 then some (some (8, 1))
    else some (some (8, 0))
  else some (some (10, 0))

/-- `while isspace(*s.offset(idx)) != 0 { idx += 1 }` (`src/macros.rs:256-258`). -/
def skipSpace (m : Mem UInt8) (s idx : Nat) : Option Nat := do
  let c ← m (s + idx)
  if isspace (charToInt c) ≠ 0 then skipSpace m s (idx + 1) else some idx
partial_fixpoint

/-- The conversion of the digits (`src/macros.rs:274-282`); `idx` is the number of characters before `num_str`, and
what is added to it by both the prefix and the digits is returned. -/
def convertNum (m : Mem UInt8) (numStr : Nat) (base : Int) : Option (Option (Nat × Nat × Bool)) :=
  if base = 0 then do
    match ← detectBase m numStr with
    | none => some none
    | some (b, i) =>
      match ← convertInteger m (numStr + i) b with
      | none => some none
      | some (num, k, ov) => some (some (num, i + k, ov))
  else if base = 8 then convertOctal m numStr
  else if base = 16 then convertHex m numStr
  else convertInteger m numStr base.toNat

/-- `strto_impl` (`src/macros.rs:218-316`) at a 64-bit type. `checkSign` is the macro's `$signed`; `maxVal` and
`minVal` are its `$maxval` and `$minval`. -/
def strtoImpl (checkSign : Bool) (maxVal minVal : BitVec 64) (m : Mem UInt8) (s : Nat) (base : Int) : Option Conv :=
  let invalid : Conv := ⟨0, s, some .EINVAL⟩
  if base ≠ 0 ∧ ¬ (2 ≤ base ∧ base ≤ 36) then some invalid
  else do
    let idx ← skipSpace m s 0
    let c ← m (s + idx)
    match isPositive c with
    | none => some invalid
    | some (positive, i) =>
      let idx := idx + i
      match ← convertNum m (s + idx) base with
      | none => some invalid
      | some (num, i, overflow) =>
        let idx := idx + i
        let ov := if checkSign then overflow || (BitVec.ofNat 64 num).msb else overflow
        if ov then
          let v := if checkSign then (if positive then maxVal else minVal) else maxVal
          some ⟨v, s + idx, some .ERANGE⟩
        else
          let v := BitVec.ofNat 64 num
          some ⟨if positive then v else -v, s + idx, none⟩

def LONG_MAX : BitVec 64 := BitVec.ofInt 64 (2 ^ 63 - 1)
def LONG_MIN : BitVec 64 := BitVec.ofInt 64 (-2 ^ 63)
def ULONG_MAX : BitVec 64 := BitVec.ofInt 64 (2 ^ 64 - 1)

/-- `strtol` (`src/header/stdlib/mod.rs:1534-1540`) and `strtoll` (`src/header/stdlib/mod.rs:1552-1566`). -/
def strtol := strtoImpl true LONG_MAX LONG_MIN

/-- `strtoul` (`src/header/stdlib/mod.rs:1576-1590`), `strtoull` (`src/header/stdlib/mod.rs:1600-1614`) and `strtoumax`
(`src/header/inttypes/mod.rs:82-96`). -/
def strtoul := strtoImpl false ULONG_MAX 0

/-- `strtoimax` (`src/header/inttypes/mod.rs:58-72`): a signed type, but the macro is told it is not. -/
def strtoimax := strtoImpl false LONG_MAX LONG_MIN

/-! ## `atoi`, `atol`, `atoll` -/

/-- The value fits a signed integer of `w` bits. -/
def fits (w : Nat) (n : Int) : Bool := decide (-2 ^ (w - 1) ≤ n ∧ n < 2 ^ (w - 1))

/-- The digit loop of `dec_num_from_ascii` (`src/header/stdlib/mod.rs:190-221`): the number is built negated.
Arithmetic that leaves the type (which C leaves undefined, and which Rust panics on or wraps) is `none`. -/
def atoiLoop (w : Nat) (m : Mem UInt8) (s : Nat) (n : Int) : Option Int := do
  let c ← m s
  if isdigit (charToInt c) ≠ 0 then
    let n' := 10 * n - (c.toNat - 0x30)
    if fits w (10 * n) ∧ fits w n' then atoiLoop w m (s + 1) n' else none
  else some n
partial_fixpoint

/-- `dec_num_from_ascii` (`src/header/stdlib/mod.rs:190-221`): `atoi` (`w = 32`), `atol`, `atoll` (`w = 64`). -/
def atoi (w : Nat) (m : Mem UInt8) (s : Nat) : Option Int := do
  let i ← skipSpace m s 0
  let c ← m (s + i)
  let (neg, s) := if c = 45 then (true, s + i + 1) else if c = 43 then (false, s + i + 1) else (false, s + i)
  let n ← atoiLoop w m s 0
  if neg then some n else if fits w (-n) then some (-n) else none

end Verif.Stdlib
