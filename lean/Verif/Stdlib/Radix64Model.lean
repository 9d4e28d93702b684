import Verif.Stdlib.SortModel
/-!
# `a64l`, `l64a`

Transcription of `src/header/stdlib/mod.rs` for a 64-bit target: `c_long` is `BitVec 64` and `i32` is `BitVec 32`, both
read as two's complement numbers. `c_char` is read as an unsigned byte: the ranges of the `match` are all below 128, so
the result is the same as with `i8`.
-/

namespace Verif.Stdlib
open Verif.Mem

/-- The loop `for i in 0..6` of `a64l` (`src/header/stdlib/mod.rs:82-116`), with `n` iterations left. -/
def a64lLoop (m : Mem UInt8) (s : Nat) : (n i : Nat) → BitVec 32 → Option (BitVec 64)
  | 0, _, l => some (l.signExtend 64)
  | n + 1, i, l => do
    let c ← m (s + i)
    if c = 0 then some (l.signExtend 64)
    else if 46 ≤ c ∧ c ≤ 57 then a64lLoop m s n (i + 1) (l ||| (BitVec.ofNat 32 (c - 46).toNat <<< (6 * i)))
    else if 65 ≤ c ∧ c ≤ 90 then a64lLoop m s n (i + 1) (l ||| (BitVec.ofNat 32 (c - 53).toNat <<< (6 * i)))
    else if 97 ≤ c ∧ c ≤ 122 then a64lLoop m s n (i + 1) (l ||| (BitVec.ofNat 32 (c - 59).toNat <<< (6 * i)))
    else some 0

/-- `a64l` (`src/header/stdlib/mod.rs:82-116`). A null pointer is `none`. -/
def a64l (m : Mem UInt8) (s : Option Nat) : Option (BitVec 64) :=
  match s with
  | none => some 0
  | some s => a64lLoop m s 6 0 0

/-- `i32::leading_zeros`. -/
def leadingZeros (x : BitVec 32) : Nat := if x.toNat = 0 then 32 else 31 - Nat.log2 x.toNat

/-- The digit written for a value (`src/header/stdlib/mod.rs:604-618`). The argument is below 64, so the `_` arm of the
code (`unreachable!()`) is `none`. -/
def l64aDigit (v : Nat) : Option UInt8 :=
  if v ≤ 11 then some (UInt8.ofNat (46 + v))
  else if v ≤ 37 then some (UInt8.ofNat (53 + v))
  else if v ≤ 63 then some (UInt8.ofNat (59 + v))
  else none

/-- The loop `for i in 0..num_output_digits` of `l64a` (`src/header/stdlib/mod.rs:579-618`), with `n` iterations
left. -/
def l64aLoop (x : BitVec 32) (buf : Nat) : (n i : Nat) → Mem UInt8 → Option (Mem UInt8)
  | 0, _, m => some m
  | n + 1, i, m => do
    let d ← l64aDigit (x.sshiftRight (6 * i) &&& 63).toNat
    let m ← store m (buf + i) d
    l64aLoop x buf n (i + 1) m

/-- `l64a` (`src/header/stdlib/mod.rs:579-618`); `buf` is the address of `L64A_BUFFER`, which is the result. -/
def l64a (m : Mem UInt8) (buf : Nat) (value : BitVec 64) : Option (Mem UInt8) := do
  let x : BitVec 32 := value.truncate 32
  let num := 6 - (leadingZeros x + 4) / 6
  let m ← writeN m buf [0, 0, 0, 0, 0, 0, 0]
  l64aLoop x buf num 0 m

end Verif.Stdlib
