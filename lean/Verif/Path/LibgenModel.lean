import Verif.Mem.Basic
import Verif.Str.StrModel
/-!
# `basename` and `dirname`

`src/header/libgen/mod.rs`. The index `end` (an `isize` that may become -1) is kept as the natural number `end + 1`.
The string literals `"."` and `"/"` are static storage, represented by their contents.
-/

namespace Verif.Path
open Verif.Mem Verif.Str

/-- What the functions return: a pointer to a static string or a pointer into (or to) the argument. -/
inductive Ret where
  | static (s : List UInt8)
  | ptr (p : Nat)
  deriving DecidableEq

/-- `while end >= 0 && test(path[end]) { end -= 1 }`, with `k = end + 1` (`src/header/libgen/mod.rs:19-21`, `:26-28`,
`:51-53`). -/
def backWhile (m : Mem UInt8) (path : Nat) (test : UInt8 → Bool) : Nat → Option Nat
  | 0 => some 0
  | k + 1 => do
    let c ← m (path + k)
    if test c then backWhile m path test k else some (k + 1)

/-- `while end > 0 && test(path[end]) { end -= 1 }`, with `k = end + 1` (`src/header/libgen/mod.rs:48-50`, `:54-56`). -/
def backWhilePos (m : Mem UInt8) (path : Nat) (test : UInt8 → Bool) : Nat → Option Nat
  | 0 => some 0
  | 1 => some 1
  | k + 2 => do
    let c ← m (path + (k + 1))
    if test c then backWhilePos m path test (k + 1) else some (k + 2)

/-- `basename` (`src/header/libgen/mod.rs:14-33`); the argument 0 is the null pointer. -/
def basename (m : Mem UInt8) (path : Nat) : Option (Ret × Mem UInt8) :=
  if path = 0 then some (.static [0x2E], m)
  else do
    let n ← strlen m path
    if n = 0 then some (.static [0x2E], m)
    else do
      let e ← backWhile m path (· == 0x2F) n
      if e = 0 then some (.static [0x2F], m)
      else do
        let b ← backWhile m path (· != 0x2F) e
        let m' ← store m (path + e) 0
        some (.ptr (path + b), m')

/-- `dirname` (`src/header/libgen/mod.rs:43-64`). -/
def dirname (m : Mem UInt8) (path : Nat) : Option (Ret × Mem UInt8) :=
  if path = 0 then some (.static [0x2E], m)
  else do
    let n ← strlen m path
    if n = 0 then some (.static [0x2E], m)
    else do
      let e ← backWhilePos m path (· == 0x2F) n
      let e ← backWhile m path (· != 0x2F) e
      let e ← backWhilePos m path (· == 0x2F) e
      if e = 0 then some (.static [0x2E], m)
      else do
        let m' ← store m (path + e) 0
        some (.ptr path, m')

end Verif.Path
