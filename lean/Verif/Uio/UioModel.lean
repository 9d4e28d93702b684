import Verif.Stdlib.SortModel
/-!
# `readv` and `writev`

`src/header/sys_uio/mod.rs` and `src/header/bits_iovec/mod.rs`.

* An `iovec` is a pair of an address and a length.
* The kernel's `read` is the answer to a length: an error, or the bytes it put at the beginning of the buffer (the rest of the
  buffer is left as it was, also after an error). `write` is the answer to the bytes.
* `none` = an access outside mapped memory, or a slice index out of bounds.
-/

namespace Verif.Uio
open Verif.Mem Verif.Stdlib

/-- `IOV_MAX` (`src/header/limits/mod.rs:26`). -/
def IOV_MAX : Nat := 1024

/-- `EINVAL` (`src/header/errno/mod.rs:68`). -/
def EINVAL : Int32 := 22

/-- `gather` (`src/header/bits_iovec/mod.rs:24-31`). -/
def gather (m : Mem UInt8) : List (Nat × Nat) → Option (List UInt8)
  | [] => some []
  | v :: vs => do
    let l ← readN m v.1 v.2
    let r ← gather m vs
    some (l ++ r)

/-- `scatter` (`src/header/bits_iovec/mod.rs:33-41`), `vec` without the first `i` bytes. -/
def scatter (m : Mem UInt8) : List (Nat × Nat) → List UInt8 → Option (Mem UInt8)
  | [], _ => some m
  | v :: vs, vec =>
    if vec.length < v.2 then none
    else do
      let m ← writeN m v.1 (vec.take v.2)
      scatter m vs (vec.drop v.2)

/-- `readv` (`src/header/sys_uio/mod.rs:25-39`): the number of bytes or `errno`, and the memory. -/
def readv (m : Mem UInt8) (read : Nat → Except Int32 (List UInt8)) (iovs : List (Nat × Nat)) :
    Option (Except Int32 Nat × Mem UInt8) :=
  if iovs.length > IOV_MAX then some (.error EINVAL, m)
  else do
    let vec ← gather m iovs
    match read vec.length with
    | .error e => do
      let m ← scatter m iovs vec
      some (.error e, m)
    | .ok d => do
      let m ← scatter m iovs (d ++ vec.drop d.length)
      some (.ok d.length, m)

/-- `writev` (`src/header/sys_uio/mod.rs:50-60`). -/
def writev (m : Mem UInt8) (write : List UInt8 → Except Int32 Nat) (iovs : List (Nat × Nat)) : Option (Except Int32 Nat) :=
  if iovs.length > IOV_MAX then some (.error EINVAL)
  else do
    let vec ← gather m iovs
    some (write vec)

end Verif.Uio
