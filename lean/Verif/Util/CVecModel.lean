import Verif.Stdlib.AllocModel
import Verif.Stdio.PrintfModel
/-!
# `CVec`, the growable buffer, and `asprintf`

`src/c_vec.rs`. A vector of elements of `sz` bytes each, in memory from `platform::alloc`/`platform::realloc`
(`src/platform/allocator/mod.rs:82-96`), which are those of the allocator model (`Verif.Stdlib.Allocator`). Elements are
plain data (`drop_in_place` does nothing). `usize` arithmetic is on natural numbers with the checks of the code.

Results: the outer `none` is a fault or a panic, the inner `false` is `Err(AllocError)`.
-/

namespace Verif.Util
open Verif.Mem Verif.Stdlib

/-- `isize::MAX`. -/
def isizeMax : Nat := 2 ^ 63 - 1

/-- `CVec<T>` (`src/c_vec.rs:26-30`). -/
structure CVec where
  ptr : Nat
  len : Nat
  cap : Nat

/-- A vector and the heap. -/
structure VState where
  v : CVec
  h : Heap

/-- `CVec::new` (`src/c_vec.rs:33-39`); `NonNull::dangling()` is some address, here `sz`. -/
def CVec.new (sz : Nat) : CVec := ⟨sz, 0, 0⟩

/-- `check_bounds` (`src/c_vec.rs:40-46`). -/
def checkBounds (i : Nat) : Option Nat := if i > isizeMax then none else some i

/-- `check_mul` (`src/c_vec.rs:47-51`). -/
def checkMul (x y : Nat) : Option Nat := if x * y < 2 ^ 64 then checkBounds (x * y) else none

/-- `with_capacity` (`src/c_vec.rs:52-59`); `none` = `Err`, with the heap. -/
def CVec.withCapacity (al : Allocator) (h : Heap) (sz cap : Nat) : Option CVec × Heap :=
  if cap = 0 then (some (CVec.new sz), h)
  else
    match checkMul cap sz with
    | none => (none, h)
    | some size =>
      let r := al.malloc h size
      if r.1 = 0 then (none, r.2) else (some ⟨r.1, 0, cap⟩, r.2)

/-- `resize` (`src/c_vec.rs:60-75`): success, and the state. -/
def VState.resize (al : Allocator) (sz : Nat) (s : VState) (cap : Nat) : Bool × VState :=
  match checkMul cap sz with
  | none => (false, s)
  | some size =>
    if cap = 0 then (true, { s with v := { s.v with ptr := sz, cap := 0 } })
    else
      let r := if s.v.cap > 0 then platformRealloc al s.h s.v.ptr size else al.malloc s.h size
      if r.1 = 0 then (false, { s with h := r.2 })
      else (true, { v := { s.v with ptr := r.1, cap := cap }, h := r.2 })

/-- `usize::next_power_of_two`, for arguments up to `2^63`. -/
def nextPowerOfTwo (n : Nat) : Nat := if n ≤ 1 then 1 else 2 ^ ((n - 1).log2 + 1)

/-- `reserve` (`src/c_vec.rs:87-100`). -/
def VState.reserve (al : Allocator) (sz : Nat) (s : VState) (required : Nat) : Bool × VState :=
  match (if s.v.len + required < 2 ^ 64 then checkBounds (s.v.len + required) else none) with
  | none => (false, s)
  | some n =>
    if n > s.v.cap then s.resize al sz (min (nextPowerOfTwo n) isizeMax)
    else (true, s)

/-- `push` (`src/c_vec.rs:101-108`); the element is given by its bytes. -/
def VState.push (al : Allocator) (sz : Nat) (s : VState) (elem : List UInt8) : Option (Bool × VState) :=
  let r := s.reserve al sz 1
  if r.1 then do
    let m ← writeN r.2.h.mem (r.2.v.ptr + r.2.v.len * sz) elem
    some (true, { v := { r.2.v with len := r.2.v.len + 1 }, h := { r.2.h with mem := m } })
  else some (false, r.2)

/-- `extend_from_slice` (`src/c_vec.rs:109-119`); the slice is given by its elements. -/
def VState.extend (al : Allocator) (sz : Nat) (s : VState) (elems : List (List UInt8)) : Option (Bool × VState) :=
  let r := s.reserve al sz elems.length
  if r.1 then do
    let m ← writeN r.2.h.mem (r.2.v.ptr + r.2.v.len * sz) elems.flatten
    some (true, { v := { r.2.v with len := r.2.v.len + elems.length }, h := { r.2.h with mem := m } })
  else some (false, r.2)

/-- `append` (`src/c_vec.rs:120-129`): success, the other vector, and the state. -/
def VState.append (al : Allocator) (sz : Nat) (s : VState) (other : CVec) : Option (Bool × CVec × VState) :=
  let len := other.len
  let other := { other with len := 0 }
  let r := s.reserve al sz len
  if r.1 then do
    let b ← readN r.2.h.mem other.ptr (len * sz)
    let m ← writeN r.2.h.mem (r.2.v.ptr + r.2.v.len * sz) b
    some (true, other, { v := { r.2.v with len := r.2.v.len + other.len }, h := { r.2.h with mem := m } })
  else some (false, other, r.2)

/-- `truncate` (`src/c_vec.rs:133-141`). -/
def VState.truncate (s : VState) (len : Nat) : VState :=
  if len < s.v.len then { s with v := { s.v with len := len } } else s

/-- `shrink_to_fit` (`src/c_vec.rs:142-150`). -/
def VState.shrinkToFit (al : Allocator) (sz : Nat) (s : VState) : Bool × VState :=
  if s.v.len < s.v.cap then s.resize al sz s.v.len else (true, s)

/-- `pop` (`src/c_vec.rs:151-159`): the element. -/
def VState.pop (sz : Nat) (s : VState) : Option (Option (List UInt8) × VState) :=
  if s.v.len = 0 then some (none, s)
  else do
    let e ← readN s.h.mem (s.v.ptr + (s.v.len - 1) * sz) sz
    some (some e, { s with v := { s.v with len := s.v.len - 1 } })

/-- `write_all` of `CVec<u8>` for each slice (`src/c_vec.rs:214-227`, `src/io/mod.rs:1754-1769`); stops at the first
error. -/
def VState.writeAll (al : Allocator) (s : VState) : Stdio.Chunks → Option (Bool × VState)
  | [] => some (true, s)
  | b :: bs =>
    if b = [] then s.writeAll al bs
    else do
      let r ← s.extend al 1 (b.map ([·]))
      if r.1 then r.2.writeAll al bs else some (false, r.2)

/-- `vasprintf`, `asprintf` (`src/header/stdio/mod.rs:1583-1604`): return value, `*strp`, heap; `none` = a panic (or a
fault). `printf` turns an error of the writer into -1 (`src/header/stdio/printf.rs:1440-1442`). Simplified: the slices are
computed from the memory before the call, which is what the conversions see, as the buffer is memory not in use before.
Formats with `%n` are left out. -/
def asprintf (al : Allocator) (h : Heap) (errText f : List UInt8) (ap : Stdio.VaList) : Option (Int32 × Nat × Heap) := do
  let (cs, _, ret) ← Stdio.printf h.mem errText f ap
  let (ok, s) ← VState.writeAll al ⟨CVec.new 1, h⟩ cs
  let ret := if ok then ret else -1
  let (ok, s) ← s.push al 1 [0]
  if ok = false then none
  else do
    let (ok, s) := s.shrinkToFit al 1
    if ok = false then none
    else some (ret, s.v.ptr, s.h)

end Verif.Util
