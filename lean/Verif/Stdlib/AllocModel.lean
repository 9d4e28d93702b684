import Verif.Mem.Basic
import Verif.Stdlib.SortModel
/-!
# Allocation functions

`src/header/stdlib/mod.rs` (`malloc`, `calloc`, `realloc`, `reallocarray`, `memalign`, `aligned_alloc`,
`posix_memalign`, `free`) and the wrappers in `src/platform/allocator/mod.rs`.

The allocator itself (the `dlmalloc` crate) is a parameter: four functions on a heap that consists of the memory and
the table of live blocks. `errno` is part of the heap here. The lock around the allocator is not modelled.
`size_t` is a 64-bit word.
-/

namespace Verif.Stdlib
open Verif.Mem

/-- The errors these functions report. -/
inductive AErr where
  | einval
  | enomem
  deriving DecidableEq

/-- Memory, live blocks (start and size), and `errno`. -/
structure Heap where
  mem : Mem UInt8
  live : Nat → Option Nat
  errno : Option AErr

/-- The interface of `DlmallocCApi` used by `src/platform/allocator/mod.rs:18`; a null pointer is 0. -/
structure Allocator where
  malloc : Heap → Nat → Nat × Heap
  memalign : Heap → (align size : Nat) → Nat × Heap
  realloc : Heap → (p size : Nat) → Nat × Heap
  free : Heap → Nat → Heap

/-- `platform::realloc` (`src/platform/allocator/mod.rs:90-96`). -/
def platformRealloc (al : Allocator) (h : Heap) (p size : Nat) : Nat × Heap :=
  if p = 0 then al.malloc h size else al.realloc h p size

/-- `free` (`src/header/stdlib/mod.rs:409-411`) with `platform::free` (`src/platform/allocator/mod.rs:98-103`). -/
def free (al : Allocator) (h : Heap) (p : Nat) : Heap := if p = 0 then h else al.free h p

/-- `malloc` (`src/header/stdlib/mod.rs:703-709`). -/
def malloc (al : Allocator) (h : Heap) (size : Nat) : Nat × Heap :=
  let (p, h) := al.malloc h size
  if p = 0 then (0, { h with errno := some .enomem }) else (p, h)

/-- `usize::checked_mul`. -/
def checkedMul (a b : UInt64) : Option Nat := if a.toNat * b.toNat < 2 ^ 64 then some (a * b).toNat else none

/-- `calloc` (`src/header/stdlib/mod.rs:273-291`); `none` = a fault while clearing the block. -/
def calloc (al : Allocator) (h : Heap) (nelem elsize : UInt64) : Option (Nat × Heap) :=
  match checkedMul nelem elsize with
  | some size =>
    let (p, h) := malloc al h size
    if p ≠ 0 then do
      let m ← writeN h.mem p (List.replicate size 0)
      some (p, { h with mem := m })
    else some (p, h)
  | none => some (0, { h with errno := some .enomem })

/-- `realloc` (`src/header/stdlib/mod.rs:1199-1205`). -/
def realloc (al : Allocator) (h : Heap) (p size : Nat) : Nat × Heap :=
  let (q, h) := platformRealloc al h p size
  if q = 0 then (0, { h with errno := some .enomem }) else (q, h)

/-- `reallocarray` (`src/header/stdlib/mod.rs:1209-1219`). -/
def reallocarray (al : Allocator) (h : Heap) (p : Nat) (m n : UInt64) : Nat × Heap :=
  match checkedMul m n with
  | some size => realloc al h p size
  | none => (0, { h with errno := some .enomem })

/-- `u64::count_ones`, on the value. -/
def countOnes : Nat → Nat
  | 0 => 0
  | n + 1 => (n + 1) % 2 + countOnes ((n + 1) / 2)
decreasing_by omega

/-- `usize::is_power_of_two`: `self.count_ones() == 1`. -/
def isPowerOfTwo (a : UInt64) : Bool := countOnes a.toNat = 1

/-- `usize::is_multiple_of`. -/
def isMultipleOf (a b : UInt64) : Bool := if b = 0 then a = 0 else a % b = 0

/-- `memalign` (`src/header/stdlib/mod.rs:714-725`). -/
def memalign (al : Allocator) (h : Heap) (alignment size : UInt64) : Nat × Heap :=
  if isPowerOfTwo alignment then
    let (p, h) := al.memalign h alignment.toNat size.toNat
    if p = 0 then (0, { h with errno := some .enomem }) else (p, h)
  else (0, { h with errno := some .einval })

/-- `aligned_alloc` (`src/header/stdlib/mod.rs:146-157`). -/
def alignedAlloc (al : Allocator) (h : Heap) (alignment size : UInt64) : Nat × Heap :=
  if alignment = 0 || !isMultipleOf size alignment then (0, { h with errno := some .einval })
  else memalign al h alignment size

/-- `posix_memalign` (`src/header/stdlib/mod.rs:919-934`): the returned error, the pointer stored in `*memptr`, and
the heap. -/
def posixMemalign (al : Allocator) (h : Heap) (alignment size : UInt64) : Option AErr × Nat × Heap :=
  if isMultipleOf alignment 8 && isPowerOfTwo alignment then
    let (p, h) := al.memalign h alignment.toNat size.toNat
    (if p = 0 then some .enomem else none, p, h)
  else (some .einval, 0, h)

/-- `align_of::<max_align_t>()`. -/
def maxAlign : Nat := 16

/-- `<Allocator as GlobalAlloc>::alloc` (`src/platform/allocator/mod.rs:36-42`). -/
def globalAlloc (al : Allocator) (h : Heap) (size align : Nat) : Nat × Heap :=
  if align ≤ maxAlign then al.malloc h size else al.memalign h align size

/-- `<Allocator as GlobalAlloc>::realloc` (`src/platform/allocator/mod.rs:63-80`). -/
def globalRealloc (al : Allocator) (h : Heap) (p size align newSize : Nat) : Option (Nat × Heap) :=
  if align ≤ maxAlign then some (al.realloc h p newSize)
  else do
    let (q, h) := globalAlloc al h newSize align
    let h ←
      if q ≠ 0 then do
        let l ← readN h.mem p (min size newSize)
        let m ← writeN h.mem q l
        some { h with mem := m }
      else some h
    some (q, al.free h p)

end Verif.Stdlib
