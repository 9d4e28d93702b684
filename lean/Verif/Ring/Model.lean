/-!
# Shared buffers and queue sizes of `redox_ring`

`src/platform/redox/ring.rs`: the pool of buffers of equal size (`ShmAllocator`, `RingPool::Chunk`), and the number of entries of a queue that
fit into the shared memory. The queues themselves are in the crate `redox_rings`, the pool for buffers of any size in `redox_buffer_pool`;
neither is in the repository, and they are not modelled.
-/

namespace Verif.Ring

/-- `ShmAllocator` (`src/platform/redox/ring.rs:46-50`). `free_offsets` has its last element first. -/
structure Shm where
  free : List Nat
  chunk : Nat
  total : Nat
deriving DecidableEq

/-- `ShmAllocator::new` (`src/platform/redox/ring.rs:53-64`). `none`: division by zero. -/
def Shm.new (total chunk : Nat) : Option Shm :=
  if chunk = 0 then none
  else some ⟨(List.range (total / chunk)).map (· * chunk), chunk, total⟩

/-- `ShmAllocator::allocate` (`src/platform/redox/ring.rs:66-68`). -/
def Shm.allocate (s : Shm) : Option Nat × Shm :=
  match s.free with
  | [] => (none, s)
  | o :: l => (some o, { s with free := l })

/-- `ShmAllocator::deallocate` (`src/platform/redox/ring.rs:70-72`). -/
def Shm.deallocate (s : Shm) (o : Nat) : Shm := { s with free := o :: s.free }

/-- `redox_ring_alloc_buf_sized` (`src/platform/redox/ring.rs:617-638`) with `RingPool::allocate` (`:104-128`) for a pool of chunks: the offset of the
buffer. `size` and `align` are not looked at. `redox_ring_alloc_buf` (`:605-615`) is this with the size of a chunk and alignment 1. -/
def allocSized (s : Shm) (_size _align : Nat) : Option Nat × Shm := s.allocate

/-- `redox_ring_alloc_buf` (`src/platform/redox/ring.rs:605-615`). -/
def allocBuf (s : Shm) : Option Nat × Shm := allocSized s s.chunk 1

/-- `redox_ring_free_buf` of the platform (`src/platform/redox/ring.rs:640-646`) with `RingPool::deallocate` (`:130-152`) for a pool of chunks: the
pointer is not looked at. -/
def freeAt (s : Shm) (_ptr : Option Nat) (offset : Nat) : Shm := s.deallocate offset

/-- `redox_ring_free_buf` (`src/header/redox_ring/mod.rs:140-142`). -/
def freeBuf (s : Shm) (offset : Nat) : Shm := freeAt s none offset

/-- `redox_ring_free_buf_sized` (`src/header/redox_ring/mod.rs:145-147`): the buffer is given by its address, here the offset from the beginning of
the pool. -/
def freeBufSized (s : Shm) (ptr : Nat) : Shm := freeAt s (some ptr) 0

/-- `usize::is_power_of_two`, `usize::next_power_of_two` of Rust's library. -/
def isPow2 (n : Nat) : Bool := n ≠ 0 && 2 ^ n.log2 = n
def nextPow2 (n : Nat) : Nat := if n ≤ 1 then 1 else 2 ^ ((n - 1).log2 + 1)

/-- `HEADER_MMAP_OFFSET` (`src/platform/redox/ring.rs:43`). -/
def HEADER : Nat := 256

/-- The number of entries in `redox_ring_sq::from_fd` (`src/platform/redox/ring.rs:180-236`) and `redox_ring_cq::from_fd`
(`src/platform/redox/ring.rs:297-353`): `size` is the size of the shared memory, `item` that of an entry; both are machine words, the subtraction wraps.
`none`: `EINVAL`. -/
def queueLen (size item : Nat) : Option Nat :=
  if item = 0 then none
  else
    let avail := (size + 2 ^ 64 - HEADER) % 2 ^ 64
    let raw := avail / item
    let len := (if isPow2 raw then raw else nextPow2 raw / 2) % 2 ^ 32
    if len = 0 then none else some len

end Verif.Ring
