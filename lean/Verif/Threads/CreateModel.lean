import Verif.Net.EndianModel
import Verif.Stdlib.SortModel

/-!
# `pthread_create`

`create`, `join`, `exit_current_thread` and `dealloc_thread` of `src/pthread/mod.rs`: the memory of a thread. Memory is a partial map, so
mapping and unmapping change its domain. The kernel is the fields of `Kernel`. What is written into the control block is the record `Thread`;
the contents of its page are not modelled. The page size is 4096, targets are 64-bit and little-endian (x86_64). The mutex which holds back
the creator until the thread has started is in C14.
-/

namespace Verif.Threads

open Verif.Mem Verif.Net Verif.Stdlib

/-- Error numbers (`src/header/errno/mod.rs:50-68`). -/
def EINTR : Nat := 4
def EAGAIN : Nat := 11
def ENOMEM : Nat := 12
def EINVAL : Nat := 22

/-- What the code asks the kernel. -/
structure Kernel where
  /-- anonymous mapping of so many bytes, anywhere -/
  mmap : Mem UInt8 → Nat → Except Nat Nat
  /-- `Sys::rlct_clone` with the stack pointer: the thread's descriptor -/
  clone : Mem UInt8 → Nat → Except Nat Nat

/-- New pages, filled with 0. -/
def mapZero (m : Mem UInt8) (p n : Nat) : Mem UInt8 := fun a => if p ≤ a ∧ a < p + n then some 0 else m a

/-- Pages are removed. -/
def unmap (m : Mem UInt8) (p n : Nat) : Mem UInt8 := fun a => if p ≤ a ∧ a < p + n then none else m a

/-- `round_up_to_page_size` and `next_multiple_of(page_size)`, below the overflow. -/
def pages (n : Nat) : Nat := (n + 4095) / 4096 * 4096

/-- `Sys::mmap` (`src/platform/redox/mod.rs:828-858`). -/
def sysMmap (k : Kernel) (m : Mem UInt8) (n : Nat) : Except Nat (Nat × Mem UInt8) :=
  if n = 0 then .error EINVAL
  else match k.mmap m (pages n) with
    | .error e => .error e
    | .ok p => .ok (p, mapZero m p (pages n))

/-- `Sys::munmap` (`src/platform/redox/mod.rs:909-919`), whose result is not looked at: the kernel refuses addresses which are not those of a
page. -/
def munmap (m : Mem UInt8) (p n : Nat) : Mem UInt8 := if n = 0 ∨ p % 4096 ≠ 0 then m else unmap m p (pages n)

/-- `RlctAttr` (`src/header/pthread/mod.rs:26-38`); the scheduling attributes are not used by `create`. -/
structure Attr where
  /-- `PTHREAD_CREATE_DETACHED` is 0, `PTHREAD_CREATE_JOINABLE` is 1 (`src/header/pthread/mod.rs:48-49`) -/
  detachstate : Nat
  guardsize : Nat
  stacksize : Nat
  /-- 0: none given -/
  stack : Nat

/-- `RlctAttr::default` (`src/header/pthread/attr.rs:20-45`). -/
def Attr.default : Attr := ⟨1, 4096, 1024 * 1024, 0⟩

/-- What is known about a thread: the fields of `Pthread` (`src/pthread/mod.rs:73-87`) and its stack pointer. -/
structure Thread where
  /-- the control block -/
  tcb : Nat
  base : Nat
  size : Nat
  detached : Bool
  sp : Nat
  fd : Nat
  deriving DecidableEq

/-- The stack (`src/pthread/mod.rs:130-150`): its address and the memory, and the value of `errno` if it is set (by the C function `mmap`,
`src/header/sys_mman/mod.rs:81-96`). -/
def newStack (k : Kernel) (m : Mem UInt8) (a : Attr) : Except Nat (Nat × Mem UInt8) :=
  if a.stack ≠ 0 then .ok (a.stack, m) else sysMmap k m (pages a.stacksize)

/-- `Tcb::new` (`src/ld_so/tcb.rs:80-116`) with `os_new` (`:333-341`): one mapping for a page, the thread-local storage and the control block,
which is the last page. -/
def newTcb (k : Kernel) (m : Mem UInt8) (tls : Nat) : Except Nat (Nat × Mem UInt8) :=
  match sysMmap k m (4096 + pages tls + 4096) with
  | .error e => .error e
  | .ok (p, m) => .ok (p + 4096 + pages tls, m)

/-- The closure `push` (`src/pthread/mod.rs:178-181`). -/
def push : List Nat → Mem UInt8 × Nat → Option (Mem UInt8 × Nat)
  | [], x => some x
  | v :: vs, (m, sp) => do
    let m ← writeN m (sp - 8) (leBytes 8 v)
    push vs (m, sp - 8)

/-- Arguments of `create` and addresses of what it refers to: `start_routine`, `arg`, `new_thread_shim`, the mutex, and the length of the
thread-local storage. -/
structure Args where
  start : Nat
  arg : Nat
  shim : Nat
  mutex : Nat
  tls : Nat

/-- `create` (`src/pthread/mod.rs:113-213`): the thread or the error number, the memory, and what `errno` is set to (0: it is not set). `none` is a fault
or a panic. -/
def create (k : Kernel) (m : Mem UInt8) (attr : Option Attr) (x : Args) : Option (Except Nat Thread × Mem UInt8 × Nat) :=
  let a := attr.getD Attr.default
  let size := pages a.stacksize
  match newStack k m a with
  | .error e => some (.error EAGAIN, m, e)
  | .ok (base, m) =>
    if a.detachstate > 1 then none
    else match newTcb k m x.tls with
      | .error _ => some (.error ENOMEM, munmap m base size, 0)
      | .ok (tcb, m) => do
        let (m, sp) ← push [0, 0, x.mutex, tcb, x.arg, x.start, x.shim] (m, base + size)
        match k.clone m sp with
        | .error _ => some (.error EAGAIN, munmap m base size, 0)
        | .ok fd => some (.ok ⟨tcb, base, size, a.detachstate = 0, sp, fd⟩, m, 0)

/-- `dealloc_thread` (`src/pthread/mod.rs:334-353`). -/
def dealloc (m : Mem UInt8) (t : Thread) : Mem UInt8 := unmap m t.tcb 4096

/-- `exit_current_thread` (`src/pthread/mod.rs:300-332`): the kernel removes the stack (`redox-rt/src/thread.rs:64-76`). -/
def exitThread (m : Mem UInt8) (t : Thread) : Mem UInt8 := unmap (if t.detached then dealloc m t else m) t.base t.size

/-- `join` (`src/pthread/mod.rs:257-277`) of a thread which has ended. -/
def join (m : Mem UInt8) (t : Thread) : Mem UInt8 := dealloc m t

end Verif.Threads
