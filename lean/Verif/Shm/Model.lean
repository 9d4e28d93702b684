/-!
# System V shared memory

`src/header/sys_shm/mod.rs`. The kernel is a table of objects (lists of bytes), a table of the names in the directory for shared memory, a table of descriptors and a table
of pages; one process is modelled, and no other program uses the names. The descriptors not made by `shmget` are not modelled. What the kernel may choose freely
(the number of a descriptor, the place of a mapping, or that there is none) is given with the call.
-/

namespace Verif.Shm

/-- The names: `/sysv_priv_{pid}` and `/sysv_key_{key}`. -/
inductive Name where
  | priv (pid : Nat)
  | key (k : Int32)
deriving DecidableEq

/-- The kernel. A page of the address space is a page of an object, writable or not. -/
structure K where
  pid : Nat
  objs : List (List UInt8)
  names : List (Name × Nat)
  fds : Nat → Option Nat
  page : Nat → Option (Nat × Nat × Bool)

/-- A return value, or −1 with `errno` (`err 0`: `errno` is not set). -/
inductive Res where
  | ok (n : Nat)
  | err (e : Int32)
deriving DecidableEq

def update {β : Type} (f : Nat → β) (i : Nat) (v : β) : Nat → β := fun j => if j = i then v else f j

/-- The number `n` in so many bytes, the lowest first. -/
def le : Nat → Nat → List UInt8
  | 0, _ => []
  | w + 1, n => UInt8.ofNat n :: le w (n / 256)

/-- The number of such bytes. -/
def de : List UInt8 → Nat
  | [] => 0
  | b :: l => b.toNat + 256 * de l

/-- `round_up_to_page_size` (`src/platform/redox/mod.rs:88-91`), in pages. -/
def pages (n : Nat) : Nat := (n + 4096 - 1) / 4096

/-! ## The kernel's part -/

/-- `shm_open` (`src/header/sys_mman/mod.rs:185-188`) with `O_RDWR`, on an object of this name. -/
def shmOpen (k : K) (name : Name) (creat excl : Bool) (fd : Option Nat) : Res × K :=
  match fd with
  | none => (.err 24, k)
  | some fd =>
    if (k.fds fd).isSome then (.err 24, k)
    else match k.names.lookup name with
      | some o => if creat && excl then (.err 17, k) else (.ok fd, { k with fds := update k.fds fd (some o) })
      | none =>
        if creat then (.ok fd, { k with objs := k.objs ++ [[]], names := (name, k.objs.length) :: k.names, fds := update k.fds fd (some k.objs.length) })
        else (.err 2, k)

/-- `ftruncate`: `room` is whether the kernel has the memory. -/
def ftruncate (k : K) (fd n : Nat) (room : Bool) : Res × K :=
  match k.fds fd with
  | none => (.err 9, k)
  | some o => match k.objs[o]? with
    | none => (.err 9, k)
    | some d =>
      if n < 2 ^ 63 ∧ room = true then (.ok 0, { k with objs := k.objs.set o (d.take n ++ List.replicate (n - d.length) 0) })
      else (.err 22, k)

/-- `shm_unlink` (`src/header/sys_mman/mod.rs:192-195`). -/
def shmUnlink (k : K) (name : Name) : K := { k with names := k.names.filter fun x => x.1 ≠ name }

/-- A byte read by the program; `none` is a fault. -/
def load (k : K) (addr : Nat) : Option UInt8 :=
  match k.page (addr / 4096) with
  | none => none
  | some (o, j, _) => match k.objs[o]? with
    | none => none
    | some d => some (d.getD (j * 4096 + addr % 4096) 0)

/-- A byte written by the program. Behind the end of the object it is lost. -/
def store (k : K) (addr : Nat) (b : UInt8) : Option K :=
  match k.page (addr / 4096) with
  | none => none
  | some (o, j, w) => match k.objs[o]? with
    | none => none
    | some d => if w then some { k with objs := k.objs.set o (d.set (j * 4096 + addr % 4096) b) } else none

/-- Some bytes written one after the other. -/
def storeAll (k : K) (addr : Nat) : List UInt8 → Option K
  | [] => some k
  | b :: l => match store k addr b with
    | none => none
    | some k => storeAll k (addr + 1) l

/-- Some bytes read. -/
def loadAll (k : K) (addr : Nat) : Nat → Option (List UInt8)
  | 0 => some []
  | n + 1 => match load k addr with
    | none => none
    | some b => match loadAll k (addr + 1) n with
      | none => none
      | some l => some (b :: l)

/-- `Sys::mmap` (`src/platform/redox/mod.rs:828-858`) with `MAP_SHARED`: the kernel chooses free pages. -/
def mmap (k : K) (len : Nat) (write : Bool) (o : Nat) (place : Option Nat) : Res × K :=
  if len = 0 then (.err 22, k)
  else match place with
    | none => (.err 12, k)
    | some p =>
      if p ≠ 0 ∧ (∀ j < pages len, k.page (p + j) = none) then
        (.ok (p * 4096), { k with page := fun q => if p ≤ q ∧ q < p + pages len then some (o, q - p, write) else k.page q })
      else (.err 12, k)

/-- `Sys::munmap` (`src/platform/redox/mod.rs:909-919`). -/
def munmap (k : K) (base len : Nat) : Res × K :=
  if len = 0 then (.err 22, k)
  else if base % 4096 ≠ 0 then (.err 22, k)
  else (.ok 0, { k with page := fun q => if base / 4096 ≤ q ∧ q < base / 4096 + pages len then none else k.page q })

/-! ## The functions -/

/-- The name for a key (`src/header/sys_shm/mod.rs:53-57`). -/
def nameOf (k : K) (key : Int32) : Name := if key = 0 then .priv k.pid else .key key

/-- `shmget` (`src/header/sys_shm/mod.rs:53-90`). -/
def shmget (k : K) (key : Int32) (size : Nat) (flags : Int32) (fd : Option Nat) (room : Bool) : Res × K :=
  let name := nameOf k key
  let creat : Bool := flags &&& 0o1000 ≠ 0
  let excl : Bool := flags &&& 0o2000 ≠ 0
  match shmOpen k (name) creat excl fd with
  | (.err e, k) => (.err e, k)
  | (.ok fd, k) =>
    if creat then
      if size + 8 < 2 ^ 64 then
        match ftruncate k fd (size + 8) room with
        | (.err e, k) => (.err e, k)
        | (.ok _, k) => (.ok fd, shmUnlink k (name))
      else (.err 22, k)
    else (.ok fd, shmUnlink k (name))

/-- `shmat` (`src/header/sys_shm/mod.rs:94-118`); `none` is a fault. -/
def shmat (k : K) (id : Nat) (flags : Int32) (place : Option Nat) : Option (Res × K) :=
  match k.fds id with
  | none => some (.err 9, k)
  | some o => match k.objs[o]? with
    | none => some (.err 9, k)
    | some d =>
      let size := d.length
      match mmap k size (decide (flags &&& 0o10000 = 0)) o place with
      | (.err _, k) => some (.err 0, k)
      | (.ok ptr, k) => match storeAll k ptr (le 8 size) with
        | none => none
        | some k => some (.ok (ptr + 8), k)

/-- `shmdt` (`src/header/sys_shm/mod.rs:122-134`). -/
def shmdt (k : K) (addr : Nat) : Option (Res × K) :=
  if addr = 0 ∨ addr = 2 ^ 64 - 1 then some (.err 0, k)
  else
    let base := addr - 8
    match loadAll k base 8 with
    | none => none
    | some h => some (munmap k base (de h))

/-- `shmctl(id, IPC_RMID, …)` (`src/header/sys_shm/mod.rs:144`). -/
def shmRemove (k : K) (id : Nat) : Res × K :=
  match k.fds id with
  | none => (.err 9, k)
  | some _ => (.ok 0, { k with fds := update k.fds id none })

/-- `shm_segsz` after `shmctl(id, IPC_STAT, …)` (`src/header/sys_shm/mod.rs:145-171`). -/
def shmSegsz (k : K) (id : Nat) : Res :=
  match k.fds id with
  | none => .err 9
  | some o => match k.objs[o]? with
    | none => .err 9
    | some d => .ok (d.length - 8)

/-! ## Programs -/

/-- What a program does: calls (with what the kernel chooses), and reading and writing through a pointer. -/
inductive Op where
  | get (key : Int32) (size : Nat) (flags : Int32) (fd : Option Nat)
  | att (id : Nat) (place : Option Nat)
  | det (addr : Nat)
  | remove (id : Nat)
  | segsz (id : Nat)
  | read (addr : Nat)
  | write (addr : Nat) (b : UInt8)

/-- One step, with memory for every segment; `none` is a fault. -/
def step (k : K) : Op → Option (Res × K)
  | .get key size flags fd => some (shmget k key size flags fd true)
  | .att id place => shmat k id 0 place
  | .det addr => shmdt k addr
  | .remove id => some (shmRemove k id)
  | .segsz id => some (shmSegsz k id, k)
  | .read addr => match load k addr with
    | none => none
    | some b => some (.ok b.toNat, k)
  | .write addr b => match store k addr b with
    | none => none
    | some k => some (.ok 0, k)

/-- The answers of a program's steps, and the last state. -/
def run (k : K) : List Op → Option (List Res × K)
  | [] => some ([], k)
  | op :: l => match step k op with
    | none => none
    | some (r, k) => match run k l with
      | none => none
      | some (rs, k) => some (r :: rs, k)

/-- A process at its start. -/
def K.init (pid : Nat) : K := ⟨pid, [], [], fun _ => none, fun _ => none⟩

end Verif.Shm
