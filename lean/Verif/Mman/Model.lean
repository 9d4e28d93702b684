/-!
# `brk`, `sbrk`, `shm_open`, `swab`

`src/header/unistd/brk.rs`, `src/platform/redox/mod.rs`, `src/header/sys_mman/mod.rs`, `src/header/unistd/mod.rs`
-/

namespace Verif.Mman

/-! ## The program break, on Redox -/

/-- Addresses are numbers below 2^64, 0 is the null pointer. `BRK_CUR`, `BRK_END` (`src/platform/redox/mod.rs:84-85`) and `BRK` (`src/header/unistd/brk.rs:12`). -/
structure St where
  cur : Nat
  end_ : Nat
  brk : Nat
  deriving DecidableEq

/-- The start of the process. -/
def start : St := ⟨0, 0, 0⟩

/-- `Sys::brk` of Redox (`src/platform/redox/mod.rs:151-185`). `mapped` is what `mmap` answers to the first call: the address of 4 MiB, or none. -/
def sysBrk (mapped : Option Nat) (st : St) (addr : Nat) : Option Nat × St :=
  let go (st : St) : Option Nat × St :=
    if addr = 0 then (some st.cur, st)
    else if st.cur ≤ addr ∧ addr < st.end_ then (some addr, { st with cur := addr })
    else (none, st)
  if st.cur = 0 then match mapped with
    | none => (none, st)
    | some a => go { st with cur := a, end_ := a + 4 * 1024 * 1024 }
  else go st

/-- `brk` (`src/header/unistd/brk.rs:21-30`): 0 or −1. An error is a null pointer. -/
def brk (mapped : Option Nat) (st : St) (addr : Nat) : Int × St :=
  let r := sysBrk mapped st addr
  let st := { r.2 with brk := r.1.getD 0 }
  if st.brk < addr then (-1, st) else (0, st)

/-- `old_brk.offset(incr)`, wrapping. -/
def offset (a : Nat) (incr : Int) : Nat := ((a + incr) % 2 ^ 64).toNat

/-- `sbrk` (`src/header/unistd/brk.rs:39-58`); `none` is `(void *) -1`. -/
def sbrk (mapped : Option Nat) (st : St) (incr : Int) : Option Nat × St :=
  let st := if st.brk = 0 then
      let r := sysBrk mapped st 0
      { r.2 with brk := r.1.getD 0 }
    else st
  let old := st.brk
  if incr ≠ 0 then
    let addr := offset old incr
    let r := sysBrk mapped st addr
    let st := { r.2 with brk := r.1.getD 0 }
    if st.brk < addr then (none, st) else (some old, st)
  else (some old, st)

/-! ## Names of shared memory -/

/-- `SHM_PATH` (`src/header/sys_mman/mod.rs:157-161`). -/
def shmDir (redox : Bool) : List UInt8 :=
  if redox then [0x2F, 0x73, 0x63, 0x68, 0x65, 0x6D, 0x65, 0x2F, 0x73, 0x68, 0x6D, 0x2F] else [0x2F, 0x64, 0x65, 0x76, 0x2F, 0x73, 0x68, 0x6D, 0x2F]

/-- The loop of `shm_path` (`src/header/sys_mman/mod.rs:168-178`). -/
def pushName : Bool → List UInt8 → List UInt8 → List UInt8
  | _, path, [] => path
  | skip, path, b :: s => if skip ∧ b = 0x2F then pushName true path s else pushName false (path ++ [b]) s

/-- `shm_path` (`src/header/sys_mman/mod.rs:163-181`): the path that `shm_open` and `shm_unlink` (`src/header/sys_mman/mod.rs:185-195`) hand on to `open` and `unlink`. -/
def shmPath (redox : Bool) (name : List UInt8) : List UInt8 := pushName true (shmDir redox) name

/-! ## `swab` -/

/-- The loop of `swab` (`src/header/unistd/mod.rs:1206-1212`), of so many swaps from an offset: what is at `src` and at `dest`, which do not overlap. -/
def swabLoop (src : List UInt8) : Nat → Nat → List UInt8 → List UInt8
  | 0, _, dest => dest
  | n + 1, i, dest => swabLoop src n (i + 2) ((dest.set (i + 1) (src.getD i 0)).set i (src.getD (i + 1) 0))

/-- `swab` (`src/header/unistd/mod.rs:1200-1213`). -/
def swab (src dest : List UInt8) (nbytes : Int) : List UInt8 := if nbytes ≤ 0 then dest else swabLoop src (nbytes / 2).toNat 0 dest

end Verif.Mman
