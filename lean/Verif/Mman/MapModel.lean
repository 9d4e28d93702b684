/-!
# `mmap`, `munmap`, `mprotect`, `msync` on Redox: what the kernel is asked for

`src/platform/redox/mod.rs:88-91,828-919`, `src/header/sys_mman/redox.rs`, `src/header/sys_mman/mod.rs`. The kernel's side is not
modelled. Addresses and lengths are numbers below 2^64.
-/

namespace Verif.Mman

/-- The constants (`src/header/sys_mman/redox.rs:3-11`, `src/header/sys_mman/mod.rs:31-35`). -/
def PROT_EXEC : Nat := 1
@[inherit_doc PROT_EXEC] def PROT_WRITE : Nat := 2
@[inherit_doc PROT_EXEC] def PROT_READ : Nat := 4
@[inherit_doc PROT_EXEC] def MAP_SHARED : Nat := 1
@[inherit_doc PROT_EXEC] def MAP_PRIVATE : Nat := 2
@[inherit_doc PROT_EXEC] def MAP_FIXED : Nat := 4
@[inherit_doc PROT_EXEC] def MAP_FIXED_NOREPLACE : Nat := 0xC
@[inherit_doc PROT_EXEC] def MAP_POPULATE : Nat := 0x1F
@[inherit_doc PROT_EXEC] def MAP_ANONYMOUS : Nat := 0x20
@[inherit_doc PROT_EXEC] def MAP_HUGETLB : Nat := 0x2E

/-- `round_up_to_page_size` (`src/platform/redox/mod.rs:88-91`). -/
def roundUp (val : Nat) : Option Nat := if val + 4096 < 2 ^ 64 then some ((val + 4096 - 1) / 4096 * 4096) else none

/-- `as usize` of an `int`. -/
def asUsize (c : Int) : Nat := (c % 2 ^ 64).toNat

/-- `Map` with the descriptor handed to `fmap`; none is `!0`, memory of no file. -/
structure Request where
  fd : Option Int
  offset : Nat
  size : Nat
  flags : Nat
  address : Nat
  deriving DecidableEq

/-- `Sys::mmap` (`src/platform/redox/mod.rs:828-861`): `errno` or what the kernel is asked for. `known` are the bits that
`MapFlags` of the crate `redox_syscall` has a name for. -/
def mmap (known : Nat) (addr len : Nat) (prot flags fildes off : Int) : Except Int Request :=
  if len = 0 then .error 22
  else
    match roundUp len with
    | none => .error 12
    | some size =>
      .ok { fd := if asUsize flags &&& MAP_ANONYMOUS = MAP_ANONYMOUS then none else some fildes
            offset := asUsize off
            size := size
            flags := ((asUsize prot <<< 16) % 2 ^ 64 ||| (asUsize flags &&& 0xFFFF)) &&& known
            address := addr }

/-- `Sys::munmap` (`src/platform/redox/mod.rs:908-919`): the address and the size. -/
def munmap (addr len : Nat) : Except Int (Nat × Nat) :=
  if len = 0 then .error 22
  else
    match roundUp len with
    | none => .error 12
    | some size => .ok (addr, size)

/-- `Sys::mprotect` (`src/platform/redox/mod.rs:873-882`): the address, the size, the flags. `from_bits` refuses a bit without a name. -/
def mprotect (known : Nat) (addr len : Nat) (prot : Int) : Except Int (Nat × Nat × Nat) :=
  match roundUp len with
  | none => .error 12
  | some size =>
    let w := (asUsize prot <<< 16) % 2 ^ 64
    if w &&& known = w then .ok (addr, size, w) else .error 22

/-- `Sys::msync` (`src/platform/redox/mod.rs:884-900`). -/
def msync (_addr _len : Nat) (_flags : Int) : Except Int Unit := .error 38

end Verif.Mman
