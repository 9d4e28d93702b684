import Verif.Mem.Basic
/-!
# Mapping an object, relative relocations, protections, searching for a library

`src/ld_so/dso.rs`, `src/ld_so/linker.rs`.

* Header fields are natural numbers; sums of them are taken not to overflow.
* `none` = a panic, or an access to memory that is not mapped.
-/

namespace Verif.Ldso

open Verif.Mem

/-! ### `DT_RELR` -/

/-- The loop over the bits of an odd entry (`src/ld_so/dso.rs:1460-1470`). Words are known by their address; words at different
addresses are taken not to overlap. -/
def relrBits (base addr : Nat) (entry i : Nat) (mem : Mem UInt64) : Option (Mem UInt64) :=
  if entry = 0 then some mem
  else
    match (if entry % 2 = 1 then
        match mem (addr + 8 * i) with
        | some w => store mem (addr + 8 * i) (w + .ofNat base)
        | none => none
      else some mem) with
    | none => none
    | some mem => relrBits base addr (entry / 2) (i + 1) mem
termination_by entry
decreasing_by omega

/-- `apply_relr` (`src/ld_so/dso.rs:1446-1475`). The address is not known before the first even entry. -/
def applyRelr (base : Nat) : List Nat → Option Nat → Mem UInt64 → Option (Mem UInt64)
  | [], _, mem => some mem
  | e :: es, addr, mem =>
    if e % 2 = 0 then
      match mem (base + e) with
      | some w =>
        match store mem (base + e) (w + .ofNat base) with
        | some mem => applyRelr base es (some (base + e + 8)) mem
        | none => none
      | none => none
    else
      match addr with
      | none => none
      | some a =>
        match relrBits base a (e / 2) 0 mem with
        | some mem => applyRelr base es (some (a + 8 * 63)) mem
        | none => none

/-! ### Segments -/

inductive PType where
  | load
  | other
deriving DecidableEq

/-- A program header. -/
structure Ph where
  type : PType
  flags : Nat
  offset : Nat
  vaddr : Nat
  filesz : Nat
  memsz : Nat
  align : Nat
deriving DecidableEq

/-- `next_multiple_of`. -/
def upTo (n a : Nat) : Nat := (n + a - 1) / a * a

/-- The bounds of the memory (`src/ld_so/dso.rs:560-590`). The remainder is taken for all headers: `p_align` 0 panics. -/
def boundsLoop : List Ph → Option (Nat × Nat) → Option (Option (Nat × Nat))
  | [], b => some b
  | ph :: phs, b =>
    if ph.align = 0 then none
    else
      let voff := ph.vaddr % ph.align
      let vaddr := ph.vaddr - voff
      let vsize := upTo (ph.memsz + voff) ph.align
      match ph.type with
      | .load =>
        match b with
        | some (lo, hi) =>
          boundsLoop phs (some (if vaddr < lo then vaddr else lo, if vaddr + vsize > hi then vaddr + vsize else hi))
        | none => boundsLoop phs (some (vaddr, vaddr + vsize))
      | .other => boundsLoop phs b

/-- The loop that copies the segments into the memory of `size` bytes at `ptr` (`src/ld_so/dso.rs:646-688`).
`none` = an error. -/
def copySegs (data : List UInt8) (pie : Bool) (ptr size : Nat) : List Ph → Mem UInt8 → Option (Mem UInt8)
  | [], mem => some mem
  | ph :: phs, mem =>
    match ph.type with
    | .other => copySegs data pie ptr size phs mem
    | .load =>
      if ph.offset + ph.filesz ≤ data.length then
        let obj := (data.drop ph.offset).take ph.filesz
        let at_ := if pie then some ph.vaddr else if ptr ≤ ph.vaddr then some (ph.vaddr - ptr) else none
        match at_ with
        | none => none
        | some i =>
          if i + obj.length ≤ size then copySegs data pie ptr size phs (patch mem (ptr + i) obj) else none
      else none

/-- The result of `DSO::mmap_and_copy` (`src/ld_so/dso.rs:549-748`), as far as the segments are concerned: the address and size of
the mapping, and the memory. -/
inductive MapRes where
  | err
  | ok (ptr size : Nat) (mem : Mem UInt8)

/-- `DSO::mmap_and_copy`, without a given address. `chosen` is the address the kernel chooses if none is asked for. Where the
mapping fails (`MAP_FIXED_NOREPLACE`) is left out. -/
def mapObject (data : List UInt8) (phs : List Ph) (pie : Bool) (chosen : Nat) (mem : Mem UInt8) : Option MapRes :=
  match boundsLoop phs none with
  | none => none
  | some none => some .err
  | some (some (start, fin)) =>
    let size := fin - start
    let ptr := if start = 0 then chosen else start
    match copySegs data pie ptr size phs (patch mem ptr (List.replicate size 0)) with
    | none => some .err
    | some mem => some (.ok ptr size mem)

/-! ### Protections -/

/-- What may be done with a page. -/
structure Prot where
  read : Bool
  write : Bool
  exec : Bool
deriving DecidableEq

/-- `p_flags` (`PF_X` 1, `PF_W` 2, `PF_R` 4) to `PROT_…` (`src/ld_so/dso.rs:1269-1279`). -/
def protOf (flags : Nat) : Prot where
  read := flags / 4 % 2 = 1
  exec := flags % 2 = 1
  write := flags % 2 ≠ 1 ∧ flags / 2 % 2 = 1

/-- The `mprotect` calls at the end of `relocate` (`src/ld_so/dso.rs:1254-1293`): the protection of the page at an address of the
object (a multiple of the page size). -/
def protect (phs : List Ph) (prot : Nat → Prot) : Nat → Prot :=
  match phs with
  | [] => prot
  | ph :: phs =>
    match ph.type with
    | .other => protect phs prot
    | .load =>
      let voff := ph.vaddr % 4096
      let vaddr := ph.vaddr - voff
      let vsize := upTo (ph.memsz + voff) 4096
      protect phs fun a => if vaddr ≤ a ∧ a < vaddr + vsize then protOf ph.flags else prot a

/-! ### Searching for a library -/

/-- `Linker::search_object` (`src/ld_so/linker.rs:922-963`): `there` says what can be accessed. The run path of the object that
needs the library, and `LD_LIBRARY_PATH`, are given as lists of directories (`split(':')`); none if they are not set. -/
def searchObject (there : String → Bool) (runpath ldPath : List String) (name : String) : Option String :=
  if there name then some name
  else ((runpath ++ ldPath ++ ["/lib"]).map fun d => d ++ "/" ++ name).find? there

end Verif.Ldso
