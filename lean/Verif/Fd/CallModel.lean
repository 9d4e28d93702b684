import Verif.Fd.TableModel

/-!
# Functions on file descriptors, on Redox

`open`, `dup`, `dup2`, `fcntl`, `close` and the closing of descriptors by `exec` (`redox-rt/src/sys.rs`, `redox-rt/src/proc.rs`): the table
of the process, and the table of the kernel.

The kernel is not part of the code. It is taken to be a map from descriptor numbers to open file descriptions (of any type), changed by
system calls as their names say: `SYS_OPENAT_INTO` and `SYS_DUP_INTO` write the entry whose number they are given, `SYS_DUP2` the entry
`newfd`, `F_DUPFD` the entry asked for if it is free, `SYS_CLOSE` removes an entry or says `EBADF`. Calls that need an open descriptor fail
if it is not. Otherwise `ok` says whether the system call succeeds.
-/

namespace Verif.Fd

variable {D : Type}

/-- The table of the process and the table of the kernel. -/
structure Both (D : Type) where
  tbl : FdTbl
  ker : Fd → Option D

/-- An entry of the kernel is written. -/
def put (k : Fd → Option D) (fd : Fd) (x : Option D) : Fd → Option D := fun g => if g = fd then x else k g

/-- Errors: those of the table, `EBADF` or another one from the kernel. -/
inductive CallErr where
  | table (e : Err)
  | badf
  | system
deriving DecidableEq

/-- A number is reserved in one of the two parts of the table. -/
def reserve (t : FdTbl) (upper flag sync : Bool) : Option (Except Err Fd × FdTbl) :=
  if upper then t.insertUpper flag sync else some (t.addPosix flag sync)

/-- A number is reserved, the kernel is asked to fill it; on error it is released. The common part of `openat_into_posix`, `dup`,
`openat_into_upper`, `dup_into_upper`: the system call is `sys`. -/
def reserveThen (s : Both D) (upper flag sync : Bool) (sys : (Fd → Option D) → Fd → Except CallErr (Fd → Option D)) :
    Option (Except CallErr Fd × Both D) := do
  let (r, t) ← reserve s.tbl upper flag sync
  match r with
  | .error e => some (.error (.table e), { s with tbl := t })
  | .ok out => match sys s.ker out with
    | .ok k => some (.ok out, ⟨t, k⟩)
    | .error e => do
      let (_, t') ← t.remove out
      some (.error e, ⟨t', s.ker⟩)

/-- `SYS_OPENAT_INTO`: `file` is the open file description, `none` if the file cannot be opened. -/
def sysOpen (file : Option D) (k : Fd → Option D) (out : Fd) : Except CallErr (Fd → Option D) :=
  match file with
  | some d => .ok (put k out (some d))
  | none => .error .system

/-- `SYS_DUP_INTO`, `SYS_DUP2`. -/
def sysDup (fd : Fd) (ok : Bool) (k : Fd → Option D) (out : Fd) : Except CallErr (Fd → Option D) :=
  match k fd with
  | some d => if ok then .ok (put k out (some d)) else .error .system
  | none => .error .badf

/-- `openat_into_posix` (`redox-rt/src/sys.rs:585-618`), `openat_into_upper` (`redox-rt/src/sys.rs:804-837`). -/
def openInto (s : Both D) (upper flag sync : Bool) (file : Option D) : Option (Except CallErr Fd × Both D) :=
  reserveThen s upper flag sync (sysOpen file)

/-- `dup` (`redox-rt/src/sys.rs:632-657`), `dup_into_upper` (`redox-rt/src/sys.rs:839-865`). -/
def dupInto (s : Both D) (upper : Bool) (fd : Fd) (sync ok : Bool) : Option (Except CallErr Fd × Both D) :=
  reserveThen s upper false sync (sysDup fd ok)

/-- `dup2` (`redox-rt/src/sys.rs:659-684`). -/
def dup2 (s : Both D) (fd newfd : Fd) (sync ok : Bool) : Option (Except CallErr Fd × Both D) := do
  let (r, t) ← s.tbl.overrideAt newfd sync
  match r with
  | .error e => some (.error (.table e), { s with tbl := t })
  | .ok out => match sysDup fd ok s.ker newfd with
    | .ok k => some (.ok out, ⟨t, k⟩)
    | .error e => do
      let (_, t') ← t.remove out
      some (.error e, ⟨t', s.ker⟩)

/-- `fcntl` with `F_DUPFD`, or `F_DUPFD_CLOEXEC` if `cloexec` (`redox-rt/src/sys.rs:749-785`). Of the argument only the tag is used. The
case that the kernel takes another number than the one asked for is left out: the number asked for is free. -/
def fcntlDupfd (s : Both D) (fd : Fd) (arg : Fd) (cloexec sync ok : Bool) : Option (Except CallErr Fd × Both D) :=
  match arg with
  | .upper _ => reserveThen s true cloexec sync (sysDup fd ok)
  | .posix _ => reserveThen s false cloexec sync (sysDup fd ok)

/-- `fcntl` with `F_GETFD` (`redox-rt/src/sys.rs:787-790`). -/
def fcntlGetfd (s : Both D) (fd : Fd) : Except CallErr Bool :=
  match s.tbl.getFlags fd with
  | some f => .ok f
  | none => .error .badf

/-- `fcntl` with `F_SETFD` (`redox-rt/src/sys.rs:792-800`). -/
def fcntlSetfd (s : Both D) (fd : Fd) (flag ok : Bool) : Except CallErr Unit × Both D :=
  match s.ker fd with
  | none => (.error .badf, s)
  | some _ =>
    if ok then
      let r := s.tbl.setFlags fd flag
      (if r.1 then .ok () else .error .badf, { s with tbl := r.2 })
    else (.error .system, s)

/-- `close` (`redox-rt/src/sys.rs:893-906`). -/
def close (s : Both D) (fd : Fd) : Option (Except CallErr Unit × Both D) :=
  match s.ker fd with
  | some _ => do
    let (_, t) ← s.tbl.remove fd
    some (.ok (), ⟨t, put s.ker fd none⟩)
  | none => do
    let (_, t) ← s.tbl.remove fd
    some (.error .badf, ⟨t, s.ker⟩)

/-- The descriptors `exec` closes (`redox-rt/src/proc.rs:493-507`): `keep` is the descriptor of the address space, `image` that of the
program. -/
def toClose (t : FdTbl) (keep image : Fd) : List Fd :=
  (t.iter.filter (fun p => p.1 ≠ keep && (p.2 || p.1 == image))).map Prod.fst

/-- All of a list are removed from the table. -/
def removeAll : FdTbl → List Fd → Option FdTbl
  | t, [] => some t
  | t, fd :: fds => do
    let (_, t) ← t.remove fd
    removeAll t fds

/-- The closing of descriptors by `exec` (`redox-rt/src/proc.rs:488-529`): one call to the kernel with the list, whose result is ignored. -/
def execClose (s : Both D) (keep image : Fd) : Option (Both D) := do
  let l := toClose s.tbl keep image
  let t ← removeAll s.tbl l
  some ⟨t, fun fd => if l.contains fd then none else s.ker fd⟩

/-- Several threads: the tables, the numbers reserved for system calls not yet made, and the numbers closed in the kernel but not yet in the
table. The lock of the table is held for one operation only. -/
structure Threads (D : Type) where
  tbl : FdTbl
  ker : Fd → Option D
  pending : List Fd
  closing : List Fd

/-- What threads do, one step at a time (`redox-rt/src/sys.rs:585-684`, `redox-rt/src/sys.rs:804-906`). A thread closes or changes only
descriptors that are open. -/
inductive Step : Threads D → Threads D → Prop
  | reserve {s : Threads D} {flag sync : Bool} {fd : Fd} {t : FdTbl} : s.tbl.addPosix flag sync = (.ok fd, t) →
    Step s { s with tbl := t, pending := fd :: s.pending }
  | reserveUpper {s : Threads D} {flag sync : Bool} {fd : Fd} {t : FdTbl} : s.tbl.insertUpper flag sync = some (.ok fd, t) →
    Step s { s with tbl := t, pending := fd :: s.pending }
  | install {s : Threads D} {fd : Fd} {d : D} : fd ∈ s.pending → Step s { s with ker := put s.ker fd (some d), pending := s.pending.erase fd }
  | release {s : Threads D} {fd : Fd} {b : Bool} {t : FdTbl} : fd ∈ s.pending → s.tbl.remove fd = some (b, t) →
    Step s { s with tbl := t, pending := s.pending.erase fd }
  | closeKernel {s : Threads D} {fd : Fd} : (s.ker fd).isSome →
    Step s { s with ker := put s.ker fd none, closing := fd :: s.closing }
  | closeTable {s : Threads D} {fd : Fd} {b : Bool} {t : FdTbl} : fd ∈ s.closing → s.tbl.remove fd = some (b, t) →
    Step s { s with tbl := t, closing := s.closing.erase fd }
  | setFlags {s : Threads D} {fd : Fd} {flag : Bool} : (s.ker fd).isSome → Step s { s with tbl := (s.tbl.setFlags fd flag).2 }

/-- A thread closes a number that is not open: the kernel says `EBADF`, and the table is changed all the same. -/
inductive Stray : Threads D → Threads D → Prop
  | close {s : Threads D} {fd : Fd} {b : Bool} {t : FdTbl} : s.ker fd = none → s.tbl.remove fd = some (b, t) → Stray s { s with tbl := t }

end Verif.Fd
