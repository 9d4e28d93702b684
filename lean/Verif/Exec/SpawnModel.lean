import Verif.Exec.ExecModel

/-!
# `posix_spawn`

`src/header/spawn/mod.rs`, `src/header/spawn/file_actions.rs` and `Sys::spawn` of Redox (`src/platform/redox/mod.rs:1203-1501`); on Linux
`posix_spawn` gives `ENOSYS`. The kernel is a parameter. Not modelled: the descriptors above the range of the program that relibc uses
itself, namespaces, the umask (the parent's), interpreters of scripts, the loading of the program. The paths of the file actions are
addresses, read when the process is spawned.
-/

namespace Verif.Exec

def EBADF : Int32 := 9
def EINVAL : Int32 := 22

/-- `Action` (`src/header/spawn/file_actions.rs:9-21`). The `CString` of a path is made from the caller's pointer, so it is that
pointer. -/
inductive Action where
  | open (fd : Int32) (path : Nat) (flag : Int32) (mode : UInt32)
  | close (fd : Int32)
  | chdir (path : Nat)
  | fchdir (fd : Int32)
  | dup2 (old new : Int32)

/-- `posix_spawn_file_actions_addopen` (`src/header/spawn/file_actions.rs:141-163`). -/
def addopen (acts : List Action) (fd : Int32) (path : Nat) (flag : Int32) (mode : UInt32) : Int32 × List Action :=
  if fd < 0 then (EBADF, acts) else (0, acts ++ [.open fd path flag mode])

/-- `posix_spawn_file_actions_addclose` (`src/header/spawn/file_actions.rs:177-187`). -/
def addclose (acts : List Action) (fd : Int32) : Int32 × List Action :=
  if fd < 0 then (EBADF, acts) else (0, acts ++ [.close fd])

/-- `posix_spawn_file_actions_addchdir` (`src/header/spawn/file_actions.rs:204-217`). -/
def addchdir (acts : List Action) (path : Nat) : Int32 × List Action := (0, acts ++ [.chdir path])

/-- `posix_spawn_file_actions_addfchdir` (`src/header/spawn/file_actions.rs:234-244`). -/
def addfchdir (acts : List Action) (fd : Int32) : Int32 × List Action :=
  if fd < 0 then (EBADF, acts) else (0, acts ++ [.fchdir fd])

/-- `posix_spawn_file_actions_adddup2` (`src/header/spawn/file_actions.rs:261-272`). -/
def adddup2 (acts : List Action) (old new : Int32) : Int32 × List Action :=
  if old < 0 ∨ new < 0 then (EBADF, acts) else (0, acts ++ [.dup2 old new])

/-- A descriptor of the parent: the open file and `FD_CLOEXEC`. -/
structure Desc where
  file : Nat
  cloexec : Bool
deriving DecidableEq

/-- The parent. -/
structure Parent where
  table : Nat → Option Desc
  cwd : Path
  sigmask : UInt64
  sigign : UInt64
  pgroup : Int32
  ruid : UInt32
  euid : UInt32
  rgid : UInt32
  egid : UInt32

/-- What is used of the kernel. -/
structure Kernel where
  /-- opens a directory by its path for `O_STAT`; `some e` = error -/
  opendir : Path → Option Int32
  /-- opens a path from a directory: an open file, or an error -/
  openat : Path → Path → Int32 → UInt32 → Except Int32 Nat
  /-- the path of an open file -/
  fpath : Nat → Except Int32 Path
  /-- owner, group, `S_ISUID` and `S_ISGID` of an open file -/
  stat : Nat → UInt32 × UInt32 × Bool × Bool
  /-- number of the new process, and of the descriptor for it -/
  pid : Int32
  procFd : UInt32

/-- What the new process starts with. `renice`: a process and its new priority, from `setpriority`. -/
structure Child where
  program : Nat
  files : Nat → Option Nat
  cwd : Path
  argv : List Path
  envp : List Path
  sigmask : UInt64
  sigign : UInt64
  pgroup : Int32
  euid : UInt32
  egid : UInt32
  renice : Option (UInt32 × Int32)

/-- The state while the actions are done: the table of the child and `cwd`. -/
structure ActState where
  files : Nat → Option Nat
  cwd : Path

/-- `table` with `fd` changed. -/
def setFd (t : Nat → Option α) (fd : Nat) (v : Option α) : Nat → Option α := fun k => if k = fd then v else t k

/-- One action (`src/platform/redox/mod.rs:1243-1302`). Assumed of the kernel's table: a file moved to a descriptor replaces the one
that was there, as `dup2` does; closing or duplicating a descriptor that is not open gives `EBADF`. -/
def act (k : Kernel) (p : Parent) (mem : Nat → Path) (s : ActState) : Action → Except Int32 ActState
  | .open fd path flag mode => do
    if let some e := k.opendir s.cwd then throw e
    let f ← k.openat s.cwd (mem path) flag mode
    pure { s with files := setFd s.files fd.toInt.toNat (some f) }
  | .close fd =>
    if (s.files fd.toInt.toNat).isSome then pure { s with files := setFd s.files fd.toInt.toNat none } else throw EBADF
  | .chdir path => do
    if let some e := k.opendir (mem path) then throw e
    pure { s with cwd := mem path }
  | .fchdir fd => do
    match p.table fd.toInt.toNat with
    | none => throw EBADF
    | some d =>
      let path ← k.fpath d.file
      if let some e := k.opendir path then throw e
      pure { s with cwd := path }
  | .dup2 old new =>
    match s.files old.toInt.toNat with
    | none => throw EBADF
    | some f => pure { s with files := setFd s.files new.toInt.toNat (some f) }

/-- All actions, in their order (`src/platform/redox/mod.rs:1241-1304`). -/
def actAll (k : Kernel) (p : Parent) (mem : Nat → Path) : ActState → List Action → Except Int32 ActState
  | s, [] => pure s
  | s, a :: l => do actAll k p mem (← act k p mem s a) l

/-- The attributes that are used (`src/header/spawn/spawn_attr.rs:40-47`). -/
structure Attrs where
  priority : Int32
  flags : Int16
  pgroup : Int32
  sigdefault : UInt64
  sigmask : UInt64

/-- `Flags::contains`. -/
def Attrs.has (a : Attrs) (f : Int16) : Bool := a.flags &&& f = f

/-- Closing those descriptors of the child that are `O_CLOEXEC` in the parent (`src/platform/redox/mod.rs:1339-1369`). Assumed: closing a list of
descriptors closes all of them that are open. -/
def keep (p : Parent) (files : Nat → Option Nat) : Nat → Option Nat := fun fd =>
  match p.table fd with
  | some d => if d.cloexec then none else files fd
  | none => files fd

/-- `Sys::spawn` of Redox (`src/platform/redox/mod.rs:1203-1501`). The attributes have passed `posix_spawnattr_setflags`. `none` = a
panic: `set_scheduler` is `todo!()`. -/
def sysSpawn (k : Kernel) (p : Parent) (mem : Nat → Path) (program : Path) (acts : List Action) (attr : Option Attrs)
    (argv envp : List Path) : Option (Except Int32 Child) :=
  match k.opendir p.cwd with
  | some e => some (.error e)
  | none =>
  match actAll k p mem ⟨fun fd => (p.table fd).map Desc.file, p.cwd⟩ acts with
  | .error e => some (.error e)
  | .ok s =>
  match k.opendir s.cwd with
  | some e => some (.error e)
  | none =>
  match k.openat s.cwd program 0 0 with
  | .error e => some (.error e)
  | .ok exe =>
    let files := keep p s.files
    let st := k.stat exe
    let base : Child := ⟨exe, files, s.cwd, argv.set 0 program, envp, p.sigmask, p.sigign, p.pgroup, p.euid, p.egid, none⟩
    match attr with
    | none => some (.ok base)
    | some a =>
      let c := if a.has 4 then { base with sigmask := a.sigmask } else base
      let c := if a.has 2 && a.pgroup ≠ 0 then { c with pgroup := a.pgroup } else c
      if a.has 2 && a.pgroup ≠ 0 && a.pgroup < 0 then some (.error EINVAL)
      else if a.has 6 then none
      else
        let c := if a.has 5 then { c with renice := some (k.procFd, a.priority) } else c
        some (.ok { c with
          euid := if st.2.2.1 then st.1 else if a.has 1 then p.ruid else p.euid
          egid := if st.2.2.2 then st.2.1 else if a.has 1 then p.rgid else p.egid })

/-- `posix_spawn` (`src/header/spawn/mod.rs:50-79`): its result, what is stored at `pid`, and the child. -/
def posixSpawn (k : Kernel) (p : Parent) (mem : Nat → Path) (program : Path) (acts : List Action) (attr : Option Attrs)
    (argv : Option (List Path)) (envp : Option (List Path)) : Option (Int32 × Option Int32 × Option Child) :=
  match argv with
  | none | some [] => some (EINVAL, none, none)
  | some argv =>
    (sysSpawn k p mem program acts attr argv (envp.getD [])).map fun
      | .ok c => (0, some k.pid, some c)
      | .error e => (e, none, none)

end Verif.Exec
