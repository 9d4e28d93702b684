/-!
# User and group ids, and nice values, on Redox

`setuid`, `seteuid`, `setreuid`, `setresuid`, the same for groups, `getuid`, `getresuid` … (`src/header/unistd/mod.rs`), the functions of
`src/platform/redox/mod.rs` they call, `posix_setresugid` and `posix_getresugid` (`redox-rt/src/sys.rs`), and what `posix_spawn` does with
ids. The ids are kept by the process manager, which is not in the repository, and a copy is kept in the process (`DYNAMIC_PROC_INFO`). The lock
around the copy makes each function one step. Signals are left out.

`getpriority`, `setpriority` (`src/header/sys_resource/mod.rs`) and `nice`.
-/

namespace Verif.Ids

/-- `EINVAL` is the library's own; others come from the process manager. -/
inductive Errno where
  | EINVAL
  | other (n : Nat)
deriving DecidableEq

/-- `Resugid` (`redox-rt/src/sys.rs:413-421`). -/
structure Resugid (T : Type) where
  ruid : T
  euid : T
  suid : T
  rgid : T
  egid : T
  sgid : T
deriving DecidableEq

abbrev Ids := Resugid UInt32

/-- What the process manager does with `ProcCall::SetResugid`: whether it refuses, for a process that has these ids, the six words of the
request. -/
abbrev Manager := Ids → Ids → Option Errno

/-- A word of a request that has been accepted: `u32::MAX` leaves the id as it is. -/
def word (old new : UInt32) : UInt32 := if new = 0xFFFFFFFF then old else new

/-- A request that has been accepted. The process manager is not in the repository; this is what `posix_setresugid` expects of it
(`redox-rt/src/sys.rs:423`). -/
def apply (old new : Ids) : Ids :=
  ⟨word old.ruid new.ruid, word old.euid new.euid, word old.suid new.suid,
    word old.rgid new.rgid, word old.egid new.egid, word old.sgid new.sgid⟩

/-- The ids of the process at the process manager, the copy in the process, and the ids of a child that is being created. -/
structure St where
  own : Ids
  copy : Ids
  child : Ids
deriving DecidableEq

/-- The process or the child that is being created (`pid` of `posix_setresugid`). -/
inductive Target where
  | self
  | child
deriving DecidableEq

/-- The six words of `posix_setresugid` (`redox-rt/src/sys.rs:429-439`). -/
def words (r : Resugid (Option UInt32)) : Ids :=
  ⟨r.ruid.getD 0xFFFFFFFF, r.euid.getD 0xFFFFFFFF, r.suid.getD 0xFFFFFFFF,
    r.rgid.getD 0xFFFFFFFF, r.egid.getD 0xFFFFFFFF, r.sgid.getD 0xFFFFFFFF⟩

/-- The end of `posix_setresugid` (`redox-rt/src/sys.rs:452-469`). -/
def updateCopy (c : Ids) (r : Resugid (Option UInt32)) : Ids :=
  ⟨r.ruid.getD c.ruid, r.euid.getD c.euid, r.suid.getD c.suid, r.rgid.getD c.rgid, r.egid.getD c.egid, r.sgid.getD c.sgid⟩

/-- `posix_setresugid` (`redox-rt/src/sys.rs:424-472`). -/
def posixSetresugid (k : Manager) (s : St) (r : Resugid (Option UInt32)) (t : Target) : Except Errno Unit × St :=
  match t with
  | .child => match k s.child (words r) with
    | some e => (.error e, s)
    | none => (.ok (), { s with child := apply s.child (words r), copy := updateCopy s.copy r })
  | .self => match k s.own (words r) with
    | some e => (.error e, s)
    | none => (.ok (), { s with own := apply s.own (words r), copy := updateCopy s.copy r })

/-- `cvt_uid` (`src/platform/redox/mod.rs:93-98`). -/
def cvtUid (id : Int32) : Except Errno (Option UInt32) :=
  if id = -1 then .ok none else if id < 0 then .error .EINVAL else .ok (some id.toUInt32)

/-- `Sys::setresuid` (`src/platform/redox/mod.rs:1188-1201`), `setresuid` (`src/header/unistd/mod.rs:1130-1134`). -/
def setresuid (k : Manager) (s : St) (ruid euid suid : Int32) : Except Errno Unit × St :=
  match cvtUid ruid with
  | .error e => (.error e, s)
  | .ok r => match cvtUid euid with
    | .error e => (.error e, s)
    | .ok e => match cvtUid suid with
      | .error e => (.error e, s)
      | .ok u => posixSetresugid k s ⟨r, e, u, none, none, none⟩ .self

/-- `Sys::setresgid` (`src/platform/redox/mod.rs:1173-1186`), `setresgid` (`src/header/unistd/mod.rs:1122-1126`). -/
def setresgid (k : Manager) (s : St) (rgid egid sgid : Int32) : Except Errno Unit × St :=
  match cvtUid rgid with
  | .error e => (.error e, s)
  | .ok r => match cvtUid egid with
    | .error e => (.error e, s)
    | .ok e => match cvtUid sgid with
      | .error e => (.error e, s)
      | .ok u => posixSetresugid k s ⟨none, none, none, r, e, u⟩ .self

/-- `setuid` (`src/header/unistd/mod.rs:1163-1167`). -/
def setuid (k : Manager) (s : St) (uid : Int32) := setresuid k s uid uid (-1)

/-- `seteuid` (`src/header/unistd/mod.rs:1072-1074`). -/
def seteuid (k : Manager) (s : St) (uid : Int32) := setresuid k s (-1) uid (-1)

/-- `setreuid` (`src/header/unistd/mod.rs:1138-1142`). -/
def setreuid (k : Manager) (s : St) (ruid euid : Int32) := setresuid k s ruid euid (-1)

/-- `setgid` (`src/header/unistd/mod.rs:1078-1082`). -/
def setgid (k : Manager) (s : St) (gid : Int32) := setresgid k s gid gid (-1)

/-- `setegid` (`src/header/unistd/mod.rs:1066-1068`). -/
def setegid (k : Manager) (s : St) (gid : Int32) := setresgid k s (-1) gid (-1)

/-- `setregid` (`src/header/unistd/mod.rs:1114-1118`). -/
def setregid (k : Manager) (s : St) (rgid egid : Int32) := setresgid k s rgid egid (-1)

/-- `posix_getresugid` (`redox-rt/src/sys.rs:473-492`) with the casts of `getresuid` and `getresgid`
(`src/platform/redox/mod.rs:673-710`); `getuid`, `geteuid`, `getgid`, `getegid` (`src/platform/redox/mod.rs:569-579`, `src/platform/redox/mod.rs:763-765`)
are fields of it. -/
def getresugid (s : St) : Resugid Int32 :=
  ⟨s.copy.ruid.toInt32, s.copy.euid.toInt32, s.copy.suid.toInt32, s.copy.rgid.toInt32, s.copy.egid.toInt32, s.copy.sgid.toInt32⟩

/-- What `Sys::spawn` does with the ids if there are attributes (`src/platform/redox/mod.rs:1433-1457`): the ids of the owner of the program's file
if it has the set-user-id or set-group-id bit, and whether `POSIX_SPAWN_RESETIDS` is given. -/
def spawnIds (k : Manager) (s : St) (setUser setGroup : Option UInt32) (reset : Bool) : Except Errno Unit × St :=
  posixSetresugid k s
    ⟨none, some (setUser.getD (if reset then s.copy.ruid else s.copy.euid)), none,
      none, some (setGroup.getD (if reset then s.copy.rgid else s.copy.egid)), none⟩ .child

/-- The calls. -/
inductive Call where
  | setuid (uid : Int32)
  | seteuid (uid : Int32)
  | setreuid (ruid euid : Int32)
  | setresuid (ruid euid suid : Int32)
  | setgid (gid : Int32)
  | setegid (gid : Int32)
  | setregid (rgid egid : Int32)
  | setresgid (rgid egid sgid : Int32)

/-- One call. -/
def run (k : Manager) (s : St) : Call → Except Errno Unit × St
  | .setuid u => setuid k s u
  | .seteuid u => seteuid k s u
  | .setreuid r e => setreuid k s r e
  | .setresuid r e u => setresuid k s r e u
  | .setgid u => setgid k s u
  | .setegid u => setegid k s u
  | .setregid r e => setregid k s r e
  | .setresgid r e u => setresgid k s r e u

/-! ## Nice values -/

/-- The kernel's part of priorities (`ProcCall::GetProcPriority`, `ProcCall::SetProcPriority`). -/
structure Prio (σ : Type) where
  get : σ → UInt32 → Except Errno UInt32
  set : σ → UInt32 → UInt32 → Except Errno σ

variable {σ : Type}

/-- `Sys::getpriority` (`src/platform/redox/mod.rs:645-653`) with `posix_getpriority` (`redox-rt/src/sys.rs:133-144`). -/
def sysGetpriority (k : Prio σ) (s : σ) (which : Int32) (who : UInt32) : Except Errno Int32 :=
  if which ≠ 0 then .error .EINVAL
  else match k.get s who with
    | .error e => .error e
    | .ok p => .ok (-p.toInt32 + 40)

/-- `Sys::setpriority` (`src/platform/redox/mod.rs:1159-1168`) with `posix_setpriority` (`redox-rt/src/sys.rs:115-130`). -/
def sysSetpriority (k : Prio σ) (s : σ) (which : Int32) (who : UInt32) (prio : Int32) : Except Errno Unit × σ :=
  let clamped : Int32 := if prio < -20 then -20 else if 19 < prio then 19 else prio
  if which ≠ 0 then (.error .EINVAL, s)
  else match k.set s who (20 + clamped).toUInt32 with
    | .error e => (.error e, s)
    | .ok s => (.ok (), s)

/-- `getpriority` (`src/header/sys_resource/mod.rs:191-197`): the value returned, and whether `errno` is set. -/
def getpriority (k : Prio σ) (s : σ) (which : Int32) (who : UInt32) : Int32 × Option Errno :=
  match sysGetpriority k s which who with
  | .error e => (-1, some e)
  | .ok r => if r < 0 then (r, none) else (20 - r, none)

/-- `setpriority` (`src/header/sys_resource/mod.rs:208-212`). -/
def setpriority (k : Prio σ) (s : σ) (which : Int32) (who : UInt32) (nice : Int32) : Except Errno Unit × σ := sysSetpriority k s which who nice

/-- `i32::saturating_add` -/
def satAdd (a b : Int32) : Int32 := if a.toInt + b.toInt < -2 ^ 31 then Int32.minValue else if 2 ^ 31 ≤ a.toInt + b.toInt then Int32.maxValue else a + b

/-- `nice` (`src/header/unistd/mod.rs:864-883`): the value returned, whether `errno` is set, and the state. -/
def nice (k : Prio σ) (s : σ) (incr : Int32) : Int32 × Option Errno × σ :=
  match sysGetpriority k s 0 0 with
  | .error e => (-1, some e, s)
  | .ok prio =>
    if prio < 0 then (prio, none, s)
    else
      let sum := satAdd (20 - prio) incr
      let new : Int32 := if sum < -20 then -20 else if 19 < sum then 19 else sum
      match sysSetpriority k s 0 0 new with
      | (.error e, s) => (-1, some e, s)
      | (.ok (), s) => (new, none, s)

end Verif.Ids
