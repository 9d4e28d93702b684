/-!
# Record locks on Redox

`fcntl` with `F_SETLK`, `F_OFD_SETLK`, `F_GETLK` and `F_OFD_GETLK` (`src/platform/redox/mod.rs`) and `lockf` (`src/header/unistd/mod.rs`). The locks are kept by
the file system, which is not in the repository; it is any function of the words it is sent. `l_type` and `l_whence`, `c_short` in the code, are integers here; offsets are
64-bit and wrap around. The other commands of `fcntl` are not looked at.
-/

namespace Verif.Reclock

/-- `EINVAL`, `EACCES` are set by the library, `ESRCH` is looked at; any other error comes from the file system. -/
inductive Errno where
  | EINVAL
  | EACCES
  | ESRCH
  | other (n : Nat)
deriving DecidableEq

/-- `struct flock` (`src/header/fcntl/mod.rs:72-85`). -/
structure Flock where
  type : Int
  whence : Int
  start : Int64
  len : Int64
  pid : Int32
deriving DecidableEq

/-- `F_RDLCK` (`src/header/fcntl/mod.rs:56`). -/
def F_RDLCK : Int := 0

/-- `F_WRLCK` (`src/header/fcntl/mod.rs:58`). -/
def F_WRLCK : Int := 1

/-- `F_UNLCK` (`src/header/fcntl/mod.rs:60`). -/
def F_UNLCK : Int := 2

/-- `F_GETLK` (`src/header/fcntl/mod.rs:40`). -/
def F_GETLK : Int := 5

/-- `F_SETLK` (`src/header/fcntl/mod.rs:42`). -/
def F_SETLK : Int := 6

/-- `F_SETLKW` (`src/header/fcntl/mod.rs:44`). -/
def F_SETLKW : Int := 7

/-- `F_OFD_GETLK` (`src/header/fcntl/mod.rs:46`). -/
def F_OFD_GETLK : Int := 36

/-- `F_OFD_SETLK` (`src/header/fcntl/mod.rs:48`). -/
def F_OFD_SETLK : Int := 37

/-- The file system: `StdFsCallKind::Lock`, `Unlock` and `GetLock` with their two words, and what the descriptor layer does with other commands
(`redox_rt::sys::fcntl`). -/
structure Fs (σ : Type) where
  lock : σ → Nat → UInt64 → UInt64 → Except Errno σ
  unlock : σ → Nat → UInt64 → UInt64 → Except Errno σ
  getLock : σ → Nat → UInt64 → UInt64 → Except Errno (UInt64 × UInt64 × UInt64)
  otherCmd : σ → Nat → Int → Except Errno Int32 × σ

/-- `1 << 63` -/
def bit63 : UInt64 := 0x8000000000000000

/-- `relative_to_absolute_foffset` (`src/platform/redox/mod.rs:1838-1867`): `none` is the failed assertion. -/
def toAbsolute (whence : Int) (start len : Int64) : Option (Except Errno (Int64 × Int64)) :=
  if whence = 0 then
    let p : Int64 × Int64 := if len < 0 then (start + len, -len) else (start, len)
    if p.1 < 0 then some (.error .EINVAL)
    else if p.2 < 0 then none
    else some (.ok p)
  else some (.ok (0, 0))

variable {σ : Type}

/-- `Sys::fcntl`, `F_SETLK` and `F_OFD_SETLK` (`src/platform/redox/mod.rs:332-370`). -/
def setlk (k : Fs σ) (s : σ) (fd : Nat) (ofd : Bool) (fl : Flock) : Option (Except Errno Int32 × σ) :=
  match toAbsolute fl.whence fl.start fl.len with
  | none => none
  | some (.error e) => some (.error e, s)
  | some (.ok (start, len)) =>
    let start := start.toUInt64 ||| (if ofd then bit63 else 0)
    let len := len.toUInt64
    if fl.type = F_UNLCK then
      match k.unlock s fd start len with
      | .error e => some (.error e, s)
      | .ok s => some (.ok 0, s)
    else if fl.type = F_RDLCK ∨ fl.type = F_WRLCK then
      match k.lock s fd start (len ||| (if fl.type = F_WRLCK then bit63 else 0)) with
      | .error e => some (.error e, s)
      | .ok s => some (.ok 0, s)
    else some (.error .EINVAL, s)

/-- `Sys::fcntl`, `F_GETLK` and `F_OFD_GETLK` (`src/platform/redox/mod.rs:372-428`). The debug assertion is left out. -/
def getlk (k : Fs σ) (s : σ) (fd : Nat) (ofd : Bool) (fl : Flock) : Option (Except Errno Int32 × Flock) :=
  if ofd ∧ fl.pid ≠ 0 then some (.error .EINVAL, fl)
  else match toAbsolute fl.whence fl.start fl.len with
  | none => none
  | some (.error e) => some (.error e, fl)
  | some (.ok (start, len)) =>
    let start := start.toUInt64 ||| (if ofd then bit63 else 0)
    let len := len.toUInt64 ||| (if fl.type = F_WRLCK then bit63 else 0)
    match k.getLock s fd start len with
    | .error .ESRCH => some (.ok 0, { fl with type := F_UNLCK })
    | .error e => some (.error e, fl)
    | .ok (val, _, p1) =>
      some (.ok 0,
        { pid := if ofd then -1 else val.toUInt32.toInt32
          type := if p1 &&& bit63 = bit63 then F_WRLCK else F_RDLCK
          whence := 0
          start := start.toInt64
          len := (p1 &&& ~~~bit63).toInt64 })

/-- `Sys::fcntl` (`src/platform/redox/mod.rs:330-437`): the result, the structure and the locks. -/
def fcntl (k : Fs σ) (s : σ) (fd : Nat) (cmd : Int) (fl : Flock) : Option (Except Errno Int32 × Flock × σ) :=
  if cmd = F_SETLK ∨ cmd = F_OFD_SETLK then
    match setlk k s fd (cmd = F_OFD_SETLK) fl with
    | none => none
    | some (r, s) => some (r, fl, s)
  else if cmd = F_GETLK ∨ cmd = F_OFD_GETLK then
    match getlk k s fd (cmd = F_OFD_GETLK) fl with
    | none => none
    | some (r, fl) => some (r, fl, s)
  else
    let (r, s) := k.otherCmd s fd cmd
    some (r, fl, s)

/-- `lockf` (`src/header/unistd/mod.rs:822-854`); `self` is the process's id. -/
def lockf (k : Fs σ) (s : σ) (self : Int32) (fd : Nat) (function : Int) (size : Int64) : Option (Except Errno Int32 × σ) :=
  let fl : Flock := ⟨F_WRLCK, 1, 0, size, -1⟩
  if function = 3 then
    match fcntl k s fd F_GETLK { fl with type := F_RDLCK } with
    | none => none
    | some (.error e, _, s) => some (.error e, s)
    | some (.ok _, fl, s) => if fl.type = F_UNLCK ∨ fl.pid = self then some (.ok 0, s) else some (.error .EACCES, s)
  else if function = 0 then (fcntl k s fd F_SETLK { fl with type := F_UNLCK }).map fun r => (r.1, r.2.2)
  else if function = 2 then (fcntl k s fd F_SETLK fl).map fun r => (r.1, r.2.2)
  else if function = 1 then (fcntl k s fd F_SETLKW fl).map fun r => (r.1, r.2.2)
  else some (.error .EINVAL, s)

end Verif.Reclock
