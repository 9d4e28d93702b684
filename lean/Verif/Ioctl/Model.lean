/-!
# `ioctl` of Redox (`src/header/sys_ioctl/redox/mod.rs:1-196`, `src/header/sys_ioctl/mod.rs:24-40`)

The descriptor is a device: what `fcntl` and the calls with a verb do to it are parameters. The third argument is a number (`val`), and the
bytes of the object it points to if it is a pointer (`arg`). `none` is an access beyond that object. The graphics requests themselves
(`drm.rs`) are a parameter.
-/

namespace Verif.Ioctl

abbrev Bytes := List UInt8

/-- `TtyCall`, as far as it is used (`redox_protocols`). -/
inductive Verb where
  | termios
  | flush
  | sendBreak
  | flow
  | pgrp
  | winsize
  | ptLock
  | ptsName
deriving DecidableEq

/-- Number of an error, or a value. -/
abbrev R := Except Int

def EINVAL : Int := 22

/-- `IoctlBuffer` (`src/header/sys_ioctl/redox/mod.rs:56-62`): direction and size. -/
inductive Buf where
  | none
  | read (size : Nat)
  | write (size : Nat)
  | readWrite (size : Nat)
deriving DecidableEq

/-- A device with states `σ`. -/
structure Dev (σ : Type) where
  /-- `O_NONBLOCK`. -/
  nonblock : UInt32
  getfl : σ → R UInt32
  setfl : σ → UInt32 → R Unit × σ
  /-- `sys_call_ro`: the bytes given, at most as many as asked for. -/
  ro : σ → Verb → Nat → R Bytes × σ
  /-- `sys_call_wo`. -/
  wo : σ → Verb → Bytes → R Nat × σ
  /-- `getsid`, −1 for a failure. -/
  getsid : σ → UInt32 → UInt32
  /-- `drm::ioctl`. -/
  drm : σ → Nat → Buf → Bytes → R Int × Bytes × σ

/-- Requests (`src/header/sys_ioctl/constants.rs:8-61`). -/
def TCGETS : Nat := 0x5401
def TCSETS : Nat := 0x5402
def TCSETSW : Nat := 0x5403
def TCSETSF : Nat := 0x5404
def TCSBRK : Nat := 0x5409
def TCXONC : Nat := 0x540A
def TCFLSH : Nat := 0x540B
def TIOCSCTTY : Nat := 0x540E
def TIOCGPGRP : Nat := 0x540F
def TIOCSPGRP : Nat := 0x5410
def TIOCGWINSZ : Nat := 0x5413
def TIOCSWINSZ : Nat := 0x5414
def TIOCGSID : Nat := 0x5429
def FIONREAD : Nat := 0x541B
def FIONBIO : Nat := 0x5421
def TIOCSPTLCK : Nat := 0x40045431
def TIOCGPTLCK : Nat := 0x80045439
def TIOCGPTN : Nat := 0x80045430
def SIOCATMARK : Nat := 0x8905

/-- An `int` in memory, lowest byte first. -/
def int4 (w : UInt32) : Bytes := [w.toUInt8, (w >>> 8).toUInt8, (w >>> 16).toUInt8, (w >>> 24).toUInt8]

/-- The `int` at the start of an object. -/
def toInt4 : Bytes → Option UInt32
  | a :: b :: c :: d :: _ => some (.ofNat (a.toNat + b.toNat * 256 + c.toNat * 65536 + d.toNat * 16777216))
  | _ => none

variable {σ : Type}

/-- What a request gives: the result, the object, the state. -/
abbrev Out (σ : Type) := R Int × Bytes × σ

/-- `sys_call_read` (`src/header/sys_ioctl/redox/mod.rs:24-38`) with a `T` of `size` bytes at the start of the object; how many bytes there were is not looked at. -/
def get (d : Dev σ) (s : σ) (v : Verb) (size : Nat) (arg : Bytes) : Option (Out σ) :=
  if arg.length < size then none
  else match d.ro s v size with
    | (.error e, s) => some (.error e, arg, s)
    | (.ok l, s) => some (.ok 0, l.take size ++ arg.drop (min l.length size), s)

/-- `sys_call_write` (`src/header/sys_ioctl/redox/mod.rs:41-54`) of a payload; how many bytes were taken is not looked at. -/
def put (d : Dev σ) (s : σ) (v : Verb) (payload arg : Bytes) : Out σ :=
  match d.wo s v payload with
  | (.error e, s) => (.error e, arg, s)
  | (.ok _, s) => (.ok 0, arg, s)

/-- The same with a `T` of `size` bytes at the start of the object. -/
def putAt (d : Dev σ) (s : σ) (v : Verb) (size : Nat) (arg : Bytes) : Option (Out σ) :=
  if arg.length < size then none else some (put d s v (arg.take size) arg)

/-- `FIONBIO` (`src/header/sys_ioctl/redox/mod.rs:94-102`). -/
def fionbio (d : Dev σ) (s : σ) (arg : Bytes) : Option (Out σ) :=
  match d.getfl s with
  | .error e => some (.error e, arg, s)
  | .ok fl =>
    match toInt4 arg with
    | none => none
    | some on =>
      match d.setfl s (if on = 0 then fl &&& ~~~ d.nonblock else fl ||| d.nonblock) with
      | (.error e, s) => some (.error e, arg, s)
      | (.ok _, s) => some (.ok 0, arg, s)

/-- `TIOCGSID` (`src/header/sys_ioctl/redox/mod.rs:132-138`). -/
def tiocgsid (d : Dev σ) (s : σ) (arg : Bytes) : Option (Out σ) :=
  match get d s .pgrp 4 arg with
  | some (.ok r, arg, s) =>
    match toInt4 arg with
    | some p => some (.ok r, int4 (d.getsid s p) ++ arg.drop 4, s)
    | none => none
  | r => r

/-- The buffer of a graphics request (`src/header/sys_ioctl/redox/mod.rs:171-184`). -/
def bufOf (req : Nat) : Buf :=
  let dir := (req >>> 30) % 4
  let size := (req >>> 16) % 0x4000
  if dir = 2 then .read size else if dir = 1 then .write size else if dir = 3 then .readWrite size else .none

/-- `ioctl_inner` (`src/header/sys_ioctl/redox/mod.rs:92-196`). `termios` has 48 bytes (`src/header/termios/mod.rs:83-94`), `winsize` 8. -/
def ioctl (d : Dev σ) (s : σ) (req val : Nat) (arg : Bytes) : Option (Out σ) :=
  if req = FIONBIO then fionbio d s arg
  else if req = TCGETS then get d s .termios 48 arg
  else if req = TCSETS ∨ req = TCSETSW ∨ req = TCSETSF then putAt d s .termios 48 arg
  else if req = TCFLSH then some (put d s .flush (int4 (.ofNat val)) arg)
  else if req = TCSBRK then some (put d s .sendBreak (int4 (.ofNat val)) arg)
  else if req = TCXONC then some (put d s .flow (int4 (.ofNat val)) arg)
  else if req = TIOCSCTTY then some (.ok 0, arg, s)
  else if req = TIOCGPGRP then get d s .pgrp 4 arg
  else if req = TIOCGSID then tiocgsid d s arg
  else if req = TIOCSPGRP then putAt d s .pgrp 4 arg
  else if req = TIOCGWINSZ then get d s .winsize 8 arg
  else if req = TIOCSWINSZ then putAt d s .winsize 8 arg
  else if req = TIOCGPTLCK then get d s .ptLock 4 arg
  else if req = TIOCSPTLCK then putAt d s .ptLock 4 arg
  else if req = TIOCGPTN then get d s .ptsName 4 arg
  else if req = SIOCATMARK then some (.ok 0, arg, s)
  else if (req >>> 8) % 256 = 0x64 then some (d.drm s (req % 256) (bufOf req) arg)
  else some (.error EINVAL, arg, s)

/-- `IoctlBuffer::read::<T>` (`src/header/sys_ioctl/redox/mod.rs:65-80`) with a `T` of `n` bytes. -/
def Buf.take (b : Buf) (n : Nat) (arg : Bytes) : R Bytes :=
  match b with
  | .write size => if size = n then .ok (arg.take n) else .error EINVAL
  | .readWrite size => if size = n then .ok (arg.take n) else .error EINVAL
  | _ => .error EINVAL

/-- `IoctlBuffer::write::<T>` (`src/header/sys_ioctl/redox/mod.rs:82-92`): the object afterwards. -/
def Buf.give (b : Buf) (value arg : Bytes) : R Bytes :=
  match b with
  | .read size => if size = value.length then .ok (value ++ arg.drop value.length) else .error EINVAL
  | .readWrite size => if size = value.length then .ok (value ++ arg.drop value.length) else .error EINVAL
  | _ => .error EINVAL

end Verif.Ioctl
