import Verif.Socket.MsgModel

/-!
# `socket`, `socketpair`, `sendto`, `recvfrom` and the options of sockets on Redox

The rest of `src/platform/redox/socket.rs`. The kernel and the schemes are the fields of `Sys`, with a state of a type `σ`; a call which fails
does not change the state. What a descriptor refers to is of a type `N`. `Proc.fds` is the table of descriptors of the process with
`FD_CLOEXEC` (how it is kept is the subject of the property on the table of descriptors; here it is asked for a number by `Sys.slot`).

0 is NULL, `none` stands for an access to memory which is not there.
-/

namespace Verif.Socket

open Verif.Mem Verif.Net Verif.Stdlib

/-- Numbers of errors which `Errno` has no name for. -/
def EPIPE : Errno := .other 32
def EMFILE : Errno := .other 24
def EDOM : Errno := .other 33
def ENOSYS : Errno := .other 38
def EPROTONOSUPPORT : Errno := .other 93

/-- Constants (`src/header/sys_socket/constants.rs:6-27`, `:45-47`, `:93-95`, `:115`, `:144`). -/
def SOCK_STREAM : UInt32 := 1
def SOCK_DGRAM : UInt32 := 2
def SOCK_NONBLOCK : UInt32 := 0o4000
def SOCK_CLOEXEC : UInt32 := 0o2000000
def SO_TYPE : Nat := 3
def SO_ERROR : Nat := 4
def SO_RCVTIMEO : Nat := 20
def SO_SNDTIMEO : Nat := 21
def SO_DOMAIN : Nat := 39
def MSG_NOSIGNAL : UInt32 := 0x4000
def SIGPIPE : Nat := 13

/-- Flags of `open` besides `O_RDWR`. -/
structure Flags where
  nonblock : Bool
  cloexec : Bool
  creat : Bool
deriving DecidableEq

/-- What the code asks the kernel and the schemes. -/
structure Sys (σ N : Type) where
  /-- `open` -/
  opn : σ → List UInt8 → Flags → Except Errno (N × σ)
  /-- `dup` with a non-empty buffer -/
  sub : σ → N → List UInt8 → Except Errno (N × σ)
  /-- `fpath` -/
  path : σ → N → Except Errno (List UInt8)
  /-- `read` of so many bytes at most -/
  read : σ → N → Nat → Except Errno (List UInt8 × σ)
  /-- `write` -/
  write : σ → N → List UInt8 → Except Errno (Nat × σ)
  /-- `write` of a `TimeSpec` (seconds and nanoseconds, as the bits of the `i64` and the `i32`) -/
  writeTime : σ → N → Nat → Nat → Except Errno σ
  /-- `SocketCall::GetSockOpt` with the option and the size of the buffer: what is stored, and the length returned -/
  getOpt : σ → N → Nat → Nat → Except Errno (List UInt8 × Nat)
  /-- `SocketCall::SetSockOpt` with the option and its value -/
  setOpt : σ → N → Nat → List UInt8 → Except Errno σ
  /-- `SocketCall::Shutdown` -/
  shut : σ → N → UInt32 → Except Errno σ
  /-- the calls of `sendmsg` and `recvmsg` -/
  msg : N → Scheme σ
  /-- a number for a new descriptor -/
  slot : (Nat → Option (N × Bool)) → Option Nat

/-- The process: descriptors with `FD_CLOEXEC`, the state of the schemes, and the signals which have been raised. -/
structure Proc (σ N : Type) where
  fds : Nat → Option (N × Bool)
  st : σ
  signals : List Nat

variable {σ N : Type}

/-- The process with the descriptor `fd` replaced. -/
def Proc.set (p : Proc σ N) (fd : Nat) (f : Option (N × Bool)) : Proc σ N := { p with fds := fun i => if i = fd then f else p.fds i }

/-- `redox_rt::sys::open` (`redox-rt/src/sys.rs`), as far as sockets are concerned: `O_CLOEXEC` is kept in the table of descriptors. -/
def openFd (k : Sys σ N) (p : Proc σ N) (name : List UInt8) (fl : Flags) : Except Errno Nat × Proc σ N :=
  match k.slot p.fds with
  | none => (.error EMFILE, p)
  | some i => match k.opn p.st name fl with
    | .error e => (.error e, p)
    | .ok (n, st) => (.ok i, { p with st := st }.set i (some (n, fl.cloexec)))

/-- `redox_rt::sys::dup` (`redox-rt/src/sys.rs:632-657`) with a non-empty buffer: the new entry of the table has no flags (`add_posix(0)`). -/
def dupFd (k : Sys σ N) (p : Proc σ N) (fd : Nat) (arg : List UInt8) : Except Errno Nat × Proc σ N :=
  match k.slot p.fds with
  | none => (.error EMFILE, p)
  | some i => match p.fds fd with
    | none => (.error .EBADF, p)
    | some (n, _) => match k.sub p.st n arg with
      | .error e => (.error e, p)
      | .ok (n, st) => (.ok i, { p with st := st }.set i (some (n, false)))

/-- `FdGuard::drop` (`redox-rt/src/proc.rs:920-924`). -/
def closeFd (p : Proc σ N) (fd : Nat) : Proc σ N := p.set fd none

/-- `Sys::write`. -/
def writeFd (k : Sys σ N) (p : Proc σ N) (fd : Nat) (l : List UInt8) : Except Errno Nat × Proc σ N :=
  match p.fds fd with
  | none => (.error .EBADF, p)
  | some (n, _) => match k.write p.st n l with
    | .error e => (.error e, p)
    | .ok (c, st) => (.ok c, { p with st := st })

def schemeTcp : List UInt8 := [47, 115, 99, 104, 101, 109, 101, 47, 116, 99, 112]
def schemeUdp : List UInt8 := [47, 115, 99, 104, 101, 109, 101, 47, 117, 100, 112]
def schemeStream : List UInt8 := [47, 115, 99, 104, 101, 109, 101, 47, 117, 100, 115, 95, 115, 116, 114, 101, 97, 109]
def schemeDgram : List UInt8 := [47, 115, 99, 104, 101, 109, 101, 47, 117, 100, 115, 95, 100, 103, 114, 97, 109]
/-- `b"connect"`. -/
def argConnect : List UInt8 := [99, 111, 110, 110, 101, 99, 116]
/-- `b"read_timeout"`. -/
def argRead : List UInt8 := [114, 101, 97, 100, 95, 116, 105, 109, 101, 111, 117, 116]
/-- `b"write_timeout"`. -/
def argWrite : List UInt8 := [119, 114, 105, 116, 101, 95, 116, 105, 109, 101, 111, 117, 116]

/-- `socket_domain_type` (`src/platform/redox/socket.rs:205-221`) of what `fpath` has stored (256 bytes at most, zeros behind it, which none of
the prefixes contains). -/
def domainTypeOf (path : List UInt8) : Except Errno (Nat × UInt32) :=
  let path := path.take 256
  if [116, 99, 112, 58].isPrefixOf path || (schemeTcp ++ [47]).isPrefixOf path then .ok (AF_INET, SOCK_STREAM)
  else if [117, 100, 112, 58].isPrefixOf path || (schemeUdp ++ [47]).isPrefixOf path then .ok (AF_INET, SOCK_DGRAM)
  else if (schemeStream ++ [47]).isPrefixOf path then .ok (AF_UNIX, SOCK_STREAM)
  else if (schemeDgram ++ [47]).isPrefixOf path then .ok (AF_UNIX, SOCK_DGRAM)
  else .error .ENOTSOCK

/-- `socket_domain_type` (`src/platform/redox/socket.rs:205-221`). -/
def domainType (k : Sys σ N) (p : Proc σ N) (fd : Nat) : Except Errno (Nat × UInt32) :=
  match p.fds fd with
  | none => .error .EBADF
  | some (n, _) => match k.path p.st n with
    | .error e => .error e
    | .ok l => domainTypeOf l

/-- `socket_kind` (`src/platform/redox/socket.rs:223-234`). -/
def socketKind (kind : UInt32) : UInt32 × Flags :=
  let (kind, nb) := if kind &&& SOCK_NONBLOCK = SOCK_NONBLOCK then (kind &&& ~~~SOCK_NONBLOCK, true) else (kind, false)
  let (kind, ce) := if kind &&& SOCK_CLOEXEC = SOCK_CLOEXEC then (kind &&& ~~~SOCK_CLOEXEC, true) else (kind, false)
  (kind, ⟨nb, ce, false⟩)

/-- `Sys::socket` (`src/platform/redox/socket.rs:1121-1145`). -/
def socket (k : Sys σ N) (p : Proc σ N) (domain : Nat) (kind protocol : UInt32) : Except Errno Nat × Proc σ N :=
  if domain ≠ AF_INET ∧ domain ≠ AF_UNIX then (.error .EAFNOSUPPORT, p)
  else
    let (kind, fl) := socketKind kind
    if domain = AF_INET ∧ kind = SOCK_STREAM then openFd k p schemeTcp fl
    else if domain = AF_INET ∧ kind = SOCK_DGRAM then openFd k p schemeUdp fl
    else if domain = AF_UNIX ∧ kind = SOCK_STREAM then openFd k p schemeStream { fl with creat := true }
    else if domain = AF_UNIX ∧ kind = SOCK_DGRAM then openFd k p schemeDgram { fl with creat := true }
    else (.error EPROTONOSUPPORT, p)

/-- `Sys::socketpair` (`src/platform/redox/socket.rs:1147-1190`): the two descriptors stored in `sv`. -/
def socketpair (k : Sys σ N) (p : Proc σ N) (domain : Nat) (kind protocol : UInt32) : Except Errno (Nat × Nat) × Proc σ N :=
  let (kind, fl) := socketKind kind
  if domain = AF_UNIX ∧ kind = SOCK_STREAM then
    match openFd k p schemeStream { fl with creat := true } with
    | (.error e, p) => (.error e, p)
    | (.ok l, p) => match dupFd k p l argConnect with
      | (.error e, p) => (.error e, closeFd p l)
      | (.ok a, p) => match dupFd k p l listen with
        | (.error e, p) => (.error e, closeFd (closeFd p a) l)
        | (.ok b, p) => (.ok (a, b), closeFd p l)
  else if domain = AF_UNIX ∧ kind = SOCK_DGRAM then
    match openFd k p schemeDgram { fl with creat := true } with
    | (.error e, p) => (.error e, p)
    | (.ok l, p) => match dupFd k p l argConnect with
      | (.error e, p) => (.error e, closeFd p l)
      | (.ok a, p) => (.ok (a, l), p)
  else (.error EPROTONOSUPPORT, p)

/-- `Sys::sendmsg` of one descriptor. -/
def sendmsgFd (k : Sys σ N) (m : Mem UInt8) (p : Proc σ N) (fd : Nat) (msg : Msg) (flags : UInt32) : Option (Except Errno Nat × Proc σ N) :=
  match p.fds fd with
  | none => some (.error .EBADF, p)
  | some (n, _) => do
    let (r, st) ← sendmsg (k.msg n) m p.st msg flags
    some (r, { p with st := st })

/-- The three ways of `sendto` (`src/platform/redox/socket.rs:1004-1034`). -/
def sendtoPart (k : Sys σ N) (m : Mem UInt8) (p : Proc σ N) (fd buf len : Nat) (flags : UInt32) (dest dlen : Nat) :
    Option (Except Errno Nat × Proc σ N) :=
  if flags ≠ 0 then sendmsgFd k m p fd ⟨dest, 0, [(buf, len)], 0, 0, 0⟩ flags
  else if dest = 0 ∨ dlen = 0 then do
    let l ← readN m buf len
    some (writeFd k p fd l)
  else do
    match ← addressText m .connect dest dlen with
    | .error e => some (.error e, p)
    | .ok text => match dupFd k p fd text with
      | (.error e, p) => some (.error e, p)
      | (.ok i, p) => do
        let l ← readN m buf len
        let (r, p) := writeFd k p i l
        some (r, closeFd p i)

/-- `Sys::sendto` (`src/platform/redox/socket.rs:991-1046`). -/
def sendto (k : Sys σ N) (m : Mem UInt8) (p : Proc σ N) (fd buf len : Nat) (flags : UInt32) (dest dlen : Nat) :
    Option (Except Errno Nat × Proc σ N) := do
  let noSignal : Bool := flags &&& MSG_NOSIGNAL != 0
  let (r, p) ← sendtoPart k m p fd buf len (flags &&& ~~~MSG_NOSIGNAL) dest dlen
  match r with
  | .ok c => some (.ok c, p)
  | .error e =>
    if e = EPIPE then
      match noSignal, domainType k p fd with
      | false, .ok (_, t) => if t = SOCK_STREAM then some (.error e, { p with signals := p.signals ++ [SIGPIPE] }) else some (.error e, p)
      | _, _ => some (.error e, p)
    else some (.error e, p)

/-- `Sys::recvfrom` (`src/platform/redox/socket.rs:813-850`). `loc` is the address of `msg.msg_namelen`, in the frame of the function. -/
def recvfrom (k : Sys σ N) (m : Mem UInt8) (p : Proc σ N) (fd buf len : Nat) (flags : UInt32) (addr alen loc : Nat) :
    Option (Except Errno Nat × Mem UInt8 × Proc σ N) :=
  if addr = 0 ∧ flags = 0 then
    match p.fds fd with
    | none => some (.error .EBADF, m, p)
    | some (n, _) => match k.read p.st n len with
      | .error e => some (.error e, m, p)
      | .ok (l, st) => do
        let m ← writeN m buf l
        some (.ok l.length, m, { p with st := st })
  else do
    let n ← if alen ≠ 0 then readInt m alen 4 else some 0
    let m ← writeN m loc (leBytes 4 n)
    match p.fds fd with
    | none => some (.error .EBADF, m, p)
    | some (f, _) => do
      let (r, _, m, st) ← recvmsg (k.msg f) m p.st ⟨addr, loc, [(buf, len)], 0, 0, 0⟩ flags
      match r with
      | .error e => some (.error e, m, { p with st := st })
      | .ok c =>
        if alen ≠ 0 then do
          let n ← readInt m loc 4
          let m ← writeN m alen (leBytes 4 n)
          some (.ok c, m, { p with st := st })
        else some (.ok c, m, { p with st := st })

/-- The three options of `getsockopt` which relibc answers itself (`src/platform/redox/socket.rs:743-775`): the closure `option_c_int`, the
value, and the length. -/
def optInt (m : Mem UInt8) (value lenp len : Nat) (answer : Except Errno Nat) : Option (Except Errno Unit × Mem UInt8) :=
  if value = 0 then some (.error .EFAULT, m)
  else if len < 4 then some (.error .EINVAL, m)
  else match answer with
    | .error e => some (.error e, m)
    | .ok v => do
      let m ← writeN m value (leBytes 4 v)
      let m ← writeN m lenp (leBytes 4 4)
      some (.ok (), m)

/-- `Sys::getsockopt` (`src/platform/redox/socket.rs:732-806`). -/
def getsockopt (k : Sys σ N) (m : Mem UInt8) (p : Proc σ N) (fd level name value lenp : Nat) : Option (Except Errno Unit × Mem UInt8) :=
  if lenp = 0 then some (.error .EFAULT, m)
  else do
    let len ← readInt m lenp 4
    if level = SOL_SOCKET then
      if name = SO_DOMAIN then optInt m value lenp len ((domainType k p fd).map (·.1))
      else if name = SO_ERROR then optInt m value lenp len (.ok 0)
      else if name = SO_TYPE then optInt m value lenp len ((domainType k p fd).map (·.2.toNat))
      else match p.fds fd with
        | none => some (.error .EBADF, m)
        | some (n, _) => match k.getOpt p.st n name len with
          | .error e => some (.error e, m)
          | .ok (l, c) => do
            let m ← writeN m value l
            let m ← writeN m lenp (leBytes 4 c)
            some (.ok (), m)
    else some (.error ENOSYS, m)

/-- The closure `set_timeout` (`src/platform/redox/socket.rs:1055-1082`). `timeval` has 16 bytes, `tv_usec` is a `c_int`
(`src/platform/types.rs:129`). -/
def setTimeout (k : Sys σ N) (m : Mem UInt8) (p : Proc σ N) (fd value len : Nat) (arg : List UInt8) : Option (Except Errno Unit × Proc σ N) :=
  if value = 0 then some (.error .EFAULT, p)
  else if len < 16 then some (.error .EINVAL, p)
  else match dupFd k p fd arg with
    | (.error e, p) => some (.error e, p)
    | (.ok i, p) => do
      let sec ← readInt m value 8
      let usec ← readInt m (value + 8) 4
      let nsec : Int := (BitVec.ofNat 32 usec).toInt * 1000
      if nsec < -2 ^ 31 ∨ 2 ^ 31 ≤ nsec then some (.error EDOM, closeFd p i)
      else match p.fds i with
        | none => some (.error .EBADF, closeFd p i)
        | some (n, _) => match k.writeTime p.st n sec (BitVec.ofInt 32 nsec).toNat with
          | .error e => some (.error e, closeFd p i)
          | .ok st => some (.ok (), closeFd { p with st := st } i)

/-- `Sys::setsockopt` (`src/platform/redox/socket.rs:1048-1113`). The scheme does not write to the value. -/
def setsockopt (k : Sys σ N) (m : Mem UInt8) (p : Proc σ N) (fd level name value len : Nat) : Option (Except Errno Unit × Proc σ N) :=
  if level = SOL_SOCKET then
    if name = SO_RCVTIMEO then setTimeout k m p fd value len argRead
    else if name = SO_SNDTIMEO then setTimeout k m p fd value len argWrite
    else match p.fds fd with
      | none => some (.error .EBADF, p)
      | some (n, _) => do
        let l ← readN m value len
        match k.setOpt p.st n name l with
        | .error e => some (.error e, p)
        | .ok st => some (.ok (), { p with st := st })
  else some (.ok (), p)

/-- `Sys::listen` (`src/platform/redox/socket.rs:808-811`). -/
def listenCall (p : Proc σ N) (fd : Nat) (backlog : UInt32) : Except Errno Unit × Proc σ N := (.ok (), p)

/-- `Sys::shutdown` (`src/platform/redox/socket.rs:1115-1119`). -/
def shutdown (k : Sys σ N) (p : Proc σ N) (fd : Nat) (how : UInt32) : Except Errno Unit × Proc σ N :=
  match p.fds fd with
  | none => (.error .EBADF, p)
  | some (n, _) => match k.shut p.st n how with
    | .error e => (.error e, p)
    | .ok st => (.ok (), { p with st := st })

end Verif.Socket
