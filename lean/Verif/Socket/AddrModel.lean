import Verif.Net.InetModel

/-!
# Socket addresses on Redox

`src/platform/redox/socket.rs`: `connect`, `bind`, `accept`, `getpeername`, `getsockname`. A socket is an open file of the scheme `tcp`, `udp`,
`uds_stream` or `uds_dgram`; addresses are handed to the schemes, and come back from them, as text.

The schemes and the kernel are the fields of `Kernel`; files are of a type `N`. Nothing is assumed about them in the definitions. `none` is an
access to memory which is not mapped, or a panic (`expect`, `assert_eq`). Targets are little-endian (`src/header/arpa_inet`).
-/

namespace Verif.Socket

open Verif.Mem Verif.Net Verif.Stdlib

inductive Errno where
  | EINVAL | EAFNOSUPPORT | ENOTSOCK | EFAULT | EMSGSIZE | EOPNOTSUPP | EBADF
  | other (n : Nat)
deriving DecidableEq

/-- Constants (`src/header/sys_socket/constants.rs:172-182`). -/
def AF_UNSPEC : Nat := 0
def AF_UNIX : Nat := 1
def AF_INET : Nat := 2

/-- `SocketCall`, as far as `bind_or_connect` is called with it. -/
inductive Op where
  | bind | connect
deriving DecidableEq

/-- What the code asks the kernel and the schemes. -/
structure Kernel (N : Type) where
  /-- `dup` with a non-empty buffer: the scheme opens something derived from the file -/
  sub : N → List UInt8 → Except Errno N
  /-- `SocketCall::GetPeerName` -/
  peer : N → Except Errno (List UInt8)
  /-- `fpath` -/
  path : N → Except Errno (List UInt8)
  /-- binding of a Unix socket to a name, with the entry in the directory (`src/platform/redox/socket.rs:584-632`) -/
  bindUnix : N → List UInt8 → Except Errno Unit
  /-- opening of the name of a Unix socket and the exchange of the token (`src/platform/redox/socket.rs:674-696`) -/
  connectUnix : N → List UInt8 → Except Errno Unit

variable {N : Type}

/-- `"{}.{}.{}.{}"` of four bytes. -/
def dotted (a : List UInt8) : List UInt8 :=
  let d := fun i => Stdio.digitsOf 10 false (a.getD i 0).toNat
  d 0 ++ 0x2E :: d 1 ++ 0x2E :: d 2 ++ 0x2E :: d 3

/-- `"disconnect"`. -/
def disconnect : List UInt8 := [100, 105, 115, 99, 111, 110, 110, 101, 99, 116]
/-- `b"listen"`. -/
def listen : List UInt8 := [108, 105, 115, 116, 101, 110]

/-- `(*address).sa_family`. -/
def family (m : Mem UInt8) (address : Nat) : Option Nat := (readN m address 2).map leValue

/-- The text in `bind_or_connect` (`src/platform/redox/socket.rs:45-90`). -/
def addressText (m : Mem UInt8) (op : Op) (address len : Nat) : Option (Except Errno (List UInt8)) :=
  if len < 2 then some (.error .EINVAL)
  else do
    let fam ← family m address
    if fam = AF_INET then
      if len ≠ 16 then some (.error .EINVAL)
      else do
        let s ← readN m address 16
        let port := be16 (UInt16.ofNat (leValue ((s.drop 2).take 2)))
        let text := dotted ((s.drop 4).take 4) ++ 0x3A :: Stdio.digitsOf 10 false port.toNat
        match op with
        | .bind => some (.ok (0x2F :: text))
        | .connect => some (.ok text)
    else if fam = AF_UNIX then some (.error .EAFNOSUPPORT)
    else if fam = AF_UNSPEC then
      match op with
      | .bind => some (.error .EAFNOSUPPORT)
      | .connect => some (.ok disconnect)
    else some (.error .EAFNOSUPPORT)

/-- The table of descriptors. -/
abbrev Fds (N : Type) := Nat → Option N

/-- `fds` with `fd` open on `f`. -/
def Fds.set (fds : Fds N) (fd : Nat) (f : Option N) : Fds N := fun i => if i = fd then f else fds i

/-- `bind_or_connect_into` (`src/platform/redox/socket.rs:95-105`) with `bind_or_connect` (`:39-93`): result, and the table of descriptors.
The copy which is closed at the end (`FdGuard`) is left out. -/
def boundInto (k : Kernel N) (m : Mem UInt8) (fds : Fds N) (op : Op) (socket address len : Nat) : Option (Except Errno Unit × Fds N) := do
  match ← addressText m op address len with
  | .error e => some (.error e, fds)
  | .ok text =>
    match fds socket with
    | none => some (.error .EBADF, fds)
    | some f => match k.sub f text with
      | .error e => some (.error e, fds)
      | .ok g => some (.ok (), fds.set socket (some g))

/-- The name of a Unix socket in `bind` (`src/platform/redox/socket.rs:562-585`): `address_len - path_offset` wraps around. -/
def bindName (m : Mem UInt8) (address len : Nat) : Option (List UInt8) := do
  let maxlen := min 108 ((len + 2 ^ 64 - 2) % 2 ^ 64)
  let n ← Str.strnlen m (address + 2) maxlen
  readN m (address + 2) n

/-- The name of a Unix socket in `connect` (`src/platform/redox/socket.rs:674`): `CStr::from_ptr`; the length computed before it (`:657-672`)
is not used. -/
def connectName (m : Mem UInt8) (address : Nat) : Option (List UInt8) := do
  let n ← Str.strlen m (address + 2)
  readN m (address + 2) n

/-- `Sys::bind` (`src/platform/redox/socket.rs:556-640`). -/
def bind (k : Kernel N) (m : Mem UInt8) (fds : Fds N) (socket address len : Nat) : Option (Except Errno Unit × Fds N) := do
  let fam ← family m address
  if fam = AF_INET then boundInto k m fds .bind socket address len
  else if fam = AF_UNIX then do
    let name ← bindName m address len
    match fds socket with
    | none => some (.error .EBADF, fds)
    | some f => some (k.bindUnix f name, fds)
  else some (.error .EAFNOSUPPORT, fds)

/-- `Sys::connect` (`src/platform/redox/socket.rs:642-703`). -/
def connect (k : Kernel N) (m : Mem UInt8) (fds : Fds N) (socket address len : Nat) : Option (Except Errno Unit × Fds N) := do
  let fam ← family m address
  if fam = AF_INET then boundInto k m fds .connect socket address len
  else if fam = AF_UNIX then do
    let name ← connectName m address
    match fds socket with
    | none => some (.error .EBADF, fds)
    | some f => some (k.connectUnix f name, fds)
  else if fam = AF_UNSPEC then boundInto k m fds .connect socket address len
  else some (.error .EAFNOSUPPORT, fds)

/-- `memchr(b':')` and `split_at_mut`: what is in front of the first colon and what is behind it. -/
def cutColon : List UInt8 → Option (List UInt8 × List UInt8)
  | [] => none
  | b :: t => if b = 0x3A then some ([], t) else do
    let (x, y) ← cutColon t
    some (b :: x, y)

/-- The bytes `inet_aton` stores for a text, which is ended by a NUL byte; `none` = the assertion fails. The text is at 0 and the result just
behind it. -/
def atonText (raw : List UInt8) : Option (List UInt8) := do
  let (r, m) ← inetAton (ofList 0 (raw ++ [0, 0, 0, 0, 0])) 0 (raw.length + 1)
  if r = 1 then readN m (raw.length + 1) 4 else none

/-- `inner_af_inet` (`src/platform/redox/socket.rs:128-174`). -/
def innerAfInet (m : Mem UInt8) (own : Bool) (buf : List UInt8) (address lenp : Nat) : Option (Mem UInt8) := do
  let parts := split 0x2F buf
  let part ← (if own then parts.tail else parts).head?
  let (raw, rest) ← cutColon part
  let port ← fromStrRadix 16 10 rest
  let a ← atonText raw
  let ret := leBytes 2 AF_INET ++ leBytes 2 (be16 (UInt16.ofNat port)).toNat ++ a ++ [0, 0, 0, 0, 0, 0, 0, 0]
  let n ← (readN m lenp 4).map leValue
  let len := min n 16
  let m ← writeN m address (ret.take len)
  writeN m lenp (leBytes 4 len)

/-- `inner_af_unix` (`src/platform/redox/socket.rs:107-126`). -/
def innerAfUnix (m : Mem UInt8) (buf : List UInt8) (address lenp : Nat) : Option (Mem UInt8) := do
  let m ← writeN m address (leBytes 2 AF_UNIX)
  let len := min 108 buf.length
  let m ← writeN m (address + 2) (buf.take len)
  if len < 108 then do
    let m ← writeN m (address + 2 + len) [0]
    writeN m lenp (leBytes 4 (2 + (len + 1)))
  else writeN m lenp (leBytes 4 (2 + len))

/-- Text as bytes. -/
def text (s : String) : List UInt8 := s.toList.map fun c => UInt8.ofNat c.toNat

/-- `inner_get_name_inner` (`src/platform/redox/socket.rs:176-203`). -/
def innerGetName (m : Mem UInt8) (own : Bool) (address lenp : Nat) (buf : List UInt8) : Option (Except Errno Unit × Mem UInt8) := do
  if (text "tcp:").isPrefixOf buf ∨ (text "udp:").isPrefixOf buf then
    return (.ok (), ← innerAfInet m own (buf.drop 4) address lenp)
  else if (text "/scheme/tcp/").isPrefixOf buf ∨ (text "/scheme/udp/").isPrefixOf buf then
    return (.ok (), ← innerAfInet m own (buf.drop 12) address lenp)
  else if (text "chan:").isPrefixOf buf then
    return (.ok (), ← innerAfUnix m (buf.drop 5) address lenp)
  else if (text "/scheme/chan/").isPrefixOf buf then
    return (.ok (), ← innerAfUnix m (buf.drop 13) address lenp)
  else if (text "/scheme/uds_stream/").isPrefixOf buf then
    return (.ok (), ← innerAfUnix m (buf.drop 18) address lenp)
  else if (text "/scheme/uds_dgram/").isPrefixOf buf then
    return (.ok (), ← innerAfUnix m (buf.drop 17) address lenp)
  else return (.error .ENOTSOCK, m)

/-- `Sys::getpeername` (`src/platform/redox/socket.rs:705-719`); the buffer has 256 bytes. -/
def getpeername (k : Kernel N) (m : Mem UInt8) (fds : Fds N) (socket address lenp : Nat) : Option (Except Errno Unit × Mem UInt8) :=
  match fds socket with
  | none => some (.error .EBADF, m)
  | some f => match k.peer f with
    | .error e => some (.error e, m)
    | .ok buf => innerGetName m false address lenp (buf.take 256)

/-- `Sys::getsockname` (`src/platform/redox/socket.rs:721-730`). -/
def getsockname (k : Kernel N) (m : Mem UInt8) (fds : Fds N) (socket address lenp : Nat) : Option (Except Errno Unit × Mem UInt8) :=
  match fds socket with
  | none => some (.error .EBADF, m)
  | some f => match k.path f with
    | .error e => some (.error e, m)
    | .ok buf => innerGetName m true address lenp (buf.take 256)

/-- `Sys::accept` (`src/platform/redox/socket.rs:540-554`); `slot` is the number of the descriptor which the kernel gives, 0 is NULL. -/
def accept (k : Kernel N) (m : Mem UInt8) (fds : Fds N) (socket address lenp slot : Nat) : Option (Except Errno Nat × Fds N × Mem UInt8) :=
  match fds socket with
  | none => some (.error .EBADF, fds, m)
  | some f => match k.sub f listen with
    | .error e => some (.error e, fds, m)
    | .ok g => do
      let fds' := fds.set slot (some g)
      if address ≠ 0 ∧ lenp ≠ 0 then
        match ← getpeername k m fds' slot address lenp with
        | (.error e, m) => some (.error e, fds'.set slot none, m)
        | (.ok (), m) => some (.ok slot, fds', m)
      else some (.ok slot, fds', m)

end Verif.Socket
