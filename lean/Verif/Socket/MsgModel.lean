import Verif.Socket.AddrModel

/-!
# `sendmsg` and `recvmsg` on Redox

`src/platform/redox/socket.rs` and the macros for control messages of `src/header/sys_socket/mod.rs`. A message is handed to the scheme, and
comes back from it, as one stream of bytes; descriptors are handed over by calls of their own.

The scheme is the fields of `Scheme`, with a state of a type `σ`. Addresses do not wrap around, 64-bit targets, memory is not exhausted
(`ENOMEM`). 0 is NULL.
-/

namespace Verif.Socket

open Verif.Mem Verif.Net Verif.Stdlib

/-- Constants (`src/header/sys_socket/constants.rs:34`, `:125`, `:135`, `:147`, `:215`, `:219`). -/
def SOL_SOCKET : Nat := 1
def MSG_CTRUNC : UInt32 := 8
def MSG_TRUNC : UInt32 := 32
def MSG_CMSG_CLOEXEC : UInt32 := 0x40000000
def SCM_RIGHTS : Nat := 1
def SCM_CREDENTIALS : Nat := 2

/-- What the code asks the scheme for the socket. -/
structure Scheme (σ : Type) where
  /-- `sys_call_wo` with `CallFlags::FD`: descriptors are handed over -/
  give : σ → List Nat → Except Errno σ
  /-- `sys_call_ro` with `CallFlags::FD`: so many descriptors are received, with `FD_CLOEXEC` or not -/
  take : σ → Nat → Bool → Except Errno (List Nat × σ)
  /-- `SocketCall::SendMsg` with the flags and the stream -/
  send : σ → UInt32 → List UInt8 → Except Errno σ
  /-- `SocketCall::RecvMsg` with the flags, the sizes of the three buffers and the size of the stream -/
  recv : σ → UInt32 → Nat → Nat → Nat → Nat → Except Errno (List UInt8 × σ)

variable {σ : Type}

/-- `msghdr` (`src/header/sys_socket/mod.rs:33-48`). `iov` is the array of `iovec`s (base and length), empty if `msg_iov` is NULL. Since its
address is passed on, `msg_namelen` is in memory, at `lenp`. -/
structure Msg where
  name : Nat
  lenp : Nat
  iov : List (Nat × Nat)
  control : Nat
  controllen : Nat
  flags : UInt32

/-- A number of `n` bytes in memory. -/
def readInt (m : Mem UInt8) (p n : Nat) : Option Nat := (readN m p n).map leValue

/-! ## Control messages -/

/-- `CMSG_ALIGN` (`src/header/sys_socket/mod.rs:154-156`). -/
def cmsgAlign (n : Nat) : Nat := (n + 7) / 8 * 8

/-- `CMSG_SPACE` (`src/header/sys_socket/mod.rs:160-163`). -/
def cmsgSpace (n : Nat) : Nat := (cmsgAlign (n % 2 ^ 32) + 16) % 2 ^ 32

/-- `CMSG_LEN` (`src/header/sys_socket/mod.rs:167-169`). -/
def cmsgLen (n : Nat) : Nat := (16 + n % 2 ^ 32) % 2 ^ 32

/-- `CMSG_FIRSTHDR` (`src/header/sys_socket/mod.rs:143-151`). -/
def cmsgFirst (msg : Msg) : Nat := if 16 ≤ msg.controllen then msg.control else 0

/-- `CMSG_NXTHDR` (`src/header/sys_socket/mod.rs:124-139`) of a `cmsg` which is not NULL. -/
def cmsgNext (m : Mem UInt8) (msg : Msg) (cmsg : Nat) : Option Nat := do
  let len ← readInt m cmsg 8
  if cmsg + cmsgAlign len + 16 > msg.control + msg.controllen then some 0 else some (cmsg + cmsgAlign len)

/-- `fd as usize` of a `c_int`. -/
def signExtend (v : Nat) : Nat := if v < 2 ^ 31 then v else v + (2 ^ 64 - 2 ^ 32)

/-- The descriptors behind a header. -/
def readFds (m : Mem UInt8) (p : Nat) : Nat → Option (List Nat)
  | 0 => some []
  | n + 1 => do
    let v ← readInt m p 4
    let r ← readFds m (p + 4) n
    some (signExtend v :: r)

/-! ## `sendmsg` -/

/-- The loop of `serialize_payload_to_stream` (`src/platform/redox/socket.rs:236-254`). -/
def gatherIov (m : Mem UInt8) : List (Nat × Nat) → Option (Except Errno (List UInt8))
  | [] => some (.ok [])
  | (base, len) :: r =>
    if len > 0 then
      if base = 0 then some (.error .EFAULT)
      else do
        let l ← readN m base len
        match ← gatherIov m r with
        | .error e => some (.error e)
        | .ok t => some (.ok (l ++ t))
    else gatherIov m r

/-- `whole_iov_size`. -/
def iovSize (iov : List (Nat × Nat)) : Nat := (iov.map (·.2)).sum

/-- What follows level and type of a control message in the stream (`src/platform/redox/socket.rs:278-315`), and the state of the scheme. -/
def sendData (sch : Scheme σ) (m : Mem UInt8) (st : σ) (cmsg len level type : Nat) : Option (Except Errno (List UInt8) × σ) :=
  if level = SOL_SOCKET ∧ type = SCM_RIGHTS then
    if (len - 16) % 4 ≠ 0 then some (.error .EINVAL, st)
    else if (len - 16) / 4 > 0 then do
      let fds ← readFds m (cmsg + 16) ((len - 16) / 4)
      match sch.give st fds with
      | .error e => some (.error e, st)
      | .ok st => some (.ok (leBytes 8 8 ++ leBytes 8 ((len - 16) / 4)), st)
    else some (.ok (leBytes 8 8 ++ leBytes 8 0), st)
  else if level = SOL_SOCKET ∧ type = SCM_CREDENTIALS then some (.ok (leBytes 8 0), st)
  else some (.error .EOPNOTSUPP, st)

/-- The loop of `serialize_ancillary_data_to_stream` (`src/platform/redox/socket.rs:256-319`): the bytes for the stream, and the state of the
scheme. -/
def sendCmsgs (sch : Scheme σ) (m : Mem UInt8) (msg : Msg) (st : σ) (cmsg : Nat) : Option (Except Errno (List UInt8) × σ) :=
  if cmsg = 0 then some (.ok [], st)
  else do
    let len ← readInt m cmsg 8
    let level ← readInt m (cmsg + 8) 4
    let type ← readInt m (cmsg + 12) 4
    if hl : len < 16 then some (.error .EINVAL, st)
    else
      match ← sendData sch m st cmsg len level type with
      | (.error e, st) => some (.error e, st)
      | (.ok data, st) =>
        -- `CMSG_NXTHDR`
        if h : cmsg + cmsgAlign len + 16 > msg.control + msg.controllen then some (.ok (leBytes 4 level ++ leBytes 4 type ++ data), st)
        else
          match ← sendCmsgs sch m msg st (cmsg + cmsgAlign len) with
          | (.error e, st) => some (.error e, st)
          | (.ok rest, st) => some (.ok (leBytes 4 level ++ leBytes 4 type ++ data ++ rest), st)
termination_by msg.control + msg.controllen - cmsg
decreasing_by
  simp only [cmsgAlign] at *
  omega

/-- The payload in the stream (`src/platform/redox/socket.rs:966-972`). -/
def sendPayload (m : Mem UInt8) (msg : Msg) : Option (Except Errno (List UInt8)) :=
  if msg.iov = [] then some (.ok [])
  else do
    match ← gatherIov m msg.iov with
    | .error e => some (.error e)
    | .ok l => some (.ok (leBytes 8 (iovSize msg.iov) ++ l))

/-- The control messages in the stream (`src/platform/redox/socket.rs:262-264`, `:973-976`). -/
def sendControl (sch : Scheme σ) (m : Mem UInt8) (st : σ) (msg : Msg) : Option (Except Errno (List UInt8) × σ) :=
  if msg.controllen > 0 then
    if msg.control = 0 then some (.error .EINVAL, st) else sendCmsgs sch m msg st (cmsgFirst msg)
  else some (.ok [], st)

/-- `Sys::sendmsg` (`src/platform/redox/socket.rs:941-989`): the number of bytes of the payload, and the state of the scheme. -/
def sendmsg (sch : Scheme σ) (m : Mem UInt8) (st : σ) (msg : Msg) (flags : UInt32) : Option (Except Errno Nat × σ) := do
  match ← sendPayload m msg with
  | .error e => some (.error e, st)
  | .ok payload =>
    match ← sendControl sch m st msg with
    | (.error e, st) => some (.error e, st)
    | (.ok control, st) => match sch.send st flags (payload ++ control) with
      | .error e => some (.error e, st)
      | .ok st => some (.ok (iovSize msg.iov), st)

/-! ## `recvmsg` -/

/-- `read_num` (`src/platform/redox/socket.rs:1193-1198`): `EFAULT` if there are not enough bytes. -/
def readNum (n : Nat) (s : List UInt8) : Except Errno Nat := if n ≤ s.length then .ok (leValue (s.take n)) else .error .EFAULT

/-- `deserialize_name_from_stream` (`src/platform/redox/socket.rs:321-352`): what is left of the stream, and the memory. `n` is the value of
`msg_namelen`. -/
def recvName (m : Mem UInt8) (msg : Msg) (n : Nat) (s : List UInt8) : Option (Except Errno (List UInt8) × Mem UInt8) :=
  match readNum 8 s with
  | .error e => some (.error e, m)
  | .ok inStream =>
    let s := s.drop 8
    let len := min inStream n
    if len > 0 then
      if len > s.length then some (.error .EMSGSIZE, m)
      else if inStream > s.length then none
      else if msg.name ≠ 0 ∧ n > 0 then do
        match ← innerGetName m false msg.name msg.lenp (s.take inStream) with
        | (.error e, m) => some (.error e, m)
        | (.ok (), m) => some (.ok (s.drop inStream), m)
      else some (.ok (s.drop inStream), m)
    else do
      let m ← writeN m msg.lenp (leBytes 4 0)
      some (.ok s, m)

/-- The loop of `deserialize_payload_from_stream` (`src/platform/redox/socket.rs:354-406`); `s` is what is left of the payload. -/
def scatterIov (m : Mem UInt8) : List (Nat × Nat) → List UInt8 → Option (Except Errno Nat × Mem UInt8)
  | [], _ => some (.ok 0, m)
  | (base, len) :: r, s =>
    if len = 0 then scatterIov m r s
    else if base = 0 then some (.error .EFAULT, m)
    else if s = [] then some (.ok 0, m)
    else do
      let k := min len s.length
      let m ← writeN m base (s.take k)
      match ← scatterIov m r (s.drop k) with
      | (.error e, m) => some (.error e, m)
      | (.ok t, m) => some (.ok (k + t), m)

/-- `deserialize_payload_from_stream` (`src/platform/redox/socket.rs:354-406`): the number of bytes stored and whether the payload was longer,
what is left of the stream, and the memory. -/
def recvPayload (m : Mem UInt8) (iov : List (Nat × Nat)) (s : List UInt8) : Option (Except Errno (Nat × Bool × List UInt8) × Mem UInt8) :=
  match readNum 8 s with
  | .error e => some (.error e, m)
  | .ok full =>
    let s := s.drop 8
    let len := min full (iovSize iov)
    if len > s.length then none
    else do
      let (r, m) ← if iov ≠ [] ∧ len > 0 then scatterIov m iov (s.take len) else some (.ok 0, m)
      match r with
      | .error e => some (.error e, m)
      | .ok n => some (.ok (n, full > iovSize iov, s.drop len), m)

/-- The state of `deserialize_ancillary_data_from_stream`: the memory, the place for the next header (0 = none), how much is left of the
buffer, how much has been written, `msg_flags`, and the state of the scheme. -/
structure RecvState (σ : Type) where
  mem : Mem UInt8
  cmsg : Nat
  left : Nat
  written : Nat
  flags : UInt32
  st : σ

/-- The data of one control message, from the data in the stream (`src/platform/redox/socket.rs:451-503`), and the state of the scheme. -/
def cmsgData (sch : Scheme σ) (st : σ) (flags : UInt32) (level type : Nat) (data : List UInt8) : Except Errno (List UInt8) × σ :=
  if level = SOL_SOCKET ∧ type = SCM_RIGHTS then
    if data.length ≠ 8 then (.error .EINVAL, st)
    else match sch.take st (leValue data) (flags &&& MSG_CMSG_CLOEXEC == MSG_CMSG_CLOEXEC) with
      | .error e => (.error e, st)
      | .ok (fds, st) => (.ok (fds.flatMap (leBytes 4)), st)
  else if level = SOL_SOCKET ∧ type = SCM_CREDENTIALS then
    if data.length ≠ 12 then (.error .EINVAL, st) else (.ok data, st)
  else (.error .EINVAL, st)

/-- The loop of `deserialize_ancillary_data_from_stream` (`src/platform/redox/socket.rs:425-534`). -/
def recvCmsgs (sch : Scheme σ) (msg : Msg) (flags : UInt32) (x : RecvState σ) (s : List UInt8) : Option (Except Errno Unit × RecvState σ) :=
  if s = [] then some (.ok (), x)
  else if h16 : s.length < 16 then
    some (.ok (), if s.any (· != 0) then { x with flags := x.flags ||| MSG_CTRUNC } else x)
  else
    let level := leValue (s.take 4)
    let type := leValue ((s.drop 4).take 4)
    let len := leValue ((s.drop 8).take 8)
    if len > (s.drop 16).length then some (.ok (), { x with flags := x.flags ||| MSG_CTRUNC })
    else
      let (r, st) := cmsgData sch x.st flags level type ((s.drop 16).take len)
      match r with
      | .error e => some (.error e, { x with st := st })
      | .ok data =>
        let x := { x with st := st }
        if x.cmsg ≠ 0 ∧ x.left ≥ cmsgSpace data.length then do
          let m ← writeN x.mem x.cmsg (leBytes 8 (cmsgLen data.length) ++ leBytes 4 level ++ leBytes 4 type)
          let m ← writeN m (x.cmsg + 16) data
          let aligned := cmsgAlign (cmsgLen data.length)
          let next ← cmsgNext m msg x.cmsg
          recvCmsgs sch msg flags ⟨m, next, x.left - aligned, x.written + aligned, x.flags, st⟩ ((s.drop 16).drop len)
        else some (.ok (), { x with flags := x.flags ||| MSG_CTRUNC })
termination_by s.length
decreasing_by
  simp only [List.length_drop]
  omega

/-- `deserialize_ancillary_data_from_stream` (`src/platform/redox/socket.rs:408-537`): result, `msghdr`, memory, state of the scheme. -/
def recvControl (sch : Scheme σ) (m : Mem UInt8) (st : σ) (msg : Msg) (flags : UInt32) (s : List UInt8) :
    Option (Except Errno Unit × Msg × Mem UInt8 × σ) := do
  let first := if msg.control ≠ 0 ∧ msg.controllen > 0 then cmsgFirst msg else 0
  let (r, x) ← recvCmsgs sch msg flags ⟨m, first, msg.controllen, 0, msg.flags, st⟩ s
  match r with
  | .error e => some (.error e, { msg with flags := x.flags }, x.mem, x.st)
  | .ok () => some (.ok (), { msg with flags := x.flags, controllen := x.written }, x.mem, x.st)

/-- `Sys::recvmsg` (`src/platform/redox/socket.rs:852-939`): the number of bytes stored in the buffers of `msg_iov`, `msghdr`, memory, state of
the scheme. -/
def recvmsg (sch : Scheme σ) (m : Mem UInt8) (st : σ) (msg : Msg) (flags : UInt32) : Option (Except Errno Nat × Msg × Mem UInt8 × σ) := do
  let n ← readInt m msg.lenp 4
  let whole := iovSize msg.iov
  let size := 64 + 8 + n + 8 + whole + 8 + msg.controllen
  match sch.recv st flags n whole msg.controllen size with
  | .error e => some (.error e, msg, m, st)
  | .ok (s, st) => do
    let s := s.take size
    let msg := { msg with flags := 0 }
    match ← recvName m msg n s with
    | (.error e, m) => some (.error e, msg, m, st)
    | (.ok s, m) => match ← recvPayload m msg.iov s with
      | (.error e, m) => some (.error e, msg, m, st)
      | (.ok (count, longer, s), m) => do
        let msg := if longer then { msg with flags := msg.flags ||| MSG_TRUNC } else msg
        if msg.control ≠ 0 ∧ msg.controllen > 0 ∧ s ≠ [] then do
          match ← recvControl sch m st msg flags s with
          | (.error e, msg, m, st) => some (.error e, msg, m, st)
          | (.ok (), msg, m, st) => some (.ok count, msg, m, st)
        else some (.ok count, { msg with controllen := 0 }, m, st)

end Verif.Socket
