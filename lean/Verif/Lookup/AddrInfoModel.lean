import Verif.Lookup.Model

/-!
# `getaddrinfo`, `freeaddrinfo` and `getnameinfo`

`src/header/netdb/mod.rs:837-1065`. Pointers to results are replaced by what they point to; the boxes that are allocated are counted.
-/

namespace Verif.Lookup
open Verif.Net Verif.Dns

/-- Bit `k` of the flags is set: `flags & (1 << k) > 0`. -/
def has (flags : UInt32) (k : Nat) : Bool := flags.toNat.testBit k

/-- The hints a caller gives (`src/header/netdb/mod.rs:88-97`). -/
structure Hints where
  flags : UInt32
  family : Int
  socktype : Int
  protocol : Int
deriving DecidableEq

/-- `sockaddr_in`: the family, the two bytes of the port and the four of the address in the order of memory. -/
structure SockAddr where
  family : Int
  port : List UInt8
  addr : List UInt8
deriving DecidableEq

/-- `addrinfo` (`src/header/netdb/mod.rs:88-97`); the canonical name without the NUL. -/
structure Info where
  flags : Int
  family : Int
  socktype : Int
  protocol : Int
  addrlen : Nat
  canonname : Option (List UInt8)
  addr : SockAddr
deriving DecidableEq

/-- How a call returns. -/
inductive Ret
  | code (n : Int)
  | panic
  | hangs
deriving DecidableEq

/-- `getaddrinfo`: how it returns, the error number it sets, the list `*res`, the boxes allocated, and the effects of the lookup. -/
structure Gai where
  ret : Ret
  errno : Option Err
  list : List Info
  boxes : Nat
  sent : List (List UInt8 × List UInt8)
  leaves : List Nat
deriving DecidableEq

/-- `htons(port)` in memory. -/
def portBytes (p : Nat) : List UInt8 := [UInt8.ofNat (p / 256), UInt8.ofNat (p % 256)]

/-- The loop over the addresses (`src/header/netdb/mod.rs:900-944`). `canon` is the bit `AI_CANONNAME` of `ai_flags`, which the loop clears. The result is the return value, the list and the number of boxes. -/
def infoLoop (node : Option (List UInt8)) (nodeText : List UInt8) (socktype : Int) (port : Nat) : Bool → List (List UInt8) → List Info → Nat → Int × List Info × Nat
  | _, [], l, n => (0, l, n)
  | canon, a :: as, l, n =>
    if canon && node.isNone then (-1, l, n + 1)
    else infoLoop node nodeText socktype port false as
      (l ++ [⟨0, 2, socktype, 0, 16, if canon then some nodeText else none, ⟨2, portBytes port, a⟩⟩]) (n + (if canon then 3 else 2))

/-- The port of the service (`src/header/netdb/mod.rs:869-876`). -/
def servicePort : Option (List UInt8) → Nat
  | none => 0
  | some s => (fromStrRadix 16 10 s).getD 0

/-- "0.0.0.0" -/
def anyText : List UInt8 := [0x30, 0x2E, 0x30, 0x2E, 0x30, 0x2E, 0x30]

/-- "127.0.0.1" -/
def loopText : List UInt8 := [0x31, 0x32, 0x37, 0x2E, 0x30, 0x2E, 0x30, 0x2E, 0x31]

/-- `getaddrinfo` (`src/header/netdb/mod.rs:837-945`). -/
def getaddrinfo (w : World) (node service : Option (List UInt8)) (hints : Option Hints) : Gai :=
  let flags := (hints.map (·.flags)).getD 0
  let socktype := (hints.map (·.socktype)).getD 0
  let port := servicePort service
  let nodeText := node.getD (if has flags 0 then anyText else loopText)
  let found : Out (List (List UInt8)) :=
    if has flags 2 then
      match parseIpv4 nodeText with
      | some a => ⟨.ok [a], [], []⟩
      | none => ⟨.err .EINVAL, [], []⟩
    else lookupHost w nodeText
  match found.res with
  | .panic => ⟨.panic, none, [], 0, found.sent, found.leaves⟩
  | .hangs => ⟨.hangs, none, [], 0, found.sent, found.leaves⟩
  | .err e => if has flags 2 then ⟨.code (-2), none, [], 0, found.sent, found.leaves⟩ else ⟨.code (-11), some e, [], 0, found.sent, found.leaves⟩
  | .ok as =>
    let (r, l, n) := infoLoop node nodeText socktype port (has flags 1) as [] 0
    ⟨.code r, none, l, n, found.sent, found.leaves⟩

/-- The boxes `freeaddrinfo` frees for one entry, and for a list (`src/header/netdb/mod.rs:1044-1065`). -/
def freeaddrinfo : List Info → Nat
  | [] => 0
  | i :: l => 1 + (if i.canonname.isSome then 1 else 0) + (if i.addrlen = 16 then 1 else 0) + freeaddrinfo l

/-- `getnameinfo`: how it returns, what is written to the front of the two buffers (`none` = nothing), and the effects of the lookup. -/
structure Gni where
  ret : Ret
  host : Option (List UInt8)
  serv : Option (List UInt8)
  sent : List (List UInt8 × List UInt8)
  leaves : List Nat
deriving DecidableEq

/-- A text with a NUL written to a buffer of `cap` bytes, or nothing if the buffer is too small. -/
def put (cap : Nat) (s : List UInt8) : Option (List UInt8) := if cap ≤ s.length then none else some (s ++ [0])

/-- `Ipv4Addr::to_string`. -/
def ipText : List UInt8 → List UInt8
  | [a, b, c, d] => dec a ++ [0x2E] ++ dec b ++ [0x2E] ++ dec c ++ [0x2E] ++ dec d
  | _ => []

/-- `port.to_be().to_string()`. -/
def portText : List UInt8 → List UInt8
  | [h, l] => Stdio.digitsOf 10 false (h.toNat * 256 + l.toNat)
  | _ => []

/-- The part for the host (`src/header/netdb/mod.rs:983-1037`). -/
def nameHost (w : World) (addr : List UInt8) (hostlen : Nat) (flags : UInt32) (serv : Option (List UInt8)) : Gni :=
  if has flags 0 then
    match put hostlen (ipText addr) with
    | none => ⟨.code (-10), none, serv, [], []⟩
    | some b => ⟨.code 0, some b, serv, [], []⟩
  else
    let o := match addr with
      | [a, b, c, d] => lookupAddr w a b c d
      | _ => ⟨.err .EINVAL, [], []⟩
    match o.res with
    | .panic => ⟨.panic, none, serv, o.sent, o.leaves⟩
    | .hangs => ⟨.hangs, none, serv, o.sent, o.leaves⟩
    | .ok (n :: _) =>
      match put hostlen n with
      | none => ⟨.code (-10), none, serv, o.sent, o.leaves⟩
      | some b => ⟨.code 0, some b, serv, o.sent, o.leaves⟩
    | .ok [] => if has flags 3 then ⟨.code (-2), none, serv, o.sent, o.leaves⟩ else ⟨.code 0, none, serv, o.sent, o.leaves⟩
    | .err _ =>
      if has flags 3 then ⟨.code (-2), none, serv, o.sent, o.leaves⟩
      else match put hostlen (ipText addr) with
        | none => ⟨.code (-10), none, serv, o.sent, o.leaves⟩
        | some b => ⟨.code 0, some b, serv, o.sent, o.leaves⟩

/-- The part behind that for the service. -/
def nameRest (w : World) (addr : List UInt8) (host : Option Nat) (flags : UInt32) (serv : Option (List UInt8)) : Gni :=
  match host with
  | some (n + 1) => nameHost w addr (n + 1) flags serv
  | _ => ⟨.code 0, none, serv, [], []⟩

/-- `getnameinfo` (`src/header/netdb/mod.rs:949-1041`): `none` for the address or a buffer is a null pointer, buffers are given by their lengths. -/
def getnameinfo (w : World) (addr : Option SockAddr) (addrlen : Nat) (host serv : Option Nat) (flags : UInt32) : Gni :=
  match addr with
  | none => ⟨.code (-6), none, none, [], []⟩
  | some sa =>
    if addrlen ≠ 16 then ⟨.code (-6), none, none, [], []⟩
    else match serv with
      | some (n + 1) =>
        if has flags 1 then
          match put (n + 1) (portText sa.port) with
          | none => ⟨.code (-10), none, none, [], []⟩
          | some b => nameRest w sa.addr host flags (some b)
        else nameRest w sa.addr host flags (some [0])
      | _ => nameRest w sa.addr host flags none

end Verif.Lookup
