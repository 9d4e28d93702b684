import Verif.Dns.DnsModel

/-!
# Looking up hosts

`src/header/netdb/lookup.rs`, and `getaddrinfo`, `getnameinfo`, `gethostbyname` and `gethostbyaddr` of `src/header/netdb/mod.rs`. Addresses are their four bytes in the order of memory, which is that of the network.
-/

namespace Verif.Lookup
open Verif.Net Verif.Dns

/-! ## `lookup.rs` -/

/-- What `str::trim` removes, of ASCII. -/
def isSpace (b : UInt8) : Bool := b == 0x20 || (9 ≤ b && b ≤ 13)

/-- `str::trim`. -/
def trim (s : List UInt8) : List UInt8 := ((s.dropWhile isSpace).reverse.dropWhile isSpace).reverse

/-- `octet.parse::<u8>().unwrap_or(0)` (`src/header/netdb/lookup.rs:256`). -/
def octet (w : List UInt8) : UInt8 := UInt8.ofNat ((fromStrRadix 8 10 w).getD 0)

/-- `parse_ipv4_string` (`src/header/netdb/lookup.rs:252-270`). -/
def parseIpv4 (s : List UInt8) : Option (List UInt8) :=
  let v := (split 0x2E (trim s)).map octet
  if v.length ≠ 4 then none else some v

/-- What comes back after a query. -/
inductive Reply
  | lost
  | failed
  | packet (bytes : List UInt8)
deriving DecidableEq

/-- The surroundings of one call: the text of the server's address or an error number, the clock, the descriptor of a new socket (`none` = `socket` fails), whether `connect` and `send` succeed, and
what comes back. -/
structure World where
  server : Except Nat (List UInt8)
  nsec : Nat
  socket : Option Nat
  connect : Bool
  send : Bool
  reply : Reply

/-- Errors: `EIO`, `EINVAL`, or that of reading the file with the server's address. -/
inductive Err
  | EIO
  | EINVAL
  | file (e : Nat)
deriving DecidableEq

/-- How a call ends: with a value, an error, a panic, or not at all. -/
inductive Res (α : Type)
  | ok (x : α)
  | err (e : Err)
  | panic
  | hangs
deriving DecidableEq

/-- A call: its end, the packets sent with the address they go to, and the descriptors it leaves open. -/
structure Out (α : Type) where
  res : Res α
  sent : List (List UInt8 × List UInt8)
  leaves : List Nat
deriving DecidableEq

/-- The query (`src/header/netdb/lookup.rs:48-60`, `139-151`). -/
def query (nsec : Nat) (name : List UInt8) (type : UInt16) : List UInt8 :=
  compile { id := UInt16.ofNat (nsec >>> 16), flags := 0x0100, queries := [⟨name, type, 1⟩], answers := [] }

/-- Socket, connection to port 53, sending and receiving (`src/header/netdb/lookup.rs:68-91`, `158-183`). The buffer of 65536 bytes holds every datagram. The socket is never closed. -/
def exchange (w : World) (server packet : List UInt8) : Out (List UInt8) :=
  match w.socket with
  | none => ⟨.err .EIO, [], []⟩
  | some fd =>
    if !w.connect then ⟨.err .EIO, [], [fd]⟩
    else if !w.send then ⟨.err .EIO, [], [fd]⟩
    else match w.reply with
      | .lost => ⟨.hangs, [(server, packet)], [fd]⟩
      | .failed => ⟨.err .EIO, [(server, packet)], [fd]⟩
      | .packet b => ⟨.ok b, [(server, packet)], [fd]⟩

/-- What is done with the result of `Dns::parse` (`src/header/netdb/lookup.rs:93-119`, `185-208`). -/
def respond {α : Type} (o : Out (List UInt8)) (f : List Answer → Res α) : Out α :=
  match o.res with
  | .err e => ⟨.err e, o.sent, o.leaves⟩
  | .panic => ⟨.panic, o.sent, o.leaves⟩
  | .hangs => ⟨.hangs, o.sent, o.leaves⟩
  | .ok data =>
    match parse data with
    | none => ⟨.hangs, o.sent, o.leaves⟩
    | some (.error .panic) => ⟨.panic, o.sent, o.leaves⟩
    | some (.error .err) => ⟨.err .EINVAL, o.sent, o.leaves⟩
    | some (.ok d) => ⟨f d.answers, o.sent, o.leaves⟩

/-- A query to the server (`src/header/netdb/lookup.rs:39-123`, `126-212`). -/
def ask {α : Type} (w : World) (name : List UInt8) (type : UInt16) (f : List Answer → Res α) : Out α :=
  match w.server with
  | .error e => ⟨.err (.file e), [], []⟩
  | .ok s =>
    match parseIpv4 s with
    | none => ⟨.err .EINVAL, [], []⟩
    | some server => respond (exchange w server (query w.nsec name type)) f

/-- `lookup_host` (`src/header/netdb/lookup.rs:31-125`). -/
def lookupHost (w : World) (host : List UInt8) : Out (List (List UInt8)) :=
  match parseIpv4 host with
  | some a => ⟨.ok [a], [], []⟩
  | none => ask w host 1 fun l => .ok ((l.filter fun a => a.atype == 1 && a.aclass == 1 && a.data.length == 4).map (·.data))

/-- The end of the loop of `parse_revdns_answer`. -/
inductive Rev
  | panic
  | short
  | done (out : List UInt8)
deriving DecidableEq

/-- The loop of `parse_revdns_answer` (`src/header/netdb/lookup.rs:224-234`). `cursor` is `index` whenever the loop begins. -/
def revLoop (data out : List UInt8) (index : Nat) : Rev :=
  if index < data.length - 1 then
    let offset := (data.getD index 0).toNat
    if offset > data.length - 1 then .short
    else if index + offset ≥ out.length then .panic
    else revLoop data (out.set (index + offset) 0x2E) (index + offset + 1)
  else .done out
termination_by data.length - 1 - index
decreasing_by omega

/-- `parse_revdns_answer` (`src/header/netdb/lookup.rs:219-250`). `none` = a panic. -/
def revdns (data : List UInt8) : Option (List UInt8) :=
  if data = [] ∨ data.head? = some 0 then some [0]
  else match revLoop data data.tail 0 with
    | .panic => none
    | .short => some [0]
    | .done out => if out = [] then some [0] else some (out.set (out.length - 1) 0)

/-- The names of all answers; `none` = a panic. -/
def revAll : List (List UInt8) → Option (List (List UInt8))
  | [] => some []
  | d :: ds => match revdns d, revAll ds with
    | some n, some ns => some (n :: ns)
    | _, _ => none

/-- The text of a byte. -/
def dec (b : UInt8) : List UInt8 := Stdio.digitsOf 10 false b.toNat

/-- ".in-addr.arpa" -/
def inAddrArpa : List UInt8 := [0x2E, 0x69, 0x6E, 0x2D, 0x61, 0x64, 0x64, 0x72, 0x2E, 0x61, 0x72, 0x70, 0x61]

/-- The name for an address (`src/header/netdb/lookup.rs:129-134`). -/
def revName (a b c d : UInt8) : List UInt8 := dec d ++ [0x2E] ++ dec c ++ [0x2E] ++ dec b ++ [0x2E] ++ dec a ++ inAddrArpa

/-- `lookup_addr` (`src/header/netdb/lookup.rs:127-217`). -/
def lookupAddr (w : World) (a b c d : UInt8) : Out (List (List UInt8)) :=
  ask w (revName a b c d) 12 fun l =>
    match revAll ((l.filter fun a => a.atype == 12 && a.aclass == 1).map (·.data)) with
    | none => .panic
    | some ns => .ok ns

end Verif.Lookup
