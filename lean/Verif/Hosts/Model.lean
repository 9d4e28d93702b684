import Verif.Netdb.EntModel
import Verif.Lookup.Model
import Verif.Net.InetModel
import Verif.Ctype.Model
/-!
# `gethostbyname`, `gethostbyaddr`

`src/header/netdb/mod.rs`, on top of the file of hosts (`Verif/Netdb`) and of the queries to the name server (`Verif/Lookup`).

* Names are ASCII, so `from_utf8` succeeds.
* A pointer that is returned is given by the bytes from there to the end of the block it points into.
-/

namespace Verif.Hosts
open Verif.Mem Verif.Netdb Verif.Net

/-- What `h_aliases` points to: strings, or an array that was freed before the function returned. -/
inductive Aliases
  | strings (l : List (List UInt8))
  | freed
deriving DecidableEq

/-- `hostent` (`src/header/netdb/mod.rs:52-58`). -/
structure Hostent where
  name : List UInt8
  aliases : Aliases
  addrtype : Int
  length : Nat
  addr : List UInt8
deriving DecidableEq

/-- `h_errno`. -/
inductive HErr
  | HOST_NOT_FOUND
  | NO_RECOVERY
deriving DecidableEq

/-- How a call ends; `broken` = with a panic or never. -/
inductive Res
  | null (e : HErr)
  | entry (h : Hostent)
  | broken
deriving DecidableEq

/-- A call: its end, and the packets it sent. -/
structure Out where
  res : Res
  sent : List (List UInt8 × List UInt8)
deriving DecidableEq

/-- The file, the name server, and what uninitialised memory holds. -/
structure World where
  db : Db
  dns : Lookup.World
  junk : List UInt8

def AF_INET : Int := 2

/-- `strcasecmp(a, b) == 0`, of two strings with a NUL behind each. -/
def same (a b : List UInt8) : Bool := Ctype.strcasecmp (ofList 0 (a ++ [0] ++ (b ++ [0]))) 0 (a.length + 1) == some 0

/-- The address of a line (`src/header/netdb/host.rs:81-85`): `inet_aton` into uninitialised memory, the result ignored. -/
def aton (junk w : List UInt8) : List UInt8 :=
  match inetAton (ofList 0 (w ++ [0] ++ junk)) 0 (w.length + 1) with
  | none => junk
  | some (_, m) => (readN m (w.length + 1) 4).getD junk

/-- The entry for the fields of a line (`src/header/netdb/host.rs:78-127`). With fewer than two fields `gethostent` has panicked. -/
def ofFields (junk : List UInt8) (f : List (List UInt8)) : Hostent :=
  ⟨f.getD 1 [] ++ [0], .strings ((f.drop 2).map (· ++ [0])), AF_INET, 4, aton junk (f.headD [])⟩

/-- The search in the file (`src/header/netdb/mod.rs:247-276`, `359-383`). -/
def inFile (w : World) (want : List (List UInt8) → Bool) : Option (Option (List (List UInt8))) :=
  (Db.search hosts want (w.db.set hosts w.db.stayopen)).map (·.1)

/-- `gethostbyaddr` (`src/header/netdb/mod.rs:227-316`), of the address `a.b.c.d`. -/
def byAddr (w : World) (a b c d : UInt8) (length : Nat) (format : Int) : Out :=
  if length ≠ 4 then ⟨.null .NO_RECOVERY, []⟩
  else match inFile w fun f => aton w.junk (f.headD []) == [a, b, c, d] with
    | none => ⟨.broken, []⟩
    | some (some f) => ⟨.entry (ofFields w.junk f), []⟩
    | some none =>
      let o := Lookup.lookupAddr w.dns a b c d
      match o.res with
      | .ok (n :: _) => ⟨.entry ⟨n, .freed, format, length, [a, b, c, d]⟩, o.sent⟩
      | .ok [] => ⟨.null .HOST_NOT_FOUND, o.sent⟩
      | .err _ => ⟨.null .NO_RECOVERY, o.sent⟩
      | _ => ⟨.broken, o.sent⟩

/-- `gethostbyname` (`src/header/netdb/mod.rs:336-419`). -/
def byName (w : World) (name : List UInt8) : Out :=
  match Lookup.parseIpv4 name with
  | some [a, b, c, d] => byAddr w a b c d 4 AF_INET
  | _ => match inFile w fun f => (f.drop 1).any fun x => same x name with
    | none => ⟨.broken, []⟩
    | some (some f) => ⟨.entry (ofFields w.junk f), []⟩
    | some none =>
      let o := Lookup.lookupHost w.dns name
      match o.res with
      | .ok (a :: _) => ⟨.entry ⟨name, .freed, AF_INET, 4, a⟩, o.sent⟩
      | .ok [] => ⟨.null .HOST_NOT_FOUND, o.sent⟩
      | .err _ => ⟨.null .NO_RECOVERY, o.sent⟩
      | _ => ⟨.broken, o.sent⟩

end Verif.Hosts
