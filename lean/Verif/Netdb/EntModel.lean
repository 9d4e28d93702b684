import Verif.Netdb.RlbModel
/-!
# The databases of hosts, networks, protocols and services

`src/header/netdb/mod.rs` (`getnetent`, `getprotoent`, `getservent` and relatives), `src/header/netdb/host.rs`.

* The four copies of the code differ in which lines they take for entries, in whether a successful `get…ent` closes the
  file, and in what `set…ent` does with a closed file. These are the fields of `Kind`.
* An entry is given by the fields of its line, in order: the strings the returned structure points to are these. The
  conversion of numbers and addresses (`atoi`, `inet_aton`) is not part of it.
* Lines are ASCII (`bytes_to_box_str` turns others into empty ones, `:181-183`; `split_whitespace` knows more spaces).
* Opening the file succeeds, and a descriptor is not 0.
* Outer `none` = a panic, or the call does not return.
-/

namespace Verif.Netdb
open Verif.Stdio

/-- `char::is_whitespace` on ASCII. -/
def isSpace (b : UInt8) : Bool := b == 32 || (9 ≤ b && b ≤ 13)

/-- The loop of `fields`; `acc` is the field being read, backwards. -/
def fieldsAux (acc : List UInt8) : List UInt8 → List (List UInt8)
  | [] => if acc = [] then [] else [acc.reverse]
  | b :: t =>
    if isSpace b then if acc = [] then fieldsAux [] t else acc.reverse :: fieldsAux [] t
    else fieldsAux (b :: acc) t

/-- `str::split_whitespace`. -/
def fields (l : List UInt8) : List (List UInt8) := fieldsAux [] l

/-- One of the four databases. -/
structure Kind where
  /-- The line is an entry. -/
  accept : List UInt8 → Bool
  /-- An `unwrap` fails for the entry. -/
  panics : List UInt8 → Bool
  /-- A successful `get…ent` closes the file unless it is to stay open. -/
  closes : Bool
  /-- `set…ent` sets the position to 0 also if the file was closed. -/
  rewinds : Bool

/-- The condition of the loop (`src/header/netdb/mod.rs:460`, `:579`, `host.rs:64`): not empty, not blank, no `#` in front. -/
def notComment (l : List UInt8) : Bool := !(l = [] || fields l = [] || l.head? = some 35)

/-- `gethostent`, `sethostent` (`src/header/netdb/host.rs:46-132`). The second `unwrap` (`:93`) fails if there is only one
field. -/
def hosts : Kind := ⟨notComment, fun l => (fields l).length < 2, true, true⟩

/-- `getnetent`, `setnetent` (`src/header/netdb/mod.rs:449-510`, `:801-809`); a successful call does not close. -/
def networks : Kind := ⟨notComment, fun l => (fields l).length < 2, false, false⟩

/-- `getprotoent`, `setprotoent` (`src/header/netdb/mod.rs:570-634`, `:813-821`). -/
def protocols : Kind := ⟨notComment, fun l => (fields l).length < 2, true, false⟩

/-- `getservent`, `setservent` (`src/header/netdb/mod.rs:702-797`, `:825-833`): an entry has a second field with a slash. -/
def services : Kind :=
  ⟨fun l => match fields l with
    | _ :: p :: _ => p.contains 47
    | _ => false, fun _ => false, true, false⟩

/-- The static variables: the descriptor, which is that of an open file or not (`NETDB`, ...), the position (`N_POS`,
...) and `NET_STAYOPEN`, .... -/
structure Db where
  k : Kernel
  isOpen : Bool
  pos : Nat
  stayopen : Bool

/-- The file opened if it is not. -/
def Db.ensure (d : Db) : Db := if d.isOpen then d else { d with isOpen := true, k := { d.k with pos := 0 } }

/-- `end…ent` (`src/header/netdb/mod.rs:187-204`, `host.rs:38-43`): the position stays. -/
def Db.finish (d : Db) : Db := { d with isOpen := false }

/-- `set…ent` (`src/header/netdb/mod.rs:801-833`, `host.rs:46-53`). -/
def Db.set (t : Kind) (d : Db) (stayopen : Bool) : Db :=
  let d := { d with stayopen }
  if d.isOpen = false then
    let d := d.ensure
    if t.rewinds then { d with pos := 0 } else d
  else { d with k := (d.k.lseek 0 0).2, pos := 0 }

/-- The loop that finds the next entry (`src/header/netdb/mod.rs:460-470`, `:579-589`, `:710-741`, `host.rs:64-74`);
`none` inside = an error or the end. -/
def findEntry (t : Kind) (r : RLB) : Option (Option (List UInt8) × RLB) := do
  match ← r.next with
  | (.some l, r) => if t.accept l then some (some l, r) else findEntry t r
  | (_, r) => some (none, r)
partial_fixpoint

/-- `get…ent` (`src/header/netdb/mod.rs:449-510`, `:570-634`, `:702-797`, `host.rs:56-132`). -/
def Db.get (t : Kind) (d : Db) : Option (Option (List (List UInt8)) × Db) := do
  let d := d.ensure
  let r := ((RLB.new d.k).seek d.pos).2
  match ← findEntry t r with
  | (none, r) =>
    let d := { d with k := r.k }
    some (none, if d.stayopen then d else d.finish)
  | (some l, r) => do
    let (_, r) ← r.next
    let d := { d with k := r.k, pos := r.linePos }
    if t.panics l then none
    else some (some (fields l), if t.closes && !d.stayopen then d.finish else d)

/-- The loop of the searching functions. -/
def Db.search (t : Kind) (want : List (List UInt8) → Bool) (d : Db) : Option (Option (List (List UInt8)) × Db) := do
  match ← d.get t with
  | (none, d) => some (none, d)
  | (some e, d) => if want e then some (some e, d) else Db.search t want d
partial_fixpoint

/-- `getnetbyname` (`src/header/netdb/mod.rs:429-445`), `getprotobynumber` (`:551-566`), `getservbyname` (`:638-667`),
`getservbyport` (`:671-698`), and the search of the file in `gethostbyname` (`:358-381`); `want` compares names, numbers or
protocols. (When `gethostbyname` finds nothing it asks the name server, which is left out, instead of calling
`sethostent` once more.) -/
def Db.lookup (t : Kind) (want : List (List UInt8) → Bool) (d : Db) : Option (Option (List (List UInt8)) × Db) := do
  let (e, d) ← Db.search t want (d.set t d.stayopen)
  some (e, d.set t d.stayopen)

/-- The loop of `getprotobyname` (`src/header/netdb/mod.rs:517-541`): once the name and all aliases of an entry are
compared in vain, `setprotoent` is called. -/
def Db.protoSearch (want : List (List UInt8) → Bool) (d : Db) : Option (Option (List (List UInt8)) × Db) := do
  match ← d.get protocols with
  | (none, d) => some (none, d)
  | (some e, d) => if want e then some (some e, d) else Db.protoSearch want (d.set protocols d.stayopen)
partial_fixpoint

/-- `getprotobyname` (`src/header/netdb/mod.rs:514-547`). -/
def Db.protoByName (want : List (List UInt8) → Bool) (d : Db) : Option (Option (List (List UInt8)) × Db) := do
  let (e, d) ← Db.protoSearch want (d.set protocols d.stayopen)
  some (e, d.set protocols d.stayopen)

end Verif.Netdb
