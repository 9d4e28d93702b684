import Verif.Users.PwdModel
import Verif.Net.EndianModel
/-!
# The group database

`src/header/grp/mod.rs`, on a 64-bit little-endian machine.

* The contents of `/etc/group` are a list of bytes; the file does not change, and opening and reading it succeed. `valid` says what
  is UTF-8.
* The buffer of an entry is at the address `a`, whether it is allocated or the caller's. Pointers are addresses. `gr_mem` need not
  be aligned (in a build with debug assertions `split` panics then).
* `errno` is left out.
-/

namespace Verif.Users

open Verif.Net

/-- `Lines::next` without the conversion to UTF-8 (`src/io/mod.rs:2008-2023`): the newline is taken off, and a carriage return
before it. -/
def strip (line : List UInt8) : List UInt8 :=
  if line.getLast? = some 0x0A then
    let l := line.dropLast
    if l.getLast? = some 0x0D then l.dropLast else l
  else line

/-- `group` (`src/header/grp/mod.rs:96-107`). -/
structure Grp where
  name : Nat
  passwd : Nat
  gid : Int
  mem : Nat
deriving DecidableEq

/-- `Error` (`src/header/grp/mod.rs:111-119`); what `getgrgid_r` gives `EINVAL` for is one. -/
inductive GErr where
  | range
  | bad
deriving DecidableEq

/-- Bytes put over a part of a slice. -/
def overwrite (buf : List UInt8) (off : Nat) (w : List UInt8) : List UInt8 := buf.take off ++ w ++ buf.drop (off + w.length)

/-- The loop that adjusts `gr_mem` (`src/header/grp/mod.rs:154-162`); `n` turns are left. -/
def adjust (a : Nat) : Nat → Nat → List UInt8 → List UInt8
  | 0, _, buf => buf
  | n + 1, off, buf =>
    let w := leValue ((buf.drop off).take 8)
    if w = 0 then buf else adjust a n (off + 8) (overwrite buf off (leBytes 8 ((w + a) % 2 ^ 64)))

/-- The value of 4 bytes as an `int`. -/
def toInt32 (v : Nat) : Int := if v < 2 ^ 31 then v else (v : Int) - 2 ^ 32

/-- `split` (`src/header/grp/mod.rs:137-170`) with the buffer after it. -/
def splitGrp (a : Nat) (buf : List UInt8) : Option (Grp × List UInt8) :=
  match positions 4 (split 0 (buf.drop 4)) with
  | n :: p :: m :: _ => some (⟨a + n.1, a + p.1, toInt32 (leValue (buf.take 4)), a + m.1⟩, adjust a 4096 m.1 buf)
  | _ => none

/-- The members: parts between commas that are not empty. -/
def members (f : List UInt8) : List (List UInt8) := (split 0x2C f).filter fun m => !m.isEmpty

/-- The loop that fills in the members (`src/header/grp/mod.rs:217-241`). -/
def fill (start : Nat) : Nat → List (List UInt8) → List UInt8 → List UInt8
  | _, [], vec => vec
  | i, m :: ms, vec => fill start (i + 1) ms (overwrite vec (start + i * 8) (leBytes 8 vec.length) ++ m ++ [0])

/-- The first part of `parse_grp` (`src/header/grp/mod.rs:173-243`): `strings`. -/
def grpBytes (redox : Bool) (line : List UInt8) : Option (List UInt8) :=
  match split 0 ((line.map fun b => if b = sep redox then 0 else b) ++ [0]) with
  | name :: passwd :: gid :: f :: _ => do
    let g ← parseInt 32 gid
    let vec := leBytes 4 (g % 2 ^ 32).toNat ++ name ++ [0] ++ passwd ++ [0]
    some (fill vec.length 0 (members f) (vec ++ List.replicate (8 * (members f).length) 0 ++ List.replicate 8 0))
  | _ => none

/-- `OwnedGrp` (`src/header/grp/mod.rs:122-125`). -/
structure OwnedGrp where
  buf : List UInt8
  ref : Grp
deriving DecidableEq

/-- `parse_grp` (`src/header/grp/mod.rs:172-261`), with the destination after it. -/
def parseGrp (redox : Bool) (a : Nat) (line : List UInt8) (dest : Option (List UInt8)) :
    Except GErr OwnedGrp × Option (List UInt8) :=
  match grpBytes redox line with
  | none => (.error .bad, dest)
  | some strings =>
    match dest with
    | none =>
      match splitGrp a strings with
      | some (g, buf) => (.ok ⟨buf, g⟩, none)
      | none => (.error .bad, none)
    | some d =>
      if d.length < strings.length then (.error .range, some d)
      else
        let d := strings ++ d.drop strings.length
        match splitGrp a d with
        | some (g, buf) => (.ok ⟨buf, g⟩, some buf)
        | none => (.error .bad, some d)

/-- What a search ends with. -/
inductive GOut where
  | found (o : OwnedGrp)
  | absent
  | failed (e : GErr)
deriving DecidableEq

/-- The loop of `getgrgid`, `getgrnam`, `getgrgid_r`, `getgrnam_r` (`src/header/grp/mod.rs:274-284,301-320,348-383,407-433`), with
the destination after it. -/
def searchGrp (redox : Bool) (valid : List UInt8 → Bool) (a : Nat) (want : OwnedGrp → Bool) (file : List UInt8)
    (dest : Option (List UInt8)) : GOut × Option (List UInt8) :=
  if h : (readLine file).1 = [] then (.absent, dest)
  else if valid (readLine file).1 = false then (.failed .bad, dest)
  else
    match parseGrp redox a (strip (readLine file).1) dest with
    | (.error e, dest) => (.failed e, dest)
    | (.ok o, dest) => if want o then (.found o, dest) else searchGrp redox valid a want (readLine file).2 dest
termination_by file.length
decreasing_by exact readLine_length file h

/-- `grp.reference.gr_gid == gid`. -/
def hasGid (gid : Int) (o : OwnedGrp) : Bool := o.ref.gid == gid

/-- `strncmp(gr_name, name, min(strlen(gr_name), strlen(name))) == 0` (`src/header/grp/mod.rs:311-317,419-425`). -/
def likeName (a : Nat) (name : List UInt8) (o : OwnedGrp) : Bool :=
  let n := cstr o.buf (o.ref.name - a)
  let k := min n.length name.length
  n.take k == name.take k

/-- `getgrgid`, `getgrnam` (`src/header/grp/mod.rs:269-287,296-323`). -/
def getgr (redox : Bool) (valid : List UInt8 → Bool) (a : Nat) (want : OwnedGrp → Bool) (file : List UInt8) : Option OwnedGrp :=
  match (searchGrp redox valid a want file none).1 with
  | .found o => some o
  | _ => none

/-- What happens to `*result`: it is set to the entry or to NULL, or left alone. -/
inductive Result where
  | entry (g : Grp)
  | null
  | unset
deriving DecidableEq

/-- What `getgrgid_r` and `getgrnam_r` leave behind. -/
structure GReply where
  ret : Int
  result : Result
  buf : List UInt8
deriving DecidableEq

/-- `getgrgid_r` (`src/header/grp/mod.rs:332-387`). -/
def getgrgidR (redox : Bool) (valid : List UInt8 → Bool) (a : Nat) (gid : Int) (file buf : List UInt8) : GReply :=
  match searchGrp redox valid a (hasGid gid) file (some buf) with
  | (.found o, d) => ⟨0, .entry o.ref, d.getD buf⟩
  | (.absent, d) => ⟨0, .null, d.getD buf⟩
  | (.failed .range, d) => ⟨34, .null, d.getD buf⟩
  | (.failed .bad, d) => ⟨22, .null, d.getD buf⟩

/-- `getgrnam_r` (`src/header/grp/mod.rs:396-436`). -/
def getgrnamR (redox : Bool) (valid : List UInt8 → Bool) (a : Nat) (name file buf : List UInt8) : GReply :=
  match searchGrp redox valid a (likeName a name) file (some buf) with
  | (.found o, d) => ⟨0, .entry o.ref, d.getD buf⟩
  | (.absent, d) => ⟨2, .unset, d.getD buf⟩
  | (.failed _, d) => ⟨22, .unset, d.getD buf⟩

/-- `getgrent` (`src/header/grp/mod.rs:445-471`) with the value of `LINE_READER`. -/
def getgrent (redox : Bool) (valid : List UInt8 → Bool) (a : Nat) (file : List UInt8) (reader : Option (List UInt8)) :
    Option OwnedGrp × Option (List UInt8) :=
  let r := reader.getD file
  let line := (readLine r).1
  if line = [] then (none, some (readLine r).2)
  else if valid line = false then (none, some (readLine r).2)
  else
    match (parseGrp redox a (strip line) none).1 with
    | .ok o => (some o, some (readLine r).2)
    | .error _ => (none, some (readLine r).2)

/-- `setgrent` (`src/header/grp/mod.rs:492-498`). -/
def setgrent (file : List UInt8) (_ : Option (List UInt8)) : Option (List UInt8) := some file

/-- `endgrent` (`src/header/grp/mod.rs:479-483`). -/
def endgrent (_ : Option (List UInt8)) : Option (List UInt8) := none

/-- ASCII white space, for `trim`; other white space of Unicode is left out. -/
def isSpace (b : UInt8) : Bool := b == 0x20 || (0x09 ≤ b && b ≤ 0x0D)

/-- `trim`. -/
def trim (s : List UInt8) : List UInt8 := ((s.dropWhile isSpace).reverse.dropWhile isSpace).reverse

/-- The loop of `getgrouplist` (`src/header/grp/mod.rs:529-558`): the groups found; no result: a panic; an error: a line is not
UTF-8. The count does not overflow. -/
def groupLoop (redox : Bool) (valid : List UInt8 → Bool) (user file : List UInt8) : Option (Except (List Int) (List Int)) :=
  if h : (readLine file).1 = [] then some (.ok [])
  else if valid (readLine file).1 = false then some (.error [])
  else
    let parts := split (sep redox) (strip (readLine file).1)
    match parseInt 32 ((parts[2]?).getD [0x2D, 0x31]) with
    | none => none
    | some gid =>
      let add (rest : List Int) := if ((split 0x2C ((parts[3]?).getD [])).map trim).contains user then gid :: rest else rest
      match groupLoop redox valid user (readLine file).2 with
      | none => none
      | some (.error rest) => some (.error (add rest))
      | some (.ok rest) => some (.ok (add rest))
termination_by file.length
decreasing_by exact readLine_length file h

/-- What `getgrouplist` leaves behind: the return value, `*ngroups`, the array. -/
structure GList where
  ret : Int
  n : Nat
  groups : List Int
deriving DecidableEq

/-- `getgrouplist` (`src/header/grp/mod.rs:506-569`) with `groups` what the array holds. -/
def getgrouplist (redox : Bool) (valid : List UInt8 → Bool) (file user : List UInt8) (_group : Int) (groups : List Int) : Option GList :=
  if valid user = false then some ⟨0, groups.length, groups⟩
  else
    match groupLoop redox valid user file with
    | none => none
    | some (.error l) => some ⟨0, groups.length, l.take groups.length ++ groups.drop l.length⟩
    | some (.ok l) =>
      some ⟨if groups.length < l.length then -1 else l.length, l.length,
            l.take groups.length ++ groups.drop l.length⟩

/-- `initgroups` (`src/header/grp/mod.rs:577-584`): the list given to `setgroups`; no list: it is not called. -/
def initgroups (redox : Bool) (valid : List UInt8 → Bool) (file user : List UInt8) (gid : Int) : Option (Option (List Int)) :=
  match getgrouplist redox valid file user gid (List.replicate 65536 0) with
  | none => none
  | some r => some (if r.ret < 0 then none else some (r.groups.take r.n))

end Verif.Users
