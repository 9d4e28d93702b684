import Verif.Users.GrpModel
/-!
# `getgroups`

`src/platform/redox/mod.rs:581-627`, `src/header/unistd/mod.rs:589-603`. Both files can be opened, and do not change. The number of
groups fits an `int`.
-/

namespace Verif.Users

open Verif.Net

/-- The loop over the members (`src/platform/redox/mod.rs:600-610`), of at most so many turns, from an offset of the entry's buffer,
which is at the address `a`. -/
def hasMember (a : Nat) (buf user : List UInt8) : Nat → Nat → Bool
  | 0, _ => false
  | n + 1, off =>
    let w := leValue ((buf.drop off).take 8)
    if w = 0 then false
    else if cstr buf (w - a) = user then true
    else hasMember a buf user n (off + 8)

/-- The loop over the groups (`src/platform/redox/mod.rs:599-619`), of at most so many turns: the ids found. The offset and the
number of turns for the members are of the entry. -/
def groupsOf (redox : Bool) (valid : List UInt8 → Bool) (a : Nat) (file user : List UInt8) : Nat → Option (List UInt8) → List Int
  | 0, _ => []
  | n + 1, reader =>
    match getgrent redox valid a file reader with
    | (none, _) => []
    | (some o, reader) =>
      if hasMember a o.buf user o.buf.length (o.ref.mem - a) then o.ref.gid :: groupsOf redox valid a file user n reader
      else groupsOf redox valid a file user n reader

/-- What `getgroups` leaves behind: the value returned or `errno`, the array, and `LINE_READER` of `getgrent`. -/
structure GroupsReply where
  ret : Except Int Int
  list : List Int
  reader : Option (List UInt8)

/-- `getgroups` with an array of the size given, or a negative size (`src/header/unistd/mod.rs:589-603`,
`src/platform/redox/mod.rs:581-627`). A file has no more lines than bytes. -/
def getgroups (redox : Bool) (valid : List UInt8 → Bool) (a : Nat) (passwd group : List UInt8) (euid : Int) (size : Int) (list : List Int)
    (reader : Option (List UInt8)) : GroupsReply :=
  if size < 0 then ⟨.error 22, list, reader⟩
  else
    match getpw redox (hasUid euid) passwd with
    | none => ⟨.error 2, list, reader⟩
    | some o =>
      let gids := groupsOf redox valid a group (cstr o.buf o.ref.name) (group.length + 1) (setgrent group reader)
      let out := gids.take size.toNat ++ list.drop gids.length
      if size ≠ 0 ∧ (gids.length : Int) > size then ⟨.error 22, out, endgrent (some [])⟩
      else ⟨.ok gids.length, out, endgrent (some [])⟩

end Verif.Users
