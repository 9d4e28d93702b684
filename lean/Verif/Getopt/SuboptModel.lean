import Verif.Str.StrModel
/-!
# `getsubopt`

`src/header/stdlib/mod.rs:466-516`, byte by byte in memory. The pointers are not null; `*optionp` and `*valuep` are returned. The array of
keys is the list of its pointers before the null pointer.
-/

namespace Verif.Subopt
open Verif.Mem Verif.Str

/-- The loop to the comma (`src/header/stdlib/mod.rs:483-495`): the new `*optionp`; the comma is overwritten. -/
def cut (m : Mem UInt8) (cursor : Nat) : Option (Nat × Mem UInt8) :=
  match m cursor with
  | none => none
  | some b =>
    if b = 0 then some (cursor, m)
    else if b = 44 then
      match store m cursor 0 with
      | none => none
      | some m => some (cursor + 1, m)
    else cut m (cursor + 1)
partial_fixpoint

/-- The loop over the keys (`src/header/stdlib/mod.rs:497-515`): the value returned and `*valuep`. -/
def tryKeys (m : Mem UInt8) (start : Nat) : List Nat → Nat → Option (Int × Option Nat)
  | [], _ => some (-1, some start)
  | t :: ts, i =>
    match strlen m t with
    | none => none
    | some n =>
      match strncmp m start t n with
      | none => none
      | some c =>
        if c = 0 then
          match m (start + n) with
          | none => none
          | some b =>
            if b = 61 then some (i, some (start + (n + 1)))
            else if b = 0 then some (i, none)
            else tryKeys m start ts (i + 1)
        else tryKeys m start ts (i + 1)

/-- What a call gives: the value returned, `*valuep`, `*optionp`, and memory. -/
structure Sub where
  ret : Int
  value : Option Nat
  option : Nat
  mem : Mem UInt8

/-- `getsubopt` (`src/header/stdlib/mod.rs:466-518`). -/
def getsubopt (m : Mem UInt8) (option : Nat) (keys : List Nat) : Option Sub :=
  match cut m option with
  | none => none
  | some (next, m) =>
    match tryKeys m option keys 0 with
    | none => none
    | some (ret, value) => some ⟨ret, value, next, m⟩

end Verif.Subopt
