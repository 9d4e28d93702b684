import Verif.Str.StrModel
import Verif.Stdlib.SortModel
/-!
# The environment: `getenv`, `setenv`, `putenv`, `unsetenv`

Strings live in a byte memory; the pointer table `environ` is modelled as a list of cells, apart from the strings.
Pointers are addresses, 0 is NULL. `platform::alloc` is a parameter: the address it returned.
-/

namespace Verif.Stdlib
open Verif.Mem Verif.Str

/-- Where `environ` points (`src/platform/mod.rs:54`): nowhere, into `OUR_ENVIRON`, or to some other table (the
initial one, or one the program assigned), given by its cells. -/
inductive Environ where
  | null
  | ours
  | other (cells : List Nat)
deriving DecidableEq

/-- Memory, `environ`, and the contents of the vector `OUR_ENVIRON` (`src/platform/mod.rs:54-56`). -/
structure EnvSt where
  mem : Mem UInt8
  environ : Environ
  vec : List Nat

/-- The cells at `environ`. -/
def EnvSt.cells (σ : EnvSt) : List Nat :=
  match σ.environ with
  | .null => []
  | .ours => σ.vec
  | .other c => c

/-- `environ_iter` (`src/platform/mod.rs:58-77`): the pointers up to the first NULL. (The model also stops at the
end of the table, should the NULL be missing.) -/
def environIter (σ : EnvSt) : List Nat := σ.cells.takeWhile (· ≠ 0)

/-- `environ.add(i).write(ptr)`. -/
def EnvSt.setCell (σ : EnvSt) (i p : Nat) : EnvSt :=
  match σ.environ with
  | .null => σ
  | .ours => { σ with vec := σ.vec.set i p }
  | .other c => { σ with environ := .other (c.set i p) }

/-- The inner loop of `find_env` (`src/header/stdlib/mod.rs:428-451`), on one item: where the value starts, if the
name is the one searched for. -/
def matchItem (m : Mem UInt8) (item search : Nat) : Option (Option Nat) := do
  let s ← m search
  let endOfQuery : Bool := s = 0 || s = 61
  let c ← m item
  if c = 0 then some none
  else if c = 61 || endOfQuery then
    if c = 61 && endOfQuery then some (some (item + 1)) else some none
  else if c ≠ s then some none
  else matchItem m (item + 1) (search + 1)
partial_fixpoint

/-- The outer loop of `find_env`. -/
def findLoop (m : Mem UInt8) (search : Nat) : List Nat → Nat → Option (Option (Nat × Nat))
  | [], _ => some none
  | item :: rest, i => do
    match ← matchItem m item search with
    | some v => some (some (i, v))
    | none => findLoop m search rest (i + 1)

/-- `find_env` (`src/header/stdlib/mod.rs:425-455`). -/
def findEnv (σ : EnvSt) (search : Nat) : Option (Option (Nat × Nat)) := findLoop σ.mem search (environIter σ) 0

/-- `getenv` (`src/header/stdlib/mod.rs:459-463`). -/
def getenv (σ : EnvSt) (name : Nat) : Option Nat := do
  match ← findEnv σ name with
  | some (_, v) => some v
  | none => some 0

/-- `put_new_env` (`src/header/stdlib/mod.rs:1029-1050`). The `unwrap` panics on an empty vector. -/
def putNewEnv (σ : EnvSt) (insert : Nat) : Option EnvSt :=
  match σ.environ with
  | .ours =>
    if σ.vec = [] then none else some { σ with vec := σ.vec.dropLast ++ [insert] ++ [0] }
  | _ => some { σ with vec := environIter σ ++ [insert] ++ [0], environ := .ours }

/-- `putenv` (`src/header/stdlib/mod.rs:1054-1065`). -/
def putenv (σ : EnvSt) (insert : Nat) : Option (EnvSt × Int) :=
  if insert = 0 then none
  else do
    match ← findEnv σ insert with
    | some (i, _) => some (σ.setCell i insert, 0)
    | none =>
      let σ ← putNewEnv σ insert
      some (σ, 0)

/-- `copy_kv` (`src/header/stdlib/mod.rs:1290-1301`). `copy_nonoverlapping` of `n` bytes reads `n` bytes and writes
them. -/
def copyKv (m : Mem UInt8) (existing key value keyLen valueLen : Nat) : Option (Mem UInt8) := do
  let k ← readN m key keyLen
  let m ← writeN m existing k
  let m ← store m (existing + keyLen) 61
  let v ← readN m value valueLen
  let m ← writeN m (existing + keyLen + 1) v
  store m (existing + keyLen + 1 + valueLen) 0

/-- `setenv` (`src/header/stdlib/mod.rs:1305-1346`). `new` is the address returned by `platform::alloc`. -/
def setenv (σ : EnvSt) (new key value : Nat) (overwrite : Int32) : Option (EnvSt × Int) := do
  let keyLen ← strlen σ.mem key
  let valueLen ← strlen σ.mem value
  match ← findEnv σ key with
  | some (i, existing) =>
    if overwrite = 0 then some (σ, 0)
    else do
      let existingLen ← strlen σ.mem existing
      if existingLen ≥ valueLen then do
        let v ← readN σ.mem value valueLen
        let m ← writeN σ.mem existing v
        let m ← store m (existing + valueLen) 0
        some ({ σ with mem := m }, 0)
      else do
        let m ← copyKv σ.mem new key value keyLen valueLen
        some ({ σ with mem := m }.setCell i new, 0)
  | none => do
    let m ← copyKv σ.mem new key value keyLen valueLen
    let σ ← putNewEnv { σ with mem := m } new
    some (σ, 0)

/-- `unsetenv` (`src/header/stdlib/mod.rs:1693-1723`). -/
def unsetenv (σ : EnvSt) (key : Nat) : Option (EnvSt × Int) := do
  match ← findEnv σ key with
  | some (i, _) =>
    match σ.environ with
    | .ours => some ({ σ with vec := σ.vec.eraseIdx i }, 0)
    | _ => some ({ σ with vec := (environIter σ).eraseIdx i ++ [0], environ := .ours }, 0)
  | none => some (σ, 0)

end Verif.Stdlib
