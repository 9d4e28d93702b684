/-!
# The search for programs, and argument lists

`src/header/unistd/path.rs`, `execvp`, `execl`, `execle`, `execlp` with `with_argv` (`src/header/unistd/mod.rs`), and `posix_spawnp`
(`src/header/spawn/mod.rs`). Strings are lists of bytes without their NUL. The system calls are parameters.
-/

namespace Verif.Exec

abbrev Path := List UInt8

def ENOENT : Int32 := 2
def E2BIG : Int32 := 7
def ENOMEM : Int32 := 12

/-- `<[u8]>::split` at a byte. -/
def splitAt (sep : UInt8) : List UInt8 → List (List UInt8)
  | [] => [[]]
  | b :: l =>
    if b = sep then [] :: splitAt sep l
    else match splitAt sep l with
      | [] => [[b]]
      | x :: xs => (b :: x) :: xs

/-- `PathSearchIter` (`src/header/unistd/path.rs:14-48`): all that the iterator gives, without the final NUL. `PATH_MAX` is 4096
(`src/header/limits/mod.rs:21`). -/
def candidates (file pathEnv : Path) : List Path :=
  (splitAt 58 pathEnv).filterMap fun path =>
    if path.length + file.length + 2 > 4096 then none else some (path ++ [47] ++ file)

/-- What an `exec` function does: the process image is replaced, or it returns −1 with an error number. -/
inductive Outcome where
  | replaced (program : Path)
  | failed (errno : Int32)
deriving DecidableEq

/-- `execv` (`src/header/unistd/mod.rs:355-357`), `execve` being a parameter: `none` = the image is replaced, otherwise the error
number. -/
def execv (exec : Path → Option Int32) (p : Path) : Outcome :=
  match exec p with
  | none => .replaced p
  | some e => .failed e

/-- The loop of `execvp` (`src/header/unistd/mod.rs:398-412`), with the error so far. -/
def execLoop (exec : Path → Option Int32) : List Path → Int32 → Outcome
  | [], error => .failed error
  | p :: ps, error =>
    match execv exec p with
    | .replaced p => .replaced p
    | .failed e => execLoop exec ps (if e = ENOENT then error else e)

/-- `execvp` (`src/header/unistd/mod.rs:386-414`); `pathEnv = none`: `PATH` is not set. -/
def execvp (redox : Bool) (exec : Path → Option Int32) (pathEnv : Option Path) (file : Path) : Outcome :=
  if file.contains 47 || (redox && file.contains 58) then execv exec file
  else match pathEnv with
    | none => .failed ENOENT
    | some path => execLoop exec (candidates file path) ENOENT

/-- The loop of `posix_spawnp` (`src/header/spawn/mod.rs:122-138`): `access` says whether a file exists, `spawn` is `posix_spawn`. -/
def spawnLoop (access : Path → Bool) (spawn : Path → β) (noent : β) : List Path → β
  | [] => noent
  | p :: ps => if !access p then spawnLoop access spawn noent ps else spawn p

/-- `posix_spawnp` (`src/header/spawn/mod.rs:105-140`); `noent` is the result `ENOENT`. -/
def posixSpawnp (access : Path → Bool) (spawn : Path → β) (noent : β) (pathEnv : Option Path) (file : Path) : β :=
  if file.contains 47 then spawn file
  else match pathEnv with
    | none => noent
    | some path => spawnLoop access spawn noent (candidates file path)

/-! ## Variable arguments -/

/-- `Iterator::position` of the first null pointer; `none` = reads beyond the arguments. -/
def position : List Nat → Option Nat
  | [] => none
  | p :: l => if p = 0 then some 0 else (position l).map (· + 1)

/-- The loop that fills `out[i..argc]` from the arguments (`src/header/unistd/mod.rs:1442-1444`); gives the remaining arguments. -/
def fill (out : List (Option Nat)) (argc i : Nat) (va : List Nat) : Option (List (Option Nat) × List Nat) :=
  if i < argc then
    match va with
    | [] => none
    | p :: va => fill (out.set i (some p)) argc (i + 1) va
  else some (out, va)
termination_by argc - i

/-- `with_argv` (`src/header/unistd/mod.rs:1412-1457`): the array given to the closure and the arguments that are left, or the
error number; an element that is `none` is not initialised. `va` are the arguments after `arg0`, `malloc` says whether memory is
there. `none` = the behaviour is undefined, or a panic. -/
def withArgv (malloc : Bool) (arg0 : Nat) (va : List Nat) : Option (Except Int32 (List (Option Nat) × List Nat)) := do
  let argc := 1 + (← position va)
  if argc < 32 then finish argc (List.replicate 32 none)
  else if argc < 4096 then
    if !malloc then pure (.error ENOMEM) else finish argc (List.replicate (argc + 1) none)
  else pure (.error E2BIG)
where
  /-- `src/header/unistd/mod.rs:1440-1450`: writing beyond the slice panics. -/
  finish (argc : Nat) (out : List (Option Nat)) : Option (Except Int32 (List (Option Nat) × List Nat)) := do
    let out := out.set 0 (some arg0)
    let r ← fill out argc 1 va
    if argc < r.1.length then
      match r.2 with
      | [] => none
      | _ :: rest => pure (.ok (r.1.set argc (some 0), rest))
    else none

end Verif.Exec
