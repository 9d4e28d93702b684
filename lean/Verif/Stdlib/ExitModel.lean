/-!
# `atexit`, `at_quick_exit`, `exit`, `quick_exit`

Handlers are abstract values of a type `F`. A handler may register further handlers while it runs; `reg f` is the list
of arguments with which `f` calls the registration function. Other effects of handlers are not modelled; nor are
handlers that do not return.
-/

namespace Verif.Stdlib

variable {F : Type}

/-- `ATEXIT_FUNCS` or `AT_QUICK_EXIT_FUNCS` (`src/header/stdlib/mod.rs:62-63`): a table of 32 slots. -/
abbrev Slots (F : Type) := List (Option F)

/-- The initial table. -/
def Slots.init : Slots F := List.replicate 32 none

/-- `atexit` and `at_quick_exit` (`src/header/stdlib/mod.rs:161-183`): the two differ only in the table. -/
def atexit (s : Slots F) (func : Option F) : Slots F × Int :=
  match s with
  | [] => ([], 1)
  | none :: s => (func :: s, 0)
  | some f :: s =>
    let r := atexit s func
    (some f :: r.1, r.2)

/-- What a handler does to the table. -/
def runHandler (reg : F → List (Option F)) (f : F) (s : Slots F) : Slots F :=
  (reg f).foldl (fun s g => (atexit s g).1) s

/-- The loop of `exit` and `quick_exit` (`src/header/stdlib/mod.rs:368-372`, `:1104-1108`) over the slots below `i`,
downwards; the handlers invoked, in order. The slots are read when their turn comes. -/
def exitLoop (reg : F → List (Option F)) : Nat → Slots F → List F
  | 0, _ => []
  | i + 1, s =>
    match s[i]? with
    | some (some f) => f :: exitLoop reg i (runHandler reg f s)
    | _ => exitLoop reg i s

/-- What `exit` and `quick_exit` do, in order. -/
inductive ExitEvent (F : Type) where
  | call (f : F)
  | ldsoFini
  | terminateThreads
  | flushStreams
  | sysExit (status : Int)
deriving DecidableEq

/-- `exit` (`src/header/stdlib/mod.rs:362-389`). `fini` is the contents of the array between `__fini_array_start` and
`__fini_array_end`. -/
def exit (reg : F → List (Option F)) (s : Slots F) (fini : List F) (status : Int) : List (ExitEvent F) :=
  (exitLoop reg s.length s).map .call ++ fini.reverse.map .call
    ++ [.ldsoFini, .terminateThreads, .flushStreams, .sysExit status]

/-- `quick_exit` (`src/header/stdlib/mod.rs:1103-1111`). -/
def quickExit (reg : F → List (Option F)) (s : Slots F) (status : Int) : List (ExitEvent F) :=
  (exitLoop reg s.length s).map .call ++ [.sysExit status]

end Verif.Stdlib
