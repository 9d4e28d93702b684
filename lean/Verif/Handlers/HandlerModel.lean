/-!
# Functions registered for the end of a program or thread, and for `fork`

`src/cxa.rs`, the cleanup handlers of `src/header/pthread/mod.rs`, `pthread_atfork` and `fork`.

Functions are numbers. Which of them register a function of the same kind while they run is a parameter (`registers`); apart from
this the functions do nothing that is seen here.
-/

namespace Verif.Handlers

/-! ## `__cxa_atexit` -/

/-- `CxaAtExitFunc` (`src/cxa.rs:6-11`). -/
structure CxaFn where
  func : Nat
  arg : Nat
  dso : Nat
deriving DecidableEq

/-- The loop of `__cxa_atexit` that looks for an empty slot, and the push behind it (`src/cxa.rs:42-50`). -/
def fillSlot (entry : CxaFn) : List (Option CxaFn) → List (Option CxaFn)
  | [] => [some entry]
  | none :: l => some entry :: l
  | some x :: l => some x :: fillSlot entry l

/-- `__cxa_atexit` (`src/cxa.rs:25-52`). -/
def cxaAtexit (funcs : List (Option CxaFn)) (func : Option Nat) (arg dso : Nat) : List (Option CxaFn) :=
  match func with
  | none => funcs
  | some func => fillSlot ⟨func, arg, dso⟩ funcs

/-- The loop of `__cxa_finalize` (`src/cxa.rs:60-67`), over the slots from the last to the first: the functions called, in their
order, and the slots that stay, the last one first. `none` = a function that is called registers one: the lock is held meanwhile, so
that it waits forever. -/
def finalizeLoop (registers : Nat → Bool) (dso : Nat) : List (Option CxaFn) → Option (List CxaFn × List (Option CxaFn))
  | [] => some ([], [])
  | none :: l => (finalizeLoop registers dso l).map fun r => (r.1, none :: r.2)
  | some x :: l =>
    if dso = 0 ∨ x.dso = dso then
      if registers x.func then none else (finalizeLoop registers dso l).map fun r => (x :: r.1, none :: r.2)
    else (finalizeLoop registers dso l).map fun r => (r.1, some x :: r.2)

/-- `__cxa_finalize` (`src/cxa.rs:55-75`): the functions called and the slots afterwards. -/
def cxaFinalize (registers : Nat → Bool) (funcs : List (Option CxaFn)) (dso : Nat) : Option (List CxaFn × List (Option CxaFn)) :=
  (finalizeLoop registers dso funcs.reverse).map fun r =>
    (r.1, if dso = 0 then [] else r.2.reverse.filter Option.isSome)

/-! ## `__cxa_thread_atexit_impl` -/

/-- `__cxa_thread_atexit_impl` (`src/cxa.rs:78-85`). -/
def cxaThreadAtexit (dtors : List (Nat × Nat)) (func obj : Nat) : List (Nat × Nat) := dtors ++ [(func, obj)]

/-- `__cxa_thread_finalize` (`src/cxa.rs:88-93`), on the list from its end: what is called. `none` = a function that is called
registers one: the list is borrowed meanwhile, which is a panic. -/
def cxaThreadLoop (registers : Nat → Bool) : List (Nat × Nat) → Option (List (Nat × Nat))
  | [] => some []
  | x :: l => if registers x.1 then none else (cxaThreadLoop registers l).map (x :: ·)

/-- `__cxa_thread_finalize` (`src/cxa.rs:88-93`). -/
def cxaThreadFinalize (registers : Nat → Bool) (dtors : List (Nat × Nat)) : Option (List (Nat × Nat)) :=
  cxaThreadLoop registers dtors.reverse

/-! ## Cleanup handlers -/

/-- `CleanupLinkedListEntry` (`src/header/pthread/mod.rs:319-323`); `prev` = 0 for a null pointer. -/
structure CleanupEntry where
  routine : Nat
  arg : Nat
  prev : Nat
deriving DecidableEq

/-- The entries, by their addresses, and `CLEANUP_LL_HEAD` (`src/header/pthread/mod.rs:325-327`) of a thread. -/
structure CleanupState where
  mem : Nat → Option CleanupEntry
  head : Nat

/-- `__relibc_internal_pthread_cleanup_push` (`src/header/pthread/mod.rs:332-337`), for an entry in which the macro has put routine
and argument. -/
def cleanupPush (s : CleanupState) (addr routine arg : Nat) : CleanupState :=
  { mem := fun a => if a = addr then some ⟨routine, arg, s.head⟩ else s.mem a, head := addr }

/-- `__relibc_internal_pthread_cleanup_pop` (`src/header/pthread/mod.rs:339-346`): what is called. `none` = an address without entry is
read. -/
def cleanupPop (s : CleanupState) (execute : Int32) : Option (List (Nat × Nat) × CleanupState) := do
  let e ← if s.head = 0 then none else s.mem s.head
  pure (if execute ≠ 0 then [(e.routine, e.arg)] else [], { s with head := e.prev })

/-- The loop of `run_destructor_stack` (`src/header/pthread/mod.rs:351-358`): what is called. -/
def destructorLoop (mem : Nat → Option CleanupEntry) (ptr : Nat) : Option (List (Nat × Nat)) :=
  if ptr = 0 then some []
  else do
    let e ← mem ptr
    let l ← destructorLoop mem e.prev
    pure ((e.routine, e.arg) :: l)
partial_fixpoint

/-- `run_destructor_stack` (`src/header/pthread/mod.rs:348-359`): the destructors of thread-local objects, then the cleanup
handlers. -/
def runDestructorStack (registers : Nat → Bool) (dtors : List (Nat × Nat)) (s : CleanupState) : Option (List (Nat × Nat)) := do
  let a ← cxaThreadFinalize registers dtors
  let b ← destructorLoop s.mem s.head
  pure (a ++ b)

/-! ## `pthread_atfork` -/

/-- `fork_hooks` of one thread (`src/header/pthread/mod.rs:96-97`). -/
structure Hooks where
  prepare : List Nat
  parent : List Nat
  child : List Nat
deriving DecidableEq

/-- `pthread_atfork` (`src/header/pthread/mod.rs:144-166`), called by the thread `t`. -/
def pthreadAtfork (hooks : Nat → Hooks) (t : Nat) (prepare parent child : Option Nat) : Nat → Hooks := fun u =>
  if u = t then
    ⟨(hooks t).prepare ++ prepare.toList, (hooks t).parent ++ parent.toList, (hooks t).child ++ child.toList⟩
  else hooks u

/-- `fork` (`src/header/unistd/mod.rs:466-481`), called by the thread `t`: what is called before it, and after it in the process
in which the system call gave `pid`. -/
def fork (hooks : Nat → Hooks) (t : Nat) (pid : Int32) : List Nat × List Nat :=
  ((hooks t).prepare, if pid = 0 then (hooks t).child else if pid ≠ -1 then (hooks t).parent else [])

end Verif.Handlers
