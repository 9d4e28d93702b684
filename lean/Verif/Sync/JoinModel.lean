import Verif.Conc.Basic

/-!
# Model of thread exit, `pthread_join` and `pthread_detach`
(`src/pthread/mod.rs`, `src/sync/waitval.rs`)

One target thread; any number of joiners `J` and detachers. Sequentially consistent interleavings, one step per
access to the shared control block (`Pthread`, which contains the `Waitval`). `V` is the type of return values.
On Redox `dealloc_thread` unmaps the block (`src/pthread/mod.rs:339-352`); `freed` counts that.
-/

namespace Verif.Sync.Join
open Verif.Conc

inductive TPC
  /-- the start routine, cleanup handlers and key destructors are running -/
  | running
  /-- about to load the flags (`src/pthread/mod.rs:318`) -/
  | exit
  /-- detached: about to `dealloc_thread` (`src/pthread/mod.rs:321`) -/
  | dealloc
  /-- `post`: about to write the value (`src/sync/waitval.rs:30`) -/
  | write
  /-- about to `state.store(1)` (`src/sync/waitval.rs:31`) -/
  | store
  /-- about to `futex_wake(&state)` (`src/sync/waitval.rs:32`) -/
  | wake
  /-- no further access to the control block -/
  | gone
  deriving DecidableEq

inductive JPC (V : Type)
  | idle
  /-- about to load the state (`src/sync/waitval.rs:36`) -/
  | load
  /-- loaded 0; about to `futex_wait(state, 0)` (`src/sync/waitval.rs:37`) -/
  | fwait
  | sleeping
  /-- loaded 1; about to read the value (`src/sync/waitval.rs:40`, `src/pthread/mod.rs:268`) -/
  | read
  /-- about to `dealloc_thread` (`src/pthread/mod.rs:274`) -/
  | dealloc (v : Option V)
  /-- returned; `none` is an uninitialised value -/
  | ret (v : Option V)
  deriving DecidableEq

structure State (V J : Type) where
  /-- `Waitval::state` -/
  word : Nat
  /-- `Waitval::value`; `none` = uninitialised -/
  value : Option V
  /-- the DETACHED flag (`src/pthread/mod.rs:66-70`) -/
  detached : Bool
  tpc : TPC
  pc : J → JPC V
  /-- ghost: what the start routine returned (or `pthread_exit` was given) -/
  result : Option V
  /-- ghost: how many times the control block was deallocated -/
  freed : Nat

def wakeAll {V J : Type} (pc : J → JPC V) : J → JPC V :=
  fun j => match pc j with
    | .sleeping => .load
    | p => p

inductive Step {V J : Type} [DecidableEq J] : State V J → State V J → Prop
  /-- the target finishes with `v` (`src/pthread/mod.rs:253-255,300-304`) -/
  | finish {s : State V J} (v : V) : s.tpc = .running → Step s { s with tpc := .exit, result := some v }
  | exit {s : State V J} : s.tpc = .exit →
      Step s { s with tpc := if s.detached then .dealloc else .write }
  | tdealloc {s : State V J} : s.tpc = .dealloc → Step s { s with tpc := .gone, freed := s.freed + 1 }
  | write {s : State V J} : s.tpc = .write → Step s { s with tpc := .store, value := s.result }
  | store {s : State V J} : s.tpc = .store → Step s { s with tpc := .wake, word := 1 }
  | wake {s : State V J} : s.tpc = .wake → Step s { s with tpc := .gone, pc := wakeAll s.pc }
  /-- `pthread_join` by another thread (`src/pthread/mod.rs:257-268`) -/
  | join {s : State V J} (j : J) : s.pc j = .idle → Step s { s with pc := upd s.pc j .load }
  | load {s : State V J} (j : J) : s.pc j = .load →
      Step s { s with pc := upd s.pc j (if s.word = 0 then .fwait else .read) }
  | fwait {s : State V J} (j : J) : s.pc j = .fwait →
      Step s { s with pc := upd s.pc j (if s.word = 0 then .sleeping else .load) }
  | spurious {s : State V J} (j : J) : s.pc j = .sleeping → Step s { s with pc := upd s.pc j .load }
  | read {s : State V J} (j : J) : s.pc j = .read → Step s { s with pc := upd s.pc j (.dealloc s.value) }
  | jdealloc {s : State V J} (j : J) (v : Option V) : s.pc j = .dealloc v →
      Step s { s with pc := upd s.pc j (.ret v), freed := s.freed + 1 }
  /-- `pthread_detach` (`src/pthread/mod.rs:279-284`) -/
  | detach {s : State V J} : Step s { s with detached := true }

def Init {V J : Type} (s : State V J) : Prop :=
  s.word = 0 ∧ s.value = none ∧ s.tpc = .running ∧ (∀ j, s.pc j = .idle) ∧ s.result = none ∧ s.freed = 0

def sys (V J : Type) [DecidableEq J] : TS (State V J) := ⟨Init, Step⟩

end Verif.Sync.Join
