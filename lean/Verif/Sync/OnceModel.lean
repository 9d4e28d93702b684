import Verif.Conc.Basic

/-!
# Model of `Once::call_once` (`src/sync/once.rs`), the implementation of `pthread_once`

Sequentially consistent interleavings, one step per atomic access. The initialiser itself is opaque: it
runs between `callFirst` and `ctorDone`. An initialiser that is cancelled or panics is not modelled.
-/

namespace Verif.Sync.Once
open Verif.Conc

/-- `src/sync/once.rs:9-12`. -/
def UNINITIALIZED : Nat := 0
def INITIALIZING : Nat := 1
def WAITING : Nat := 2
def INITIALIZED : Nat := 3

/-- `src/sync/mod.rs:40-45`. -/
inductive Status | desired | waiting | other
  deriving DecidableEq

/-- `src/sync/once.rs:73-77`: the `attempt` closure, a plain load. -/
def attempt (w : Nat) : Status :=
  if w = WAITING then .waiting else if w = INITIALIZED then .desired else .other

/-- `src/sync/once.rs:81-93`: the `mark_long` closure; `weakFail` is a spurious failure of the weak CAS. -/
def markLong (weakFail : Bool) (w : Nat) : Nat × Status :=
  if w = INITIALIZING ∧ weakFail = false then (WAITING, .other)
  else (w, if w = WAITING then .waiting else if w = INITIALIZED then .desired else .other)

inductive PC
  /-- not inside `call_once` -/
  | idle
  /-- the compare-exchange succeeded; the initialiser is running (`src/sync/once.rs:61`) -/
  | running
  /-- the initialiser has returned and its value is stored; about to swap (`src/sync/once.rs:64`) -/
  | finish
  /-- the swap returned WAITING; about to call `futex_wake` (`src/sync/once.rs:66`) -/
  | wake
  /-- `wait_until_generic`: spin loop, `k` iterations left (`src/sync/mod.rs:157-162`) -/
  | spin (k : Nat)
  /-- `previous = attempt(word)` (`src/sync/mod.rs:165,185`) -/
  | attempt
  /-- `mark_long(word)` (`src/sync/mod.rs:180`) -/
  | mark
  /-- about to call `futex_wait(word, WAITING)` (`src/sync/mod.rs:182`) -/
  | wait
  /-- asleep in the kernel -/
  | sleeping
  /-- `call_once` has returned (`src/sync/once.rs:103`) -/
  | returned
  deriving DecidableEq

structure State (T : Type) where
  /-- `Once::status` -/
  word : Nat
  pc : T → PC
  /-- ghost: how many times the initialiser was started -/
  started : Nat
  /-- ghost: how many times the initialiser ran to completion -/
  completed : Nat

def afterAttempt : Status → PC
  | .desired => .returned
  | .waiting => .wait
  | .other => .mark

def afterMark : Status → PC
  | .desired => .attempt
  | _ => .wait

def wakeAll {T : Type} (pc : T → PC) : T → PC :=
  fun t => if pc t = .sleeping then .attempt else pc t

/-- One atomic step. -/
inductive Step {T : Type} [DecidableEq T] : State T → State T → Prop
  /-- the strong compare-exchange of `call_once` succeeds (`src/sync/once.rs:44-61`) -/
  | callFirst {s : State T} (t : T) : s.pc t = .idle → s.word = UNINITIALIZED →
      Step s { s with word := INITIALIZING, pc := upd s.pc t .running, started := s.started + 1 }
  /-- it fails with INITIALIZING or WAITING: `wait_until_generic` (`src/sync/once.rs:69`) -/
  | callWait {s : State T} (t : T) : s.pc t = .idle → (s.word = INITIALIZING ∨ s.word = WAITING) →
      Step s { s with pc := upd s.pc t (.spin 999) }
  /-- it fails with INITIALIZED: return at once (`src/sync/once.rs:96`) -/
  | callDone {s : State T} (t : T) : s.pc t = .idle → s.word = INITIALIZED →
      Step s { s with pc := upd s.pc t .returned }
  /-- the initialiser returns and its value is written (`src/sync/once.rs:61`) -/
  | ctorDone {s : State T} (t : T) : s.pc t = .running →
      Step s { s with pc := upd s.pc t .finish, completed := s.completed + 1 }
  /-- `status.swap(INITIALIZED)` (`src/sync/once.rs:64`) -/
  | finish {s : State T} (t : T) : s.pc t = .finish →
      Step s { s with word := INITIALIZED,
                      pc := upd s.pc t (if s.word = WAITING then .wake else .returned) }
  /-- `futex_wake(&status, i32::MAX)` (`src/sync/once.rs:66`) -/
  | wake {s : State T} (t : T) : s.pc t = .wake →
      Step s { s with pc := upd (wakeAll s.pc) t .returned }
  | spin {s : State T} (t : T) (k : Nat) : s.pc t = .spin (k + 1) →
      Step s { s with pc := upd s.pc t (if attempt s.word = .desired then .returned else .spin k) }
  | spinDone {s : State T} (t : T) : s.pc t = .spin 0 →
      Step s { s with pc := upd s.pc t .attempt }
  | attempt {s : State T} (t : T) : s.pc t = .attempt →
      Step s { s with pc := upd s.pc t (afterAttempt (attempt s.word)) }
  | mark {s : State T} (t : T) (wf : Bool) : s.pc t = .mark →
      Step s { s with word := (markLong wf s.word).1,
                      pc := upd s.pc t (afterMark (markLong wf s.word).2) }
  | wait {s : State T} (t : T) : s.pc t = .wait →
      Step s { s with pc := upd s.pc t (if s.word = WAITING then .sleeping else .attempt) }
  | spurious {s : State T} (t : T) : s.pc t = .sleeping →
      Step s { s with pc := upd s.pc t .attempt }
  /-- the thread may call `call_once` again later -/
  | again {s : State T} (t : T) : s.pc t = .returned →
      Step s { s with pc := upd s.pc t .idle }

/-- `Once::new` (`src/sync/once.rs:37-42`). -/
def Init {T : Type} (s : State T) : Prop :=
  s.word = UNINITIALIZED ∧ (∀ t, s.pc t = .idle) ∧ s.started = 0 ∧ s.completed = 0

def sys (T : Type) [DecidableEq T] : TS (State T) := ⟨Init, Step⟩

end Verif.Sync.Once
