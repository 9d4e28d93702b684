import Verif.Conc.Basic

/-!
# Model of the internal lock (`src/sync/mutex.rs`, `src/sync/mod.rs: wait_until_generic`)

Sequentially consistent interleavings. Every atomic access of the Rust code is one step.
Memory orderings are not modelled.
-/

namespace Verif.Sync.Mutex
open Verif.Conc

/-- `src/sync/mutex.rs:9-11`. -/
def UNLOCKED : Nat := 0
def LOCKED : Nat := 1
def WAITING : Nat := 2

/-- `src/sync/mod.rs:40-45`: the hint returned by `attempt` and `mark_long`. -/
inductive Status | desired | waiting | other
  deriving DecidableEq

/-- `src/sync/mutex.rs:27-33`: the `attempt` closure of `manual_lock_generic`: new word and status.
`weakFail` is the spurious failure allowed for `compare_exchange_weak`. -/
def attempt (weakFail : Bool) (w : Nat) : Nat × Status :=
  if w = UNLOCKED ∧ weakFail = false then (LOCKED, .desired)
  else (w, if w = WAITING then .waiting else .other)

/-- `src/sync/mutex.rs:34-42`: the `mark_long` closure. -/
def markLong (weakFail : Bool) (w : Nat) : Nat × Status :=
  if w = LOCKED ∧ weakFail = false then (WAITING, .other)
  else (w, if w = UNLOCKED then .desired else if w = WAITING then .waiting else .other)

/-- Program counter of a thread with respect to one lock. -/
inductive PC
  /-- outside any lock operation, not holding the lock -/
  | idle
  /-- `wait_until_generic`, spin loop with `k` iterations left (`src/sync/mod.rs:157-162`) -/
  | spin (k : Nat)
  /-- about to run `previous = attempt(word)` (`src/sync/mod.rs:165` and `185`) -/
  | attempt
  /-- loop head with `previous = other`, about to run `mark_long` (`src/sync/mod.rs:180`) -/
  | mark
  /-- about to call `futex_wait(word, long)` (`src/sync/mod.rs:182`) -/
  | wait
  /-- asleep in the kernel -/
  | sleeping
  /-- owns the lock -/
  | holding
  /-- `manual_unlock_generic` after a swap that returned WAITING, before `futex_wake`
  (`src/sync/mutex.rs:47-49`) -/
  | wake
  deriving DecidableEq

/-- The lock word and the threads. -/
structure State (T : Type) where
  word : Nat
  pc : T → PC

/-- Where the loop of `wait_until_generic` goes after an attempt (`src/sync/mod.rs:169-183`). -/
def afterAttempt : Status → PC
  | .desired => .holding
  | .waiting => .wait
  | .other => .mark

/-- Where the loop goes after `mark_long` (`src/sync/mod.rs:180-185`). -/
def afterMark : Status → PC
  | .desired => .attempt
  | _ => .wait

/-- The kernel wakes every thread sleeping on the word; each continues at `previous = attempt(word)`. -/
def wakeAll {T : Type} (pc : T → PC) : T → PC :=
  fun t => if pc t = .sleeping then .attempt else pc t

/-- One atomic step of some thread. -/
inductive Step {T : Type} [DecidableEq T] : State T → State T → Prop
  /-- a thread calls `lock` (`manual_lock_generic`, `src/sync/mutex.rs:24`): 999 spins -/
  | callLock {s : State T} (t : T) : s.pc t = .idle →
      Step s { s with pc := upd s.pc t (.spin 999) }
  /-- one spin iteration (`src/sync/mod.rs:157-162`) -/
  | spin {s : State T} (t : T) (k : Nat) (wf : Bool) : s.pc t = .spin (k + 1) →
      Step s { word := (attempt wf s.word).1,
               pc := upd s.pc t (if (attempt wf s.word).2 = .desired then .holding else .spin k) }
  /-- the spin loop is over (`src/sync/mod.rs:165`) -/
  | spinDone {s : State T} (t : T) : s.pc t = .spin 0 →
      Step s { s with pc := upd s.pc t .attempt }
  /-- `previous = attempt(word)` and the test at the loop head (`src/sync/mod.rs:165,170-178,185`) -/
  | attempt {s : State T} (t : T) (wf : Bool) : s.pc t = .attempt →
      Step s { word := (attempt wf s.word).1,
               pc := upd s.pc t (afterAttempt (attempt wf s.word).2) }
  /-- `mark_long(word)` (`src/sync/mod.rs:180`) -/
  | mark {s : State T} (t : T) (wf : Bool) : s.pc t = .mark →
      Step s { word := (markLong wf s.word).1,
               pc := upd s.pc t (afterMark (markLong wf s.word).2) }
  /-- `futex_wait(word, WAITING)`: sleeps only if the word still has that value, else returns Stale
  (`src/sync/mod.rs:182`, `123-129`) -/
  | wait {s : State T} (t : T) : s.pc t = .wait →
      Step s { s with pc := upd s.pc t (if s.word = WAITING then .sleeping else .attempt) }
  /-- spurious wakeup or EINTR (`src/sync/mod.rs:111`) -/
  | spurious {s : State T} (t : T) : s.pc t = .sleeping →
      Step s { s with pc := upd s.pc t .attempt }
  /-- `manual_try_lock_generic` (`src/sync/mutex.rs:20-23`), a strong compare-exchange -/
  | tryLock {s : State T} (t : T) : s.pc t = .idle →
      Step s { word := if s.word = UNLOCKED then LOCKED else s.word,
               pc := upd s.pc t (if s.word = UNLOCKED then .holding else .idle) }
  /-- the swap of `manual_unlock_generic` (`src/sync/mutex.rs:47`) -/
  | unlock {s : State T} (t : T) : s.pc t = .holding →
      Step s { word := UNLOCKED,
               pc := upd s.pc t (if s.word = WAITING then .wake else .idle) }
  /-- `futex_wake(word, i32::MAX)` (`src/sync/mutex.rs:48`) -/
  | wake {s : State T} (t : T) : s.pc t = .wake →
      Step s { s with pc := upd (wakeAll s.pc) t .idle }

/-- `Mutex::new` (`src/sync/mutex.rs:53-58`): unlocked, all threads outside; or `Mutex::locked`
(`src/sync/mutex.rs:65-70`): created locked on behalf of one thread. -/
def Init {T : Type} (s : State T) : Prop :=
  (s.word = UNLOCKED ∧ ∀ t, s.pc t = .idle) ∨
  (s.word = LOCKED ∧ ∃ t, s.pc t = .holding ∧ ∀ u, u ≠ t → s.pc u = .idle)

/-- The transition system of one lock shared by the threads `T`. -/
def sys (T : Type) [DecidableEq T] : TS (State T) := ⟨Init, Step⟩

end Verif.Sync.Mutex
