import Verif.Conc.Basic

/-!
# Model of condition variables (`src/sync/cond.rs`)

Sequentially consistent interleavings, one step per atomic access or futex call. The associated mutex is
abstract: `owner` says who holds it, taking it is one step (that a real mutex behaves like this is C09).
`signal` is `broadcast` in this code (`src/sync/cond.rs:62-65`). Deadline conversion is not modelled; a timed
wait may time out whenever it sleeps.

The parameter `locked` says whether the program always holds the mutex when it signals. POSIX does not require
that.
-/

namespace Verif.Sync.Cond
open Verif.Conc

/-- `cur` and `prev` are `AtomicU32`. -/
def M : Nat := 2 ^ 32

inductive PC
  /-- outside, not holding the mutex -/
  | idle
  /-- holding the mutex, running the program's own code -/
  | crit
  /-- `wait_inner_generic`: about to load `cur` (`src/sync/cond.rs:117`); mutex held -/
  | wLoad
  /-- about to store `prev` (`src/sync/cond.rs:118`); mutex held -/
  | wStore (c : Nat)
  /-- about to release the mutex (`src/sync/cond.rs:120`) -/
  | wUnlock (c : Nat)
  /-- about to `futex_wait(cur, c)` (`src/sync/cond.rs:121`) -/
  | wWait (c : Nat)
  | sleeping
  /-- about to take the mutex again (`src/sync/cond.rs:122`); the flag remembers a time-out -/
  | wRelock (timedOut : Bool)
  /-- `wake`: about to load `prev` (`src/sync/cond.rs:53`); `h` says whether the mutex is held -/
  | sLoad (h : Bool)
  /-- about to store `cur` (`src/sync/cond.rs:54`) -/
  | sStore (h : Bool) (p : Nat)
  /-- about to `futex_wake(cur)` (`src/sync/cond.rs:56`) -/
  | sWake (h : Bool)
  deriving DecidableEq

structure State (T : Type) where
  owner : Option T
  cur : Nat
  prev : Nat
  pc : T → PC
  /-- ghost: how many times a signal has been performed (its store to `cur`) -/
  sigs : Nat
  /-- ghost: `due t` means that since `t` released the mutex inside its current wait, some signal has been
  performed, so `t` must not stay blocked -/
  due : T → Bool

/-- Blocked on the condition variable as POSIX counts it: the mutex has been released, the wait is not over. -/
def blocked : PC → Bool
  | .wWait _ => true
  | .sleeping => true
  | _ => false

def wakeAll {T : Type} (pc : T → PC) : T → PC :=
  fun t => if pc t = .sleeping then .wRelock false else pc t

inductive Step {T : Type} [DecidableEq T] (locked : Bool) : State T → State T → Prop
  | lock {s : State T} (t : T) : s.pc t = .idle → s.owner = none →
      Step locked s { s with owner := some t, pc := upd s.pc t .crit }
  | unlock {s : State T} (t : T) : s.pc t = .crit →
      Step locked s { s with owner := none, pc := upd s.pc t .idle }
  | wait {s : State T} (t : T) : s.pc t = .crit →
      Step locked s { s with pc := upd s.pc t .wLoad }
  | wLoad {s : State T} (t : T) : s.pc t = .wLoad →
      Step locked s { s with pc := upd s.pc t (.wStore s.cur) }
  | wStore {s : State T} (t : T) (c : Nat) : s.pc t = .wStore c →
      Step locked s { s with prev := c, pc := upd s.pc t (.wUnlock c) }
  | wUnlock {s : State T} (t : T) (c : Nat) : s.pc t = .wUnlock c →
      Step locked s { s with owner := none, pc := upd s.pc t (.wWait c), due := upd s.due t false }
  | wWait {s : State T} (t : T) (c : Nat) : s.pc t = .wWait c →
      Step locked s { s with pc := upd s.pc t (if s.cur = c then .sleeping else .wRelock false) }
  | spurious {s : State T} (t : T) : s.pc t = .sleeping →
      Step locked s { s with pc := upd s.pc t (.wRelock false) }
  | timeout {s : State T} (t : T) : s.pc t = .sleeping →
      Step locked s { s with pc := upd s.pc t (.wRelock true) }
  | relock {s : State T} (t : T) (b : Bool) : s.pc t = .wRelock b → s.owner = none →
      Step locked s { s with owner := some t, pc := upd s.pc t .crit }
  /-- signal or broadcast with the mutex held -/
  | signal {s : State T} (t : T) : s.pc t = .crit →
      Step locked s { s with pc := upd s.pc t (.sLoad true) }
  /-- signal or broadcast without holding the mutex -/
  | signalUnlocked {s : State T} (t : T) : locked = false → s.pc t = .idle →
      Step locked s { s with pc := upd s.pc t (.sLoad false) }
  | sLoad {s : State T} (t : T) (h : Bool) : s.pc t = .sLoad h →
      Step locked s { s with pc := upd s.pc t (.sStore h s.prev) }
  | sStore {s : State T} (t : T) (h : Bool) (p : Nat) : s.pc t = .sStore h p →
      Step locked s { s with cur := (p + 1) % M, pc := upd s.pc t (.sWake h), sigs := s.sigs + 1,
                             due := fun u => s.due u || blocked (s.pc u) }
  | sWake {s : State T} (t : T) (h : Bool) : s.pc t = .sWake h →
      Step locked s { s with pc := upd (wakeAll s.pc) t (if h then .crit else .idle) }

/-- `Cond::new` (`src/sync/cond.rs:45-50`). -/
def Init {T : Type} (s : State T) : Prop :=
  s.owner = none ∧ s.cur = 0 ∧ s.prev = 0 ∧ (∀ t, s.pc t = .idle) ∧ s.sigs = 0 ∧ (∀ t, s.due t = false)

def sys (locked : Bool) (T : Type) [DecidableEq T] : TS (State T) := ⟨Init, Step locked⟩

end Verif.Sync.Cond
