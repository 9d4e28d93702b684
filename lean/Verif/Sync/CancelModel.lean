import Verif.Conc.Basic

/-!
# Model of thread cancellation (`src/pthread/mod.rs:290-298,357-415`)

One target and any number of requesters `R`. Sequentially consistent interleavings, one step per atomic access
or signal operation. The cancellation signal, once sent, stays pending until its handler runs; the handler can
run at any point of the target (the cancellation signal is never blocked in this model).
-/

namespace Verif.Sync.Cancel
open Verif.Conc

inductive TPC
  /-- running program code -/
  | run
  /-- `set_cancel_state(ENABLE)`: swapped the flag, about to load the request (`src/pthread/mod.rs:397`) -/
  | enLoad
  /-- `testcancel`: about to load the request (`src/pthread/mod.rs:293`) -/
  | tcLoad
  /-- `testcancel`: request seen; about to load the enabled flag (`src/pthread/mod.rs:294`) -/
  | tcEnabled
  /-- `cancel_current_thread` (`src/pthread/mod.rs:360-363`) -/
  | cancelled
  deriving DecidableEq

inductive RPC
  | idle
  /-- `cancel`: stored the request; about to load the enabled flag (`src/pthread/mod.rs:369`) -/
  | load
  /-- about to send the signal (`src/pthread/mod.rs:370`) -/
  | kill
  /-- `pthread_cancel` returned -/
  | done
  deriving DecidableEq

structure State (R : Type) where
  queued : Bool
  enabled : Bool
  /-- the cancellation signal is pending for the target -/
  pending : Bool
  tpc : TPC
  pc : R → RPC

inductive Step {R : Type} [DecidableEq R] : State R → State R → Prop
  | cancel {s : State R} (r : R) : s.pc r = .idle → Step s { s with queued := true, pc := upd s.pc r .load }
  | load {s : State R} (r : R) : s.pc r = .load →
      Step s { s with pc := upd s.pc r (if s.enabled then .kill else .done) }
  | kill {s : State R} (r : R) : s.pc r = .kill → Step s { s with pending := true, pc := upd s.pc r .done }
  | again {s : State R} (r : R) : s.pc r = .done → Step s { s with pc := upd s.pc r .idle }
  /-- `pthread_setcancelstate(ENABLE)` (`src/pthread/mod.rs:392-395`) -/
  | enable {s : State R} : s.tpc = .run → Step s { s with enabled := true, tpc := .enLoad }
  | enLoad {s : State R} : s.tpc = .enLoad →
      Step s { s with tpc := if s.queued then .cancelled else .run }
  /-- `pthread_setcancelstate(DISABLE)` (`src/pthread/mod.rs:404-406`) -/
  | disable {s : State R} : s.tpc = .run → Step s { s with enabled := false }
  /-- `pthread_testcancel` (`src/pthread/mod.rs:290-298`) -/
  | testcancel {s : State R} : s.tpc = .run → Step s { s with tpc := .tcLoad }
  | tcLoad {s : State R} : s.tpc = .tcLoad → Step s { s with tpc := if s.queued then .tcEnabled else .run }
  | tcEnabled {s : State R} : s.tpc = .tcEnabled →
      Step s { s with tpc := if s.enabled then .cancelled else .run }
  /-- the signal handler (`src/pthread/mod.rs:357-359`) runs; it does not look at the enabled flag -/
  | handler {s : State R} : s.pending = true → s.tpc ≠ .cancelled →
      Step s { s with pending := false, tpc := .cancelled }

/-- A new thread has cancellation enabled. -/
def Init {R : Type} (s : State R) : Prop :=
  s.queued = false ∧ s.enabled = true ∧ s.pending = false ∧ s.tpc = .run ∧ ∀ r, s.pc r = .idle

def sys (R : Type) [DecidableEq R] : TS (State R) := ⟨Init, Step⟩

end Verif.Sync.Cancel
