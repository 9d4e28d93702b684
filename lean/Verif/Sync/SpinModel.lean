import Verif.Conc.Basic

/-!
# Model of `pthread_spin_*` (`src/header/pthread/spin.rs`)
-/

namespace Verif.Sync.Spin
open Verif.Conc

inductive PC
  | idle
  /-- in the loop of `pthread_spin_lock` (`src/header/pthread/spin.rs:77-93`) -/
  | spin
  /-- in `pthread_spin_trylock` (`src/header/pthread/spin.rs:103-115`) -/
  | try'
  /-- `trylock` returned `EBUSY` -/
  | busy
  | holding
  deriving DecidableEq

structure State (T : Type) where
  /-- UNLOCKED = 0, LOCKED = 1 (`src/header/pthread/spin.rs:8-9`) -/
  word : Nat
  pc : T → PC

inductive Step {T : Type} [DecidableEq T] : State T → State T → Prop
  | callLock {s : State T} (t : T) : s.pc t = .idle → Step s { s with pc := upd s.pc t .spin }
  | callTry {s : State T} (t : T) : s.pc t = .idle → Step s { s with pc := upd s.pc t .try' }
  | casOk {s : State T} (t : T) : s.pc t = .spin → s.word = 0 →
      Step s { word := 1, pc := upd s.pc t .holding }
  /-- weak compare-exchange: may fail spuriously; spin -/
  | casFail {s : State T} (t : T) : s.pc t = .spin → Step s s
  | tryOk {s : State T} (t : T) : s.pc t = .try' → s.word = 0 →
      Step s { word := 1, pc := upd s.pc t .holding }
  /-- strong compare-exchange: fails only on a different value -/
  | tryFail {s : State T} (t : T) : s.pc t = .try' → s.word ≠ 0 →
      Step s { s with pc := upd s.pc t .busy }
  /-- `pthread_spin_unlock`, called by the holder (`src/header/pthread/spin.rs:130-137`) -/
  | unlock {s : State T} (t : T) : s.pc t = .holding →
      Step s { word := 0, pc := upd s.pc t .idle }
  | leave {s : State T} (t : T) : s.pc t = .busy → Step s { s with pc := upd s.pc t .idle }

/-- `pthread_spin_init` (`src/header/pthread/spin.rs:51-65`). -/
def Init {T : Type} (s : State T) : Prop := s.word = 0 ∧ ∀ t, s.pc t = .idle

def sys (T : Type) [DecidableEq T] : TS (State T) := ⟨Init, Step⟩

end Verif.Sync.Spin
