import Verif.Conc.Basic

/-!
# Model of `Barrier::wait` (`src/sync/barrier.rs`, behind `pthread_barrier_wait`)

`count`, `gen_id` and the condition variable's two words are only touched with the barrier's own lock held, so
each stretch of code under the lock is one step (the lock excludes: C01). What happens outside the lock, the
futex call of the condition variable and the wake-up issued by the last arrival, are separate steps; `owner`
says that the lock is held across the last one. Wrapping of the 32-bit counters is modelled.
-/

namespace Verif.Sync.Barrier
open Verif.Conc

/-- Counters are `u32`. -/
def M : Nat := 2 ^ 32

/-- What a call returned: `Waited` (0) or `NotifiedAll` (`PTHREAD_BARRIER_SERIAL_THREAD`). -/
inductive Res | waited | serial
  deriving DecidableEq

inductive PC
  | idle
  /-- in the loop `while guard.gen_id == gen_id`, released the lock inside the condition variable, about to
  `futex_wait(cur, c)` (`src/sync/barrier.rs:49-51`, `src/sync/cond.rs:121`); `g` is the local `gen_id`, the last
  number is ghost: the round this call belongs to -/
  | wWait (c g r : Nat)
  | sleeping (g r : Nat)
  /-- about to take the lock again (`src/sync/cond.rs:122`) and test `gen_id` -/
  | relock (g r : Nat)
  /-- the last arrival has updated the state; about to wake everybody, lock still held
  (`src/sync/barrier.rs:43`, `src/sync/cond.rs:56`) -/
  | bWake (r : Nat)
  /-- the call has returned -/
  | ret (r : Nat) (v : Res)
  deriving DecidableEq

structure State (T : Type) where
  owner : Option T
  count : Nat
  gen : Nat
  cur : Nat
  prev : Nat
  pc : T → PC
  /-- ghost: completed rounds -/
  rounds : Nat
  /-- ghost: arrivals of each round -/
  arrived : Nat → Nat
  /-- ghost: the calls that have arrived, not as the last of their round, and not returned -/
  inside : List (T × Nat)
  /-- ghost: what the calls have returned, newest first -/
  returned : List (Nat × Res)

def wakeAll {T : Type} (pc : T → PC) : T → PC :=
  fun t => match pc t with
    | .sleeping g r => .relock g r
    | p => p

/-- The call of thread `t`, of round `r`, returns `v`. -/
def State.doReturn {T : Type} [DecidableEq T] (s : State T) (t : T) (r : Nat) (v : Res) : State T :=
  { s with pc := upd s.pc t (.ret r v), returned := (r, v) :: s.returned }

/-- `n` is `original_count`, the size of the barrier. -/
inductive Step {T : Type} [DecidableEq T] (n : Nat) : State T → State T → Prop
  /-- arrival that is not the last of its round: `count += 1`, then the condition variable's load and store, then
  release (`src/sync/barrier.rs:35-38,49-50`, `src/sync/cond.rs:117-120`) -/
  | arrive {s : State T} (t : T) : s.pc t = .idle → s.owner = none → s.count + 1 ≠ n →
      Step n s { s with count := s.count + 1, prev := s.cur, pc := upd s.pc t (.wWait s.cur s.gen s.rounds),
                        arrived := upd s.arrived s.rounds (s.arrived s.rounds + 1),
                        inside := (t, s.rounds) :: s.inside }
  /-- last arrival (`src/sync/barrier.rs:35-43`, `src/sync/cond.rs:53-54`) -/
  | arriveLast {s : State T} (t : T) : s.pc t = .idle → s.owner = none → s.count + 1 = n →
      Step n s { s with owner := some t, count := 0, gen := (s.gen + 1) % M, cur := (s.prev + 1) % M,
                        pc := upd s.pc t (.bWake s.rounds), rounds := s.rounds + 1,
                        arrived := upd s.arrived s.rounds (s.arrived s.rounds + 1) }
  /-- `futex_wake`, release of the lock, return (`src/sync/barrier.rs:43-47`) -/
  | bWake {s : State T} (t : T) (r : Nat) : s.pc t = .bWake r →
      Step n s ({ s with owner := none, pc := wakeAll s.pc }.doReturn t r .serial)
  | wWait {s : State T} (t : T) (c g r : Nat) : s.pc t = .wWait c g r →
      Step n s { s with pc := upd s.pc t (if s.cur = c then .sleeping g r else .relock g r) }
  | spurious {s : State T} (t : T) (g r : Nat) : s.pc t = .sleeping g r →
      Step n s { s with pc := upd s.pc t (.relock g r) }
  /-- lock, the generation has changed, return (`src/sync/barrier.rs:49,53`) -/
  | leave {s : State T} (t : T) (g r : Nat) : s.pc t = .relock g r → s.owner = none → s.gen ≠ g →
      Step n s ({ s with inside := s.inside.erase (t, r) }.doReturn t r .waited)
  /-- lock, the generation is unchanged, wait again (`src/sync/barrier.rs:49-50`) -/
  | again {s : State T} (t : T) (g r : Nat) : s.pc t = .relock g r → s.owner = none → s.gen = g →
      Step n s { s with prev := s.cur, pc := upd s.pc t (.wWait s.cur g r) }
  | next {s : State T} (t : T) (r : Nat) (v : Res) : s.pc t = .ret r v →
      Step n s { s with pc := upd s.pc t .idle }

/-- `Barrier::new` (`src/sync/barrier.rs:24-33`). -/
def Init {T : Type} (s : State T) : Prop :=
  s.owner = none ∧ s.count = 0 ∧ s.gen = 0 ∧ s.cur = 0 ∧ s.prev = 0 ∧ (∀ t, s.pc t = .idle) ∧ s.rounds = 0 ∧
  (∀ r, s.arrived r = 0) ∧ s.inside = [] ∧ s.returned = []

def sys (n : Nat) (T : Type) [DecidableEq T] : TS (State T) := ⟨Init, Step n⟩

end Verif.Sync.Barrier
