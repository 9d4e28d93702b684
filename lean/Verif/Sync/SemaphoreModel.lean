import Verif.Conc.Basic

/-!
# Model of POSIX semaphores (`src/sync/semaphore.rs`, `src/header/semaphore/mod.rs`)

Sequentially consistent interleavings, one step per atomic access or futex call. `T` is an arbitrary type of
threads. Time is not modelled: a wait with a deadline may time out at any moment while it sleeps. Conversion
of the deadline to another clock (`src/sync/semaphore.rs:64-70`) is not modelled.
-/

namespace Verif.Sync.Sem
open Verif.Conc

/-- The counter is an `AtomicU32`. -/
def M : Nat := 2 ^ 32

/-- What a completed `sem_wait`/`sem_trywait`/`sem_timedwait` reports. -/
inductive Ret | ok | eagain | eintr | etimedout
  deriving DecidableEq

/-- Which call is in progress. -/
inductive Kind | trywait | wait | timedwait
  deriving DecidableEq

inductive PC
  | idle
  /-- about to `count.load` in `try_wait` (`src/sync/semaphore.rs:40`) -/
  | load (k : Kind)
  /-- loaded `v ≠ 0`; about to `compare_exchange_weak(v, v - 1)` (`src/sync/semaphore.rs:46-50`) -/
  | cas (k : Kind) (v : Nat)
  /-- `try_wait` failed; about to call `futex_wait(count, 0)` (`src/sync/semaphore.rs:71,74`) -/
  | fwait (k : Kind)
  | sleeping (k : Kind)
  /-- the call `k` has returned `r` -/
  | ret (k : Kind) (r : Ret)
  /-- `post` has done its `fetch_add`; about to `futex_wake` (`src/sync/semaphore.rs:35`) -/
  | postWake
  deriving DecidableEq

structure State (T : Type) where
  /-- `Semaphore::count` -/
  word : Nat
  pc : T → PC
  /-- ghost: the value given to `sem_init` -/
  initial : Nat
  /-- ghost: tokens posted so far -/
  posted : Nat
  /-- ghost: waits (of any kind) that have reported success so far -/
  succeeded : Nat
  /-- ghost: has a signal handler interrupted somebody -/
  interrupted : Bool

def asleep : PC → Bool
  | .sleeping _ => true
  | _ => false

def wakeAll {T : Type} (pc : T → PC) : T → PC :=
  fun t => match pc t with
    | .sleeping k => .load k
    | p => p

/-- What `try_wait`'s caller does after the load (`src/sync/semaphore.rs:40-44,60-63`): on zero `sem_trywait` reports
`EAGAIN` (`src/header/semaphore/mod.rs:78-85`) and the waiting calls go on to sleep. -/
def loaded (k : Kind) (w : Nat) : PC :=
  if w = 0 then (if k = .trywait then .ret k .eagain else .fwait k) else .cas k w

/-- Thread `t` goes to `p`; a call that returns 0 is counted. -/
def State.go {T : Type} [DecidableEq T] (s : State T) (t : T) (p : PC) : State T :=
  { s with pc := upd s.pc t p,
           succeeded := match p with
             | .ret _ .ok => s.succeeded + 1
             | _ => s.succeeded }

inductive Step {T : Type} [DecidableEq T] : State T → State T → Prop
  /-- a thread calls `sem_trywait`, `sem_wait` or `sem_timedwait` -/
  | call {s : State T} (t : T) (k : Kind) : s.pc t = .idle →
      Step s (s.go t (.load k))
  /-- `try_wait` loads the counter; zero is a failure (`src/sync/semaphore.rs:40-44`) -/
  | load {s : State T} (t : T) (k : Kind) : s.pc t = .load k →
      Step s (s.go t (loaded k s.word))
  /-- the weak compare-exchange succeeds (`src/sync/semaphore.rs:46-54`) -/
  | casOk {s : State T} (t : T) (k : Kind) (v : Nat) : s.pc t = .cas k v → s.word = v →
      Step s ({ s with word := v - 1 }.go t (.ret k .ok))
  /-- the weak compare-exchange fails, possibly spuriously: loop (`src/sync/semaphore.rs:55`) -/
  | casFail {s : State T} (t : T) (k : Kind) (v : Nat) : s.pc t = .cas k v →
      Step s (s.go t (.load k))
  /-- `futex_wait(count, 0)`: sleep if the counter is still zero, otherwise the kernel reports `EAGAIN`, which
  the `?` operator returns to the caller (`src/sync/semaphore.rs:71,74`) -/
  | fwait {s : State T} (t : T) (k : Kind) : s.pc t = .fwait k →
      Step s (s.go t (if s.word = 0 then .sleeping k else .ret k .eagain))
  /-- the kernel wakes a sleeper for no reason: loop -/
  | spurious {s : State T} (t : T) (k : Kind) : s.pc t = .sleeping k →
      Step s (s.go t (.load k))
  /-- a signal handler interrupts a sleeper: `EINTR` is returned by `?` -/
  | intr {s : State T} (t : T) (k : Kind) : s.pc t = .sleeping k →
      Step s ({ s with interrupted := true }.go t (.ret k .eintr))
  /-- the deadline of `sem_timedwait` passes -/
  | timeout {s : State T} (t : T) : s.pc t = .sleeping .timedwait →
      Step s (s.go t (.ret .timedwait .etimedout))
  /-- `fetch_add(n)`, wrapping (`src/sync/semaphore.rs:33`); `sem_post` uses `n = 1`
  (`src/header/semaphore/mod.rs:70-74`) -/
  | post {s : State T} (t : T) (n : Nat) : s.pc t = .idle →
      Step s ({ s with word := (s.word + n) % M, posted := s.posted + n }.go t .postWake)
  /-- `futex_wake(count, i32::MAX)` (`src/sync/semaphore.rs:35`) -/
  | wake {s : State T} (t : T) : s.pc t = .postWake →
      Step s ({ s with pc := wakeAll s.pc }.go t .idle)
  /-- the caller goes on -/
  | leave {s : State T} (t : T) (k : Kind) (r : Ret) : s.pc t = .ret k r →
      Step s (s.go t .idle)

/-- `sem_init` (`src/header/semaphore/mod.rs:51-55`): any 32-bit value. -/
def Init {T : Type} (s : State T) : Prop :=
  s.word = s.initial ∧ s.initial < M ∧ (∀ t, s.pc t = .idle) ∧ s.posted = 0 ∧ s.succeeded = 0
    ∧ s.interrupted = false

def sys (T : Type) [DecidableEq T] : TS (State T) := ⟨Init, Step⟩

/-- `sem_getvalue` (`src/header/semaphore/mod.rs:43-47`). -/
def getvalue {T : Type} (s : State T) : Nat := s.word

end Verif.Sync.Sem
