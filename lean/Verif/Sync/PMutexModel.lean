import Verif.Conc.Basic

/-!
# Model of `pthread_mutex_*` (`src/sync/pthread_mutex.rs`)

Sequentially consistent interleavings, one step per atomic access or futex call. The lock word holds 0 or the
owner's thread id. Thread ids are distinct, non-zero and below 2^31, so the word is modelled as `Option T` and
the masking with `INDEX_MASK` (`src/sync/pthread_mutex.rs:25-26`) is the identity. The recursion counter is
touched only by the owner; its load and store are one step. Deadlines are not modelled: a timed lock may time
out whenever it sleeps. Priorities, process sharing and recovery of robust mutexes are stubs in the code
(`src/sync/pthread_mutex.rs:63-74`) and not modelled. For a mutex without ownership checks (normal or default, not
robust) unlocking by a thread that does not hold it is undefined behaviour; the model excludes it.
-/

namespace Verif.Sync.PMutex
open Verif.Conc

/-- `src/sync/pthread_mutex.rs:222-233` -/
inductive Ty | normal | def' | errck | recursive
  deriving DecidableEq

/-- The two constant fields of `RlctMutex` (`src/sync/pthread_mutex.rs:19-20`). -/
structure Cfg where
  ty : Ty
  robust : Bool

/-- `RECURSIVE_COUNT_MAX_INCLUSIVE` (`src/sync/pthread_mutex.rs:29`). -/
def MAXREC : Nat := 2 ^ 32 - 1

inductive Kind | lock | timed | try'
  deriving DecidableEq

inductive Ret | ok | eagain | ebusy | edeadlk | eperm | etimedout
  deriving DecidableEq

inductive PC (T : Type)
  | idle
  /-- about to compare-exchange the word from 0 to our id (`src/sync/pthread_mutex.rs:81-86,165-170`) -/
  | cas (k : Kind)
  /-- we own the word; about to increment the recursion counter (`src/sync/pthread_mutex.rs:92,98,178`);
  `fresh` is ghost: the compare-exchange has just succeeded -/
  | inc (k : Kind) (fresh : Bool)
  /-- about to `futex_wait(word, owner)` (`src/sync/pthread_mutex.rs:128`) -/
  | wait (k : Kind) (owner : T)
  | sleeping (k : Kind)
  /-- a lock operation returned -/
  | retLock (k : Kind) (r : Ret)
  /-- `unlock` entered (`src/sync/pthread_mutex.rs:192-200`) -/
  | unl
  /-- ownership checked; about to decrement the recursion counter (`src/sync/pthread_mutex.rs:203-205`) -/
  | unlDec
  /-- about to store 0 (`src/sync/pthread_mutex.rs:212`) -/
  | unlStore
  /-- about to wake all (`src/sync/pthread_mutex.rs:213`) -/
  | unlWake
  | retUnl (r : Ret)
  deriving DecidableEq

structure State (T : Type) where
  /-- `RlctMutex::inner` -/
  word : Option T
  /-- `RlctMutex::recursive_count` -/
  count : Nat
  pc : T → PC T
  /-- ghost: how many times each thread holds the mutex (successful locks minus successful unlocks) -/
  depth : T → Nat

/-- The compare-exchange failed with the word `w` (`src/sync/pthread_mutex.rs:95-131`, and for `trylock`
`src/sync/pthread_mutex.rs:172-188`). A strong compare-exchange does not fail on an unlocked mutex, so the last
case of `trylock` is not reachable. -/
def casFailed {T : Type} [DecidableEq T] (c : Cfg) (t : T) (k : Kind) (w : Option T) : PC T :=
  if k = .try' then
    if c.ty = .recursive then
      (if w = some t then .inc k false else .retLock k .ebusy)
    else if w = some t ∧ c.ty = .errck then .retLock k .edeadlk
    else .retLock k .ebusy
  else if w = some t ∧ c.ty = .recursive then .inc k false
  else if w = some t ∧ c.ty = .errck then .retLock k .eagain
  else match w with
    | none => .cas k
    | some o => .wait k o

/-- Does `unlock` check the owner (`src/sync/pthread_mutex.rs:193`)? -/
def checked (c : Cfg) : Bool := c.robust || c.ty = .recursive || c.ty = .errck

def wakeAll {T : Type} (pc : T → PC T) : T → PC T :=
  fun t => match pc t with
    | .sleeping k => .cas k
    | p => p

inductive Step {T : Type} [DecidableEq T] (c : Cfg) : State T → State T → Prop
  | callLock {s : State T} (t : T) (k : Kind) : s.pc t = .idle →
      Step c s { s with pc := upd s.pc t (.cas k) }
  /-- compare-exchange succeeds (`src/sync/pthread_mutex.rs:89-94,183-184`) -/
  | casOk {s : State T} (t : T) (k : Kind) : s.pc t = .cas k → s.word = none → c.ty ≠ .recursive →
      Step c s { s with word := some t, pc := upd s.pc t (.retLock k .ok),
                        depth := upd s.depth t (s.depth t + 1) }
  | casOkRec {s : State T} (t : T) (k : Kind) : s.pc t = .cas k → s.word = none → c.ty = .recursive →
      Step c s { s with word := some t, pc := upd s.pc t (.inc k true) }
  /-- the (weak) compare-exchange of `lock` fails, possibly spuriously; that of `trylock` is strong -/
  | casFail {s : State T} (t : T) (k : Kind) : s.pc t = .cas k → (k = .try' → s.word ≠ none) →
      Step c s { s with pc := upd s.pc t (casFailed c t k s.word) }
  /-- `increment_recursive_count` (`src/sync/pthread_mutex.rs:144-160`) -/
  | incOk {s : State T} (t : T) (k : Kind) (f : Bool) : s.pc t = .inc k f → s.count ≠ MAXREC →
      Step c s { s with count := s.count + 1, pc := upd s.pc t (.retLock k .ok),
                        depth := upd s.depth t (s.depth t + 1) }
  | incFull {s : State T} (t : T) (k : Kind) (f : Bool) : s.pc t = .inc k f → s.count = MAXREC →
      Step c s { s with pc := upd s.pc t (.retLock k .eagain) }
  | wait {s : State T} (t : T) (k : Kind) (o : T) : s.pc t = .wait k o →
      Step c s { s with pc := upd s.pc t (if s.word = some o then .sleeping k else .cas k) }
  | spurious {s : State T} (t : T) (k : Kind) : s.pc t = .sleeping k →
      Step c s { s with pc := upd s.pc t (.cas k) }
  | timeout {s : State T} (t : T) : s.pc t = .sleeping .timed →
      Step c s { s with pc := upd s.pc t (.retLock .timed .etimedout) }
  /-- a thread calls unlock; without ownership checks it must hold the mutex -/
  | callUnl {s : State T} (t : T) : s.pc t = .idle → (checked c = false → s.depth t > 0) →
      Step c s { s with pc := upd s.pc t .unl }
  | unlCheck {s : State T} (t : T) : s.pc t = .unl → checked c = true →
      Step c s { s with pc := upd s.pc t
                          (if s.word = some t then (if c.ty = .recursive then .unlDec else .unlStore) else .retUnl .eperm) }
  | unlNoCheck {s : State T} (t : T) : s.pc t = .unl → checked c = false →
      Step c s { s with pc := upd s.pc t .unlStore }
  | unlDec {s : State T} (t : T) : s.pc t = .unlDec → s.count - 1 > 0 →
      Step c s { s with count := s.count - 1, pc := upd s.pc t (.retUnl .ok),
                        depth := upd s.depth t (s.depth t - 1) }
  | unlDecLast {s : State T} (t : T) : s.pc t = .unlDec → s.count - 1 = 0 →
      Step c s { s with count := s.count - 1, pc := upd s.pc t .unlStore }
  | unlStore {s : State T} (t : T) : s.pc t = .unlStore →
      Step c s { s with word := none, pc := upd s.pc t .unlWake, depth := upd s.depth t (s.depth t - 1) }
  | unlWake {s : State T} (t : T) : s.pc t = .unlWake →
      Step c s { s with pc := upd (wakeAll s.pc) t (.retUnl .ok) }
  | leaveLock {s : State T} (t : T) (k : Kind) (r : Ret) : s.pc t = .retLock k r →
      Step c s { s with pc := upd s.pc t .idle }
  | leaveUnl {s : State T} (t : T) (r : Ret) : s.pc t = .retUnl r →
      Step c s { s with pc := upd s.pc t .idle }

/-- `RlctMutex::new` (`src/sync/pthread_mutex.rs:35-61`). -/
def Init {T : Type} (s : State T) : Prop :=
  s.word = none ∧ s.count = 0 ∧ (∀ t, s.pc t = .idle) ∧ (∀ t, s.depth t = 0)

def sys (c : Cfg) (T : Type) [DecidableEq T] : TS (State T) := ⟨Init, Step c⟩

end Verif.Sync.PMutex
