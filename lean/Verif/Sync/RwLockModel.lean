import Verif.Conc.Basic

/-!
# Model of the reader-writer lock (`src/sync/rwlock.rs`, behind `pthread_rwlock_*`)

Sequentially consistent interleavings, one step per atomic access or futex call. An element of `T` is one
use of the lock: a thread that read-locks the same lock twice counts as two elements. `unlock` is called
only by a use that holds the lock. The 32-bit word is split into its top bit (`WAITING_WR`) and its low 31
bits (`COUNT_MASK`); no operation carries between the two parts (`fetch_sub` is only ever applied to a
non-zero count, which is part of what is proved). Conversion of deadlines (`src/sync/rwlock.rs:36-47`) is not
modelled: a call may time out whenever it sleeps.
-/

namespace Verif.Sync.RwLock
open Verif.Conc

/-- `EXCLUSIVE = COUNT_MASK = 2^31 - 1` (`src/sync/rwlock.rs:22-24`). -/
def EXCLUSIVE : Nat := 2 ^ 31 - 1

/-- `InnerRwLock::state` (`src/sync/rwlock.rs:17-19`). -/
structure Word where
  waiting : Bool
  count : Nat
  deriving DecidableEq

inductive PC
  | idle
  /-- `acquire_write_lock` / `try_acquire_write_lock`: initial load (`src/sync/rwlock.rs:53,143`) -/
  | wrLoad (try' : Bool)
  /-- about to `compare_exchange_weak(waiting_wr, EXCLUSIVE)` (`src/sync/rwlock.rs:56-61,146-151`) -/
  | wrCas (try' : Bool) (w : Bool)
  /-- about to `fetch_or(WAITING_WR)` having seen `actual` (`src/sync/rwlock.rs:67`) -/
  | wrOr (actual : Word)
  /-- about to `futex_wait(state, expected)` (`src/sync/rwlock.rs:76`) -/
  | wrWait (expected : Word)
  | wrSleep (w : Bool)
  /-- `try_acquire_read_lock`: initial load (`src/sync/rwlock.rs:107`) -/
  | rdLoad (try' : Bool)
  /-- about to compare-exchange having `cached` (`src/sync/rwlock.rs:125-130`) -/
  | rdCas (try' : Bool) (cached : Word)
  /-- about to `futex_wait(state, old)` (`src/sync/rwlock.rs:97`) -/
  | rdWait (old : Word)
  | rdSleep
  /-- the assertion on the maximal number of readers failed (`src/sync/rwlock.rs:119-123`) -/
  | panicked
  /-- holds the lock for reading / writing -/
  | reading
  | writing
  /-- a try-lock returned `EBUSY` -/
  | busy
  /-- a timed lock returned `ETIMEDOUT` -/
  | timedOut
  /-- `unlock`: about to load the state (`src/sync/rwlock.rs:165`); `wr` remembers what is held (ghost) -/
  | unlLoad (wr : Bool)
  /-- about to `store(0)` (`src/sync/rwlock.rs:172`) -/
  | unlStore (wr : Bool)
  /-- about to `fetch_sub(1)` (`src/sync/rwlock.rs:179`) -/
  | unlSub (wr : Bool)
  /-- about to `futex_wake(state, i32::MAX)` (`src/sync/rwlock.rs:174,180`) -/
  | unlWake
  deriving DecidableEq

structure State (T : Type) where
  word : Word
  pc : T → PC
  /-- ghost: the uses that hold the lock for reading -/
  readers : List T

/-- The reader count a reader assumes when it has seen `c` (`src/sync/rwlock.rs:111-115`). -/
def oldCount (c : Word) : Nat := if c.count = EXCLUSIVE then 0 else c.count

/-- Top of the reader loop: the assertion (`src/sync/rwlock.rs:116-123`). -/
def rdTop (try' : Bool) (c : Word) : PC := if oldCount c + 1 = EXCLUSIVE then .panicked else .rdCas try' c

/-- Reader's compare-exchange failed with `v` (`src/sync/rwlock.rs:133-138`). -/
def rdFail (try' : Bool) (v : Word) : PC :=
  if v.count = EXCLUSIVE then (if try' then .busy else .rdWait v) else rdTop try' v

/-- Blocking writer's compare-exchange failed with `v` (`src/sync/rwlock.rs:63-76`). -/
def wrFail (v : Word) : PC := if v.count ≠ EXCLUSIVE then .wrOr v else .wrWait v

/-- `try_acquire_write_lock`'s compare-exchange failed with `v` (`src/sync/rwlock.rs:153-159`). -/
def wrTryFail (v : Word) : PC := if v.count > 0 then .busy else .wrCas true v.waiting

/-- After `fetch_or` (`src/sync/rwlock.rs:69-89`). -/
def wrAfterOr (v : Word) : PC := if v.count > 0 then .wrWait ⟨true, v.count⟩ else .wrCas false true

def wakeAll {T : Type} (pc : T → PC) : T → PC :=
  fun t => match pc t with
    | .wrSleep w => .wrCas false w
    | .rdSleep => .rdLoad false
    | p => p

inductive Step {T : Type} [DecidableEq T] : State T → State T → Prop
  | callWr {s : State T} (t : T) (b : Bool) : s.pc t = .idle →
      Step s { s with pc := upd s.pc t (.wrLoad b) }
  | callRd {s : State T} (t : T) (b : Bool) : s.pc t = .idle →
      Step s { s with pc := upd s.pc t (.rdLoad b) }
  | wrLoad {s : State T} (t : T) (b : Bool) : s.pc t = .wrLoad b →
      Step s { s with pc := upd s.pc t (.wrCas b s.word.waiting) }
  | wrCasOk {s : State T} (t : T) (b w : Bool) : s.pc t = .wrCas b w → s.word = ⟨w, 0⟩ →
      Step s { s with word := ⟨false, EXCLUSIVE⟩, pc := upd s.pc t .writing }
  /-- failure, possibly spurious -/
  | wrCasFail {s : State T} (t : T) (w : Bool) : s.pc t = .wrCas false w →
      Step s { s with pc := upd s.pc t (wrFail s.word) }
  | wrTryCasFail {s : State T} (t : T) (w : Bool) : s.pc t = .wrCas true w →
      Step s { s with pc := upd s.pc t (wrTryFail s.word) }
  | wrOr {s : State T} (t : T) (v : Word) : s.pc t = .wrOr v →
      Step s { s with word := ⟨true, s.word.count⟩, pc := upd s.pc t (wrAfterOr v) }
  | wrWait {s : State T} (t : T) (e : Word) : s.pc t = .wrWait e →
      Step s { s with pc := upd s.pc t (if s.word = e then .wrSleep e.waiting else .wrCas false e.waiting) }
  | wrSpurious {s : State T} (t : T) (w : Bool) : s.pc t = .wrSleep w →
      Step s { s with pc := upd s.pc t (.wrCas false w) }
  | wrTimeout {s : State T} (t : T) (w : Bool) : s.pc t = .wrSleep w →
      Step s { s with pc := upd s.pc t .timedOut }
  | rdLoad {s : State T} (t : T) (b : Bool) : s.pc t = .rdLoad b →
      Step s { s with pc := upd s.pc t (rdTop b s.word) }
  | rdCasOk {s : State T} (t : T) (b : Bool) (c : Word) : s.pc t = .rdCas b c →
      s.word = ⟨c.waiting, oldCount c⟩ →
      Step s { word := ⟨c.waiting, oldCount c + 1⟩, pc := upd s.pc t .reading, readers := t :: s.readers }
  /-- failure, possibly spurious -/
  | rdCasFail {s : State T} (t : T) (b : Bool) (c : Word) : s.pc t = .rdCas b c →
      Step s { s with pc := upd s.pc t (rdFail b s.word) }
  | rdWait {s : State T} (t : T) (e : Word) : s.pc t = .rdWait e →
      Step s { s with pc := upd s.pc t (if s.word = e then .rdSleep else .rdLoad false) }
  | rdSpurious {s : State T} (t : T) : s.pc t = .rdSleep →
      Step s { s with pc := upd s.pc t (.rdLoad false) }
  | rdTimeout {s : State T} (t : T) : s.pc t = .rdSleep →
      Step s { s with pc := upd s.pc t .timedOut }
  | callUnlRd {s : State T} (t : T) : s.pc t = .reading →
      Step s { s with pc := upd s.pc t (.unlLoad false) }
  | callUnlWr {s : State T} (t : T) : s.pc t = .writing →
      Step s { s with pc := upd s.pc t (.unlLoad true) }
  /-- `unlock` decides by the state, not by what its caller holds (`src/sync/rwlock.rs:165-167`) -/
  | unlLoad {s : State T} (t : T) (g : Bool) : s.pc t = .unlLoad g →
      Step s { s with pc := upd s.pc t (if s.word.count = EXCLUSIVE then .unlStore g else .unlSub g) }
  | unlStore {s : State T} (t : T) (g : Bool) : s.pc t = .unlStore g →
      Step s { word := ⟨false, 0⟩, pc := upd s.pc t .unlWake, readers := s.readers.erase t }
  | unlSub {s : State T} (t : T) (g : Bool) : s.pc t = .unlSub g →
      Step s { word := ⟨s.word.waiting, s.word.count - 1⟩,
               pc := upd s.pc t (if s.word.count = 1 then .unlWake else .idle),
               readers := s.readers.erase t }
  | unlWake {s : State T} (t : T) : s.pc t = .unlWake →
      Step s { s with pc := upd (wakeAll s.pc) t .idle }
  | leave {s : State T} (t : T) : (s.pc t = .busy ∨ s.pc t = .timedOut) →
      Step s { s with pc := upd s.pc t .idle }

/-- `InnerRwLock::new` (`src/sync/rwlock.rs:31-35`). -/
def Init {T : Type} (s : State T) : Prop :=
  s.word = ⟨false, 0⟩ ∧ (∀ t, s.pc t = .idle) ∧ s.readers = []

def sys (T : Type) [DecidableEq T] : TS (State T) := ⟨Init, Step⟩

end Verif.Sync.RwLock
