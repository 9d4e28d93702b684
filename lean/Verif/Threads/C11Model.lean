import Verif.Threads.CreateModel
import Verif.Time.TimespecModel

/-!
# `threads.h`

`src/header/threads/mod.rs`, on top of `pthread_mutex_*` (`src/sync/pthread_mutex.rs`), `pthread_cond_timedwait` (`src/sync/cond.rs`) and
`pthread_create`. Results are those of one thread; what other threads do meanwhile is a parameter: for a function that waits, the list of what
it sees in each turn of its loop (`Turn`). Thread identifiers are not 0 and below 2^31, so that the masking of the lock word is the identity.
`errno` is a component of the results.

`call_once`, `tss_*`, `cnd_signal`, `cnd_broadcast`, `thrd_current`, `thrd_equal`, `thrd_detach`, `thrd_yield` call the function of pthreads
with the same arguments (C03, C11, C15, C56).
-/

namespace Verif.Threads

open Verif.Mem Verif.Net Verif.Stdlib Verif.Time

/-- Error numbers (`src/header/errno/mod.rs:47-157`). -/
def EPERM : Nat := 1
def EBUSY : Nat := 16
def EDEADLK : Nat := 35
def ETIMEDOUT : Nat := 110

/-- `thrd_*` (`src/header/threads/mod.rs:38-42`). -/
def thrd_success : Nat := 0
def thrd_busy : Nat := 1
def thrd_error : Nat := 2
def thrd_nomem : Nat := 3
def thrd_timedout : Nat := 4

/-- `Ty` (`src/sync/pthread_mutex.rs:222-233`). -/
inductive Ty | normal | def' | errck | recursive
  deriving DecidableEq

/-- `RlctMutex` (`src/sync/pthread_mutex.rs:14-21`). -/
structure Mtx where
  /-- 0, or the identifier of the owner -/
  word : Nat
  count : Nat
  ty : Ty
  robust : Bool
  deriving DecidableEq

/-- `e` (`src/header/pthread/mod.rs:19-24`). -/
def code : Except Nat Unit → Nat
  | .ok () => 0
  | .error e => e

/-- `RlctMutex::new` (`src/sync/pthread_mutex.rs:35-61`) of the attributes `robust` and `ty`. -/
def newMtx (robust ty : UInt32) : Except Nat Mtx :=
  if robust > 1 then .error EINVAL
  else if ty = 0 then .ok ⟨0, 0, .def', robust = 0⟩
  else if ty = 1 then .ok ⟨0, 0, .errck, robust = 0⟩
  else if ty = 3 then .ok ⟨0, 0, .recursive, robust = 0⟩
  else if ty = 2 then .ok ⟨0, 0, .normal, robust = 0⟩
  else .error EINVAL

/-- `increment_recursive_count` (`src/sync/pthread_mutex.rs:143-160`). -/
def incCount (x : Mtx) : Except Nat Unit × Mtx :=
  if x.count = 2 ^ 32 - 1 then (.error EAGAIN, x) else (.ok (), { x with count := x.count + 1 })

/-- `RlctMutex::try_lock` (`src/sync/pthread_mutex.rs:161-189`) by the thread `t`. -/
def tryLock (t : Nat) (x : Mtx) : Except Nat Unit × Mtx :=
  let seen := x.word
  let x := if seen = 0 then { x with word := t } else x
  if x.ty = .recursive then
    if seen ≠ 0 ∧ seen ≠ t then (.error EBUSY, x) else incCount x
  else if seen = 0 then (.ok (), x)
  else if seen = t ∧ x.ty = .errck then (.error EDEADLK, x)
  else (.error EBUSY, x)

/-- `FutexWaitResult` (`src/sync/mod.rs:131-136`). -/
inductive Wait | waited | stale | timedOut
  deriving DecidableEq

/-- What one turn of the loop of `lock_inner` meets: the lock word, whether the compare-and-exchange fails for no reason, and how the wait ends. -/
structure Turn where
  word : Nat
  spurious : Bool
  wait : Wait

/-- `lock_inner` (`src/sync/pthread_mutex.rs:75-136`); without a deadline a wait does not time out. `none`: not finished after these turns. -/
def lockInner (t : Nat) (deadline : Bool) : List Turn → Mtx → Option (Except Nat Unit × Mtx)
  | [], _ => none
  | w :: ws, x =>
    let x := { x with word := w.word }
    if w.word = 0 ∧ ¬ w.spurious then
      let x := { x with word := t }
      if x.ty = .recursive then some (incCount x) else some (.ok (), x)
    else if w.word = t ∧ x.ty = .recursive then some (incCount x)
    else if w.word = t ∧ x.ty = .errck then some (.error EAGAIN, x)
    else if w.word = 0 then lockInner t deadline ws x
    else if w.wait = .timedOut ∧ deadline then some (.error ETIMEDOUT, x)
    else lockInner t deadline ws x

/-- `RlctMutex::unlock` (`src/sync/pthread_mutex.rs:191-219`); `recursive_count - 1` wraps around. -/
def unlock (t : Nat) (x : Mtx) : Except Nat Unit × Mtx :=
  if (x.robust ∨ x.ty = .recursive ∨ x.ty = .errck) ∧ x.word ≠ t then (.error EPERM, x)
  else if x.ty = .recursive then
    let next := if x.count = 0 then 2 ^ 32 - 1 else x.count - 1
    if next > 0 then (.ok (), { x with count := next }) else (.ok (), { x with count := next, word := 0 })
  else (.ok (), { x with word := 0 })

/-- `mtx_init` (`src/header/threads/mod.rs:138-160`); the attributes have the default of `robust` (`src/header/pthread/mutex.rs:228-238`). -/
def mtxInit (ty : UInt32) : Nat × Option Mtx :=
  match newMtx 1 (if ty &&& 1 = 1 then 3 else 2) with
  | .ok x => (thrd_success, some x)
  | .error _ => (thrd_error, none)

/-- The `match` on the result of a function of pthreads, and on `errno`, in `mtx_trylock`, `mtx_timedlock`, `cnd_timedwait`, `thrd_create`
(`src/header/threads/mod.rs:191-195`, `:178-182`, `:109-113`, `:227-231`). -/
def report (ret errno want res : Nat) : Nat := if ret = 0 then thrd_success else if errno = want then res else thrd_error

/-- `mtx_trylock` (`src/header/threads/mod.rs:187-196`): result, mutex, `errno`. -/
def mtxTrylock (t : Nat) (x : Mtx) : Nat × Mtx × Nat :=
  let errno := 0
  let (r, x) := tryLock t x
  (report (code r) errno EBUSY thrd_busy, x, errno)

/-- `mtx_lock` (`src/header/threads/mod.rs:164-170`). -/
def mtxLock (t : Nat) (ws : List Turn) (x : Mtx) : Option (Nat × Mtx) :=
  match lockInner t false ws x with
  | none => none
  | some (r, x) => some (if code r = 0 then thrd_success else thrd_error, x)

/-- `mtx_timedlock` (`src/header/threads/mod.rs:174-183`) with `pthread_mutex_timedlock` (`src/header/pthread/mutex.rs:82-92`), the clocks at `now` and
`mono`: result, mutex, `errno`. -/
def mtxTimedlock (t : Nat) (now mono abs : Timespec) (ws : List Turn) (x : Mtx) : Option (Nat × Mtx × Nat) :=
  let errno := 0
  match realtimeToMonotonic now mono abs with
  | .error .etimedout => some (report ETIMEDOUT errno ETIMEDOUT thrd_timedout, x, errno)
  | .error .enomem => some (report ENOMEM errno ETIMEDOUT thrd_timedout, x, errno)
  | .ok _ => match lockInner t true ws x with
    | none => none
    | some (r, x) => some (report (code r) errno ETIMEDOUT thrd_timedout, x, errno)

/-- `mtx_unlock` (`src/header/threads/mod.rs:200-206`). -/
def mtxUnlock (t : Nat) (x : Mtx) : Nat × Mtx :=
  let (r, x) := unlock t x
  (if code r = 0 then thrd_success else thrd_error, x)

/-- `cnd_timedwait` (`src/header/threads/mod.rs:95-114`) with `Cond::clockwait` and `wait_inner_generic` (`src/sync/cond.rs:61-76`,
`:109-129`): `wait` is how the wait ends, `ws` what the thread meets when it locks the mutex again. -/
def cndTimedwait (t : Nat) (now mono abs : Timespec) (wait : Wait) (ws : List Turn) (x : Mtx) : Option (Nat × Mtx × Nat) :=
  let errno := 0
  match realtimeToMonotonic now mono abs with
  | .error .etimedout => some (report ETIMEDOUT errno ETIMEDOUT thrd_timedout, x, errno)
  | .error .enomem => some (report ENOMEM errno ETIMEDOUT thrd_timedout, x, errno)
  | .ok _ => match unlock t x with
    | (.error e, x) => some (report e errno ETIMEDOUT thrd_timedout, x, errno)
    | (.ok (), x) => match lockInner t false ws x with
      | none => none
      | some (.error e, x) => some (report e errno ETIMEDOUT thrd_timedout, x, errno)
      | some (.ok (), x) =>
        some (report (if wait = .timedOut then ETIMEDOUT else 0) errno ETIMEDOUT thrd_timedout, x, errno)

/-- `thrd_create` (`src/header/threads/mod.rs:210-231`): result, thread, memory, `errno`. -/
def thrdCreate (k : Kernel) (m : Mem UInt8) (x : Args) : Option (Nat × Option Thread × Mem UInt8 × Nat) := do
  let (r, m, e) ← create k m none x
  match r with
  | .ok t => some (report 0 e ENOMEM thrd_nomem, some t, m, e)
  | .error c => some (report c e ENOMEM thrd_nomem, none, m, e)

/-- What a thread ends with (`thrd_exit`, `src/header/threads/mod.rs:257-259`, or the value in the register in which the start routine returns an
`int`): the lower 32 bits are the result, `high` are the others. -/
def retval (res : UInt32) (high : Nat) : Nat := res.toNat + 2 ^ 32 * high

/-- `thrd_join` (`src/header/threads/mod.rs:263-269`) with `pthread_join` (`src/header/pthread/mod.rs:218-228`) of a thread which ends with `v`; `self`: it
is the calling thread (`EDEADLK`). -/
def thrdJoin (m : Mem UInt8) (self : Bool) (v : Nat) (p : Nat) : Option (Nat × Mem UInt8) :=
  if self then some (thrd_error, m)
  else if p = 0 then some (thrd_success, m)
  else (writeN m p (leBytes 8 v)).map fun m => (thrd_success, m)

/-- `thrd_sleep` (`src/header/threads/mod.rs:273-282`): `clock_nanosleep` (`src/header/time/mod.rs:263-270`) is `unimplemented!`. -/
def thrdSleep (_time : Timespec) : Option Int := none

end Verif.Threads
