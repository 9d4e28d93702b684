/-!
# Timers on Redox

`timer_create`, `timer_settime`, `timer_gettime`, `timer_delete` (`src/platform/redox/mod.rs:1521-1649`), the thread behind a timer
(`src/platform/redox/timer.rs`) and `alarm` (`src/header/unistd/alarm.rs`).

One timer is modelled, as a transition system. Times are natural numbers (nanoseconds on the clock of the timer); sums and differences of
`struct timespec` are the subject of C33. A time of 0 is `timespec::default()`. The kernel's part: what is written to the time scheme
is a wake-up for that time; it cannot be withdrawn (comment in `src/platform/redox/timer.rs:40`), and when the time has come, one event is
put into the event queue of the timer. System calls do not fail. The lock `TIMERS` makes each function one step; the thread's reading of the
clock in `timer_update_wake_time` is some time after the delivery of the signal. Cancelling the thread in `timer_delete` is left out: the thread
ends when it finds no timer. `SIGEV_THREAD` and `SIGEV_SIGNAL` are not distinguished.
-/

namespace Verif.Timer

/-- The part of `RlctTimer` (`src/platform/redox/timer.rs:31-45`) that changes: `next_wake_time`, `next_wake_version`, and whether `thread` is not null. -/
structure Tm where
  value : Nat := 0
  interval : Nat := 0
  version : Nat := 0
  thread : Bool := false
deriving DecidableEq

/-- The thread of a timer: created, or waiting for an event with its local `timer_version`. -/
inductive Routine where
  | starting
  | waiting (v : Nat)
deriving DecidableEq

/-- What a program sees: calls that arm or disarm the timer, with the time of expiry, and notifications. -/
inductive Ev where
  | armed (at_ : Nat) (interval : Nat)
  | disarmed
  | sent (now : Nat)
  | deleted
deriving DecidableEq

/-- The clock, the timer (`none` after `timer_delete`), the wake-ups in the kernel, the number of events in the queue, the threads running
`timer_routine`, and what happened so far. -/
structure St where
  now : Nat
  tm : Option Tm
  kernel : List Nat
  events : Nat
  threads : List Routine
  trace : List Ev
deriving DecidableEq

/-- After `timer_create` (`RlctTimer::create`, `src/platform/redox/timer.rs:52-76`). -/
def created (now : Nat) : St := ⟨now, some {}, [], 0, [], []⟩

/-- `NSIG`, `SIGRTMIN`, `SIGRTMAX` (`src/header/signal/constants.rs:117-124`). -/
def NSIG : Int := 32
def SIGRTMIN : Int := 35
def SIGRTMAX : Int := 64

/-- The check of the signal number in `timer_create` (`src/platform/redox/mod.rs:1526-1537`). -/
def createAccepts (signo : Int) : Bool :=
  let rtMax := SIGRTMIN
  (0 ≤ signo && signo < NSIG) || (SIGRTMIN ≤ signo && signo ≤ rtMax)

/-- `timer_settime` (`src/platform/redox/mod.rs:1591-1649`): `none` is `EINVAL` (no such timer). -/
def settime (s : St) (abs : Bool) (value interval : Nat) : Option St :=
  match s.tm with
  | none => none
  | some t =>
    if value = 0 then some { s with tm := some { t with version := t.version + 1 }, trace := s.trace ++ [.disarmed] }
    else
      let at_ := if abs then value else s.now + value
      let t' : Tm := { t with value := at_, interval := interval, thread := true }
      some { s with
        tm := some t'
        kernel := s.kernel ++ [at_]
        threads := if t.thread then s.threads else s.threads ++ [.starting]
        trace := s.trace ++ [.armed at_ interval] }

/-- `timer_gettime` (`src/platform/redox/mod.rs:1566-1588`), not for `SIGEV_NONE`: value and interval. -/
def gettime (s : St) : Option (Nat × Nat) :=
  s.tm.map fun t => if t.value = 0 then (0, 0) else (t.value - s.now, t.interval)

/-- `timer_delete` (`src/platform/redox/mod.rs:1553-1564`). -/
def delete (s : St) : Option St :=
  s.tm.map fun _ => { s with tm := none, trace := s.trace ++ [.deleted] }

/-- The kernel: the wake-up number `i` is due. -/
def wake (s : St) (i : Nat) : Option St :=
  match s.kernel[i]? with
  | some t => if t ≤ s.now then some { s with kernel := s.kernel.eraseIdx i, events := s.events + 1 } else none
  | none => none

/-- The start of `timer_routine` (`src/platform/redox/timer.rs:80-87`) in thread `i`. -/
def start (s : St) (i : Nat) : Option St :=
  match s.threads[i]? with
  | some .starting => match s.tm with
    | none => some { s with threads := s.threads.eraseIdx i }
    | some t => some { s with threads := s.threads.set i (.waiting t.version) }
  | _ => none

/-- `timer_next_event` (`src/platform/redox/timer.rs:136-156`) with `timer_update_wake_time` (`src/platform/redox/timer.rs:159-173`), at time `now`: the timer,
and the new wake-up unless the thread ends. -/
def nextEvent (t : Tm) (now : Nat) : Tm × Option Nat :=
  if t.interval = 0 then ({ t with value := 0, thread := false }, none)
  else if now + t.interval = 0 then ({ t with value := 0, thread := false }, none)
  else ({ t with value := now + t.interval, version := t.version + 1 }, some (now + t.interval))

/-- One round of the loop of `timer_routine` (`src/platform/redox/timer.rs:88-130`) in thread `i`, which has received an event; `later` is how much later the
clock is read. -/
def handle (s : St) (i later : Nat) : Option St :=
  match s.threads[i]? with
  | some (.waiting v) =>
    if s.events = 0 then none
    else match s.tm with
      | none => some { s with events := s.events - 1, threads := s.threads.eraseIdx i }
      | some t =>
        let trace := if v = t.version then s.trace ++ [.sent s.now] else s.trace
        match nextEvent t (s.now + later) with
        | (t', none) => some { s with now := s.now + later, tm := some t', events := s.events - 1, threads := s.threads.eraseIdx i, trace := trace }
        | (t', some w) => some { s with
            now := s.now + later, tm := some t', kernel := s.kernel ++ [w], events := s.events - 1
            threads := s.threads.set i (.waiting t'.version), trace := trace }
  | _ => none

/-- Steps that are not calls of the program. -/
inductive Internal : St → St → Prop where
  | tick (s d) : Internal s { s with now := s.now + d }
  | wake (s s' i) (h : wake s i = some s') : Internal s s'
  | start (s s' i) (h : start s i = some s') : Internal s s'
  | handle (s s' i later) (h : handle s i later = some s') : Internal s s'

/-- `alarm_timespec` (`src/header/unistd/alarm.rs:33-88`) for `ns` nanoseconds, on the timer made for it (before the first call there is none, which is
a timer never armed): the seconds that remained, and the state. -/
def alarm (s : St) (ns : Nat) : Option (Nat × St) :=
  let remaining := match gettime s with
    | some (v, _) => (v + 999999999) / 1000000000
    | none => 0
  (settime s false ns 0).map fun s' => (remaining, s')

end Verif.Timer
