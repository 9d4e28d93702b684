/-!
# `struct timespec` arithmetic

`src/header/bits_timespec/mod.rs` and `timespec_realtime_to_monotonic` of `src/header/time/mod.rs`. `time_t` and
`c_long` are 64-bit signed words; `+`, `-`, `*` on them wrap, as in a release build, and `/`, `%` truncate, as in Rust.
-/

namespace Verif.Time

/-- `timespec` (`src/header/bits_timespec/mod.rs:10-15`). -/
structure Timespec where
  sec : Int64
  nsec : Int64
  deriving DecidableEq

/-- `NANOSECONDS` (`src/header/time/mod.rs:52`). -/
abbrev nanos : Int64 := 1000000000

/-- `i64::checked_add`. -/
def checkedAdd (a b : Int64) : Option Int64 :=
  if -2 ^ 63 ≤ a.toInt + b.toInt ∧ a.toInt + b.toInt < 2 ^ 63 then some (a + b) else none

/-- `i64::checked_sub`. -/
def checkedSub (a b : Int64) : Option Int64 :=
  if -2 ^ 63 ≤ a.toInt - b.toInt ∧ a.toInt - b.toInt < 2 ^ 63 then some (a - b) else none

/-- `timespec::add` (`src/header/bits_timespec/mod.rs:21-33`). -/
def Timespec.add (base interval : Timespec) : Option Timespec := do
  let deltaSec ← checkedAdd base.sec interval.sec
  let deltaNsec ← checkedAdd base.nsec interval.nsec
  if deltaSec < 0 || deltaNsec < 0 then none
  else some ⟨deltaSec + deltaNsec / nanos, deltaNsec % nanos⟩

/-- `timespec::subtract` (`src/header/bits_timespec/mod.rs:35-59`). -/
def Timespec.subtract (later earlier : Timespec) : Option Timespec := do
  let deltaSec ← checkedSub later.sec earlier.sec
  let deltaNsec ← checkedSub later.nsec earlier.nsec
  let time : Timespec :=
    if deltaNsec < 0 then
      let roundup := (-deltaNsec) / nanos + 1
      ⟨deltaSec - roundup, roundup * nanos - deltaNsec⟩
    else ⟨deltaSec + deltaNsec / nanos, deltaNsec % nanos⟩
  if time.sec < 0 then none else some time

/-- The errors of `timespec_realtime_to_monotonic`. -/
inductive TErr where
  | etimedout
  | enomem
  deriving DecidableEq

/-- `timespec_realtime_to_monotonic` (`src/header/time/mod.rs:903-916`); the two clock readings are parameters. -/
def realtimeToMonotonic (realtime monotonic abstime : Timespec) : Except TErr Timespec :=
  match abstime.subtract realtime with
  | none => .error .etimedout
  | some delta =>
    match monotonic.add delta with
    | none => .error .enomem
    | some relative => .ok relative

end Verif.Time
