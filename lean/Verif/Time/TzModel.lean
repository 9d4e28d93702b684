import Verif.Time.StrptimeModel
/-!
# `tzset`

`src/header/time/posix_tz.rs` and `tzset` of `src/header/time/mod.rs`. A `&str` is the list of its characters. The
database of time zones (`chrono-tz`, not part of the repository) is a parameter: which strings are names, and of which zone.
-/

namespace Verif.Time.Tz
open Verif.Time

/-! ## Rust's standard library -/

/-- `str::split` at a character. -/
def splitOn (sep : Char) : List Char → List (List Char)
  | [] => [[]]
  | c :: l =>
    if c = sep then [] :: splitOn sep l
    else match splitOn sep l with
      | [] => [[c]]
      | p :: ps => (c :: p) :: ps

/-- The digits of a number; `none` for anything else. -/
def digits : List Char → Nat → Option Nat
  | [], v => some v
  | c :: l, v => if '0' ≤ c && c ≤ '9' then digits l (v * 10 + (c.toNat - 48)) else none

/-- `str::parse::<i32>`. -/
def parseI32 : List Char → Option Int
  | [] => none
  | '-' :: l => if l = [] then none else (digits l 0).bind fun v => if v ≤ 2 ^ 31 then some (-(v : Int)) else none
  | '+' :: l => if l = [] then none else (digits l 0).bind fun v => if v < 2 ^ 31 then some (v : Int) else none
  | l => (digits l 0).bind fun v => if v < 2 ^ 31 then some (v : Int) else none

/-- `i64::clamp`. -/
def clamp (v lo hi : Int) : Int := if v < lo then lo else if hi < v then hi else v

/-- `str::strip_prefix`. -/
def stripPrefix : List Char → List Char → Option (List Char)
  | [], l => some l
  | p :: ps, c :: l => if p = c then stripPrefix ps l else none
  | _ :: _, [] => none

/-! ## `PosixTz` -/

/-- `PosixTz` (`src/header/time/posix_tz.rs:6-16`). Simplified: `dst_offset`, `start` and `end` are never used. -/
structure PosixTz where
  std : List Char
  dst : List Char
  daylight : Bool
  timezone : Option Int
  stdOffset : Option Int32
deriving DecidableEq

/-- A part of `time_to_seconds` behind the hours, if there is one. -/
def part (k : Int32) : Option (List Char) → Option Int32
  | none => some 0
  | some s => (parseI32 s).map fun v => Int32.ofInt v * k

/-- `time_to_seconds` (`src/header/time/posix_tz.rs:117-139`). -/
def timeToSeconds (s : List Char) : Option Int32 :=
  let parts := splitOn ':' s
  match parts with
  | [] => some 0
  | hour :: rest =>
    match parseI32 hour with
    | none => none
    | some h =>
      let hours := Int32.ofInt h * 60 * 60
      match part 60 rest[0]?, part 1 rest[1]? with
      | some min, some sec =>
        let result := (if hours < 0 then -hours else hours) + min + sec
        some (if hours < 0 then result * -1 else result)
      | _, _ => none

/-- `collect_tz_and_offset` (`src/header/time/posix_tz.rs:92-115`). `Char.isAlpha` is `is_ascii_alphabetic`. -/
def collectTzAndOffset (input : List Char) : List Char × Option Int32 × List Char :=
  let std := input.takeWhile Char.isAlpha
  let remaining := input.dropWhile Char.isAlpha
  (if std.length ≥ 3 then std else [],
    timeToSeconds (remaining.takeWhile fun c => !c.isAlpha),
    remaining.dropWhile fun c => !c.isAlpha)

/-- `parse` (`src/header/time/posix_tz.rs:41-90`). -/
def parse (input : List Char) : PosixTz :=
  if input = [] then ⟨"UTC".toList, "UTC".toList, false, none, none⟩
  else
    let parts := splitOn ',' input
    let front := parts.headD []
    let (std, stdOffset, remaining) := collectTzAndOffset front
    let result : PosixTz :=
      if std ≠ [] then
        let dst := (collectTzAndOffset remaining).1
        { std := std
          dst := dst
          daylight := dst ≠ []
          timezone := some (clamp ((stdOffset.getD 0).toInt) (-86400) 86400)
          stdOffset := stdOffset }
      else ⟨std, [], false, none, none⟩
    let hasTransitionRules := parts.length > 1
    let result := if hasTransitionRules then { result with daylight := true } else result
    if result.dst = [] ∧ result.stdOffset.isSome ∧ !hasTransitionRules then { result with dst := std } else result

/-! ## `tzset` -/

/-- `get_system_time_zone` (`src/header/time/mod.rs:735-760`); `link` is where `/etc/localtime` points to, if it is a symbolic
link. The buffer has 100 bytes and starts as zeros: the outer `none` means that no terminator is left in it (the string
then goes on behind the buffer). -/
def systemTimeZone (link : Option (List UInt8)) : Option (Option (List Char)) :=
  match link with
  | none => some none
  | some target =>
    if target.length < 100 then
      match Strptime.toStr (target.takeWhile (· ≠ 0)) with
      | none => some none
      | some path => some (stripPrefix "/usr/share/zoneinfo/".toList path)
    else none

/-- `get_current_time_zone` (`src/header/time/mod.rs:762-779`); `env` is the value of `TZ`. -/
def currentTimeZone (env link : Option (List UInt8)) : Option (List Char) :=
  match env.bind Strptime.toStr with
  | some tz => some tz
  | none => (systemTimeZone link).map fun tz => tz.getD "UTC".toList

/-- `tzset` (`src/header/time/mod.rs:652-692`); `iana` is the database, `now` the time of the clock `CLOCK_REALTIME`, in seconds
(`naive_local` of a time in UTC is the time in UTC). `none` = the buffer of `get_system_time_zone` is overrun. `CString::new` does
not fail: the names are letters. -/
def tzset (iana : List Char → Option Zone) (env link : Option (List UInt8)) (now : Int) : Option Globals :=
  (currentTimeZone env link).map fun name =>
    match iana name with
    | some z =>
      match z.fromLocal now with
      | .single t => setTimezone z t none
      | .ambiguous early late => setTimezone z late (some early)
      | .none => clearTimezone
    | none =>
      let tz := parse name
      ⟨if tz.daylight then 1 else 0, tz.timezone.getD 0, some (String.ofList tz.std), some (String.ofList tz.dst)⟩

end Verif.Time.Tz
