/-!
# Calendar time

`src/header/time/mod.rs`: `gmtime_r`, `localtime_r`, `mktime`, `timegm`, `timelocal`. The calendar itself is the crate
`chrono` and the time zones are `chrono-tz`, neither of which is part of the repository. They are modelled by what their
documentation says: dates of the proleptic Gregorian calendar from the year -262143 to 262142, and for a time zone the
offset from UTC (and how much of it is daylight saving time) at every moment, and the moments that have a given local time.
-/

namespace Verif.Time

/-! ## `chrono` -/

/-- A leap year of the Gregorian calendar. -/
def isLeap (y : Int) : Bool := y % 4 == 0 && (y % 100 != 0 || y % 400 == 0)

/-- Days of the months of a year. -/
def monthTable (y : Int) : List Nat := [31, if isLeap y then 29 else 28, 31, 30, 31, 30, 31, 31, 30, 31, 30, 31]

/-- Days from 1 January of the year 1 to 1 January of the year `y`. -/
def daysBeforeYear (y : Int) : Int := 365 * (y - 1) + (y - 1) / 4 - (y - 1) / 100 + (y - 1) / 400

/-- Days from 1 January to the first day of month `m` (from 1). -/
def daysBeforeMonth (y : Int) (m : Nat) : Nat := ((monthTable y).take (m - 1)).sum

/-- `NaiveDateTime`. -/
structure DateTime where
  year : Int
  month : Nat
  day : Nat
  hour : Nat
  minute : Nat
  second : Nat
deriving DecidableEq

/-- `NaiveDate::from_ymd_opt` followed by `and_hms_opt`. -/
def fromYmdHms (year : Int) (month day hour minute second : Nat) : Option DateTime :=
  if -262143 ≤ year ∧ year ≤ 262142 ∧ 1 ≤ month ∧ month ≤ 12 ∧ 1 ≤ day ∧ day ≤ (monthTable year).getD (month - 1) 0
      ∧ hour < 24 ∧ minute < 60 ∧ second < 60
  then some ⟨year, month, day, hour, minute, second⟩
  else none

/-- `ordinal0`. -/
def DateTime.ordinal0 (d : DateTime) : Nat := daysBeforeMonth d.year d.month + (d.day - 1)

/-- Days from 1 January of the year 1. -/
def DateTime.days (d : DateTime) : Int := daysBeforeYear d.year + d.ordinal0

/-- `weekday().num_days_from_sunday()`; 1 January of the year 1 is a Monday. -/
def DateTime.weekday (d : DateTime) : Nat := ((d.days + 1) % 7).toNat

/-- `timestamp` of a date and time (taken as UTC); 719162 days lie between 1 January of the years 1 and 1970. -/
def DateTime.timestamp (d : DateTime) : Int :=
  (d.days - 719162) * 86400 + ((d.hour * 3600 + d.minute * 60 + d.second : Nat) : Int)

/-- The year that contains the day: an estimate, corrected by one. -/
def yearOfDays (n : Int) : Int :=
  let y := 400 * n / 146097 + 1
  if n < daysBeforeYear y then y - 1 else if daysBeforeYear (y + 1) ≤ n then y + 1 else y

/-- Month (from 1) and day of a day of the year (from 0). -/
def monthOf : List Nat → Nat → Nat → Nat × Nat
  | [], m, n => (m, n + 1)
  | k :: ks, m, n => if n < k then (m, n + 1) else monthOf ks (m + 1) (n - k)

/-- The date and time of a number of seconds since the Epoch (`DateTime::from_timestamp`, without the check of the
range). -/
def dateOfTimestamp (t : Int) : DateTime :=
  let n := t / 86400 + 719162
  let s := (t % 86400).toNat
  let y := yearOfDays n
  let md := monthOf (monthTable y) 1 (n - daysBeforeYear y).toNat
  ⟨y, md.1, md.2, s / 3600, s / 60 % 60, s % 60⟩

/-- The check of the range in `timestamp_opt`. -/
def inRange (t : Int) : Bool := -262143 ≤ (dateOfTimestamp t).year && (dateOfTimestamp t).year ≤ 262142

/-- `MappedLocalTime`: the moments (seconds since the Epoch) with a given local time. -/
inductive LocalMap where
  | none
  | single (t : Int)
  | ambiguous (early late : Int)
deriving DecidableEq

/-- A time zone of `chrono-tz`: name, offset from UTC and abbreviation at every moment, how many seconds of the offset are
daylight saving time, and `from_local_datetime`. -/
structure Zone where
  name : String
  off : Int → Int
  dst : Int → Int
  abbr : Int → String
  fromLocal : Int → LocalMap

/-- `Tz::UTC`. -/
def utc : Zone := ⟨"UTC", fun _ => 0, fun _ => 0, fun _ => "UTC", .single⟩

/-! ## relibc -/

/-- `tm` (`src/header/time/mod.rs:58-70`). `tm_zone` is the string pointed to. -/
structure Tm where
  sec : Int32
  min : Int32
  hour : Int32
  mday : Int32
  mon : Int32
  year : Int32
  wday : Int32
  yday : Int32
  isdst : Int32
  gmtoff : Int64
  zone : Option String
deriving DecidableEq

/-- `daylight`, `timezone` and `tzname` (`src/header/time/mod.rs:96-110`). -/
structure Globals where
  daylight : Int32
  timezone : Int
  tzname : Option String × Option String
deriving DecidableEq

/-- `clear_timezone` (`src/header/time/mod.rs:721-733`). -/
def clearTimezone : Globals := ⟨0, 0, none, none⟩

/-- `set_timezone` (`src/header/time/mod.rs:855-885`) for the moment `std` and, if there is one, `dst`. Simplified: an
abbreviation always exists (the code panics if `chrono-tz` has none). -/
def setTimezone (z : Zone) (std : Int) (dst : Option Int) : Globals :=
  match dst with
  | some d => ⟨1, - z.off std, some (z.abbr std), some (z.abbr d)⟩
  | none => ⟨0, - z.off std, some (z.abbr std), some (z.abbr std)⟩

/-- `strip_prefix("Etc/")`, or the name. -/
def stripEtc (s : String) : String :=
  match s.toList with
  | 'E' :: 't' :: 'c' :: '/' :: t => String.ofList t
  | _ => s

/-- `datetime_to_tm` (`src/header/time/mod.rs:815-849`) for the moment `t`. -/
def datetimeToTm (z : Zone) (t : Int) : Tm :=
  let d := dateOfTimestamp (t + z.off t)
  { sec := .ofNat d.second
    min := .ofNat d.minute
    hour := .ofNat d.hour
    mday := .ofNat d.day
    mon := .ofNat (d.month - 1)
    year := .ofInt (d.year - 1900)
    wday := .ofNat d.weekday
    yday := .ofNat d.ordinal0
    isdst := .ofInt ((z.dst t).tdiv 3600)
    gmtoff := .ofInt (z.off t)
    zone := some (stripEtc z.name) }

/-- `get_localtime` (`src/header/time/mod.rs:795-813`): what is written to `result`, and the two moments. `timestamp_opt` is
never ambiguous: it is given a moment, not a local time. -/
def getLocaltime (z : Zone) (timer : Int64) : Option Tm × Option Int × Option Int :=
  if inRange timer.toInt then (some (datetimeToTm z timer.toInt), some timer.toInt, none) else (none, none, none)

/-- `gmtime_r` (`src/header/time/mod.rs:347-357`); `z` is the zone `TZ` names (UTC if it names none), `old` what `result`
points to. The function returns `result` in every case. -/
def gmtimeR (z : Zone) (timer : Int64) (old : Tm) : Tm := (getLocaltime z timer).1.getD old

/-- `localtime_r` (`src/header/time/mod.rs:386-405`): what `result` points to afterwards, and the variables. -/
def localtimeR (z : Zone) (timer : Int64) (old : Tm) : Tm × Globals :=
  match getLocaltime z timer with
  | (tm, some std, dst) => (tm.getD old, setTimezone z std dst)
  | (tm, none, _) => (tm.getD old, clearTimezone)

/-- The fields of a `tm` as a date and time, or `None` (`src/header/time/mod.rs:413-425`, and
`src/header/time/mod.rs:694-715`). -/
def naive (tm : Tm) : Option DateTime :=
  fromYmdHms (tm.year + 1900).toInt (tm.mon + 1).toUInt32.toNat tm.mday.toUInt32.toNat tm.hour.toUInt32.toNat
    tm.min.toUInt32.toNat tm.sec.toUInt32.toNat

/-- Result of `mktime`. -/
structure Made where
  ret : Int
  overflow : Bool
  tm : Tm
  globals : Globals
deriving DecidableEq

/-- `mktime` (`src/header/time/mod.rs:409-460`): value, whether errno is set to `EOVERFLOW`, the structure afterwards, the
variables. -/
def mktime (z : Zone) (tm : Tm) : Made :=
  match naive tm with
  | none => ⟨-1, true, tm, clearTimezone⟩
  | some d =>
    match z.fromLocal d.timestamp with
    | .none => ⟨-1, true, tm, clearTimezone⟩
    | .single t => ⟨t, false, datetimeToTm z t, if inRange t then setTimezone z t none else clearTimezone⟩
    | .ambiguous early late =>
      let t := if tm.isdst > 0 then early else late
      ⟨t, false, datetimeToTm z t, if inRange t then setTimezone z t none else clearTimezone⟩

/-- `timegm` (`src/header/time/mod.rs:517-532`): value and the structure afterwards. -/
def timegm (tm : Tm) : Int × Tm :=
  match naive tm with
  | none => (-1, tm)
  | some d =>
    (d.timestamp, { tm with
      wday := .ofNat d.weekday
      yday := .ofNat d.ordinal0
      isdst := 0
      gmtoff := 0
      zone := some "UTC" })

/-- `timelocal` (`src/header/time/mod.rs:537-559`). -/
def timelocal (z : Zone) (tm : Tm) : Int × Tm :=
  match naive tm with
  | none => (-1, tm)
  | some d =>
    let done := fun t : Int =>
      let l := dateOfTimestamp (t + z.off t)
      (t, { tm with
        wday := .ofNat l.weekday
        yday := .ofNat l.ordinal0
        isdst := .ofInt ((z.dst t).tdiv 3600)
        gmtoff := .ofInt (z.off t)
        zone := some z.name })
    match z.fromLocal d.timestamp with
    | .none => (-1, tm)
    | .single t => done t
    | .ambiguous early _ => done early

/-- `difftime` (`src/header/time/mod.rs:313-315`), before the conversion to `double`. -/
def difftime (time1 time0 : Int64) : Int64 := time1 - time0

end Verif.Time
