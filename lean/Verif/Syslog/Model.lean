import Verif.Stdio.StreamModel
import Verif.Stdio.PrintfModel
/-!
# `syslog` on Redox

`src/header/sys_syslog/{mod.rs,logger.rs,redox.rs}`: `openlog`, `closelog`, `setlogmask`, `syslog`.

* The log (`/scheme/log`) is one `Kernel`; what it accepts through any descriptor is added to `Kernel.log`. A write is not
  interrupted by signals.
* The message as formatted by `printf` (C35, C62), the time as text and the process id are given with the call. Standard error is the bytes
  written to it.
* Shifts are those of release builds: the distance is taken modulo 32.
* All bits of a `Priority` are known (`FacilityMask`, `PriorityMask`), so `from_bits` gives a value for every word.
* The Linux variant (`linux.rs`) is not modelled.
-/

namespace Verif.Syslog
open Verif.Stdio

/-- A call of `syslog`: the priority, whether the format is the empty string, the formatted message, the time, the process id. -/
structure Call where
  prio : UInt32
  emptyFormat : Bool := false
  text : List UInt8
  stamp : List UInt8
  pid : Nat

/-- The calls. An identity of `none` is a null pointer. -/
inductive Op where
  | openlog (ident : Option (List UInt8)) (opt facility : UInt32)
  | setlogmask (mask : UInt32)
  | closelog
  | syslog (c : Call)

/-- Surroundings: what is valid UTF-8, `program_invocation_short_name`, and whether the `n`-th attempt to open the log succeeds. -/
structure Env where
  utf8 : List UInt8 → Bool
  prog : Option (List UInt8)
  opens : Nat → Bool

/-- `LogParams` (`src/header/sys_syslog/logger.rs:33-40`), the log, standard error and the number of attempts to open the log. -/
structure St where
  ident : List UInt8
  opt : UInt32
  mask : UInt32
  writer : Option BufWriter
  k : Kernel
  err : List UInt8
  opened : Nat

/-- `LogParams::new` (`src/header/sys_syslog/logger.rs:43-50`). -/
def St.init (k : Kernel) : St := ⟨[], 4, 8 ||| 0xFF, none, k, [], 0⟩

/-- `set_identity` (`src/header/sys_syslog/logger.rs:136-152`): the string with a NUL behind it. -/
def identity (e : Env) : Option (List UInt8) → List UInt8
  | some s => s ++ [0]
  | none => match e.prog with
    | some n => if e.utf8 n then n ++ [0] else [0]
    | none => [0]

/-- `set_identity_cstr` (`src/header/sys_syslog/logger.rs:125-130`). -/
def identityC (e : Env) (ident : Option (List UInt8)) : List UInt8 :=
  match ident with
  | none => identity e none
  | some s => if s = [] then identity e none else if e.utf8 s then identity e (some s) else identity e none

/-- `open_logger` (`src/header/sys_syslog/logger.rs:164-168`, `src/header/sys_syslog/redox.rs:12-14`): the old writer is dropped; `BufWriter` has
no destructor. -/
def openLogger (e : Env) (s : St) : Bool × St :=
  if e.opens s.opened then (true, { s with writer := some ⟨[], 8192⟩, opened := s.opened + 1 })
  else (false, { s with opened := s.opened + 1 })

/-- `write_all` (`src/io/mod.rs:1754-1769`). -/
def writeAll (w : BufWriter) (k : Kernel) (b : List UInt8) : Bool × BufWriter × Kernel :=
  if b = [] then (true, w, k)
  else match w.write k b with
    | (none, w, k) => (false, w, k)
    | (some 0, w, k) => (false, w, k)
    | (some (n + 1), w, k) => writeAll w k (b.drop (n + 1))
termination_by b.length
decreasing_by
  have := List.length_pos_iff.2 ‹¬ b = []›
  rw [List.length_drop]
  omega

/-- A record written with the writer there is; `false` if there is none or it fails. -/
def attempt (s : St) (b : List UInt8) : Bool × St :=
  match s.writer with
  | none => (false, s)
  | some w =>
    let r := writeAll w s.k b
    (r.1, { s with writer := some r.2.1, k := r.2.2 })

/-- The record (`src/header/sys_syslog/logger.rs:67-87`). -/
def record (s : St) (c : Call) : List UInt8 :=
  [0x3C] ++ signedString c.prio.toInt32.toInt ++ [0x3E] ++ c.stamp ++ [0x20] ++ s.ident
    ++ (if s.opt &&& 1 = 1 then digitsOf 10 false c.pid else []) ++ [0x3A, 0x20] ++ c.text ++ [0x0A, 0]

/-- The record is written; if that fails the log is opened once more (`src/header/sys_syslog/logger.rs:89-107`). -/
def put (e : Env) (s : St) (b : List UInt8) : St :=
  let m := if s.writer.isNone then openLogger e s else (true, s)
  if m.1 then
    let a := attempt m.2 b
    if a.1 then a.2
    else
      let o := openLogger e a.2
      if o.1 then (attempt o.2 b).2 else o.2
  else m.2

/-- What `%s` prints. -/
def cstr (b : List UInt8) : List UInt8 := b.takeWhile (· ≠ 0)

/-- `write_log` (`src/header/sys_syslog/logger.rs:52-120`). -/
def writeLog (e : Env) (s : St) (c : Call) : St :=
  if c.emptyFormat then s
  else
    let s := if s.ident = [] then { s with ident := identity e none } else s
    let s := put e s (record s c)
    if s.opt &&& 32 = 32 then { s with err := s.err ++ cstr s.ident ++ [0x3A, 0x20] ++ cstr (c.text ++ [0x0A, 0]) } else s

/-- `should_log` (`src/header/sys_syslog/logger.rs:266-269`). -/
def shouldLog (mask prio : UInt32) : Bool := (mask &&& 0x3FF) &&& ((1 : UInt32) <<< prio) = (1 : UInt32) <<< prio

/-- `setlogmask` with `with_mask` (`src/header/sys_syslog/mod.rs:89-98`, `src/header/sys_syslog/logger.rs:245-250`). -/
def setlogmask (s : St) (mask : UInt32) : UInt32 × St :=
  (s.mask, if mask ≠ 0 then { s with mask := (mask &&& 0x3FF) ||| (s.mask &&& ~~~0x3FF) } else s)

/-- `openlog` with `with_facility` (`src/header/sys_syslog/mod.rs:102-121`, `src/header/sys_syslog/logger.rs:253-258`). -/
def openlog (e : Env) (s : St) (ident : Option (List UInt8)) (opt facility : UInt32) : St :=
  let s := { s with ident := identityC e ident, opt := opt &&& 0x3F, mask := (s.mask &&& 0x3FF) ||| (facility &&& ~~~0x3FF) }
  if s.opt &&& 8 = 8 then (openLogger e s).2 else s

/-- One call. `closelog` (`src/header/sys_syslog/mod.rs:144-146`, `src/header/sys_syslog/logger.rs:173-175`), `syslog`
(`src/header/sys_syslog/mod.rs:127-146`). -/
def step (e : Env) (s : St) : Op → St
  | .openlog ident opt facility => openlog e s ident opt facility
  | .setlogmask mask => (setlogmask s mask).2
  | .closelog => { s with writer := none }
  | .syslog c => if shouldLog s.mask c.prio then writeLog e s c else s

/-- Calls in a row. -/
def run (e : Env) (s : St) : List Op → St
  | [] => s
  | o :: l => run e (step e s o) l

end Verif.Syslog
