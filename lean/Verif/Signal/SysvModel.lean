import Verif.Signal.ActionModel
/-!
# The signal functions of System V

`sighold`, `sigrelse`, `sigignore`, `sigset`, `sigpause` (`src/header/signal/mod.rs`), in terms of the models of `sigaction`,
`sigprocmask`, `sigsuspend` and the functions on signal sets. Between the accesses to the control words anybody may send signals (`Env`).
A handler is its address: 0 is `SIG_DFL`, 1 `SIG_IGN`, 2 `SIG_HOLD`, -1 `SIG_ERR`. The handlers run by these functions are not modelled,
see `MaskModel`.
-/

namespace Verif.Signal

/-- The process: the actions and the control words, and the number of accesses so far. -/
structure Sysv where
  sigs : Sigs
  time : Nat

/-- The control words, for the functions on the mask. -/
def Sysv.mach (s : Sysv) : Mach := ⟨s.sigs.ctl, s.time⟩

/-- The process with other control words. -/
def Sysv.withMach (s : Sysv) (m : Mach) : Sysv := ⟨{ s.sigs with ctl := m.ctl }, m.time⟩

/-- The process with other actions. -/
def Sysv.withSigs (s : Sysv) (t : Sigs) : Sysv := ⟨t, s.time⟩

/-- `SIG_HOLD` (`src/header/signal/mod.rs:51`). -/
def SIG_HOLD : U64 := 2

/-- `SIG_ERR` (`src/header/signal/mod.rs:47`). -/
def SIG_ERR : U64 := -1

/-- `sighold` (`src/header/signal/mod.rs:429-437`): the return value. The uninitialised set is emptied first, whatever it contains. -/
def sighold (e : Env) (s : Sysv) (sig : Int) : Int × Sysv :=
  let a := sigaddset (sigemptyset (some 0)).set sig
  if a.ret < 0 then (-1, s)
  else
    let r := sigprocmask e s.mach 0 a.set false
    (r.1.ret, s.withMach r.2)

/-- `sigrelse` (`src/header/signal/mod.rs:657-665`). -/
def sigrelse (e : Env) (s : Sysv) (sig : Int) : Int × Sysv :=
  let a := sigaddset (sigemptyset (some 0)).set sig
  if a.ret < 0 then (-1, s)
  else
    let r := sigprocmask e s.mach 1 a.set false
    (r.1.ret, s.withMach r.2)

/-- `sigignore` (`src/header/signal/mod.rs:458-465`). -/
def sigignore (s : Sysv) (sig : Int) : Int × Sysv :=
  let r := sigaction s.sigs sig (some ⟨1, 0, 0⟩)
  (if r.1.isSome then 0 else -1, s.withSigs r.2)

/-- The end of `sigset` (`src/header/signal/mod.rs:731-734`). -/
def sigsetResult (set : Option U64) (sig : Int) (old : CAction) : U64 :=
  if (sigismember set sig).ret = 1 then SIG_HOLD else old.handler

/-- `sigset` (`src/header/signal/mod.rs:686-735`): the handler returned. The set passed to `sigprocmask` is overwritten by the mask before. -/
def sigset (e : Env) (s : Sysv) (sig : Int) (func : U64) : U64 × Sysv :=
  let a := sigaddset (sigemptyset (some 0)).set sig
  if a.ret < 0 then (SIG_ERR, s)
  else if func = SIG_HOLD then
    match sigaction s.sigs sig none with
    | (none, t) => (SIG_ERR, s.withSigs t)
    | (some old, t) =>
      let s := s.withSigs t
      let r := sigprocmask e s.mach 0 a.set true
      if r.1.ret < 0 then (SIG_ERR, s.withMach r.2)
      else (sigsetResult r.1.oset sig old, s.withMach r.2)
  else
    match sigaction s.sigs sig (some ⟨func, 0, 0⟩) with
    | (none, t) => (SIG_ERR, s.withSigs t)
    | (some old, t) =>
      let s := s.withSigs t
      let r := sigprocmask e s.mach 1 a.set true
      if r.1.ret < 0 then (SIG_ERR, s.withMach r.2)
      else (sigsetResult r.1.oset sig old, s.withMach r.2)

/-- The state in which `sigsuspend` waits: the first half of `Verif.Signal.sigsuspend` (`redox-rt/src/signal.rs:778-784`). -/
def suspended (e : Env) (s : Mach) (mask : U64) : Mach :=
  let old := getAllowset e s
  (setAllowset e old.2 old.1 (~~~ mask)).2

/-- `sigpause` (`src/header/signal/mod.rs:573-581`), which always returns -1: the state in which it waits if it does, and the one after. -/
def sigpause (e : Env) (s : Mach) (sig : Int) : Option Mach × Mach :=
  let q := sigprocmask e s 0 none true
  let d := sigdelset q.1.oset sig
  if d.ret = -1 then (none, q.2)
  else
    let mask := d.set.getD 0
    (some (suspended e q.2 mask), sigsuspend e q.2 mask)

end Verif.Signal
