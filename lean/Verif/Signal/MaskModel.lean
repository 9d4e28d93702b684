import Verif.Signal.SigsetModel
/-!
# The signal mask on Redox

`redox-rt/src/signal.rs`: each thread has two control words, `word[0]` for signals 1–32 and `word[1]` for signals 33–64.
The low half of a word has a bit for each pending signal, the high half a bit for each *allowed* (not blocked) signal.
Only the thread itself changes the high halves and clears bits in the low halves; other threads and the process manager
set bits in the low halves at any time. `PROC_CONTROL_STRUCT.pending` (signals pending for the process) may be changed
by anybody at any time.

The functions are modelled at the granularity of atomic accesses: before each access the others may do anything they
are allowed to do. What they do is given by an `Env`, over which the theorems quantify.

Not modelled: the trampoline (`manually_enter_trampoline`, assembly); that it is entered is recorded. The handlers it runs
leave the words as they found them (`inner`, `redox-rt/src/signal.rs:105-300`, saves the allow set and restores it).
`tmp_disable_signals` keeps the trampoline from running elsewhere in these functions.
-/

namespace Verif.Signal

/-- `Sigcontrol.word` of the calling thread, and `PROC_CONTROL_STRUCT.pending`. -/
structure Ctl where
  w0 : U64
  w1 : U64
  proc : U64

/-- What others do between two accesses of the thread: post signals to the thread, change the process' pending set. -/
structure Post where
  t0 : U64
  t1 : U64
  proc : U64 → U64

/-- `0xffff_ffff`. -/
def lo32 : U64 := 0xFFFFFFFF#64

/-- The effect: only the low halves of the words, and bits are only set. -/
def Ctl.post (c : Ctl) (p : Post) : Ctl :=
  { w0 := c.w0 ||| (p.t0 &&& lo32), w1 := c.w1 ||| (p.t1 &&& lo32), proc := p.proc c.proc }

/-- What happens before each access. -/
abbrev Env := Nat → Post

/-- The words, and the number of accesses so far. -/
structure Mach where
  ctl : Ctl
  time : Nat

/-- An atomic access after interference. -/
def access {α : Type} (e : Env) (s : Mach) (f : Ctl → α × Ctl) : α × Mach :=
  let r := f (s.ctl.post (e s.time))
  (r.1, ⟨r.2, s.time + 1⟩)

/-- `words[0].load` -/
def load0 (e : Env) (s : Mach) : U64 × Mach := access e s fun c => (c.w0, c)
/-- `words[1].load` -/
def load1 (e : Env) (s : Mach) : U64 × Mach := access e s fun c => (c.w1, c)
/-- `PROC_CONTROL_STRUCT.pending.load` -/
def loadProc (e : Env) (s : Mach) : U64 × Mach := access e s fun c => (c.proc, c)
/-- `words[0].fetch_add(d)` -/
def fetchAdd0 (e : Env) (s : Mach) (d : U64) : U64 × Mach := access e s fun c => (c.w0, { c with w0 := c.w0 + d })
/-- `words[1].fetch_add(d)` -/
def fetchAdd1 (e : Env) (s : Mach) (d : U64) : U64 × Mach := access e s fun c => (c.w1, { c with w1 := c.w1 + d })

/-- `get_allowset_raw` (`redox-rt/src/signal.rs:313-315`). -/
def getAllowset (e : Env) (s : Mach) : U64 × Mach :=
  let a := load0 e s
  let b := load1 e a.2
  ((a.1 >>> 32) ||| ((b.1 >>> 32) <<< 32), b.2)

/-- `ALLOWSET_ALWAYS` (`redox-rt/src/signal.rs:335`): `SIGSTOP` (19) and `SIGKILL` (9). -/
def allowsetAlways : U64 := bit (19 - 1) ||| bit (9 - 1)

/-- `set_allowset_raw` (`redox-rt/src/signal.rs:317-334`). -/
def setAllowset (e : Env) (s : Mach) (old newRaw : U64) : U64 × Mach :=
  let new := newRaw ||| allowsetAlways
  let a := fetchAdd0 e s (((new &&& lo32) <<< 32) - ((old &&& lo32) <<< 32))
  let b := fetchAdd1 e a.2 (((new >>> 32) <<< 32) - ((old >>> 32) <<< 32))
  ((a.1 &&& lo32) ||| ((b.1 &&& lo32) <<< 32), b.2)

/-- What `modify_sigmask` yields: the old mask, and whether the trampoline was entered. -/
structure MaskResult where
  old : U64
  entered : Bool

/-- `modify_sigmask` (`redox-rt/src/signal.rs:336-363`). -/
def modifySigmask (e : Env) (s : Mach) (op : Option (U64 → U64)) : MaskResult × Mach :=
  let prev := getAllowset e s
  match op with
  | none => (⟨~~~ prev.1, false⟩, prev.2)
  | some op =>
    let next := ~~~ op (~~~ prev.1)
    let pend := setAllowset e prev.2 prev.1 next
    let proc := loadProc e pend.2
    (⟨~~~ prev.1, (pend.1 ||| proc.1) &&& next ≠ 0⟩, proc.2)

/-- `RLCT_SIGNAL_MASK` (`src/header/signal/mod.rs:604`), with `SIGRTMIN` = 35. -/
def rlctMask : U64 := bit ((35 - 1) - 1) ||| bit ((35 - 2) - 1)

/-- The result of `sigprocmask`: return value (`-1` with `errno` = `EINVAL`), `*oset`, trampoline entered. -/
structure ProcmaskResult where
  ret : Int
  oset : Option U64
  entered : Bool

/-- `sigprocmask` (`src/header/signal/mod.rs:615-637`), with `Sys::sigprocmask` (`src/platform/redox/signal.rs:229-247`).
`want` says whether `oset` is not null; `set` is `*set` if `set` is not null. -/
def sigprocmask (e : Env) (s : Mach) (how : Int) (set : Option U64) (want : Bool) : ProcmaskResult × Mach :=
  let finish (r : MaskResult × Mach) : ProcmaskResult × Mach :=
    (⟨0, if want then some (r.1.old &&& ~~~ rlctMask) else none, r.1.entered⟩, r.2)
  match set.map fun block => block &&& ~~~ rlctMask with
  | none => if want then finish (modifySigmask e s none) else (⟨0, none, false⟩, s)
  | some new =>
    if how = 2 then finish (modifySigmask e s (some fun _ => new))
    else if how = 0 then finish (modifySigmask e s (some fun old => old ||| new))
    else if how = 1 then finish (modifySigmask e s (some fun old => old &&& ~~~ new))
    else (⟨-1, none, false⟩, s)

/-- Waiting: any number of signals may be posted, and handlers may run. -/
def sleep (e : Env) (s : Mach) : Unit × Mach := access e s fun c => ((), c)

/-- `sigsuspend` (`src/header/signal/mod.rs:747-749`, `src/platform/redox/signal.rs:249-254`) is `await_signal_async`
(`redox-rt/src/signal.rs:778-804`) of the complement. -/
def sigsuspend (e : Env) (s : Mach) (mask : U64) : Mach :=
  let inner := ~~~ mask
  let old := getAllowset e s
  let s := (setAllowset e old.2 old.1 inner).2
  let s := (sleep e s).2
  (setAllowset e s inner old.1).2

/-- `epoll_pwait`, on which `ppoll` and `pselect` are built, with `callback_or_signal_async`
(`src/platform/redox/epoll.rs:117-125`, `redox-rt/src/signal.rs:807-831`): the same around the callback. -/
def epollPwait (e : Env) (s : Mach) (sigmask : U64) : Mach := sigsuspend e s sigmask

/-- `sigtimedwait`, `sigwaitinfo`, `sigwait` (`src/platform/redox/signal.rs:256-271`, `await_signal_sync`,
`redox-rt/src/signal.rs:840-879`), the part about the mask: `early` says whether a signal was found before waiting.
Claiming a signal (`try_claim_multiple`) changes low halves only; it is left out here. -/
def sigwait (e : Env) (s : Mach) (set : U64) (early : Bool) : Mach :=
  let old := getAllowset e s
  let s := (loadProc e old.2).2
  let s := (setAllowset e s old.1 set).2
  if early then (setAllowset e s set old.1).2
  else
    let s := (sleep e s).2
    let s := (setAllowset e s set old.1).2
    (loadProc e s).2

end Verif.Signal
