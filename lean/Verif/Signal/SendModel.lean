/-!
# Sending signals on Redox

`kill`, `killpg`, `sigqueue`, `raise`, `pthread_kill` (`src/header/signal/mod.rs`, `src/platform/redox/signal.rs`,
`redox-rt/src/sys.rs`): which requests are made of the process manager, and what is made of its answer. The process manager itself is not part
of the library; it is an arbitrary function from requests to answers.

`ProcKillTarget::from_raw` and `raw` are of the `redox_protocols` crate, which is not part of the library. They are taken to be
inverse to each other, with the positive numbers (as `isize`) being `SingleProc`.
-/

namespace Verif.Send

/-- What is asked of the process manager: `ProcCall::Kill` with the target, `ProcCall::Sigq`, `ThreadCall::SignalThread`. -/
inductive Request where
  | kill (target sig : UInt64)
  | sigq (pid sig arg : UInt64)
  | thread (fd : UInt64) (sig : UInt32)
deriving DecidableEq

/-- What the process manager answers: `none` is success, otherwise the error. -/
abbrev Manager := Request → Option Int32

/-- `EINVAL`, `ESRCH`, `ERESTART` (`syscall::error`). -/
def EINVAL : Int32 := 22
@[inherit_doc EINVAL] def ESRCH : Int32 := 3
@[inherit_doc EINVAL] def ERESTART : Int32 := 85

/-- What happened: the requests made, in order; whether signals were handled (`manually_enter_trampoline`) before the return; the error. -/
structure Res where
  asked : List Request
  handled : Bool
  err : Option Int32
deriving DecidableEq

/-- A request, with `wrapper(false, true, …)` (`redox-rt/src/sys.rs:28-48`) around it and `ERESTART` being success: as in `posix_kill`,
`posix_sigqueue`, `posix_kill_thread`. -/
def ask (pm : Manager) (r : Request) : Res :=
  let res := pm r
  let handled := res = some ERESTART
  ⟨[r], handled, if handled then none else res⟩

/-- A conversion of a `c_int` to `usize`. -/
def asUsize (n : Int32) : UInt64 := n.toInt64.toUInt64

/-- `posix_kill` (`redox-rt/src/sys.rs:60-74`). -/
def posixKill (pm : Manager) (target sig : UInt64) : Res :=
  if sig > 64 then ⟨[], false, some EINVAL⟩ else ask pm (.kill target sig)

/-- `matches!(ProcKillTarget::from_raw(pid), ProcKillTarget::SingleProc(_))`. -/
def isSingle (pid : UInt64) : Bool := 0 < pid.toInt64

/-- `posix_sigqueue` (`redox-rt/src/sys.rs:76-103`). Of what is sent along, only the value is modelled. -/
def posixSigqueue (pm : Manager) (pid sig arg : UInt64) : Res :=
  if ¬ isSingle pid then ⟨[], false, some ESRCH⟩
  else if sig ≤ 32 then posixKill pm pid sig
  else ask pm (.sigq pid sig arg)

/-- `posix_kill_thread` (`redox-rt/src/sys.rs:378-394`). -/
def posixKillThread (pm : Manager) (fd : UInt64) (sig : UInt32) : Res :=
  if sig > 64 then ⟨[], false, some EINVAL⟩ else ask pm (.thread fd sig)

/-- `Sys::kill` (`src/platform/redox/signal.rs:66-69`). -/
def sysKill (pm : Manager) (pid sig : Int32) : Res := posixKill pm (asUsize pid) (asUsize sig)

/-- `Sys::killpg` (`src/platform/redox/signal.rs:78-83`). -/
def sysKillpg (pm : Manager) (pgrp sig : Int32) : Res :=
  if pgrp = 1 then ⟨[], false, some EINVAL⟩ else sysKill pm (-pgrp) sig

/-- `Sys::sigqueue` (`src/platform/redox/signal.rs:70-76`). -/
def sysSigqueue (pm : Manager) (pid sig : Int32) (val : UInt64) : Res := posixSigqueue pm (asUsize pid) (asUsize sig) val

/-- `Sys::rlct_kill` (`src/platform/redox/mod.rs:1040-1043`). -/
def rlctKill (pm : Manager) (fd : UInt64) (sig : UInt64) : Res := posixKillThread pm fd sig.toUInt32

/-- What a program sees of a call: the requests made, whether signals were handled before it returned, the value returned, the error in
`errno` if it was set. -/
structure Call where
  asked : List Request
  handled : Bool
  ret : Int32
  errno : Option Int32
deriving DecidableEq

/-- `.map(|()| 0).or_minus_one_errno()`. -/
def Res.orMinusOne (r : Res) : Call := ⟨r.asked, r.handled, if r.err.isSome then -1 else 0, r.err⟩

/-- `kill` (`src/header/signal/mod.rs:210-212`). -/
def kill (pm : Manager) (pid sig : Int32) : Call := (sysKill pm pid sig).orMinusOne

/-- `killpg` (`src/header/signal/mod.rs:236-238`). -/
def killpg (pm : Manager) (pgrp sig : Int32) : Call := (sysKillpg pm pgrp sig).orMinusOne

/-- `sigqueue` (`src/header/signal/mod.rs:222-226`). -/
def sigqueue (pm : Manager) (pid signo : Int32) (value : UInt64) : Call := (sysSigqueue pm pid signo value).orMinusOne

/-- `raise` (`src/header/signal/mod.rs:285-287`, `src/platform/redox/signal.rs:85-89`); `self` is the file descriptor of the thread. -/
def raise (pm : Manager) (self : UInt64) (sig : Int32) : Call := (rlctKill pm self (asUsize sig)).orMinusOne

/-- `pthread_kill` (`src/header/signal/mod.rs:248-254`), with `e` (`src/header/pthread/mod.rs`): the error is returned. -/
def pthreadKill (pm : Manager) (thread : UInt64) (sig : Int32) : Call :=
  let r := rlctKill pm thread (asUsize sig)
  ⟨r.asked, r.handled, r.err.getD 0, none⟩

end Verif.Send
