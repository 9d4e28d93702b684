import Verif.Signal.MaskModel
/-!
# The actions of signals on Redox

`sigaction`, `signal`, `siginterrupt` (`src/header/signal/mod.rs`, `src/platform/redox/signal.rs`), the table of actions and the
part of signal delivery written in Rust (`redox-rt/src/signal.rs`). A function pointer is its address. The assembly which chooses a
signal and calls `inner` is not modelled.
-/

namespace Verif.Signal

/-- `RawAction`, of the `syscall` crate. -/
structure Raw where
  first : U64
  userData : U64

/-- `SIGKILL`, `SIGCHLD`, `SIGCONT`, `SIGSTOP`, `SIGTSTP`, `SIGTTIN`, `SIGTTOU`, `SIGURG`, `SIGWINCH` (`src/header/signal/constants.rs`). -/
def SIGKILL : Nat := 9
@[inherit_doc SIGKILL] def SIGCHLD : Nat := 17
@[inherit_doc SIGKILL] def SIGCONT : Nat := 18
@[inherit_doc SIGKILL] def SIGSTOP : Nat := 19
@[inherit_doc SIGKILL] def SIGTSTP : Nat := 20
@[inherit_doc SIGKILL] def SIGTTIN : Nat := 21
@[inherit_doc SIGKILL] def SIGTTOU : Nat := 22
@[inherit_doc SIGKILL] def SIGURG : Nat := 23
@[inherit_doc SIGKILL] def SIGWINCH : Nat := 28

/-- `SigactionFlags` (`redox-rt/src/signal.rs:577-588`). -/
def flagSiginfo : BitVec 32 := 0x02000000
@[inherit_doc flagSiginfo] def flagRestart : BitVec 32 := 0x08000000
@[inherit_doc flagSiginfo] def flagNodefer : BitVec 32 := 0x10000000
@[inherit_doc flagSiginfo] def flagResethand : BitVec 32 := 0x20000000
@[inherit_doc flagSiginfo] def flagSpecific : BitVec 32 := 0x40000000
@[inherit_doc flagSiginfo] def flagIgnored : BitVec 32 := 0x80000000

/-- `STORED_FLAGS` (`redox-rt/src/signal.rs:591`). -/
def storedFlags : BitVec 32 := 0xfe000000

/-- `SigactionKind` (`redox-rt/src/signal.rs:365-374`). -/
inductive Kind where
  | dfl
  | ign
  | handled (handler : U64)
deriving DecidableEq

/-- `Sigaction` (`redox-rt/src/signal.rs:377-381`). -/
structure Action where
  kind : Kind
  mask : U64
  flags : BitVec 32

/-- The bits of `action.first` with the handler: `!(u64::from(STORED_FLAGS) << 32)`. -/
def handlerBits : U64 := ~~~ (storedFlags.setWidth 64 <<< 32)

/-- The process: the table of actions (`PROC_CONTROL_STRUCT.actions`, at `sig - 1`), the words of the calling thread and the signals
pending for the process; the address of `default_handler`. -/
structure Sigs where
  actions : Nat → Raw
  ctl : Ctl
  dflAddr : U64

/-- `convert_old` (`redox-rt/src/signal.rs:402-424`). -/
def convertOld (dflAddr : U64) (a : Raw) : Action :=
  let handler := a.first &&& handlerBits
  let flags := (a.first >>> 32).setWidth 32 &&& storedFlags
  let kind := if handler = dflAddr then .dfl
    else if flags &&& flagIgnored = flagIgnored then .ign
    else .handled handler
  ⟨kind, a.userData, flags⟩

/-- `ctl.word[sig_group].fetch_and(!(1 << sig_idx))`, `PROC_CONTROL_STRUCT.pending.fetch_and(!sig_bit(signal))`
(`redox-rt/src/signal.rs:487-490`): the signal is no longer pending. -/
def Ctl.discard (c : Ctl) (sig : Nat) : Ctl :=
  let b := ~~~ bit ((sig - 1) % 32)
  { w0 := if (sig - 1) / 32 = 0 then c.w0 &&& b else c.w0
    w1 := if (sig - 1) / 32 = 0 then c.w1 else c.w1 &&& b
    proc := c.proc &&& ~~~ bit (sig - 1) }

/-- The entry of the table for a new action, and whether pending signals are discarded (`redox-rt/src/signal.rs:480-530`). -/
def newRaw (dflAddr : U64) (sig : Nat) (new : Action) : Raw × Bool :=
  let r : U64 × BitVec 32 × U64 × Bool :=
    match new.kind with
    | .ign => (BitVec.allOnes 64, flagIgnored, 0, true)
    | .dfl =>
      if sig = SIGURG ∨ sig = SIGWINCH then (BitVec.allOnes 64, flagIgnored, dflAddr, true)
      else if sig = SIGTSTP ∨ sig = SIGTTOU ∨ sig = SIGTTIN then (BitVec.allOnes 64, flagSpecific, dflAddr, false)
      else if sig = SIGCHLD then (BitVec.allOnes 64, flagIgnored ||| (new.flags &&& flagSpecific), dflAddr, true)
      else (new.mask, new.flags, dflAddr, false)
    | .handled h => (new.mask, new.flags, h, false)
  (⟨r.2.2.1 ||| ((r.2.1 &&& storedFlags).setWidth 64 <<< 32), r.1⟩, r.2.2.2)

/-- `sigaction_inner` (`redox-rt/src/signal.rs:433-531`); `false` is `EINVAL`. -/
def sigactionInner (s : Sigs) (sig : Nat) (new : Option Action) : Bool × Action × Sigs :=
  if sig = 0 ∨ sig = 32 ∨ 65 ≤ sig then (false, ⟨.dfl, 0, 0⟩, s)
  else if sig = SIGKILL ∨ sig = SIGSTOP then (new.isNone, ⟨.dfl, 0, 0⟩, s)
  else
    let old := convertOld s.dflAddr (s.actions (sig - 1))
    match new with
    | none => (true, old, s)
    | some new =>
      let r := newRaw s.dflAddr sig new
      (true, old, { s with
        actions := fun i => if i = sig - 1 then r.1 else s.actions i
        ctl := if r.2 then s.ctl.discard sig else s.ctl })

/-- `struct sigaction` (`src/header/signal/mod.rs`), without `sa_restorer`. -/
structure CAction where
  handler : U64
  flags : BitVec 32
  mask : U64
deriving DecidableEq

/-- The conversion of the new action (`src/platform/redox/signal.rs:103-138`). -/
def CAction.toRt (c : CAction) : Action :=
  ⟨if c.handler = 0 then .dfl else if c.handler = 1 then .ign else .handled c.handler, c.mask, c.flags⟩

/-- The conversion of the old action (`src/platform/redox/signal.rs:143-183`). -/
def Action.toC (a : Action) : CAction :=
  match a.kind with
  | .ign => ⟨1, 0, 0⟩
  | .dfl => ⟨0, 0, 0⟩
  | .handled h => ⟨h, a.flags, a.mask⟩

/-- `sigaction` (`src/header/signal/mod.rs:297-305`, `src/platform/redox/signal.rs:96-185`): `none` is `-1` with `errno` = `EINVAL`,
otherwise 0 and what is stored in `*oact` if `oact` is not null. -/
def sigaction (s : Sigs) (sig : Int) (act : Option CAction) : Option CAction × Sigs :=
  if sig < 0 ∨ 255 < sig then (none, s)
  else
    let r := sigactionInner s sig.toNat (act.map CAction.toRt)
    (if r.1 then some r.2.1.toC else none, r.2.2)

/-- `signal` (`src/header/signal/mod.rs:537-552`): the handler before, or `SIG_ERR`. -/
def signal (s : Sigs) (sig : Int) (func : U64) : U64 × Sigs :=
  let r := sigaction s sig (some ⟨func, flagRestart, 0⟩)
  (match r.1 with
    | none => -1
    | some old => old.handler, r.2)

/-- `siginterrupt` (`src/header/signal/mod.rs:484-495`), for a valid signal: `none` is a panic of `expect`; otherwise whether 0 was returned.
The complement of `SA_RESTART` is that of a `usize`. -/
def siginterrupt (s : Sigs) (sig : Int) (flag : Int) : Option (Bool × Sigs) :=
  let r := sigaction s sig none
  let old := r.1.getD ⟨0, 0, 0⟩
  let go (flags : BitVec 32) : Bool × Sigs :=
    let q := sigaction r.2 sig (some { old with flags := flags })
    (q.1.isSome, q.2)
  let restart : U64 := flagRestart.setWidth 64
  if flag ≠ 0 then
    if (~~~ restart).toNat ≤ 2 ^ 31 - 1 then some (go (old.flags &&& (~~~ restart).setWidth 32)) else none
  else
    if restart.toNat ≤ 2 ^ 31 - 1 then some (go (old.flags ||| restart.setWidth 32)) else none

/-- The table after `setup_sighandler` (`redox-rt/src/signal.rs:630-683`). -/
def initActions (dflAddr : U64) (i : Nat) : Raw :=
  let sig := i + 1
  let bits : BitVec 32 := if sig = SIGTSTP ∨ sig = SIGTTIN ∨ sig = SIGTTOU then flagSpecific
    else if sig = SIGCHLD ∨ sig = SIGURG ∨ sig = SIGWINCH then flagIgnored
    else 0
  ⟨(bits.setWidth 64 <<< 32) ||| dflAddr, 0⟩

/-- `get_sigignmask_to_inherit` (`redox-rt/src/signal.rs:998-1018`). -/
def ignmask (s : Sigs) : U64 :=
  (List.range 64).foldl (fun mask b =>
    if (sigactionInner s (b + 1) none).2.1.kind = .ign then mask ||| bit b else mask) 0

/-- `apply_inherited_sigignmask` (`redox-rt/src/signal.rs:974-997`). -/
def applyIgnmask (s : Sigs) (inherited : U64) : Sigs :=
  ((List.range 64).filter fun b => inherited &&& bit b ≠ 0).foldl
    (fun s b => (sigactionInner s (b + 1) (some ⟨.ign, 0, flagIgnored⟩)).2.2) s

/-! ## Delivery -/

/-- The action read on delivery, under the lock (`redox-rt/src/signal.rs:142-144`). -/
def deliverRead (s : Sigs) (sig : Nat) : Action := convertOld s.dflAddr (s.actions (sig - 1))

/-- The second step, if `SA_RESETHAND` is set, after the lock was released (`redox-rt/src/signal.rs:145-157`). -/
def deliverReset (s : Sigs) (sig : Nat) (a : Action) : Sigs :=
  if a.flags &&& flagResethand = flagResethand then (sigactionInner s sig (some ⟨.dfl, 0, 0⟩)).2.2 else s

/-- What is done about a signal. -/
inductive Fate where
  /-- `panic!` (`redox-rt/src/signal.rs:169-171`, for an ignored signal) -/
  | panic
  /-- the process exits with the signal as status -/
  | exit (sig : Nat)
  /-- nothing -/
  | nothing
  /-- a handler is called; `info` says whether with three arguments -/
  | call (handler : U64) (info : Bool)
deriving DecidableEq

/-- The choice of the handler, and the call (`redox-rt/src/signal.rs:163-188`, `212-235`). -/
def Action.fate (a : Action) (sig : Nat) : Fate :=
  match a.kind with
  | .ign => .panic
  | .dfl => if sig = SIGCONT then .nothing else .exit sig
  | .handled h => if h = 0 then .nothing else .call h (a.flags &&& flagSiginfo = flagSiginfo)

/-- The mask when the handler is called (`redox-rt/src/signal.rs:190-210`): the state, and what is saved in the context of the handler
(`stack.old_mask`, which is `uc_sigmask`). -/
def enterHandler (e : Env) (s : Mach) (a : Action) (sig : Nat) : U64 × Mach :=
  let prev := getAllowset e s
  let inside := ~~~ a.mask &&& prev.1
  let inside := if a.flags &&& flagNodefer = flagNodefer then inside else inside &&& ~~~ bit (sig - 1)
  (prev.1, (setAllowset e prev.2 prev.1 inside).2)

/-- The mask after the handler (`redox-rt/src/signal.rs:237-259`), from what is in the context: whether a signal is delivered at once. -/
def leaveHandler (e : Env) (s : Mach) (saved : U64) : Bool × Mach :=
  let old := getAllowset e s
  let pend := setAllowset e old.2 old.1 saved
  let proc := loadProc e pend.2
  ((pend.1 ||| proc.1) &&& saved ≠ 0, proc.2)

end Verif.Signal
