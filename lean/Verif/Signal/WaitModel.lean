import Verif.Signal.MaskModel
/-!
# Waiting for signals, and the alternate signal stack, on Redox

`redox-rt/src/signal.rs`, `src/platform/redox/signal.rs`, `src/header/signal/mod.rs`: `sigwait`, `sigwaitinfo`, `sigtimedwait`; `sigaltstack`.

* The loads of `sender_infos` have no effect and are left out; of the `siginfo_t` only the number is modelled.
* Queued realtime signals of the process are kept by the process manager: whether `Sigdeq` yields one is an argument.
-/

namespace Verif.Signal

/-- What the system does: to the words, whether `Sigdeq` succeeds, and how `nanosleep` ends. -/
structure Sys where
  env : Env
  deq : Nat → Bool
  sleep : Nat → Option Int

/-- `EPERM`, `EINTR`, `EAGAIN`, `ENOMEM`, `EINVAL` (`src/header/errno/mod.rs`). -/
def EPERM : Int := 1
@[inherit_doc EPERM] def EINTR : Int := 4
@[inherit_doc EPERM] def EAGAIN : Int := 11
@[inherit_doc EPERM] def ENOMEM : Int := 12
@[inherit_doc EPERM] def EINVAL : Int := 22

/-- `try_claim_single` (`redox-rt/src/signal.rs:904-973`). -/
def claimSingle (y : Sys) (s : Mach) (idx : Nat) (thread : Bool) : Bool × Mach :=
  if idx / 32 = 1 ∧ thread = false then access y.env s fun c => (y.deq s.time, c)
  else if thread then
    access y.env s fun c => (true,
      if idx / 32 = 0 then { c with w0 := c.w0 &&& ~~~ bit (idx % 32) } else { c with w1 := c.w1 &&& ~~~ bit (idx % 32) })
  else access y.env s fun c => (c.proc.getLsbD idx, { c with proc := c.proc &&& ~~~ bit idx })

/-- `trailing_zeros` of a word that is not 0. -/
def lowest (w : U64) : Nat := ((List.range 64).find? (w.getLsbD ·)).getD 64

theorem and_not_lt {w : U64} {i : Nat} (hi : i < 64) (h : w.getLsbD i = true) : (w &&& ~~~ bit i).toNat < w.toNat := by
  have h1 : (w &&& ~~~ bit i).toNat ≤ w.toNat := by
    rw [BitVec.toNat_and]
    exact Nat.and_le_left
  have h2 : (w &&& ~~~ bit i).toNat ≠ w.toNat := by
    intro he
    have := BitVec.eq_of_toNat_eq he
    have := congrArg (BitVec.getLsbD · i) this
    simp only [BitVec.getLsbD_and, BitVec.getLsbD_not, h, hi] at this
    simp [bit, hi] at this
  omega

theorem lowest_spec {w : U64} (h : w ≠ 0) : lowest w < 64 ∧ w.getLsbD (lowest w) = true ∧ ∀ j, j < lowest w → w.getLsbD j = false := by
  unfold lowest
  cases hf : (List.range 64).find? (w.getLsbD ·) with
  | none =>
    exfalso
    apply h
    apply BitVec.eq_of_getLsbD_eq
    intro i hi
    rw [List.find?_eq_none] at hf
    have := hf i (List.mem_range.2 hi)
    simpa using this
  | some i =>
    rw [Option.getD_some]
    have h1 := List.find?_some hf
    obtain ⟨-, as, bs, h2, h3⟩ := List.find?_eq_some_iff_append.1 hf
    have hlt := List.mem_range.1 (List.mem_of_find?_eq_some hf)
    refine ⟨hlt, h1, fun j hj => ?_⟩
    have hj' : j ∈ List.range 64 := List.mem_range.2 (by omega)
    have hlen : as.length = i := by
      have := congrArg (fun l => l[as.length]?) h2
      simp only [List.getElem?_append_right (Nat.le_refl _), Nat.sub_self, List.getElem?_cons_zero] at this
      rw [List.getElem?_range] at this
      · injection this
      · have := congrArg List.length h2
        simp at this
        omega
    have : j ∈ as := by
      have h4 := congrArg (fun l => l[j]?) h2
      rw [List.getElem?_append_left (by omega), List.getElem?_range (by omega)] at h4
      exact List.mem_of_getElem? h4.symm
    have := h3 j this
    simpa using this

/-- `try_claim_multiple` (`redox-rt/src/signal.rs:881-903`): the signal, counted from 0. -/
def claimMultiple (y : Sys) (s : Mach) (proc thr allow : U64) : Option Nat × Mach :=
  if h : (proc ||| thr) &&& allow = 0 then (none, s)
  else
    let idx := lowest ((proc ||| thr) &&& allow)
    let a := if thr &&& allow &&& bit idx ≠ 0 then claimSingle y s idx true else (false, s)
    if a.1 then (some idx, a.2)
    else
      let thr' := thr &&& ~~~ bit idx
      let b := if proc &&& allow &&& bit idx ≠ 0 then claimSingle y a.2 idx false else (false, a.2)
      if b.1 then (some idx, b.2)
      else claimMultiple y b.2 (proc &&& ~~~ bit idx) thr' allow
termination_by ((proc ||| thr) &&& allow).toNat
decreasing_by
  obtain ⟨h1, h2, -⟩ := lowest_spec h
  have : (proc &&& ~~~ bit idx ||| thr &&& ~~~ bit idx) &&& allow = ((proc ||| thr) &&& allow) &&& ~~~ bit idx := by
    apply BitVec.eq_of_getLsbD_eq
    intro i hi
    simp only [BitVec.getLsbD_and, BitVec.getLsbD_or]
    cases proc.getLsbD i <;> cases thr.getLsbD i <;> cases allow.getLsbD i <;> cases (~~~ bit idx).getLsbD i <;> rfl
  rw [this]
  exact and_not_lt h1 h2

/-- `await_signal_sync` (`redox-rt/src/signal.rs:840-879`), that is `sigtimedwait` (`src/platform/redox/signal.rs:256-271`): the number of the
signal, or an error. -/
def sigtimedwait (y : Sys) (s : Mach) (set : U64) : Except Int Nat × Mach :=
  let old := getAllowset y.env s
  let proc := loadProc y.env old.2
  let thr := setAllowset y.env proc.2 old.1 set
  match claimMultiple y thr.2 proc.1 thr.1 set with
  | (some idx, s) => (.ok (idx + 1), (setAllowset y.env s set old.1).2)
  | (none, s) =>
    let res := y.sleep s.time
    let s := (Verif.Signal.sleep y.env s).2
    let thr := setAllowset y.env s set old.1
    let proc := loadProc y.env thr.2
    if res ≠ none ∧ res ≠ some EINTR then (.error (res.getD 0), proc.2)
    else match claimMultiple y proc.2 proc.1 thr.1 set with
      | (some idx, s) => (.ok (idx + 1), s)
      | (none, s) => (.error EAGAIN, s)

/-- `sigwait` (`src/header/signal/mod.rs:761-769`): the return value and `*sig`. -/
def sigwaitC (y : Sys) (s : Mach) (set : U64) : Int × Option Nat :=
  match (sigtimedwait y s set).1 with
  | .ok sig => (0, some sig)
  | .error _ => (-1, none)

/-! ## `sigaltstack` -/

/-- `Sigaltstack` (`redox-rt/src/signal.rs:689-699`). -/
inductive Alt where
  | disabled
  | enabled (onstack : Bool) (base size : U64)
deriving DecidableEq

/-- The fields of the thread's area. -/
structure Area where
  bottom : U64
  top : U64
deriving DecidableEq

/-- As set by `setup_sighandler` (`redox-rt/src/signal.rs:641-646`). -/
def Area.init : Area := ⟨0, BitVec.allOnes 64⟩

/-- `get_sigaltstack` (`redox-rt/src/signal.rs:708-718`); `sp` is the stack pointer. -/
def Area.get (t : Area) (sp : U64) : Alt :=
  if t.bottom = 0 ∧ t.top = BitVec.allOnes 64 then .disabled
  else .enabled (t.bottom ≤ sp ∧ sp ≤ t.top) t.bottom (t.top - t.bottom)

/-- `sigaltstack` (`redox-rt/src/signal.rs:720-760`): the errno or the old stack, and the area. -/
def altstack (t : Area) (sp : U64) (new : Option Alt) : Except Int Alt × Area :=
  let old := t.get sp
  match old, new with
  | .enabled true b n, some new =>
    if new ≠ .enabled true b n then (.error EPERM, t) else (.error EINVAL, t)
  | old, none => (.ok old, t)
  | old, some .disabled => (.ok old, ⟨0, BitVec.allOnes 64⟩)
  | _, some (.enabled true _ _) => (.error EINVAL, t)
  | old, some (.enabled false base size) =>
    if size < 2048#64 then (.error ENOMEM, t) else (.ok old, ⟨base, base + size⟩)

/-- `stack_t`. -/
structure CStack where
  sp : U64
  flags : Int
  size : U64
deriving DecidableEq

/-- `PosixStackt::from` (`redox-rt/src/signal.rs:64-87`). -/
def Alt.toC : Alt → CStack
  | .disabled => ⟨0, 2, 0⟩
  | .enabled onstack base size => ⟨base, if onstack then 1 else 0, size⟩

/-- `sigaltstack` (`src/header/signal/mod.rs:346-352`, `src/platform/redox/signal.rs:187-222`). -/
def sigaltstack (t : Area) (sp : U64) (new : Option CStack) : Except Int CStack × Area :=
  match new with
  | none =>
    match altstack t sp none with
    | (.ok old, t) => (.ok old.toC, t)
    | (.error e, t) => (.error e, t)
  | some c =>
    if c.flags < 0 ∨ 4 ≤ c.flags then (.error EINVAL, t)
    else
      let new := if c.flags = 2 ∨ c.flags = 3 then .disabled else .enabled false c.sp c.size
      match altstack t sp (some new) with
      | (.ok old, t) => (.ok old.toC, t)
      | (.error e, t) => (.error e, t)

end Verif.Signal
