import Verif.Signal.SendModel
/-!
# C134: sending signals
-/

namespace Verif.Send

/-! ## Specification -/

/-- The numbers that may be passed: 0, by which nothing is sent, and the signals. -/
def Valid (sig : Int32) : Prop := 0 ≤ sig.toInt ∧ sig.toInt ≤ 64

/-- A request reads like `(pid, sig)` in the integers. -/
def Request.IsKill (r : Request) (pid sig : Int) : Prop :=
  ∃ t s, r = .kill t s ∧ t.toInt64.toInt = pid ∧ (s.toNat : Int) = sig

/-- A request for a thread. -/
def Request.IsThread (r : Request) (fd : UInt64) (sig : Int) : Prop := ∃ s, r = .thread fd s ∧ (s.toNat : Int) = sig

/-- A request to queue a signal with a value. -/
def Request.IsQueue (r : Request) (pid sig : Int) (value : UInt64) : Prop :=
  ∃ t s, r = .sigq t s value ∧ t.toInt64.toInt = pid ∧ (s.toNat : Int) = sig

/-- The call makes one request which is as wanted, and reports what comes of it: 0 if the answer is success or `ERESTART` (85), which
means that a signal has come for the thread, and then the signal is handled before the call returns; otherwise -1 with the error in `errno`. -/
def Reports (pm : Manager) (c : Call) (wanted : Request → Prop) : Prop :=
  ∃ r, c.asked = [r] ∧ wanted r ∧
    (pm r = none → c.ret = 0 ∧ c.errno = none ∧ c.handled = false) ∧
    (pm r = some 85 → c.ret = 0 ∧ c.errno = none ∧ c.handled = true) ∧
    (∀ e, pm r = some e → e ≠ 85 → c.ret = -1 ∧ c.errno = some e ∧ c.handled = false)

/-- The call fails with an error without any request. -/
def Refused (c : Call) (e : Int32) : Prop := c.asked = [] ∧ c.ret = -1 ∧ c.errno = some e ∧ c.handled = false

/-! ## Lemmas -/

theorem ask_reports (pm : Manager) (r : Request) (w : Request → Prop) (h : w r) : Reports pm (ask pm r).orMinusOne w := by
  refine ⟨r, rfl, h, ?_, ?_, ?_⟩
  · intro a
    simp [Res.orMinusOne, ask, a]
  · intro a
    simp [Res.orMinusOne, ask, a, ERESTART]
  · intro e a b
    have : ¬ some e = some ERESTART := by
      intro hc
      injection hc with hc
      exact b hc
    simp [Res.orMinusOne, ask, a]
    exact b

theorem asUsize_toInt (n : Int32) : (asUsize n).toInt64.toInt = n.toInt := by
  unfold asUsize
  rw [show (n.toInt64.toUInt64).toInt64 = n.toInt64 from rfl, Int32.toInt_toInt64]

theorem asUsize_toNat (n : Int32) : ((asUsize n).toNat : Int) = n.toInt % 2 ^ 64 := by
  have h := asUsize_toInt n
  generalize asUsize n = u at h
  have h2 : u.toInt64.toInt = (u.toNat : Int).bmod (2 ^ 64) := by
    show u.toBitVec.toInt = _
    rw [BitVec.toInt_eq_toNat_bmod]
    rfl
  rw [h2] at h
  rw [← h]
  have := u.toNat_lt
  rw [Int.bmod_def]
  split <;> omega

theorem asUsize_valid (n : Int32) : ¬ (asUsize n > 64) ↔ Valid n := by
  have h := asUsize_toNat n
  have h1 := n.toInt_lt
  have h2 := n.le_toInt
  unfold Valid
  rw [gt_iff_lt, UInt64.lt_iff_toNat_lt]
  show ¬ 64 < _ ↔ _
  omega

theorem asUsize_val {n : Int32} (h : Valid n) : ((asUsize n).toNat : Int) = n.toInt := by
  have := asUsize_toNat n
  unfold Valid at h
  omega

theorem asUsize_u32 (n : Int32) : ¬ ((asUsize n).toUInt32 > 64) ↔ Valid n := by
  have h := asUsize_toNat n
  have h1 := n.toInt_lt
  have h2 := n.le_toInt
  unfold Valid
  rw [gt_iff_lt, UInt32.lt_iff_toNat_lt]
  show ¬ 64 < _ ↔ _
  rw [UInt64.toNat_toUInt32]
  omega

theorem asUsize_u32_val {n : Int32} (h : Valid n) : (((asUsize n).toUInt32).toNat : Int) = n.toInt := by
  have := asUsize_val h
  rw [UInt64.toNat_toUInt32]
  unfold Valid at h
  omega

theorem sysKill_reports (pm : Manager) (pid sig : Int32) :
    (Valid sig → Reports pm (sysKill pm pid sig).orMinusOne fun r => r.IsKill pid.toInt sig.toInt) ∧
    (¬ Valid sig → Refused (sysKill pm pid sig).orMinusOne 22) := by
  unfold sysKill posixKill
  constructor
  · intro h
    rw [if_neg ((asUsize_valid sig).2 h)]
    exact ask_reports _ _ _ ⟨_, _, rfl, asUsize_toInt pid, asUsize_val h⟩
  · intro h
    rw [if_pos (Classical.not_not.1 fun hn => h ((asUsize_valid sig).1 hn))]
    exact ⟨rfl, rfl, rfl, rfl⟩

/-! ## C134 -/

/-- **C134.** `kill` asks for exactly the given signal to be sent to what `pid` stands for, and reports the answer; a number that is not a
signal's is refused with `EINVAL` (22) and nothing is asked. -/
theorem C134_kill (pm : Manager) (pid sig : Int32) :
    (Valid sig → Reports pm (kill pm pid sig) fun r => r.IsKill pid.toInt sig.toInt) ∧
    (¬ Valid sig → Refused (kill pm pid sig) 22) := sysKill_reports pm pid sig

/-- **C134.** `killpg` of a process group greater than 1 is `kill` of the negative number; process group 1 is refused with `EINVAL`. -/
theorem C134_killpg (pm : Manager) (pgrp sig : Int32) :
    (1 < pgrp.toInt → Valid sig → Reports pm (killpg pm pgrp sig) fun r => r.IsKill (- pgrp.toInt) sig.toInt) ∧
    (1 < pgrp.toInt → ¬ Valid sig → Refused (killpg pm pgrp sig) 22) ∧
    (pgrp.toInt = 1 → Refused (killpg pm pgrp sig) 22) := by
  have key : 1 < pgrp.toInt → killpg pm pgrp sig = (sysKill pm (-pgrp) sig).orMinusOne ∧ (-pgrp).toInt = - pgrp.toInt := by
    intro h
    have h1 := pgrp.toInt_lt
    constructor
    · unfold killpg sysKillpg
      rw [if_neg]
      intro hc
      rw [hc] at h
      exact absurd h (by decide)
    · rw [Int32.toInt_neg, Int.bmod_def]
      split <;> omega
  refine ⟨fun h hv => ?_, fun h hv => ?_, fun h => ?_⟩
  · rw [(key h).1, ← (key h).2]
    exact (sysKill_reports pm (-pgrp) sig).1 hv
  · rw [(key h).1]
    exact (sysKill_reports pm (-pgrp) sig).2 hv
  · have : pgrp = 1 := Int32.toInt_inj.1 h
    unfold killpg sysKillpg
    rw [if_pos this]
    exact ⟨rfl, rfl, rfl, rfl⟩

/-- **C134.** `raise` asks for the signal to be sent to the calling thread, and has it handled before it returns if it comes at once. -/
theorem C134_raise (pm : Manager) (self : UInt64) (sig : Int32) :
    (Valid sig → Reports pm (raise pm self sig) fun r => r.IsThread self sig.toInt) ∧
    (¬ Valid sig → Refused (raise pm self sig) 22) := by
  unfold raise rlctKill posixKillThread
  constructor
  · intro h
    rw [if_neg ((asUsize_u32 sig).2 h)]
    exact ask_reports _ _ _ ⟨_, rfl, asUsize_u32_val h⟩
  · intro h
    rw [if_pos (Classical.not_not.1 fun hn => h ((asUsize_u32 sig).1 hn))]
    exact ⟨rfl, rfl, rfl, rfl⟩

/-- **C134.** `pthread_kill` does the same for any thread, but returns the error and leaves `errno` alone. -/
theorem C134_pthread_kill (pm : Manager) (thread : UInt64) (sig : Int32) :
    (Valid sig → ∃ r, (pthreadKill pm thread sig).asked = [r] ∧ r.IsThread thread sig.toInt ∧
      (pm r = none → (pthreadKill pm thread sig).ret = 0) ∧
      (pm r = some 85 → (pthreadKill pm thread sig).ret = 0 ∧ (pthreadKill pm thread sig).handled = true) ∧
      (∀ e, pm r = some e → e ≠ 85 → (pthreadKill pm thread sig).ret = e)) ∧
    (¬ Valid sig → (pthreadKill pm thread sig).asked = [] ∧ (pthreadKill pm thread sig).ret = 22) ∧
    (pthreadKill pm thread sig).errno = none := by
  refine ⟨fun h => ?_, fun h => ?_, rfl⟩
  · unfold pthreadKill rlctKill posixKillThread
    rw [if_neg ((asUsize_u32 sig).2 h)]
    refine ⟨_, rfl, ⟨_, rfl, asUsize_u32_val h⟩, ?_, ?_, ?_⟩
    · intro a
      simp [ask, a]
    · intro a
      simp [ask, a, ERESTART]
    · intro e a b
      have : ¬ e = ERESTART := b
      simp [ask, a, this]
  · unfold pthreadKill rlctKill posixKillThread
    rw [if_pos (Classical.not_not.1 fun hn => h ((asUsize_u32 sig).1 hn))]
    exact ⟨rfl, rfl⟩

theorem isSingle_iff (pid : Int32) : isSingle (asUsize pid) = true ↔ 0 < pid.toInt := by
  unfold isSingle
  rw [decide_eq_true_iff, Int64.lt_iff_toInt_lt, asUsize_toInt]
  rfl

/-- **C134.** `sigqueue` of a real-time signal asks for it to be queued with the value; a `pid` which is not a process' is refused with
`ESRCH` (3). Missing: the other signals, which are sent without the value (`C134_sigqueue_value_violation`), and the numbers that are not
signals', which are not refused (`C134_sigqueue_signal_violation`). -/
theorem C134_sigqueue_partial (pm : Manager) (pid sig : Int32) (value : UInt64) :
    (0 < pid.toInt → 32 < sig.toInt → sig.toInt ≤ 64 →
      Reports pm (sigqueue pm pid sig value) fun r => r.IsQueue pid.toInt sig.toInt value) ∧
    (pid.toInt ≤ 0 → Refused (sigqueue pm pid sig value) 3) := by
  unfold sigqueue sysSigqueue posixSigqueue
  constructor
  · intro h h1 h2
    have hv := asUsize_val (n := sig) ⟨by omega, h2⟩
    rw [if_neg (fun hn => hn ((isSingle_iff pid).2 h)), if_neg]
    · exact ask_reports _ _ _ ⟨_, _, rfl, asUsize_toInt pid, hv⟩
    · rw [UInt64.le_iff_toNat_le]
      show ¬ _ ≤ 32
      omega
  · intro h
    rw [if_pos]
    · exact ⟨rfl, rfl, rfl, rfl⟩
    · rw [isSingle_iff]
      omega

/-- **C134**: any signal up to 32, for example `SIGUSR1` (10), is sent by `sigqueue` without the value: the same as by `kill`. -/
theorem C134_sigqueue_value_violation (pm : Manager) (pid sig : Int32) (value : UInt64) (h : 0 < pid.toInt) (h1 : 0 ≤ sig.toInt)
    (h2 : sig.toInt ≤ 32) : sigqueue pm pid sig value = kill pm pid sig := by
  have hv := asUsize_val (n := sig) ⟨by omega, by omega⟩
  unfold sigqueue sysSigqueue posixSigqueue kill sysKill
  rw [if_neg (fun hn => hn ((isSingle_iff pid).2 h)), if_pos]
  rw [UInt64.le_iff_toNat_le]
  show _ ≤ 32
  omega

/-- **C134**: `sigqueue` passes on numbers that are not signals': 65 and -1. -/
theorem C134_sigqueue_signal_violation (value : UInt64) :
    (sigqueue (fun _ => none) 5 65 value).ret = 0 ∧ (sigqueue (fun _ => none) 5 65 value).asked = [.sigq 5 65 value] ∧
    (sigqueue (fun _ => none) 5 (-1) value).ret = 0 ∧
    (sigqueue (fun _ => none) 5 (-1) value).asked = [.sigq 5 18446744073709551615 value] :=
  ⟨rfl, rfl, rfl, rfl⟩

/-- `kill(-7, SIGTERM)`, to process group 7; `killpg(7, 0)`; `raise(65)`. -/
example : kill (fun _ => none) (-7) 15 = ⟨[.kill 18446744073709551609 15], false, 0, none⟩ ∧
    killpg (fun _ => some 3) 7 0 = ⟨[.kill 18446744073709551609 0], false, -1, some 3⟩ ∧
    raise (fun _ => some 85) 4 10 = ⟨[.thread 4 10], true, 0, none⟩ ∧
    raise (fun _ => none) 4 65 = ⟨[], false, -1, some 22⟩ := by
  decide +kernel

end Verif.Send
