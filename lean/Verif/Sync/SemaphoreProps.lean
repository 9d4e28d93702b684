import Verif.Sync.SemaphoreModel

/-!
# C05, C06: POSIX semaphores
-/

namespace Verif.Sync.Sem
open Verif.Conc

variable {T : Type} [DecidableEq T]

structure Inv (s : State T) : Prop where
  lt : s.word < M
  cas : ∀ t k v, s.pc t = .cas k v → v ≠ 0
  cong : (s.word + s.succeeded) % M = (s.initial + s.posted) % M
  exact : s.initial + s.posted < M → s.word + s.succeeded = s.initial + s.posted
  le : s.word + s.succeeded ≤ s.initial + s.posted
  sleep : ∀ t k, s.pc t = .sleeping k → s.word = 0 ∨ ∃ u, s.pc u = .postWake
  intr : s.interrupted = false → ∀ t k, s.pc t ≠ .ret k .eintr
  tryw : ∀ t, s.pc t ≠ .fwait .trywait ∧ s.pc t ≠ .sleeping .trywait
  tmo : ∀ t, s.pc t ≠ .ret .wait .etimedout

theorem inv_init (s : State T) (h : (sys T).init s) : Inv s := by
  obtain ⟨hw, hl, hp, hs, hc, hi⟩ := h
  constructor <;> simp_all

set_option maxHeartbeats 1000000 in
theorem inv_step (s s' : State T) (h : Inv s) (st : (sys T).step s s') : Inv s' := by
  obtain ⟨h1, h2, h3, h4, h5, h6, h7, h8, h9⟩ := h
  have st : Step s s' := st
  cases st <;>
    (refine ⟨?_, ?_, ?_, ?_, ?_, ?_, ?_, ?_, ?_⟩ <;>
      simp only [State.go, wakeAll, upd, M, loaded] at * <;>
      first | omega | grind)

theorem inv_reachable : ∀ s : State T, Reachable (sys T) s → Inv s :=
  Reachable.invariant inv_init inv_step

/-! ## C05 -/

/-- **C05.** As long as fewer than 2^32 tokens were supplied in total, the value of the semaphore plus the
number of successful waits is exactly the initial value plus the tokens posted. -/
theorem C05_conservation (s : State T) (h : Reachable (sys T) s)
    (hb : s.initial + s.posted < 2 ^ 32) :
    getvalue s + s.succeeded = s.initial + s.posted :=
  (inv_reachable s h).exact hb

/-- **C05.** No more waits succeed than tokens were supplied, without any bound. -/
theorem C05_no_overdraw (s : State T) (h : Reachable (sys T) s) : s.succeeded ≤ s.initial + s.posted := by
  have := (inv_reachable s h).le
  omega

/-- **C05.** Without any bound the balance holds modulo 2^32. -/
theorem C05_conservation_mod (s : State T) (h : Reachable (sys T) s) :
    (getvalue s + s.succeeded) % 2 ^ 32 = (s.initial + s.posted) % 2 ^ 32 :=
  (inv_reachable s h).cong

/-- Without the bound the balance fails: posting to a semaphore whose value is 2^32 - 1 makes the value 0,
so all the tokens are lost. (POSIX asks for `EOVERFLOW`.) -/
theorem C05_overflow_violation : ∃ s : State Unit, Reachable (sys Unit) s ∧
    s.initial = 2 ^ 32 - 1 ∧ s.posted = 1 ∧ s.succeeded = 0 ∧ getvalue s = 0 := by
  have r0 : Reachable (sys Unit) ⟨2 ^ 32 - 1, fun _ => .idle, 2 ^ 32 - 1, 0, 0, false⟩ :=
    .init ⟨rfl, by simp [M], fun _ => rfl, rfl, rfl, rfl⟩
  exact ⟨_, .step r0 (.post () 1 rfl), rfl, rfl, rfl, by simp [State.go, getvalue, M]⟩

/-! ## C06 -/

/-- **C06** (safety form). A thread sleeps in a wait only while the semaphore has no token, or while a post
that has added its token is still about to wake the sleepers. -/
theorem C06_sleeper_accounted (s : State T) (h : Reachable (sys T) s) (t : T) (k : Kind)
    (ht : s.pc t = .sleeping k) : getvalue s = 0 ∨ ∃ u, s.pc u = .postWake :=
  (inv_reachable s h).sleep t k ht

/-- A post that has added its token goes on to its next step. -/
def Fair (σ : Nat → State T) : Prop :=
  ∀ i u, (σ i).pc u = .postWake → ∃ j, i ≤ j ∧ (σ j).pc u ≠ .postWake

/-- **C06** (liveness form). If a thread sleeps while a token is available it is eventually woken. -/
theorem C06_sleeper_eventually_woken {σ : Nat → State T} (hr : Run (sys T) σ) (hf : Fair σ)
    (i : Nat) (t : T) (k : Kind) (ht : (σ i).pc t = .sleeping k) (hw : 0 < getvalue (σ i)) :
    ∃ j, i ≤ j ∧ ∀ k', (σ j).pc t ≠ .sleeping k' := by
  rcases C06_sleeper_accounted _ (hr.reachable i) t k ht with h0 | ⟨u, hu⟩
  · omega
  · obtain ⟨m, him, hall, hm⟩ := exists_last (P := fun i => (σ i).pc u = .postWake) hu (hf i u hu)
    refine ⟨m + 1, by omega, ?_⟩
    have hm' := hall m him (Nat.le_refl _)
    rcases hr.next m with hs | he
    · generalize σ (m + 1) = s' at *
      generalize σ m = s at *
      have hs : Step s s' := hs
      cases hs <;> simp only [State.go, upd, wakeAll] at * <;> grind
    · rw [he] at hm; exact absurd hm' hm

/-- The only ways `sem_wait` can end: with a token, interrupted by a signal handler, or with `EAGAIN`. -/
theorem C06_wait_results (s : State T) (h : Reachable (sys T) s) (t : T) (r : Ret)
    (ht : s.pc t = .ret .wait r) : r = .ok ∨ r = .eagain ∨ (r = .eintr ∧ s.interrupted = true) := by
  have hI := inv_reachable s h
  cases r
  · simp
  · simp
  · refine Or.inr (Or.inr ⟨rfl, ?_⟩)
    cases hi : s.interrupted
    · exact absurd ht (hI.intr hi t .wait)
    · rfl
  · exact absurd ht (hI.tmo t)

/-- `sem_wait` should return only with a token (or after a signal). It does not: when a post falls between its
check of the counter and the futex call, the kernel's `EAGAIN` is handed to the caller — here with a token
available, no signal, and nobody else waiting. -/
theorem C06_spurious_eagain_violation : ∃ s : State Bool, Reachable (sys Bool) s ∧
    s.pc true = .ret .wait .eagain ∧ s.interrupted = false ∧ getvalue s = 1 ∧ s.succeeded = 0 := by
  have r0 : Reachable (sys Bool) ⟨0, fun _ => .idle, 0, 0, 0, false⟩ :=
    .init ⟨rfl, by simp [M], fun _ => rfl, rfl, rfl, rfl⟩
  have r1 := Reachable.step r0 (Step.call true .wait rfl)
  have r2 := Reachable.step r1 (Step.load true .wait (by simp [State.go]))
  have r3 := Reachable.step r2 (Step.post false 1 (by simp [State.go, upd]))
  have r4 := Reachable.step r3 (Step.fwait true .wait (by simp [State.go, upd, loaded]))
  exact ⟨_, r4, by simp [State.go, M], rfl, by simp [State.go, getvalue, M], rfl⟩

/-- `sem_trywait` never blocks. -/
theorem C06_trywait_never_sleeps (s : State T) (h : Reachable (sys T) s) (t : T) :
    s.pc t ≠ .sleeping .trywait :=
  ((inv_reachable s h).tryw t).2

/-! ## Non-vacuity -/

/-- One thread sleeps while another has added a token and is about to wake it. -/
example : ∃ s : State Bool, Reachable (sys Bool) s ∧ s.pc true = .sleeping .wait ∧ getvalue s = 1
    ∧ s.initial + s.posted < 2 ^ 32 := by
  have r0 : Reachable (sys Bool) ⟨0, fun _ => .idle, 0, 0, 0, false⟩ :=
    .init ⟨rfl, by simp [M], fun _ => rfl, rfl, rfl, rfl⟩
  have r1 := Reachable.step r0 (Step.call true .wait rfl)
  have r2 := Reachable.step r1 (Step.load true .wait (by simp [State.go]))
  have r3 := Reachable.step r2 (Step.fwait true .wait (by simp [State.go, upd, loaded]))
  have r4 := Reachable.step r3 (Step.post false 1 (by simp [State.go, upd]))
  exact ⟨_, r4, by simp [State.go, upd], by simp [State.go, getvalue, M], by simp [State.go]⟩

end Verif.Sync.Sem
