import Verif.Sync.OnceModel

/-!
# C03, C04: `pthread_once`
-/

namespace Verif.Sync.Once
open Verif.Conc

variable {T : Type} [DecidableEq T]

structure Inv (s : State T) : Prop where
  range : s.word = 0 ∨ s.word = 1 ∨ s.word = 2 ∨ s.word = 3
  fresh : s.word = 0 ↔ s.started = 0
  once : s.started ≤ 1
  compl : s.completed ≤ s.started
  excl : ∀ t u, (s.pc t = .running ∨ s.pc t = .finish) → (s.pc u = .running ∨ s.pc u = .finish) → t = u
  busy : (s.word = 1 ∨ s.word = 2) ↔ ∃ t, s.pc t = .running ∨ s.pc t = .finish
  run : ∀ t, s.pc t = .running → s.completed = 0
  fin : ∀ t, s.pc t = .finish → s.completed = 1
  don : s.word = 3 → s.completed = 1
  ret : ∀ t, s.pc t = .returned → s.word = 3
  wak : ∀ t, s.pc t = .wake → s.word = 3
  sleep : ∀ t, s.pc t = .sleeping → s.word = 2 ∨ ∃ u, s.pc u = .wake

theorem inv_init (s : State T) (h : Init s) : Inv s := by
  obtain ⟨hw, hp, hs, hc⟩ := h
  constructor <;> simp_all [UNINITIALIZED]

set_option maxHeartbeats 1000000 in
theorem inv_step (s s' : State T) (h : Inv s) (st : Step s s') : Inv s' := by
  obtain ⟨h1, h2, h3, h4, h5, h6, h7, h8, h9, h10, h11, h12⟩ := h
  cases st <;>
    (refine ⟨?_, ?_, ?_, ?_, ?_, ?_, ?_, ?_, ?_, ?_, ?_, ?_⟩ <;>
      simp only [attempt, markLong, afterAttempt, afterMark, wakeAll, upd, UNINITIALIZED, INITIALIZING,
        INITIALIZED, WAITING] at * <;>
      grind)

theorem inv_reachable : ∀ s : State T, Reachable (sys T) s → Inv s :=
  Reachable.invariant inv_init inv_step

/-! ## C03 -/

/-- **C03.** Over the whole history the initialiser is started at most once, so also run at most once. -/
theorem C03_at_most_once (s : State T) (h : Reachable (sys T) s) : s.started ≤ 1 :=
  (inv_reachable s h).once

/-- **C03.** Whenever some call has returned, the initialiser has run to completion exactly once. -/
theorem C03_return_after_completion (s : State T) (h : Reachable (sys T) s) (t : T)
    (ht : s.pc t = .returned) : s.started = 1 ∧ s.completed = 1 ∧ ∀ u, s.pc u ≠ .running := by
  have hI := inv_reachable s h
  have hw := hI.ret t ht
  have hc := hI.don hw
  refine ⟨?_, hc, ?_⟩
  · have := hI.once; have := hI.compl; omega
  · intro u hu; have := hI.run u hu; omega

/-! ## C04 -/

/-- **C04** (safety form). While a caller sleeps, another thread is still running the initialiser (and will
see that it has waiters) or is already waking the sleepers. -/
theorem C04_sleeper_accounted (s : State T) (h : Reachable (sys T) s) (t : T) (ht : s.pc t = .sleeping) :
    ∃ u, u ≠ t ∧ (s.pc u = .wake ∨ ((s.pc u = .running ∨ s.pc u = .finish) ∧ s.word = WAITING)) := by
  have hI := inv_reachable s h
  rcases hI.sleep t ht with hw | ⟨u, hu⟩
  · obtain ⟨u, hu⟩ := hI.busy.mp (Or.inr hw)
    exact ⟨u, by grind, Or.inr ⟨hu, hw⟩⟩
  · exact ⟨u, by grind, Or.inl hu⟩

/-- Assumption on an execution: the initialiser terminates, and a thread that has finished it goes on to
make its remaining two steps. -/
structure Fair (σ : Nat → State T) : Prop where
  terminates : ∀ i u, ((σ i).pc u = .running ∨ (σ i).pc u = .finish) →
    ∃ j, i ≤ j ∧ ¬ ((σ j).pc u = .running ∨ (σ j).pc u = .finish)
  wakes : ∀ i u, (σ i).pc u = .wake → ∃ j, i ≤ j ∧ (σ j).pc u ≠ .wake

theorem wake_wakes {σ : Nat → State T} (hr : Run (sys T) σ) (hf : Fair σ) (i : Nat) (t u : T)
    (hu : (σ i).pc u = .wake) : ∃ j, i ≤ j ∧ (σ j).pc t ≠ .sleeping := by
  obtain ⟨k, hik, hall, hk⟩ := exists_last (P := fun i => (σ i).pc u = .wake) hu (hf.wakes i u hu)
  refine ⟨k + 1, by omega, ?_⟩
  have hk' := hall k hik (Nat.le_refl _)
  rcases hr.next k with hs | he
  · generalize σ (k+1) = s' at *
    generalize σ k = s at *
    have hs : Step s s' := hs
    cases hs <;> simp only [upd, wakeAll] at * <;> grind
  · rw [he] at hk; exact absurd hk' hk

/-- **C04** (liveness form). In every execution in which the initialiser terminates, a sleeping caller is
eventually woken. -/
theorem C04_sleeper_eventually_woken {σ : Nat → State T} (hr : Run (sys T) σ) (hf : Fair σ)
    (i : Nat) (t : T) (_ht : (σ i).pc t = .sleeping) : ∃ j, i ≤ j ∧ (σ j).pc t ≠ .sleeping := by
  apply Classical.byContradiction
  intro hcon
  have hsl : ∀ j, i ≤ j → (σ j).pc t = .sleeping := by
    intro j hj
    apply Classical.byContradiction
    intro h; exact hcon ⟨j, hj, h⟩
  obtain ⟨u, hut, hu | ⟨hu, hw⟩⟩ := C04_sleeper_accounted _ (hr.reachable i) t (hsl i (Nat.le_refl _))
  · exact hcon (wake_wakes hr hf i t u hu)
  · obtain ⟨k, hik, hall, hk⟩ := exists_last
      (P := fun i => (σ i).pc u = .running ∨ (σ i).pc u = .finish) hu (hf.terminates i u hu)
    have hword : ∀ d, i + d ≤ k → (σ (i + d)).word = WAITING := by
      intro d
      induction d with
      | zero => intro _; exact hw
      | succ d ih =>
        intro hd
        have ih := ih (by omega)
        have hh := hall (i + d) (by omega) (by omega)
        have hh' := hall (i + d + 1) (by omega) (by omega)
        have hI := inv_reachable _ (hr.reachable (i + d))
        rcases hr.next (i + d) with hs | he
        · show (σ (i + d + 1)).word = WAITING
          generalize σ (i + d + 1) = s' at *
          generalize σ (i + d) = s at *
          have hs : Step s s' := hs
          have hx := hI.excl
          cases hs <;>
            simp only [attempt, markLong, afterAttempt, afterMark, wakeAll, upd, UNINITIALIZED, INITIALIZING,
              INITIALIZED, WAITING] at * <;>
            grind
        · show (σ (i + d + 1)).word = WAITING
          rw [he]; exact ih
    have hwk : (σ k).word = WAITING := by
      have := hword (k - i) (by omega)
      rwa [show i + (k - i) = k by omega] at this
    have hh := hall k hik (Nat.le_refl _)
    have hwake : (σ (k + 1)).pc u = .wake := by
      rcases hr.next k with hs | he
      · generalize σ (k + 1) = s' at *
        generalize σ k = s at *
        have hs : Step s s' := hs
        cases hs <;> simp only [upd, wakeAll] at * <;> grind
      · rw [he] at hk; exact absurd hh hk
    obtain ⟨j, hj, hne⟩ := wake_wakes hr hf (k + 1) t u hwake
    exact hcon ⟨j, by omega, hne⟩

/-! ## Non-vacuity -/

/-- Thread 0 runs the initialiser while thread 1 sleeps on it; later both have returned. -/
example : ∃ s : State (Fin 2), Reachable (sys (Fin 2)) s ∧ s.pc 0 = .running ∧ s.pc 1 = .sleeping := by
  have spins : ∀ k, ∀ s : State (Fin 2), Reachable (sys (Fin 2)) s → s.word = 1 → s.pc 0 = .running →
      s.pc 1 = .spin k → ∃ s', Reachable (sys (Fin 2)) s' ∧ s'.word = 1 ∧ s'.pc 0 = .running ∧ s'.pc 1 = .attempt := by
    intro k
    induction k with
    | zero => intro s h hw h0 h1
              exact ⟨_, .step h (.spinDone 1 h1), hw, by simpa [upd] using h0, by simp⟩
    | succ k ih =>
      intro s h hw h0 h1
      exact ih _ (.step h (.spin 1 k h1)) hw (by simpa [upd] using h0)
        (by simp [attempt, hw, INITIALIZED, WAITING])
  have r0 : Reachable (sys (Fin 2)) ⟨0, fun _ => .idle, 0, 0⟩ := .init ⟨rfl, fun _ => rfl, rfl, rfl⟩
  have r1 := Reachable.step r0 (Step.callFirst (0 : Fin 2) rfl rfl)
  have r2 := Reachable.step r1 (Step.callWait (1 : Fin 2) (by simp [upd]) (Or.inl rfl))
  obtain ⟨s, rs, hw, h0, h1⟩ := spins 999 _ r2 rfl (by simp [upd]) (by simp)
  have r3 := Reachable.step rs (Step.attempt 1 h1)
  have r4 := Reachable.step r3 (Step.mark 1 false (by simp [attempt, hw, INITIALIZED, WAITING, afterAttempt]))
  have r5 := Reachable.step r4 (Step.wait 1 (by simp [markLong, hw, INITIALIZING, afterMark]))
  exact ⟨_, r5, by simpa [upd] using h0, by simp [markLong, hw, INITIALIZING, WAITING]⟩

/-- A call returns in a reachable state. -/
example : ∃ s : State (Fin 2), Reachable (sys (Fin 2)) s ∧ s.pc 0 = .returned ∧ s.started = 1 := by
  have r0 : Reachable (sys (Fin 2)) ⟨0, fun _ => .idle, 0, 0⟩ := .init ⟨rfl, fun _ => rfl, rfl, rfl⟩
  have r1 := Reachable.step r0 (Step.callFirst (0 : Fin 2) rfl rfl)
  have r2 := Reachable.step r1 (Step.ctorDone (0 : Fin 2) (by simp))
  have r3 := Reachable.step r2 (Step.finish (0 : Fin 2) (by simp))
  exact ⟨_, r3, by simp [INITIALIZING, WAITING], rfl⟩

end Verif.Sync.Once
