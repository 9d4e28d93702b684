import Verif.Sync.MutexModel

/-!
# C01, C02: the internal lock excludes and loses no wakeup
-/

namespace Verif.Sync.Mutex
open Verif.Conc

variable {T : Type} [DecidableEq T]

/-- The inductive invariant. -/
structure Inv (s : State T) : Prop where
  range : s.word = 0 ∨ s.word = 1 ∨ s.word = 2
  excl : ∀ t u, s.pc t = .holding → s.pc u = .holding → t = u
  held : s.word ≠ 0 ↔ ∃ t, s.pc t = .holding
  sleep : ∀ t, s.pc t = .sleeping → s.word = 2 ∨ ∃ u, s.pc u = .wake

theorem inv_init (s : State T) (h : Init s) : Inv s := by
  rcases h with ⟨hw, hp⟩ | ⟨hw, t, ht, hp⟩
  · constructor <;> simp_all [UNLOCKED]
  · constructor
    · simp [hw, LOCKED]
    · intro a b ha hb
      by_cases h1 : a = t <;> by_cases h2 : b = t <;> simp_all
    · simp only [hw, LOCKED]; exact ⟨fun _ => ⟨t, ht⟩, fun _ => by decide⟩
    · intro a ha
      by_cases h1 : a = t <;> simp_all

theorem inv_step (s s' : State T) (h : Inv s) (st : Step s s') : Inv s' := by
  obtain ⟨hr, he, hh, hs⟩ := h
  cases st <;>
    (refine ⟨?_, ?_, ?_, ?_⟩ <;>
      simp only [attempt, markLong, afterAttempt, afterMark, wakeAll, upd, UNLOCKED, LOCKED, WAITING] at * <;>
      grind)

theorem inv_reachable : ∀ s : State T, Reachable (sys T) s → Inv s :=
  Reachable.invariant inv_init inv_step

/-! ## C01 -/

/-- **C01.** In every reachable state at most one thread holds the lock. -/
theorem C01_mutual_exclusion (s : State T) (h : Reachable (sys T) s) (t u : T)
    (ht : s.pc t = .holding) (hu : s.pc u = .holding) : t = u :=
  (inv_reachable s h).excl t u ht hu

/-- **C01** (`try_lock` reports the truth): in a reachable state `try_lock` succeeds exactly when no
thread holds the lock. -/
theorem C01_try_lock_exact (s s' : State T) (h : Reachable (sys T) s) (t : T) (ht : s.pc t = .idle)
    (hs' : s' = { word := if s.word = UNLOCKED then LOCKED else s.word,
                  pc := upd s.pc t (if s.word = UNLOCKED then .holding else .idle) }) :
    Step s s' ∧ (s'.pc t = .holding ↔ ∀ u, s.pc u ≠ .holding) := by
  subst hs'
  refine ⟨Step.tryLock t ht, ?_⟩
  have := (inv_reachable s h).held
  simp only [UNLOCKED, upd_same]
  grind

/-! ## C02 -/

/-- **C02** (safety form). Whenever a thread sleeps on the lock, another thread either holds the lock with
its waiters marked (so that its unlock issues a wake-up) or is already issuing the wake-up. -/
theorem C02_sleeper_accounted (s : State T) (h : Reachable (sys T) s) (t : T) (ht : s.pc t = .sleeping) :
    ∃ u, u ≠ t ∧ (s.pc u = .wake ∨ (s.pc u = .holding ∧ s.word = WAITING)) := by
  have hI := inv_reachable s h
  rcases hI.sleep t ht with hw | ⟨u, hu⟩
  · obtain ⟨u, hu⟩ := hI.held.mp (by omega)
    exact ⟨u, by grind, Or.inr ⟨hu, hw⟩⟩
  · exact ⟨u, by grind, Or.inl hu⟩

/-- **C02** (the stranded state is unreachable). -/
theorem C02_no_stranded_sleeper (s : State T) (h : Reachable (sys T) s)
    (hfree : ∀ u, s.pc u ≠ .holding) (hnowake : ∀ u, s.pc u ≠ .wake) (t : T) : s.pc t ≠ .sleeping := by
  intro ht
  obtain ⟨u, -, h1 | h1⟩ := C02_sleeper_accounted s h t ht
  · exact hnowake u h1
  · exact hfree u h1.1

/-- Assumption on an execution: whoever holds the lock eventually starts its unlock, and a thread inside
`futex_wake` eventually finishes that call. -/
structure Fair (σ : Nat → State T) : Prop where
  unlocks : ∀ i u, (σ i).pc u = .holding → ∃ j, i ≤ j ∧ (σ j).pc u ≠ .holding
  wakes : ∀ i u, (σ i).pc u = .wake → ∃ j, i ≤ j ∧ (σ j).pc u ≠ .wake

/-- A pending wake-up wakes every sleeper. -/
theorem wake_wakes {σ : Nat → State T} (hr : Run (sys T) σ) (hf : Fair σ) (i : Nat) (t u : T)
    (hu : (σ i).pc u = .wake) : ∃ j, i ≤ j ∧ (σ j).pc t ≠ .sleeping := by
  obtain ⟨k, hik, hall, hk⟩ := exists_last (P := fun i => (σ i).pc u = .wake) hu (hf.wakes i u hu)
  refine ⟨k + 1, by omega, ?_⟩
  have hk' := hall k hik (Nat.le_refl _)
  rcases hr.next k with hs | he
  · generalize σ (k+1) = s' at *
    generalize σ k = s at *
    have hs : Step s s' := hs
    cases hs <;> simp only [upd, wakeAll] at * <;> grind
  · rw [he] at hk; exact absurd hk' hk

/-- **C02** (liveness form). In every fair execution a thread asleep on the lock is eventually woken. -/
theorem C02_sleeper_eventually_woken {σ : Nat → State T} (hr : Run (sys T) σ) (hf : Fair σ)
    (i : Nat) (t : T) (_ht : (σ i).pc t = .sleeping) : ∃ j, i ≤ j ∧ (σ j).pc t ≠ .sleeping := by
  apply Classical.byContradiction
  intro hcon
  have hsl : ∀ j, i ≤ j → (σ j).pc t = .sleeping := by
    intro j hj
    apply Classical.byContradiction
    intro h; exact hcon ⟨j, hj, h⟩
  obtain ⟨u, hut, hu | ⟨hu, hw⟩⟩ := C02_sleeper_accounted _ (hr.reachable i) t (hsl i (Nat.le_refl _))
  · exact hcon (wake_wakes hr hf i t u hu)
  · obtain ⟨k, hik, hall, hk⟩ := exists_last (P := fun i => (σ i).pc u = .holding) hu (hf.unlocks i u hu)
    -- the word stays WAITING while `u` holds the lock
    have hword : ∀ d, i + d ≤ k → (σ (i + d)).word = WAITING := by
      intro d
      induction d with
      | zero => intro _; exact hw
      | succ d ih =>
        intro hd
        have ih := ih (by omega)
        have hh := hall (i + d) (by omega) (by omega)
        have hh' := hall (i + d + 1) (by omega) (by omega)
        have hI := inv_reachable _ (hr.reachable (i + d))
        rcases hr.next (i + d) with hs | he
        · show (σ (i + d + 1)).word = WAITING
          generalize σ (i + d + 1) = s' at *
          generalize σ (i + d) = s at *
          have hs : Step s s' := hs
          have hx := hI.excl
          cases hs <;>
            simp only [attempt, markLong, afterAttempt, afterMark, wakeAll, upd, UNLOCKED, LOCKED, WAITING] at * <;>
            grind
        · show (σ (i + d + 1)).word = WAITING
          rw [he]; exact ih
    have hwk : (σ k).word = WAITING := by
      have := hword (k - i) (by omega)
      rwa [show i + (k - i) = k by omega] at this
    have hh := hall k hik (Nat.le_refl _)
    have hwake : (σ (k + 1)).pc u = .wake := by
      rcases hr.next k with hs | he
      · generalize σ (k + 1) = s' at *
        generalize σ k = s at *
        have hs : Step s s' := hs
        cases hs <;> simp only [upd, wakeAll] at * <;> grind
      · rw [he] at hk; exact absurd hh hk
    obtain ⟨j, hj, hne⟩ := wake_wakes hr hf (k + 1) t u hwake
    exact hcon ⟨j, by omega, hne⟩

/-! ## Non-vacuity -/

/-- A contended state is reachable: thread 0 holds the lock, thread 1 sleeps on it, and the word is WAITING. -/
example : ∃ s : State (Fin 2), Reachable (sys (Fin 2)) s ∧ s.pc 0 = .holding ∧ s.pc 1 = .sleeping := by
  have spins : ∀ k, ∀ s : State (Fin 2), Reachable (sys (Fin 2)) s → s.word = 1 → s.pc 0 = .holding →
      s.pc 1 = .spin k → ∃ s', Reachable (sys (Fin 2)) s' ∧ s'.word = 1 ∧ s'.pc 0 = .holding ∧ s'.pc 1 = .attempt := by
    intro k
    induction k with
    | zero => intro s h hw h0 h1
              exact ⟨_, .step h (.spinDone 1 h1), hw, by simpa [upd] using h0, by simp⟩
    | succ k ih =>
      intro s h hw h0 h1
      exact ih _ (.step h (.spin 1 k false h1)) (by simp [attempt, hw, UNLOCKED]) (by simpa [upd] using h0)
        (by simp [attempt, hw, UNLOCKED, WAITING])
  have r0 : Reachable (sys (Fin 2)) ⟨0, fun _ => .idle⟩ := .init (Or.inl ⟨rfl, fun _ => rfl⟩)
  have r1 := Reachable.step r0 (Step.tryLock (0 : Fin 2) rfl)
  have r2 := Reachable.step r1 (Step.callLock (1 : Fin 2) (by simp [upd]))
  obtain ⟨s, rs, hw, h0, h1⟩ := spins 999 _ r2 (by simp [UNLOCKED, LOCKED]) (by simp [upd, UNLOCKED]) (by simp)
  have r3 := Reachable.step rs (Step.attempt 1 false h1)
  have r4 := Reachable.step r3 (Step.mark 1 false (by simp [attempt, hw, UNLOCKED, WAITING, afterAttempt]))
  have r5 := Reachable.step r4 (Step.wait 1 (by simp [attempt, markLong, hw, UNLOCKED, LOCKED, afterMark]))
  exact ⟨_, r5, by simpa [upd] using h0, by simp [attempt, markLong, hw, UNLOCKED, LOCKED, WAITING]⟩

end Verif.Sync.Mutex
