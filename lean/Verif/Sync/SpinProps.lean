import Verif.Sync.SpinModel

/-!
# C13: spin locks
-/

namespace Verif.Sync.Spin
open Verif.Conc

variable {T : Type} [DecidableEq T]

structure Inv (s : State T) : Prop where
  range : s.word = 0 ∨ s.word = 1
  held : s.word = 1 ↔ ∃ t, s.pc t = .holding
  excl : ∀ t u, s.pc t = .holding → s.pc u = .holding → t = u

theorem inv_reachable : ∀ s : State T, Reachable (sys T) s → Inv s := by
  refine Reachable.invariant ?_ ?_
  · intro s ⟨h1, h2⟩; constructor <;> simp_all
  · intro s s' ⟨h1, h2, h3⟩ st
    have st : Step s s' := st
    cases st <;> (refine ⟨?_, ?_, ?_⟩ <;> (try simp only [upd] at *) <;> grind)

/-- **C13.** Never two holders. -/
theorem C13_mutual_exclusion (s : State T) (h : Reachable (sys T) s) (t u : T)
    (ht : s.pc t = .holding) (hu : s.pc u = .holding) : t = u :=
  (inv_reachable s h).excl t u ht hu

/-- **C13.** The outcome of `pthread_spin_trylock` is decided by whether somebody holds the lock at that moment:
it reports `EBUSY` if so, and acquires the lock if not. -/
theorem C13_trylock_exact (s s' : State T) (h : Reachable (sys T) s) (t : T) (hp : s.pc t = .try')
    (st : Step s s') (hm : s'.pc t ≠ .try') :
    (s'.pc t = .busy ∧ ∃ u, u ≠ t ∧ s.pc u = .holding) ∨
    (s'.pc t = .holding ∧ ∀ u, s.pc u ≠ .holding) := by
  have hI := inv_reachable s h
  have h1 := hI.range
  have h2 := hI.held
  cases st <;> (try simp only [upd] at *) <;> grind

/-- **C13.** A free spin lock can be taken at once by any thread that wants it. -/
theorem C13_free_lock_obtainable (s : State T) (h : Reachable (sys T) s) (hf : ∀ u, s.pc u ≠ .holding) (t : T)
    (hp : s.pc t = .spin) : ∃ s', Step s s' ∧ s'.pc t = .holding := by
  have hI := inv_reachable s h
  have hw : s.word = 0 := by
    rcases hI.range with h0 | h1
    · exact h0
    · obtain ⟨u, hu⟩ := hI.held.mp h1; exact absurd hu (hf u)
  exact ⟨_, .casOk t hp hw, by simp⟩

/-- One thread holds while the other's `trylock` fails. -/
example : ∃ s : State Bool, Reachable (sys Bool) s ∧ s.pc true = .holding ∧ s.pc false = .busy := by
  have r0 : Reachable (sys Bool) ⟨0, fun _ => .idle⟩ := .init ⟨rfl, fun _ => rfl⟩
  have r1 := Reachable.step r0 (Step.callLock true rfl)
  have r2 := Reachable.step r1 (Step.casOk true rfl rfl)
  have r3 := Reachable.step r2 (Step.callTry false rfl)
  have r4 := Reachable.step r3 (Step.tryFail false rfl (by simp))
  exact ⟨_, r4, rfl, rfl⟩

end Verif.Sync.Spin
