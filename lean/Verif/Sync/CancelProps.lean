import Verif.Sync.CancelModel

/-!
# C52: cancellation requests are not lost; C57: disabled cancellation is respected
-/

namespace Verif.Sync.Cancel
open Verif.Conc

variable {R : Type} [DecidableEq R]

structure Inv (s : State R) : Prop where
  q : ∀ r, s.pc r ≠ .idle → s.queued = true
  act : s.queued = true → s.enabled = true →
    s.tpc = .cancelled ∨ s.tpc = .enLoad ∨ s.pending = true ∨ ∃ r, s.pc r = .load ∨ s.pc r = .kill

theorem inv_reachable : ∀ s : State R, Reachable (sys R) s → Inv s := by
  refine Reachable.invariant ?_ ?_
  · intro s ⟨h1, h2, h3, h4, h5⟩; constructor <;> simp_all
  · intro s s' ⟨h1, h2⟩ st
    have st : Step s s' := st
    cases st <;>
      (refine ⟨?_, ?_⟩ <;> (try simp only [upd] at *) <;> first | grind | grind (splits := 20))

/-- **C52.** Once some request has been made and no request is still being delivered, a target that has
cancellation enabled (and is not just about to check for requests) has been cancelled or has the cancellation
signal pending. -/
theorem C52_request_not_lost (s : State R) (h : Reachable (sys R) s) (hq : s.queued = true)
    (he : s.enabled = true) (hd : ∀ r, s.pc r = .idle ∨ s.pc r = .done) (hn : s.tpc ≠ .enLoad) :
    s.tpc = .cancelled ∨ s.pending = true := by
  have hI := inv_reachable s h
  rcases hI.act hq he with h1 | h1 | h1 | ⟨r, h1⟩
  · exact .inl h1
  · exact absurd h1 hn
  · exact .inr h1
  · have := hd r; grind

/-- **C52.** A request that has returned is never forgotten. -/
theorem C52_request_remembered (s : State R) (h : Reachable (sys R) s) (r : R) (hr : s.pc r = .done) :
    s.queued = true := (inv_reachable s h).q r (by simp [hr])

/-- **C52.** When the target enables cancellation after a request has returned, it is cancelled on the spot or
(if it was enabled anyway and the signal is on its way) nothing is lost either: the check performed by
`pthread_setcancelstate` sees the request. -/
theorem C52_enable_sees_request (s s' : State R) (h : Reachable (sys R) s) (r : R) (hr : s.pc r = .done)
    (ht : s.tpc = .enLoad) (st : Step s s') (hm : s'.tpc ≠ .enLoad) : s'.tpc = .cancelled := by
  have hq := C52_request_remembered s h r hr
  cases st <;> simp_all

/-- A thread that has disabled cancellation must not be cancelled. It can be: the requester reads "enabled", the
target disables cancellation, the signal arrives, and its handler does not look at the flag. -/
theorem C57_cancelled_while_disabled_violation : ∃ s : State Unit, Reachable (sys Unit) s ∧
    s.enabled = false ∧ s.tpc = .cancelled := by
  have r0 : Reachable (sys Unit) ⟨false, true, false, .run, fun _ => .idle⟩ :=
    .init ⟨rfl, rfl, rfl, rfl, fun _ => rfl⟩
  have r1 := Reachable.step r0 (Step.cancel () rfl)
  have r2 := Reachable.step r1 (Step.load () rfl)
  have r3 := Reachable.step r2 (Step.disable rfl)
  have r4 := Reachable.step r3 (Step.kill () rfl)
  have r5 := Reachable.step r4 (Step.handler rfl (by simp))
  exact ⟨_, r5, rfl, rfl⟩

/-- What does hold: outside the signal handler, no path cancels a thread that has cancellation disabled. -/
theorem C57_disabled_respected_partial (s s' : State R) (st : Step s s')
    (he : s.enabled = false) (hp : s.pending = false) (h : Reachable (sys R) s) (ht : s.tpc ≠ .cancelled) :
    s'.tpc ≠ .cancelled := by
  have hen : s.tpc = .enLoad → s.enabled = true := by
    clear he hp st ht
    revert s
    refine Reachable.invariant ?_ ?_
    · intro s ⟨h1, h2, h3, h4, h5⟩; simp_all
    · intro s s' h st
      have st : Step s s' := st
      cases st <;> (try simp only at *) <;> grind
  cases st <;> simp only at * <;> grind

/-- A request has been made, cancellation is enabled, the signal is pending. -/
example : ∃ s : State Unit, Reachable (sys Unit) s ∧ s.queued = true ∧ s.enabled = true ∧ s.pc () = .done ∧
    s.tpc = .run := by
  have r0 : Reachable (sys Unit) ⟨false, true, false, .run, fun _ => .idle⟩ :=
    .init ⟨rfl, rfl, rfl, rfl, fun _ => rfl⟩
  have r1 := Reachable.step r0 (Step.cancel () rfl)
  have r2 := Reachable.step r1 (Step.load () rfl)
  have r3 := Reachable.step r2 (Step.kill () rfl)
  exact ⟨_, r3, rfl, rfl, rfl, rfl⟩

/-- A request made while cancellation is disabled, and the target about to check after enabling. -/
example : ∃ s : State Unit, Reachable (sys Unit) s ∧ s.pc () = .done ∧ s.tpc = .enLoad ∧ s.pending = false := by
  have r0 : Reachable (sys Unit) ⟨false, true, false, .run, fun _ => .idle⟩ :=
    .init ⟨rfl, rfl, rfl, rfl, fun _ => rfl⟩
  have r1 := Reachable.step r0 (Step.disable rfl)
  have r2 := Reachable.step r1 (Step.cancel () rfl)
  have r3 := Reachable.step r2 (Step.load () rfl)
  have r4 := Reachable.step r3 (Step.enable rfl)
  exact ⟨_, r4, rfl, rfl, rfl⟩

end Verif.Sync.Cancel
