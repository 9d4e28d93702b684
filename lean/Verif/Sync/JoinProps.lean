import Verif.Sync.JoinModel

/-!
# C14: `pthread_join`; C56: lifetime of the thread control block
-/

namespace Verif.Sync.Join
open Verif.Conc

variable {V J : Type} [DecidableEq J]

structure Inv (s : State V J) : Prop where
  res : s.tpc = .running ↔ s.result = none
  word : s.word = 0 ∨ s.word = 1
  posted : s.word = 1 → s.result ≠ none ∧ s.value = s.result ∧ (s.tpc = .wake ∨ s.tpc = .gone)
  st : s.tpc = .store → s.value = s.result
  rd : ∀ j, s.pc j = .read → s.word = 1
  dl : ∀ j v, s.pc j = .dealloc v → s.word = 1 ∧ v = s.result
  rt : ∀ j v, s.pc j = .ret v → s.word = 1 ∧ v = s.result
  sleep : ∀ j, s.pc j = .sleeping → s.word = 0 ∨ s.tpc = .wake
  wk : s.tpc = .wake → s.word = 1
  dt : s.tpc = .dealloc → s.detached = true
  gone : s.tpc = .gone → s.word = 0 → s.detached = true ∧ s.freed = 1
  frd : s.word = 0 → s.tpc ≠ .gone → s.freed = 0

theorem inv_reachable : ∀ s : State V J, Reachable (sys V J) s → Inv s := by
  refine Reachable.invariant ?_ ?_
  · intro s ⟨h1, h2, h3, h4, h5, h6⟩; constructor <;> simp_all
  · intro s s' ⟨h1, h2, h3, h4, h5, h6, h7, h8, h9, h10, h11, h12⟩ st
    have st : Step s s' := st
    cases st <;>
      (refine ⟨?_, ?_, ?_, ?_, ?_, ?_, ?_, ?_, ?_, ?_, ?_, ?_⟩ <;> (try simp only [upd, wakeAll] at *) <;>
        first | grind | grind (splits := 20))

/-! ## C14 -/

/-- **C14.** When `pthread_join` has returned, the target has finished, and the value handed out is the one the
target finished with. -/
theorem C14_join_delivers_result (s : State V J) (h : Reachable (sys V J) s) (j : J) (v : Option V)
    (hj : s.pc j = .ret v) : s.tpc ≠ .running ∧ ∃ x, s.result = some x ∧ v = some x := by
  have hI := inv_reachable s h
  obtain ⟨hw, hv⟩ := hI.rt j v hj
  have hr := (hI.posted hw).1
  obtain ⟨x, hx⟩ := Option.ne_none_iff_exists'.mp hr
  exact ⟨fun h => hr (hI.res.mp h), x, hx, by rw [hv, hx]⟩

/-- **C14** (safety form of "join comes back"). A joiner sleeps only while the target has not yet published its
result or is just about to wake the joiner, unless the thread was detached (joining it is then undefined). -/
theorem C14_joiner_not_stranded (s : State V J) (h : Reachable (sys V J) s) (j : J) (hj : s.pc j = .sleeping)
    (hd : s.detached = false) : s.tpc ≠ .gone := by
  have hI := inv_reachable s h
  intro hg
  rcases hI.sleep j hj with hw | hw
  · have := (hI.gone hg hw).1; simp_all
  · simp_all

/-- The target, once it has finished, makes its remaining steps. -/
def Fair (σ : Nat → State V J) : Prop :=
  ∀ i, (σ i).tpc ≠ .running → ∃ j, i ≤ j ∧ (σ j).tpc = .gone

/-- **C14** (liveness form). After the target has finished, a sleeping joiner is eventually woken. -/
theorem C14_joiner_eventually_woken {σ : Nat → State V J} (hr : Run (sys V J) σ) (hf : Fair σ)
    (hd : ∀ i, (σ i).detached = false) (i : Nat) (j : J) (_hj : (σ i).pc j = .sleeping)
    (hfin : (σ i).tpc ≠ .running) : ∃ k, i ≤ k ∧ (σ k).pc j ≠ .sleeping := by
  obtain ⟨k, hik, hk⟩ := hf i hfin
  exact ⟨k, hik, fun hs => C14_joiner_not_stranded _ (hr.reachable k) j hs (hd k) hk⟩

/-! ## C56: lifetime of the control block -/

/-- The control block must not be touched after it was released. It is: the target publishes its result with a
store and then makes a futex call on the same block, while the joiner that saw the store has already released
it. Here the target is about to make that call with the block already released; nobody detached the thread and
there is a single joiner. -/
theorem C56_use_after_free_violation : ∃ s : State Unit Unit, Reachable (sys Unit Unit) s ∧
    s.tpc = .wake ∧ s.freed = 1 ∧ s.detached = false := by
  have r0 : Reachable (sys Unit Unit) ⟨0, none, false, .running, fun _ => .idle, none, 0⟩ :=
    .init ⟨rfl, rfl, rfl, fun _ => rfl, rfl, rfl⟩
  have r1 := Reachable.step r0 (Step.join () rfl)
  have r2 := Reachable.step r1 (Step.finish () rfl)
  have r3 := Reachable.step r2 (Step.exit rfl)
  have r4 := Reachable.step r3 (Step.write rfl)
  have r5 := Reachable.step r4 (Step.store rfl)
  have r6 := Reachable.step r5 (Step.load () rfl)
  have r7 := Reachable.step r6 (Step.read () rfl)
  have r8 := Reachable.step r7 (Step.jdealloc () (some ()) rfl)
  exact ⟨_, r8, rfl, rfl, rfl⟩

/-- What does hold: before the target has published its result or given the block up, the block is not
released. -/
theorem C56_not_released_before_exit_partial (s : State V J) (h : Reachable (sys V J) s)
    (ht : s.tpc ≠ .wake) (hg : s.tpc ≠ .gone) : s.freed = 0 := by
  have hI := inv_reachable s h
  rcases hI.word with hw | hw
  · exact hI.frd hw hg
  · rcases (hI.posted hw).2.2 with h1 | h1
    · exact absurd h1 ht
    · exact absurd h1 hg

/-- A thread detached after it has checked the flag is never released: it is gone, detached, and nobody may join
it any more. -/
theorem C56_late_detach_leaks_violation : ∃ s : State Unit Unit, Reachable (sys Unit Unit) s ∧
    s.tpc = .gone ∧ s.detached = true ∧ s.freed = 0 ∧ s.pc () = .idle := by
  have r0 : Reachable (sys Unit Unit) ⟨0, none, false, .running, fun _ => .idle, none, 0⟩ :=
    .init ⟨rfl, rfl, rfl, fun _ => rfl, rfl, rfl⟩
  have r2 := Reachable.step r0 (Step.finish () rfl)
  have r3 := Reachable.step r2 (Step.exit rfl)
  have r4 := Reachable.step r3 (Step.detach)
  have r5 := Reachable.step r4 (Step.write rfl)
  have r6 := Reachable.step r5 (Step.store rfl)
  have r7 := Reachable.step r6 (Step.wake rfl)
  exact ⟨_, r7, rfl, rfl, rfl, rfl⟩

/-! ## Non-vacuity -/

/-- A join returns the value 7. -/
example : ∃ s : State Nat Unit, Reachable (sys Nat Unit) s ∧ s.pc () = .ret (some 7) := by
  have r0 : Reachable (sys Nat Unit) ⟨0, none, false, .running, fun _ => .idle, none, 0⟩ :=
    .init ⟨rfl, rfl, rfl, fun _ => rfl, rfl, rfl⟩
  have r1 := Reachable.step r0 (Step.join () rfl)
  have r1 := Reachable.step r1 (Step.load () rfl)
  have r1 := Reachable.step r1 (Step.fwait () rfl)
  have r2 := Reachable.step r1 (Step.finish 7 rfl)
  have r3 := Reachable.step r2 (Step.exit rfl)
  have r4 := Reachable.step r3 (Step.write rfl)
  have r5 := Reachable.step r4 (Step.store rfl)
  have r5 := Reachable.step r5 (Step.wake rfl)
  have r6 := Reachable.step r5 (Step.load () rfl)
  have r7 := Reachable.step r6 (Step.read () rfl)
  have r8 := Reachable.step r7 (Step.jdealloc () (some 7) rfl)
  exact ⟨_, r8, rfl⟩

/-- A joiner sleeps although the target has finished (it is about to be woken). -/
example : ∃ s : State Nat Unit, Reachable (sys Nat Unit) s ∧ s.pc () = .sleeping ∧ s.tpc = .wake ∧
    s.detached = false := by
  have r0 : Reachable (sys Nat Unit) ⟨0, none, false, .running, fun _ => .idle, none, 0⟩ :=
    .init ⟨rfl, rfl, rfl, fun _ => rfl, rfl, rfl⟩
  have r1 := Reachable.step r0 (Step.join () rfl)
  have r1 := Reachable.step r1 (Step.load () rfl)
  have r1 := Reachable.step r1 (Step.fwait () rfl)
  have r2 := Reachable.step r1 (Step.finish 7 rfl)
  have r3 := Reachable.step r2 (Step.exit rfl)
  have r4 := Reachable.step r3 (Step.write rfl)
  have r5 := Reachable.step r4 (Step.store rfl)
  exact ⟨_, r5, rfl, rfl, rfl⟩

end Verif.Sync.Join
