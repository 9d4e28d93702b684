import Verif.Sync.PMutexInv

/-!
# C09, C10: `pthread_mutex_*`

`s.depth t` counts the successful lock operations of thread `t` minus its successful unlocks: `t` holds the
mutex when it is positive.
-/

namespace Verif.Sync.PMutex
open Verif.Conc

variable {T : Type} [DecidableEq T]

/-! ## C09 -/

/-- **C09.** At most one thread holds the mutex, whatever its type. -/
theorem C09_mutual_exclusion (c : Cfg) (s : State T) (h : Reachable (sys c T) s) (t u : T)
    (ht : s.depth t > 0) (hu : s.depth u > 0) : t = u := by
  have hI := inv_reachable c s h
  have h1 := hI.own t ht
  have h2 := hI.own u hu
  rw [h1] at h2; exact Option.some.inj h2

/-- **C09.** A lock operation that reports success leaves its caller holding the mutex once more than before, and
nobody else holding it. -/
theorem C09_success_acquires (c : Cfg) (s s' : State T) (h : Reachable (sys c T) s) (st : Step c s s') (t : T)
    (k : Kind) (hb : s.pc t ≠ .retLock k .ok) (hb' : s'.pc t = .retLock k .ok) :
    s'.depth t = s.depth t + 1 ∧ ∀ u, u ≠ t → s'.depth u = 0 := by
  have h' := Reachable.step h st
  have hd : s'.depth t = s.depth t + 1 := by
    cases st <;> simp only [wakeAll, upd, casFailed] at * <;> grind
  refine ⟨hd, fun u hu => ?_⟩
  apply Classical.byContradiction
  intro h0
  exact hu (C09_mutual_exclusion c s' h' u t (by omega) (by omega))

/-- **C09.** Only a recursive mutex is ever held more than once. -/
theorem C09_nonrecursive_once (c : Cfg) (s : State T) (h : Reachable (sys c T) s) (hc : c.ty ≠ .recursive) (t : T) :
    s.depth t ≤ 1 := (inv_reachable c s h).one hc t

/-- **C09.** A recursive mutex becomes free for others only when its owner has unlocked it as many times as it
locked it: the word a locker must find unlocked is unlocked only if nobody holds the mutex, and is locked by
somebody as long as anybody holds it. -/
theorem C09_free_iff_all_released (c : Cfg) (s : State T) (h : Reachable (sys c T) s) :
    (s.word = none → ∀ t, s.depth t = 0) ∧ (∀ t, s.depth t > 0 → s.word = some t) := by
  have hI := inv_reachable c s h
  refine ⟨fun hw t => ?_, hI.own⟩
  apply Classical.byContradiction
  intro h0
  have := hI.own t (by omega)
  simp_all

/-- **C09.** The recursion counter equals the number of times the owner holds the mutex whenever the owner is
not inside an unlock, so each unlock gives back exactly one of its locks. -/
theorem C09_recursion_counted (c : Cfg) (s : State T) (h : Reachable (sys c T) s) (hc : c.ty = .recursive) (t : T)
    (ht : s.depth t > 0) (hp : s.pc t ≠ .unlStore) : s.count = s.depth t :=
  have hI := inv_reachable c s h
  hI.cnt hc t (hI.own t ht) hp

/-- **C09.** For every mutex with ownership checks (robust, error-checking or recursive), unlock reports `EPERM`
exactly to a thread that does not hold the mutex, and then changes nothing. -/
theorem C09_unlock_checks_owner (c : Cfg) (s s' : State T) (h : Reachable (sys c T) s) (hc : checked c = true)
    (t : T) (hp : s.pc t = .unl) (st : Step c s s') (hm : s'.pc t ≠ .unl) :
    (s'.pc t = .retUnl .eperm ↔ s.depth t = 0) ∧ s'.word = s.word ∧ s'.count = s.count ∧ s'.depth = s.depth := by
  have hI := inv_reachable c s h
  have h1 := hI.own t
  have h2 := hI.held t
  cases st <;> simp only [wakeAll, upd, casFailed] at * <;> grind

/-- **C09.** A thread that already holds an error-checking or recursive mutex is never put to sleep by a lock of
that mutex: it gets an error or one more level. -/
theorem C09_no_self_deadlock (c : Cfg) (s : State T) (h : Reachable (sys c T) s)
    (hc : c.ty = .recursive ∨ c.ty = .errck) (t : T) (ht : s.depth t > 0) (k : Kind) : s.pc t ≠ .sleeping k := by
  intro hp
  have := (inv_reachable c s h).self t k (Or.inl hp)
  grind

/-- **C09.** `trylock` reports `EBUSY` only at a moment when the mutex is held (or being taken) by somebody. -/
theorem C09_trylock_busy (c : Cfg) (s s' : State T) (h : Reachable (sys c T) s) (st : Step c s s') (t : T)
    (hb : s.pc t ≠ .retLock .try' .ebusy) (hb' : s'.pc t = .retLock .try' .ebusy) :
    ∃ u, s.word = some u ∧ (s.depth u > 0 ∨ ∃ k, s.pc u = .inc k true) := by
  have hI := inv_reachable c s h
  have hw : s.word ≠ none := by
    cases st <;> simp only [wakeAll, upd, casFailed] at * <;> grind
  obtain ⟨u, hu⟩ := Option.ne_none_iff_exists'.mp hw
  exact ⟨u, hu, hI.held u hu⟩

/-- **C09.** Neither `lock` nor `trylock` of an error-checking mutex by its owner succeeds. -/
theorem C09_errorcheck_relock_fails (c : Cfg) (s s' : State T) (h : Reachable (sys c T) s) (hc : c.ty = .errck)
    (t : T) (ht : s.depth t > 0) (k : Kind) (hp : s.pc t = .cas k) (st : Step c s s') (hm : s'.pc t ≠ .cas k) :
    s'.pc t = .retLock k (if k = .try' then .edeadlk else .eagain) ∧ s'.depth = s.depth ∧ s'.word = s.word := by
  have hw := (inv_reachable c s h).own t ht
  cases st <;> simp only [wakeAll, upd, casFailed] at * <;> grind

/-- POSIX requires `pthread_mutex_lock` on an error-checking mutex its caller already holds to report
`EDEADLK`. This code reports `EAGAIN`. -/
theorem C09_errorcheck_eagain_violation : ∃ s : State Unit, Reachable (sys ⟨.errck, false⟩ Unit) s ∧
    s.depth () = 1 ∧ s.pc () = .retLock .lock .eagain := by
  have r0 : Reachable (sys ⟨.errck, false⟩ Unit) ⟨none, 0, fun _ => .idle, fun _ => 0⟩ :=
    .init ⟨rfl, rfl, fun _ => rfl, fun _ => rfl⟩
  have r1 := Reachable.step r0 (Step.callLock () .lock rfl)
  have r2 := Reachable.step r1 (Step.casOk () .lock rfl rfl (by simp))
  have r3 := Reachable.step r2 (Step.leaveLock () .lock .ok rfl)
  have r4 := Reachable.step r3 (Step.callLock () .lock rfl)
  have r5 := Reachable.step r4 (Step.casFail () .lock rfl (by simp))
  exact ⟨_, r5, rfl, rfl⟩

/-! ## C10 -/

/-- **C10** (safety form). While a thread sleeps in a lock operation, the mutex is held (or just being taken) by
some thread, or an unlock is about to wake all sleepers. -/
theorem C10_sleeper_accounted (c : Cfg) (s : State T) (h : Reachable (sys c T) s) (t : T) (k : Kind)
    (ht : s.pc t = .sleeping k) :
    ∃ u, s.depth u > 0 ∨ (∃ k, s.pc u = .inc k true) ∨ s.pc u = .unlWake := by
  have hI := inv_reachable c s h
  rcases hI.sleep t k ht with hw | ⟨u, hu⟩
  · obtain ⟨u, hu⟩ := Option.ne_none_iff_exists'.mp hw
    rcases hI.held u hu with h1 | h1
    · exact ⟨u, .inl h1⟩
    · exact ⟨u, .inr (.inl h1)⟩
  · exact ⟨u, .inr (.inr hu)⟩

/-- An unlock that has released the mutex makes its last step. -/
def FairWake (σ : Nat → State T) : Prop :=
  ∀ i u, (σ i).pc u = .unlWake → ∃ j, i ≤ j ∧ (σ j).pc u ≠ .unlWake

/-- **C10** (liveness form). If a thread is asleep and the mutex is unlocked at that moment or any later one, the
thread is eventually woken. -/
theorem C10_sleeper_woken_after_unlock (c : Cfg) {σ : Nat → State T} (hr : Run (sys c T) σ) (hf : FairWake σ)
    (i j : Nat) (hij : i ≤ j) (t : T) (k : Kind) (_ht : (σ i).pc t = .sleeping k) (hfree : (σ j).word = none) :
    ∃ m, i ≤ m ∧ ∀ k', (σ m).pc t ≠ .sleeping k' := by
  by_cases hs : ∃ k', (σ j).pc t = .sleeping k'
  · obtain ⟨k', hs⟩ := hs
    rcases (inv_reachable c _ (hr.reachable j)).sleep t k' hs with hw | ⟨u, hu⟩
    · exact absurd hfree hw
    · obtain ⟨m, hjm, hall, hm⟩ := exists_last (P := fun i => (σ i).pc u = .unlWake) hu (hf j u hu)
      refine ⟨m + 1, by omega, ?_⟩
      have hm' := hall m hjm (Nat.le_refl _)
      rcases hr.next m with hs | he
      · generalize σ (m + 1) = s' at *
        generalize σ m = s at *
        have hs : Step c s s' := hs
        cases hs <;> simp only [upd, wakeAll, casFailed] at * <;> grind
      · rw [he] at hm; exact absurd hm' hm
  · exact ⟨j, hij, fun k' h => hs ⟨k', h⟩⟩

/-! ## Non-vacuity -/

/-- A recursive mutex is held twice by one thread while another sleeps. -/
example : ∃ s : State Bool, Reachable (sys ⟨.recursive, false⟩ Bool) s ∧ s.depth true = 2 ∧
    s.pc false = .sleeping .lock := by
  have r0 : Reachable (sys ⟨.recursive, false⟩ Bool) ⟨none, 0, fun _ => .idle, fun _ => 0⟩ :=
    .init ⟨rfl, rfl, fun _ => rfl, fun _ => rfl⟩
  have r1 := Reachable.step r0 (Step.callLock true .lock rfl)
  have r2 := Reachable.step r1 (Step.casOkRec true .lock rfl rfl rfl)
  have r3 := Reachable.step r2 (Step.incOk true .lock true rfl (by simp [MAXREC]))
  have r4 := Reachable.step r3 (Step.leaveLock true .lock .ok rfl)
  have r5 := Reachable.step r4 (Step.callLock true .try' rfl)
  have r6 := Reachable.step r5 (Step.casFail true .try' rfl (by simp))
  have r7 := Reachable.step r6 (Step.incOk true .try' false rfl (by simp [MAXREC]))
  have r8 := Reachable.step r7 (Step.callLock false .lock rfl)
  have r9 := Reachable.step r8 (Step.casFail false .lock rfl (by simp))
  have r10 := Reachable.step r9 (Step.wait false .lock true rfl)
  exact ⟨_, r10, rfl, rfl⟩

/-- A thread that does not hold a checked mutex calls unlock. -/
example : ∃ s : State Bool, Reachable (sys ⟨.normal, true⟩ Bool) s ∧ s.pc true = .unl ∧ s.depth true = 0 := by
  have r0 : Reachable (sys ⟨.normal, true⟩ Bool) ⟨none, 0, fun _ => .idle, fun _ => 0⟩ :=
    .init ⟨rfl, rfl, fun _ => rfl, fun _ => rfl⟩
  exact ⟨_, .step r0 (Step.callUnl true rfl (by simp [checked])), rfl, rfl⟩

end Verif.Sync.PMutex
