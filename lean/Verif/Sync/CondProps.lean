import Verif.Sync.CondModel

/-!
# C11: condition variables
-/

namespace Verif.Sync.Cond
open Verif.Conc

variable {T : Type} [DecidableEq T]

/-- Program points at which a thread holds the mutex. -/
def holds : PC → Bool
  | .crit | .wLoad | .wStore _ | .wUnlock _ | .sLoad true | .sStore true _ | .sWake true => true
  | _ => false

/-- Who holds the mutex; no restriction on how signals are sent. -/
theorem owner_inv (l : Bool) (s : State T) (h : Reachable (sys l T) s) :
    ∀ t, s.owner = some t ↔ holds (s.pc t) = true := by
  revert s
  apply Reachable.invariant
  · intro s ⟨h1, _, _, h2, _⟩; simp [h1, h2, holds]
  · intro s s' hI st
    have st : Step l s s' := st
    cases st <;> simp only [upd, wakeAll, holds] at * <;> grind (splits := 20) [holds]

structure Inv (s : State T) : Prop where
  lck : ∀ t h, (s.pc t = .sLoad h ∨ (∃ p, s.pc t = .sStore h p) ∨ s.pc t = .sWake h) → h = true
  ord : s.sigs < M → s.prev ≤ s.cur ∧ s.cur ≤ s.prev + 1 ∧ s.cur ≤ s.sigs
  ws : s.sigs < M → ∀ t c, s.pc t = .wStore c → c = s.cur
  wu : s.sigs < M → ∀ t c, s.pc t = .wUnlock c → c ≤ s.prev
  ww : s.sigs < M → ∀ t c, s.pc t = .wWait c → c ≤ s.prev
  ss : s.sigs < M → ∀ t h p, s.pc t = .sStore h p → p = s.prev
  duew : s.sigs < M → ∀ t c, s.pc t = .wWait c → s.due t = true → c < s.cur
  dues : s.sigs < M → ∀ t, s.pc t = .sleeping → s.due t = true → ∃ u h, s.pc u = .sWake h

theorem inv_init (s : State T) (h : (sys true T).init s) : Inv s := by
  obtain ⟨h1, h2, h3, h4, h5, h6⟩ := h
  constructor <;> simp_all

set_option maxHeartbeats 4000000 in
theorem inv_step (s s' : State T) (ho : ∀ t, s.owner = some t ↔ holds (s.pc t) = true) (h : Inv s)
    (st : (sys true T).step s s') : Inv s' := by
  obtain ⟨h2, h3, h4, h5, h5', h6, h7, h8⟩ := h
  have st : Step true s s' := st
  have o1 : ∀ t c, s.pc t = .wStore c → s.owner = some t := fun t c h => (ho t).mpr (by simp [h, holds])
  have o2 : ∀ t c, s.pc t = .wUnlock c → s.owner = some t := fun t c h => (ho t).mpr (by simp [h, holds])
  have o3 : ∀ t g, s.pc t = .sLoad g → s.owner = some t := fun t g h =>
    (ho t).mpr (by have := h2 t g (.inl h); subst this; simp [h, holds])
  have o4 : ∀ t g p, s.pc t = .sStore g p → s.owner = some t := fun t g p h =>
    (ho t).mpr (by have := h2 t g (.inr (.inl ⟨p, h⟩)); subst this; simp [h, holds])
  have o5 : ∀ t g, s.pc t = .sWake g → s.owner = some t := fun t g h =>
    (ho t).mpr (by have := h2 t g (.inr (.inr h)); subst this; simp [h, holds])
  have o6 : ∀ t, s.pc t = .wLoad → s.owner = some t := fun t h => (ho t).mpr (by simp [h, holds])
  clear ho
  cases st <;>
    (refine ⟨?_, ?_, ?_, ?_, ?_, ?_, ?_, ?_⟩ <;>
      simp only [upd, wakeAll, M] at * <;>
      first | grind [blocked] | grind (splits := 20) [blocked])

theorem inv_reachable : ∀ s : State T, Reachable (sys true T) s → Inv s :=
  Reachable.invariant_with (owner_inv true) inv_init inv_step

/-! ## C11 -/

/-- **C11** (safety form). If every signal is sent with the mutex held, a thread that was blocked on the condition
variable when a signal was performed is asleep afterwards only while that signal is still about to wake
everybody. (Fewer than 2^32 signals so far; see below.) -/
theorem C11_signal_not_lost_partial (s : State T) (h : Reachable (sys true T) s) (hb : s.sigs < 2 ^ 32) (t : T)
    (ht : s.pc t = .sleeping) (hd : s.due t = true) : ∃ u h, s.pc u = .sWake h :=
  (inv_reachable s h).dues hb t ht hd

/-- **C11.** And a thread that has released the mutex but not yet gone to sleep when the signal was performed does
not go to sleep any more. -/
theorem C11_signal_before_sleep_partial (s s' : State T) (h : Reachable (sys true T) s) (hb : s.sigs < 2 ^ 32)
    (t : T) (c : Nat) (ht : s.pc t = .wWait c) (hd : s.due t = true) (st : Step true s s') :
    s'.pc t ≠ .sleeping := by
  have := (inv_reachable s h).duew hb t c ht hd
  cases st <;> simp only [upd, wakeAll] at * <;> grind

/-- A signal that has been performed goes on to its last step. -/
def Fair (σ : Nat → State T) : Prop :=
  ∀ i u h, (σ i).pc u = .sWake h → ∃ j, i ≤ j ∧ (σ j).pc u ≠ .sWake h

/-- **C11** (liveness form). If every signal is sent with the mutex held, a thread that was blocked on the
condition variable when a signal was performed is eventually woken. -/
theorem C11_signalled_thread_wakes_partial {σ : Nat → State T} (hr : Run (sys true T) σ) (hf : Fair σ) (i : Nat)
    (hb : (σ i).sigs < 2 ^ 32) (t : T) (ht : (σ i).pc t = .sleeping) (hd : (σ i).due t = true) :
    ∃ j, i ≤ j ∧ (σ j).pc t ≠ .sleeping := by
  obtain ⟨u, g, hu⟩ := C11_signal_not_lost_partial _ (hr.reachable i) hb t ht hd
  obtain ⟨m, him, hall, hm⟩ := exists_last (P := fun i => (σ i).pc u = .sWake g) hu (hf i u g hu)
  refine ⟨m + 1, by omega, ?_⟩
  have hm' := hall m him (Nat.le_refl _)
  rcases hr.next m with hs | he
  · generalize σ (m + 1) = s' at *
    generalize σ m = s at *
    have hs : Step true s s' := hs
    cases hs <;> simp only [upd, wakeAll] at * <;> grind
  · rw [he] at hm; exact absurd hm' hm

/-- **C11.** `pthread_cond_wait` and `pthread_cond_timedwait` come back with the mutex held, on every path
(signalled, spurious, timed out), and however signals are sent. -/
theorem C11_returns_with_mutex (l : Bool) (s : State T) (h : Reachable (sys l T) s) (t : T)
    (ht : s.pc t = .crit) : s.owner = some t ∧ ∀ u, u ≠ t → s.pc u ≠ .crit := by
  have ho := owner_inv l s h
  have h1 : s.owner = some t := (ho t).mpr (by simp [ht, holds])
  refine ⟨h1, fun u hu hc => ?_⟩
  have h2 : s.owner = some u := (ho u).mpr (by simp [hc, holds])
  rw [h1] at h2; exact hu (Option.some.inj h2).symm

/-- POSIX lets a program signal without holding the mutex. Then a wakeup can be lost: thread 0 waits, thread 1
performs a signal while thread 0 is blocked, and thread 2, whose own signal started long before, writes an old
value back. Thread 0 then goes to sleep although it was signalled, and every signal is over: nobody is left to
wake it. -/
theorem C11_unlocked_signal_lost_violation : ∃ s : State (Fin 3), Reachable (sys false (Fin 3)) s ∧
    s.pc 0 = .sleeping ∧ s.due 0 = true ∧ s.pc 1 = .idle ∧ s.pc 2 = .idle ∧ s.owner = none := by
  have r0 : Reachable (sys false (Fin 3)) ⟨none, 0, 0, fun _ => .idle, 0, fun _ => false⟩ :=
    .init ⟨rfl, rfl, rfl, fun _ => rfl, rfl, fun _ => rfl⟩
  -- thread 2 starts a signal: reads prev = 0
  have r1 := Reachable.step r0 (Step.signalUnlocked 2 rfl rfl)
  have r2 := Reachable.step r1 (Step.sLoad 2 false rfl)
  -- thread 1 signals: cur = 1
  have r3 := Reachable.step r2 (Step.signalUnlocked 1 rfl rfl)
  have r4 := Reachable.step r3 (Step.sLoad 1 false rfl)
  have r5 := Reachable.step r4 (Step.sStore 1 false 0 rfl)
  have r6 := Reachable.step r5 (Step.sWake 1 false rfl)
  -- thread 0 waits: reads cur = 1, sets prev = 1, releases the mutex
  have r7 := Reachable.step r6 (Step.lock 0 rfl rfl)
  have r8 := Reachable.step r7 (Step.wait 0 rfl)
  have r9 := Reachable.step r8 (Step.wLoad 0 rfl)
  have r10 := Reachable.step r9 (Step.wStore 0 1 rfl)
  have r11 := Reachable.step r10 (Step.wUnlock 0 1 rfl)
  -- thread 1 signals again: cur = 2
  have r12 := Reachable.step r11 (Step.signalUnlocked 1 rfl rfl)
  have r13 := Reachable.step r12 (Step.sLoad 1 false rfl)
  have r14 := Reachable.step r13 (Step.sStore 1 false 1 rfl)
  have r15 := Reachable.step r14 (Step.sWake 1 false rfl)
  -- thread 2 finishes its signal: cur = 1 again
  have r16 := Reachable.step r15 (Step.sStore 2 false 0 rfl)
  have r17 := Reachable.step r16 (Step.sWake 2 false rfl)
  -- thread 0 finds the value it expected and sleeps
  have r18 := Reachable.step r17 (Step.wWait 0 1 rfl)
  exact ⟨_, r18, rfl, rfl, rfl, rfl, rfl⟩

/-! ## Non-vacuity -/

/-- A thread sleeps, has been signalled, and the signaller (holding the mutex) is about to wake it. -/
example : ∃ s : State (Fin 2), Reachable (sys true (Fin 2)) s ∧ s.sigs < 2 ^ 32 ∧ s.pc 0 = .sleeping ∧
    s.due 0 = true := by
  have r0 : Reachable (sys true (Fin 2)) ⟨none, 0, 0, fun _ => .idle, 0, fun _ => false⟩ :=
    .init ⟨rfl, rfl, rfl, fun _ => rfl, rfl, fun _ => rfl⟩
  have r7 := Reachable.step r0 (Step.lock 0 rfl rfl)
  have r8 := Reachable.step r7 (Step.wait 0 rfl)
  have r9 := Reachable.step r8 (Step.wLoad 0 rfl)
  have r10 := Reachable.step r9 (Step.wStore 0 0 rfl)
  have r11 := Reachable.step r10 (Step.wUnlock 0 0 rfl)
  have r12 := Reachable.step r11 (Step.wWait 0 0 rfl)
  have r13 := Reachable.step r12 (Step.lock 1 rfl rfl)
  have r14 := Reachable.step r13 (Step.signal 1 rfl)
  have r15 := Reachable.step r14 (Step.sLoad 1 true rfl)
  have r16 := Reachable.step r15 (Step.sStore 1 true 0 rfl)
  exact ⟨_, r16, by simp, rfl, rfl⟩

end Verif.Sync.Cond
