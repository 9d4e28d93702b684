import Verif.Sync.RwLockInv

/-!
# C07, C08: reader-writer locks

Specification vocabulary (defined in `RwLockInv`): `holdsRd p` / `holdsWr p` say that a use at program point
`p` holds the lock for reading / writing, from the successful acquisition to the releasing write.
-/

namespace Verif.Sync.RwLock
open Verif.Conc

variable {T : Type} [DecidableEq T]

/-- Blocked in the kernel inside a lock call. -/
def asleep (p : PC) : Prop := p = .rdSleep ∨ ∃ w, p = .wrSleep w

/-! ## C07 -/

/-- **C07.** While one use holds the lock for writing, nobody else holds it in any mode. -/
theorem C07_writer_excludes_all (s : State T) (h : Reachable (sys T) s) (t u : T)
    (ht : holdsWr (s.pc t)) (hne : u ≠ t) : ¬ holdsWr (s.pc u) ∧ ¬ holdsRd (s.pc u) := by
  have hI := inv_reachable s h
  refine ⟨fun hu => hne (hI.wrOne u t hu ht), fun hu => ?_⟩
  have := (hI.excl (hI.wrCount t ht)).1
  have := (hI.mem u).mpr hu
  simp_all

/-- **C07.** The lock state never confuses the two modes: it reads "exclusive" exactly while somebody holds the
lock for writing, and otherwise counts the readers, whoever and however many they are. -/
theorem C07_state_exact (s : State T) (h : Reachable (sys T) s) :
    (s.word.count = EXCLUSIVE ↔ ∃ t, holdsWr (s.pc t)) ∧
    (s.word.count ≠ EXCLUSIVE → ∃ l : List T, l.Nodup ∧ (∀ t, t ∈ l ↔ holdsRd (s.pc t)) ∧ s.word.count = l.length) := by
  have hI := inv_reachable s h
  refine ⟨⟨fun he => (hI.excl he).2, fun ⟨t, ht⟩ => hI.wrCount t ht⟩, fun hne => ?_⟩
  exact ⟨s.readers, hI.nodup, hI.mem, (hI.count hne).1⟩

/-- **C07.** `tryrdlock` reports "busy" only at a moment when some other use holds the lock for writing, and
`trywrlock` only at a moment when some other use holds it in some mode. -/
theorem C07_try_busy_only_if_held (s s' : State T) (h : Reachable (sys T) s) (st : Step s s') (t : T)
    (hb : s.pc t ≠ .busy) (hb' : s'.pc t = .busy) :
    (∃ u, u ≠ t ∧ holdsWr (s.pc u)) ∨ ((∃ w, s.pc t = .wrCas true w) ∧ ∃ u, u ≠ t ∧ holdsRd (s.pc u)) := by
  have hI := inv_reachable s h
  have key : (∃ b c, s.pc t = .rdCas b c) ∧ s.word.count = EXCLUSIVE ∨
      (∃ w, s.pc t = .wrCas true w) ∧ s.word.count > 0 := by
    cases st <;>
      simp only [wakeAll, upd, rdTop, rdFail, wrFail, wrTryFail, wrAfterOr] at * <;> grind
  rcases key with ⟨⟨b, c, hc⟩, he⟩ | ⟨⟨w, hc⟩, hpos⟩
  · obtain ⟨u, hu⟩ := (hI.excl he).2
    refine Or.inl ⟨u, ?_, hu⟩
    rintro rfl; rw [hc] at hu; simp [holdsWr] at hu
  · by_cases he : s.word.count = EXCLUSIVE
    · obtain ⟨u, hu⟩ := (hI.excl he).2
      refine Or.inl ⟨u, ?_, hu⟩
      rintro rfl; rw [hc] at hu; simp [holdsWr] at hu
    · have hl := (hI.count he).1
      cases hr : s.readers with
      | nil => simp [hr] at hl; omega
      | cons u l =>
        have hu := (hI.mem u).mp (by simp [hr])
        refine Or.inr ⟨⟨w, hc⟩, u, ?_, hu⟩
        rintro rfl; rw [hc] at hu; simp [holdsRd] at hu

/-! ## C08 -/

/-- **C08** (safety form). While a use sleeps in a lock call, some other use holds the lock or an unlock is about
to wake all the sleepers. -/
theorem C08_sleeper_accounted (s : State T) (h : Reachable (sys T) s) (t : T) (ht : asleep (s.pc t)) :
    ∃ u, u ≠ t ∧ (holdsRd (s.pc u) ∨ holdsWr (s.pc u) ∨ s.pc u = .unlWake) := by
  have hI := inv_reachable s h
  have hz : s.word.count > 0 ∨ ∃ u, s.pc u = .unlWake := by
    rcases ht with ht | ⟨w, ht⟩
    · exact hI.rdSleep t ht
    · exact hI.wrSleep t w ht
  have hns : ∀ u, (holdsRd (s.pc u) ∨ holdsWr (s.pc u) ∨ s.pc u = .unlWake) → u ≠ t := by
    intro u hu he; subst he
    simp only [asleep, holdsRd, holdsWr] at *
    grind
  suffices ∃ u, (holdsRd (s.pc u) ∨ holdsWr (s.pc u) ∨ s.pc u = .unlWake) by
    obtain ⟨u, hu⟩ := this; exact ⟨u, hns u hu, hu⟩
  rcases hz with hz | ⟨u, hu⟩
  · by_cases he : s.word.count = EXCLUSIVE
    · obtain ⟨u, hu⟩ := (hI.excl he).2; exact ⟨u, .inr (.inl hu)⟩
    · have hl := (hI.count he).1
      cases hr : s.readers with
      | nil => simp [hr] at hl; omega
      | cons u l => exact ⟨u, .inl ((hI.mem u).mp (by simp [hr]))⟩
  · exact ⟨u, .inr (.inr hu)⟩

/-- An unlock that has released the lock makes its last step. -/
def FairWake (σ : Nat → State T) : Prop :=
  ∀ i u, (σ i).pc u = .unlWake → ∃ j, i ≤ j ∧ (σ j).pc u ≠ .unlWake

/-- Nobody holds the lock. -/
def Free (s : State T) : Prop := ∀ u, ¬ holdsRd (s.pc u) ∧ ¬ holdsWr (s.pc u)

/-- **C08** (liveness form). If a use is asleep and the lock is free at that moment or any later one, the use
is eventually woken: a release never leaves it behind. -/
theorem C08_sleeper_woken_after_release {σ : Nat → State T} (hr : Run (sys T) σ) (hf : FairWake σ)
    (i j : Nat) (hij : i ≤ j) (t : T) (_ht : asleep ((σ i).pc t)) (hfree : Free (σ j)) :
    ∃ k, i ≤ k ∧ ¬ asleep ((σ k).pc t) := by
  by_cases hs : asleep ((σ j).pc t)
  · obtain ⟨u, _, hu | hu | hu⟩ := C08_sleeper_accounted _ (hr.reachable j) t hs
    · exact absurd hu (hfree u).1
    · exact absurd hu (hfree u).2
    · obtain ⟨m, hjm, hall, hm⟩ := exists_last (P := fun i => (σ i).pc u = .unlWake) hu (hf j u hu)
      refine ⟨m + 1, by omega, ?_⟩
      have hm' := hall m hjm (Nat.le_refl _)
      rcases hr.next m with hs | he
      · generalize σ (m + 1) = s' at *
        generalize σ m = s at *
        have hs : Step s s' := hs
        cases hs <;> simp only [upd, wakeAll, asleep] at * <;> grind
      · rw [he] at hm; exact absurd hm' hm
  · exact ⟨j, hij, hs⟩

/-! ## Non-vacuity -/

/-- Two readers hold the lock while a writer sleeps. -/
example : ∃ s : State (Fin 3), Reachable (sys (Fin 3)) s ∧ s.pc 0 = .reading ∧ s.pc 1 = .reading ∧
    asleep (s.pc 2) := by
  have r0 : Reachable (sys (Fin 3)) ⟨⟨false, 0⟩, fun _ => .idle, []⟩ := .init ⟨rfl, fun _ => rfl, rfl⟩
  have r1 := Reachable.step r0 (Step.callRd 0 false rfl)
  have r2 := Reachable.step r1 (Step.rdLoad 0 false rfl)
  have r3 := Reachable.step r2 (Step.rdCasOk 0 false ⟨false, 0⟩ rfl rfl)
  have r4 := Reachable.step r3 (Step.callRd 1 false rfl)
  have r5 := Reachable.step r4 (Step.rdLoad 1 false rfl)
  have r6 := Reachable.step r5 (Step.rdCasOk 1 false ⟨false, 1⟩ rfl rfl)
  have r7 := Reachable.step r6 (Step.callWr 2 false rfl)
  have r8 := Reachable.step r7 (Step.wrLoad 2 false rfl)
  have r9 := Reachable.step r8 (Step.wrCasFail 2 false rfl)
  have r10 := Reachable.step r9 (Step.wrOr 2 ⟨false, 2⟩ rfl)
  have r11 := Reachable.step r10 (Step.wrWait 2 ⟨true, 2⟩ rfl)
  exact ⟨_, r11, rfl, rfl, .inr ⟨true, rfl⟩⟩

/-- A use holds the lock for writing. -/
example : ∃ s : State (Fin 3), Reachable (sys (Fin 3)) s ∧ holdsWr (s.pc 0) := by
  have r0 : Reachable (sys (Fin 3)) ⟨⟨false, 0⟩, fun _ => .idle, []⟩ := .init ⟨rfl, fun _ => rfl, rfl⟩
  have r1 := Reachable.step r0 (Step.callWr 0 false rfl)
  have r2 := Reachable.step r1 (Step.wrLoad 0 false rfl)
  have r3 := Reachable.step r2 (Step.wrCasOk 0 false false rfl rfl)
  exact ⟨_, r3, .inl rfl⟩

end Verif.Sync.RwLock
