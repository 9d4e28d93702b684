import Verif.Sync.RwLockModel

/-!
# Invariant of the reader-writer lock model
-/

namespace Verif.Sync.RwLock
open Verif.Conc

variable {T : Type} [DecidableEq T]

/-- Holds the lock for reading (from the successful compare-exchange to the releasing write). -/
def holdsRd (p : PC) : Prop := p = .reading ∨ p = .unlLoad false ∨ p = .unlSub false

/-- Holds the lock for writing. -/
def holdsWr (p : PC) : Prop := p = .writing ∨ p = .unlLoad true ∨ p = .unlStore true

structure Inv (s : State T) : Prop where
  nodup : s.readers.Nodup
  mem : ∀ t, t ∈ s.readers ↔ holdsRd (s.pc t)
  ghost : (∀ t g, s.pc t = .unlStore g → g = true) ∧ (∀ t g, s.pc t = .unlSub g → g = false)
  wrOne : ∀ t u, holdsWr (s.pc t) → holdsWr (s.pc u) → t = u
  wrCount : ∀ t, holdsWr (s.pc t) → s.word.count = EXCLUSIVE
  excl : s.word.count = EXCLUSIVE → s.readers = [] ∧ ∃ t, holdsWr (s.pc t)
  count : s.word.count ≠ EXCLUSIVE → s.word.count = s.readers.length ∧ s.word.count < EXCLUSIVE
  rdc : ∀ t b c, s.pc t = .rdCas b c → oldCount c + 1 ≠ EXCLUSIVE
  rdw : ∀ t e, s.pc t = .rdWait e → e.count = EXCLUSIVE
  wrw : ∀ t e, s.pc t = .wrWait e → e.count > 0
  rdSleep : ∀ t, s.pc t = .rdSleep → s.word.count > 0 ∨ ∃ u, s.pc u = .unlWake
  wrSleep : ∀ t w, s.pc t = .wrSleep w → s.word.count > 0 ∨ ∃ u, s.pc u = .unlWake

theorem inv_init (s : State T) (h : (sys T).init s) : Inv s := by
  obtain ⟨hw, hp, hr⟩ := h
  constructor <;> simp_all [holdsRd, holdsWr, EXCLUSIVE]

set_option maxHeartbeats 4000000 in
theorem inv_step (s s' : State T) (h : Inv s) (st : (sys T).step s s') : Inv s' := by
  obtain ⟨h1, h2, h3, h4, h5, h6, h7, h8, h9, h10, h11, h12⟩ := h
  have st : Step s s' := st
  have hE : EXCLUSIVE > 1 := by simp [EXCLUSIVE]
  have e1 : ∀ t, (s.readers.erase t).Nodup := fun t => h1.erase t
  have e2 : ∀ t a, a ∈ s.readers.erase t ↔ a ≠ t ∧ a ∈ s.readers := fun t a => h1.mem_erase_iff
  have e3 : ∀ t, t ∈ s.readers → (s.readers.erase t).length = s.readers.length - 1 :=
    fun t h => List.length_erase_of_mem h
  generalize hEE : EXCLUSIVE = E at *
  cases st <;>
    (refine ⟨?_, ?_, ?_, ?_, ?_, ?_, ?_, ?_, ?_, ?_, ?_, ?_⟩ <;>
      simp only [holdsRd, holdsWr, wakeAll, upd, rdTop, rdFail, wrFail, wrTryFail, wrAfterOr, oldCount, hEE] at * <;>
      first | grind | grind (splits := 20))

theorem inv_reachable : ∀ s : State T, Reachable (sys T) s → Inv s :=
  Reachable.invariant inv_init inv_step

end Verif.Sync.RwLock
