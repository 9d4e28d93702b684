import Verif.Sync.PMutexModel

/-!
# Invariant of the pthread mutex model
-/

namespace Verif.Sync.PMutex
open Verif.Conc

variable {T : Type} [DecidableEq T]

structure Inv (c : Cfg) (s : State T) : Prop where
  /-- whoever holds is the recorded owner -/
  own : ∀ t, s.depth t > 0 → s.word = some t
  held : ∀ t, s.word = some t → s.depth t > 0 ∨ ∃ k, s.pc t = .inc k true
  one : c.ty ≠ .recursive → ∀ t, s.depth t ≤ 1
  free : s.word = none → s.count = 0
  cnt : c.ty = .recursive → ∀ t, s.word = some t → s.pc t ≠ .unlStore → s.count = s.depth t
  cnt0 : c.ty ≠ .recursive → s.count = 0
  inc : ∀ t k f, s.pc t = .inc k f → s.word = some t ∧ c.ty = .recursive ∧ (f = true → s.depth t = 0) ∧
    (f = false → s.depth t > 0)
  dec : ∀ t, s.pc t = .unlDec → s.depth t > 0 ∧ c.ty = .recursive
  store : ∀ t, s.pc t = .unlStore → s.depth t = 1 ∧ (c.ty = .recursive → s.count = 0)
  unl : ∀ t, s.pc t = .unl → checked c = false → s.depth t > 0
  wait : ∀ t k o, s.pc t = .wait k o → o = t → c.ty ≠ .recursive ∧ c.ty ≠ .errck
  waitTry : ∀ t o, s.pc t ≠ .wait .try' o
  sleepTry : ∀ t, s.pc t ≠ .sleeping .try'
  self : ∀ t k, (s.pc t = .sleeping k ∨ ∃ o, s.pc t = .wait k o) →
    s.depth t = 0 ∨ (c.ty ≠ .recursive ∧ c.ty ≠ .errck)
  sleep : ∀ t k, s.pc t = .sleeping k → s.word ≠ none ∨ ∃ u, s.pc u = .unlWake

theorem inv_init (c : Cfg) (s : State T) (h : (sys c T).init s) : Inv c s := by
  obtain ⟨hw, hc, hp, hd⟩ := h
  constructor <;> simp_all

set_option maxHeartbeats 4000000 in
theorem inv_step (c : Cfg) (s s' : State T) (h : Inv c s) (st : (sys c T).step s s') : Inv c s' := by
  obtain ⟨h1, h2, h3, h4, h5, h6, h7, h8, h9, h10, h11, h12, h13, h14, h15⟩ := h
  have st : Step c s s' := st
  have hc : checked c = false → c.ty ≠ .recursive ∧ c.ty ≠ .errck := by simp [checked]; grind
  have hM : MAXREC > 0 := by simp [MAXREC]
  cases st <;>
    (refine ⟨?_, ?_, ?_, ?_, ?_, ?_, ?_, ?_, ?_, ?_, ?_, ?_, ?_, ?_, ?_⟩ <;>
      simp only [wakeAll, upd, casFailed] at * <;>
      first | grind | grind (splits := 20))

theorem inv_reachable (c : Cfg) : ∀ s : State T, Reachable (sys c T) s → Inv c s :=
  Reachable.invariant (inv_init c) (inv_step c)

end Verif.Sync.PMutex
