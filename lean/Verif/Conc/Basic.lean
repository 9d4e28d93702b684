/-!
# Interleaving semantics used by the concurrency models

A transition system has a predicate for the initial states and a step relation. `Reachable` is the set
of states reached by any finite number of steps: no bound on length, on the number of threads or on the
schedule.
-/

namespace Verif.Conc

/-- A transition system over states `S`. -/
structure TS (S : Type u) where
  init : S → Prop
  step : S → S → Prop

/-- States reachable from an initial state by finitely many steps. -/
inductive Reachable {S : Type u} (M : TS S) : S → Prop
  | init {s} : M.init s → Reachable M s
  | step {s s'} : Reachable M s → M.step s s' → Reachable M s'

/-- Induction principle: an inductive invariant holds in every reachable state. -/
theorem Reachable.invariant {S : Type u} {M : TS S} {I : S → Prop}
    (h0 : ∀ s, M.init s → I s) (h1 : ∀ s s', I s → M.step s s' → I s') :
    ∀ s, Reachable M s → I s := by
  intro s h
  induction h with
  | init h => exact h0 _ h
  | step _ hs ih => exact h1 _ _ ih hs

/-- Invariants may use an already established invariant. -/
theorem Reachable.invariant_with {S : Type u} {M : TS S} {J I : S → Prop}
    (hJ : ∀ s, Reachable M s → J s)
    (h0 : ∀ s, M.init s → I s) (h1 : ∀ s s', J s → I s → M.step s s' → I s') :
    ∀ s, Reachable M s → I s := by
  intro s h
  induction h with
  | init h => exact h0 _ h
  | step hr hs ih => exact h1 _ _ (hJ _ hr) ih hs

/-- An infinite execution: starts in an initial state, each instant takes a step or stutters. -/
structure Run {S : Type u} (M : TS S) (σ : Nat → S) : Prop where
  init : M.init (σ 0)
  next : ∀ i, M.step (σ i) (σ (i + 1)) ∨ σ (i + 1) = σ i

theorem Run.reachable {S : Type u} {M : TS S} {σ : Nat → S} (h : Run M σ) : ∀ i, Reachable M (σ i) := by
  intro i
  induction i with
  | zero => exact .init h.init
  | succ i ih =>
    rcases h.next i with hs | he
    · exact .step ih hs
    · rw [he]; exact ih

/-- If `P` holds at `i` and fails at some later instant, there is an instant at which it is lost. -/
theorem exists_last {P : Nat → Prop} {i : Nat} (hi : P i) (hj : ∃ j, i ≤ j ∧ ¬ P j) :
    ∃ k, i ≤ k ∧ (∀ m, i ≤ m → m ≤ k → P m) ∧ ¬ P (k + 1) := by
  obtain ⟨j, hij, hj⟩ := hj
  obtain ⟨d, rfl⟩ := Nat.exists_eq_add_of_le hij
  clear hij
  induction d with
  | zero => exact absurd hi hj
  | succ d ih =>
    by_cases hall : ∀ m, i ≤ m → m ≤ i + d → P m
    · exact ⟨i + d, by omega, hall, hj⟩
    · apply Classical.byContradiction
      intro hcon
      apply hall
      intro m h1 h2
      obtain ⟨e, rfl⟩ := Nat.exists_eq_add_of_le h1
      clear hall
      induction e using Nat.strongRecOn with
      | ind e ihe =>
        by_cases he : e = 0
        · subst he; exact hi
        · apply Classical.byContradiction
          intro hP
          apply hcon
          refine ⟨i + (e - 1), by omega, ?_, ?_⟩
          · intro m hm1 hm2
            obtain ⟨e', rfl⟩ := Nat.exists_eq_add_of_le hm1
            exact ihe e' (by omega) hm1 (by omega)
          · have : i + (e - 1) + 1 = i + e := by omega
            rw [this]; exact hP

/-- Point update of a per-thread map. -/
def upd {T : Type u} {α : Type v} [DecidableEq T] (f : T → α) (t : T) (a : α) : T → α :=
  fun u => if u = t then a else f u

@[simp] theorem upd_same {T : Type u} {α : Type v} [DecidableEq T] (f : T → α) (t : T) (a : α) :
    upd f t a t = a := by simp [upd]

@[simp] theorem upd_other {T : Type u} {α : Type v} [DecidableEq T] (f : T → α) {t u : T} (a : α)
    (h : u ≠ t) : upd f t a u = f u := by simp [upd, h]

theorem upd_apply {T : Type u} {α : Type v} [DecidableEq T] (f : T → α) (t u : T) (a : α) :
    upd f t a u = if u = t then a else f u := rfl

end Verif.Conc
