import Verif.Stdlib.ExitModel
/-!
# Handlers run in reverse order, each once (C28)
-/

namespace Verif.Stdlib

variable {F : Type}

/-! ## Specification -/

/-- The table after a sequence of registrations, with the results returned, in order. -/
def register : Slots F → List F → Slots F × List Int
  | s, [] => (s, [])
  | s, g :: gs =>
    let r := atexit s (some g)
    let t := register r.1 gs
    (t.1, r.2 :: t.2)

/-! ## Lemmas -/

/-- A table with `fs` registered. -/
def table (fs : List F) : Slots F := fs.map some ++ List.replicate (32 - fs.length) none

theorem atexit_free (fs : List F) (k : Nat) (g : Option F) :
    atexit (fs.map some ++ List.replicate (k + 1) none) g = (fs.map some ++ g :: List.replicate k none, 0) := by
  induction fs with
  | nil => simp [atexit, List.replicate_succ]
  | cons f fs ih => simp [atexit, ih]

theorem atexit_full (fs : List F) (g : Option F) : atexit (fs.map some) g = (fs.map some, 1) := by
  induction fs with
  | nil => rfl
  | cons f fs ih => simp [atexit, ih]

theorem atexit_table (fs : List F) (h : fs.length < 32) (g : F) :
    atexit (table fs) (some g) = (table (fs ++ [g]), 0) := by
  unfold table
  rw [show 32 - fs.length = (31 - fs.length) + 1 by omega, atexit_free]
  simp

theorem atexit_table_full (fs : List F) (h : fs.length = 32) (g : F) :
    atexit (table fs) (some g) = (table fs, 1) := by
  unfold table
  rw [h]
  simp [atexit_full]

theorem register_table (fs gs : List F) (h : fs.length ≤ 32) :
    register (table fs) gs = (table (fs ++ gs.take (32 - fs.length)),
      List.replicate (min gs.length (32 - fs.length)) 0 ++ List.replicate (gs.length - (32 - fs.length)) 1) := by
  induction gs generalizing fs with
  | nil => simp [register]
  | cons g gs ih =>
    unfold register
    rcases Nat.lt_or_ge fs.length 32 with hl | hl
    · rw [atexit_table fs hl]
      have := ih (fs ++ [g]) (by simp; omega)
      simp only [List.length_append, List.length_singleton] at this
      simp only [this]
      obtain ⟨k, hk⟩ : ∃ k, 32 - fs.length = k + 1 := ⟨31 - fs.length, by omega⟩
      rw [hk, show 32 - (fs.length + 1) = k by omega]
      simp only [List.take_succ_cons, List.append_assoc, List.nil_append, List.length_cons, Nat.add_min_add_right,
        Nat.add_sub_add_right, List.replicate_succ, List.cons_append]
    · have hf : fs.length = 32 := by omega
      rw [atexit_table_full fs hf]
      simp only [ih fs h]
      simp [hf, List.replicate_succ]

/-- Registration does not touch the slots in use. -/
theorem atexit_prefix (fs : List F) (s : Slots F) (g : Option F) :
    ∃ s', (atexit (fs.map some ++ s) g).1 = fs.map some ++ s' := by
  induction fs with
  | nil => exact ⟨_, rfl⟩
  | cons f fs ih =>
    obtain ⟨s', h⟩ := ih
    exact ⟨s', by simp [atexit, h]⟩

theorem runHandler_prefix (reg : F → List (Option F)) (f : F) (fs : List F) (s : Slots F) :
    ∃ s', runHandler reg f (fs.map some ++ s) = fs.map some ++ s' := by
  unfold runHandler
  generalize reg f = l
  induction l generalizing s with
  | nil => exact ⟨s, rfl⟩
  | cons g l ih =>
    obtain ⟨s', h⟩ := atexit_prefix fs s g
    simp only [List.foldl_cons, h]
    exact ih s'

theorem exitLoop_table (reg : F → List (Option F)) (fs : List F) (s : Slots F) :
    exitLoop reg fs.length (fs.map some ++ s) = fs.reverse := by
  obtain ⟨n, hn⟩ : ∃ n, fs.length = n := ⟨_, rfl⟩
  induction n generalizing fs s with
  | zero =>
    have : fs = [] := List.length_eq_zero_iff.1 hn
    subst this
    rfl
  | succ n ih =>
    obtain ⟨gs, f, rfl⟩ : ∃ gs f, fs = gs ++ [f] := by
      refine ⟨fs.dropLast, fs.getLast (by rintro rfl; simp at hn), (List.dropLast_concat_getLast _).symm⟩
    have hg : gs.length = n := by simpa using hn
    simp only [List.length_append, List.length_singleton, exitLoop]
    rw [show ((gs ++ [f]).map some ++ s)[gs.length]? = some (some f) by simp]
    simp only
    obtain ⟨s', hs'⟩ := runHandler_prefix reg f (gs ++ [f]) s
    rw [hs', List.map_append, List.append_assoc, ih gs _ hg]
    simp

theorem exitLoop_skip (reg : F → List (Option F)) (fs : List F) (k : Nat) :
    exitLoop reg (fs.length + k) (fs.map some ++ List.replicate k none) = fs.reverse := by
  have skip : ∀ j, j ≤ k → exitLoop reg (fs.length + j) (fs.map some ++ List.replicate k none) = fs.reverse := by
    intro j
    induction j with
    | zero => intro _; exact exitLoop_table reg fs _
    | succ j ih =>
      intro hj
      rw [← Nat.add_assoc, exitLoop]
      rw [show (fs.map some ++ List.replicate k none)[fs.length + j]? = some none by
        rw [List.getElem?_append_right (by simp), List.length_map, Nat.add_sub_cancel_left,
          List.getElem?_replicate, if_pos (by omega)]]
      exact ih (by omega)
  exact skip k (Nat.le_refl k)

/-! ## C28 -/

/-- C28, registration: the first 32 registrations succeed, later ones are refused. -/
theorem C28_register (gs : List F) :
    (register Slots.init gs).2 = List.replicate (min gs.length 32) 0 ++ List.replicate (gs.length - 32) 1 := by
  have := register_table [] gs (by simp)
  simp only [table, List.map_nil, List.length_nil, List.nil_append, Nat.sub_zero] at this
  unfold Slots.init
  rw [this]

/-- C28, `exit`: the handlers that were registered successfully before are called in reverse order, each once (whatever
the handlers themselves register), then the destructors of the program in reverse order; then streams are flushed and
the process exits with the status. -/
theorem C28_exit_partial (reg : F → List (Option F)) (gs fini : List F) (status : Int) :
    exit reg (register Slots.init gs).1 fini status
      = (gs.take 32).reverse.map .call ++ fini.reverse.map .call
        ++ [.ldsoFini, .terminateThreads, .flushStreams, .sysExit status] := by
  have := register_table [] gs (by simp)
  simp only [List.length_nil, List.nil_append, Nat.sub_zero] at this
  have e : (register Slots.init gs).1 = table (gs.take 32) := by rw [show Slots.init = table ([] : List F) from rfl, this]
  rw [e]
  unfold exit table
  rw [List.length_append, List.length_map, List.length_replicate, exitLoop_skip]

/-- C28, `quick_exit`. -/
theorem C28_quick_exit_partial (reg : F → List (Option F)) (gs : List F) (status : Int) :
    quickExit reg (register Slots.init gs).1 status = (gs.take 32).reverse.map .call ++ [.sysExit status] := by
  have := register_table [] gs (by simp)
  simp only [List.length_nil, List.nil_append, Nat.sub_zero] at this
  have e : (register Slots.init gs).1 = table (gs.take 32) := by rw [show Slots.init = table ([] : List F) from rfl, this]
  rw [e]
  unfold quickExit table
  rw [List.length_append, List.length_map, List.length_replicate, exitLoop_skip]

-- three handlers
example : exit (fun _ => []) (register Slots.init [1, 2, 3]).1 [7, 8] 0
    = [.call 3, .call 2, .call 1, .call 8, .call 7, .ldsoFini, .terminateThreads, .flushStreams, .sysExit 0] :=
  C28_exit_partial (fun _ => []) [1, 2, 3] [7, 8] 0

/-- A handler registered while `exit` runs is accepted but never called: handler 1 registers handler 2. -/
theorem C28_nested_violation :
    (atexit (register Slots.init [1]).1 (some 2)).2 = 0
      ∧ ExitEvent.call 2 ∉ exit (fun f : Nat => if f = 1 then [some 2] else []) (register Slots.init [1]).1 [] 0 := by
  refine ⟨by decide, ?_⟩
  rw [C28_exit_partial]
  decide

end Verif.Stdlib
