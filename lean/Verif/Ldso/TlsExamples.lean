import Verif.Ldso.TlsBlockProps
/-!
# C83: where the code departs from the property; examples
-/

namespace Verif.Ldso

open Verif.Mem

instance (p : Proc) (op : TOp) : Decidable (op.Valid p) := by
  cases op <;> unfold TOp.Valid <;> infer_instance

/-- A run, checked. -/
def execT : List TOp → Proc → Option Proc
  | [], p => some p
  | op :: ops, p =>
    if op.Valid p then
      match op.step p with
      | some p => execT ops p
      | none => none
    else none

theorem execT_runs {segs : List Seg} : ∀ ops pre p p', TRuns segs pre p → execT ops p = some p' → TRuns segs (pre ++ ops) p' := by
  intro ops
  induction ops with
  | nil => intro pre p p' h h1; cases h1; rw [List.append_nil]; exact h
  | cons op ops ih =>
    intro pre p p' h h1
    simp only [execT] at h1
    split at h1
    · rename_i hv
      split at h1
      · rename_i q hq
        have := ih (pre ++ [op]) q p' (.step h hv hq) h1
        rwa [List.append_assoc] at this
      · exact absurd h1 (by simp)
    · exact absurd h1 (by simp)

/-- What is seen at the end of a run. -/
theorem execT_sees {α : Type} {segs : List Seg} {ops : List TOp} {f : Proc → α} {a : α}
    (hv : ∀ g ∈ segs, g.image.length ≤ g.size)
    (h : ((startTls segs 4096).bind (execT ops)).map f = some a) : ∃ p, TRuns segs ops p ∧ f p = a := by
  cases h1 : startTls segs 4096 with
  | none => rw [h1] at h; exact absurd h (by simp)
  | some p =>
    rw [h1, Option.bind_some] at h
    cases h2 : execT ops p with
    | none => rw [h2] at h; exact absurd h (by simp)
    | some q =>
      rw [h2] at h
      exact ⟨q, execT_runs ops [] p q (.start hv (by omega) (by omega) h1) h2, by simpa using h⟩

/-- The program has 16 bytes, each library 32. -/
def progSeg : Seg := ⟨[1, 2], 16, 8⟩
def libSeg : Seg := ⟨[7, 8, 9], 32, 8⟩
def otherSeg : Seg := ⟨[4, 5], 32, 8⟩

/-- A thread created after two libraries with thread-local variables were opened has the variables of both at the same place. -/
theorem C83_overlap_violation : ∃ (segs : List Seg) (ops : List TOp) (p : Proc) (g g' : Seg) (a a' : Nat), TRuns segs ops p ∧
    OnlyMain ops ∧ p.own 2 = some g ∧ p.own 3 = some g' ∧ BlockAt p 1 2 a ∧ BlockAt p 1 3 a' ∧ ¬ Disjoint a g.size a' g'.size := by
  obtain ⟨p, h, hs⟩ := execT_sees (segs := [progSeg]) (ops := [.dlopen 0 [libSeg], .dlopen 0 [otherSeg], .create 0 8192])
    (f := fun p => (p.threads[1]?, p.own 2, p.own 3))
    (a := (some ⟨12288, 4096, [⟨[1, 2], 16, 16⟩, ⟨[7, 8, 9], 32, 48⟩, ⟨[4, 5], 32, 48⟩], none⟩, some libSeg, some otherSeg))
    (by decide) (by decide +kernel)
  simp only [Prod.mk.injEq] at hs
  obtain ⟨h1, h2, h3⟩ := hs
  refine ⟨_, _, p, libSeg, otherSeg, 12240, 12240, h, ?_, h2, h3, ?_, ?_, ?_⟩
  · intro op hop
    simp only [List.mem_cons, List.not_mem_nil, or_false] at hop
    rcases hop with rfl | rfl | rfl <;> trivial
  · exact blockAt_of (i := 1) h1 rfl rfl (by decide)
  · exact blockAt_of (i := 2) h1 rfl rfl (by decide)
  · unfold Disjoint; decide

/-- Creating a thread panics after a library with many thread-local variables was opened. -/
theorem C83_create_violation : ∃ (segs : List Seg) (ops : List TOp) (p : Proc), TRuns segs ops p ∧ OnlyMain ops ∧
    ∀ base, createThread p 0 base = none := by
  obtain ⟨p, h, hs⟩ := execT_sees (segs := [progSeg]) (ops := [.dlopen 0 [⟨[7], 4096, 8⟩]])
    (f := fun p => p.threads)
    (a := [⟨8192, 4096, [⟨[1, 2], 16, 16⟩, ⟨[7], 4096, 4112⟩], some [8176]⟩]) (by decide) (by decide +kernel)
  refine ⟨_, _, p, h, ?_, ?_⟩
  · intro op hop
    simp only [List.mem_cons, List.not_mem_nil, or_false] at hop
    rcases hop with rfl
    trivial
  · intro base
    unfold createThread
    rw [hs]
    simp only [List.getElem?_cons_zero]
    have : pageUp 4096 = 4096 := rfl
    rw [this]
    simp [copyMasters, copyLoop]

/-- A thread that exists when another one opens a library gets NULL as the address of the library's variables. -/
theorem C83_existing_violation : ∃ (segs : List Seg) (ops : List TOp) (p : Proc) (g : Seg), TRuns segs ops p ∧ OnlyMain ops ∧
    p.own 2 = some g ∧ ∀ off base, ∃ p', tlsGetAddr p 1 2 off base = some (0, p') := by
  obtain ⟨p, h, hs⟩ := execT_sees (segs := [progSeg]) (ops := [.create 0 8192, .dlopen 0 [libSeg]])
    (f := fun p => (p.threads[1]?, p.own 2))
    (a := (some ⟨12288, 4096, [⟨[1, 2], 16, 16⟩], none⟩, some libSeg)) (by decide) (by decide +kernel)
  simp only [Prod.mk.injEq] at hs
  refine ⟨_, _, p, libSeg, h, ?_, hs.2, ?_⟩
  · intro op hop
    simp only [List.mem_cons, List.not_mem_nil, or_false] at hop
    rcases hop with rfl | rfl <;> trivial
  · intro off base
    exact ⟨_, by unfold tlsGetAddr; rw [hs.1]; rfl⟩

/-- If two threads open a library each, a thread takes the variables of one for those of the other. -/
theorem C83_threads_violation : ∃ (segs : List Seg) (ops : List TOp) (p : Proc) (g : Seg) (base : Nat) (p' : Proc), TRuns segs ops p ∧
    p.own 2 = some g ∧ p.brk ≤ base ∧ tlsGetAddr p 1 2 0 base = some (base, p') ∧ ¬ Bytes p'.mem base (fresh g) := by
  obtain ⟨p, h, hs⟩ := execT_sees (segs := [progSeg])
    (ops := [.create 0 8192, .access 1 1 0 16384, .dlopen 0 [libSeg], .dlopen 1 [otherSeg]])
    (f := fun p => (p.threads[1]?, p.own 2, p.brk))
    (a := (some ⟨12288, 4096, [⟨[1, 2], 16, 16⟩, ⟨[4, 5], 32, 48⟩], some [12272]⟩, some libSeg, 12288))
    (by decide) (by decide +kernel)
  simp only [Prod.mk.injEq] at hs
  refine ⟨_, _, p, libSeg, 16384, _, h, hs.2.1, by rw [hs.2.2]; decide, by unfold tlsGetAddr; rw [hs.1]; rfl, ?_⟩
  rintro ⟨h1, _⟩
  have h1 : patch p.mem 16384 ([4, 5] ++ List.replicate 30 (0 : UInt8)) 16384 = some 7 := h1
  simp [patch] at h1

/-- After a `dlopen` has failed, the variables of a library opened later have the address NULL. -/
theorem C83_failed_violation : ∃ (segs : List Seg) (ops : List TOp) (p : Proc) (g : Seg) (m : Nat), TRuns segs ops p ∧
    p.threads.length = 1 ∧ p.own m = some g ∧ ∀ off base, ∃ p', tlsGetAddr p 0 m off base = some (0, p') := by
  obtain ⟨p, h, hs⟩ := execT_sees (segs := [progSeg]) (ops := [.failed 1, .dlopen 0 [libSeg]])
    (f := fun p => (p.threads, p.own 3))
    (a := ([⟨8192, 4096, [⟨[1, 2], 16, 16⟩, ⟨[7, 8, 9], 32, 48⟩], some [8176]⟩], some libSeg)) (by decide) (by decide +kernel)
  simp only [Prod.mk.injEq] at hs
  refine ⟨_, _, p, libSeg, 3, h, by rw [hs.1]; rfl, hs.2, ?_⟩
  intro off base
  exact ⟨_, by unfold tlsGetAddr; rw [hs.1]; rfl⟩

/-- The alignment asked for is not looked at: a block of 64 bytes with alignment 64 is at 8112. -/
theorem C83_align_violation : ∃ (segs : List Seg) (p : Proc) (g : Seg) (m a : Nat), TRuns segs [] p ∧ p.own m = some g ∧
    g.align ∣ g.size ∧ BlockAt p 0 m a ∧ ¬ g.align ∣ a := by
  obtain ⟨p, h, hs⟩ := execT_sees (segs := [progSeg, ⟨[], 64, 64⟩]) (ops := [])
    (f := fun p => (p.threads, p.own 2))
    (a := ([⟨8192, 4096, [⟨[1, 2], 16, 16⟩, ⟨[], 64, 80⟩], some [8176, 8112]⟩], some ⟨[], 64, 64⟩)) (by decide) (by decide +kernel)
  simp only [Prod.mk.injEq] at hs
  refine ⟨_, p, ⟨[], 64, 64⟩, 2, 8112, h, hs.2, by decide, ?_, by decide⟩
  exact blockAt_of (i := 1) (by rw [hs.1]; rfl) rfl rfl (by decide)

/-- The first thread sees the variables of a library it has opened with their initial values. -/
example : ((startTls [progSeg] 4096).bind (execT [.create 0 8192, .dlopen 0 [libSeg], .access 0 2 5 16384])).map
    (fun p => (p.threads.map (·.dtv), (List.range 5).map fun i => p.mem (16384 + i))) =
    some ([some [8176, 16384], none], [some 7, some 8, some 9, some 0, some 0]) := by decide +kernel

end Verif.Ldso
