import Verif.Thread.TlsModel

/-!
# C15, C16: thread-specific data
-/

namespace Verif.Thread.Tls

/-! ## Specification of C15: histories of API calls -/

/-- An API call made by a thread. -/
inductive Op (T D : Type)
  | create (t : T) (d : Option D)
  | delete (t : T) (k : Nat)
  | set (t : T) (k : Nat) (v : Nat)
  | get (t : T) (k : Nat)

/-- Run a history, most recent call first; also the value returned by each call (most recent first). -/
def run {T D : Type} [DecidableEq T] : List (Op T D) → State T D × List Nat
  | [] => (State.init, [])
  | .create _ d :: h => let r := run h; let q := keyCreate r.1 d; (q.1, q.2 :: r.2)
  | .delete t k :: h => let r := run h; let q := keyDelete r.1 t k; (q.1, q.2 :: r.2)
  | .set t k v :: h => let r := run h; let q := setspecific r.1 t k v; (q.1, q.2 :: r.2)
  | .get t k :: h => let r := run h; (r.1, getspecific r.1 t k :: r.2)

/-- The result of the most recent call of a history. -/
def result {T D : Type} [DecidableEq T] (h : List (Op T D)) : Nat := (run h).2.headD 0

/-- Key `k` is valid: some `create` returned it and no later `delete` named it. -/
def Valid {T D : Type} [DecidableEq T] : List (Op T D) → Nat → Prop
  | [], _ => False
  | .create t d :: h, k => result (.create t d :: h) = k ∨ Valid h k
  | .delete _ k' :: h, k => k' ≠ k ∧ Valid h k
  | .set _ _ _ :: h, k => Valid h k
  | .get _ _ :: h, k => Valid h k

/-- `IsLast h t k v`: `v` is what thread `t` last stored under `k` (while it was valid), NULL if nothing. -/
inductive IsLast {T D : Type} [DecidableEq T] : List (Op T D) → T → Nat → Nat → Prop
  | none {t k} : IsLast [] t k 0
  | stored {h t k v} : Valid h k → IsLast (.set t k v :: h) t k v
  | rejected {h t k v v'} : ¬ Valid h k → IsLast h t k v → IsLast (.set t k v' :: h) t k v
  | create {h t k v t' d} : IsLast h t k v → IsLast (.create t' d :: h) t k v
  | delete {h t k v t' k'} : IsLast h t k v → IsLast (.delete t' k' :: h) t k v
  | get {h t k v t' k'} : IsLast h t k v → IsLast (.get t' k' :: h) t k v
  | otherKey {h t k v t' k' v'} : k' ≠ k → IsLast h t k v → IsLast (.set t' k' v' :: h) t k v
  | otherThread {h t k v t' k' v'} : t' ≠ t → IsLast h t k v → IsLast (.set t' k' v' :: h) t k v

variable {T D : Type} [DecidableEq T]

theorem hasKey_iff (s : State T D) (k : Nat) : hasKey s k = true ↔ ∃ d, (k, d) ∈ s.keys := by
  simp only [hasKey, List.any_eq_true, beq_iff_eq]
  constructor
  · rintro ⟨⟨a, b⟩, h, rfl⟩; exact ⟨b, h⟩
  · rintro ⟨d, h⟩; exact ⟨(k, d), h, rfl⟩

/-- Keys in the table are below the counter. -/
theorem keys_lt (h : List (Op T D)) : ∀ e ∈ (run h).1.keys, e.1 < (run h).1.next := by
  induction h with
  | nil => simp [run, State.init]
  | cons o h ih =>
    cases o <;> simp only [run]
    · intro e he
      simp only [keyCreate, List.mem_append, List.mem_singleton] at he ⊢
      rcases he with he | he
      · have := ih e he; omega
      · subst he; simp
    · unfold keyDelete
      split
      · intro e he
        simp only [setRecord, List.mem_filter] at he ⊢
        exact ih e he.1
      · exact ih
    · unfold setspecific
      split <;> exact ih
    · exact ih

theorem keys_nodup (h : List (Op T D)) : ((run h).1.keys.map Prod.fst).Nodup := by
  induction h with
  | nil => simp [run, State.init]
  | cons o h ih =>
    cases o <;> simp only [run]
    · simp only [keyCreate, List.map_append, List.map_cons, List.map_nil]
      rw [List.nodup_append]
      refine ⟨ih, by simp, ?_⟩
      intro a ha b hb
      simp only [List.mem_map] at ha
      obtain ⟨e, he, rfl⟩ := ha
      have := keys_lt h e he
      simp only [List.mem_singleton] at hb
      omega
    · unfold keyDelete
      split
      · simp only [setRecord]
        exact List.Nodup.sublist (List.Sublist.map _ List.filter_sublist) ih
      · exact ih
    · unfold setspecific
      split <;> exact ih
    · exact ih

theorem valid_iff (h : List (Op T D)) (k : Nat) : Valid h k ↔ hasKey (run h).1 k = true := by
  induction h with
  | nil => simp [Valid, run, State.init, hasKey]
  | cons o h ih =>
    cases o <;> simp only [Valid, run, result, List.headD_cons]
    · rw [ih]
      simp only [keyCreate, hasKey, List.any_append, List.any_cons, List.any_nil, Bool.or_false,
        Bool.or_eq_true, beq_iff_eq]
      exact or_comm
    · rename_i t k'
      rw [ih]
      unfold keyDelete
      split
      · rw [hasKey_iff, hasKey_iff]
        simp only [setRecord, List.mem_filter, bne_iff_ne, ne_eq]
        constructor
        · rintro ⟨h1, d, h2⟩; exact ⟨d, h2, fun e => h1 e.symm⟩
        · rintro ⟨d, h2, h1⟩; exact ⟨fun e => h1 e.symm, d, h2⟩
      · rename_i hn
        constructor
        · exact fun x => x.2
        · intro hk
          refine ⟨?_, hk⟩
          rintro rfl
          exact hn hk
    · rw [ih]
      unfold setspecific
      split <;> rfl
    · exact ih

theorem Valid.lt {h : List (Op T D)} {k : Nat} (v : Valid h k) : k < (run h).1.next := by
  obtain ⟨d, hd⟩ := (hasKey_iff _ _).1 ((valid_iff h k).1 v)
  exact keys_lt h _ hd

/-- A key that was never handed out has no records. -/
theorem values_lt (h : List (Op T D)) : ∀ t k, (run h).1.next ≤ k → (run h).1.values t k = none := by
  induction h with
  | nil => simp [run, State.init]
  | cons o h ih =>
    cases o <;> simp only [run]
    · intro t k hk
      simp only [keyCreate] at hk ⊢
      exact ih t k (by omega)
    · unfold keyDelete
      split
      · intro t k hk
        simp only [setRecord] at hk ⊢
        split
        · rfl
        · exact ih t k hk
      · exact ih
    · unfold setspecific
      split
      · rename_i t' k' v' hk'
        intro t k hk
        simp only [setRecord] at hk ⊢
        split
        · rename_i e
          have := ((valid_iff h k').2 hk').lt
          omega
        · exact ih t k hk
      · exact ih
    · exact ih

theorem isLast_unused (h : List (Op T D)) : ∀ t k v, (run h).1.next ≤ k → IsLast h t k v → v = 0 := by
  induction h with
  | nil => intro t k v _ l; cases l; rfl
  | cons o h ih =>
    intro t k v hk l
    cases l with
    | stored hv =>
      have := hv.lt
      simp only [run, setspecific] at hk
      split at hk <;> simp only [setRecord] at hk <;> omega
    | create l => simp only [run, keyCreate] at hk; exact ih t k v (by omega) l
    | delete l =>
      refine ih t k v ?_ l
      simp only [run, keyDelete] at hk
      split at hk <;> simpa [setRecord] using hk
    | get l => exact ih t k v hk l
    | rejected _ l | otherKey _ l | otherThread _ l =>
      refine ih t k v ?_ l
      simp only [run, setspecific] at hk
      split at hk <;> simpa [setRecord] using hk

theorem getspecific_eq (h : List (Op T D)) :
    ∀ t k v, Valid h k → IsLast h t k v → getspecific (run h).1 t k = v := by
  induction h with
  | nil => intro t k v hv; exact hv.elim
  | cons o h ih =>
    intro t k v hv l
    cases l with
    | stored hv' =>
      simp only [run, setspecific, (valid_iff h k).1 hv', if_true]
      simp [getspecific, setRecord]
    | rejected hn l => exact absurd hv hn
    | create l =>
      rename_i t' d
      simp only [Valid, result, run, List.headD_cons, keyCreate] at hv
      simp only [run, keyCreate, getspecific]
      rcases hv with hv | hv
      · have h0 := isLast_unused h t k v (by omega) l
        rw [values_lt h t k (by omega)]
        simp [h0]
      · exact ih t k v hv l
    | delete l =>
      rename_i t' k'
      simp only [Valid] at hv
      have := ih t k v hv.2 l
      simp only [run, keyDelete]
      split
      · simp only [getspecific, setRecord] at this ⊢
        rw [if_neg (fun e => hv.1 e.2.symm)]
        exact this
      · exact this
    | get l => exact ih t k v hv l
    | otherKey hne l =>
      have := ih t k v hv l
      simp only [run, setspecific]
      split
      · simp only [getspecific, setRecord] at this ⊢
        rw [if_neg (fun e => hne e.2.symm)]
        exact this
      · exact this
    | otherThread hne l =>
      have := ih t k v hv l
      simp only [run, setspecific]
      split
      · simp only [getspecific, setRecord] at this ⊢
        rw [if_neg (fun e => hne e.1.symm)]
        exact this
      · exact this

/-- **C15.** For every history of create/delete/set/get calls by any threads, `pthread_getspecific` of a valid key
returns what the calling thread last stored under it, or NULL. -/
theorem C15_getspecific (h : List (Op T D)) (t : T) (k v : Nat) (hk : Valid h k) (hv : IsLast h t k v) :
    result (.get t k :: h) = v := getspecific_eq h t k v hk hv

/-- **C15.** The specification determines a value for every valid key. -/
theorem C15_spec_total (h : List (Op T D)) (t : T) (k : Nat) (hk : Valid h k) : ∃ v, IsLast h t k v := by
  have key : ∀ h : List (Op T D), (Valid h k → ∃ v, IsLast h t k v) ∧ ((run h).1.next ≤ k → IsLast h t k 0) := by
    intro h
    induction h with
    | nil => exact ⟨fun v => v.elim, fun _ => .none⟩
    | cons o h ih =>
      cases o with
      | create t' d =>
        refine ⟨fun hv => ?_, fun hk => ?_⟩
        · simp only [Valid, result, run, List.headD_cons, keyCreate] at hv
          rcases hv with hv | hv
          · exact ⟨0, .create (ih.2 (by omega))⟩
          · obtain ⟨v, hv⟩ := ih.1 hv; exact ⟨v, .create hv⟩
        · simp only [run, keyCreate] at hk
          exact .create (ih.2 (by omega))
      | delete t' k' =>
        refine ⟨fun hv => ?_, fun hk => ?_⟩
        · obtain ⟨v, hv⟩ := ih.1 hv.2; exact ⟨v, .delete hv⟩
        · refine .delete (ih.2 ?_)
          simp only [run, keyDelete] at hk
          split at hk <;> simpa [setRecord] using hk
      | get t' k' =>
        refine ⟨fun hv => ?_, fun hk => ?_⟩
        · obtain ⟨v, hv⟩ := ih.1 hv; exact ⟨v, .get hv⟩
        · exact .get (ih.2 hk)
      | set t' k' v' =>
        refine ⟨fun hv => ?_, fun hk => ?_⟩
        · simp only [Valid] at hv
          obtain ⟨v, hv'⟩ := ih.1 hv
          by_cases e : k' = k
          · by_cases e' : t' = t
            · subst e; subst e'; exact ⟨v', .stored hv⟩
            · exact ⟨v, .otherThread e' hv'⟩
          · exact ⟨v, .otherKey e hv'⟩
        · have hk' : (run h).1.next ≤ k := by
            simp only [run, setspecific] at hk
            split at hk <;> simpa [setRecord] using hk
          by_cases e : k' = k
          · by_cases e' : t' = t
            · subst e; subst e'
              by_cases hv : Valid h k'
              · have := hv.lt; omega
              · exact .rejected hv (ih.2 hk')
            · exact .otherThread e' (ih.2 hk')
          · exact .otherKey e (ih.2 hk')
  exact (key h).1 hk

/-- **C15.** Storing under a key that is not valid is refused with EINVAL; under a valid key it succeeds. -/
theorem C15_setspecific_result (h : List (Op T D)) (t : T) (k v : Nat) :
    (Valid h k → result (.set t k v :: h) = 0) ∧ (¬ Valid h k → result (.set t k v :: h) = EINVAL) := by
  simp only [valid_iff, result, run, List.headD_cons, setspecific]
  constructor <;> intro hk <;> simp [hk]

/-- Every key handed out in a history is below the counter. -/
theorem created_lt (h₁ h₂ : List (Op T D)) (t : T) (d : Option D) :
    result (.create t d :: h₂) < (run (h₁ ++ .create t d :: h₂)).1.next := by
  induction h₁ with
  | nil => simp [result, run, keyCreate]
  | cons o h ih =>
    cases o <;> simp only [List.cons_append, run]
    · simp only [keyCreate]; omega
    · unfold keyDelete; split <;> simpa [setRecord] using ih
    · unfold setspecific; split <;> simpa [setRecord] using ih
    · exact ih

/-- **C15.** A key returned by `pthread_key_create` differs from every key returned earlier, deleted or not. -/
theorem C15_keys_unique (h₁ h₂ : List (Op T D)) (t t' : T) (d d' : Option D) :
    result (.create t' d' :: (h₁ ++ .create t d :: h₂)) ≠ result (.create t d :: h₂) := by
  have := created_lt h₁ h₂ t d
  have e : result (.create t' d' :: (h₁ ++ .create t d :: h₂)) = (run (h₁ ++ .create t d :: h₂)).1.next := rfl
  omega

/-- The hypotheses are met: thread 0 and thread 1 store under one key, another key is deleted. -/
example :
    let h : List (Op Nat Unit) :=
      [.delete 0 2, .set 1 1 8, .set 0 1 7, .create 1 none, .create 0 none]
    Valid h 1 ∧ IsLast h 0 1 7 ∧ result (.get 0 1 :: h) = 7 ∧ result (.get 1 1 :: h) = 8 ∧
      result (.set 0 2 9 :: h) = EINVAL := by
  refine ⟨by simp [Valid, result, run, keyCreate, State.init], ?_, rfl, rfl, rfl⟩
  refine .delete (.otherThread (by decide) (.stored ?_))
  simp [Valid, result, run, keyCreate, State.init]

/-! ## C16 -/

/-- Relation between the accumulator before and after part of a pass: calls are only added, and each was made with
a non-null argument, with the slot reset, for an entry of the list. -/
theorem foldl_visit (eff : D → Nat → State T D → State T D) (t : T) (l : List (Nat × D))
    (acc : State T D × List (Call T D)) :
    ∃ added, (l.foldl (visit eff t) acc).2 = acc.2 ++ added ∧
      (added.map (fun c => (c.key, c.dtor))).Sublist l ∧
      (∀ c ∈ added, c.arg ≠ 0 ∧ getspecific c.state t c.key = 0) ∧
      (added = [] → (l.foldl (visit eff t) acc).1 = acc.1 ∧ ∀ e ∈ l, getspecific acc.1 t e.1 = 0) := by
  induction l generalizing acc with
  | nil => exact ⟨[], by simp⟩
  | cons e l ih =>
    simp only [List.foldl_cons]
    obtain ⟨added, h1, h2, h3, h4⟩ := ih (visit eff t acc e)
    by_cases hz : getspecific acc.1 t e.1 = 0
    · have hv : visit eff t acc e = acc := by
        unfold visit
        unfold getspecific at hz
        split
        · rfl
        · rename_i v hv
          rw [hv] at hz
          rw [if_pos (by simpa using hz)]
      rw [hv] at h1 h4 ⊢
      refine ⟨added, h1, h2.cons _, h3, fun ha => ⟨(h4 ha).1, ?_⟩⟩
      intro e' he'
      rcases List.mem_cons.1 he' with rfl | he'
      · exact hz
      · exact (h4 ha).2 e' he'
    · obtain ⟨v, hv, hv0⟩ : ∃ v, acc.1.values t e.1 = some v ∧ v ≠ 0 := by
        unfold getspecific at hz
        cases hv : acc.1.values t e.1 with
        | none => simp [hv] at hz
        | some v => exact ⟨v, rfl, by simpa [hv] using hz⟩
      have hvis : (visit eff t acc e).2 = acc.2 ++ [⟨e.1, e.2, v, setRecord acc.1 t e.1 (some 0)⟩] := by
        unfold visit
        simp only [hv]
        rw [if_neg hv0]
      rw [hvis] at h1
      refine ⟨_ :: added, by rw [h1, List.append_assoc]; rfl, ?_, ?_, by simp⟩
      · simpa using h2
      · intro c hc
        rcases List.mem_cons.1 hc with rfl | hc
        · exact ⟨hv0, by simp [getspecific, setRecord]⟩
        · exact h3 c hc

/-- **C16.** Whatever destructors do, in one pass each call is for a key that had that destructor when the pass began,
gets a non-null value, and sees NULL in the slot; and no key is visited twice in a pass. -/
theorem C16_pass_calls (eff : D → Nat → State T D → State T D) (t : T) (s : State T D)
    (hs : (s.keys.map Prod.fst).Nodup) :
    (∀ c ∈ (pass eff t s).2, (c.key, some c.dtor) ∈ s.keys ∧ c.arg ≠ 0 ∧ getspecific c.state t c.key = 0) ∧
    ((pass eff t s).2.map (·.key)).Nodup := by
  obtain ⟨added, h1, h2, h3, -⟩ := foldl_visit eff t (snapshot s) (s, [])
  simp only [List.nil_append] at h1
  have hp : (pass eff t s).2 = added := h1
  rw [hp]
  constructor
  · intro c hc
    refine ⟨?_, h3 c hc⟩
    have := h2.subset (List.mem_map.2 ⟨c, hc, rfl⟩)
    simp only [snapshot, List.mem_filterMap] at this
    obtain ⟨⟨k, od⟩, he, heq⟩ := this
    cases od with
    | none => simp at heq
    | some d =>
      simp only [Option.map_some, Option.some.injEq, Prod.mk.injEq] at heq
      obtain ⟨rfl, rfl⟩ := heq
      exact he
  · have h5 : ((snapshot s).map Prod.fst).Sublist (s.keys.map Prod.fst) := by
      unfold snapshot
      induction s.keys with
      | nil => simp
      | cons e l ih =>
        obtain ⟨k, od⟩ := e
        cases od with
        | none => simpa using ih.cons _
        | some d => simpa using ih
    have h6 := (h2.map Prod.fst).trans h5
    rw [List.map_map] at h6
    exact h6.nodup hs

/-- The accumulated effect of calls on slot `k`: a destructor that stores nothing in this thread's slots. -/
def StoresNothing (eff : D → Nat → State T D → State T D) (t : T) : Prop :=
  ∀ d v s k, getspecific (eff d v s) t k = getspecific s t k

theorem foldl_quiet (eff : D → Nat → State T D → State T D) (t : T) (hq : StoresNothing eff t)
    (l : List (Nat × D)) (hl : (l.map Prod.fst).Nodup) (acc : State T D × List (Call T D)) :
    (∀ k, getspecific (l.foldl (visit eff t) acc).1 t k = if k ∈ l.map Prod.fst then 0 else getspecific acc.1 t k) ∧
    (l.foldl (visit eff t) acc).2.map (fun c => (c.key, c.dtor, c.arg)) =
      acc.2.map (fun c => (c.key, c.dtor, c.arg)) ++
      (l.filter (fun e => getspecific acc.1 t e.1 ≠ 0)).map (fun e => (e.1, e.2, getspecific acc.1 t e.1)) := by
  induction l generalizing acc with
  | nil => simp
  | cons e l ih =>
    simp only [List.map_cons, List.nodup_cons] at hl
    obtain ⟨ih1, ih2⟩ := ih hl.2 (visit eff t acc e)
    have hg : ∀ k, getspecific (visit eff t acc e).1 t k = if k = e.1 then 0 else getspecific acc.1 t k := by
      intro k
      unfold visit
      split
      · rename_i hv
        split
        · rename_i hk; subst hk; simp [getspecific, hv]
        · rfl
      · rename_i v hv
        split
        · rename_i h0
          split
          · rename_i hk; subst hk; simp [getspecific, hv, h0]
          · rfl
        · refine (hq _ _ _ k).trans ?_
          simp only [getspecific, setRecord, true_and]
          by_cases hk : k = e.1 <;> simp [hk]
    have hlog : (visit eff t acc e).2.map (fun c => (c.key, c.dtor, c.arg)) =
        acc.2.map (fun c => (c.key, c.dtor, c.arg)) ++
        (if getspecific acc.1 t e.1 ≠ 0 then [(e.1, e.2, getspecific acc.1 t e.1)] else []) := by
      unfold visit
      split
      · rename_i hv; simp [getspecific, hv]
      · rename_i v hv
        split
        · rename_i h0; simp [getspecific, hv, h0]
        · rename_i h0; simp [getspecific, hv, h0]
    have hsame : ∀ e' ∈ l, getspecific (visit eff t acc e).1 t e'.1 = getspecific acc.1 t e'.1 := by
      intro e' he'
      rw [hg, if_neg]
      intro heq
      exact hl.1 (heq ▸ List.mem_map.2 ⟨e', he', rfl⟩)
    simp only [List.foldl_cons]
    constructor
    · intro k
      rw [ih1, hg]
      simp only [List.map_cons, List.mem_cons]
      by_cases a : k ∈ l.map Prod.fst <;> by_cases b : k = e.1 <;> simp [a, b]
    · rw [ih2, hlog, List.append_assoc]
      congr 1
      have e1 : l.filter (fun e' => decide (getspecific (visit eff t acc e).1 t e'.1 ≠ 0)) =
          l.filter (fun e' => decide (getspecific acc.1 t e'.1 ≠ 0)) := by
        apply List.filter_congr
        intro e' he'
        rw [hsame e' he']
      rw [e1, List.filter_cons]
      have e2 : (l.filter (fun e' => decide (getspecific acc.1 t e'.1 ≠ 0))).map
            (fun e' => (e'.1, e'.2, getspecific (visit eff t acc e).1 t e'.1)) =
          (l.filter (fun e' => decide (getspecific acc.1 t e'.1 ≠ 0))).map
            (fun e' => (e'.1, e'.2, getspecific acc.1 t e'.1)) := by
        apply List.map_congr_left
        intro e' he'
        rw [hsame e' (List.mem_filter.1 he').1]
      rw [e2]
      by_cases hz : getspecific acc.1 t e.1 = 0 <;> simp [hz]

/-- **C16.** In one pass of destructors that store nothing, exactly the non-null values of keys with destructors are
handed over, each once to its own destructor, in key order, and all those slots end NULL. -/
theorem C16_pass_exact (eff : D → Nat → State T D → State T D) (t : T) (s : State T D)
    (hs : (s.keys.map Prod.fst).Nodup) (hq : StoresNothing eff t) :
    (pass eff t s).2.map (fun c => (c.key, c.dtor, c.arg)) =
      ((snapshot s).filter (fun e => getspecific s t e.1 ≠ 0)).map (fun e => (e.1, e.2, getspecific s t e.1)) ∧
    ∀ k d, (k, some d) ∈ s.keys → getspecific (pass eff t s).1 t k = 0 := by
  have hn : ((snapshot s).map Prod.fst).Nodup := by
    refine List.Nodup.sublist ?_ hs
    unfold snapshot
    induction s.keys with
    | nil => simp
    | cons e l ih =>
      obtain ⟨k, od⟩ := e
      cases od with
      | none => simpa using ih.cons _
      | some d => simpa using ih
  obtain ⟨h1, h2⟩ := foldl_quiet eff t hq (snapshot s) hn (s, [])
  refine ⟨by simpa [pass] using h2, ?_⟩
  intro k d hk
  rw [pass, h1, if_pos]
  refine List.mem_map.2 ⟨(k, d), ?_, rfl⟩
  simp only [snapshot, List.mem_filterMap]
  exact ⟨(k, some d), hk, rfl⟩

theorem foldl_delivers (eff : D → Nat → State T D → State T D) (t : T) (l : List (Nat × D)) (k : Nat) (d : D) (v : Nat)
    (hv : v ≠ 0) (hkeep : ∀ d' v' s, getspecific s t k = v → getspecific (eff d' v' s) t k = v)
    (hl : (l.map Prod.fst).Nodup) (hk : (k, d) ∈ l)
    (acc : State T D × List (Call T D)) (hacc : getspecific acc.1 t k = v) :
    ∃ c ∈ (l.foldl (visit eff t) acc).2, c.key = k ∧ c.dtor = d ∧ c.arg = v := by
  induction l generalizing acc with
  | nil => simp at hk
  | cons e l ih =>
    simp only [List.map_cons, List.nodup_cons] at hl
    simp only [List.foldl_cons]
    rcases List.mem_cons.1 hk with rfl | hk
    · obtain ⟨added, h1, -⟩ := foldl_visit eff t l (visit eff t acc (k, d))
      have hvis : ∃ s', (visit eff t acc (k, d)).2 = acc.2 ++ [⟨k, d, v, s'⟩] := by
        unfold getspecific at hacc
        unfold visit
        cases h : acc.1.values t k with
        | none => simp [h] at hacc; omega
        | some w =>
          have hw : w = v := by simpa [h] using hacc
          subst hw
          exact ⟨setRecord acc.1 t k (some 0), by simp [hv]⟩
      obtain ⟨s', hs'⟩ := hvis
      refine ⟨⟨k, d, v, s'⟩, ?_, rfl, rfl, rfl⟩
      rw [h1, hs']
      simp
    · refine ih hl.2 hk _ ?_
      have hne : k ≠ e.1 := by
        rintro rfl
        exact hl.1 (List.mem_map.2 ⟨_, hk, rfl⟩)
      unfold visit
      split
      · exact hacc
      · split
        · exact hacc
        · refine hkeep _ _ _ ?_
          unfold getspecific at hacc ⊢
          simpa [setRecord, hne] using hacc

/-- **C16.** Destructors may store anything anywhere else: a non-null value present at the start of a pass, whose slot
no destructor overwrites before its turn, is handed to its destructor in that pass. -/
theorem C16_value_delivered (eff : D → Nat → State T D → State T D) (t : T) (s : State T D)
    (hs : (s.keys.map Prod.fst).Nodup) (k : Nat) (d : D) (hk : (k, some d) ∈ s.keys)
    (hv : getspecific s t k ≠ 0)
    (hkeep : ∀ d' v' s', getspecific s' t k = getspecific s t k → getspecific (eff d' v' s') t k = getspecific s t k) :
    ∃ c ∈ (pass eff t s).2, c.key = k ∧ c.dtor = d ∧ c.arg = getspecific s t k := by
  refine foldl_delivers eff t (snapshot s) k d _ hv hkeep ?_ ?_ (s, []) rfl
  · refine List.Nodup.sublist ?_ hs
    unfold snapshot
    induction s.keys with
    | nil => simp
    | cons e l ih =>
      obtain ⟨k, od⟩ := e
      cases od with
      | none => simpa using ih.cons _
      | some d => simpa using ih
  · simp only [snapshot, List.mem_filterMap]
    exact ⟨(k, some d), hk, rfl⟩

/-- **C16.** For destructors with any effect: there are at most `PTHREAD_DESTRUCTOR_ITERATIONS` passes; every pass but
the last one called some destructor; and if fewer passes were needed, or the last one called nothing, no non-null
value of a key with a destructor is left. -/
theorem C16_passes (eff : D → Nat → State T D → State T D) (t : T) (n : Nat) (s : State T D) :
    (runPasses eff t n s).2.length ≤ n ∧
    (∀ p ∈ (runPasses eff t n s).2.dropLast, p ≠ []) ∧
    ((runPasses eff t n s).2.length < n ∨ (runPasses eff t n s).2.getLast? = some [] →
      ∀ k d, (k, some d) ∈ (runPasses eff t n s).1.keys → getspecific (runPasses eff t n s).1 t k = 0) := by
  induction n generalizing s with
  | zero => simp [runPasses]
  | succ n ih =>
    obtain ⟨i1, i2, i3⟩ := ih (pass eff t s).1
    by_cases he : (pass eff t s).2 = []
    · have hr : runPasses eff t (n + 1) s = ((pass eff t s).1, [(pass eff t s).2]) := by
        simp [runPasses, he]
      rw [hr]
      refine ⟨by simp, by simp, fun _ k d hk => ?_⟩
      obtain ⟨added, h1, -, -, h4⟩ := foldl_visit eff t (snapshot s) (s, [])
      simp only [List.nil_append] at h1
      have ha : added = [] := h1.symm.trans he
      obtain ⟨e1, e2⟩ := h4 ha
      have e1 : (pass eff t s).1 = s := e1
      rw [e1] at hk ⊢
      refine e2 (k, d) ?_
      simp only [snapshot, List.mem_filterMap]
      exact ⟨(k, some d), hk, rfl⟩
    · have hr : runPasses eff t (n + 1) s =
          ((runPasses eff t n (pass eff t s).1).1,
            (pass eff t s).2 :: (runPasses eff t n (pass eff t s).1).2) := by
        rw [runPasses]
        have : (pass eff t s).2.isEmpty = false := by simpa using he
        simp [this]
      rw [hr]
      generalize hq : runPasses eff t n (pass eff t s).1 = q at i1 i2 i3 ⊢
      obtain ⟨qs, ql⟩ := q
      simp only at i1 i2 i3 ⊢
      refine ⟨by simpa using i1, ?_, ?_⟩
      · cases ql with
        | nil => simp
        | cons a l =>
          intro p hp
          simp only [List.dropLast_cons_cons, List.mem_cons] at hp
          rcases hp with rfl | hp
          · exact he
          · exact i2 p hp
      · intro h
        apply i3
        rcases h with h | h
        · left; simpa using h
        · right
          cases ql with
          | nil => simp at h; exact absurd h he
          | cons a l => simpa using h

/-- **C16** for the real bound. -/
theorem C16_run (eff : D → Nat → State T D → State T D) (t : T) (s : State T D) :
    (runAll eff t s).2.length ≤ 4 ∧
    ((runAll eff t s).2.length < 4 ∨ (runAll eff t s).2.getLast? = some [] →
      ∀ k d, (k, some d) ∈ (runAll eff t s).1.keys → getspecific (runAll eff t s).1 t k = 0) :=
  ⟨(C16_passes eff t 4 s).1, (C16_passes eff t 4 s).2.2⟩

/-- **C16.** Reachable tables have distinct keys, so the theorems above apply after any history. -/
theorem C16_reachable (h : List (Op T D)) : ((run h).1.keys.map Prod.fst).Nodup := keys_nodup h

/-- A destructor that stores its argument again runs for the whole four passes; one that does not runs once. -/
example :
    let s : State Nat Unit := (run [.set 0 1 7, .create 0 (some ())]).1
    ((runAll (fun _ _ s => s) 0 s).2.map (·.map (·.arg)) = [[7], []]) ∧
    ((runAll (fun _ v s => (setspecific s 0 1 v).1) 0 s).2.map (·.map (·.arg)) = [[7], [7], [7], [7]]) := by
  exact ⟨rfl, rfl⟩

end Verif.Thread.Tls
