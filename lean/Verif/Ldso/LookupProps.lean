import Verif.Ldso.OrderProps
/-!
# C79: symbol lookup
-/

namespace Verif.Ldso

/-- The definition a search through the objects `scope` has to find: the first global one, or if there is none the first weak
one. -/
def Finds (d : Defs) (n : Name) (scope : List Nat) : Option (Nat × Nat) → Prop
  | none => ∀ x ∈ scope, d x n = none
  | some (o, a) => ∃ before after, scope = before ++ o :: after ∧
      ((d o n = some (.global, a) ∧ ∀ x ∈ before, ∀ b, d x n ≠ some (.global, b)) ∨
       (d o n = some (.weak, a) ∧ (∀ x ∈ before, d x n = none) ∧ ∀ x ∈ after, ∀ b, d x n ≠ some (.global, b)))

/-- No two objects of the scope have weak definitions, or one has a global definition. -/
def OneWeak (d : Defs) (n : Name) (scope : List Nat) : Prop :=
  (∃ x ∈ scope, ∃ a, d x n = some (.global, a)) ∨
  ∀ pre x post, scope = pre ++ x :: post → (∃ a, d x n = some (.weak, a)) → ∀ y ∈ post, d y n = none

theorem searchFrom_spec (d : Defs) (n : Name) : ∀ (scope before : List Nat) (res : Option (Nat × Nat)),
    (∀ x ∈ before, ∀ b, d x n ≠ some (.global, b)) → OneWeak d n (before ++ scope) →
    (Finds d n before res) → Finds d n (before ++ scope) (searchFrom d n scope res) := by
  intro scope
  induction scope with
  | nil => intro before res _ _ hf; simpa [searchFrom] using hf
  | cons o os ih =>
    intro before res hb hw hf
    have happ : before ++ o :: os = (before ++ [o]) ++ os := by simp
    unfold searchFrom
    split
    · rename_i a ha
      exact ⟨before, os, rfl, .inl ⟨ha, hb⟩⟩
    · rename_i a ha
      by_cases hg : ∃ x ∈ os, ∃ a, d x n = some (.global, a)
      · rw [happ] at hw ⊢
        obtain ⟨x, hx, b, hxb⟩ := hg
        -- the value of `res` does not matter
        have any : ∀ (l pre : List Nat) (r : Option (Nat × Nat)), (∀ x ∈ pre, ∀ b, d x n ≠ some (.global, b)) →
            (∃ x ∈ l, ∃ a, d x n = some (.global, a)) → Finds d n (pre ++ l) (searchFrom d n l r) := by
          intro l
          induction l with
          | nil => intro pre r _ ⟨x, hx, _⟩; exact absurd hx (by simp)
          | cons y l ihl =>
            intro pre r hpre ⟨x, hx, a, hxa⟩
            unfold searchFrom
            have hap : pre ++ y :: l = (pre ++ [y]) ++ l := by simp
            split
            · rename_i a' ha'
              exact ⟨pre, l, rfl, .inl ⟨ha', hpre⟩⟩
            · rename_i a' ha'
              rw [hap]
              refine ihl _ _ ?_ ?_
              · intro z hz b
                rcases List.mem_append.1 hz with hz | hz
                · exact hpre z hz b
                · rw [List.mem_singleton.1 hz, ha']; simp
              · rcases List.mem_cons.1 hx with rfl | hx
                · rw [ha'] at hxa; exact absurd hxa (by simp)
                · exact ⟨x, hx, a, hxa⟩
            · rename_i ha'
              rw [hap]
              refine ihl _ _ ?_ ?_
              · intro z hz b
                rcases List.mem_append.1 hz with hz | hz
                · exact hpre z hz b
                · rw [List.mem_singleton.1 hz, ha']; simp
              · rcases List.mem_cons.1 hx with rfl | hx
                · rw [ha'] at hxa; exact absurd hxa (by simp)
                · exact ⟨x, hx, a, hxa⟩
        refine any os _ _ ?_ ⟨x, hx, b, hxb⟩
        intro z hz b
        rcases List.mem_append.1 hz with hz | hz
        · exact hb z hz b
        · rw [List.mem_singleton.1 hz, ha]; simp
      · have hng : ∀ x ∈ os, ∀ b, d x n ≠ some (.global, b) := fun x hx b hxb => hg ⟨x, hx, b, hxb⟩
        rcases hw with ⟨x, hx, b, hxb⟩ | hw
        · exfalso
          rcases List.mem_append.1 hx with hx | hx
          · exact hb x hx b hxb
          · rcases List.mem_cons.1 hx with rfl | hx
            · rw [ha] at hxb; exact absurd hxb (by simp)
            · exact hng x hx b hxb
        · have hos := hw before o os rfl ⟨a, ha⟩
          have hbn : ∀ x ∈ before, d x n = none := by
            intro x hx
            obtain ⟨p, q, hpq⟩ := List.append_of_mem hx
            cases hdx : d x n with
            | none => rfl
            | some r =>
              obtain ⟨bd, b⟩ := r
              cases bd with
              | global => exact absurd hdx (hb x hx b)
              | weak =>
                have := hw p x (q ++ o :: os) (by rw [hpq]; simp) ⟨b, hdx⟩ o (by simp)
                rw [ha] at this; exact absurd this (by simp)
          have stay : ∀ (l : List Nat) (r : Option (Nat × Nat)), (∀ y ∈ l, d y n = none) → searchFrom d n l r = r := by
            intro l
            induction l with
            | nil => intro r _; rfl
            | cons y l ihl =>
              intro r hl
              unfold searchFrom
              rw [hl y List.mem_cons_self]
              exact ihl r fun z hz => hl z (List.mem_cons_of_mem _ hz)
          rw [stay os _ hos]
          exact ⟨before, os, rfl, .inr ⟨ha, hbn, hng⟩⟩
    · rename_i ha
      rw [happ] at hw ⊢
      refine ih _ _ ?_ hw ?_
      · intro z hz b
        rcases List.mem_append.1 hz with hz | hz
        · exact hb z hz b
        · rw [List.mem_singleton.1 hz, ha]; simp
      · cases res with
        | none =>
          intro x hx
          rcases List.mem_append.1 hx with hx | hx
          · exact hf x hx
          · rw [List.mem_singleton.1 hx]; exact ha
        | some r =>
          obtain ⟨p, a⟩ := r
          obtain ⟨b1, b2, hb12, hc⟩ := hf
          refine ⟨b1, b2 ++ [o], by rw [hb12]; simp, ?_⟩
          rcases hc with hc | ⟨h1, h2, h3⟩
          · exact .inl hc
          · refine .inr ⟨h1, h2, ?_⟩
            intro x hx b
            rcases List.mem_append.1 hx with hx | hx
            · exact h3 x hx b
            · rw [List.mem_singleton.1 hx, ha]; simp

theorem searchGlobal_eq {d : Defs} {alive : Nat → Bool} {n : Name} : ∀ (l : List Nat) (res : Option (Nat × Nat)),
    (∀ i ∈ l, alive i = true) → searchGlobal d alive n l res = some (searchFrom d n l res) := by
  intro l
  induction l with
  | nil => intro res _; rfl
  | cons o os ih =>
    intro res h
    unfold searchGlobal searchFrom
    rw [if_neg (by simp [h o List.mem_cons_self])]
    have := fun r => ih r fun i hi => h i (List.mem_cons_of_mem _ hi)
    split
    · rfl
    · exact this _
    · exact this _

/-! ### What is in the scopes -/

theorem enter_global_prefix (k : Kind) (dep : Option (List Nat)) (i : Nat) (st : St) :
    ∃ t, (enter k dep i st).2.global = st.global ++ t := by
  unfold enter addTo
  split
  · exact ⟨[], by simp⟩
  · dsimp only; split
    · exact ⟨[], by simp⟩
    · exact ⟨[i], rfl⟩
  · dsimp only; split
    · exact ⟨[], by simp⟩
    · exact ⟨[i], rfl⟩
  · exact ⟨[], by simp⟩

theorem mem_enter_global {dep : Option (List Nat)} {i x : Nat} {st : St} :
    x ∈ (enter .global dep i st).2.global ↔ x ∈ st.global ∨ x = i := by
  cases dep <;> exact mem_addTo

theorem nodup_enter_global {dep : Option (List Nat)} {i : Nat} {st : St} (h : st.global.Nodup) :
    (enter .global dep i st).2.global.Nodup := by
  have : (addTo st.global i).Nodup := by
    unfold addTo
    split
    · exact h
    · rename_i hi
      rw [List.nodup_append]
      exact ⟨h, by simp, by intro a ha b hb; rw [List.mem_singleton.1 hb]; rintro rfl; exact hi ha⟩
  cases dep <;> exact this

theorem enter_loc_global (dep : Option (List Nat)) (i : Nat) (st : St) : (enter .loc dep i st).2.global = st.global := by
  cases dep <;> rfl

/-- What loading the program does to the global scope. -/
def GlobalOk (st st' : St) (ok : Bool) : Prop :=
  st'.global.Nodup ∧ (∃ t, st'.global = st.global ++ t) ∧ st'.objects = st.objects ∧ st'.names = st.names ∧
    (ok = true → ∃ added, st'.news = st.news ++ added ∧ ∀ x, x ∈ st'.global ↔ x ∈ st.global ∨ ∃ o ∈ added, o.id = x)

theorem loadDeps_global {rec : Name → Option (List Nat) → St → Res (Obj × Option (List Nat))}
    (hrec : ∀ n dep st r st', st.global.Nodup → (∀ n, st.names n = none) → (∀ o ∈ st.news, o.id ∈ st.global) →
      rec n dep st = some (r, st') → GlobalOk st st' (match r with | .ok _ => true | .error _ => false)) :
    ∀ ds scope bound st r st', st.global.Nodup → (∀ n, st.names n = none) → (∀ o ∈ st.news, o.id ∈ st.global) →
      loadDeps rec ds scope bound st = some (r, st') → GlobalOk st st' (match r with | .ok _ => true | .error _ => false) := by
  intro ds
  induction ds with
  | nil =>
    intro scope bound st r st' hn _ _ h
    simp only [loadDeps, Option.some.injEq, Prod.mk.injEq] at h
    obtain ⟨rfl, rfl⟩ := h
    exact ⟨hn, ⟨[], by simp⟩, rfl, rfl, fun _ => ⟨[], by simp, by simp⟩⟩
  | cons d ds ih =>
    intro scope bound st r st' hn hnm hw h
    unfold loadDeps at h
    split at h
    · exact absurd h (by simp)
    · rename_i x st1 h1
      simp only [Option.some.injEq, Prod.mk.injEq] at h
      obtain ⟨rfl, rfl⟩ := h
      exact hrec _ _ _ _ _ hn hnm hw h1
    · rename_i o dep1 st1 h1
      obtain ⟨g1, ⟨t1, g2⟩, g3, g4, g5⟩ := hrec _ _ _ _ _ hn hnm hw h1
      obtain ⟨a1, ga, gb⟩ := g5 rfl
      obtain ⟨i1, ⟨t2, i2⟩, i3, i4, i5⟩ := ih _ _ _ _ _ g1 (by rw [g4]; exact hnm)
        (by
          intro x hx
          rw [ga] at hx
          rw [gb]
          rcases List.mem_append.1 hx with hx | hx
          · exact .inl (hw x hx)
          · exact .inr ⟨x, hx, rfl⟩) h
      refine ⟨i1, ⟨t1 ++ t2, by rw [i2, g2, List.append_assoc]⟩, i3.trans g3, i4.trans g4, ?_⟩
      intro hr
      obtain ⟨a2, ia, ib⟩ := i5 hr
      refine ⟨a1 ++ a2, by rw [ia, ga, List.append_assoc], ?_⟩
      intro x
      rw [ib, gb]
      simp only [List.mem_append]
      constructor
      · rintro ((h | ⟨o, h, rfl⟩) | ⟨o, h, rfl⟩)
        · exact .inl h
        · exact .inr ⟨o, .inl h, rfl⟩
        · exact .inr ⟨o, .inr h, rfl⟩
      · rintro (h | ⟨o, h | h, rfl⟩)
        · exact .inl (.inl h)
        · exact .inl (.inr ⟨o, h, rfl⟩)
        · exact .inr ⟨o, h, rfl⟩

theorem loadRec_global (e : Env) (dl : Bool) (depth : Nat) :
    ∀ n dep st r st', st.global.Nodup → (∀ n, st.names n = none) → (∀ o ∈ st.news, o.id ∈ st.global) →
      loadRec e dl .global depth n dep st = some (r, st') →
      GlobalOk st st' (match r with | .ok _ => true | .error _ => false) := by
  induction depth with
  | zero => intro n dep st r st' _ _ _ h; exact absurd h (by simp [loadRec])
  | succ depth ih =>
    intro n dep st r st' hn hnm hw h
    unfold loadRec at h
    split at h
    · rename_i o ho
      simp only [Option.some.injEq, Prod.mk.injEq] at h
      obtain ⟨rfl, rfl⟩ := h
      have hon : o ∈ st.news := by
        unfold known at ho
        rw [hnm] at ho
        exact List.mem_of_find?_eq_some ho
      obtain ⟨g, hst⟩ := enter_st .global dep o.id st
      refine ⟨nodup_enter_global hn, enter_global_prefix _ _ _ _, by rw [hst], by rw [hst], ?_⟩
      intro _
      refine ⟨[], by rw [hst]; simp, ?_⟩
      intro x
      rw [mem_enter_global]
      constructor
      · rintro (h | rfl)
        · exact .inl h
        · exact .inl (hw o hon)
      · rintro (h | ⟨_, h, _⟩)
        · exact .inl h
        · exact absurd h (by simp)
    · split at h
      · simp only [Option.some.injEq, Prod.mk.injEq, loadLibc] at h
        obtain ⟨rfl, rfl⟩ := h
        generalize ho : ({ id := st.nextId, name := "libc.so.6", needed := [], dlopened := false, me := true,
                           tlsModule := st.nextTls, tlsOffset := align16 st.tlsSize + e.libcTls, scope := [],
                           bound := [] } : Obj) = o
        have hoid : st.nextId = o.id := by rw [← ho]
        generalize hs1 : ({ st with
          nextId := st.nextId + 1, nextTls := st.nextTls + 1, tlsSize := align16 st.tlsSize + e.libcTls,
          news := st.news ++ [o],
          masters := st.masters ++ [⟨e.libcTls, align16 st.tlsSize + e.libcTls⟩] } : St) = st1
        have q1 : st1.objects = st.objects := by rw [← hs1]
        have q2 : st1.names = st.names := by rw [← hs1]
        have q3 : st1.news = st.news ++ [o] := by rw [← hs1]
        have q4 : st1.global = st.global := by rw [← hs1]
        obtain ⟨g, hst⟩ := enter_st .global dep st.nextId st1
        obtain ⟨t, ht⟩ := enter_global_prefix .global dep st.nextId st1
        refine ⟨nodup_enter_global (by rw [q4]; exact hn), ⟨t, by rw [ht, q4]⟩, by rw [hst]; exact q1,
          by rw [hst]; exact q2, ?_⟩
        intro _
        refine ⟨[o], by rw [hst]; exact q3, ?_⟩
        intro x
        rw [mem_enter_global, q4, hoid]
        simp only [List.mem_singleton, exists_eq_left]
        constructor
        · rintro (h | h)
          · exact .inl h
          · exact .inr h.symm
        · rintro (h | h)
          · exact .inl h
          · exact .inr h.symm
      · split at h
        · simp only [Option.some.injEq, Prod.mk.injEq] at h
          obtain ⟨rfl, rfl⟩ := h
          exact ⟨hn, ⟨[], by simp⟩, rfl, rfl, by simp⟩
        · rename_i f hf
          obtain ⟨c1, c2, c3, c4, c5, c6, c7, c8, c9, c10, c11, c12⟩ := create_spec dl f st
          revert h
          generalize hc : create dl f st = c
          rw [hc] at c1 c2 c3 c4 c5 c6 c7 c8 c9 c10 c11 c12
          obtain ⟨o, st1⟩ := c
          dsimp only at c1 c2 c3 c4 c5 c6 c7 c8 c9 c10 c11 c12 ⊢
          obtain ⟨g, hst⟩ := enter_st .global dep o.id st1
          obtain ⟨t, ht⟩ := enter_global_prefix .global dep o.id st1
          have hmem : ∀ x, x ∈ (enter .global dep o.id st1).2.global ↔ x ∈ st1.global ∨ x = o.id := fun x => mem_enter_global
          have hnd : (enter .global dep o.id st1).2.global.Nodup := nodup_enter_global (by rw [c12]; exact hn)
          revert hst ht hmem hnd
          generalize enter .global dep o.id st1 = en
          obtain ⟨dep1, st2⟩ := en
          intro hst ht hmem hnd h
          dsimp only at hst ht hmem hnd h
          have o2 : st2.objects = st.objects := by rw [hst]; exact c7
          have n2 : st2.names = st.names := by rw [hst]; exact c8
          have w2 : st2.news = st.news := by rw [hst]; exact c11
          have loop := fun r st3 => loadDeps_global ih f.needed [] [] st2 r st3 hnd (by rw [n2]; exact hnm)
            (by intro x hx; rw [w2] at hx; rw [hmem, c12]; exact .inl (hw x hx))
          split at h
          · exact absurd h (by simp)
          · rename_i x st3 h3
            simp only [Option.some.injEq, Prod.mk.injEq] at h
            obtain ⟨rfl, rfl⟩ := h
            obtain ⟨g1, ⟨t2, g2⟩, g3, g4, _⟩ := loop _ _ h3
            exact ⟨g1, ⟨t ++ t2, by rw [g2, ht, c12, List.append_assoc]⟩, g3.trans o2, g4.trans n2, by simp⟩
          · rename_i scope bound st3 h3
            simp only [Option.some.injEq, Prod.mk.injEq] at h
            obtain ⟨rfl, rfl⟩ := h
            obtain ⟨g1, ⟨t2, g2⟩, g3, g4, g5⟩ := loop _ _ h3
            obtain ⟨added, ga, gb⟩ := g5 rfl
            refine ⟨g1, ⟨t ++ t2, by show st3.global = _; rw [g2, ht, c12, List.append_assoc]⟩, g3.trans o2, g4.trans n2, ?_⟩
            intro _
            refine ⟨added ++ [{ o with scope, bound }], by show st3.news ++ _ = _; rw [ga, w2, List.append_assoc], ?_⟩
            intro x
            show x ∈ st3.global ↔ _
            rw [gb, hmem, c12]
            simp only [List.mem_append, List.mem_singleton]
            constructor
            · rintro ((h | h) | ⟨y, h, rfl⟩)
              · exact .inl h
              · exact .inr ⟨_, .inr rfl, h.symm⟩
              · exact .inr ⟨y, .inl h, rfl⟩
            · rintro (h | ⟨y, h | h, rfl⟩)
              · exact .inl (.inl h)
              · exact .inr ⟨y, h, rfl⟩
              · rw [h]; exact .inl (.inr rfl)

theorem first_global (e : Env) (dl : Bool) (depth : Nat) (n : Name) (st : St) (r' : Obj × Option (List Nat))
    (st' : St) (hnm : ∀ n, st.names n = none) (hw : st.news = []) (hgl : st.global = [])
    (h : loadRec e dl .global depth n none st = some (.ok r', st')) : ∃ t, st'.global = st.nextId :: t ∧ r'.1.id = st.nextId := by
  have hk : known st n = none := by unfold known; rw [hnm, hw]; rfl
  cases depth with
  | zero => exact absurd h (by simp [loadRec])
  | succ depth =>
    unfold loadRec at h
    rw [hk] at h
    dsimp only at h
    split at h
    · simp only [Option.some.injEq, Prod.mk.injEq, loadLibc, Except.ok.injEq] at h
      obtain ⟨rfl, rfl⟩ := h
      refine ⟨[], ?_, rfl⟩
      show addTo st.global st.nextId = _
      rw [hgl]; rfl
    · split at h
      · simp only [Option.some.injEq, Prod.mk.injEq] at h; exact absurd h.1 (by simp)
      · rename_i f hf
        obtain ⟨c1, c2, c3, c4, c5, c6, c7, c8, c9, c10, c11, c12⟩ := create_spec dl f st
        have hen : (enter .global none (create dl f st).1.id (create dl f st).2).2.global = [st.nextId] := by
          show addTo (create dl f st).2.global (create dl f st).1.id = _
          rw [c12, c1, hgl]; rfl
        have loop := fun r st3 => loadDeps_global (loadRec_global e dl depth) f.needed [] []
          (enter .global none (create dl f st).1.id (create dl f st).2).2 r st3 (by rw [hen]; simp)
          (by show ∀ n, (create dl f st).2.names n = none; rw [c8]; exact hnm)
          (by
            intro o ho
            have : o ∈ (create dl f st).2.news := ho
            rw [c11, hw] at this
            exact absurd this (by simp))
        split at h
        · exact absurd h (by simp)
        · simp only [Option.some.injEq, Prod.mk.injEq] at h; exact absurd h.1 (by simp)
        · rename_i scope bound st3 h3
          simp only [Option.some.injEq, Prod.mk.injEq, Except.ok.injEq] at h
          obtain ⟨rfl, rfl⟩ := h
          obtain ⟨_, ⟨t, ht⟩, _⟩ := loop _ _ h3
          exact ⟨t, by show st3.global = _; rw [ht, hen]; rfl, c1⟩

/-- With `RTLD_LOCAL`, the global scope stays as it is. -/
theorem loadDeps_loc {rec : Name → Option (List Nat) → St → Res (Obj × Option (List Nat))}
    (hrec : ∀ n dep st r st', rec n dep st = some (r, st') → st'.global = st.global) :
    ∀ ds scope bound st r st', loadDeps rec ds scope bound st = some (r, st') → st'.global = st.global := by
  intro ds
  induction ds with
  | nil => intro _ _ _ _ _ h; simp only [loadDeps, Option.some.injEq, Prod.mk.injEq] at h; rw [h.2]
  | cons d ds ih =>
    intro scope bound st r st' h
    unfold loadDeps at h
    split at h
    · exact absurd h (by simp)
    · rename_i x st1 h1
      simp only [Option.some.injEq, Prod.mk.injEq] at h
      obtain ⟨rfl, rfl⟩ := h
      exact hrec _ _ _ _ _ h1
    · rename_i o dep1 st1 h1
      exact (ih _ _ _ _ _ h).trans (hrec _ _ _ _ _ h1)

theorem loadRec_loc (e : Env) (dl : Bool) (depth : Nat) : ∀ n dep st r st', loadRec e dl .loc depth n dep st = some (r, st') →
    st'.global = st.global := by
  induction depth with
  | zero => intro n dep st r st' h; exact absurd h (by simp [loadRec])
  | succ depth ih =>
    intro n dep st r st' h
    unfold loadRec at h
    split at h
    · simp only [Option.some.injEq, Prod.mk.injEq] at h
      rw [← h.2]; exact enter_loc_global _ _ _
    · split at h
      · simp only [Option.some.injEq, Prod.mk.injEq, loadLibc] at h
        rw [← h.2]; exact enter_loc_global _ _ _
      · split at h
        · simp only [Option.some.injEq, Prod.mk.injEq] at h; rw [h.2]
        · rename_i f hf
          have hc := (create_spec dl f st).2.2.2.2.2.2.2.2.2.2.2
          have loop := fun r st3 => loadDeps_loc ih f.needed [] []
            (enter .loc dep (create dl f st).1.id (create dl f st).2).2 r st3
          rw [enter_loc_global, hc] at loop
          dsimp only at h
          split at h
          · exact absurd h (by simp)
          · rename_i x st3 h3
            simp only [Option.some.injEq, Prod.mk.injEq] at h
            rw [← h.2]; exact loop _ _ h3
          · rename_i scope bound st3 h3
            simp only [Option.some.injEq, Prod.mk.injEq] at h
            have h4 := loop _ _ h3
            rw [← h.2]; exact h4

theorem loadObject_loc {e : Env} {depth : Nat} {n : Name} {dl : Bool} {st st' : St} {r : Except DlError Obj}
    (h : loadObject e depth n dl .loc st = some (r, st')) : st'.global = st.global := by
  unfold loadObject at h
  split at h
  · exact absurd h (by simp)
  · rename_i x st1 h1
    simp only [Option.some.injEq, Prod.mk.injEq] at h
    rw [← h.2]
    have h2 := loadRec_loc e dl depth _ _ _ _ _ h1
    exact h2
  · rename_i o dep st1 h1
    simp only [Option.some.injEq, Prod.mk.injEq] at h
    rw [← h.2]
    have h2 := loadRec_loc e dl depth _ _ _ _ _ h1
    have : ∀ (os : List Obj) (s : St), (initAll s os).global = s.global := by
      intro os
      induction os with
      | nil => intro s; rfl
      | cons o os ih => intro s; exact ih _
    rw [this]; exact h2

theorem unload_global (depth : Nat) : ∀ stack o st st', unload depth stack o st = some st' →
    Inv false stack st → st.objects o.id = some o → (∀ i ∈ st.global, ∀ y, st.objects i = some y → y.dlopened = false) →
    st'.global = st.global := by
  induction depth with
  | zero => intro stack o st st' h; exact absurd h (by simp [unload])
  | succ depth ih =>
    intro stack o st st' h hi ho hg
    unfold unload at h
    split at h
    · cases h; rfl
    · rename_i hd
      have hd : o.dlopened = true := by simpa using hd
      split at h
      · rename_i hs
        have hf : (removed st o).global = st.global := by
          simp only [removed]
          rw [List.filter_eq_self]
          intro i hig
          simp only [decide_eq_true_eq]
          rintro rfl
          have := hg _ hig _ ho
          exact absurd (hd.symm.trans this) (by simp)
        have h1 := hi.remove ho hd (strong_one ho hs)
        change (match unloadDeps (unload depth (o :: stack)) o.needed (removed st o) with
            | none => none
            | some st =>
              if strong { st with names := fun n => if n = o.name then none else st.names n } stack o.id = 0 then
                some { st with names := fun n => if n = o.name then none else st.names n,
                               log := if o.me then st.log else st.log ++ [Event.fini o.id] }
              else (none : Option St)) = _ at h
        have loop : ∀ ds a b, unloadDeps (unload depth (o :: stack)) ds a = some b → Inv false (o :: stack) a →
            (∀ i ∈ a.global, ∀ y, a.objects i = some y → y.dlopened = false) → b.global = a.global := by
          intro ds
          induction ds with
          | nil => intro a b hab _ _; simp only [unloadDeps, Option.some.injEq] at hab; rw [hab]
          | cons d ds ihd =>
            intro a b hab ia ga
            unfold unloadDeps at hab
            split at hab
            · rename_i q hq
              split at hab
              · exact absurd hab (by simp)
              · rename_i c hc
                cases hn : a.names d with
                | none => rw [hn] at hq; exact absurd hq (by simp)
                | some j =>
                  rw [hn] at hq
                  have hq' : a.objects j = some q := hq
                  have hq'' : a.objects q.id = some q := by rw [(ia.table j q hq').1]; exact hq'
                  obtain ⟨ic, lc⟩ := unload_inv depth _ q a c ia hq'' hc
                  have e1 := ih _ q a c hc ia hq'' ga
                  have e2 := ihd c b hab ic (by rw [e1]; intro i hi y hy; exact ga i hi y (lc.sub i y hy))
                  rw [e2, e1]
            · exact ihd a b hab ia ga
        split at h
        · exact absurd h (by simp)
        · rename_i st2 h2
          have e1 := loop _ _ _ h2 h1 (by
            rw [hf]
            intro i hi' y hy
            simp only [removed] at hy
            split at hy
            · exact absurd hy (by simp)
            · exact hg i hi' y hy)
          split at h
          · cases h; exact e1.trans hf
          · exact absurd h (by simp)
      · cases h; rfl

/-- The global scope of a program that opens everything with `RTLD_LOCAL`: the objects loaded with the program, each once, the
program first. They all stay loaded. -/
theorem C79_global {e : Env} {depth : Nat} {path : Name} {ops : List Op} {st : St} (h : Runs e depth path ops st)
    (hl : AllLocal ops) : ∃ st0, Runs e depth path [] st0 ∧ st.global = st0.global ∧ st.global.Nodup ∧
      (∃ t, st.global = 1 :: t) ∧ (∀ i, i ∈ st.global ↔ (st0.objects i).isSome) ∧
      ∀ i ∈ st.global, st.objects i = st0.objects i := by
  have main : ∃ st0, Runs e depth path [] st0 ∧ st.global = st0.global ∧ st.global.Nodup ∧
      (∃ t, st.global = 1 :: t) ∧ (∀ i, i ∈ st.global ↔ (st0.objects i).isSome) ∧
      ∀ i ∈ st.global, ∃ o, st.objects i = some o ∧ st0.objects i = some o ∧ o.dlopened = false := by
    induction h with
    | @start o st h1 =>
      unfold loadProgram loadObject at h1
      split at h1
      · exact absurd h1 (by simp)
      · simp only [Option.some.injEq, Prod.mk.injEq] at h1; exact absurd h1.1 (by simp)
      · rename_i o1 dep st1 h2
        simp only [Option.some.injEq, Prod.mk.injEq, Except.ok.injEq] at h1
        obtain ⟨rfl, rfl⟩ := h1
        obtain ⟨g1, _, g3, _, g5⟩ := loadRec_global e false depth _ _ _ _ _ (by simp) (by simp) (by simp) h2
        obtain ⟨added, ga, gb⟩ := g5 rfl
        obtain ⟨t, ht, _⟩ := first_global e false depth path _ (o1, dep) _ (by simp) rfl rfl h2
        have hg : Good false .global { ({} : St) with news := [], masters := [] } :=
          ⟨by simp, by simp, by simp, by simp, by simp, by simp, by simp, by simp⟩
        obtain ⟨g, _, _⟩ := loadRec_post e false .global depth _ _ _ _ _ hg h2
        obtain ⟨s1, _, _, _, _, s6, _⟩ := initAll_spec st1.news { st1 with news := [] } g.nodup
        have start : Runs e depth path [] (initAll { st1 with news := [] } st1.news) := by
          refine .start (o := o1) ?_
          unfold loadProgram loadObject
          rw [h2]
        have some_iff : ∀ i, i ∈ st1.global ↔ ((initAll { st1 with news := [] } st1.news).objects i).isSome := by
          intro i
          rw [gb, s1]
          have hn0 : st1.news = added := by rw [ga]; rfl
          rw [hn0]
          dsimp only
          cases hf : added.find? (·.id = i) with
          | none =>
            rw [List.find?_eq_none] at hf
            have : st1.objects i = none := by rw [g3]
            rw [this]
            constructor
            · rintro (h | ⟨y, hy, rfl⟩)
              · exact absurd h (by simp)
              · exact absurd (hf y hy) (by simp)
            · simp
          | some z =>
            simp only [Option.isSome_some, iff_true]
            exact .inr ⟨z, List.mem_of_find?_eq_some hf, by simpa using List.find?_some hf⟩
        refine ⟨_, start, rfl, ?_⟩
        rw [s6]
        refine ⟨g1, ⟨t, ht⟩, some_iff, ?_⟩
        intro i hi
        have hi' := (some_iff i).1 hi
        obtain ⟨z, hz⟩ := Option.isSome_iff_exists.1 hi'
        refine ⟨z, hz, hz, ?_⟩
        cases hzd : z.dlopened
        · rfl
        · rw [s1] at hz
          dsimp only at hz
          split at hz
          · rename_i w hw
            cases hz
            exact absurd (g.fresh z (List.mem_of_find?_eq_some hw) hzd) (by simp)
          · rw [g3] at hz; exact absurd hz (by simp)
    | @dlopen ops st name k now noload r st' hr h1 ih =>
      have hl' : AllLocal ops := fun n k a b hm => hl n k a b (List.mem_append_left _ hm)
      have hk : k = .loc := hl _ _ _ _ (List.mem_append_right _ (List.mem_singleton_self _))
      subst hk
      obtain ⟨st0, j1, j2, i1, i2, j3, i3⟩ := ih hl'
      have hinv := runs_inv hr false (by simp)
      obtain ⟨_, hkeep, _⟩ := dlopen_inv hinv (by simp) h1
      have hgl : st'.global = st.global := by
        unfold dlopen at h1
        split at h1
        · exact absurd h1 (by simp)
        · split at h1
          · split at h1 <;> (simp only [Option.some.injEq, Prod.mk.injEq] at h1; rw [← h1.2])
          · split at h1
            · split at h1
              · exact absurd h1 (by simp)
              · simp only [Option.some.injEq, Prod.mk.injEq] at h1; rw [← h1.2]; rfl
            · split at h1
              · simp only [Option.some.injEq, Prod.mk.injEq] at h1; rw [← h1.2]
              · split at h1
                · exact absurd h1 (by simp)
                · rename_i h2
                  simp only [Option.some.injEq, Prod.mk.injEq] at h1
                  rw [← h1.2]; exact loadObject_loc h2
                · rename_i h2
                  simp only [Option.some.injEq, Prod.mk.injEq] at h1
                  have h3 := loadObject_loc h2
                  rw [← h1.2]; exact h3
      rw [hgl]
      refine ⟨st0, j1, j2, i1, i2, j3, ?_⟩
      intro i hi
      obtain ⟨o, ho, ho0, hd⟩ := i3 i hi
      exact ⟨o, hkeep i o ho, ho0, hd⟩
    | @dlclose ops st id st' hr hm h1 ih =>
      have hl' : AllLocal ops := fun n k a b hm => hl n k a b (List.mem_append_left _ hm)
      obtain ⟨st0, j1, j2, i1, i2, j3, i3⟩ := ih hl'
      have hinv := runs_inv hr false (by simp)
      have hgl : st'.global = st.global := by
        unfold dlclose at h1
        split at h1
        · rename_i o ho
          have h0 : Inv false [] { st with handles := st.handles.erase id } :=
            ⟨hinv.table, hinv.names, fun j hj => hinv.handles j (List.mem_of_mem_erase hj), hinv.me, hinv.held, hinv.nodup,
              hinv.bound, hinv.scope, hinv.once, hinv.done, hinv.fresh, hinv.order⟩
          have h2 := unload_global depth [] o _ _ h1 h0 (by rw [(hinv.table _ _ ho).1]; exact ho)
            (by
              intro i hi y hy
              obtain ⟨o, ho, _, hd⟩ := i3 i hi
              have : st.objects i = some y := hy
              rw [ho] at this; cases this; exact hd)
          exact h2
        · exact absurd h1 (by simp)
      rw [hgl]
      refine ⟨st0, j1, j2, i1, i2, j3, ?_⟩
      intro i hi
      obtain ⟨o, ho, ho0, hd⟩ := i3 i hi
      exact ⟨o, C81_program hr id h1 i o ho hd, ho0, hd⟩
  obtain ⟨st0, j1, j2, j3, j4, j5, j6⟩ := main
  refine ⟨st0, j1, j2, j3, j4, j5, ?_⟩
  intro i hi
  obtain ⟨o, ho, ho0, _⟩ := j6 i hi
  rw [ho, ho0]

theorem mem_eraseDups {l : List Nat} {x : Nat} : x ∈ l.eraseDups ↔ x ∈ l := by
  generalize hn : l.length = n
  induction n using Nat.strongRecOn generalizing l with
  | _ n ih =>
    cases l with
    | nil => simp
    | cons a l =>
      rw [List.eraseDups_cons, List.mem_cons, List.mem_cons]
      have hlt : (l.filter fun b => !b == a).length < n := by
        have := List.length_filter_le (fun b => !b == a) l
        simp at hn; omega
      rw [ih _ hlt rfl, List.mem_filter]
      by_cases hx : x = a <;> simp [hx]

theorem dedup_addTo {l t : List Nat} {i : Nat} (h : t = l.eraseDups) : addTo t i = (l ++ [i]).eraseDups := by
  subst h
  rw [List.eraseDups_append]
  unfold addTo
  split
  · rename_i hi
    rw [mem_eraseDups] at hi
    have : List.removeAll [i] l = [] := by simp [List.removeAll, hi]
    rw [this]; simp
  · rename_i hi
    rw [mem_eraseDups] at hi
    have : List.removeAll [i] l = [i] := by simp [List.removeAll, hi]
    rw [this]; simp [List.eraseDups_cons]

/-- The objects of the library `o` found through its own list of libraries. -/
def ScopeOk (o : Obj) : Prop := o.dlopened = true → o.scope = o.bound.eraseDups

theorem loadDeps_scope {rec : Name → Option (List Nat) → St → Res (Obj × Option (List Nat))}
    (hrec : ∀ n dep st r st', (∀ o ∈ st.news, ScopeOk o) → rec n dep st = some (r, st') →
      (∀ o ∈ st'.news, ScopeOk o) ∧ st'.objects = st.objects ∧
        ∀ o dep', r = .ok (o, dep') → dep' = dep.map fun l => addTo l o.id) :
    ∀ ds scope bound st r st', (∀ o ∈ st.news, ScopeOk o) → scope = bound.eraseDups →
      loadDeps rec ds scope bound st = some (r, st') → (∀ o ∈ st'.news, ScopeOk o) ∧ st'.objects = st.objects ∧
        ∀ s b, r = .ok (s, b) → s = b.eraseDups := by
  intro ds
  induction ds with
  | nil =>
    intro scope bound st r st' hn hd h
    simp only [loadDeps, Option.some.injEq, Prod.mk.injEq] at h
    obtain ⟨rfl, rfl⟩ := h
    refine ⟨hn, rfl, ?_⟩
    intro s b h; cases h; exact hd
  | cons d ds ih =>
    intro scope bound st r st' hn hd h
    unfold loadDeps at h
    split at h
    · exact absurd h (by simp)
    · rename_i x st1 h1
      simp only [Option.some.injEq, Prod.mk.injEq] at h
      obtain ⟨rfl, rfl⟩ := h
      obtain ⟨g1, g2, _⟩ := hrec _ _ _ _ _ hn h1
      exact ⟨g1, g2, by simp⟩
    · rename_i o dep1 st1 h1
      obtain ⟨g1, g2, g3⟩ := hrec _ _ _ _ _ hn h1
      have h3 := g3 _ _ rfl
      simp only [Option.map_some] at h3
      subst h3
      obtain ⟨i1, i2, i3⟩ := ih _ _ _ _ _ g1 (dedup_addTo hd) h
      exact ⟨i1, i2.trans g2, i3⟩

theorem loadRec_scope (e : Env) (dl : Bool) (depth : Nat) : ∀ n dep st r st', (∀ o ∈ st.news, ScopeOk o) →
    loadRec e dl .loc depth n dep st = some (r, st') → (∀ o ∈ st'.news, ScopeOk o) ∧ st'.objects = st.objects ∧
      ∀ o dep', r = .ok (o, dep') → dep' = dep.map fun l => addTo l o.id := by
  induction depth with
  | zero => intro n dep st r st' _ h; exact absurd h (by simp [loadRec])
  | succ depth ih =>
    intro n dep st r st' hn h
    have hdep : ∀ (i : Nat) (s : St), (enter .loc dep i s).1 = dep.map fun l => addTo l i := by
      intro i s; cases dep <;> rfl
    have hst : ∀ (i : Nat) (s : St), (enter .loc dep i s).2 = s := by
      intro i s; cases dep <;> rfl
    unfold loadRec at h
    split at h
    · simp only [Option.some.injEq, Prod.mk.injEq] at h
      obtain ⟨rfl, rfl⟩ := h
      rw [hst]
      refine ⟨hn, rfl, ?_⟩
      intro o dep' h
      cases h
      exact hdep _ _
    · split at h
      · simp only [Option.some.injEq, Prod.mk.injEq, loadLibc] at h
        obtain ⟨rfl, rfl⟩ := h
        rw [hst]
        refine ⟨?_, rfl, ?_⟩
        · intro o ho
          rcases List.mem_append.1 ho with ho | ho
          · exact hn o ho
          · rw [List.mem_singleton.1 ho]; intro hf; exact absurd hf (by simp)
        · intro o dep' h
          cases h
          exact hdep _ _
      · split at h
        · simp only [Option.some.injEq, Prod.mk.injEq] at h
          obtain ⟨rfl, rfl⟩ := h
          exact ⟨hn, rfl, by simp⟩
        · rename_i f hf
          obtain ⟨c1, c2, c3, c4, c5, c6, c7, c8, c9, c10, c11, c12⟩ := create_spec dl f st
          have loop := fun r st3 => loadDeps_scope ih f.needed [] []
            (enter .loc dep (create dl f st).1.id (create dl f st).2).2 r st3
            (by rw [hst, c11]; exact hn) (by simp)
          rw [hst, c7] at loop
          dsimp only at h
          rw [hst] at h
          split at h
          · exact absurd h (by simp)
          · rename_i x st3 h3
            simp only [Option.some.injEq, Prod.mk.injEq] at h
            obtain ⟨rfl, rfl⟩ := h
            obtain ⟨g1, g2, _⟩ := loop _ _ h3
            exact ⟨g1, g2, by simp⟩
          · rename_i scope bound st3 h3
            simp only [Option.some.injEq, Prod.mk.injEq] at h
            obtain ⟨rfl, rfl⟩ := h
            obtain ⟨g1, g2, g3⟩ := loop _ _ h3
            refine ⟨?_, g2, ?_⟩
            · intro o ho
              rcases List.mem_append.1 ho with ho | ho
              · exact g1 o ho
              · rw [List.mem_singleton.1 ho]
                exact fun _ => g3 _ _ rfl
            · intro o dep' h
              cases h
              exact hdep _ _

theorem scope_ok {e : Env} {depth : Nat} {path : Name} {ops : List Op} {st : St} (h : Runs e depth path ops st)
    (hl : AllLocal ops) : ∀ i o, st.objects i = some o → ScopeOk o := by
  induction h with
  | @start o st h1 =>
    intro i o ho hd
    exfalso
    obtain ⟨st0, _, _, _, _, _⟩ := C79_global (.start h1) (ops := []) (by intro _ _ _ _ h; exact absurd h (by simp))
    unfold loadProgram loadObject at h1
    split at h1
    · exact absurd h1 (by simp)
    · simp only [Option.some.injEq, Prod.mk.injEq] at h1; exact absurd h1.1 (by simp)
    · rename_i o1 dep st1 h2
      simp only [Option.some.injEq, Prod.mk.injEq, Except.ok.injEq] at h1
      obtain ⟨rfl, rfl⟩ := h1
      have hg : Good false .global { ({} : St) with news := [], masters := [] } :=
        ⟨by simp, by simp, by simp, by simp, by simp, by simp, by simp, by simp⟩
      obtain ⟨_, _, g3, _⟩ := loadRec_global e false depth _ _ _ _ _ (by simp) (by simp) (by simp) h2
      obtain ⟨g, _, _⟩ := loadRec_post e false .global depth _ _ _ _ _ hg h2
      obtain ⟨s1, _⟩ := initAll_spec st1.news { st1 with news := [] } g.nodup
      rw [s1] at ho
      dsimp only at ho
      split at ho
      · rename_i w hw
        cases ho
        exact absurd (g.fresh o (List.mem_of_find?_eq_some hw) hd) (by simp)
      · rw [g3] at ho; exact absurd ho (by simp)
  | @dlopen ops st name k now noload r st' hr h1 ih =>
    have hl' : AllLocal ops := fun n k a b hm => hl n k a b (List.mem_append_left _ hm)
    have hk : k = .loc := hl _ _ _ _ (List.mem_append_right _ (List.mem_singleton_self _))
    subst hk
    have ih := ih hl'
    have load : ∀ n r s, loadObject e depth n true .loc st = some (r, s) → ∀ i o, s.objects i = some o → ScopeOk o := by
      intro n r s h
      unfold loadObject at h
      split at h
      · exact absurd h (by simp)
      · rename_i x st1 h2
        simp only [Option.some.injEq, Prod.mk.injEq] at h
        obtain ⟨_, g2, _⟩ := loadRec_scope e true depth _ _ _ _ _ (by simp) h2
        rw [← h.2]
        intro i o ho
        have ho' : st1.objects i = some o := ho
        rw [g2] at ho'
        exact ih i o ho'
      · rename_i o1 dep st1 h2
        simp only [Option.some.injEq, Prod.mk.injEq] at h
        obtain ⟨g1, g2, _⟩ := loadRec_scope e true depth _ _ _ _ _ (by simp) h2
        rw [← h.2]
        have reg : ∀ (os : List Obj) (s : St), (∀ o ∈ os, ScopeOk o) → (∀ i o, s.objects i = some o → ScopeOk o) →
            ∀ i o, (initAll s os).objects i = some o → ScopeOk o := by
          intro os
          induction os with
          | nil => intro s _ hs; exact hs
          | cons p os ihp =>
            intro s hp hs
            rw [initAll_cons]
            refine ihp _ (fun o ho => hp o (List.mem_cons_of_mem _ ho)) ?_
            intro i o ho
            simp only [register] at ho
            split at ho
            · cases ho; exact hp _ List.mem_cons_self
            · exact hs i o ho
        exact reg _ _ g1 (by intro i o ho; have ho' : st1.objects i = some o := ho; rw [g2] at ho'; exact ih i o ho')
    unfold dlopen at h1
    split at h1
    · exact absurd h1 (by simp)
    · split at h1
      · split at h1 <;> (simp only [Option.some.injEq, Prod.mk.injEq] at h1; rw [← h1.2]; exact ih)
      · split at h1
        · split at h1
          · exact absurd h1 (by simp)
          · simp only [Option.some.injEq, Prod.mk.injEq] at h1; rw [← h1.2]; exact ih
        · split at h1
          · simp only [Option.some.injEq, Prod.mk.injEq] at h1; rw [← h1.2]; exact ih
          · split at h1
            · exact absurd h1 (by simp)
            · rename_i h2
              simp only [Option.some.injEq, Prod.mk.injEq] at h1
              rw [← h1.2]; exact load _ _ _ h2
            · rename_i h2
              simp only [Option.some.injEq, Prod.mk.injEq] at h1
              have h3 := load _ _ _ h2
              rw [← h1.2]; exact h3
  | @dlclose ops st id st' hr hm h1 ih =>
    have hl' : AllLocal ops := fun n k a b hm => hl n k a b (List.mem_append_left _ hm)
    have hinv := runs_inv hr false (by simp)
    intro i o ho
    unfold dlclose at h1
    split at h1
    · rename_i p hp
      have h0 : Inv false [] { st with handles := st.handles.erase id } :=
        ⟨hinv.table, hinv.names, fun j hj => hinv.handles j (List.mem_of_mem_erase hj), hinv.me, hinv.held, hinv.nodup,
          hinv.bound, hinv.scope, hinv.once, hinv.done, hinv.fresh, hinv.order⟩
      obtain ⟨_, hsub⟩ := unload_inv depth [] p _ _ h0 (by rw [(hinv.table _ _ hp).1]; exact hp) h1
      exact ih hl' i o (hsub.sub i o ho)
    · exact absurd h1 (by simp)

/-- `dlsym(RTLD_DEFAULT, n)` finds the definition of the first object in the global scope that has one. Partial: not if there are
several weak definitions and no global one. -/
theorem C79_default_partial {e : Env} {depth : Nat} {path : Name} {ops : List Op} {st : St} (h : Runs e depth path ops st)
    (hl : AllLocal ops) (d : Defs) (n : Name) (hw : OneWeak d n st.global) :
    ∃ r, dlsym d st none n = some r ∧ Finds d n st.global r := by
  obtain ⟨st0, _, _, _, _, g1, g2⟩ := C79_global h hl
  refine ⟨_, searchGlobal_eq st.global none ?_, ?_⟩
  · intro i hi
    rw [g2 i hi]; exact (g1 i).1 hi
  · have := searchFrom_spec d n st.global [] none (by simp) (by simpa using hw) (by intro x hx; exact absurd hx (by simp))
    simpa using this

/-- `dlsym` of a library opened finds the definition of the library, or that of the first of the libraries it was linked with.
Partial: not those of further libraries, those these were linked with. -/
theorem C79_handle_partial {e : Env} {depth : Nat} {path : Name} {ops : List Op} {st : St} (h : Runs e depth path ops st)
    (hl : AllLocal ops) (d : Defs) (n : Name) (id : Nat) (o : Obj) (ho : st.objects id = some o) (hd : o.dlopened = true) :
    OneWeak d n (id :: o.bound.eraseDups) →
      ∃ r, dlsym d st (some id) n = some r ∧ Finds d n (id :: o.bound.eraseDups) r := by
  rw [← scope_ok h hl id o ho hd]
  intro hw
  have hid := ((runs_inv h false (by simp)).table id o ho).1
  refine ⟨searchFrom d n (id :: o.scope) none, ?_, ?_⟩
  · unfold dlsym localScope
    dsimp only
    rw [ho]
    dsimp only
    rw [hid]
  · have := searchFrom_spec d n (id :: o.scope) [] none (by simp) (by simpa using hw) (by intro x hx; exact absurd hx (by simp))
    simpa using this

/-- A reference in an object finds the definition in the global scope, and one of the object itself or of its own libraries only
if there is none. -/
theorem C79_reference_partial {e : Env} {depth : Nat} {path : Name} {ops : List Op} {st : St} (h : Runs e depth path ops st)
    (hl : AllLocal ops) (d : Defs) (n : Name) (o : Obj) (hw : OneWeak d n st.global) (hw' : OneWeak d n (o.id :: o.scope)) :
    ∃ r, resolve d st o n = some r ∧
      ((∃ x ∈ st.global, d x n ≠ none) ∧ Finds d n st.global r ∨
        (∀ x ∈ st.global, d x n = none) ∧ Finds d n (o.id :: o.scope) r) := by
  obtain ⟨st0, _, _, _, _, g1, g2⟩ := C79_global h hl
  have hs := searchGlobal_eq (d := d) (alive := fun i => (st.objects i).isSome || (st.news.any (·.id = i))) (n := n)
    st.global none (by intro i hi; rw [g2 i hi, (g1 i).1 hi]; rfl)
  have hf : Finds d n st.global (searchFrom d n st.global none) := by
    have := searchFrom_spec d n st.global [] none (by simp) (by simpa using hw) (by intro x hx; exact absurd hx (by simp))
    simpa using this
  unfold resolve
  rw [hs]
  cases hr : searchFrom d n st.global none with
  | some r =>
    rw [hr] at hf
    refine ⟨some r, rfl, .inl ⟨?_, hf⟩⟩
    obtain ⟨b, a, hba, hc⟩ := hf
    refine ⟨r.1, by rw [hba]; simp, ?_⟩
    rcases hc with hc | hc <;> simp [hc.1]
  | none =>
    rw [hr] at hf
    refine ⟨_, rfl, .inr ⟨hf, ?_⟩⟩
    have := searchFrom_spec d n (o.id :: o.scope) [] none (by simp) (by simpa using hw')
      (by intro x hx; exact absurd hx (by simp))
    simpa [localScope] using this

end Verif.Ldso
