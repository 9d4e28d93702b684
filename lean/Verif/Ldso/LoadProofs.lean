import Verif.Ldso.LinkModel
/-!
# What loading does to the state (proofs)
-/

namespace Verif.Ldso

/-- An object in the table or among the new ones. -/
def At (st : St) (i : Nat) (o : Obj) : Prop := st.objects i = some o ∨ (o ∈ st.news ∧ o.id = i)

/-- What holds of the state while objects are being loaded. -/
structure Good (dl : Bool) (k : Kind) (st : St) : Prop where
  table : ∀ i o, st.objects i = some o → o.id = i ∧ i < st.nextId
  ids : ∀ o ∈ st.news, o.id < st.nextId ∧ st.objects o.id = none
  nodup : (st.news.map (·.id)).Nodup
  bound : ∀ o ∈ st.news, ∀ x ∈ o.bound, ∃ y, At st x y ∧ (o.dlopened = false → y.dlopened = false)
  scope : k = .loc → ∀ o ∈ st.news, ∀ x ∈ o.bound, x ∈ o.scope
  fresh : ∀ o ∈ st.news, o.dlopened = true → dl = true
  first : dl = false → ∀ i o, st.objects i = some o → o.dlopened = false
  me : ∀ o ∈ st.news, o.me = true → o.dlopened = false

/-- What loading leaves alone. -/
structure Grows (st st' : St) : Prop where
  objects : st'.objects = st.objects
  names : st'.names = st.names
  handles : st'.handles = st.handles
  log : st'.log = st.log
  next : st.nextId ≤ st'.nextId
  news : ∃ added, st'.news = st.news ++ added ∧ ∀ o ∈ added, st.nextId ≤ o.id ∧ o.id < st'.nextId

theorem Grows.refl (st : St) : Grows st st :=
  ⟨rfl, rfl, rfl, rfl, Nat.le_refl _, [], by simp, by simp⟩

theorem Grows.trans {a b c : St} (h : Grows a b) (g : Grows b c) : Grows a c := by
  obtain ⟨x, hx, hx'⟩ := h.news
  obtain ⟨y, hy, hy'⟩ := g.news
  have h1 := h.next
  have h2 := g.next
  refine ⟨g.objects.trans h.objects, g.names.trans h.names, g.handles.trans h.handles, g.log.trans h.log,
    Nat.le_trans h1 h2, x ++ y, by rw [hy, hx, List.append_assoc], ?_⟩
  intro o ho
  rcases List.mem_append.1 ho with ho | ho
  · have := hx' o ho; omega
  · have := hy' o ho; omega

theorem Grows.at {st st' : St} (h : Grows st st') {i : Nat} {o : Obj} (ha : At st i o) : At st' i o := by
  rcases ha with ha | ⟨ha, hi⟩
  · exact .inl (by rw [h.objects]; exact ha)
  · obtain ⟨x, hx, _⟩ := h.news
    exact .inr ⟨by rw [hx]; exact List.mem_append_left _ ha, hi⟩

theorem mem_addTo {s : List Nat} {i x : Nat} : x ∈ addTo s i ↔ x ∈ s ∨ x = i := by
  unfold addTo
  split
  · constructor
    · exact .inl
    · rintro (h | rfl) <;> assumption
  · simp

theorem enter_st (k : Kind) (dep : Option (List Nat)) (i : Nat) (st : St) :
    ∃ g, (enter k dep i st).2 = { st with global := g } := by
  unfold enter
  split <;> exact ⟨_, rfl⟩

theorem enter_dep {k : Kind} {s : List Nat} {i : Nat} {st : St} :
    ∃ s', (enter k (some s) i st).1 = some s' ∧ (∀ x ∈ s, x ∈ s') ∧ (k = .loc → i ∈ s') := by
  cases k
  · exact ⟨s, rfl, fun _ h => h, by simp⟩
  · exact ⟨addTo s i, rfl, fun _ h => mem_addTo.2 (.inl h), fun _ => mem_addTo.2 (.inr rfl)⟩

theorem Good.global {dl : Bool} {k : Kind} {st : St} (h : Good dl k st) (g : List Nat) :
    Good dl k { st with global := g } :=
  ⟨h.table, h.ids, h.nodup, h.bound, h.scope, h.fresh, h.first, h.me⟩

theorem Grows.global {st st' : St} (h : Grows st st') (g : List Nat) : Grows st { st' with global := g } :=
  ⟨h.objects, h.names, h.handles, h.log, h.next, h.news⟩

/-- A new object goes to the end of the list. -/
theorem Good.push {dl : Bool} {k : Kind} {st : St} (h : Good dl k st) (o : Obj) (hid : o.id < st.nextId)
    (hobj : st.objects o.id = none) (hnew : ∀ x ∈ st.news, x.id ≠ o.id)
    (hb : ∀ x ∈ o.bound, ∃ y, At st x y ∧ (o.dlopened = false → y.dlopened = false))
    (hs : k = .loc → ∀ x ∈ o.bound, x ∈ o.scope) (hd : o.dlopened = true → dl = true) (hm : o.me = true → o.dlopened = false) :
    Good dl k { st with news := st.news ++ [o] } := by
  have mono : ∀ i y, At st i y → At { st with news := st.news ++ [o] } i y := by
    rintro i y (ha | ⟨ha, hi⟩)
    · exact .inl ha
    · exact .inr ⟨List.mem_append_left _ ha, hi⟩
  refine ⟨h.table, ?_, ?_, ?_, ?_, ?_, h.first, ?_⟩
  · intro x hx
    rcases List.mem_append.1 hx with hx | hx
    · exact h.ids x hx
    · rw [List.mem_singleton.1 hx]; exact ⟨hid, hobj⟩
  · simp only [List.map_append, List.map_cons, List.map_nil]
    rw [List.nodup_append]
    refine ⟨h.nodup, by simp, ?_⟩
    intro a ha b hb
    obtain ⟨x, hx, rfl⟩ := List.mem_map.1 ha
    rw [List.mem_singleton.1 hb]
    exact hnew x hx
  · intro x hx y hy
    rcases List.mem_append.1 hx with hx | hx
    · obtain ⟨z, hz, hz'⟩ := h.bound x hx y hy
      exact ⟨z, mono _ _ hz, hz'⟩
    · rw [List.mem_singleton.1 hx] at hy
      obtain ⟨z, hz, hz'⟩ := hb y hy
      rw [List.mem_singleton.1 hx]
      exact ⟨z, mono _ _ hz, hz'⟩
  · intro hk x hx
    rcases List.mem_append.1 hx with hx | hx
    · exact h.scope hk x hx
    · rw [List.mem_singleton.1 hx]; exact hs hk
  · intro x hx
    rcases List.mem_append.1 hx with hx | hx
    · exact h.fresh x hx
    · rw [List.mem_singleton.1 hx]; exact hd
  · intro x hx
    rcases List.mem_append.1 hx with hx | hx
    · exact h.me x hx
    · rw [List.mem_singleton.1 hx]; exact hm

/-- What is known of the outcome of loading an object. -/
def Post (dl : Bool) (k : Kind) (dep : Option (List Nat)) (st : St)
    (r : Except DlError (Obj × Option (List Nat))) (st' : St) : Prop :=
  Good dl k st' ∧ Grows st st' ∧
    ∀ o dep', r = .ok (o, dep') → At st' o.id o ∧ (dl = false → o.dlopened = false) ∧
      ∀ s, dep = some s → ∃ s', dep' = some s' ∧ (∀ x ∈ s, x ∈ s') ∧ (k = .loc → o.id ∈ s')

/-- The loop over the dependencies. -/
theorem loadDeps_post {dl : Bool} {k : Kind} {rec : Name → Option (List Nat) → St → Res (Obj × Option (List Nat))}
    (hrec : ∀ n dep st r st', Good dl k st → rec n dep st = some (r, st') → Post dl k dep st r st') :
    ∀ ds scope bound st r st', Good dl k st → loadDeps rec ds scope bound st = some (r, st') →
      (∀ x ∈ bound, ∃ y, At st x y ∧ (dl = false → y.dlopened = false)) →
      (k = .loc → ∀ x ∈ bound, x ∈ scope) →
      Good dl k st' ∧ Grows st st' ∧ ∀ s b, r = .ok (s, b) →
        (∀ x ∈ b, ∃ y, At st' x y ∧ (dl = false → y.dlopened = false)) ∧ (k = .loc → ∀ x ∈ b, x ∈ s) := by
  intro ds
  induction ds with
  | nil =>
    intro scope bound st r st' hg h hb hs
    simp only [loadDeps, Option.some.injEq, Prod.mk.injEq] at h
    obtain ⟨rfl, rfl⟩ := h
    refine ⟨hg, Grows.refl _, ?_⟩
    intro s b hr
    cases hr
    exact ⟨hb, hs⟩
  | cons d ds ih =>
    intro scope bound st r st' hg h hb hs
    unfold loadDeps at h
    split at h
    · exact absurd h (by simp)
    · rename_i x st1 h1
      simp only [Option.some.injEq, Prod.mk.injEq] at h
      obtain ⟨rfl, rfl⟩ := h
      obtain ⟨g, gr, _⟩ := hrec _ _ _ _ _ hg h1
      exact ⟨g, gr, by intro s b hr; cases hr⟩
    · rename_i o dep1 st1 h1
      obtain ⟨g, gr, hp⟩ := hrec _ _ _ _ _ hg h1
      obtain ⟨ho, hod, hsc⟩ := hp o dep1 rfl
      obtain ⟨s', rfl, hss, hmem⟩ := hsc scope rfl
      obtain ⟨g2, gr2, hp2⟩ := ih _ _ _ _ _ g h
        (by
          intro x hx
          rcases List.mem_append.1 hx with hx | hx
          · obtain ⟨y, hy, hy'⟩ := hb x hx
            exact ⟨y, gr.at hy, hy'⟩
          · rw [List.mem_singleton.1 hx]
            exact ⟨o, ho, hod⟩)
        (by
          intro hk x hx
          rcases List.mem_append.1 hx with hx | hx
          · exact hss _ (hs hk x hx)
          · rw [List.mem_singleton.1 hx]
            exact hmem hk)
      exact ⟨g2, gr.trans gr2, hp2⟩

theorem known_at {st : St} {n : Name} {o : Obj} (h : known st n = some o)
    (ht : ∀ i o, st.objects i = some o → o.id = i ∧ i < st.nextId) : At st o.id o := by
  unfold known at h
  split at h
  · rename_i i hi
    have := (ht i o h).1
    exact .inl (by rw [this]; exact h)
  · exact .inr ⟨List.mem_of_find?_eq_some h, rfl⟩

/-- The numbers of a created object. -/
theorem create_spec (dl : Bool) (f : File) (st : St) :
    (create dl f st).1.id = st.nextId ∧ (create dl f st).1.name = f.name ∧ (create dl f st).1.needed = f.needed ∧
    (create dl f st).1.dlopened = dl ∧ (create dl f st).1.me = false ∧
    (create dl f st).2.nextId = st.nextId + 1 ∧ (create dl f st).2.objects = st.objects ∧
    (create dl f st).2.names = st.names ∧ (create dl f st).2.handles = st.handles ∧
    (create dl f st).2.log = st.log ∧ (create dl f st).2.news = st.news ∧ (create dl f st).2.global = st.global := by
  unfold create
  split <;> simp

theorem Good.cast {dl : Bool} {k : Kind} {st st' : St} (h : Good dl k st) (ho : st'.objects = st.objects)
    (hn : st'.news = st.news) (hi : st.nextId ≤ st'.nextId) : Good dl k st' := by
  have hat : ∀ i o, At st i o → At st' i o := by
    intro i o; unfold At; rw [ho, hn]; exact id
  refine ⟨?_, ?_, by rw [hn]; exact h.nodup, ?_, by rw [hn]; exact h.scope, by rw [hn]; exact h.fresh,
    by rw [ho]; exact h.first, by rw [hn]; exact h.me⟩
  · rw [ho]; intro i o hx; have := h.table i o hx; exact ⟨this.1, by omega⟩
  · rw [ho, hn]; intro o hx; have := h.ids o hx; exact ⟨by omega, this.2⟩
  · rw [hn]; intro o hx x hb
    obtain ⟨y, hy, hy'⟩ := h.bound o hx x hb
    exact ⟨y, hat _ _ hy, hy'⟩

theorem loadRec_post (e : Env) (dl : Bool) (k : Kind) (depth : Nat) :
    ∀ n dep st r st', Good dl k st → loadRec e dl k depth n dep st = some (r, st') → Post dl k dep st r st' := by
  induction depth with
  | zero => intro n dep st r st' _ h; exact absurd h (by simp [loadRec])
  | succ depth ih =>
    intro n dep st r st' hg h
    unfold loadRec at h
    split at h
    · rename_i o ho
      simp only [Option.some.injEq, Prod.mk.injEq] at h
      obtain ⟨rfl, rfl⟩ := h
      obtain ⟨g, hst⟩ := enter_st k dep o.id st
      rw [hst]
      refine ⟨hg.global g, (Grows.refl st).global g, ?_⟩
      intro o' dep' hr
      cases hr
      have hat := known_at ho hg.table
      refine ⟨hat, ?_, ?_⟩
      · intro hdl
        rcases hat with hat | ⟨hat, _⟩
        · exact hg.first hdl _ _ hat
        · cases hb : o.dlopened
          · rfl
          · exact absurd (hg.fresh o hat hb) (by simp [hdl])
      · intro s hs
        subst hs
        exact enter_dep
    · split at h
      · simp only [Option.some.injEq, Prod.mk.injEq, loadLibc] at h
        obtain ⟨rfl, rfl⟩ := h
        have hn : st.objects st.nextId = none := by
          cases ho : st.objects st.nextId with
          | none => rfl
          | some o => have := (hg.table _ _ ho).2; omega
        generalize ho : ({ id := st.nextId, name := "libc.so.6", needed := [], dlopened := false, me := true,
                           tlsModule := st.nextTls, tlsOffset := align16 st.tlsSize + e.libcTls, scope := [],
                           bound := [] } : Obj) = o
        have hoid : o.id = st.nextId := by rw [← ho]
        generalize hs1 : ({ st with
          nextId := st.nextId + 1, nextTls := st.nextTls + 1, tlsSize := align16 st.tlsSize + e.libcTls,
          news := st.news ++ [o],
          masters := st.masters ++ [⟨e.libcTls, align16 st.tlsSize + e.libcTls⟩] } : St) = st1
        have h0 : Good dl k { st with nextId := st.nextId + 1, nextTls := st.nextTls + 1, tlsSize := align16 st.tlsSize + e.libcTls, masters := st.masters ++ [⟨e.libcTls, align16 st.tlsSize + e.libcTls⟩] } :=
          hg.cast rfl rfl (Nat.le_succ _)
        have h1 : Good dl k st1 := by
          rw [← hs1]
          refine h0.push o (by rw [hoid]; exact Nat.lt_succ_self _) (by rw [hoid]; exact hn) ?_ ?_ ?_ ?_ ?_
          · intro x hx; have := (hg.ids x hx).1; rw [hoid]; show x.id ≠ st.nextId; omega
          · rw [← ho]; intro x hx; exact absurd hx (by simp)
          · rw [← ho]; intro _ x hx; exact absurd hx (by simp)
          · rw [← ho]; intro hx; exact absurd hx (by simp)
          · rw [← ho]; intro _; rfl
        have gr : Grows st st1 := by
          rw [← hs1]
          refine ⟨rfl, rfl, rfl, rfl, Nat.le_succ _, [o], rfl, ?_⟩
          intro x hx
          rw [List.mem_singleton.1 hx, hoid]
          exact ⟨Nat.le_refl _, Nat.lt_succ_self _⟩
        obtain ⟨g, hst⟩ := enter_st k dep st.nextId st1
        rw [hst]
        refine ⟨h1.global g, gr.global g, ?_⟩
        intro o' dep' hr
        cases hr
        refine ⟨.inr ⟨?_, rfl⟩, ?_, ?_⟩
        · rw [← hs1]; exact List.mem_append_right _ (List.mem_singleton_self _)
        · intro _; rw [← ho]
        · intro s hs
          subst hs
          rw [hoid]
          exact enter_dep
      · split at h
        · simp only [Option.some.injEq, Prod.mk.injEq] at h
          obtain ⟨rfl, rfl⟩ := h
          exact ⟨hg, Grows.refl _, by intro o dep' hr; cases hr⟩
        · rename_i f hf
          obtain ⟨c1, c2, c3, c4, c5, c6, c7, c8, c9, c10, c11, c12⟩ := create_spec dl f st
          revert h
          generalize hc : create dl f st = c
          rw [hc] at c1 c2 c3 c4 c5 c6 c7 c8 c9 c10 c11 c12
          obtain ⟨o, st1⟩ := c
          dsimp only at c1 c2 c3 c4 c5 c6 c7 c8 c9 c10 c11 c12 ⊢
          obtain ⟨g, hst⟩ := enter_st k dep o.id st1
          have hdep : ∀ s, dep = some s → ∃ s', (enter k dep o.id st1).1 = some s' ∧ (∀ x ∈ s, x ∈ s') ∧
              (k = .loc → o.id ∈ s') := by
            intro s hs; subst hs; exact enter_dep
          revert hst hdep
          generalize enter k dep o.id st1 = en
          obtain ⟨dep1, st2⟩ := en
          intro hst hdep h
          dsimp only at hst hdep h
          have hg1 : Good dl k st1 := hg.cast c7 c11 (by omega)
          have hg2 : Good dl k st2 := by rw [hst]; exact hg1.global g
          have gr2 : Grows st st2 := by
            rw [hst]
            exact ⟨c7, c8, c9, c10, by show _ ≤ st1.nextId; omega, [], by simpa using c11, by simp⟩
          have hid2 : st2.nextId = st.nextId + 1 := by rw [hst]; exact c6
          have hob2 : st2.objects = st.objects := by rw [hst]; exact c7
          have hnw2 : st2.news = st.news := by rw [hst]; exact c11
          split at h
          · exact absurd h (by simp)
          · rename_i x st3 h3
            simp only [Option.some.injEq, Prod.mk.injEq] at h
            obtain ⟨rfl, rfl⟩ := h
            obtain ⟨g3, gr3, _⟩ := loadDeps_post ih _ _ _ _ _ _ hg2 h3 (by simp) (by simp)
            exact ⟨g3, gr2.trans gr3, by intro o dep' hr; cases hr⟩
          · rename_i scope bound st3 h3
            simp only [Option.some.injEq, Prod.mk.injEq] at h
            obtain ⟨rfl, rfl⟩ := h
            obtain ⟨g3, gr3, hp3⟩ := loadDeps_post ih _ _ _ _ _ _ hg2 h3 (by simp) (by simp)
            obtain ⟨hb, hs⟩ := hp3 scope bound rfl
            obtain ⟨added, ha, ha'⟩ := gr3.news
            have hn3 := gr3.next
            have hobj : st3.objects o.id = none := by
              rw [gr3.objects, hob2, c1]
              cases hx : st.objects st.nextId with
              | none => rfl
              | some y => have := (hg.table _ _ hx).2; omega
            refine ⟨g3.push { o with scope, bound } (by show o.id < st3.nextId; omega) hobj ?_ (by show ∀ x ∈ bound, ∃ y, At st3 x y ∧ (o.dlopened = false → _); rw [c4]; exact hb) hs
              (by intro hx; rw [← c4]; exact hx) (by intro hx; exact absurd (c5.symm.trans hx) (by simp)), ?_, ?_⟩
            · intro x hx
              rw [ha, hnw2] at hx
              show x.id ≠ o.id
              rcases List.mem_append.1 hx with hx | hx
              · have := (hg.ids x hx).1; omega
              · have := ha' x hx; omega
            · refine ⟨gr3.objects.trans hob2, gr3.names.trans gr2.names, gr3.handles.trans gr2.handles,
                gr3.log.trans gr2.log, by show _ ≤ st3.nextId; omega, added ++ [{ o with scope, bound }], ?_, ?_⟩
              · show st3.news ++ _ = _
                rw [ha, hnw2, List.append_assoc]
              · intro x hx
                show _ ∧ _ < st3.nextId
                rcases List.mem_append.1 hx with hx | hx
                · have := ha' x hx; omega
                · rw [List.mem_singleton.1 hx]
                  show _ ≤ o.id ∧ o.id < _
                  omega
            · intro o' dep' hr
              cases hr
              refine ⟨.inr ⟨List.mem_append_right _ (List.mem_singleton_self _), rfl⟩, ?_, hdep⟩
              intro hdl
              show o.dlopened = false
              rw [c4, hdl]

end Verif.Ldso
