import Verif.Ldso.CloseExamples
/-!
# C80: what is loaded, and in which order constructors run
-/

namespace Verif.Ldso

/-- Some file needs the library. -/
def Needed (e : Env) (n : Name) : Prop := ∃ m f, e.file m = some f ∧ n ∈ f.needed

/-- The libraries lead to files whose `DT_SONAME` is the name they are needed by; the object asked for may have another name than
the path it is asked for by, if nothing needs a library of that name; libc is needed by the name it has; and no library needs
itself by way of others. -/
structure Tidy (e : Env) (path : Name) : Prop where
  soname : ∀ n, Needed e n → ∀ f, e.file n = some f → f.name = n
  root : ∀ f, e.file path = some f → ¬ Needed e f.name
  libc : (∀ n f, e.file n = some f → f.name ≠ "libc.so.6") ∧ ¬ Needed e "libc.so"
  acyclic : ∃ rank : Name → Nat, ∀ n f, e.file n = some f → ∀ d ∈ f.needed, rank d < rank n

/-- Loaded before. -/
def Loaded (st : St) (n : Name) : Prop := ∃ i o, st.objects i = some o ∧ o.name = n

/-- What holds of the names while objects are being loaded. -/
structure Named (st : St) : Prop where
  names : ∀ n i, st.names n = some i → ∃ o, st.objects i = some o ∧ o.name = n
  nodup : (st.news.map (·.name)).Nodup
  fresh : ∀ o ∈ st.news, st.names o.name = none
  closed : ∀ pre o post, st.news = pre ++ o :: post → ∀ d ∈ o.needed, Loaded st d ∨ ∃ x ∈ pre, x.name = d

theorem known_name {st : St} (h : Named st) {n : Name} {o : Obj} (hk : known st n = some o) : o.name = n := by
  unfold known at hk
  split at hk
  · rename_i i hi
    obtain ⟨y, hy, hyn⟩ := h.names n i hi
    rw [hy] at hk; cases hk; exact hyn
  · simpa using List.find?_some hk

theorem known_none {st : St} (h : Named st) {n : Name} (hk : known st n = none) :
    st.names n = none ∧ ∀ o ∈ st.news, o.name ≠ n := by
  unfold known at hk
  split at hk
  · rename_i i hi
    obtain ⟨y, hy, _⟩ := h.names n i hi
    rw [hy] at hk; exact absurd hk (by simp)
  · rename_i hn
    rw [List.find?_eq_none] at hk
    exact ⟨hn, fun o ho hx => hk o ho (by simpa using hx)⟩

theorem known_where {st : St} {n : Name} {o : Obj} (h : Named st) (hk : known st n = some o) :
    Loaded st n ∨ ∃ x ∈ st.news, x.name = n := by
  unfold known at hk
  split at hk
  · rename_i i hi
    obtain ⟨y, hy, hyn⟩ := h.names n i hi
    exact .inl ⟨i, y, hy, hyn⟩
  · exact .inr ⟨o, List.mem_of_find?_eq_some hk, by simpa using List.find?_some hk⟩

theorem Named.cast {st st' : St} (h : Named st) (ho : st'.objects = st.objects) (hm : st'.names = st.names)
    (hn : st'.news = st.news) : Named st' := by
  refine ⟨by rw [ho, hm]; exact h.names, by rw [hn]; exact h.nodup, by rw [hn, hm]; exact h.fresh, ?_⟩
  unfold Loaded
  rw [ho, hn]
  exact h.closed

theorem append_snoc_eq {α : Type} {l pre post : List α} {a b : α} (h : l ++ [a] = pre ++ b :: post) :
    (post = [] ∧ pre = l ∧ a = b) ∨ ∃ q, post = q ++ [a] ∧ l = pre ++ b :: q := by
  rcases List.eq_nil_or_concat post with rfl | ⟨q, x, rfl⟩
  · obtain ⟨rfl, h2⟩ := List.append_inj' h rfl
    cases h2
    exact .inl ⟨rfl, rfl, rfl⟩
  · rw [List.concat_eq_append, ← List.cons_append, ← List.append_assoc] at h
    obtain ⟨h1, h2⟩ := List.append_inj' h rfl
    cases h2
    exact .inr ⟨q, List.concat_eq_append, h1⟩

theorem Named.push {st : St} (h : Named st) (o : Obj) (hname : st.names o.name = none) (hnew : ∀ x ∈ st.news, x.name ≠ o.name)
    (hneed : ∀ d ∈ o.needed, Loaded st d ∨ ∃ x ∈ st.news, x.name = d) :
    Named { st with news := st.news ++ [o] } := by
  refine ⟨h.names, ?_, ?_, ?_⟩
  · simp only [List.map_append, List.map_cons, List.map_nil]
    rw [List.nodup_append]
    refine ⟨h.nodup, by simp, ?_⟩
    intro a ha b hb
    obtain ⟨x, hx, rfl⟩ := List.mem_map.1 ha
    rw [List.mem_singleton.1 hb]
    exact hnew x hx
  · intro x hx
    rcases List.mem_append.1 hx with hx | hx
    · exact h.fresh x hx
    · rw [List.mem_singleton.1 hx]; exact hname
  · intro pre x post hp d hd
    rcases append_snoc_eq hp with ⟨_, rfl, rfl⟩ | ⟨q, _, hl⟩
    · exact hneed d hd
    · exact h.closed pre x q hl d hd

/-- What is known of the outcome of loading the object of a name. -/
def Outcome (e : Env) (rank : Name → Nat) (n : Name) (st : St)
    (r : Except DlError (Obj × Option (List Nat))) (st' : St) : Prop :=
  Named st' ∧ st'.objects = st.objects ∧ st'.names = st.names ∧ st'.log = st.log ∧
  ∃ added, st'.news = st.news ++ added ∧
    (∀ x ∈ added, x.name = "libc.so.6" ∨ (Needed e x.name ∧ rank x.name < rank n) ∨ ∃ f, e.file n = some f ∧ x.name = f.name) ∧
    ∀ o dep, r = .ok (o, dep) →
      (Needed e n → o.name = n ∧ (Loaded st' n ∨ ∃ x ∈ st'.news, x.name = n)) ∧
      (∀ x ∈ added, x.name = o.name ∨ ∃ y ∈ added, x.name ∈ y.needed) ∧
      (known st n = none → ∃ init, added = init ++ [o])

theorem loadDeps_outcome {e : Env} {rank : Name → Nat} {n : Name}
    {rec : Name → Option (List Nat) → St → Res (Obj × Option (List Nat))}
    (hrec : ∀ d dep st r st', Needed e d → Named st → rec d dep st = some (r, st') → Outcome e rank d st r st')
    (hs : ∀ d, Needed e d → ∀ f, e.file d = some f → f.name = d) :
    ∀ ds scope bound st r st', (∀ d ∈ ds, Needed e d ∧ rank d < rank n) → Named st →
      loadDeps rec ds scope bound st = some (r, st') →
      Named st' ∧ st'.objects = st.objects ∧ st'.names = st.names ∧ st'.log = st.log ∧
      ∃ added, st'.news = st.news ++ added ∧
        (∀ x ∈ added, x.name = "libc.so.6" ∨ (Needed e x.name ∧ rank x.name < rank n)) ∧
        ∀ s b, r = .ok (s, b) → (∀ d ∈ ds, Loaded st' d ∨ ∃ x ∈ st'.news, x.name = d) ∧
          (∀ x ∈ added, x.name ∈ ds ∨ ∃ y ∈ added, x.name ∈ y.needed) := by
  intro ds
  induction ds with
  | nil =>
    intro scope bound st r st' _ hn h
    simp only [loadDeps, Option.some.injEq, Prod.mk.injEq] at h
    obtain ⟨rfl, rfl⟩ := h
    exact ⟨hn, rfl, rfl, rfl, [], by simp, by simp, by simp⟩
  | cons d ds ih =>
    intro scope bound st r st' hd hn h
    have hdd := hd d List.mem_cons_self
    have addedOk : ∀ x : Obj, x.name = "libc.so.6" ∨ (Needed e x.name ∧ rank x.name < rank d) ∨
        (∃ f, e.file d = some f ∧ x.name = f.name) → x.name = "libc.so.6" ∨ (Needed e x.name ∧ rank x.name < rank n) := by
      rintro x (hx | ⟨hx, hr⟩ | ⟨f, hf, hx⟩)
      · exact .inl hx
      · exact .inr ⟨hx, Nat.lt_trans hr hdd.2⟩
      · rw [hs d hdd.1 f hf] at hx
        rw [hx]
        exact .inr hdd
    unfold loadDeps at h
    split at h
    · exact absurd h (by simp)
    · rename_i x st1 h1
      simp only [Option.some.injEq, Prod.mk.injEq] at h
      obtain ⟨rfl, rfl⟩ := h
      obtain ⟨g1, g2, g3, g4, added, ga, gb, _⟩ := hrec _ _ _ _ _ hdd.1 hn h1
      exact ⟨g1, g2, g3, g4, added, ga, fun x hx => addedOk x (gb x hx), by intro s b hr; cases hr⟩
    · rename_i o dep1 st1 h1
      obtain ⟨g1, g2, g3, g4, added, ga, gb, gc⟩ := hrec _ _ _ _ _ hdd.1 hn h1
      obtain ⟨gname, gby, _⟩ := gc o dep1 rfl
      obtain ⟨i1, i2, i3, i4, added2, ia, ib, ic⟩ := ih _ _ _ _ _ (fun d' h' => hd d' (List.mem_cons_of_mem _ h')) g1 h
      refine ⟨i1, i2.trans g2, i3.trans g3, i4.trans g4, added ++ added2, by rw [ia, ga, List.append_assoc], ?_, ?_⟩
      · intro x hx
        rcases List.mem_append.1 hx with hx | hx
        · exact addedOk x (gb x hx)
        · exact ib x hx
      · intro s b hr
        obtain ⟨j1, j2⟩ := ic s b hr
        refine ⟨?_, ?_⟩
        · intro d' hd'
          rcases List.mem_cons.1 hd' with rfl | hd'
          · rcases (gname hdd.1).2 with hx | ⟨x, hx, hxn⟩
            · refine .inl ?_
              unfold Loaded at hx ⊢
              rw [i2]; exact hx
            · exact .inr ⟨x, by rw [ia]; exact List.mem_append_left _ hx, hxn⟩
          · exact j1 d' hd'
        · intro x hx
          rcases List.mem_append.1 hx with hx | hx
          · rcases gby x hx with hy | ⟨y, hy, hy'⟩
            · refine .inl ?_
              rw [hy, (gname hdd.1).1]
              exact List.mem_cons_self
            · exact .inr ⟨y, List.mem_append_left _ hy, hy'⟩
          · rcases j2 x hx with hy | ⟨y, hy, hy'⟩
            · exact .inl (List.mem_cons_of_mem _ hy)
            · exact .inr ⟨y, List.mem_append_right _ hy, hy'⟩

theorem loadRec_outcome (e : Env) (path : Name) (ht : Tidy e path) (dl : Bool) (k : Kind) (rank : Name → Nat)
    (hrank : ∀ n f, e.file n = some f → ∀ d ∈ f.needed, rank d < rank n) (depth : Nat) :
    ∀ n dep st r st', (∀ f, e.file n = some f → known st n = none →
        st.names f.name = none ∧ (∀ x ∈ st.news, x.name ≠ f.name) ∧ ∀ d, Needed e d → rank d < rank n → d ≠ f.name) →
      n ≠ "libc.so" → Named st → loadRec e dl k depth n dep st = some (r, st') → Outcome e rank n st r st' := by
  induction depth with
  | zero => intro n dep st r st' _ _ _ h; exact absurd h (by simp [loadRec])
  | succ depth ih =>
    intro n dep st r st' hfresh hlibc hn h
    have ih' : ∀ d dep st r st', Needed e d → Named st → loadRec e dl k depth d dep st = some (r, st') →
        Outcome e rank d st r st' := by
      intro d dep st r st' hd hnm h
      refine ih d dep st r st' ?_ ?_ hnm h
      · intro f hf hk
        obtain ⟨a, b⟩ := known_none hnm hk
        have hfn := ht.soname d hd f hf
        rw [hfn]
        refine ⟨a, b, ?_⟩
        rintro d' _ hr rfl
        omega
      · rintro rfl; exact ht.libc.2 hd
    unfold loadRec at h
    split at h
    · rename_i o ho
      simp only [Option.some.injEq, Prod.mk.injEq] at h
      obtain ⟨rfl, rfl⟩ := h
      obtain ⟨g, hst⟩ := enter_st k dep o.id st
      rw [hst]
      refine ⟨hn.cast rfl rfl rfl, rfl, rfl, rfl, [], by simp, by simp, ?_⟩
      intro o' dep' hr
      cases hr
      refine ⟨fun _ => ⟨known_name hn ho, by have h := known_where hn ho; exact h⟩, by simp, ?_⟩
      intro hk; rw [ho] at hk; exact absurd hk (by simp)
    · rename_i hk
      split at h
      · rename_i hl
        have hl : n = "libc.so.6" := by
          rcases hl with hl | hl
          · exact hl
          · exact absurd hl hlibc
        simp only [Option.some.injEq, Prod.mk.injEq, loadLibc] at h
        obtain ⟨rfl, rfl⟩ := h
        generalize ho : ({ id := st.nextId, name := "libc.so.6", needed := [], dlopened := false, me := true,
                           tlsModule := st.nextTls, tlsOffset := align16 st.tlsSize + e.libcTls, scope := [],
                           bound := [] } : Obj) = o
        have hon : o.name = "libc.so.6" := by rw [← ho]
        have hod : o.needed = [] := by rw [← ho]
        generalize hs1 : ({ st with
          nextId := st.nextId + 1, nextTls := st.nextTls + 1, tlsSize := align16 st.tlsSize + e.libcTls,
          news := st.news ++ [o],
          masters := st.masters ++ [⟨e.libcTls, align16 st.tlsSize + e.libcTls⟩] } : St) = st1
        obtain ⟨a, b⟩ := known_none hn hk
        have h1 : Named { st with news := st.news ++ [o] } :=
          hn.push o (by rw [hon, ← hl]; exact a) (by rw [hon, ← hl]; exact b) (by rw [hod]; simp)
        obtain ⟨g, hst⟩ := enter_st k dep st.nextId st1
        rw [hst]
        have e1 : st1.objects = st.objects := by rw [← hs1]
        have e2 : st1.names = st.names := by rw [← hs1]
        have e3 : st1.news = st.news ++ [o] := by rw [← hs1]
        have e4 : st1.log = st.log := by rw [← hs1]
        refine ⟨h1.cast e1 e2 e3, e1, e2, e4, [o], e3, ?_, ?_⟩
        · intro x hx; rw [List.mem_singleton.1 hx]; exact .inl hon
        · intro o' dep' hr
          cases hr
          refine ⟨fun _ => ⟨hon.trans hl.symm, .inr ⟨o, ?_, hon.trans hl.symm⟩⟩, ?_, fun _ => ⟨[], rfl⟩⟩
          · show o ∈ st1.news
            rw [e3]; exact List.mem_append_right _ (List.mem_singleton_self _)
          · intro x hx; rw [List.mem_singleton.1 hx]; exact .inl rfl
      · split at h
        · simp only [Option.some.injEq, Prod.mk.injEq] at h
          obtain ⟨rfl, rfl⟩ := h
          exact ⟨hn, rfl, rfl, rfl, [], by simp, by simp, by intro o dep' hr; cases hr⟩
        · rename_i f hf
          obtain ⟨f1, f2, f3⟩ := hfresh f hf hk
          obtain ⟨c1, c2, c3, c4, c5, c6, c7, c8, c9, c10, c11, c12⟩ := create_spec dl f st
          revert h
          generalize hc : create dl f st = c
          rw [hc] at c1 c2 c3 c4 c5 c6 c7 c8 c9 c10 c11 c12
          obtain ⟨o, st1⟩ := c
          dsimp only at c1 c2 c3 c4 c5 c6 c7 c8 c9 c10 c11 c12 ⊢
          obtain ⟨g, hst⟩ := enter_st k dep o.id st1
          revert hst
          generalize enter k dep o.id st1 = en
          obtain ⟨dep1, st2⟩ := en
          intro hst h
          dsimp only at hst h
          have o2 : st2.objects = st.objects := by rw [hst]; exact c7
          have n2 : st2.names = st.names := by rw [hst]; exact c8
          have w2 : st2.news = st.news := by rw [hst]; exact c11
          have l2 : st2.log = st.log := by rw [hst]; exact c10
          have hn2 : Named st2 := hn.cast o2 n2 w2
          have hds : ∀ d ∈ f.needed, Needed e d ∧ rank d < rank n :=
            fun d hd => ⟨⟨n, f, hf, hd⟩, hrank n f hf d hd⟩
          split at h
          · exact absurd h (by simp)
          · rename_i x st3 h3
            simp only [Option.some.injEq, Prod.mk.injEq] at h
            obtain ⟨rfl, rfl⟩ := h
            obtain ⟨g1, g2, g3, g4, added, ga, gb, _⟩ := loadDeps_outcome ih' ht.soname _ _ _ _ _ _ hds hn2 h3
            refine ⟨g1, g2.trans o2, g3.trans n2, g4.trans l2, added, by rw [ga, w2], ?_, by intro o dep' hr; cases hr⟩
            intro x hx
            rcases gb x hx with hx | hx
            · exact .inl hx
            · exact .inr (.inl hx)
          · rename_i scope bound st3 h3
            simp only [Option.some.injEq, Prod.mk.injEq] at h
            obtain ⟨rfl, rfl⟩ := h
            obtain ⟨g1, g2, g3, g4, added, ga, gb, gc⟩ := loadDeps_outcome ih' ht.soname _ _ _ _ _ _ hds hn2 h3
            obtain ⟨j1, j2⟩ := gc scope bound rfl
            have hp : Named { st3 with news := st3.news ++ [{ o with scope, bound }] } := by
              refine g1.push _ ?_ ?_ ?_
              · show st3.names o.name = none
                rw [g3, n2, c2]; exact f1
              · intro x hx
                show x.name ≠ o.name
                rw [c2]
                rw [ga, w2] at hx
                rcases List.mem_append.1 hx with hx | hx
                · exact f2 x hx
                · rcases gb x hx with hx | ⟨hx, hr⟩
                  · rw [hx]; exact (ht.libc.1 n f hf).symm
                  · exact f3 _ hx hr
              · show ∀ d ∈ o.needed, _
                rw [c3]; exact j1
            refine ⟨hp, g2.trans o2, g3.trans n2, g4.trans l2, added ++ [{ o with scope, bound }], ?_, ?_, ?_⟩
            · show st3.news ++ _ = _
              rw [ga, w2, List.append_assoc]
            · intro x hx
              rcases List.mem_append.1 hx with hx | hx
              · rcases gb x hx with hx | hx
                · exact .inl hx
                · exact .inr (.inl hx)
              · rw [List.mem_singleton.1 hx]
                exact .inr (.inr ⟨f, hf, c2⟩)
            · intro o' dep' hr
              cases hr
              refine ⟨?_, ?_, fun _ => ⟨added, rfl⟩⟩
              · intro hne
                have : o.name = n := by rw [c2]; exact ht.soname n hne f hf
                exact ⟨this, .inr ⟨_, List.mem_append_right _ (List.mem_singleton_self _), this⟩⟩
              · intro x hx
                rcases List.mem_append.1 hx with hx | hx
                · rcases j2 x hx with hy | ⟨y, hy, hy'⟩
                  · exact .inr ⟨{ o with scope, bound }, List.mem_append_right _ (List.mem_singleton_self _),
                      by show x.name ∈ o.needed; rw [c3]; exact hy⟩
                  · exact .inr ⟨y, List.mem_append_left _ hy, hy'⟩
                · rw [List.mem_singleton.1 hx]; exact .inl rfl

/-- What an orderly load does, in terms of the constructors run: the new objects `os`, in the order of their constructors. -/
structure Orderly (st st' : St) (os : List Obj) (root : Obj) : Prop where
  /-- the constructors of the new objects run, each object's once -/
  log : st'.log = st.log ++ os.map fun o => Event.init o.id
  /-- the loaded objects are the old and the new -/
  objects : ∀ i o, st'.objects i = some o ↔ st.objects i = some o ∨ (o ∈ os ∧ o.id = i)
  /-- no library is loaded twice, and none that was loaded before -/
  once : (os.map (·.name)).Nodup ∧ ∀ o ∈ os, ¬ Loaded st o.name
  /-- what an object needs was loaded before, or has had its constructors run before -/
  order : ∀ pre o post, os = pre ++ o :: post → ∀ d ∈ o.needed, Loaded st d ∨ ∃ x ∈ pre, x.name = d
  /-- nothing is loaded that is not needed -/
  only : ∀ o ∈ os, o.name = root.name ∨ ∃ y ∈ os, o.name ∈ y.needed
  /-- the object asked for is the last -/
  last : ∃ init, os = init ++ [root]

theorem load_orderly {e : Env} {path : Name} (ht : Tidy e path) {depth : Nat} {dl : Bool} {k : Kind} {st st' : St} {o : Obj}
    (hi : Inv false [] st) (hd : dl = false → ∀ i o, st.objects i = some o → o.dlopened = false)
    (hreg : ∀ i o, st.objects i = some o → st.names o.name = some i)
    (hpath : path ≠ "libc.so") (hnew : st.names path = none)
    (hnew' : ∀ f, e.file path = some f → ¬ Loaded st f.name)
    (h : loadObject e depth path dl k st = some (.ok o, st')) : ∃ os, Orderly st st' os o := by
  obtain ⟨rank, hrank⟩ := ht.acyclic
  have hnm : Named { st with news := [], masters := [] } := by
    refine ⟨?_, by simp, by simp, by simp⟩
    intro n i hn
    rcases hi.names n i hn with hx | ⟨_, hx, _⟩
    · exact hx
    · exact absurd hx (by simp)
  have hg : Good dl k { st with news := [], masters := [] } :=
    ⟨hi.table, by simp, by simp, by simp, by simp, by simp, hd, by simp⟩
  have hk : known { st with news := [], masters := [] } path = none := by
    unfold known; dsimp only; rw [hnew]; rfl
  unfold loadObject at h
  split at h
  · exact absurd h (by simp)
  · simp only [Option.some.injEq, Prod.mk.injEq] at h; exact absurd h.1 (by simp)
  · rename_i o1 dep st1 h1
    simp only [Option.some.injEq, Prod.mk.injEq, Except.ok.injEq] at h
    obtain ⟨rfl, rfl⟩ := h
    obtain ⟨g1, g2, g3, g4, added, ga, gb, gc⟩ := loadRec_outcome e path ht dl k rank hrank depth _ _ _ _ _
      (by
        intro f hf _
        refine ⟨?_, by simp, ?_⟩
        · cases hx : st.names f.name with
          | none => rfl
          | some i =>
            rcases hi.names _ _ hx with ⟨y, hy, hyn⟩ | ⟨_, hx, _⟩
            · exact absurd ⟨i, y, hy, hyn⟩ (hnew' f hf)
            · exact absurd hx (by simp)
        · rintro d hdn _ rfl; exact ht.root f hf hdn) hpath hnm h1
    obtain ⟨g, gr, _⟩ := loadRec_post e dl k depth _ _ _ _ _ hg h1
    obtain ⟨_, gby, glast⟩ := gc o1 dep rfl
    have gl : st1.log = st.log := g4
    obtain ⟨s1, s2, _⟩ := initAll_spec st1.news { st1 with news := [] } g.nodup
    have hload : ∀ n, Loaded st1 n ↔ Loaded st n := by intro n; unfold Loaded; rw [g2]
    have ga' : st1.news = added := by rw [ga]; rfl
    refine ⟨st1.news, ?_, ?_, ⟨g1.nodup, ?_⟩, ?_, ?_, ?_⟩
    · rw [s2]; show st1.log ++ _ = _; rw [gl]
    · intro i y
      rw [s1]
      dsimp only
      constructor
      · intro hy
        split at hy
        · rename_i z hz
          cases hy
          exact .inr ⟨List.mem_of_find?_eq_some hz, by simpa using List.find?_some hz⟩
        · rw [g2] at hy; exact .inl hy
      · rintro (hy | ⟨hy, rfl⟩)
        · split
          · rename_i z hz
            have hz1 := List.mem_of_find?_eq_some hz
            have hz2 : z.id = i := by simpa using List.find?_some hz
            have := (g.ids z hz1).2
            rw [hz2, g2] at this
            exact absurd (this.symm.trans hy) (by simp)
          · rw [g2]; exact hy
        · cases hf : st1.news.find? (·.id = y.id) with
          | none =>
            rw [List.find?_eq_none] at hf
            exact absurd (hf y hy) (by simp)
          | some z =>
            have hz := List.mem_of_find?_eq_some hf
            have hzi : z.id = y.id := by simpa using List.find?_some hf
            have : z = y := by
              have hinj := List.pairwise_map.1 (show (st1.news.map (·.id)).Pairwise (· ≠ ·) from g.nodup)
              rcases List.mem_iff_getElem.1 hz with ⟨a, ha1, ha2⟩
              rcases List.mem_iff_getElem.1 hy with ⟨b, hb1, hb2⟩
              rcases Nat.lt_trichotomy a b with hab | hab | hab
              · exact absurd (by rw [ha2, hb2]; exact hzi) (List.pairwise_iff_getElem.1 hinj a b ha1 hb1 hab)
              · subst hab; exact ha2.symm.trans hb2
              · exact absurd (by rw [ha2, hb2]; exact hzi.symm) (List.pairwise_iff_getElem.1 hinj b a hb1 ha1 hab)
            rw [this]
    · rintro y hy ⟨i, z, hz, hzn⟩
      have := g1.fresh y hy
      rw [g3, ← hzn] at this
      rw [hreg i z hz] at this
      exact absurd this (by simp)
    · intro pre y post hp d hdd
      rcases g1.closed pre y post hp d hdd with hx | hx
      · exact .inl ((hload d).1 hx)
      · exact .inr hx
    · rw [ga']; exact gby
    · rw [ga']; exact glast hk

/-- Loading the program: every library it needs, by way of others or not, is loaded exactly once, and its constructors run after
those of all it needs itself; those of the program run last. -/
theorem C80_program_partial {e : Env} {path : Name} (ht : Tidy e path) (hpath : path ≠ "libc.so") {depth : Nat} {st : St} {o : Obj}
    (h : loadProgram e depth path {} = some (.ok o, st)) : ∃ os, Orderly {} st os o :=
  load_orderly ht (Inv.start false) (by simp) (by simp) hpath rfl (by rintro f _ ⟨i, y, hy, _⟩; exact absurd hy (by simp)) h

/-- Loading a library later: the same for what is not loaded yet. -/
theorem C80_dlopen_partial {e : Env} {prog path : Name} {depth : Nat} {ops : List Op} {st st' : St}
    (h : Runs e depth prog ops st) (ht : Tidy e path) (hpath : path ≠ "libc.so")
    (hreg : ∀ i o, st.objects i = some o → st.names o.name = some i) (hnew : st.names path = none)
    (hnew' : ∀ f, e.file path = some f → ¬ Loaded st f.name) {k : Kind} {now : Bool} {i : Nat}
    (h1 : dlopen e depth (some path) k now false st = some (.ok i, st')) :
    ∃ os root, root.id = i ∧ Orderly st st' os root ∧ i ∈ st'.handles := by
  unfold dlopen at h1
  rw [if_neg (by simp)] at h1
  dsimp only at h1
  rw [hnew] at h1
  dsimp only at h1
  rw [if_neg (by simp)] at h1
  split at h1
  · exact absurd h1 (by simp)
  · simp only [Option.some.injEq, Prod.mk.injEq] at h1; exact absurd h1.1 (by simp)
  · rename_i o st1 h2
    simp only [Option.some.injEq, Prod.mk.injEq, Except.ok.injEq] at h1
    obtain ⟨rfl, rfl⟩ := h1
    obtain ⟨os, ho⟩ := load_orderly ht (runs_inv h false (by simp)) (by simp) hreg hpath hnew hnew' h2
    exact ⟨os, o, rfl, ⟨ho.log, ho.objects, ho.once, ho.order, ho.only, ho.last⟩, List.mem_cons_self⟩

/-! ### Success -/

theorem loadDeps_ok {rec : Name → Option (List Nat) → St → Res (Obj × Option (List Nat))} :
    ∀ ds, (∀ d ∈ ds, ∀ s st, ∃ o dep st', rec d (some s) st = some (.ok (o, dep), st')) →
      ∀ scope bound st, ∃ s b st', loadDeps rec ds scope bound st = some (.ok (s, b), st') := by
  intro ds
  induction ds with
  | nil => intro _ scope bound st; exact ⟨scope, bound, st, rfl⟩
  | cons d ds ih =>
    intro h scope bound st
    obtain ⟨o, dep, st1, h1⟩ := h d List.mem_cons_self scope st
    obtain ⟨s, b, st2, h2⟩ := ih (fun d' hd' => h d' (List.mem_cons_of_mem _ hd')) (dep.getD scope) (bound ++ [o.id]) st1
    refine ⟨s, b, st2, ?_⟩
    unfold loadDeps
    rw [h1]
    exact h2

theorem loadRec_ok (e : Env) (dl : Bool) (k : Kind) (rank : Name → Nat)
    (hrank : ∀ n f, e.file n = some f → ∀ d ∈ f.needed, rank d < rank n)
    (hall : ∀ d, Needed e d → d = "libc.so.6" ∨ d = "libc.so" ∨ (e.file d).isSome) (depth : Nat) :
    ∀ n, (n = "libc.so.6" ∨ n = "libc.so" ∨ (e.file n).isSome) → rank n < depth → ∀ dep st,
      ∃ o dep' st', loadRec e dl k depth n dep st = some (.ok (o, dep'), st') := by
  induction depth with
  | zero => intro n _ h; exact absurd h (by omega)
  | succ depth ih =>
    intro n hn hd dep st
    unfold loadRec
    split
    · exact ⟨_, _, _, rfl⟩
    · split
      · exact ⟨_, _, _, rfl⟩
      · rename_i hl
        have hf : (e.file n).isSome := by
          rcases hn with h | h | h
          · exact absurd (.inl h) hl
          · exact absurd (.inr h) hl
          · exact h
        cases hff : e.file n with
        | none => rw [hff] at hf; exact absurd hf (by simp)
        | some f =>
          dsimp only
          obtain ⟨s, b, st', h1⟩ := loadDeps_ok (rec := loadRec e dl k depth) f.needed
            (fun d hd' s st => ih d (hall d ⟨n, f, hff, hd'⟩) (by have := hrank n f hff d hd'; omega) (some s) st)
            [] [] (enter k dep (create dl f st).1.id (create dl f st).2).2
          rw [h1]
          exact ⟨_, _, _, rfl⟩

/-- If no library needs itself, all that is needed can be found, and the stack is deep enough, loading the program succeeds. -/
theorem C80_success {e : Env} {path : Name} (rank : Name → Nat)
    (hrank : ∀ n f, e.file n = some f → ∀ d ∈ f.needed, rank d < rank n)
    (hall : ∀ d, Needed e d → d = "libc.so.6" ∨ d = "libc.so" ∨ (e.file d).isSome) (hpath : (e.file path).isSome)
    (depth : Nat) (hd : rank path < depth) : ∃ o st, loadProgram e depth path {} = some (.ok o, st) := by
  obtain ⟨o, dep, st, h⟩ := loadRec_ok e false .global rank hrank hall depth path (.inr (.inr hpath)) hd none
    { ({} : St) with news := [], masters := [] }
  exact ⟨o, _, by unfold loadProgram loadObject; rw [h]⟩

/-- Two libraries that need each other: however deep the stack, loading does not end. -/
theorem C80_cycle_violation : ∃ (e : Env) (path : Name), (∀ d, Needed e d → (e.file d).isSome) ∧ (e.file path).isSome ∧
    ∀ depth, loadProgram e depth path {} = none := by
  refine ⟨files [("main", ["liba.so"]), ("liba.so", ["libb.so"]), ("libb.so", ["liba.so"])], "main", ?_, by decide +kernel, ?_⟩
  · rintro d ⟨m, f, hf, hd⟩
    simp only [files, List.lookup] at hf
    split at hf
    · cases hf; rw [List.mem_singleton.1 hd]; decide +kernel
    · split at hf
      · cases hf; rw [List.mem_singleton.1 hd]; decide +kernel
      · split at hf
        · cases hf; rw [List.mem_singleton.1 hd]; decide +kernel
        · exact absurd hf (by simp)
  · generalize he : files [("main", ["liba.so"]), ("liba.so", ["libb.so"]), ("libb.so", ["liba.so"])] = e
    have fm : e.file "main" = some ⟨"main", ["liba.so"], none⟩ := by rw [← he]; decide +kernel
    have fa : e.file "liba.so" = some ⟨"liba.so", ["libb.so"], none⟩ := by rw [← he]; decide +kernel
    have fb : e.file "libb.so" = some ⟨"libb.so", ["liba.so"], none⟩ := by rw [← he]; decide +kernel
    have step : ∀ depth n d dep st, e.file n = some ⟨n, [d], none⟩ → n ≠ "libc.so.6" → n ≠ "libc.so" →
        st.names = (fun _ => none) → st.news = [] →
        (∀ dep st, st.names = (fun _ => none) → st.news = [] → loadRec e false .global depth d dep st = none) →
        loadRec e false .global (depth + 1) n dep st = none := by
      intro depth n d dep st hf h1 h2 hn hw hr
      have hk : known st n = none := by unfold known; rw [hn, hw]; rfl
      unfold loadRec
      rw [hk]
      dsimp only
      rw [if_neg (by simp [h1, h2]), hf]
      dsimp only
      obtain ⟨c1, c2, c3, c4, c5, c6, c7, c8, c9, c10, c11, c12⟩ := create_spec false ⟨n, [d], none⟩ st
      obtain ⟨g, hg⟩ := enter_st .global dep (create false ⟨n, [d], none⟩ st).1.id (create false ⟨n, [d], none⟩ st).2
      rw [hg]
      unfold loadDeps
      rw [hr _ _ (by show (create false ⟨n, [d], none⟩ st).2.names = _; rw [c8, hn])
        (by show (create false ⟨n, [d], none⟩ st).2.news = _; rw [c11, hw])]
    have both : ∀ depth, (∀ dep st, st.names = (fun _ => none) → st.news = [] →
        loadRec e false .global depth "liba.so" dep st = none) ∧
        (∀ dep st, st.names = (fun _ => none) → st.news = [] → loadRec e false .global depth "libb.so" dep st = none) := by
      intro depth
      induction depth with
      | zero => exact ⟨fun _ _ _ _ => rfl, fun _ _ _ _ => rfl⟩
      | succ depth ih =>
        exact ⟨fun dep st h1 h2 => step depth _ _ dep st fa (by decide) (by decide) h1 h2 ih.2,
          fun dep st h1 h2 => step depth _ _ dep st fb (by decide) (by decide) h1 h2 ih.1⟩
    intro depth
    have : loadRec e false .global depth "main" none { ({} : St) with news := [], masters := [] } = none := by
      cases depth with
      | zero => rfl
      | succ depth => exact step depth _ _ none _ fm (by decide) (by decide) rfl rfl (both depth).1
    unfold loadProgram loadObject
    rw [this]

/-- A library opened twice by its path is loaded twice: the second handle is another object, and the constructors run again. -/
theorem C80_path_violation : ∃ (e : Env) (depth : Nat) (path lib : Name) (st : St),
    Runs e depth path [.dlopen (some lib) .loc true false, .dlopen (some lib) .loc true false] st ∧
    st.handles = [4, 3] ∧ (st.objects 3).map (·.name) = (st.objects 4).map (·.name) ∧ (st.objects 3).isSome ∧
    st.log = [.init 2, .init 1, .init 3, .init 4] := by
  let e : Env := { file := fun n => if n = "main" then some ⟨"main", ["libc.so.6"], none⟩
                                    else if n = "/lib/libx.so" then some ⟨"libx.so", [], none⟩ else none, libcTls := 0 }
  refine ⟨e, 9, "main", "/lib/libx.so", ?_⟩
  have key : ((program e 9 "main" [.dlopen (some "/lib/libx.so") .loc true false, .dlopen (some "/lib/libx.so") .loc true false]).map
      fun st => (st.handles, (st.objects 3).map (·.name), (st.objects 4).map (·.name), st.log)) =
      some ([4, 3], some "libx.so", some "libx.so", [.init 2, .init 1, .init 3, .init 4]) := by decide +kernel
  cases hp : program e 9 "main" [.dlopen (some "/lib/libx.so") .loc true false, .dlopen (some "/lib/libx.so") .loc true false] with
  | none => rw [hp] at key; exact absurd key (by simp)
  | some st =>
    rw [hp] at key
    simp only [Option.map_some, Option.some.injEq, Prod.mk.injEq] at key
    obtain ⟨h1, h2, h3, h4⟩ := key
    refine ⟨st, program_runs hp, h1, by rw [h2, h3], ?_, h4⟩
    cases hx : st.objects 3 with
    | none => rw [hx] at h2; exact absurd h2 (by simp)
    | some _ => rfl

/-- A library that needs `libc.so` where the program needs `libc.so.6`: libc is initialised twice. -/
theorem C80_libc_violation : ∃ (e : Env) (depth : Nat) (path : Name) (st : St) (i j : Nat) (a b : Obj), i ≠ j ∧
    Runs e depth path [] st ∧ st.objects i = some a ∧ st.objects j = some b ∧ a.me = true ∧ b.me = true ∧
    .init i ∈ st.log ∧ .init j ∈ st.log := by
  refine ⟨files [("main", ["libc.so.6", "liba.so"]), ("liba.so", ["libc.so"])], 9, "main", ?_⟩
  have key : ((program (files [("main", ["libc.so.6", "liba.so"]), ("liba.so", ["libc.so"])]) 9 "main" []).map
      fun st => ((st.objects 2).map (·.me), (st.objects 4).map (·.me), st.log)) =
      some (some true, some true, [.init 2, .init 4, .init 3, .init 1]) := by decide +kernel
  cases hp : program (files [("main", ["libc.so.6", "liba.so"]), ("liba.so", ["libc.so"])]) 9 "main" [] with
  | none => rw [hp] at key; exact absurd key (by simp)
  | some st =>
    rw [hp] at key
    simp only [Option.map_some, Option.some.injEq, Prod.mk.injEq] at key
    obtain ⟨h1, h2, h3⟩ := key
    cases hx : st.objects 2 with
    | none => rw [hx] at h1; exact absurd h1 (by simp)
    | some a =>
      cases hy : st.objects 4 with
      | none => rw [hy] at h2; exact absurd h2 (by simp)
      | some b =>
        rw [hx] at h1
        rw [hy] at h2
        simp only [Option.map_some, Option.some.injEq] at h1 h2
        exact ⟨st, 2, 4, a, b, by decide, program_runs hp, hx, hy, h1, h2, by rw [h3]; simp, by rw [h3]; simp⟩

/-- A program with four libraries that need each other in various ways. -/
example : ((program (files [("/bin/prog", ["libx.so", "liby.so"]), ("libx.so", ["libz.so", "libc.so.6"]),
      ("liby.so", ["libx.so", "libw.so"]), ("libz.so", ["libc.so.6"]), ("libw.so", ["libz.so"])]) 9 "/bin/prog" []).map
      fun st => st.log.map fun | .init i => (st.objects i).map (·.name) | .fini _ => none) =
    some [some "libc.so.6", some "libz.so", some "libx.so", some "libw.so", some "liby.so", some "/bin/prog"] := by
  decide +kernel

end Verif.Ldso
