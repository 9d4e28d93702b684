import Verif.Ldso.LoadProofs
/-!
# Unloading, and the state between calls (proofs)
-/

namespace Verif.Ldso

/-- How often an object's constructors and destructors have run. -/
abbrev inits (st : St) (i : Nat) : Nat := st.log.count (.init i)
@[inherit_doc inits] abbrev finis (st : St) (i : Nat) : Nat := st.log.count (.fini i)

/-- What holds of the table while the objects of `stack` are being unloaded. `loc`: all objects have been opened locally. -/
structure Inv (loc : Bool) (stack : List Obj) (st : St) : Prop where
  table : ∀ i o, st.objects i = some o → o.id = i ∧ i < st.nextId
  names : ∀ n i, st.names n = some i → (∃ o, st.objects i = some o ∧ o.name = n) ∨ ∃ o ∈ stack, o.id = i ∧ o.name = n
  handles : ∀ i ∈ st.handles, (st.objects i).isSome
  me : ∀ i o, st.objects i = some o → o.me = true → o.dlopened = false
  held : ∀ o ∈ stack, st.objects o.id = none ∧ o.id < st.nextId ∧ inits st o.id = 1 ∧ finis st o.id = 0
  nodup : (stack.map (·.id)).Nodup
  bound : loc = true → ∀ i o, st.objects i = some o → ∀ x ∈ o.bound,
    ∃ y, st.objects x = some y ∧ (o.dlopened = false → y.dlopened = false)
  scope : loc = true → ∀ i o, st.objects i = some o → o.dlopened = true → ∀ x ∈ o.bound, x ∈ o.scope
  once : ∀ i o, st.objects i = some o → inits st i = 1 ∧ finis st i = 0
  done : ∀ i, st.objects i = none → i ∉ stack.map (·.id) → inits st i = finis st i ∧ inits st i ≤ 1
  fresh : ∀ i, st.nextId ≤ i → inits st i = 0
  order : ∀ pre post i, st.log = pre ++ .fini i :: post → Event.init i ∈ pre

theorem mem_live {st : St} {o : Obj} (h : st.objects o.id = some o) (hi : o.id < st.nextId) : o ∈ live st :=
  List.mem_filterMap.2 ⟨o.id, List.mem_range.2 hi, h⟩

theorem le_sum {l : List Nat} {a : Nat} (h : a ∈ l) : a ≤ l.sum := by
  induction l with
  | nil => exact absurd h (by simp)
  | cons b l ih =>
    rw [List.sum_cons]
    rcases List.mem_cons.1 h with rfl | h
    · omega
    · have := ih h; omega

/-- An object with no reference but that of the table is in no scope and has no handle. -/
theorem strong_one {st : St} {stack : List Obj} {o : Obj} (ho : st.objects o.id = some o)
    (h : strong st stack o.id + 1 = 2) :
    o.id ∉ st.handles ∧ (∀ y ∈ live st, o.id ∉ y.scope) ∧ o.id ∉ stack.map (·.id) := by
  unfold strong at h
  rw [ho] at h
  simp only [Option.isSome_some, if_true] at h
  refine ⟨?_, ?_, ?_⟩
  · intro hm
    have := List.count_pos_iff.2 hm
    omega
  · intro y hy hm
    have h1 := List.count_pos_iff.2 hm
    have : 0 < ((live st ++ stack).map fun y => y.scope.count o.id).sum := by
      have h2 : y.scope.count o.id ∈ (live st ++ stack).map fun y => y.scope.count o.id :=
        List.mem_map.2 ⟨y, List.mem_append_left _ hy, rfl⟩
      have := le_sum h2
      omega
    omega
  · intro hm
    have := List.count_pos_iff.2 hm
    omega

/-- The state after the object has been taken from the table. -/
def removed (st : St) (o : Obj) : St :=
  { st with global := st.global.filter (· ≠ o.id),
            objects := fun i => if i = o.id then none else st.objects i }

theorem Inv.remove {loc : Bool} {stack : List Obj} {st : St} (h : Inv loc stack st) {o : Obj}
    (ho : st.objects o.id = some o) (hd : o.dlopened = true)
    (hs : o.id ∉ st.handles ∧ (∀ y ∈ live st, o.id ∉ y.scope) ∧ o.id ∉ stack.map (·.id)) :
    Inv loc (o :: stack) (removed st o) := by
  have key : ∀ i y, (removed st o).objects i = some y → i ≠ o.id ∧ st.objects i = some y := by
    intro i y hy
    simp only [removed] at hy
    by_cases hi : i = o.id
    · rw [if_pos hi] at hy; exact absurd hy (by simp)
    · rw [if_neg hi] at hy; exact ⟨hi, hy⟩
  have keep : ∀ i y, i ≠ o.id → st.objects i = some y → (removed st o).objects i = some y := by
    intro i y hi hy
    simp only [removed]; rw [if_neg hi]; exact hy
  refine ⟨?_, ?_, ?_, ?_, ?_, ?_, ?_, ?_, ?_, ?_, h.fresh, h.order⟩
  · intro i y hy; exact h.table i y (key i y hy).2
  · intro n i hn
    rcases h.names n i hn with ⟨y, hy, hy'⟩ | ⟨y, hy, hy'⟩
    · by_cases hi : i = o.id
      · rw [hi, ho] at hy
        cases hy
        exact .inr ⟨o, List.mem_cons_self, hi.symm, hy'⟩
      · exact .inl ⟨y, keep i y hi hy, hy'⟩
    · exact .inr ⟨y, List.mem_cons_of_mem _ hy, hy'⟩
  · intro i hi
    have hne : i ≠ o.id := fun hx => hs.1 (hx ▸ hi)
    have := h.handles i hi
    simp only [removed]; rw [if_neg hne]; exact this
  · intro i y hy; exact h.me i y (key i y hy).2
  · intro y hy
    rcases List.mem_cons.1 hy with rfl | hy
    · exact ⟨by simp [removed], (h.table _ _ ho).2, (h.once _ _ ho)⟩
    · have := h.held y hy
      refine ⟨?_, this.2⟩
      simp only [removed]; split
      · rfl
      · exact this.1
  · rw [List.map_cons, List.nodup_cons]; exact ⟨hs.2.2, h.nodup⟩
  · intro hl i y hy x hx
    obtain ⟨hi, hy'⟩ := key i y hy
    obtain ⟨z, hz, hz'⟩ := h.bound hl i y hy' x hx
    by_cases hxo : x = o.id
    · exfalso
      rw [hxo, ho] at hz
      cases hz
      cases hyd : y.dlopened
      · exact absurd (hz' hyd) (by simp [hd])
      · have hm := h.scope hl i y hy' hyd x hx
        have ht := h.table i y hy'
        exact hs.2.1 y (mem_live (by rw [ht.1]; exact hy') (by rw [ht.1]; exact ht.2)) (hxo ▸ hm)
    · exact ⟨z, keep x z hxo hz, hz'⟩
  · intro hl i y hy; exact h.scope hl i y (key i y hy).2
  · intro i y hy; exact h.once i y (key i y hy).2
  · intro i hn hm
    have hne : i ≠ o.id := fun hx => hm (by rw [hx]; simp)
    simp only [removed] at hn
    rw [if_neg hne] at hn
    exact h.done i hn (fun hx => hm (by rw [List.map_cons]; exact List.mem_cons_of_mem _ hx))

theorem count_append_fini (l : List Event) (i j : Nat) :
    (l ++ [Event.fini j]).count (.init i) = l.count (.init i) ∧
    (l ++ [Event.fini j]).count (.fini i) = l.count (.fini i) + (if j = i then 1 else 0) := by
  constructor
  · simp [List.count_append]
  · simp [List.count_append, List.count_cons]

/-- The order is kept when a destructor runs for which the constructor has run. -/
theorem order_snoc {l : List Event} {j : Nat}
    (h : ∀ pre post i, l = pre ++ .fini i :: post → Event.init i ∈ pre) (hj : Event.init j ∈ l) :
    ∀ pre post i, l ++ [.fini j] = pre ++ .fini i :: post → Event.init i ∈ pre := by
  intro pre post i hp
  rcases List.eq_nil_or_concat post with rfl | ⟨q, x, rfl⟩
  · have := List.append_inj' hp rfl
    obtain ⟨rfl, h2⟩ := this
    cases h2
    exact hj
  · rw [List.concat_eq_append, ← List.cons_append, ← List.append_assoc] at hp
    obtain ⟨h1, _⟩ := List.append_inj' hp rfl
    exact h pre q i h1

/-- The last step: the name is forgotten and the destructors run. -/
theorem Inv.finish {loc : Bool} {stack : List Obj} {st : St} {o : Obj} (h : Inv loc (o :: stack) st) :
    Inv loc stack { st with names := fun n => if n = o.name then none else st.names n,
                            log := st.log ++ [.fini o.id] } := by
  have hnd := h.nodup
  rw [List.map_cons, List.nodup_cons] at hnd
  have hso := h.held o List.mem_cons_self
  refine ⟨h.table, ?_, h.handles, h.me, ?_, hnd.2, h.bound, h.scope, ?_, ?_, ?_, ?_⟩
  · intro n i hn
    dsimp only at hn
    by_cases hne : n = o.name
    · rw [if_pos hne] at hn; exact absurd hn (by simp)
    · rw [if_neg hne] at hn
      rcases h.names n i hn with hx | ⟨y, hy, hyi, hyn⟩
      · exact .inl hx
      · rcases List.mem_cons.1 hy with rfl | hy
        · exact absurd hyn.symm hne
        · exact .inr ⟨y, hy, hyi, hyn⟩
  · intro y hy
    have hy' := h.held y (List.mem_cons_of_mem _ hy)
    have hne : o.id ≠ y.id := by
      intro hx; exact hnd.1 (hx ▸ List.mem_map.2 ⟨y, hy, rfl⟩)
    obtain ⟨c1, c2⟩ := count_append_fini st.log y.id o.id
    refine ⟨hy'.1, hy'.2.1, c1.trans hy'.2.2.1, ?_⟩
    show (st.log ++ [Event.fini o.id]).count (.fini y.id) = 0
    rw [c2, if_neg hne]; exact hy'.2.2.2
  · intro i y hy
    have := h.once i y hy
    have hne : o.id ≠ i := by
      intro hx; rw [← hx] at hy; exact absurd (hso.1.symm.trans hy) (by simp)
    obtain ⟨c1, c2⟩ := count_append_fini st.log i o.id
    refine ⟨c1.trans this.1, ?_⟩
    show (st.log ++ [Event.fini o.id]).count (.fini i) = 0
    rw [c2, if_neg hne]; exact this.2
  · intro i hn hm
    obtain ⟨c1, c2⟩ := count_append_fini st.log i o.id
    show (st.log ++ [Event.fini o.id]).count (.init i) = (st.log ++ [Event.fini o.id]).count (.fini i) ∧
      (st.log ++ [Event.fini o.id]).count (.init i) ≤ 1
    rw [c1, c2]
    by_cases hx : o.id = i
    · rw [if_pos hx]
      have h1 : st.log.count (.init o.id) = 1 := hso.2.2.1
      have h2 : st.log.count (.fini o.id) = 0 := hso.2.2.2
      rw [hx] at h1 h2
      omega
    · rw [if_neg hx]
      exact h.done i hn (by
        rw [List.map_cons]; intro hc
        rcases List.mem_cons.1 hc with hc | hc
        · exact hx hc.symm
        · exact hm hc)
  · intro i hi
    obtain ⟨c1, _⟩ := count_append_fini st.log i o.id
    exact c1.trans (h.fresh i hi)
  · refine order_snoc h.order ?_
    have : 0 < st.log.count (.init o.id) := by have := hso.2.2.1; show 0 < inits st o.id; omega
    exact List.count_pos_iff.1 this

/-- What unloading does besides. -/
structure Less (st st' : St) : Prop where
  sub : ∀ i y, st'.objects i = some y → st.objects i = some y
  handles : st'.handles = st.handles
  next : st'.nextId = st.nextId

theorem Less.refl (st : St) : Less st st := ⟨fun _ _ h => h, rfl, rfl⟩
theorem Less.trans {a b c : St} (h : Less a b) (g : Less b c) : Less a c :=
  ⟨fun i y hy => h.sub i y (g.sub i y hy), g.handles.trans h.handles, g.next.trans h.next⟩

theorem unloadDeps_inv {loc : Bool} {stack : List Obj} {rec : Obj → St → Option St}
    (hrec : ∀ o st st', Inv loc stack st → st.objects o.id = some o → rec o st = some st' → Inv loc stack st' ∧ Less st st') :
    ∀ ds st st', Inv loc stack st → unloadDeps rec ds st = some st' → Inv loc stack st' ∧ Less st st' := by
  intro ds
  induction ds with
  | nil =>
    intro st st' hi h
    simp only [unloadDeps, Option.some.injEq] at h
    subst h
    exact ⟨hi, Less.refl _⟩
  | cons d ds ih =>
    intro st st' hi h
    unfold unloadDeps at h
    split at h
    · rename_i o ho
      split at h
      · exact absurd h (by simp)
      · rename_i st1 h1
        cases hn : st.names d with
        | none => rw [hn] at ho; exact absurd ho (by simp)
        | some j =>
          rw [hn] at ho
          have ho' : st.objects j = some o := ho
          have hid := (hi.table j o ho').1
          obtain ⟨i1, l1⟩ := hrec o st st1 hi (by rw [hid]; exact ho') h1
          obtain ⟨i2, l2⟩ := ih _ _ i1 h
          exact ⟨i2, l1.trans l2⟩
    · exact ih _ _ hi h

theorem unload_inv {loc : Bool} (depth : Nat) : ∀ stack o st st', Inv loc stack st → st.objects o.id = some o →
    unload depth stack o st = some st' → Inv loc stack st' ∧ Less st st' := by
  induction depth with
  | zero => intro stack o st st' _ _ h; exact absurd h (by simp [unload])
  | succ depth ih =>
    intro stack o st st' hi ho h
    unfold unload at h
    split at h
    · simp only [Option.some.injEq] at h; subst h; exact ⟨hi, Less.refl _⟩
    · rename_i hd
      have hd : o.dlopened = true := by simpa using hd
      split at h
      · rename_i hs
        have h1 := hi.remove ho hd (strong_one ho hs)
        have hl1 : Less st (removed st o) := by
          refine ⟨?_, rfl, rfl⟩
          intro i y hy
          simp only [removed] at hy
          split at hy
          · exact absurd hy (by simp)
          · exact hy
        change (match unloadDeps (unload depth (o :: stack)) o.needed (removed st o) with
          | none => none
          | some st =>
            if strong { st with names := fun n => if n = o.name then none else st.names n } stack o.id = 0 then
              some { st with names := fun n => if n = o.name then none else st.names n,
                             log := if o.me then st.log else st.log ++ [.fini o.id] }
            else none) = some st' at h
        split at h
        · exact absurd h (by simp)
        · rename_i st2 h2
          obtain ⟨i2, l2⟩ := unloadDeps_inv (fun o st st' => ih (_ :: stack) o st st') _ _ _ h1 h2
          split at h
          · simp only [Option.some.injEq] at h
            have hme : o.me = false := by
              cases hm : o.me
              · rfl
              · exact absurd (hi.me _ _ ho hm) (by simp [hd])
            rw [hme] at h
            subst h
            have l3 := hl1.trans l2
            exact ⟨i2.finish, l3.sub, l3.handles, l3.next⟩
          · exact absurd h (by simp)
      · simp only [Option.some.injEq] at h; subst h; exact ⟨hi, Less.refl _⟩

theorem dlclose_inv {loc : Bool} {depth i : Nat} {st st' : St} (hi : Inv loc [] st) (h : dlclose depth i st = some st') :
    Inv loc [] st' := by
  unfold dlclose at h
  split at h
  · rename_i o ho
    have hid := (hi.table i o ho).1
    have h0 : Inv loc [] { st with handles := st.handles.erase i } :=
      ⟨hi.table, hi.names, fun j hj => hi.handles j (List.mem_of_mem_erase hj), hi.me, hi.held, hi.nodup, hi.bound, hi.scope,
        hi.once, hi.done, hi.fresh, hi.order⟩
    exact (unload_inv depth [] o _ _ h0 (by rw [hid]; exact ho) h).1
  · exact absurd h (by simp)

/-! ### Registering the new objects -/

theorem initAll_cons (st : St) (o : Obj) (os : List Obj) :
    initAll st (o :: os) = initAll (register { st with log := st.log ++ [.init o.id] } o) os := rfl

/-- The table after registering the objects. -/
theorem initAll_spec : ∀ (os : List Obj) (st : St), (os.map (·.id)).Nodup →
    (initAll st os).objects = (fun i => match os.find? (·.id = i) with | some o => some o | none => st.objects i) ∧
    (initAll st os).log = st.log ++ os.map (fun o => .init o.id) ∧
    (initAll st os).handles = st.handles ∧ (initAll st os).nextId = st.nextId ∧ (initAll st os).news = st.news ∧
    (initAll st os).global = st.global ∧ (initAll st os).nextTls = st.nextTls ∧ (initAll st os).tlsSize = st.tlsSize ∧
    (∀ n i, (initAll st os).names n = some i → st.names n = some i ∨ ∃ o ∈ os, o.id = i ∧ o.name = n) := by
  intro os
  induction os with
  | nil => intro st _; simp [initAll]
  | cons o os ih =>
    intro st hn
    rw [List.map_cons, List.nodup_cons] at hn
    obtain ⟨h1, h2, h3, h4, h5, h6, h7, h8, h9⟩ := ih (register { st with log := st.log ++ [.init o.id] } o) hn.2
    rw [initAll_cons]
    refine ⟨?_, ?_, h3, h4, h5, h6, h7, h8, ?_⟩
    · rw [h1]
      funext i
      by_cases hi : o.id = i
      · have : os.find? (·.id = i) = none := by
          rw [List.find?_eq_none]
          intro x hx hxi
          exact hn.1 (List.mem_map.2 ⟨x, hx, by simpa [hi] using hxi⟩)
        rw [this, List.find?_cons_of_pos (by simpa using hi)]
        simp [register, hi]
      · rw [List.find?_cons_of_neg (by simpa using hi)]
        cases os.find? (·.id = i) with
        | some x => rfl
        | none => simp only [register]; rw [if_neg (fun h => hi h.symm)]
    · rw [h2]; simp [register]
    · intro n i hni
      rcases h9 n i hni with h | ⟨x, hx, hx'⟩
      · simp only [register] at h
        split at h
        · rename_i hne
          cases h
          exact .inr ⟨o, List.mem_cons_self, rfl, hne.symm⟩
        · exact .inl h
      · exact .inr ⟨x, List.mem_cons_of_mem _ hx, hx'⟩

theorem count_inits (os : List Obj) (hn : (os.map (·.id)).Nodup) (i : Nat) :
    (os.map fun o => Event.init o.id).count (.init i) = (if i ∈ os.map (·.id) then 1 else 0) ∧
    (os.map fun o => Event.init o.id).count (.fini i) = 0 := by
  induction os with
  | nil => simp
  | cons o os ih =>
    rw [List.map_cons, List.nodup_cons] at hn
    obtain ⟨h1, h2⟩ := ih hn.2
    rw [List.map_cons, List.map_cons, List.count_cons, List.count_cons, h1, h2]
    by_cases hi : o.id = i
    · subst hi
      simp [hn.1]
    · have h1 : ¬ (Event.init o.id == Event.init i) = true := by simp [hi]
      have h2 : ¬ (Event.init o.id == Event.fini i) = true := by simp
      rw [if_neg h1, if_neg h2]
      have h3 : (i ∈ o.id :: List.map (fun x => x.id) os) = (i ∈ List.map (fun x => x.id) os) := by
        simp [List.mem_cons, Ne.symm hi]
      constructor
      · by_cases hm : i ∈ os.map (·.id)
        · rw [if_pos hm, if_pos (h3 ▸ hm)]
        · rw [if_neg hm, if_neg (h3 ▸ hm)]
      · rfl

theorem order_inits {l : List Event} (h : ∀ pre post i, l = pre ++ .fini i :: post → Event.init i ∈ pre) (os : List Obj) :
    ∀ pre post i, l ++ os.map (fun o => Event.init o.id) = pre ++ .fini i :: post → Event.init i ∈ pre := by
  intro pre post i hp
  rcases List.append_eq_append_iff.1 hp with ⟨a, rfl, ha⟩ | ⟨c, rfl, hc⟩
  · exfalso
    have : Event.fini i ∈ os.map (fun o => Event.init o.id) := by rw [ha]; simp
    simp at this
  · cases c with
    | nil =>
      simp only [List.nil_append] at hc
      exfalso
      have : Event.fini i ∈ os.map (fun o => Event.init o.id) := by rw [← hc]; simp
      simp at this
    | cons x c =>
      cases hc
      exact h pre c i rfl

theorem loadObject_inv {e : Env} {depth : Nat} {n : Name} {dl loc : Bool} {k : Kind} {st st' : St}
    {r : Except DlError Obj} (hi : Inv loc [] st) (hfirst : dl = false → ∀ i o, st.objects i = some o → o.dlopened = false)
    (hloc : loc = true → dl = true → k = .loc)
    (h : loadObject e depth n dl k st = some (r, st')) :
    Inv loc [] st' ∧ st'.handles = st.handles ∧ (∀ i o, st.objects i = some o → st'.objects i = some o) ∧
      ∀ o, r = .ok o → st'.objects o.id = some o := by
  have hg : Good dl k { st with news := [], masters := [] } :=
    ⟨hi.table, by simp, by simp, by simp, by simp, by simp, hfirst, by simp⟩
  unfold loadObject at h
  split at h
  · exact absurd h (by simp)
  · rename_i x st1 h1
    simp only [Option.some.injEq, Prod.mk.injEq] at h
    obtain ⟨rfl, rfl⟩ := h
    obtain ⟨g, gr, _⟩ := loadRec_post e dl k depth _ _ _ _ _ hg h1
    have ho := gr.objects
    have hn := gr.names
    have hh := gr.handles
    have hl := gr.log
    have hx := gr.next
    dsimp only at ho hn hh hl hx
    refine ⟨⟨?_, ?_, ?_, ?_, by simp, by simp, ?_, ?_, ?_, ?_, ?_, ?_⟩, hh, ?_, by intro o ho; cases ho⟩
    · dsimp only; rw [ho]; intro i o h; have := hi.table i o h; exact ⟨this.1, by omega⟩
    · dsimp only; rw [ho, hn]; exact hi.names
    · dsimp only; rw [ho, hh]; exact hi.handles
    · dsimp only; rw [ho]; exact hi.me
    · dsimp only; rw [ho]; exact hi.bound
    · dsimp only; rw [ho]; exact hi.scope
    · dsimp only [inits, finis]; rw [ho, hl]; exact hi.once
    · dsimp only [inits, finis]; rw [ho, hl]; exact hi.done
    · dsimp only [inits]; rw [hl]; intro i h; exact hi.fresh i (by omega)
    · dsimp only; rw [hl]; exact hi.order
    · dsimp only; rw [ho]; exact fun _ _ h => h
  · rename_i o dep st1 h1
    simp only [Option.some.injEq, Prod.mk.injEq] at h
    obtain ⟨rfl, rfl⟩ := h
    obtain ⟨g, gr, hp⟩ := loadRec_post e dl k depth _ _ _ _ _ hg h1
    obtain ⟨hoat, _, _⟩ := hp o dep rfl
    have ho := gr.objects
    have hn := gr.names
    have hh := gr.handles
    have hl := gr.log
    have hx := gr.next
    obtain ⟨added, ha, ha'⟩ := gr.news
    dsimp only at ho hn hh hl hx ha ha'
    rw [List.nil_append] at ha
    obtain ⟨s1, s2, s3, s4, s5, _, _, _, s9⟩ := initAll_spec st1.news { st1 with news := [] } g.nodup
    dsimp only at s1 s2 s3 s4 s5 s9
    generalize initAll { st1 with news := [] } st1.news = st2 at s1 s2 s3 s4 s5 s9 ⊢
    have findId : ∀ i y, st1.news.find? (·.id = i) = some y → y ∈ st1.news ∧ y.id = i := by
      intro i y hy
      exact ⟨List.mem_of_find?_eq_some hy, by simpa using List.find?_some hy⟩
    have findNews : ∀ y ∈ st1.news, st1.news.find? (·.id = y.id) = some y := by
      intro y hy
      cases hf : st1.news.find? (·.id = y.id) with
      | none =>
        rw [List.find?_eq_none] at hf
        exact absurd (hf y hy) (by simp)
      | some z =>
        obtain ⟨hz, hzi⟩ := findId _ _ hf
        have : z = y := by
          have hinj := List.pairwise_map.1 (show (st1.news.map (·.id)).Pairwise (· ≠ ·) from g.nodup)
          rcases List.mem_iff_getElem.1 hz with ⟨a, ha1, ha2⟩
          rcases List.mem_iff_getElem.1 hy with ⟨b, hb1, hb2⟩
          rcases Nat.lt_trichotomy a b with hab | hab | hab
          · exact absurd (by rw [ha2, hb2]; exact hzi) (List.pairwise_iff_getElem.1 hinj a b ha1 hb1 hab)
          · subst hab; exact ha2.symm.trans hb2
          · exact absurd (by rw [ha2, hb2]; exact hzi.symm) (List.pairwise_iff_getElem.1 hinj b a hb1 ha1 hab)
        rw [this]
    have cases2 : ∀ i y, st2.objects i = some y → (y ∈ st1.news ∧ y.id = i) ∨ st.objects i = some y := by
      intro i y hy
      rw [s1] at hy
      dsimp only at hy
      split at hy
      · rename_i z hz; cases hy; exact .inl (findId _ _ hz)
      · rw [ho] at hy; exact .inr hy
    have atTo : ∀ i y, At st1 i y → st2.objects i = some y := by
      rintro i y (hy | ⟨hy, rfl⟩)
      · rw [s1]; dsimp only
        split
        · rename_i z hz
          obtain ⟨hz, hzi⟩ := findId _ _ hz
          have := (g.ids z hz).2
          rw [hzi] at this; exact absurd (this.symm.trans hy) (by simp)
        · exact hy
      · rw [s1]; dsimp only; rw [findNews y hy]
    have old : ∀ i y, st.objects i = some y → st2.objects i = some y := by
      intro i y hy; exact atTo i y (.inl (by rw [ho]; exact hy))
    have newid : ∀ y ∈ st1.news, st.nextId ≤ y.id ∧ y.id < st1.nextId := by
      intro y hy; rw [ha] at hy; exact ha' y hy
    have cnt : ∀ i, inits st2 i = inits st i + (if i ∈ st1.news.map (·.id) then 1 else 0) ∧ finis st2 i = finis st i := by
      intro i
      obtain ⟨c1, c2⟩ := count_inits st1.news g.nodup i
      dsimp only [inits, finis]
      rw [s2, hl, List.count_append, List.count_append, c1, c2]
      exact ⟨rfl, rfl⟩
    have fz : ∀ i, st.nextId ≤ i → finis st i = 0 := by
      intro i hge
      have hno : st.objects i = none := by
        cases hq : st.objects i with
        | none => rfl
        | some q => have := (hi.table i q hq).2; omega
      have := hi.done i hno (by simp)
      have := hi.fresh i hge
      omega
    refine ⟨⟨?_, ?_, ?_, ?_, by simp, by simp, ?_, ?_, ?_, ?_, ?_, ?_⟩, by rw [s3, hh], old,
      by intro o' ho'; cases ho'; exact atTo _ _ hoat⟩
    · intro i y hy
      rw [s4]
      rcases cases2 i y hy with ⟨h1, h2⟩ | h1
      · have := newid y h1; exact ⟨h2, by omega⟩
      · have := hi.table i y h1; exact ⟨this.1, by omega⟩
    · intro n i hni
      rcases s9 n i hni with h | ⟨x, hx, rfl, hxn⟩
      · rw [hn] at h
        rcases hi.names n i h with ⟨y, hy, hyn⟩ | ⟨y, hy, _⟩
        · exact .inl ⟨y, old i y hy, hyn⟩
        · exact absurd hy (by simp)
      · exact .inl ⟨x, atTo _ _ (.inr ⟨hx, rfl⟩), hxn⟩
    · intro i hmem
      rw [s3, hh] at hmem
      have := hi.handles i hmem
      cases hq : st.objects i with
      | none => rw [hq] at this; exact absurd this (by simp)
      | some q => rw [old i q hq]; rfl
    · intro i y hy hm
      rcases cases2 i y hy with ⟨h1, h2⟩ | h1
      · exact g.me y h1 hm
      · exact hi.me i y h1 hm
    · intro hlc i y hy x hx
      rcases cases2 i y hy with ⟨h1, h2⟩ | h1
      · obtain ⟨z, hz, hz'⟩ := g.bound y h1 x hx
        refine ⟨z, atTo _ _ hz, ?_⟩
        intro hyd
        exact hz' hyd
      · obtain ⟨z, hz, hz'⟩ := hi.bound hlc i y h1 x hx
        exact ⟨z, old _ _ hz, hz'⟩
    · intro hlc i y hy hyd
      rcases cases2 i y hy with ⟨h1, h2⟩ | h1
      · exact g.scope (hloc hlc (g.fresh y h1 hyd)) y h1
      · exact hi.scope hlc i y h1 hyd
    · intro i y hy
      obtain ⟨c1, c2⟩ := cnt i
      rcases cases2 i y hy with ⟨h1, h2⟩ | h1
      · have hid := newid y h1
        have := fz i (by omega)
        have := hi.fresh i (by omega)
        rw [c1, c2, if_pos (List.mem_map.2 ⟨y, h1, h2⟩)]
        omega
      · have := hi.once i y h1
        have hnot : i ∉ st1.news.map (·.id) := by
          intro hc
          obtain ⟨z, hz, hzi⟩ := List.mem_map.1 hc
          have := newid z hz
          have := (hi.table i y h1).2
          omega
        rw [c1, c2, if_neg hnot]; exact this
    · intro i hno hm
      obtain ⟨c1, c2⟩ := cnt i
      have hnot : i ∉ st1.news.map (·.id) := by
        intro hc
        obtain ⟨z, hz, rfl⟩ := List.mem_map.1 hc
        rw [atTo _ _ (.inr ⟨hz, rfl⟩)] at hno
        exact absurd hno (by simp)
      have hno' : st.objects i = none := by
        cases hq : st.objects i with
        | none => rfl
        | some q => rw [old i q hq] at hno; exact absurd hno (by simp)
      rw [c1, c2, if_neg hnot]
      exact hi.done i hno' hm
    · intro i hge
      rw [s4] at hge
      obtain ⟨c1, c2⟩ := cnt i
      have hnot : i ∉ st1.news.map (·.id) := by
        intro hc
        obtain ⟨z, hz, hzi⟩ := List.mem_map.1 hc
        have := newid z hz
        omega
      rw [c1, if_neg hnot]
      exact hi.fresh i (by omega)
    · rw [s2, hl]
      exact order_inits hi.order _

end Verif.Ldso
