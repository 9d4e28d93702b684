import Verif.Ldso.UnloadProofs
/-!
# C81, C82: `dlclose`, constructors and destructors
-/

namespace Verif.Ldso

/-- The calls a program makes. -/
inductive Op where
  | dlopen (name : Option Name) (k : Kind) (now noload : Bool)
  | dlclose (handle : Nat)
deriving DecidableEq

/-- The states of a program: it is loaded, and opens and closes libraries, each handle once for each time it was given out. -/
inductive Runs (e : Env) (depth : Nat) (path : Name) : List Op → St → Prop
  | start {o st} : loadProgram e depth path {} = some (.ok o, st) → Runs e depth path [] st
  | dlopen {ops st name k now noload r st'} : Runs e depth path ops st →
      dlopen e depth name k now noload st = some (r, st') → Runs e depth path (ops ++ [.dlopen name k now noload]) st'
  | dlclose {ops st id st'} : Runs e depth path ops st → id ∈ st.handles →
      dlclose depth id st = some st' → Runs e depth path (ops ++ [.dlclose id]) st'

/-- All libraries are opened with `RTLD_LOCAL`. -/
def AllLocal (ops : List Op) : Prop := ∀ name k now noload, Op.dlopen name k now noload ∈ ops → k = .loc

/-- The objects the program may still run code of: those opened and not closed, those of the program itself, and the objects
those were linked with. -/
inductive InUse (st : St) : Nat → Prop
  | handle {i} : i ∈ st.handles → InUse st i
  | program {i o} : st.objects i = some o → o.dlopened = false → InUse st i
  | linked {i o x} : InUse st i → st.objects i = some o → x ∈ o.bound → InUse st x

theorem Inv.start (loc : Bool) : Inv loc [] {} := by
  constructor <;> simp [inits, finis]

theorem dlopen_inv {e : Env} {depth : Nat} {name : Option Name} {k : Kind} {now noload loc : Bool} {st st' : St}
    {r : Except DlError Nat} (hi : Inv loc [] st) (hloc : loc = true → k = .loc)
    (h : dlopen e depth name k now noload st = some (r, st')) :
    Inv loc [] st' ∧ (∀ i o, st.objects i = some o → st'.objects i = some o) ∧
      ∀ i, r = .ok i → i ∈ st'.handles := by
  have addHandle : ∀ (s : St) (i : Nat), Inv loc [] s → (s.objects i).isSome →
      Inv loc [] { s with handles := i :: s.handles } := by
    intro s i hs hsome
    refine ⟨hs.table, hs.names, ?_, hs.me, hs.held, hs.nodup, hs.bound, hs.scope, hs.once, hs.done, hs.fresh, hs.order⟩
    intro j hj
    rcases List.mem_cons.1 hj with rfl | hj
    · exact hsome
    · exact hs.handles j hj
  unfold dlopen at h
  split at h
  · exact absurd h (by simp)
  · split at h
    · split at h
      · rename_i o ho
        simp only [Option.some.injEq, Prod.mk.injEq] at h
        obtain ⟨rfl, rfl⟩ := h
        refine ⟨addHandle st _ hi ?_, fun _ _ h => h, ?_⟩
        · rw [(hi.table _ _ ho).1, ho]; rfl
        · intro i hr; cases hr; exact List.mem_cons_self
      · simp only [Option.some.injEq, Prod.mk.injEq] at h
        obtain ⟨rfl, rfl⟩ := h
        exact ⟨hi, fun _ _ h => h, by intro i hr; cases hr⟩
    · split at h
      · split at h
        · exact absurd h (by simp)
        · rename_i id _ o ho
          simp only [Option.some.injEq, Prod.mk.injEq] at h
          obtain ⟨rfl, rfl⟩ := h
          have hs : Inv loc [] (if k = .global then copyInto st o else st) := by
            split
            · exact ⟨hi.table, hi.names, hi.handles, hi.me, hi.held, hi.nodup, hi.bound, hi.scope, hi.once, hi.done,
                hi.fresh, hi.order⟩
            · exact hi
          have hob : (if k = .global then copyInto st o else st).objects = st.objects := by split <;> rfl
          refine ⟨addHandle _ _ hs ?_, ?_, ?_⟩
          · rw [hob, (hi.table _ _ ho).1, ho]; rfl
          · show ∀ i y, _ → (if k = .global then copyInto st o else st).objects i = some y
            rw [hob]; exact fun _ _ h => h
          · intro i hr; cases hr; exact List.mem_cons_self
      · split at h
        · simp only [Option.some.injEq, Prod.mk.injEq] at h
          obtain ⟨rfl, rfl⟩ := h
          exact ⟨hi, fun _ _ h => h, by intro i hr; cases hr⟩
        · split at h
          · exact absurd h (by simp)
          · rename_i x st1 h1
            simp only [Option.some.injEq, Prod.mk.injEq] at h
            obtain ⟨rfl, rfl⟩ := h
            obtain ⟨i1, _, i3, _⟩ := loadObject_inv hi (by simp) (fun hl _ => hloc hl) h1
            exact ⟨i1, i3, by intro i hr; cases hr⟩
          · rename_i o st1 h1
            simp only [Option.some.injEq, Prod.mk.injEq] at h
            obtain ⟨rfl, rfl⟩ := h
            obtain ⟨i1, _, i3, i4⟩ := loadObject_inv hi (by simp) (fun hl _ => hloc hl) h1
            refine ⟨addHandle _ _ i1 ?_, i3, ?_⟩
            · rw [i4 o rfl]; rfl
            · intro i hr; cases hr; exact List.mem_cons_self

theorem runs_inv {e : Env} {depth : Nat} {path : Name} {ops : List Op} {st : St} (h : Runs e depth path ops st)
    (loc : Bool) (hl : loc = true → AllLocal ops) : Inv loc [] st := by
  induction h with
  | start h1 => exact (loadObject_inv (Inv.start loc) (by simp) (by simp) h1).1
  | dlopen _ h1 ih =>
    refine (dlopen_inv (ih fun hh => ?_) ?_ h1).1
    · intro n k a b hm; exact hl hh n k a b (List.mem_append_left _ hm)
    · intro hh; exact hl hh _ _ _ _ (List.mem_append_right _ (List.mem_singleton_self _))
  | dlclose _ _ h1 ih =>
    refine dlclose_inv (ih fun hh => ?_) h1
    intro n k a b hm; exact hl hh n k a b (List.mem_append_left _ hm)

/-- If all libraries are opened with `RTLD_LOCAL`, no object is ever unloaded that is still in use, whatever is opened and closed
in whatever order. -/
theorem C81_in_use_partial {e : Env} {depth : Nat} {path : Name} {ops : List Op} {st : St}
    (h : Runs e depth path ops st) (hl : AllLocal ops) (i : Nat) (hu : InUse st i) :
    ∃ o, st.objects i = some o ∧ o.id = i := by
  have hi := runs_inv h true fun _ => hl
  induction hu with
  | handle hm =>
    have := hi.handles _ hm
    cases ho : st.objects _ with
    | none => rw [ho] at this; exact absurd this (by simp)
    | some o => exact ⟨o, rfl, (hi.table _ _ ho).1⟩
  | program ho _ => exact ⟨_, ho, (hi.table _ _ ho).1⟩
  | linked _ ho hx _ =>
    obtain ⟨y, hy, _⟩ := hi.bound rfl _ _ ho _ hx
    exact ⟨y, hy, (hi.table _ _ hy).1⟩

/-- A handle stays good until it is closed as often as it was given out, with any flags. -/
theorem C81_handle {e : Env} {depth : Nat} {path : Name} {ops : List Op} {st : St} (h : Runs e depth path ops st)
    (i : Nat) (hm : i ∈ st.handles) : ∃ o, st.objects i = some o ∧ o.id = i := by
  have hi := runs_inv h false (by simp)
  have := hi.handles _ hm
  cases ho : st.objects _ with
  | none => rw [ho] at this; exact absurd this (by simp)
  | some o => exact ⟨o, rfl, (hi.table _ _ ho).1⟩

/-- The program's own objects are never unloaded. -/
theorem C81_program {e : Env} {depth : Nat} {path : Name} {ops : List Op} {st st' : St} (h : Runs e depth path ops st)
    (id : Nat) (h1 : dlclose depth id st = some st') (i : Nat) (o : Obj) (ho : st.objects i = some o)
    (hd : o.dlopened = false) : st'.objects i = some o := by
  have key : ∀ depth stack p s s', (∀ i o, s.objects i = some o → o.id = i) → unload depth stack p s = some s' →
      s.objects p.id = some p → (∀ i o, s.objects i = some o → o.dlopened = false → s'.objects i = some o) ∧
        (∀ i o, s'.objects i = some o → s.objects i = some o) := by
    intro depth
    induction depth with
    | zero => intro stack p s s' _ h; exact absurd h (by simp [unload])
    | succ depth ih =>
      intro stack p s s' ht h hp
      unfold unload at h
      split at h
      · cases h; exact ⟨fun _ _ h _ => h, fun _ _ h => h⟩
      · rename_i hpd
        split at h
        · change (match unloadDeps (unload depth (p :: stack)) p.needed (removed s p) with
            | none => none
            | some st =>
              if strong { st with names := fun n => if n = p.name then none else st.names n } stack p.id = 0 then
                some { st with names := fun n => if n = p.name then none else st.names n,
                               log := if p.me then st.log else st.log ++ [.fini p.id] }
              else none) = some s' at h
          split at h
          · exact absurd h (by simp)
          · rename_i s2 h2
            split at h
            · cases h
              have hrem : ∀ i o, (removed s p).objects i = some o → s.objects i = some o := by
                intro i o hx
                simp only [removed] at hx
                split at hx
                · exact absurd hx (by simp)
                · exact hx
              have loop : ∀ ds a b, (∀ i o, a.objects i = some o → o.id = i) →
                  unloadDeps (unload depth (p :: stack)) ds a = some b →
                  (∀ i o, a.objects i = some o → o.dlopened = false → b.objects i = some o) ∧
                    (∀ i o, b.objects i = some o → a.objects i = some o) := by
                intro ds
                induction ds with
                | nil =>
                  intro a b _ hab
                  simp only [unloadDeps, Option.some.injEq] at hab
                  subst hab
                  exact ⟨fun _ _ h _ => h, fun _ _ h => h⟩
                | cons d ds ihd =>
                  intro a b hta hab
                  unfold unloadDeps at hab
                  split at hab
                  · rename_i q hq
                    split at hab
                    · exact absurd hab (by simp)
                    · rename_i c hc
                      cases hn : a.names d with
                      | none => rw [hn] at hq; exact absurd hq (by simp)
                      | some j =>
                        rw [hn] at hq
                        have hq' : a.objects j = some q := hq
                        obtain ⟨k1, k2⟩ := ih _ q a c hta hc (by rw [hta j q hq']; exact hq')
                        obtain ⟨k3, k4⟩ := ihd c b (fun i o hx => hta i o (k2 i o hx)) hab
                        exact ⟨fun i o hx hxd => k3 i o (k1 i o hx hxd) hxd, fun i o hx => k2 i o (k4 i o hx)⟩
                  · exact ihd a b hta hab
              obtain ⟨k1, k2⟩ := loop _ _ _ (fun i o hx => ht i o (hrem i o hx)) h2
              refine ⟨?_, fun i o hx => hrem i o (k2 i o hx)⟩
              intro i o hx hxd
              refine k1 i o ?_ hxd
              simp only [removed]
              rw [if_neg]
              · exact hx
              · intro hip
                rw [hip, hp] at hx
                cases hx
                exact hpd hxd
            · exact absurd h (by simp)
        · cases h; exact ⟨fun _ _ h _ => h, fun _ _ h => h⟩
  have hi := runs_inv h false (by simp)
  unfold dlclose at h1
  split at h1
  · rename_i p hp
    exact (key depth [] p { st with handles := st.handles.erase id } st' (fun i o hx => (hi.table i o hx).1) h1
      (by rw [(hi.table _ _ hp).1]; exact hp)).1 i o ho hd
  · exact absurd h1 (by simp)

/-! ### No panic -/

theorem live_le {st st' : St} (h : Less st st') : (live st').length ≤ (live st).length := by
  unfold live
  rw [h.next]
  generalize List.range st.nextId = l
  induction l with
  | nil => simp
  | cons a l ih =>
    cases ha : st'.objects a with
    | none =>
      rw [List.filterMap_cons_none ha]
      cases hb : st.objects a with
      | none => rw [List.filterMap_cons_none hb]; exact ih
      | some y => rw [List.filterMap_cons_some hb]; simp only [List.length_cons]; omega
    | some y =>
      rw [List.filterMap_cons_some ha, List.filterMap_cons_some (h.sub a y ha)]
      simp only [List.length_cons]; omega

theorem live_lt {st : St} {o : Obj} (ho : st.objects o.id = some o) (hn : o.id < st.nextId) :
    (live (removed st o)).length < (live st).length := by
  unfold live
  show (List.filterMap _ (List.range st.nextId)).length < _
  have hm : o.id ∈ List.range st.nextId := List.mem_range.2 hn
  revert hm
  generalize List.range st.nextId = l
  intro hm
  have le : ∀ l : List Nat, (List.filterMap (removed st o).objects l).length ≤ (List.filterMap st.objects l).length := by
    intro l
    induction l with
    | nil => simp
    | cons a l ih =>
      by_cases ha : a = o.id
      · rw [List.filterMap_cons_none (by simp [removed, ha]), ha, List.filterMap_cons_some ho]
        simp only [List.length_cons]; omega
      · have h1 : (removed st o).objects a = st.objects a := by simp only [removed]; rw [if_neg ha]
        cases hb : st.objects a with
        | none => rw [List.filterMap_cons_none (h1.trans hb), List.filterMap_cons_none hb]; exact ih
        | some y =>
          rw [List.filterMap_cons_some (h1.trans hb), List.filterMap_cons_some hb]
          simp only [List.length_cons]; omega
  induction l with
  | nil => exact absurd hm (by simp)
  | cons a l ih =>
    by_cases ha : a = o.id
    · rw [List.filterMap_cons_none (by simp [removed, ha]), ha, List.filterMap_cons_some ho]
      have := le l
      simp only [List.length_cons]; omega
    · have hm' : o.id ∈ l := by
        rcases List.mem_cons.1 hm with h | h
        · exact absurd h.symm ha
        · exact h
      have := ih hm'
      have h1 : (removed st o).objects a = st.objects a := by simp only [removed]; rw [if_neg ha]
      cases hb : st.objects a with
      | none => rw [List.filterMap_cons_none (h1.trans hb), List.filterMap_cons_none hb]; exact this
      | some y =>
        rw [List.filterMap_cons_some (h1.trans hb), List.filterMap_cons_some hb]
        simp only [List.length_cons]; omega

theorem sum_zero {l : List Nat} : l.sum = 0 ↔ ∀ x ∈ l, x = 0 := by
  induction l with
  | nil => simp
  | cons a l ih => simp only [List.sum_cons, List.mem_cons]; constructor
                   · intro h; have h1 : a = 0 := by omega
                     have h2 := ih.1 (by omega)
                     rintro x (rfl | hx)
                     · exact h1
                     · exact h2 x hx
                   · intro h
                     have h1 := h a (.inl rfl)
                     have h2 := ih.2 fun x hx => h x (.inr hx)
                     omega

/-- Nothing refers any more to an object that had no reference but that of the table. -/
theorem strong_zero {st st' : St} {stack : List Obj} {o : Obj} (ho : st.objects o.id = some o)
    (h : strong st stack o.id + 1 = 2) (hl : Less (removed st o) st') (names : Name → Option Nat) :
    strong { st' with names := names } stack o.id = 0 := by
  unfold strong at h
  rw [ho] at h
  simp only [Option.isSome_some, if_true] at h
  have hz : ((live st ++ stack).map fun y => y.scope.count o.id).sum = 0 := by omega
  have hz' := sum_zero.1 hz
  unfold strong
  have h1 : st'.objects o.id = none := by
    cases hx : st'.objects o.id with
    | none => rfl
    | some y => have := hl.sub _ _ hx; simp [removed] at this
  have h2 : st'.handles = st.handles := hl.handles
  have h3 : ((live st' ++ stack).map fun y => y.scope.count o.id).sum = 0 := by
    rw [sum_zero]
    intro x hx
    obtain ⟨y, hy, rfl⟩ := List.mem_map.1 hx
    refine hz' _ (List.mem_map.2 ⟨y, ?_, rfl⟩)
    rcases List.mem_append.1 hy with hy | hy
    · refine List.mem_append_left _ ?_
      obtain ⟨i, hi, hiy⟩ := List.mem_filterMap.1 hy
      have hn : st'.nextId = st.nextId := hl.next
      refine List.mem_filterMap.2 ⟨i, by rw [← hn]; exact hi, ?_⟩
      have := hl.sub _ _ hiy
      simp only [removed] at this
      split at this
      · exact absurd this (by simp)
      · exact this
    · exact List.mem_append_right _ hy
  show (if (st'.objects o.id).isSome then 1 else 0) + st'.handles.count o.id + ((live st' ++ stack).map _).sum + _ = 0
  rw [h1, h2, h3]
  simp only [Option.isSome_none]
  have : ((stack.map (·.id)).count o.id) = 0 := by omega
  rw [this]
  have : st.handles.count o.id = 0 := by omega
  rw [this]
  simp

theorem unload_some (depth : Nat) : ∀ stack o st, Inv false stack st → st.objects o.id = some o →
    (live st).length < depth → ∃ st', unload depth stack o st = some st' := by
  induction depth with
  | zero => intro _ _ _ _ _ h; exact absurd h (by omega)
  | succ depth ih =>
    intro stack o st hi ho hd
    unfold unload
    split
    · exact ⟨_, rfl⟩
    · rename_i hdl
      have hdl : o.dlopened = true := by simpa using hdl
      split
      · rename_i hs
        have h1 := hi.remove ho hdl (strong_one ho hs)
        have loop : ∀ ds a, Inv false (o :: stack) a → (live a).length < depth →
            ∃ b, unloadDeps (unload depth (o :: stack)) ds a = some b := by
          intro ds
          induction ds with
          | nil => intro a _ _; exact ⟨a, rfl⟩
          | cons d ds ihd =>
            intro a ha hla
            unfold unloadDeps
            split
            · rename_i q hq
              cases hn : a.names d with
              | none => rw [hn] at hq; exact absurd hq (by simp)
              | some j =>
                rw [hn] at hq
                have hq' : a.objects j = some q := hq
                have hq'' : a.objects q.id = some q := by rw [(ha.table j q hq').1]; exact hq'
                obtain ⟨c, hc⟩ := ih _ q a ha hq'' hla
                rw [hc]
                obtain ⟨ic, lc⟩ := unload_inv depth _ q a c ha hq'' hc
                exact ihd c ic (Nat.lt_of_le_of_lt (live_le lc) hla)
            · exact ihd a ha hla
        have hlt := live_lt ho (hi.table _ _ ho).2
        obtain ⟨b, hb⟩ := loop o.needed (removed st o) h1 (by omega)
        obtain ⟨ib, lb⟩ := unloadDeps_inv (fun o' st st' => unload_inv depth (o :: stack) o' st st') _ _ _ h1 hb
        refine ⟨{ b with names := fun n => if n = o.name then none else b.names n,
                         log := if o.me then b.log else b.log ++ [.fini o.id] }, ?_⟩
        change (match unloadDeps (unload depth (o :: stack)) o.needed (removed st o) with
            | none => none
            | some st =>
              if strong { st with names := fun n => if n = o.name then none else st.names n } stack o.id = 0 then
                some { st with names := fun n => if n = o.name then none else st.names n,
                               log := if o.me then st.log else st.log ++ [Event.fini o.id] }
              else (none : Option St)) = _
        rw [hb]
        dsimp only
        rw [if_pos (strong_zero ho hs lb _)]
      · exact ⟨_, rfl⟩

/-- `dlclose` of a good handle neither panics nor runs out of stack, if there is room for one call for each object. -/
theorem C81_no_panic {e : Env} {depth : Nat} {path : Name} {ops : List Op} {st : St} (h : Runs e depth path ops st)
    (i : Nat) (hm : i ∈ st.handles) (room : Nat) (hroom : st.nextId < room) : ∃ st', dlclose room i st = some st' := by
  have hi := runs_inv h false (by simp)
  obtain ⟨o, ho, hid⟩ := C81_handle h i hm
  unfold dlclose
  rw [ho]
  have h0 : Inv false [] { st with handles := st.handles.erase i } :=
    ⟨hi.table, hi.names, fun j hj => hi.handles j (List.mem_of_mem_erase hj), hi.me, hi.held, hi.nodup, hi.bound, hi.scope,
      hi.once, hi.done, hi.fresh, hi.order⟩
  refine unload_some room [] o _ h0 (by rw [hid]; exact ho) ?_
  have : (live { st with handles := st.handles.erase i }).length ≤ st.nextId := by
    unfold live
    have := List.length_filterMap_le st.objects (List.range st.nextId)
    rw [List.length_range] at this
    exact this
  omega

/-- An object that has one handle and is in no scope is unloaded when the handle is closed. -/
theorem C81_unloaded {e : Env} {depth : Nat} {path : Name} {ops : List Op} {st st' : St} (h : Runs e depth path ops st)
    (i : Nat) (hm : st.handles.count i = 1) (o : Obj) (ho : st.objects i = some o) (hd : o.dlopened = true)
    (hs : ∀ j y, st.objects j = some y → i ∉ y.scope) (h1 : dlclose depth i st = some st') :
    st'.objects i = none ∧ Event.fini i ∈ st'.log := by
  have hi := runs_inv h false (by simp)
  have hid := (hi.table i o ho).1
  unfold dlclose at h1
  rw [ho] at h1
  cases depth with
  | zero => exact absurd h1 (by simp [unload])
  | succ depth =>
    dsimp only at h1
    unfold unload at h1
    rw [if_neg (by simp [hd])] at h1
    have hlive : ((live { st with handles := st.handles.erase i } ++ ([] : List Obj)).map fun y => y.scope.count o.id).sum = 0 := by
      rw [sum_zero]
      intro x hx
      obtain ⟨y, hy, rfl⟩ := List.mem_map.1 hx
      rw [List.append_nil] at hy
      obtain ⟨j, _, hj⟩ := List.mem_filterMap.1 hy
      rw [hid]
      exact List.count_eq_zero.2 (hs j y hj)
    have hstr : strong { st with handles := st.handles.erase i } [] o.id + 1 = 2 := by
      unfold strong
      rw [hlive]
      have he : (st.handles.erase i).count i = 0 := by rw [List.count_erase_self]; omega
      show (if (st.objects o.id).isSome then 1 else 0) + (st.handles.erase i).count o.id + 0 + 0 + 1 = 2
      rw [hid, ho, he]
      rfl
    rw [if_pos hstr] at h1
    have h0 : Inv false [] { st with handles := st.handles.erase i } :=
      ⟨hi.table, hi.names, fun j hj => hi.handles j (List.mem_of_mem_erase hj), hi.me, hi.held, hi.nodup, hi.bound, hi.scope,
        hi.once, hi.done, hi.fresh, hi.order⟩
    have ho' : ({ st with handles := st.handles.erase i } : St).objects o.id = some o := by rw [hid]; exact ho
    have hr := h0.remove ho' hd (strong_one ho' hstr)
    change (match unloadDeps (unload depth [o]) o.needed (removed { st with handles := st.handles.erase i } o) with
            | none => none
            | some st =>
              if strong { st with names := fun n => if n = o.name then none else st.names n } [] o.id = 0 then
                some { st with names := fun n => if n = o.name then none else st.names n,
                               log := if o.me then st.log else st.log ++ [Event.fini o.id] }
              else (none : Option St)) = _ at h1
    split at h1
    · exact absurd h1 (by simp)
    · rename_i st2 h2
      obtain ⟨i2, l2⟩ := unloadDeps_inv (fun o' st st' => unload_inv depth [o] o' st st') _ _ _ hr h2
      split at h1
      · have hme : o.me = false := by
          cases hx : o.me
          · rfl
          · exact absurd (hi.me _ _ ho hx) (by simp [hd])
        rw [hme] at h1
        cases h1
        refine ⟨?_, ?_⟩
        · show st2.objects i = none
          rw [← hid]
          exact (i2.held o List.mem_cons_self).1
        · show _ ∈ st2.log ++ [Event.fini o.id]
          rw [hid]; simp
      · exact absurd h1 (by simp)

/-! ### C82 -/

/-- Whatever a program opens and closes, with any flags: when it has exited, the destructors of every object have run exactly as
often as its constructors, at most once, and afterwards. -/
theorem C82_fini_once {e : Env} {depth : Nat} {path : Name} {ops : List Op} {st : St} (h : Runs e depth path ops st) (i : Nat) :
    (finiAll st).log.count (.fini i) = (finiAll st).log.count (.init i) ∧ (finiAll st).log.count (.init i) ≤ 1 ∧
    ∀ pre post, (finiAll st).log = pre ++ .fini i :: post → Event.init i ∈ pre := by
  have hi := runs_inv h false (by simp)
  have hcount : ∀ i, ((live st).map fun o => Event.fini o.id).count (.fini i) = (if (st.objects i).isSome then 1 else 0) ∧
      ((live st).map fun o => Event.fini o.id).count (.init i) = 0 := by
    intro i
    have gen : ∀ l : List Nat, l.Nodup → ((l.filterMap st.objects).map fun o => Event.fini o.id).count (.fini i) =
        (if i ∈ l ∧ (st.objects i).isSome then 1 else 0) ∧
        ((l.filterMap st.objects).map fun o => Event.fini o.id).count (.init i) = 0 := by
      intro l
      induction l with
      | nil => simp
      | cons a l ih =>
        intro hn
        rw [List.nodup_cons] at hn
        obtain ⟨c1, c2⟩ := ih hn.2
        cases ha : st.objects a with
        | none =>
          rw [List.filterMap_cons_none ha, c1, c2]
          refine ⟨?_, rfl⟩
          by_cases hia : i = a
          · subst hia; simp [ha]
          · simp [hia]
        | some y =>
          have hy := (hi.table a y ha).1
          rw [List.filterMap_cons_some ha, List.map_cons, List.count_cons, List.count_cons, c1, c2, hy]
          refine ⟨?_, by simp⟩
          by_cases hia : i = a
          · subst hia; simp [ha, hn.1]
          · simp [hia, Ne.symm hia]
    obtain ⟨c1, c2⟩ := gen (List.range st.nextId) List.nodup_range
    refine ⟨c1.trans ?_, c2⟩
    cases ho : st.objects i with
    | none => simp
    | some o => have := (hi.table i o ho).2; simp [this]
  obtain ⟨c1, c2⟩ := hcount i
  have hl : (finiAll st).log = st.log ++ (live st).map fun o => Event.fini o.id := rfl
  refine ⟨?_, ?_, ?_⟩
  · rw [hl, List.count_append, List.count_append, c1, c2]
    cases ho : st.objects i with
    | none =>
      have := (hi.done i ho (by simp)).1
      simp only [inits, finis] at this
      simp [this]
    | some o =>
      have := hi.once i o ho
      simp only [inits, finis] at this
      rw [this.1, this.2]; simp
  · rw [hl, List.count_append, c2]
    cases ho : st.objects i with
    | none => exact (hi.done i ho (by simp)).2
    | some o => have := (hi.once i o ho).1; simp only [inits] at this; omega
  · intro pre post hp
    rw [hl] at hp
    rcases List.append_eq_append_iff.1 hp with ⟨a, rfl, ha⟩ | ⟨c, hc1, hc⟩
    · refine List.mem_append_left _ ?_
      have hm : Event.fini i ∈ (live st).map fun o => Event.fini o.id := by rw [ha]; simp
      obtain ⟨o, ho, hoi⟩ := List.mem_map.1 hm
      obtain ⟨j, _, hj⟩ := List.mem_filterMap.1 ho
      have hjo := (hi.table j o hj).1
      cases hoi
      have h1 := (hi.once j o hj).1
      rw [← hjo] at h1
      exact List.count_pos_iff.1 (by simp only [inits] at h1; omega)
    · cases c with
      | nil =>
        simp only [List.append_nil] at hc1
        subst hc1
        have hm : Event.fini i ∈ (live st).map fun o => Event.fini o.id := by rw [← List.nil_append (List.map _ _), ← hc]; simp
        obtain ⟨o, ho, hoi⟩ := List.mem_map.1 hm
        obtain ⟨j, _, hj⟩ := List.mem_filterMap.1 ho
        have hjo := (hi.table j o hj).1
        cases hoi
        have h1 := (hi.once j o hj).1
        rw [← hjo] at h1
        exact List.count_pos_iff.1 (by simp only [inits] at h1; omega)
      | cons x c =>
        cases hc
        exact hi.order pre c i hc1

end Verif.Ldso
