import Verif.Ldso.CloseProps
/-!
# C81, C82: where the code departs from the properties; examples
-/

namespace Verif.Ldso

/-- The calls, one after the other. -/
def exec (e : Env) (depth : Nat) : List Op → St → Option St
  | [], st => some st
  | .dlopen n k a b :: ops, st =>
    match dlopen e depth n k a b st with
    | some (_, st) => exec e depth ops st
    | none => none
  | .dlclose i :: ops, st =>
    if i ∈ st.handles then
      match dlclose depth i st with
      | some st => exec e depth ops st
      | none => none
    else none

/-- A program, from its beginning. -/
def program (e : Env) (depth : Nat) (path : Name) (ops : List Op) : Option St :=
  match loadProgram e depth path {} with
  | some (.ok _, st) => exec e depth ops st
  | _ => none

theorem exec_runs {e : Env} {depth : Nat} {path : Name} {st' : St} : ∀ ops pre st, Runs e depth path pre st →
    exec e depth ops st = some st' → Runs e depth path (pre ++ ops) st' := by
  intro ops
  induction ops with
  | nil => intro pre st h h1; cases h1; rw [List.append_nil]; exact h
  | cons op ops ih =>
    intro pre st h h1
    cases op with
    | dlopen n k a b =>
      simp only [exec] at h1
      split at h1
      · rename_i r s hs
        have := ih (pre ++ [.dlopen n k a b]) s (.dlopen h hs) h1
        rwa [List.append_assoc] at this
      · exact absurd h1 (by simp)
    | dlclose i =>
      simp only [exec] at h1
      split at h1
      · rename_i hm
        split at h1
        · rename_i s hs
          have := ih (pre ++ [.dlclose i]) s (.dlclose h hm hs) h1
          rwa [List.append_assoc] at this
        · exact absurd h1 (by simp)
      · exact absurd h1 (by simp)

theorem program_runs {e : Env} {depth : Nat} {path : Name} {ops : List Op} {st : St}
    (h : program e depth path ops = some st) : Runs e depth path ops st := by
  unfold program at h
  split at h
  · rename_i o s hs
    exact exec_runs ops [] s (.start hs) h
  · exact absurd h (by simp)

/-- Files that define nothing thread-local: the name and what it needs. -/
def files (l : List (Name × List Name)) : Env where
  file n := (l.lookup n).map fun needed => ⟨n, needed, none⟩
  libcTls := 64

/-- `liba.so` and `libb.so` both need `libc1.so`. -/
def shared : Env := files [("main", ["libc.so.6"]), ("liba.so", ["libc1.so"]), ("libb.so", ["libc1.so"]), ("libc1.so", [])]

/-- Opened with `RTLD_GLOBAL`, a library two others need is unloaded when one of them is closed, while the other is still open:
`libb.so` is loaded and has an open handle, the library it was linked with is gone. -/
theorem C81_global_violation : ∃ (e : Env) (depth : Nat) (path : Name) (ops : List Op) (st : St) (i : Nat),
    Runs e depth path ops st ∧ InUse st i ∧ st.objects i = none := by
  refine ⟨shared, 9, "main", [.dlopen (some "liba.so") .global false false, .dlopen (some "libb.so") .global false false,
    .dlclose 3], ?_⟩
  have key : ((program shared 9 "main" [.dlopen (some "liba.so") .global false false,
      .dlopen (some "libb.so") .global false false, .dlclose 3]).map fun st =>
        (decide (5 ∈ st.handles), (st.objects 5).map (·.bound), st.objects 4)) = some (true, some [4], none) := by
    decide +kernel
  cases hp : program shared 9 "main" [.dlopen (some "liba.so") .global false false,
      .dlopen (some "libb.so") .global false false, .dlclose 3] with
  | none => rw [hp] at key; exact absurd key (by simp)
  | some st =>
    rw [hp] at key
    simp only [Option.map_some, Option.some.injEq, Prod.mk.injEq, decide_eq_true_eq] at key
    obtain ⟨h1, h2, h3⟩ := key
    cases h5 : st.objects 5 with
    | none => rw [h5] at h2; exact absurd h2 (by simp)
    | some o =>
      rw [h5] at h2
      simp only [Option.map_some, Option.some.injEq] at h2
      exact ⟨st, 4, program_runs hp, .linked (.handle h1) h5 (by rw [h2]; simp), h3⟩

/-- Opened with `RTLD_LOCAL`, what a library needs stays loaded for ever after the library has been closed: nothing uses it, and
there is no handle to close. -/
theorem C81_leak_violation : ∃ (e : Env) (depth : Nat) (path : Name) (ops : List Op) (st : St) (i : Nat) (o : Obj),
    Runs e depth path ops st ∧ st.handles = [] ∧ st.objects i = some o ∧ o.dlopened = true ∧ ¬ InUse st i := by
  refine ⟨shared, 9, "main", [.dlopen (some "liba.so") .loc false false, .dlclose 3], ?_⟩
  have key : ((program shared 9 "main" [.dlopen (some "liba.so") .loc false false, .dlclose 3]).map fun st =>
      (st.handles, st.nextId, (List.range 5).map fun i => (st.objects i).map fun o => (o.dlopened, o.bound))) =
      some ([], 5, [none, some (false, [2]), some (false, []), none, some (true, [])]) := by
    decide +kernel
  cases hp : program shared 9 "main" [.dlopen (some "liba.so") .loc false false, .dlclose 3] with
  | none => rw [hp] at key; exact absurd key (by simp)
  | some st =>
    rw [hp] at key
    have hr := program_runs hp
    have hi := runs_inv hr false (by simp)
    simp only [Option.map_some, Option.some.injEq, Prod.mk.injEq] at key
    obtain ⟨h1, hn, h2⟩ := key
    have r5 : List.range 5 = [0, 1, 2, 3, 4] := by decide
    rw [r5] at h2
    simp only [List.map_cons, List.map_nil, List.cons.injEq, and_true] at h2
    obtain ⟨h20, h21, h22, h23, h24⟩ := h2
    cases h4 : st.objects 4 with
    | none => rw [h4] at h24; exact absurd h24 (by simp)
    | some o =>
      rw [h4] at h24
      simp only [Option.map_some, Option.some.injEq, Prod.mk.injEq] at h24
      refine ⟨st, 4, o, hr, h1, h4, h24.1, ?_⟩
      have all : ∀ i, InUse st i → i = 1 ∨ i = 2 := by
        intro i hu
        induction hu with
        | handle hm => rw [h1] at hm; exact absurd hm (by simp)
        | @program i o ho hd =>
          have := (hi.table i o ho).2
          rw [hn] at this
          have h5 : i = 0 ∨ i = 1 ∨ i = 2 ∨ i = 3 ∨ i = 4 := by omega
          rcases h5 with rfl | rfl | rfl | rfl | rfl
          · rw [ho] at h20; exact absurd h20 (by simp)
          · exact .inl rfl
          · exact .inr rfl
          · rw [ho] at h23; exact absurd h23 (by simp)
          · rw [h4] at ho; cases ho; exact absurd (h24.1.symm.trans hd) (by simp)
        | @linked i o x _ ho hx ih =>
          rcases ih with rfl | rfl
          · rw [ho] at h21
            simp only [Option.map_some, Option.some.injEq, Prod.mk.injEq] at h21
            rw [h21.2] at hx
            exact .inr (List.mem_singleton.1 hx)
          · rw [ho] at h22
            simp only [Option.map_some, Option.some.injEq, Prod.mk.injEq] at h22
            rw [h22.2] at hx
            exact absurd hx (by simp)
      intro hu
      rcases all 4 hu with h | h <;> omega

/-- `RTLD_NOW | RTLD_NOLOAD` panics whether or not the library is loaded. -/
theorem C81_noload_violation (e : Env) (depth : Nat) (name : Option Name) (k : Kind) (st : St) :
    dlopen e depth name k true true st = none := by
  simp [dlopen]

/-- At exit the destructors do not run in the reverse order of the constructors: `libd.so` needs `libb.so`, the constructors of
`libb.so` run before those of `libd.so`, and so do the destructors. -/
theorem C82_exit_violation : ∃ (e : Env) (depth : Nat) (path : Name) (st : St) (b d : Nat) (o : Obj),
    Runs e depth path [] st ∧ st.objects d = some o ∧ b ∈ o.bound ∧
    (finiAll st).log = [.init b, .init d, .init 1, .fini 1, .fini b, .fini d] := by
  refine ⟨files [("main", ["libb.so", "libd.so"]), ("libb.so", []), ("libd.so", ["libb.so"])], 9, "main", ?_⟩
  have key : ((program (files [("main", ["libb.so", "libd.so"]), ("libb.so", []), ("libd.so", ["libb.so"])]) 9 "main" []).map
      fun st => ((st.objects 3).map (·.bound), (finiAll st).log)) =
      some (some [2], [.init 2, .init 3, .init 1, .fini 1, .fini 2, .fini 3]) := by decide +kernel
  cases hp : program (files [("main", ["libb.so", "libd.so"]), ("libb.so", []), ("libd.so", ["libb.so"])]) 9 "main" [] with
  | none => rw [hp] at key; exact absurd key (by simp)
  | some st =>
    rw [hp] at key
    simp only [Option.map_some, Option.some.injEq, Prod.mk.injEq] at key
    cases h3 : st.objects 3 with
    | none => rw [h3] at key; exact absurd key.1 (by simp)
    | some o =>
      rw [h3] at key
      simp only [Option.map_some, Option.some.injEq] at key
      exact ⟨st, 2, 3, o, program_runs hp, h3, by rw [key.1]; simp, key.2⟩

/-- `dlclose` of a library opened with `RTLD_GLOBAL` runs the destructors of what it needs, and unloads it, before the
destructors of the library itself. -/
theorem C82_close_violation : ∃ (e : Env) (depth : Nat) (path : Name) (ops : List Op) (st : St),
    Runs e depth path ops st ∧ st.log = [.init 2, .init 1, .init 4, .init 3, .fini 4, .fini 3] ∧
    Runs e depth path (ops.take 1) ((program e depth path (ops.take 1)).getD {}) ∧
    (((program e depth path (ops.take 1)).getD {}).objects 3).map (·.bound) = some [4] := by
  refine ⟨shared, 9, "main", [.dlopen (some "liba.so") .global false false, .dlclose 3], ?_⟩
  have key : ((program shared 9 "main" [.dlopen (some "liba.so") .global false false, .dlclose 3]).map (·.log)) =
      some [.init 2, .init 1, .init 4, .init 3, .fini 4, .fini 3] := by decide +kernel
  have key2 : ((program shared 9 "main" [.dlopen (some "liba.so") .global false false]).map fun st =>
      (st.objects 3).map (·.bound)) = some (some [4]) := by decide +kernel
  cases hp : program shared 9 "main" [.dlopen (some "liba.so") .global false false, .dlclose 3] with
  | none => rw [hp] at key; exact absurd key (by simp)
  | some st =>
    rw [hp] at key
    simp only [Option.map_some, Option.some.injEq] at key
    refine ⟨st, program_runs hp, key, ?_⟩
    show Runs _ _ _ [_] ((program shared 9 "main" [.dlopen (some "liba.so") .global false false]).getD {}) ∧
      (((program shared 9 "main" [.dlopen (some "liba.so") .global false false]).getD {}).objects 3).map (·.bound) = _
    cases hq : program shared 9 "main" [.dlopen (some "liba.so") .global false false] with
    | none => rw [hq] at key2; exact absurd key2 (by simp)
    | some s =>
      rw [hq] at key2
      simp only [Option.map_some, Option.some.injEq] at key2
      exact ⟨program_runs hq, key2⟩

/-- Two libraries that need a third, opened locally: it stays while one of them is open. -/
example : ((program shared 9 "main" [.dlopen (some "liba.so") .loc true false, .dlopen (some "libb.so") .loc false false,
    .dlopen (some "liba.so") .loc false true, .dlclose 3, .dlclose 3]).map fun st =>
      ((st.objects 3).isSome, (st.objects 4).isSome, st.handles, st.log)) =
    some (false, true, [5], [.init 2, .init 1, .init 4, .init 3, .init 5, .fini 3]) := by decide +kernel

end Verif.Ldso
