import Verif.Ldso.LookupProps
/-!
# C79: where the code departs from the property; examples
-/

namespace Verif.Ldso

/-- What a program sees at its end. -/
theorem program_sees {α : Type} {e : Env} {depth : Nat} {path : Name} {ops : List Op} {f : St → α} {a : α}
    (h : (program e depth path ops).map f = some a) : ∃ st, Runs e depth path ops st ∧ f st = a := by
  cases hp : program e depth path ops with
  | none => rw [hp] at h; exact absurd h (by simp)
  | some st =>
    rw [hp] at h
    exact ⟨st, program_runs hp, by simpa using h⟩

/-- The program needs `liba.so` and `libb.so`. -/
def two : Env := files [("main", ["liba.so", "libb.so"]), ("liba.so", []), ("libb.so", [])]

/-- Of several weak definitions the last one is found, not the first: `liba.so` (2) comes before `libb.so` (3). -/
theorem C79_weak_violation : ∃ (e : Env) (depth : Nat) (path : Name) (st : St) (d : Defs) (n : Name) (r : Option (Nat × Nat)),
    Runs e depth path [] st ∧ dlsym d st none n = some r ∧ ¬ Finds d n st.global r := by
  obtain ⟨st, h, hs⟩ := program_sees (e := two) (depth := 9) (path := "main") (ops := [])
    (f := fun st => (st.global, dlsym (fun i _ => if i = 2 then some (.weak, 20) else if i = 3 then some (.weak, 30) else none) st
      none "f")) (a := ([1, 2, 3], some (some (3, 30)))) (by decide +kernel)
  rw [Prod.mk.injEq] at hs
  refine ⟨two, 9, "main", st, _, "f", _, h, hs.2, ?_⟩
  rw [hs.1]
  rintro ⟨before, after, h1, h2 | ⟨_, h2, _⟩⟩
  · exact absurd h2.1 (by simp)
  · have hb : 2 ∈ before := by
      match before, h1 with
      | [], h1 => simp at h1
      | [a], h1 => simp at h1
      | [a, b], h1 => simp at h1; simp [← h1.2.1]
      | a :: b :: c :: rest, h1 => simp at h1
    exact absurd (h2 2 hb) (by simp)

/-- `liba.so` needs `libb.so`, which needs `libc1.so`. -/
def chain : Env := files [("main", ["libc.so.6"]), ("liba.so", ["libb.so"]), ("libb.so", ["libc1.so"]), ("libc1.so", [])]

/-- `dlsym` of a library does not find what only the library of its library defines: `libc1.so` (5). -/
theorem C79_deps_violation : ∃ (e : Env) (depth : Nat) (path : Name) (ops : List Op) (st : St) (d : Defs) (n : Name)
    (a b c : Nat) (oa ob : Obj), Runs e depth path ops st ∧ AllLocal ops ∧ a ∈ st.handles ∧ st.objects a = some oa ∧
      b ∈ oa.bound ∧ st.objects b = some ob ∧ c ∈ ob.bound ∧ d c n = some (.global, 50) ∧
      dlsym d st (some a) n = some none := by
  obtain ⟨st, h, hs⟩ := program_sees (e := chain) (depth := 9) (path := "main")
    (ops := [.dlopen (some "liba.so") .loc false false])
    (f := fun st => (decide (3 ∈ st.handles), (st.objects 3).map (·.bound), (st.objects 4).map (·.bound),
      dlsym (fun i _ => if i = 5 then some (.global, 50) else none) st (some 3) "f"))
    (a := (true, some [4], some [5], some none)) (by set_option synthInstance.maxSize 1024 in decide +kernel)
  simp only [Prod.mk.injEq, decide_eq_true_eq, Option.map_eq_some_iff] at hs
  obtain ⟨h1, ⟨oa, h2, h3⟩, ⟨ob, h4, h5⟩, h6⟩ := hs
  refine ⟨chain, 9, "main", _, st, _, "f", 3, 4, 5, oa, ob, h, ?_, h1, h2, by simp [h3], h4, by simp [h5], rfl, h6⟩
  intro name k a b hm
  simp at hm
  exact hm.2.1

/-- `dlsym` of the handle `dlopen(NULL)` has given does not find what the libraries of the program define, though `RTLD_DEFAULT`
does. -/
theorem C79_null_violation : ∃ (e : Env) (depth : Nat) (path : Name) (st : St) (d : Defs) (n : Name),
    Runs e depth path [.dlopen none .loc false false] st ∧ st.handles = [1] ∧ dlsym d st none n = some (some (2, 20)) ∧
      dlsym d st (some 1) n = some none := by
  obtain ⟨st, h, hs⟩ := program_sees (e := two) (depth := 9) (path := "main") (ops := [.dlopen none .loc false false])
    (f := fun st => (st.handles, dlsym (fun i _ => if i = 2 then some (.global, 20) else none) st none "f",
      dlsym (fun i _ => if i = 2 then some (.global, 20) else none) st (some 1) "f"))
    (a := ([1], some (some (2, 20)), some none)) (by decide +kernel)
  simp only [Prod.mk.injEq] at hs
  exact ⟨two, 9, "main", st, _, "f", h, hs.1, hs.2.1, hs.2.2⟩

/-- After opening a library with `RTLD_GLOBAL` has failed, because a library it needs is missing, `RTLD_DEFAULT` panics for each
name that the program itself does not define. -/
theorem C79_failed_violation : ∃ (e : Env) (depth : Nat) (path : Name) (ops : List Op) (st : St),
    Runs e depth path ops st ∧ ∀ n, dlsym (fun _ _ => none) st none n = none := by
  obtain ⟨st, h, hs⟩ := program_sees (e := files [("main", ["libc.so.6"]), ("liba.so", ["libmissing.so"])]) (depth := 9)
    (path := "main") (ops := [.dlopen (some "liba.so") .global false false])
    (f := fun st => (st.global, (st.objects 1).isSome, (st.objects 2).isSome, (st.objects 3).isSome))
    (a := ([1, 2, 3], true, true, false)) (by decide +kernel)
  simp only [Prod.mk.injEq] at hs
  refine ⟨_, 9, "main", _, st, h, ?_⟩
  intro n
  unfold dlsym
  simp [searchGlobal, hs]

/-- A weak definition in the global scope wins over the library's own global definition. -/
theorem C79_global_first_violation : ∃ (e : Env) (depth : Nat) (path : Name) (ops : List Op) (st : St) (d : Defs) (n : Name)
    (id : Nat) (o : Obj), Runs e depth path ops st ∧ st.objects id = some o ∧ d id n = some (.global, 30) ∧
      d 1 n = some (.weak, 10) ∧ resolve d st o n = some (some (1, 10)) := by
  obtain ⟨st, h, hs⟩ := program_sees (e := files [("main", []), ("liba.so", [])]) (depth := 9)
    (path := "main") (ops := [.dlopen (some "liba.so") .loc false false])
    (f := fun st => (st.objects 2).map fun o => resolve (fun i _ => if i = 1 then some (.weak, 10) else some (.global, 30)) st o
      "f") (a := some (some (some (1, 10)))) (by decide +kernel)
  simp only [Option.map_eq_some_iff] at hs
  obtain ⟨o, h1, h2⟩ := hs
  exact ⟨_, 9, "main", _, st, _, "f", 2, o, h, h1, rfl, rfl, h2⟩

example : (program shared 9 "main" [.dlopen (some "liba.so") .loc false false]).map (fun st =>
      (st.global, dlsym (fun i _ => if i = 4 then some (.global, 40) else none) st (some 3) "f",
        dlsym (fun i _ => if i = 4 then some (.global, 40) else none) st none "f")) =
    some ([1, 2], some (some (4, 40)), some none) := by decide +kernel

end Verif.Ldso
