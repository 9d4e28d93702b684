import Verif.Ldso.MapModel
/-!
# C86: where a library is looked for

A name with a slash is a path, used as it is. Another name is looked for in the directories of `LD_LIBRARY_PATH`, then of the run
path of the object that needs it (`DT_RUNPATH`), then `/lib`. The library is the first one there is.
-/

namespace Verif.Ldso

/-- What is tried, in order. -/
def candidates (runpath ldPath : List String) (name : String) : List String :=
  if '/' ∈ name.toList then [name] else (ldPath ++ runpath ++ ["/lib"]).map (· ++ "/" ++ name)

/-- `p` is the first of the paths there is. -/
def FirstThere (there : String → Bool) (paths : List String) (p : String) : Prop :=
  ∃ pre post, paths = pre ++ p :: post ∧ there p = true ∧ ∀ q ∈ pre, there q = false

theorem find_first (there : String → Bool) : ∀ (l : List String), (∀ p, l.find? there = some p ↔ FirstThere there l p) ∧
    (l.find? there = none ↔ ∀ q ∈ l, there q = false) := by
  intro l
  refine ⟨?_, by simp⟩
  intro p
  rw [List.find?_eq_some_iff_append]
  unfold FirstThere
  constructor
  · rintro ⟨h1, pre, post, h2, h3⟩
    exact ⟨pre, post, h2, h1, fun q hq => by simpa using h3 q hq⟩
  · rintro ⟨pre, post, h2, h1, h3⟩
    exact ⟨h1, pre, post, h2, fun q hq => by simpa using h3 q hq⟩

/-- A name without a slash that is not the name of a file in the current directory is looked for as it should be, if at most one of
the two paths is given. -/
theorem C86_search_partial (there : String → Bool) (runpath ldPath : List String) (name : String) (hs : '/' ∉ name.toList)
    (hcwd : there name = false) (hone : runpath = [] ∨ ldPath = []) :
    (∀ p, searchObject there runpath ldPath name = some p ↔ FirstThere there (candidates runpath ldPath name) p) ∧
    (searchObject there runpath ldPath name = none ↔ ∀ p ∈ candidates runpath ldPath name, there p = false) := by
  have : searchObject there runpath ldPath name = (candidates runpath ldPath name).find? there := by
    unfold searchObject candidates
    rw [hcwd, if_neg (by simp), if_neg hs]
    rcases hone with rfl | rfl <;> simp
  rw [this]
  exact find_first there _

/-- A path that is there is used as it is. -/
theorem C86_path_partial (there : String → Bool) (runpath ldPath : List String) (name : String) (h : there name = true) :
    searchObject there runpath ldPath name = some name := by
  unfold searchObject
  rw [if_pos h]

/-- Whatever is found is there, and is in one of the directories or the name itself. -/
theorem C86_sound (there : String → Bool) (runpath ldPath : List String) (name p : String)
    (h : searchObject there runpath ldPath name = some p) :
    there p = true ∧ (p = name ∨ ∃ d, (d ∈ ldPath ∨ d ∈ runpath ∨ d = "/lib") ∧ p = d ++ "/" ++ name) := by
  unfold searchObject at h
  split at h
  · rename_i h1; cases h; exact ⟨h1, .inl rfl⟩
  · refine ⟨by simpa using List.find?_some h, .inr ?_⟩
    have := List.mem_of_find?_eq_some h
    simp only [List.mem_map, List.mem_append, List.mem_singleton] at this
    obtain ⟨d, h1, h2⟩ := this
    exact ⟨d, by rcases h1 with (h | h) | h <;> simp [h], h2.symm⟩

/-- If it is nowhere it is not found, and only then. -/
theorem C86_none (there : String → Bool) (runpath ldPath : List String) (name : String) :
    searchObject there runpath ldPath name = none ↔
      there name = false ∧ ∀ d, d ∈ ldPath ∨ d ∈ runpath ∨ d = "/lib" → there (d ++ "/" ++ name) = false := by
  unfold searchObject
  split
  · rename_i h; simp [h]
  · rename_i h
    simp only [List.find?_eq_none, List.mem_map, List.mem_append, List.mem_singleton]
    constructor
    · intro g
      refine ⟨by simpa using h, ?_⟩
      intro d hd
      have := g _ ⟨d, by rcases hd with h | h | h <;> simp [h], rfl⟩
      simpa using this
    · rintro ⟨_, g⟩ x ⟨d, hd, rfl⟩
      have := g d (by rcases hd with (h | h) | h <;> simp [h])
      simp [this]

/-- A file of the name in the current directory of the process is taken for the library, whatever the directories hold. -/
theorem C86_cwd_violation : ∃ (there : String → Bool) (name : String), FirstThere there (candidates [] [] name) "/lib/libm.so" ∧
    searchObject there [] [] name = some "libm.so" :=
  ⟨fun p => p = "libm.so" ∨ p = "/lib/libm.so", "libm.so", ⟨[], [], by decide, by decide, by simp⟩, by decide⟩

/-- The run path comes before `LD_LIBRARY_PATH`. -/
theorem C86_order_violation : ∃ (there : String → Bool) (name : String),
    FirstThere there (candidates ["/run"] ["/env"] name) "/env/libm.so" ∧ searchObject there ["/run"] ["/env"] name = some "/run/libm.so" :=
  ⟨fun p => p = "/run/libm.so" ∨ p = "/env/libm.so", "libm.so", ⟨[], ["/run/libm.so", "/lib/libm.so"], by decide, by decide, by simp⟩,
    by decide⟩

/-- A path that is not there is looked for below the directories. -/
theorem C86_slash_violation : ∃ (there : String → Bool) (name : String), (∀ p ∈ candidates [] [] name, there p = false) ∧
    searchObject there [] [] name = some "/lib//opt/libx.so" :=
  ⟨fun p => p = "/lib//opt/libx.so", "/opt/libx.so", by decide, by decide⟩

example : searchObject (fun p => p = "/b/libm.so" ∨ p = "/lib/libm.so") ["/a", "/b"] [] "libm.so" = some "/b/libm.so" := by decide

end Verif.Ldso
