import Verif.Fnmatch.FnmatchModel
/-!
# `glob` and `globfree`

`src/header/glob/mod.rs`. Strings are lists of bytes without the terminator.

* The file system is a parameter: what `opendir` and `readdir` give for a name, and whether `stat` finds a directory.
* `errfunc` is a function of its arguments. `none` = a null pointer was given.
* `none` as a result = a fault: `fnmatch` reads beyond a pattern, or `__opaque` is null.
-/

namespace Verif.Glob
open Verif.Mem Verif.Fnmatch

/-- A pathname. -/
abbrev Name := List UInt8

/-- The flags (`src/header/glob/mod.rs:23-38`). -/
structure GFlags where
  err : Bool
  mark : Bool
  nosort : Bool
  dooffs : Bool
  nocheck : Bool
  append : Bool
  noescape : Bool
  period : Bool

/-- `d_type`: `DT_DIR`, `DT_LNK` or another one. -/
inductive Kind where
  | dir
  | link
  | other
deriving DecidableEq

/-- The file system: the entries of a directory and the error that ends their list, if one does, or the error of `opendir`; whether
`stat` finds a directory, or its error. -/
structure Fs where
  opendir : Name → Except Int32 (List (Name × Kind) × Option Int32)
  stat : Name → Except Int32 Bool

/-- What `glob` is called with, apart from flags and pattern; `errno` is its value before the call. -/
structure Env where
  fs : Fs
  errfunc : Option (Name → Int32 → Int32)
  errno : Int32

/-- `errfunc` or `default_errfunc` (`src/header/glob/mod.rs:180-182`), whether it returns something other than 0. -/
def Env.stop (e : Env) (path : Name) (errno : Int32) : Bool :=
  match e.errfunc with
  | none => false
  | some f => f path errno != 0

/-- `DirEntry` (`src/header/glob/mod.rs:175-178`). -/
structure DirEntry where
  name : Name
  isDir : Bool
deriving DecidableEq

/-- The path of an entry (`src/header/glob/mod.rs:231-235`, `src/header/glob/mod.rs:350-355`). -/
def join (dir name : Name) : Name :=
  if dir ≠ [] ∧ dir.getLast? ≠ some 0x2F then dir ++ [0x2F] ++ name else dir ++ name

/-- The loop of `list_dir` (`src/header/glob/mod.rs:212-253`): the entries and `errno` after it; `none` = aborted. -/
def listLoop (e : Env) (path : Name) (abort : Bool) (errno : Int32) : List (Name × Kind) → Option (List DirEntry × Int32)
  | [] => some ([], errno)
  | (name, k) :: l =>
    if name = [0x2E] ∨ name = [0x2E, 0x2E] then listLoop e path abort errno l
    else
      match k with
      | .dir => (listLoop e path abort errno l).map fun r => (⟨name, true⟩ :: r.1, r.2)
      | .other => (listLoop e path abort errno l).map fun r => (⟨name, false⟩ :: r.1, r.2)
      | .link =>
        match e.fs.stat (join path name) with
        | .ok d => (listLoop e path abort errno l).map fun r => (⟨name, d⟩ :: r.1, r.2)
        | .error n =>
          if e.stop (join path name) n || abort then none
          else (listLoop e path abort e.errno l).map fun r => (⟨name, false⟩ :: r.1, r.2)

/-- `list_dir` (`src/header/glob/mod.rs:184-268`); `none` = `GLOB_ABORTED`. -/
def listDir (e : Env) (path : Name) (abort : Bool) : Option (List DirEntry) :=
  match e.fs.opendir (if path = [] then [0x2E] else path) with
  | .error n => if e.stop path n || abort then none else some []
  | .ok (entries, failure) =>
    match listLoop e path abort 0 entries with
    | none => none
    | some (results, errno) =>
      let errno := failure.getD errno
      if errno ≠ 0 ∧ (e.stop path errno || abort) then none else some results

/-- The loop for the next section of the expression (`src/header/glob/mod.rs:287-316`): the section and what follows it. -/
def nextSection (noescape : Bool) : List UInt8 → (inBracket escaped : Bool) → List UInt8 × List UInt8
  | [], _, _ => ([], [])
  | ch :: l, inBracket, escaped =>
    if ch = 0x2F ∧ !escaped then ([], l)
    else
      let inBracket := if ch = 0x5B ∧ !escaped then true else if ch = 0x5D then false else inBracket
      let escaped := ch == 0x5C && !inBracket && !escaped && !noescape
      let r := nextSection noescape l inBracket escaped
      (ch :: r.1, r.2)

theorem nextSection_length (noescape : Bool) (l : List UInt8) (b e : Bool) :
    (nextSection noescape l b e).1.length + (nextSection noescape l b e).2.length ≤ l.length
    ∧ (l ≠ [] → (nextSection noescape l b e).2.length < l.length) := by
  induction l generalizing b e with
  | nil => simp [nextSection]
  | cons c l ih =>
    rw [nextSection]
    split
    · simp
    · have := ih (if c = 0x5B ∧ !e then true else if c = 0x5D then false else b)
        (c == 0x5C && !(if c = 0x5B ∧ !e then true else if c = 0x5D then false else b) && !e && !noescape)
      simp only [List.length_cons]
      omega

/-- `fnmatch(pattern, name, flags) == 0` (`src/header/glob/mod.rs:334-340,364-370`). -/
def matchName (f : GFlags) (pattern name : Name) : Option Bool :=
  (fnmatch (ofList 0 (pattern ++ [0] ++ name ++ [0])) 0 (pattern.length + 1) ⟨f.noescape, false, f.period, false⟩).map (· == 0)

/-- The loop over the entries (`src/header/glob/mod.rs:344-379`); `more` = something of the expression is left, for which `sub` is the
call. The inner `none` = `GLOB_ABORTED`. -/
def matchLoop (f : GFlags) (dir pattern : Name) (more : Bool) (sub : Name → Option (Option (List Name))) :
    List DirEntry → Option (Option (List Name))
  | [] => some (some [])
  | entry :: l =>
    if more ∧ !entry.isDir then matchLoop f dir pattern more sub l
    else
      let path := if f.mark ∧ !more ∧ entry.isDir then join dir entry.name ++ [0x2F] else join dir entry.name
      match matchName f pattern entry.name with
      | none => none
      | some false => matchLoop f dir pattern more sub l
      | some true =>
        match if entry.isDir ∧ more then sub path else some (some [path]) with
        | none => none
        | some none => some none
        | some (some new) =>
          match matchLoop f dir pattern more sub l with
          | some (some rest) => some (some (new ++ rest))
          | r => r

/-- `inner_glob` (`src/header/glob/mod.rs:270-393`); the inner `none` = `GLOB_ABORTED`. -/
def innerGlob (e : Env) (f : GFlags) (dir expr : Name) : Option (Option (List Name)) :=
  let expr' := expr.dropWhile (· == 0x2F)
  let s := nextSection f.noescape expr' false false
  if s.1 = [0x2E] ∨ s.1 = [0x2E, 0x2E] then innerGlob e f (dir ++ s.1) s.2
  else
    match listDir e dir f.err with
    | none => some none
    | some entries =>
      let sub := fun path => if s.2 ≠ [] then innerGlob e f path s.2 else some (some [])
      match matchLoop f dir s.1 (s.2 ≠ []) sub entries with
      | some (some []) =>
        if s.2 ≠ [] ∧ (e.stop (dir ++ s.1) 2 || f.err) then some none else some (some [])
      | r => r
termination_by expr.length
decreasing_by
  · rename_i h
    have h1 := nextSection_length f.noescape (expr.dropWhile (· == 0x2F)) false false
    have h2 := (List.dropWhile_sublist (l := expr) (· == 0x2F)).length_le
    have h3 : 0 < (nextSection f.noescape (expr.dropWhile (· == 0x2F)) false false).1.length := by
      rcases h with h | h <;> rw [h] <;> decide
    omega
  · rename_i h
    have h1 := nextSection_length f.noescape (expr.dropWhile (· == 0x2F)) false false
    have h2 := (List.dropWhile_sublist (l := expr) (· == 0x2F)).length_le
    by_cases h0 : expr.dropWhile (· == 0x2F) = []
    · change (nextSection f.noescape (expr.dropWhile (· == 0x2F)) false false).2 ≠ [] at h
      rw [h0] at h
      exact absurd rfl h
    · have := h1.2 h0
      omega

/-- `glob_t` (`src/header/glob/mod.rs:50-57`); `pathv` is the vector at `__opaque`, whose elements `gl_pathv` points to. -/
structure GlobT where
  pathc : Nat
  offs : Nat
  pathv : Option (List (Option Name))
deriving DecidableEq

/-- Rust's `sort` of byte strings. -/
def sortNames (l : List Name) : List Name := l.mergeSort fun a b => decide (a ≤ b)

/-- `glob` (`src/header/glob/mod.rs:62-148`): the return value (0, 2 = `GLOB_ABORTED`, 3 = `GLOB_NOMATCH`) and `*pglob`. The count does
not overflow. -/
def glob (e : Env) (f : GFlags) (pattern : Name) (g : GlobT) : Option (Int32 × GlobT) :=
  let g := if f.append then g else { g with pathc := 0, pathv := none }
  if pattern = [] then some (3, g)
  else
    let base : Name := if pattern.head? = some 0x2F then [0x2F] else []
    match if f.append then g.pathv.map List.dropLast else some (if f.dooffs then List.replicate g.offs none else []) with
    | none => none
    | some pathv =>
      match innerGlob e f base pattern with
      | none => none
      | some none => some (2, { g with pathv := some (pathv ++ [none]) })
      | some (some results) =>
        if results = [] ∧ !f.nocheck then some (3, { g with pathv := some (pathv ++ [none]) })
        else
          let results := if results = [] then [pattern] else results
          let results := if f.nosort then results else sortNames results
          some (0, { g with pathc := g.pathc + results.length, pathv := some (pathv ++ results.map some ++ [none]) })

/-- `globfree` (`src/header/glob/mod.rs:153-171`): the strings that are freed, and whether the vector is. The field `__opaque` is
left as it is: `pathv` of the result is what it points to. -/
def globfree (g : GlobT) : List Name × Bool :=
  match g.pathv with
  | none => ([], false)
  | some l => ((l.drop g.offs).filterMap id, true)

end Verif.Glob
