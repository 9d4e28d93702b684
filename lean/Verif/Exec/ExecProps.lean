import Verif.Exec.ExecModel

/-!
# C102: programs are found along `PATH`; C103: the argument lists of `execl`
-/

namespace Verif.Exec

/-! ## C102: specification -/

/-- `PATH` with these elements. -/
def pathOf : List Path → Path
  | [] => []
  | [e] => e
  | e :: es => e ++ 58 :: pathOf es

/-- The name that the search tries in a directory: an empty element is the working directory. -/
def inDir (file dir : Path) : Path := if dir = [] then file else dir ++ 47 :: file

/-- The names to try: those that fit in `PATH_MAX` bytes with their NUL. -/
def names (file : Path) (elems : List Path) : List Path := (elems.map (inDir file)).filter fun p => p.length + 1 ≤ 4096

/-- `p` is the first of the names with the property. -/
def First (P : Path → Prop) (ps : List Path) (p : Path) : Prop :=
  ∃ before after, ps = before ++ p :: after ∧ P p ∧ ∀ q ∈ before, ¬ P q

/-- The error of a search in which nothing could be executed: `ENOENT` if none of the names exists, otherwise another name's error
number, the last. -/
def SearchError (exec : Path → Option Int32) (ps : List Path) (e : Int32) : Prop :=
  (∀ q ∈ ps, exec q ≠ none) ∧
  ((e = 2 ∧ ∀ q ∈ ps, exec q = some 2) ∨
    (e ≠ 2 ∧ ∃ before p after, ps = before ++ p :: after ∧ exec p = some e ∧ ∀ q ∈ after, exec q = some 2))

/-! ## Lemmas -/

theorem splitAt_last {e : Path} (h : 58 ∉ e) : splitAt 58 e = [e] := by
  induction e with
  | nil => rfl
  | cons b e ih =>
    simp only [List.mem_cons, not_or] at h
    rw [splitAt, if_neg (fun hb => h.1 hb.symm), ih h.2]

theorem splitAt_append {e : Path} (h : 58 ∉ e) (l : Path) : splitAt 58 (e ++ 58 :: l) = e :: splitAt 58 l := by
  induction e with
  | nil => simp [splitAt]
  | cons b e ih =>
    simp only [List.mem_cons, not_or] at h
    rw [List.cons_append, splitAt, if_neg (fun hb => h.1 hb.symm), ih h.2]

theorem splitAt_pathOf {elems : List Path} (hne : elems ≠ []) (h : ∀ e ∈ elems, 58 ∉ e) : splitAt 58 (pathOf elems) = elems := by
  induction elems with
  | nil => exact absurd rfl hne
  | cons e es ih =>
    have he := h e List.mem_cons_self
    cases es with
    | nil => exact splitAt_last he
    | cons f es =>
      rw [pathOf, splitAt_append he, ih (by simp) fun x hx => h x (List.mem_cons_of_mem _ hx)]
      simp

theorem candidates_eq {elems : List Path} (hne : elems ≠ []) (h : ∀ e ∈ elems, 58 ∉ e ∧ e ≠ []) (file : Path) :
    candidates file (pathOf elems) = names file elems := by
  rw [candidates, splitAt_pathOf hne fun e he => (h e he).1, names]
  clear hne
  induction elems with
  | nil => rfl
  | cons e es ih =>
    have ih := ih fun x hx => h x (List.mem_cons_of_mem _ hx)
    have e1 := (h e List.mem_cons_self).2
    have hl : (inDir file e).length + 1 = e.length + file.length + 2 := by
      simp [inDir, e1]; omega
    have hi : e ++ [47] ++ file = inDir file e := by simp [inDir, e1]
    rw [List.filterMap_cons, List.map_cons, hi]
    by_cases hc : e.length + file.length + 2 > 4096
    · rw [if_pos hc, List.filter_cons_of_neg (by simp only [decide_eq_true_eq]; omega)]
      exact ih
    · rw [if_neg hc, List.filter_cons_of_pos (by simp only [decide_eq_true_eq]; omega), ih]

theorem execLoop_spec (exec : Path → Option Int32) (ps : List Path) (error : Int32) :
    (∃ p, First (fun q => exec q = none) ps p ∧ execLoop exec ps error = .replaced p) ∨
    ((∀ q ∈ ps, exec q ≠ none) ∧ ∃ e, execLoop exec ps error = .failed e ∧
      ((e = error ∧ ∀ q ∈ ps, exec q = some 2) ∨
        (e ≠ 2 ∧ ∃ before p after, ps = before ++ p :: after ∧ exec p = some e ∧ ∀ q ∈ after, exec q = some 2))) := by
  induction ps generalizing error with
  | nil => exact .inr ⟨by simp, error, rfl, .inl ⟨rfl, by simp⟩⟩
  | cons p ps ih =>
    rw [execLoop, execv]
    cases hp : exec p with
    | none => exact .inl ⟨p, ⟨[], ps, rfl, hp, by simp⟩, rfl⟩
    | some e0 =>
      simp only
      rcases ih (if e0 = ENOENT then error else e0) with ⟨q, ⟨b, a, h1, h2, h3⟩, h4⟩ | ⟨hn, e, h1, h2⟩
      · refine .inl ⟨q, ⟨p :: b, a, by rw [h1]; rfl, h2, ?_⟩, h4⟩
        intro x hx
        rcases List.mem_cons.1 hx with rfl | hx
        · intro (hx : _ = _); rw [hp] at hx; cases hx
        · exact h3 x hx
      · refine .inr ⟨?_, e, h1, ?_⟩
        · intro x hx
          rcases List.mem_cons.1 hx with rfl | hx
          · rw [hp]; exact nofun
          · exact hn x hx
        · rcases h2 with ⟨h2, h3⟩ | ⟨h2, b, x, a, h3, h4⟩
          · by_cases h0 : e0 = ENOENT
            · rw [if_pos h0] at h2
              refine .inl ⟨h2, ?_⟩
              intro y hy
              rcases List.mem_cons.1 hy with rfl | hy
              · rw [hp, h0]; rfl
              · exact h3 y hy
            · rw [if_neg h0] at h2
              subst h2
              exact .inr ⟨h0, [], p, ps, rfl, hp, h3⟩
          · exact .inr ⟨h2, p :: b, x, a, by rw [h3]; rfl, h4⟩

theorem first_unique {P : Path → Prop} {ps : List Path} {p q : Path} (h : First P ps p) (h' : First P ps q) : p = q := by
  obtain ⟨b, a, h1, h2, h3⟩ := h
  obtain ⟨b', a', h1', h2', h3'⟩ := h'
  subst h1
  induction b generalizing b' with
  | nil =>
    cases b' with
    | nil => simp at h1'; exact h1'.1
    | cons x b' =>
      simp only [List.nil_append, List.cons_append, List.cons.injEq] at h1'
      exact absurd h2 (h1'.1 ▸ h3' x List.mem_cons_self)
  | cons x b ih =>
    cases b' with
    | nil =>
      simp only [List.nil_append, List.cons_append, List.cons.injEq] at h1'
      exact absurd h2' (h1'.1 ▸ h3 x List.mem_cons_self)
    | cons y b' =>
      simp only [List.cons_append, List.cons.injEq] at h1'
      exact ih (fun z hz => h3 z (List.mem_cons_of_mem _ hz)) b' (fun z hz => h3' z (List.mem_cons_of_mem _ hz)) h1'.2

/-! ## C102 -/

/-- **C102**: a name without a slash (and on Redox without a colon) is looked for in the directories of `PATH`, in their order: the
process becomes the first of the names that can be executed, just if there is one; otherwise `execvp` fails with `ENOENT`, or with the
error of the last name for which there was another. Missing: empty elements of `PATH` (`C102_empty_violation`). -/
theorem C102_execvp_partial (redox : Bool) (exec : Path → Option Int32) {elems : List Path} {file : Path} (hf : 47 ∉ file)
    (hc : redox = true → 58 ∉ file) (hne : elems ≠ []) (h : ∀ e ∈ elems, 58 ∉ e ∧ e ≠ []) :
    (∀ p, execvp redox exec (some (pathOf elems)) file = .replaced p ↔ First (fun q => exec q = none) (names file elems) p) ∧
    (∀ e, execvp redox exec (some (pathOf elems)) file = .failed e → SearchError exec (names file elems) e) := by
  have hd : (file.contains 47 || (redox && file.contains 58)) = false := by
    cases redox with
    | false => simpa using hf
    | true => simpa using ⟨hf, hc rfl⟩
  have e0 : execvp redox exec (some (pathOf elems)) file = execLoop exec (names file elems) ENOENT := by
    simp only [execvp, hd, Bool.false_eq_true, if_false, candidates_eq hne h]
  rw [e0]
  rcases execLoop_spec exec (names file elems) ENOENT with ⟨p, h1, h2⟩ | ⟨hn, e, h1, h2⟩
  · rw [h2]
    refine ⟨fun q => ⟨?_, ?_⟩, nofun⟩
    · rintro ⟨⟩; exact h1
    · intro hq; rw [first_unique h1 hq]
  · rw [h1]
    refine ⟨fun q => ⟨nofun, ?_⟩, ?_⟩
    · rintro ⟨b, a, g1, g2, g3⟩
      exact absurd g2 (hn q (by rw [g1]; simp))
    · rintro _ ⟨⟩
      exact ⟨hn, h2⟩

/-- **C102**: a name with a slash is executed as it is. -/
theorem C102_slash (redox : Bool) (exec : Path → Option Int32) (pathEnv : Option Path) {file : Path} (hf : 47 ∈ file) :
    (∀ p, execvp redox exec pathEnv file = .replaced p ↔ p = file ∧ exec file = none) ∧
    (∀ e, execvp redox exec pathEnv file = .failed e ↔ exec file = some e) := by
  have : file.contains 47 = true := by simpa using hf
  simp only [execvp, this, Bool.true_or, if_true, execv]
  cases exec file with
  | none => exact ⟨fun p => by simp [eq_comm], fun e => by simp⟩
  | some x => exact ⟨fun p => by simp, fun e => by simp⟩

/-- **C102**: without `PATH` nothing is found. -/
theorem C102_unset (redox : Bool) (exec : Path → Option Int32) {file : Path} (hf : 47 ∉ file) (hc : redox = true → 58 ∉ file) :
    execvp redox exec none file = .failed 2 := by
  have hd : (file.contains 47 || (redox && file.contains 58)) = false := by
    cases redox with
    | false => simpa using hf
    | true => simpa using ⟨hf, hc rfl⟩
  simp only [execvp, hd, Bool.false_eq_true, if_false]
  rfl

/-- C102 fails for an empty element of `PATH`: the root directory is searched instead of the working directory. -/
theorem C102_empty_violation : ∃ exec : Path → Option Int32,
    First (fun q => exec q = none) (names [108, 115] [[], [47, 98]]) [108, 115] ∧
    execvp false exec (some (pathOf [[], [47, 98]])) [108, 115] = .replaced [47, 108, 115] :=
  ⟨fun _ => none, ⟨[], _, rfl, rfl, by simp⟩, by decide⟩

/-- **C102**: `posix_spawnp` spawns the first of the names that exists, and gives `ENOENT` if none does. -/
theorem C102_spawnp_partial {β : Type} (access : Path → Bool) (spawn : Path → β) (noent : β) {elems : List Path} {file : Path}
    (hf : 47 ∉ file) (hne : elems ≠ []) (h : ∀ e ∈ elems, 58 ∉ e ∧ e ≠ []) :
    (∃ p, First (fun q => access q = true) (names file elems) p ∧
      posixSpawnp access spawn noent (some (pathOf elems)) file = spawn p) ∨
    ((∀ q ∈ names file elems, access q = false) ∧ posixSpawnp access spawn noent (some (pathOf elems)) file = noent) := by
  have hd : file.contains 47 = false := by simpa using hf
  have e0 : posixSpawnp access spawn noent (some (pathOf elems)) file = spawnLoop access spawn noent (names file elems) := by
    simp only [posixSpawnp, hd, Bool.false_eq_true, if_false, candidates_eq hne h]
  rw [e0]
  generalize names file elems = ps
  clear e0
  induction ps with
  | nil => exact .inr ⟨by simp, rfl⟩
  | cons p ps ih =>
    rw [spawnLoop]
    cases hp : access p with
    | true => exact .inl ⟨p, ⟨[], ps, rfl, hp, by simp⟩, rfl⟩
    | false =>
      rcases ih with ⟨q, ⟨b, a, h1, h2, h3⟩, h4⟩ | ⟨h1, h2⟩
      · refine .inl ⟨q, ⟨p :: b, a, by rw [h1]; rfl, h2, ?_⟩, h4⟩
        intro x hx
        rcases List.mem_cons.1 hx with rfl | hx
        · intro (hx : _ = _); rw [hp] at hx; cases hx
        · exact h3 x hx
      · refine .inr ⟨?_, h2⟩
        intro x hx
        rcases List.mem_cons.1 hx with rfl | hx
        · exact hp
        · exact h1 x hx

/-- C102 fails for `posix_spawnp` if a file exists that cannot be executed: `execvp` finds the program in the next directory,
`posix_spawnp` gives the error. -/
theorem C102_spawnp_violation : ∃ exec : Path → Option Int32,
    execvp false exec (some (pathOf [[47, 97], [47, 98]])) [108, 115] = .replaced [47, 98, 47, 108, 115] ∧
    posixSpawnp (fun _ => true) (execv exec) (.failed 2) (some (pathOf [[47, 97], [47, 98]])) [108, 115] = .failed 13 :=
  ⟨fun p => if p = [47, 97, 47, 108, 115] then some 13 else none, by decide, by decide⟩

/-- The theorem applies: the name is in the second of two directories, and cannot be executed in the first. -/
example : let exec : Path → Option Int32 := fun p => if p = [47, 97, 47, 108, 115] then some 13 else none
    execvp true exec (some [47, 97, 58, 47, 98]) [108, 115] = .replaced [47, 98, 47, 108, 115] ∧
    execvp true (fun p => if p = [47, 97, 47, 108, 115] then some 13 else some 2) (some [47, 97, 58, 47, 98]) [108, 115] = .failed 13 := by
  decide

/-! ## C103 -/

theorem position_eq {args : List Nat} (h : ∀ a ∈ args, a ≠ 0) (rest : List Nat) : position (args ++ 0 :: rest) = some args.length := by
  induction args with
  | nil => rfl
  | cons a l ih =>
    rw [List.cons_append, position, if_neg (h a List.mem_cons_self), ih fun x hx => h x (List.mem_cons_of_mem _ hx)]
    rfl

theorem fill_eq (args : List Nat) (pre : List (Option Nat)) (post : List (Option Nat)) (rest : List Nat)
    (hp : args.length ≤ post.length) :
    fill (pre ++ post) (pre.length + args.length) pre.length (args ++ rest) =
      some (pre ++ args.map some ++ post.drop args.length, rest) := by
  induction args generalizing pre post with
  | nil => rw [fill.eq_def]; simp
  | cons a l ih =>
    cases post with
    | nil => simp at hp
    | cons x post =>
      rw [fill.eq_def, if_pos (by simp)]
      simp only [List.cons_append]
      have := ih (pre ++ [some a]) post (by simpa using hp)
      simp only [List.length_append, List.length_cons, List.length_nil] at this ⊢
      rw [show pre.length + (l.length + 1) = pre.length + (0 + 1) + l.length by omega]
      have e : (pre ++ x :: post).set pre.length (some a) = pre ++ [some a] ++ post := by simp
      rw [e, this]
      simp

theorem finish_eq {arg0 : Nat} {args rest : List Nat} (n : Nat) (hn : args.length + 1 < n) :
    ∃ junk, withArgv.finish arg0 (args ++ 0 :: rest) (1 + args.length) (List.replicate n none) =
      some (.ok ((some arg0 :: args.map some) ++ some 0 :: junk, rest)) := by
  obtain ⟨m, rfl⟩ : ∃ m, n = 1 + m := ⟨n - 1, by omega⟩
  refine ⟨(List.replicate m none).drop (args.length + 1), ?_⟩
  have e0 : (List.replicate (1 + m) (none : Option Nat)).set 0 (some arg0) = [some arg0] ++ List.replicate m none := by
    rw [Nat.add_comm, List.replicate_succ]; rfl
  have h1 := fill_eq args [some arg0] (List.replicate m none) (0 :: rest) (by simp; omega)
  have hl : (List.replicate m (none : Option Nat)).drop args.length =
      none :: (List.replicate m none).drop (args.length + 1) := by
    rw [List.drop_eq_getElem_cons (by simp; omega)]
    simp
  simp only [List.length_cons, List.length_nil, Nat.zero_add] at h1
  simp only [withArgv.finish, e0]
  rw [h1, hl]
  simp only [Option.bind_eq_bind, Option.bind_some]
  rw [if_pos (by simp; omega)]
  simp only [Option.pure_def, Option.some.injEq, Except.ok.injEq, Prod.mk.injEq, and_true]
  have e1 : 1 + args.length = (some arg0 :: args.map some).length := by simp [Nat.add_comm]
  rw [e1, show [some arg0] ++ args.map some = some arg0 :: args.map some from rfl, List.set_append_right _ _ (Nat.le_refl _),
    Nat.sub_self, List.set_cons_zero]

/-- **C103**: `execl` and its relatives, called with arguments that are ended by a null pointer: the array that is given to the new
program consists of `arg0`, all further arguments in their order, and a null pointer, and what follows the null pointer (the environment
of `execle`) is the next argument; with 4095 arguments or more it fails with `E2BIG`, and without memory, which is needed only for 32
arguments or more, with `ENOMEM`. Nothing is read beyond the null pointer. -/
theorem C103_args (malloc : Bool) (arg0 : Nat) {args : List Nat} (h : ∀ a ∈ args, a ≠ 0) (rest : List Nat) :
    if args.length + 1 ≥ 4096 then withArgv malloc arg0 (args ++ 0 :: rest) = some (.error 7)
    else if args.length + 1 ≥ 32 ∧ malloc = false then withArgv malloc arg0 (args ++ 0 :: rest) = some (.error 12)
    else ∃ junk, withArgv malloc arg0 (args ++ 0 :: rest) =
      some (.ok ((arg0 :: args).map some ++ some 0 :: junk, rest)) := by
  simp only [withArgv, position_eq h, Option.bind_eq_bind, Option.bind_some]
  split
  · rw [if_neg (by omega), if_neg (by omega)]; rfl
  · split
    · rename_i h1 h2
      rw [if_neg (by omega), if_pos (by omega), if_pos (by simp [h2.2])]; rfl
    · rename_i h1 h2
      by_cases h3 : 1 + args.length < 32
      · rw [if_pos h3]
        exact finish_eq 32 (by omega)
      · rw [if_neg h3, if_pos (by omega)]
        have hm : malloc = true := by
          cases malloc with
          | true => rfl
          | false => exact absurd ⟨by omega, rfl⟩ h2
        rw [if_neg (by simp [hm])]
        exact finish_eq (1 + args.length + 1) (by omega)

/-- The theorem applies: two arguments and an environment. -/
example : ∃ junk, withArgv false 10 [20, 30, 0, 99] = some (.ok ([some 10, some 20, some 30] ++ some 0 :: junk, [99])) := by
  simpa using C103_args false 10 (args := [20, 30]) (by simp) [99]

end Verif.Exec
