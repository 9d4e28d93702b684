import Verif.Exec.ShebangModel

/-!
# C106: scripts
-/

namespace Verif.Exec

/-! ## Specification -/

/-- Space or tab. -/
def Blank1 (b : UInt8) : Prop := b = 32 ∨ b = 9

/-- The first line of a script: `#!`, blanks, the interpreter, and what comes after it up to the newline. `blanks` separate the
interpreter from its argument, which is the rest of the line. -/
structure FirstLine where
  lead : List UInt8
  interp : List UInt8
  blanks : List UInt8
  arg : List UInt8

def FirstLine.text (l : FirstLine) : List UInt8 := [35, 33] ++ l.lead ++ l.interp ++ l.blanks ++ l.arg

/-- Blanks are blanks; the interpreter is not empty and has no blank in it; an argument begins with something else than a blank and
has a blank before it; there is no newline and no NUL. -/
structure FirstLine.Ok (l : FirstLine) : Prop where
  lead : ∀ b ∈ l.lead, Blank1 b
  blanks : ∀ b ∈ l.blanks, Blank1 b
  interp : l.interp ≠ [] ∧ ∀ b ∈ l.interp, isSpaceByte b = false ∧ b ≠ 0
  arg : ∀ b ∈ l.arg, b ≠ 10 ∧ b ≠ 0
  sep : l.arg ≠ [] → l.blanks ≠ []
  start : ∀ b, l.arg.head? = some b → ¬ Blank1 b

/-- The argument, if there is one. -/
def FirstLine.argument (l : FirstLine) : Option (List UInt8) := if l.arg = [] then none else some l.arg

/-- POSIX: the effective ids choose the class of permission bits. -/
def Permitted (euid egid : Nat) (f : ExeFile) : Prop :=
  (if euid = f.uid then f.mode / 64 % 8 else if egid = f.gid then f.mode / 8 % 8 else f.mode % 8) % 2 = 1

/-! ## Lemmas -/

theorem blank_space {b : UInt8} (h : Blank1 b) : isSpaceByte b = true := by
  cases h with
  | inl h => subst h; rfl
  | inr h => subst h; rfl

theorem firstNonSpace_append (l k : List UInt8) (h : ∀ b ∈ l, isSpaceByte b = true) :
    firstNonSpace (l ++ k) = (firstNonSpace k).map (· + l.length) := by
  induction l with
  | nil => simp
  | cons b l ih =>
    simp only [List.cons_append, firstNonSpace, h b (by simp), if_true]
    rw [ih fun c hc => h c (by simp [hc])]
    cases firstNonSpace k with
    | none => rfl
    | some n => simp [Nat.add_assoc]

theorem space_ne {b : UInt8} (h : isSpaceByte b = false) : b ≠ 10 ∧ b ≠ 32 ∧ b ≠ 9 := by
  refine ⟨?_, ?_, ?_⟩ <;> (intro e; subst e; simp [isSpaceByte] at h)

theorem scanLine_skip (l k : List UInt8) (i : Nat) (o : Option Nat) (h : ∀ b ∈ l, b ≠ 10 ∧ b ≠ 32) :
    scanLine (l ++ k) i o = scanLine k (i + l.length) o := by
  induction l generalizing i with
  | nil => rfl
  | cons b l ih =>
    obtain ⟨h1, h2⟩ := h b (by simp)
    simp only [List.cons_append, scanLine, h1, h2, if_false]
    rw [ih _ fun c hc => h c (by simp [hc]), List.length_cons]
    congr 1; omega

theorem scanLine_found (l k : List UInt8) (i o : Nat) (h : ∀ b ∈ l, b ≠ 10) :
    scanLine (l ++ k) i (some o) = scanLine k (i + l.length) (some o) := by
  induction l generalizing i with
  | nil => rfl
  | cons b l ih =>
    have h1 := h b (by simp)
    simp only [List.cons_append, scanLine, h1, if_false, ite_self]
    rw [ih _ fun c hc => h c (by simp [hc]), List.length_cons]
    congr 1; omega

theorem not_contains {l : List UInt8} (h : ∀ b ∈ l, b ≠ 0) : l.contains 0 = false := by
  cases e : l.contains 0 with
  | false => rfl
  | true => exact absurd rfl (h 0 (by simpa using e))

theorem trimArg_eq (l : FirstLine) (h : l.Ok) : trimArg (l.blanks ++ l.arg) = some l.argument := by
  have hd : (l.blanks ++ l.arg).dropWhile (fun b => b == 32 || b == 9) = l.arg := by
    rw [List.dropWhile_append_of_pos]
    · cases ha : l.arg with
      | nil => rfl
      | cons b k =>
        have := h.start b (by rw [ha]; rfl)
        rw [List.dropWhile_cons_of_neg]
        intro hh
        apply this
        simpa [Blank1] using hh
    · intro b hb
      cases h.blanks b hb with
      | inl e => subst e; rfl
      | inr e => subst e; rfl
  simp only [trimArg, hd, FirstLine.argument, List.isEmpty_iff]
  split
  · rfl
  · rw [not_contains fun b hb => (h.arg b hb).2]
    rfl

/-- The part of the file after `#!` and blanks. -/
theorem drop_lead (l : FirstLine) (k : List UInt8) :
    (l.text ++ k).drop (l.lead.length + 2) = l.interp ++ (l.blanks ++ (l.arg ++ k)) := by
  have : l.text ++ k = ([35, 33] ++ l.lead) ++ (l.interp ++ (l.blanks ++ (l.arg ++ k))) := by
    simp [FirstLine.text]
  rw [this, List.drop_left' (by simp)]

theorem first_nonspace (l : FirstLine) (h : l.Ok) (k : List UInt8) : firstNonSpace ((l.text ++ k).drop 2) = some l.lead.length := by
  have e : (l.text ++ k).drop 2 = l.lead ++ (l.interp ++ (l.blanks ++ (l.arg ++ k))) := by
    simp [FirstLine.text]
  rw [e, firstNonSpace_append _ _ fun b hb => blank_space (h.lead b hb)]
  cases hi : l.interp with
  | nil => exact absurd hi h.interp.1
  | cons b t =>
    have := (h.interp.2 b (by rw [hi]; simp)).1
    simp [firstNonSpace, this]

theorem read_text (l : FirstLine) (k : List UInt8) : readShebang (l.text ++ k) false = ((35, 33), 2) := by
  simp [FirstLine.text, readShebang]

/-- C106: the interpreter and its argument are those of the first line, if the line is ended by a newline, the interpreter is
followed by a space or by the end of the line, and the line is short enough. -/
theorem C106_interpreter_partial (l : FirstLine) (h : l.Ok) (body : List UInt8)
    (hsp : ∀ b, l.blanks.head? = some b → b = 32)
    (hlen : 2 * l.text.length ≤ 4096) :
    parseInterpreter (l.text ++ 10 :: body) false = .ok (some (l.interp, l.argument)) := by
  have htl : l.text.length = 2 + l.lead.length + l.interp.length + l.blanks.length + l.arg.length := by
    simp [FirstLine.text]; omega
  have hin : ∀ b ∈ l.interp, b ≠ 10 ∧ b ≠ 32 := fun b hb => ⟨(space_ne (h.interp.2 b hb).1).1, (space_ne (h.interp.2 b hb).1).2.1⟩
  have hpos : l.interp.length ≠ 0 := fun e => h.interp.1 (List.length_eq_zero_iff.1 e)
  have hi0 : (0 : UInt8) ∉ l.interp := fun hh => (h.interp.2 0 hh).2 rfl
  have hscan : scanLine (l.interp ++ (l.blanks ++ (l.arg ++ 10 :: body))) 0 none
      = (some l.interp.length, if l.blanks = [] then none else some (l.interp.length + l.blanks.length + l.arg.length)) := by
    rw [scanLine_skip _ _ _ _ hin]
    cases hb : l.blanks with
    | nil =>
      have ha : l.arg = [] := by
        cases ha : l.arg with
        | nil => rfl
        | cons _ _ => exact absurd hb (h.sep (by rw [ha]; simp))
      simp [ha, scanLine, nonZero, hpos]
    | cons b t =>
      have e32 := hsp b (by rw [hb]; rfl)
      subst e32
      simp only [List.cons_append, scanLine]
      rw [if_neg (by decide), if_pos trivial]
      simp only [nonZero, Nat.zero_add, hpos, if_false]
      rw [← List.append_assoc, scanLine_found]
      · have : ¬ (l.interp.length + 1 + (t ++ l.arg).length = 0) := by omega
        simp only [scanLine, if_true, nonZero, this, if_false]
        simp; omega
      · intro c hc
        cases List.mem_append.1 hc with
        | inl hc =>
          have := h.blanks c (by rw [hb]; simp [hc])
          cases this with
          | inl e => subst e; decide
          | inr e => subst e; decide
        | inr hc => exact (h.arg c hc).1
  simp only [parseInterpreter]
  rw [read_text]
  simp only [ne_eq, not_true, if_false]
  rw [first_nonspace l h]
  simp only [drop_lead, hscan]
  have htake : (l.interp ++ (l.blanks ++ (l.arg ++ 10 :: body))).take l.interp.length = l.interp := by simp
  have hdropi : (l.interp ++ (l.blanks ++ (l.arg ++ 10 :: body))).drop l.interp.length = l.blanks ++ (l.arg ++ 10 :: body) := by simp
  rw [htake, hdropi]
  by_cases hb : l.blanks = []
  · have ha : l.arg = [] := by
      cases ha : l.arg with
      | nil => rfl
      | cons _ _ => exact absurd hb (h.sep (by rw [ha]; simp))
    rw [if_pos hb]
    simp only [Option.getD_none]
    rw [if_neg (by omega)]
    simp [hi0, FirstLine.argument, ha]
  · rw [if_neg hb]
    simp only [Option.getD_some]
    rw [if_neg (by omega)]
    have htk : (l.blanks ++ (l.arg ++ 10 :: body)).take (l.interp.length + l.blanks.length + l.arg.length - l.interp.length)
        = l.blanks ++ l.arg := by
      rw [← List.append_assoc, show l.interp.length + l.blanks.length + l.arg.length - l.interp.length = (l.blanks ++ l.arg).length by
        simp only [List.length_append]; omega, List.take_left]
    rw [htk, trimArg_eq l h]
    simp [hi0]

/-- C106: a file which does not begin with `#!` is no script. -/
theorem C106_no_script (file : List UInt8) (h : ∀ t, file ≠ 35 :: 33 :: t) : parseInterpreter file false = .ok none := by
  have : (readShebang file false).1 ≠ (35, 33) := by
    cases file with
    | nil => simp [readShebang]
    | cons a file => cases file with
      | nil => simp [readShebang]
      | cons b file =>
        simp only [readShebang]
        intro e
        cases e
        exact h _ rfl
  simp only [parseInterpreter]
  rw [if_pos this]

/-- C106: the interpreter is run with its path, its argument, the path of the script and the arguments of the caller but the first;
the environment is that of the caller. -/
theorem C106_execve_script_partial (open_ : Path → Except Int32 ExeFile) (ruid rgid fuel : Nat) (path : Path) (argv envp : List Path)
    (f g : ExeFile) (l : FirstLine) (body : List UInt8) (h : l.Ok) (hsp : ∀ b, l.blanks.head? = some b → b = 32)
    (hlen : 2 * l.text.length ≤ 4096) (hf : open_ path = .ok f) (hb : f.bytes = l.text ++ 10 :: body) (hp : Permitted ruid rgid f)
    (hg : open_ l.interp = .ok g) (he : g.elf = true) (hs : g.ptInterp = none) :
    execve open_ ruid rgid (fuel + 1) path argv envp
      = .ok ⟨l.interp, l.interp :: (l.argument.toList ++ path :: argv.drop 1), envp⟩ := by
  have hm : mayExecute ruid rgid f = true := by simpa [mayExecute, Permitted] using hp
  simp only [execve, hf, hm, hb, C106_interpreter_partial l h body hsp hlen, hg, he, hs, scriptArgs]
  rfl

/-- C106: a program which is no script is run with the arguments and the environment of the caller. -/
theorem C106_execve_program (open_ : Path → Except Int32 ExeFile) (ruid rgid fuel : Nat) (path : Path) (argv envp : List Path)
    (f : ExeFile) (hf : open_ path = .ok f) (hb : ∀ t, f.bytes ≠ 35 :: 33 :: t) (hp : Permitted ruid rgid f) (he : f.elf = true)
    (hs : f.ptInterp = none) : execve open_ ruid rgid (fuel + 1) path argv envp = .ok ⟨path, argv, envp⟩ := by
  have hm : mayExecute ruid rgid f = true := by simpa [mayExecute, Permitted] using hp
  simp only [execve, hf, hm, C106_no_script _ hb, he, hs, scriptArgs]
  rfl

/-- C106: and if it is dynamically linked, the linker is given them unchanged. -/
theorem C106_execve_dynamic (open_ : Path → Except Int32 ExeFile) (ruid rgid fuel : Nat) (path ld : Path) (argv envp : List Path)
    (f g : ExeFile) (hf : open_ path = .ok f) (hb : ∀ t, f.bytes ≠ 35 :: 33 :: t) (hp : Permitted ruid rgid f) (he : f.elf = true)
    (hs : f.ptInterp = some ld) (hg : open_ ld = .ok g) (hgb : ∀ t, g.bytes ≠ 35 :: 33 :: t) (hgp : Permitted ruid rgid g)
    (hge : g.elf = true) (hgs : g.ptInterp = none) : execve open_ ruid rgid (fuel + 2) path argv envp = .ok ⟨ld, argv, envp⟩ := by
  have hm : mayExecute ruid rgid f = true := by simpa [mayExecute, Permitted] using hp
  rw [show fuel + 2 = (fuel + 1) + 1 from rfl, execve]
  simp only [hf, hm, C106_no_script _ hb, he, hs, scriptArgs]
  exact C106_execve_program open_ ruid rgid fuel ld argv envp g hg hgb hgp hge hgs

/-- C106: a file without execute permission for the real ids is not run; whatever `execve` runs was opened and permitted. -/
theorem C106_execute_permission (open_ : Path → Except Int32 ExeFile) (ruid rgid fuel : Nat) (path : Path) (argv envp : List Path)
    (r : NewImage) (h : execve open_ ruid rgid fuel path argv envp = .ok r) :
    ∃ f, open_ path = .ok f ∧ Permitted ruid rgid f := by
  cases fuel with
  | zero => simp [execve] at h
  | succ fuel =>
    rw [execve] at h
    split at h
    · cases h
    · rename_i f hf
      refine ⟨f, hf, ?_⟩
      cases hm : mayExecute ruid rgid f with
      | true => simpa [mayExecute, Permitted] using hm
      | false => rw [hm] at h; simp at h

/-- C106: whatever `execve` runs is a program: the file that is mapped could be opened, and it is an ELF file which asks for no dynamic linker. The environment is that of the caller. -/
theorem C106_runs_program (open_ : Path → Except Int32 ExeFile) (ruid rgid fuel : Nat) (path : Path) (argv envp : List Path)
    (r : NewImage) (h : execve open_ ruid rgid fuel path argv envp = .ok r) :
    r.envs = envp ∧ ∃ g, open_ r.image = .ok g ∧ g.elf = true ∧ g.ptInterp = none := by
  induction fuel generalizing path argv with
  | zero => simp [execve] at h
  | succ fuel ih =>
    rw [execve] at h
    split at h
    · cases h
    · rename_i f hf
      split at h
      · cases h
      · split at h
        · cases h
        · rename_i interp hi
          simp only at h
          split at h
          · cases h
          · rename_i image g hg
            have hopen : open_ image = .ok g := by
              split at hg
              · cases hg
                exact hf
              · rename_i i a
                cases ho : open_ i with
                | error e => rw [ho] at hg; cases hg
                | ok g' => rw [ho] at hg; cases hg; exact ho
            cases he : g.elf with
            | false => simp [he] at h
            | true =>
              simp only [he, Bool.not_true, Bool.false_eq_true, if_false] at h
              split at h
              · rename_i hp
                cases h
                exact ⟨rfl, g, hopen, he, hp⟩
              · exact ih _ _ h

/-- C106: a file that is neither a script nor a program is refused with `ENOEXEC`. -/
theorem C106_noexec (open_ : Path → Except Int32 ExeFile) (ruid rgid fuel : Nat) (path : Path) (argv envp : List Path)
    (f : ExeFile) (hf : open_ path = .ok f) (hb : ∀ t, f.bytes ≠ 35 :: 33 :: t) (hp : Permitted ruid rgid f) (he : f.elf = false) :
    execve open_ ruid rgid (fuel + 1) path argv envp = .error 8 := by
  have hm : mayExecute ruid rgid f = true := by simpa [mayExecute, Permitted] using hp
  simp only [execve, hf, hm, C106_no_script _ hb, he]
  rfl

/-- C106: a line without a newline at its end — the whole file — is refused. -/
theorem C106_no_newline_violation (l : FirstLine) (h : l.Ok) (hb : l.blanks = []) : parseInterpreter l.text false = .error ENOEXEC := by
  have ha : l.arg = [] := by
    cases ha : l.arg with
    | nil => rfl
    | cons _ _ => exact absurd hb (h.sep (by rw [ha]; simp))
  have hin : ∀ b ∈ l.interp, b ≠ 10 ∧ b ≠ 32 := fun b hb => ⟨(space_ne (h.interp.2 b hb).1).1, (space_ne (h.interp.2 b hb).1).2.1⟩
  have e := List.append_nil l.text
  have hr := read_text l []
  have hn := first_nonspace l h []
  have hd := drop_lead l []
  rw [e] at hr hn hd
  simp only [parseInterpreter]
  rw [hr]
  simp only [ne_eq, not_true, if_false]
  rw [hn]
  simp only [hd, hb, ha, List.append_nil, List.nil_append]
  have hs := scanLine_skip l.interp [] 0 none hin
  rw [List.append_nil] at hs
  rw [hs]
  rfl

/-- C106: and if there is an argument, it is lost: `#!/bin/sh -x` without a newline. -/
theorem C106_lost_argument_violation :
    parseInterpreter [35, 33, 47, 98, 105, 110, 47, 115, 104, 32, 45, 120] false
      = .ok (some ([47, 98, 105, 110, 47, 115, 104], none)) := by
  rfl

/-- C106: a tab does not end the interpreter: `#!/bin/sh`, tab, `-x`. -/
theorem C106_tab_violation :
    parseInterpreter [35, 33, 47, 98, 105, 110, 47, 115, 104, 9, 45, 120, 10] false
      = .ok (some ([47, 98, 105, 110, 47, 115, 104, 9, 45, 120], none)) := by
  rfl

/-- C106: a first line with no interpreter is no error: the next line is taken (`#!`, newline, `echo ${PATH}`, the case of the
unit test `parse_interpreter_no_interpreter_script_fail`). -/
theorem C106_empty_line_violation :
    parseInterpreter ([35, 33, 10] ++ [101, 99, 104, 111, 32, 36, 123, 80, 65, 84, 72, 125]) false
      = .ok (some ([101, 99, 104, 111], none)) := by
  rfl

/-- C106: a line is refused although it is shorter than `PATH_MAX`, because the interpreter is counted twice. -/
theorem C106_long_line_violation (interp arg body : List UInt8) (h : (FirstLine.mk [] interp [32] arg).Ok)
    (hlen : 4096 < 2 + interp.length + (interp.length + 1 + arg.length)) :
    parseInterpreter ((FirstLine.mk [] interp [32] arg).text ++ 10 :: body) false = .error E2BIG := by
  have hin : ∀ b ∈ interp, b ≠ 10 ∧ b ≠ 32 := fun b hb => ⟨(space_ne (h.interp.2 b hb).1).1, (space_ne (h.interp.2 b hb).1).2.1⟩
  have hpos : interp.length ≠ 0 := fun e => h.interp.1 (List.length_eq_zero_iff.1 e)
  have hdl := drop_lead (FirstLine.mk [] interp [32] arg) (10 :: body)
  have hscan : scanLine (interp ++ ([32] ++ (arg ++ 10 :: body))) 0 none
      = (some interp.length, some (interp.length + 1 + arg.length)) := by
    rw [scanLine_skip _ _ _ _ hin]
    simp only [List.cons_append, List.nil_append, scanLine]
    rw [if_neg (by decide), if_pos trivial]
    simp only [nonZero, Nat.zero_add, hpos, if_false]
    rw [scanLine_found _ _ _ _ fun c hc => (h.arg c hc).1]
    have : ¬ (interp.length + 1 + arg.length = 0) := by omega
    simp only [scanLine, if_true, nonZero, this, if_false]
  simp only [parseInterpreter]
  rw [read_text]
  simp only [ne_eq, not_true, if_false]
  rw [first_nonspace _ h]
  dsimp only at hdl ⊢
  rw [hdl, hscan]
  simp only [Option.getD_some, List.length_nil]
  rw [if_pos (by omega)]

/-- The hypotheses of `C106_long_line_violation` hold for lines from 2105 bytes on. -/
example (n : Nat) (hn : 2100 ≤ n) : (FirstLine.mk [] (List.replicate n 97) [32] [45, 120]).Ok
    ∧ (FirstLine.mk [] (List.replicate n 97) [32] [45, 120]).text.length = n + 5
    ∧ 4096 < 2 + (List.replicate n (97 : UInt8)).length + ((List.replicate n (97 : UInt8)).length + 1 + [45, 120].length) := by
  refine ⟨⟨by simp, by simp [Blank1], ⟨?_, ?_⟩, by simp, by simp, by simp [Blank1]⟩, ?_, ?_⟩
  · intro e
    have := congrArg List.length e
    simp only [List.length_replicate, List.length_nil] at this
    omega
  · intro b hb
    have := (List.mem_replicate.1 hb).2
    subst this
    decide
  · simp [FirstLine.text]
  · simp only [List.length_replicate, List.length_cons, List.length_nil]; omega

/-- C106: if the first read gives one byte, a script is not recognised. -/
theorem C106_short_read_violation :
    parseInterpreter [35, 33, 47, 98, 105, 110, 47, 115, 104, 10] true = .ok none := by
  rfl

/-- C106: the interpreter of a script need not be executable. -/
theorem C106_interpreter_permission_violation :
    ∃ (open_ : Path → Except Int32 ExeFile) (g : ExeFile) (r : NewImage), execve open_ 1 1 1 [115] [[115]] [] = .ok r
      ∧ open_ r.image = .ok g ∧ ¬ Permitted 1 1 g := by
  refine ⟨fun p => if p = [115] then .ok ⟨1, 1, 0o755, [35, 33, 105, 10], false, none⟩ else .ok ⟨1, 1, 0o644, [], true, none⟩,
    ⟨1, 1, 0o644, [], true, none⟩, ⟨[105], [[105], [115]], []⟩, rfl, rfl, by simp [Permitted]⟩

/-- C106: a file without execute permission gives `EPERM`, and a file which cannot be opened gives `ENOENT`, whatever the reason. -/
theorem C106_errors_violation :
    (∀ (open_ : Path → Except Int32 ExeFile) (ruid rgid fuel : Nat) (path : Path) (argv envp : List Path) (f : ExeFile),
      open_ path = .ok f → ¬ Permitted ruid rgid f → execve open_ ruid rgid (fuel + 1) path argv envp = .error EPERM)
    ∧ (∀ (open_ : Path → Except Int32 ExeFile) (ruid rgid fuel : Nat) (path : Path) (argv envp : List Path),
      open_ path = .error EACCES → execve open_ ruid rgid (fuel + 1) path argv envp = .error ENOENT) := by
  constructor
  · intro open_ ruid rgid fuel path argv envp f hf hp
    have hm : mayExecute ruid rgid f = false := by
      cases hm : mayExecute ruid rgid f with
      | false => rfl
      | true => exact absurd (by simpa [mayExecute, Permitted] using hm) hp
    simp [execve, hf, hm]
  · intro open_ ruid rgid fuel path argv envp hf
    simp [execve, hf]

/-- `#! /bin/sh -e x`: the interpreter and one argument; the script is run as `/bin/sh`, `-e x`, path, further arguments. -/
example : parseInterpreter ([35, 33, 32, 47, 98, 105, 110, 47, 115, 104, 32, 9, 45, 101, 32, 120, 10] ++ [101, 10]) false
      = .ok (some ([47, 98, 105, 110, 47, 115, 104], some [45, 101, 32, 120]))
    ∧ scriptArgs (some ([47, 98, 105, 110, 47, 115, 104], some [45, 101, 32, 120])) [47, 120] [[120], [97], [98]]
      = [[47, 98, 105, 110, 47, 115, 104], [45, 101, 32, 120], [47, 120], [97], [98]] := by
  exact ⟨rfl, rfl⟩

end Verif.Exec
