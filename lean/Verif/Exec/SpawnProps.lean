import Verif.Exec.SpawnModel

/-!
# C104: `posix_spawn` does the file actions in order and starts the program with what the attributes ask for
-/

namespace Verif.Exec

/-! ## Specification -/

/-- The child while the actions are done. -/
structure SpecState where
  table : Nat → Option Desc
  cwd : Path

/-- A path seen from a directory. -/
def resolve (cwd path : Path) : Path := if path.head? = some 47 then path else cwd ++ 47 :: path

/-- `O_CLOEXEC` of Redox. -/
def wantsCloexec (flag : Int32) : Bool := flag &&& 0x01000000 ≠ 0

/-- What one action does to the child, as if it called the function with the string that was given when the action was added. -/
def specAct (k : Kernel) (str : Nat → Path) (s : SpecState) : Action → Except Int32 SpecState
  | .open fd path flag mode =>
    match k.openat s.cwd (str path) flag mode with
    | .error e => .error e
    | .ok f => .ok { s with table := setFd s.table fd.toInt.toNat (some ⟨f, wantsCloexec flag⟩) }
  | .close fd =>
    match s.table fd.toInt.toNat with
    | none => .error 9
    | some _ => .ok { s with table := setFd s.table fd.toInt.toNat none }
  | .chdir path =>
    match k.opendir (resolve s.cwd (str path)) with
    | some e => .error e
    | none => .ok { s with cwd := resolve s.cwd (str path) }
  | .fchdir fd =>
    match s.table fd.toInt.toNat with
    | none => .error 9
    | some d =>
      match k.fpath d.file with
      | .error e => .error e
      | .ok path =>
        match k.opendir path with
        | some e => .error e
        | none => .ok { s with cwd := path }
  | .dup2 old new =>
    match s.table old.toInt.toNat with
    | none => .error 9
    | some d => .ok { s with table := setFd s.table new.toInt.toNat (some ⟨d.file, false⟩) }

/-- The actions in their order; the first error ends them. -/
def specActs (k : Kernel) (str : Nat → Path) : SpecState → List Action → Except Int32 SpecState
  | s, [] => .ok s
  | s, a :: l =>
    match specAct k str s a with
    | .error e => .error e
    | .ok s => specActs k str s l

/-- The files that are open in the new program: those whose descriptor is not to be closed. -/
def afterExec (t : Nat → Option Desc) : Nat → Option Nat := fun fd =>
  match t fd with
  | some d => if d.cloexec then none else some d.file
  | none => none

/-- The descriptors that an action changes. -/
def targets : Action → List Nat
  | .open fd .. => [fd.toInt.toNat]
  | .close fd => [fd.toInt.toNat]
  | .dup2 _ new => [new.toInt.toNat]
  | .chdir _ | .fchdir _ => []

/-- Whether a descriptor of the parent is to be closed on `exec`. -/
def Parent.closes (p : Parent) (fd : Nat) : Bool := match p.table fd with | some d => d.cloexec | none => false

/-- The actions for which `posix_spawn` is right: strings have not changed since they were given (`str`; `mem` at the spawn),
directories are absolute, `fchdir` is for a descriptor that no earlier action (`changed`) has changed, and files go to no descriptor
that is `FD_CLOEXEC` in the parent, nor shall they be `O_CLOEXEC`. -/
def Good (p : Parent) (str mem : Nat → Path) : List Nat → List Action → Prop
  | _, [] => True
  | changed, a :: l =>
    (match a with
      | .open fd path flag _ => mem path = str path ∧ wantsCloexec flag = false ∧ p.closes fd.toInt.toNat = false
      | .close _ => True
      | .chdir path => mem path = str path ∧ (str path).head? = some 47
      | .fchdir fd => fd.toInt.toNat ∉ changed
      | .dup2 _ new => p.closes new.toInt.toNat = false) ∧
    Good p str mem (targets a ++ changed) l

/-! ## Lemmas -/

/-- The table of the child represents the specified one. -/
structure Rep (p : Parent) (k : Kernel) (changed : List Nat) (s : ActState) (t : SpecState) : Prop where
  cwd : s.cwd = t.cwd
  open_ : k.opendir s.cwd = none
  files : ∀ fd, s.files fd = (t.table fd).map Desc.file
  cloexec : ∀ fd d, t.table fd = some d → d.cloexec = p.closes fd
  same : ∀ fd, fd ∉ changed → t.table fd = p.table fd

theorem rep_set {p : Parent} {k : Kernel} {changed : List Nat} {s : ActState} {t : SpecState} (h : Rep p k changed s t) (fd : Nat)
    (v : Option Desc) (hv : ∀ d, v = some d → d.cloexec = p.closes fd) :
    Rep p k ([fd] ++ changed) { s with files := setFd s.files fd (v.map Desc.file) } { t with table := setFd t.table fd v } := by
  refine ⟨h.cwd, h.open_, ?_, ?_, ?_⟩
  · intro x
    by_cases hx : x = fd <;> simp [setFd, hx, h.files x]
  · intro x d hd
    by_cases hx : x = fd
    · subst hx
      simp only [setFd, if_true] at hd
      exact hv d hd
    · simp only [setFd, hx, if_false] at hd
      exact h.cloexec x d hd
  · intro x hx
    have h1 : x ≠ fd := fun e => hx (by simp [e])
    have h2 : x ∉ changed := fun e => hx (by simp [e])
    simp [setFd, h1, h.same x h2]

theorem act_eq {p : Parent} {k : Kernel} {changed : List Nat} {s : ActState} {t : SpecState} {str mem : Nat → Path} {a : Action}
    {l : List Action} (h : Rep p k changed s t) (hg : Good p str mem changed (a :: l)) :
    (∃ e, act k p mem s a = .error e ∧ specAct k str t a = .error e) ∨
    (∃ s' t', act k p mem s a = .ok s' ∧ specAct k str t a = .ok t' ∧ Rep p k (targets a ++ changed) s' t') := by
  have hg := hg.1
  cases a with
  | «open» fd path flag mode =>
    obtain ⟨g1, g2, g3⟩ := hg
    simp only [act, specAct, h.open_, g1, ← h.cwd]
    cases hf : k.openat s.cwd (str path) flag mode with
    | error e => exact .inl ⟨e, rfl, rfl⟩
    | ok f =>
      refine .inr ⟨{ s with files := setFd s.files fd.toInt.toNat (some f) },
        { t with table := setFd t.table fd.toInt.toNat (some ⟨f, wantsCloexec flag⟩) }, rfl, by rw [h.cwd], ?_⟩
      exact rep_set h fd.toInt.toNat (some ⟨f, wantsCloexec flag⟩) (by intro d hd; cases hd; rw [g3]; exact g2)
  | close fd =>
    simp only [act, specAct, h.files fd.toInt.toNat]
    cases hf : t.table fd.toInt.toNat with
    | none => exact .inl ⟨9, rfl, rfl⟩
    | some d =>
      refine .inr ⟨_, _, rfl, rfl, ?_⟩
      exact rep_set h fd.toInt.toNat none nofun
  | chdir path =>
    obtain ⟨g1, g2⟩ := hg
    have e : resolve t.cwd (str path) = str path := by simp [resolve, g2]
    simp only [act, specAct, g1, e]
    cases hf : k.opendir (str path) with
    | some e => exact .inl ⟨e, rfl, rfl⟩
    | none => exact .inr ⟨_, _, rfl, rfl, ⟨rfl, hf, h.files, h.cloexec, h.same⟩⟩
  | fchdir fd =>
    simp only [act, specAct, h.same _ hg]
    cases p.table fd.toInt.toNat with
    | none => exact .inl ⟨9, rfl, rfl⟩
    | some d =>
      simp only
      cases k.fpath d.file with
      | error e => exact .inl ⟨e, rfl, rfl⟩
      | ok path =>
        simp only
        cases hf : k.opendir path with
        | some e =>
          refine .inl ⟨e, ?_, rfl⟩
          simp only [bind, Except.bind, hf]
          rfl
        | none =>
          refine .inr ⟨{ s with cwd := path }, { t with cwd := path }, ?_, rfl, ⟨rfl, hf, h.files, h.cloexec, h.same⟩⟩
          simp only [bind, Except.bind, hf]
          rfl
  | dup2 old new =>
    simp only [act, specAct, h.files old.toInt.toNat]
    cases hf : t.table old.toInt.toNat with
    | none => exact .inl ⟨9, rfl, rfl⟩
    | some d =>
      refine .inr ⟨_, _, rfl, rfl, ?_⟩
      exact rep_set h new.toInt.toNat (some ⟨d.file, false⟩) (by rintro x ⟨⟩; exact hg.symm)

theorem actAll_eq {p : Parent} {k : Kernel} {str mem : Nat → Path} {acts : List Action} {changed : List Nat} {s : ActState}
    {t : SpecState} (h : Rep p k changed s t) (hg : Good p str mem changed acts) :
    (∃ e, actAll k p mem s acts = .error e ∧ specActs k str t acts = .error e) ∨
    (∃ s' t' ch, actAll k p mem s acts = .ok s' ∧ specActs k str t acts = .ok t' ∧ Rep p k ch s' t') := by
  induction acts generalizing changed s t with
  | nil => exact .inr ⟨s, t, changed, rfl, rfl, h⟩
  | cons a l ih =>
    rcases act_eq h hg with ⟨e, h1, h2⟩ | ⟨s', t', h1, h2, h3⟩
    · exact .inl ⟨e, by simp [actAll, h1, bind, Except.bind], by simp [specActs, h2]⟩
    · rcases ih h3 hg.2 with ⟨e, g1, g2⟩ | ⟨s2, t2, ch, g1, g2, g3⟩
      · exact .inl ⟨e, by simp [actAll, h1, bind, Except.bind, g1], by simp [specActs, h2, g2]⟩
      · exact .inr ⟨s2, t2, ch, by simp [actAll, h1, bind, Except.bind, g1], by simp [specActs, h2, g2], g3⟩

/-! ## C104 -/

/-- The process that should start, after the actions have given `t` and the program is the open file `exe`: one of
`POSIX_SPAWN_RESETIDS` (1), `POSIX_SPAWN_SETPGROUP` (2) and `POSIX_SPAWN_SETSIGMASK` (4) may be asked for. -/
def specChild (k : Kernel) (p : Parent) (t : SpecState) (exe : Nat) (attr : Option Attrs) (argv envp : List Path) : Child where
  program := exe
  files := afterExec t.table
  cwd := t.cwd
  argv := argv
  envp := envp
  sigmask := match attr with | some a => if a.flags = 4 then a.sigmask else p.sigmask | none => p.sigmask
  sigign := p.sigign
  pgroup := match attr with | some a => if a.flags = 2 then a.pgroup else p.pgroup | none => p.pgroup
  euid := if (k.stat exe).2.2.1 then (k.stat exe).1 else match attr with
    | some a => if a.flags = 1 then p.ruid else p.euid
    | none => p.euid
  egid := if (k.stat exe).2.2.2 then (k.stat exe).2.1 else match attr with
    | some a => if a.flags = 1 then p.rgid else p.egid
    | none => p.egid
  renice := none

/-- **C104**: the actions are done in their order on the child's descriptors and working directory, the program is opened from the
working directory that results, and starts with exactly the descriptors that are not to be closed, the arguments and environment given,
and the mask, group and ids that the attributes ask for; the first error is the result of `posix_spawn`, and then there is no child and
`*pid` is not written. Missing: the actions that are not `Good`, other flags, a first argument that is not the path, the set-user-ID
bit without attributes (violations below). -/
theorem C104_spawn_partial {k : Kernel} {p : Parent} {str mem : Nat → Path} {program : Path} {acts : List Action} {attr : Option Attrs}
    {args envp : List Path} (hcwd : k.opendir p.cwd = none) (hg : Good p str mem [] acts)
    (hs : attr = none → ∀ f, (k.stat f).2.2 = (false, false))
    (ha : ∀ a ∈ attr, a.flags = 0 ∨ a.flags = 1 ∨ (a.flags = 2 ∧ 0 < a.pgroup) ∨ a.flags = 4) :
    posixSpawn k p mem program acts attr (some (program :: args)) (some envp) =
      match specActs k str ⟨p.table, p.cwd⟩ acts with
      | .error e => some (e, none, none)
      | .ok t =>
        match k.openat t.cwd program 0 0 with
        | .error e => some (e, none, none)
        | .ok exe => some (0, some k.pid, some (specChild k p t exe attr (program :: args) envp)) := by
  have h0 : Rep p k [] ⟨fun fd => (p.table fd).map Desc.file, p.cwd⟩ ⟨p.table, p.cwd⟩ :=
    ⟨rfl, hcwd, fun _ => rfl, fun fd d hd => by have hd : p.table fd = some d := hd; simp only [Parent.closes, hd], fun _ _ => rfl⟩
  simp only [posixSpawn, sysSpawn, hcwd]
  rcases actAll_eq h0 hg with ⟨e, h1, h2⟩ | ⟨s, t, ch, h1, h2, h3⟩
  · rw [h1, h2]; rfl
  · rw [h1, h2]
    simp only [h3.open_, h3.cwd]
    have ho : k.opendir t.cwd = none := by rw [← h3.cwd]; exact h3.open_
    simp only [ho]
    cases hx : k.openat t.cwd program 0 0 with
    | error e => rfl
    | ok exe =>
      have hfiles : keep p s.files = afterExec t.table := by
        funext fd
        have hc : keep p s.files fd = if p.closes fd then none else s.files fd := by
          unfold keep Parent.closes
          cases p.table fd <;> rfl
        rw [hc, h3.files fd, afterExec]
        cases ht : t.table fd with
        | none => simp
        | some d => simp only [h3.cloexec fd d ht, Option.map_some]
      simp only [hfiles, List.set_cons_zero, Option.getD]
      cases attr with
      | none => simp [specChild, hs rfl exe]
      | some a =>
        have ha := ha a rfl
        obtain ⟨pr, fl, pg, sd, sm⟩ := a
        simp only at ha
        have has : ∀ (c f : Int16), (Attrs.has ⟨pr, c, pg, sd, sm⟩ f) = decide (c &&& f = f) := fun _ _ => rfl
        simp only [has, specChild]
        rcases ha with rfl | rfl | ⟨rfl, h2⟩ | rfl
        · simp only [show decide ((0 : Int16) &&& 4 = 4) = false from rfl, show decide ((0 : Int16) &&& 2 = 2) = false from rfl,
            show decide ((0 : Int16) &&& 6 = 6) = false from rfl, show decide ((0 : Int16) &&& 5 = 5) = false from rfl,
            show decide ((0 : Int16) &&& 1 = 1) = false from rfl, show ((0 : Int16) = 4) = False from eq_false (by decide),
            show ((0 : Int16) = 2) = False from eq_false (by decide), show ((0 : Int16) = 1) = False from eq_false (by decide),
            Bool.false_and, Bool.false_eq_true, if_false, Option.map_some]
        · simp only [show decide ((1 : Int16) &&& 4 = 4) = false from rfl, show decide ((1 : Int16) &&& 2 = 2) = false from rfl,
            show decide ((1 : Int16) &&& 6 = 6) = false from rfl, show decide ((1 : Int16) &&& 5 = 5) = false from rfl,
            show decide ((1 : Int16) &&& 1 = 1) = true from rfl, show ((1 : Int16) = 4) = False from eq_false (by decide),
            show ((1 : Int16) = 2) = False from eq_false (by decide),
            Bool.false_and, Bool.false_eq_true, if_false, if_true, Option.map_some]
        · have n1 : pg ≠ 0 := by rintro rfl; exact absurd h2 (by decide)
          have n2 : ¬ pg < 0 := by
            intro h
            rw [Int32.lt_iff_toInt_lt] at h h2
            omega
          simp only [show decide ((2 : Int16) &&& 4 = 4) = false from rfl, show decide ((2 : Int16) &&& 2 = 2) = true from rfl,
            show decide ((2 : Int16) &&& 6 = 6) = false from rfl, show decide ((2 : Int16) &&& 5 = 5) = false from rfl,
            show decide ((2 : Int16) &&& 1 = 1) = false from rfl, show ((2 : Int16) = 4) = False from eq_false (by decide),
            show ((2 : Int16) = 1) = False from eq_false (by decide), decide_eq_true n1, decide_eq_false n2,
            Bool.true_and, Bool.false_eq_true, if_false, if_true, Option.map_some]
        · simp only [show decide ((4 : Int16) &&& 4 = 4) = true from rfl, show decide ((4 : Int16) &&& 2 = 2) = false from rfl,
            show decide ((4 : Int16) &&& 6 = 6) = false from rfl, show decide ((4 : Int16) &&& 5 = 5) = false from rfl,
            show decide ((4 : Int16) &&& 1 = 1) = false from rfl, show ((4 : Int16) = 2) = False from eq_false (by decide),
            show ((4 : Int16) = 1) = False from eq_false (by decide),
            Bool.false_and, Bool.false_eq_true, if_false, if_true, Option.map_some]

/-- **C104**: the functions that add actions refuse negative descriptors and otherwise append the action. -/
theorem C104_add (acts : List Action) (fd new : Int32) (path : Nat) (flag : Int32) (mode : UInt32) :
    addopen acts fd path flag mode = (if fd.toInt < 0 then (9, acts) else (0, acts ++ [.open fd path flag mode])) ∧
    addclose acts fd = (if fd.toInt < 0 then (9, acts) else (0, acts ++ [.close fd])) ∧
    addchdir acts path = (0, acts ++ [.chdir path]) ∧
    addfchdir acts fd = (if fd.toInt < 0 then (9, acts) else (0, acts ++ [.fchdir fd])) ∧
    adddup2 acts fd new = (if fd.toInt < 0 ∨ new.toInt < 0 then (9, acts) else (0, acts ++ [.dup2 fd new])) := by
  have h : ∀ x : Int32, x < 0 ↔ x.toInt < 0 := fun x => Int32.lt_iff_toInt_lt
  simp only [addopen, addclose, addchdir, addfchdir, adddup2, h]
  exact ⟨rfl, rfl, trivial, rfl, rfl⟩

/-- **C104**: no arguments: `EINVAL`. -/
theorem C104_noargs (k : Kernel) (p : Parent) (mem : Nat → Path) (program : Path) (acts : List Action) (attr : Option Attrs)
    (envp : Option (List Path)) : posixSpawn k p mem program acts attr none envp = some (22, none, none) ∧
    posixSpawn k p mem program acts attr (some []) envp = some (22, none, none) := ⟨rfl, rfl⟩

/-! ## Violations -/

/-- A kernel in which every path opens: file 70, and the directory of every open file is `/d`; the program is owned by 5. -/
def k0 : Kernel := ⟨fun _ => none, fun _ _ _ _ => .ok 70, fun f => .ok (if f = 40 then [47, 97] else [47, 100]), fun _ => (5, 6, true, false), 100, 30⟩

/-- A parent with descriptors 3 (file 40) and 4 (file 50, `FD_CLOEXEC`), in `/`. -/
def p0 : Parent := ⟨fun fd => if fd = 3 then some ⟨40, false⟩ else if fd = 4 then some ⟨50, true⟩ else none, [47], 1, 2, 9, 1000, 0, 1000, 0⟩

/-- The child of a call with these. -/
def child0 (mem : Nat → Path) (acts : List Action) (attr : Option Attrs) (argv : List Path) : Option Child :=
  (posixSpawn k0 p0 mem [47, 98] acts attr (some argv) none).bind fun r => r.2.2

/-- What a specified state is after the actions. -/
def spec0 (str : Nat → Path) (acts : List Action) : Option SpecState :=
  match specActs k0 str ⟨p0.table, p0.cwd⟩ acts with
  | .ok t => some t
  | .error _ => none

/-- C104 fails: a file duplicated to a descriptor that is `FD_CLOEXEC` in the parent is closed in the child; one opened with
`O_CLOEXEC` stays open. -/
theorem C104_cloexec_violation :
    ((spec0 (fun _ => []) [.dup2 3 4]).map fun t => afterExec t.table 4) = some (some 40) ∧
    ((child0 (fun _ => []) [.dup2 3 4] none [[98]]).map fun c => c.files 4) = some none ∧
    ((spec0 (fun _ => []) [.open 5 0 0x01000000 0]).map fun t => afterExec t.table 5) = some none ∧
    ((child0 (fun _ => []) [.open 5 0 0x01000000 0] none [[98]]).map fun c => c.files 5) = some (some 70) := by decide +kernel

/-- C104 fails: `fchdir` goes to the file that the parent has there, though an earlier action has put another one there; a relative
`chdir` is not seen from the working directory; and a path is read when the process is spawned, not when the action is added. -/
theorem C104_cwd_violation :
    ((spec0 (fun _ => []) [.open 3 0 0 0, .fchdir 3]).map SpecState.cwd) = some [47, 100] ∧
    ((child0 (fun _ => []) [.open 3 0 0 0, .fchdir 3] none [[98]]).map Child.cwd) = some [47, 97] ∧
    ((spec0 (fun _ => [120]) [.chdir 0]).map SpecState.cwd) = some [47, 47, 120] ∧
    ((child0 (fun _ => [120]) [.chdir 0] none [[98]]).map Child.cwd) = some [120] ∧
    ((spec0 (fun _ => [47, 120]) [.chdir 0]).map SpecState.cwd) = some [47, 120] ∧
    ((child0 (fun _ => [47, 121]) [.chdir 0] none [[98]]).map Child.cwd) = some [47, 121] := by decide +kernel

/-- C104 fails: `argv[0]` of the child is the path of the program, not what was given. -/
theorem C104_argv_violation :
    ((child0 (fun _ => []) [] none [[115, 104], [45]]).map Child.argv) = some [[47, 98], [45]] := by decide +kernel

/-- C104 fails for the attributes: a process group of 0, which asks for a new group, is ignored; signals that shall have their default
action stay ignored; `POSIX_SPAWN_SETSCHEDPARAM` gives the priority to the process whose number is that of a descriptor; and
`POSIX_SPAWN_SETSCHEDULER` panics, as asking for a process group and a mask at once does. -/
theorem C104_attr_violation :
    ((child0 (fun _ => []) [] (some ⟨0, 2, 0, 0, 0⟩) [[98]]).map Child.pgroup) = some p0.pgroup ∧
    ((child0 (fun _ => []) [] (some ⟨0, 3, 0, 2, 0⟩) [[98]]).map Child.sigign) = some 2 ∧
    ((child0 (fun _ => []) [] (some ⟨7, 5, 0, 0, 0⟩) [[98]]).map Child.renice) = some (some (30, 7)) ∧ k0.pid = 100 ∧
    posixSpawn k0 p0 (fun _ => []) [47, 98] [] (some ⟨0, 2 ||| 4, 5, 0, 0⟩) (some [[98]]) none = none :=
  ⟨by decide +kernel, by decide +kernel, by decide +kernel, rfl, rfl⟩

/-- C104 fails without attributes: the program's set-user-ID bit has no effect. -/
theorem C104_setuid_violation :
    (k0.stat 70).1 = 5 ∧ (k0.stat 70).2.2.1 = true ∧ ((child0 (fun _ => []) [] none [[98]]).map Child.euid) = some 0 ∧
    ((child0 (fun _ => []) [] (some ⟨0, 0, 0, 0, 0⟩) [[98]]).map Child.euid) = some 5 := by decide +kernel

/-- The theorem applies: a file to descriptor 1, descriptor 3 duplicated to 2 and closed, another directory. -/
example : Good p0 (fun _ => [47, 120]) (fun _ => [47, 120]) [] [.open 1 0 0 0, .dup2 3 2, .close 3, .chdir 0] ∧
    ((spec0 (fun _ => [47, 120]) [.open 1 0 0 0, .dup2 3 2, .close 3, .chdir 0]).map fun t =>
      ([1, 2, 3, 4].map (afterExec t.table), t.cwd)) = some ([some 70, some 40, none, none], [47, 120]) := by
  refine ⟨?_, by decide +kernel⟩
  simp only [Good]
  decide +kernel

end Verif.Exec
