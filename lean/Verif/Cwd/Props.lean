import Verif.Cwd.Model

/-!
# C109: the working directory
-/

namespace Verif.Cwd

open Verif.Mem

variable {P R N : Type}

namespace Spec

/-- `f` is the file which the name `nm` names for a process whose working directory is `cwd`, and `p` is its full name. -/
inductive Names (w : World P R N) (cwd : Option (Dir P N)) : Name P R → P → N → Prop where
  | abs (p f) (h : w.statAbs (w.canon p) = .ok f) : Names w cwd (.abs p) (w.canon p) f
  | rel (r d f) (hd : cwd = some d) (h : w.statAt d.fd r = .ok f) : Names w cwd (.rel r) (w.join d.redox r) f

/-- A working directory is a directory, and the name kept for it is not too long to be given to the user. -/
def Good (w : World P R N) (d : Dir P N) : Prop := w.isDir d.fd = some true ∧ d.path = w.text d.redox ∧ d.path.length ≤ 4096

end Spec

/-- C109. `chdir` succeeds exactly if the name names a directory whose full name has at most `PATH_MAX` bytes; then that is the working
directory, with its full name. Otherwise the working directory stays as it was. -/
theorem C109_chdir (w : World P R N) (cwd : Option (Dir P N)) (nm : Name P R) :
    ((chdir w cwd (some nm)).1 = .ok () ↔
      ∃ p f, Spec.Names w cwd nm p f ∧ w.isDir f = some true ∧ (w.text p).length ≤ 4096) ∧
    (∀ p f, Spec.Names w cwd nm p f → (chdir w cwd (some nm)).1 = .ok () → (chdir w cwd (some nm)).2 = some ⟨w.text p, p, f⟩) ∧
    (∀ e, (chdir w cwd (some nm)).1 = .error e → (chdir w cwd (some nm)).2 = cwd) := by
  have names : ∀ p f, Spec.Names w cwd nm p f ↔ target w cwd nm = .ok (p, .ok f) := by
    intro p f
    constructor
    · intro h
      cases h with
      | abs p f h => simp [target, h]
      | rel r d f hd h => simp [target, hd, h]
    · intro h
      cases nm with
      | abs q =>
        simp only [target, Except.ok.injEq, Prod.mk.injEq] at h
        obtain ⟨rfl, h⟩ := h
        exact .abs q f h
      | rel r =>
        cases cwd with
        | none => simp [target] at h
        | some d =>
          simp only [target, Except.ok.injEq, Prod.mk.injEq] at h
          obtain ⟨rfl, h⟩ := h
          exact .rel r d f rfl h
  simp only [names]
  unfold chdir
  dsimp only
  cases ht : target w cwd nm with
  | error e => simp
  | ok x =>
    obtain ⟨p, r⟩ := x
    cases r with
    | error e => simp
    | ok f =>
      by_cases hd : w.isDir f = some true
      · by_cases hl : (w.text p).length ≤ 4096
        · simp [hd, toCwdPath, PATH_MAX, hl]
          exact ⟨p, f, ⟨rfl, rfl⟩, hd, hl⟩
        · have hl' : ¬ (w.text p).length ≤ PATH_MAX := hl
          simp [hd, toCwdPath, hl', hl]
          exact Nat.lt_of_not_le hl
      · simp [hd]

/-- C109. After any number of calls of `chdir`, the working directory is a directory, and `getcwd` has its full name. -/
theorem C109_invariant (w : World P R N) (names : List (Option (Name P R))) (d : Dir P N) (hd : Spec.Good w d) :
    ∃ d', names.foldl (fun c nm => (chdir w c nm).2) (some d) = some d' ∧ Spec.Good w d' := by
  induction names generalizing d with
  | nil => exact ⟨d, rfl, hd⟩
  | cons nm names ih =>
    have step : ∃ d', (chdir w (some d) nm).2 = some d' ∧ Spec.Good w d' := by
      cases nm with
      | none => exact ⟨d, rfl, hd⟩
      | some nm =>
        obtain ⟨h1, h2, h3⟩ := C109_chdir w (some d) nm
        cases hr : (chdir w (some d) (some nm)).1 with
        | error e => exact ⟨d, h3 e hr, hd⟩
        | ok u =>
          obtain ⟨p, f, hn, hf, hl⟩ := h1.1 hr
          exact ⟨_, h2 p f hn hr, hf, rfl, hl⟩
    obtain ⟨d', e, g⟩ := step
    simp only [List.foldl_cons, e]
    exact ih d' g

theorem fill_eq {l : List UInt8} {m : Mem UInt8} {p : Nat} (h : Mapped m p l.length) : fill m p l = some (patch m p l) := by
  induction l generalizing m p with
  | nil =>
    simp only [fill, Option.some.injEq]
    funext a
    simp only [patch, List.length_nil]
    rw [if_neg (by omega)]
  | cons b l ih =>
    have h0 := h 0 (by simp)
    simp only [Nat.add_zero] at h0
    obtain ⟨c, hc⟩ := Option.isSome_iff_exists.1 h0
    simp only [fill, store, hc, Option.bind_some]
    rw [ih]
    · congr 1
      funext a
      simp only [patch, List.length_cons]
      by_cases h1 : a = p
      · subst h1
        rw [if_neg (by omega), if_pos rfl, if_pos (by omega)]
        simp
      · by_cases h2 : p + 1 ≤ a ∧ a < p + 1 + l.length
        · rw [if_pos h2, if_pos (by omega)]
          rw [show a - p = (a - (p + 1)) + 1 by omega]
          simp
        · rw [if_neg h2, if_neg h1, if_neg (by omega)]
    · intro i hi
      show (if p + 1 + i = p then _ else _ : Option UInt8).isSome
      rw [if_neg (by omega), show p + 1 + i = p + (i + 1) by omega]
      exact h (i + 1) (by simp; omega)

theorem cstr_patch {m : Mem UInt8} {p k : Nat} {t : List UInt8} (h0 : (0 : UInt8) ∉ t) (hk : 0 < k) :
    CStr (patch m p (t ++ List.replicate k 0)) p t := by
  refine ⟨?_, ?_, h0⟩
  · rw [bytes_iff]
    intro i hi
    simp only [patch, List.length_append, List.length_replicate]
    rw [if_pos (by omega), show p + i - p = i by omega, List.getElem?_append_left hi]
  · simp only [patch, List.length_append, List.length_replicate]
    rw [if_pos (by omega), show p + t.length - p = t.length by omega, List.getElem?_append_right (by omega)]
    simp only [Nat.sub_self]
    rw [List.getElem?_replicate, if_pos hk]

/-- C109. `getcwd` with a buffer: if the name with its NUL fits, it is there, and nothing outside the buffer is changed; if the buffer is
shorter than the name, it fails with `ERANGE` and changes nothing. Missing: a buffer of exactly the length of the name
(`C109_getcwd_violation`). -/
theorem C109_getcwd_partial (d : Dir P N) (m : Mem UInt8) (stack heap buf size : Nat) (hb : buf ≠ 0) (h0 : (0 : UInt8) ∉ d.path)
    (hm : Mapped m buf size) (hs : size ≠ d.path.length) :
    ∃ r m', getcwd (some d) m stack heap buf size = some (r, m') ∧
      (r = .ok buf ↔ d.path.length < size) ∧
      (d.path.length < size → CStr m' buf d.path ∧ ∀ a, (a < buf ∨ buf + size ≤ a) → m' a = m a) ∧
      (¬ d.path.length < size → r = .error .ERANGE ∧ m' = m) := by
  by_cases h : d.path.length < size
  · refine ⟨.ok buf, patch m buf (d.path ++ List.replicate (size - d.path.length) 0), ?_, by simp [h], fun _ => ⟨?_, ?_⟩, fun hn => absurd h hn⟩
    · have : (d.path ++ List.replicate (size - d.path.length) (0 : UInt8)).length = size := by simp; omega
      unfold getcwd getcwdInto
      rw [if_neg hb]
      dsimp only
      rw [if_neg (by omega), fill_eq (by rw [this]; exact hm)]
      rfl
    · exact cstr_patch h0 (by omega)
    · intro a ha
      simp only [patch, List.length_append, List.length_replicate]
      rw [if_neg (by omega)]
  · refine ⟨.error .ERANGE, m, ?_, by simp [h], fun hn => absurd hn h, fun _ => ⟨rfl, rfl⟩⟩
    unfold getcwd getcwdInto
    rw [if_neg hb]
    dsimp only
    rw [if_pos (by omega)]
    rfl

theorem readN_patch {m : Mem UInt8} {p : Nat} {l : List UInt8} : readN (patch m p l) p l.length = some l := by
  apply Bytes.readN
  rw [bytes_iff]
  intro i hi
  simp only [patch]
  rw [if_pos (by omega), show p + i - p = i by omega]

/-- C109. `getcwd(NULL, …)` gives new memory with the name, and changes nothing but that memory and its own array; `size` is not looked at.
Missing: a name of exactly `PATH_MAX` bytes (`C109_getcwd_null_violation`). -/
theorem C109_getcwd_null_partial (d : Dir P N) (m : Mem UInt8) (stack heap size : Nat) (h0 : (0 : UInt8) ∉ d.path)
    (hl : d.path.length < 4096) (hm : Mapped m stack 4096) (hh : Mapped m heap (d.path.length + 1)) :
    ∃ m', getcwd (some d) m stack heap 0 size = some (.ok heap, m') ∧ CStr m' heap d.path ∧
      ∀ a, (a < stack ∨ stack + 4096 ≤ a) → (a < heap ∨ heap + (d.path.length + 1) ≤ a) → m' a = m a := by
  let z : List UInt8 := List.replicate PATH_MAX 0
  let full : List UInt8 := d.path ++ List.replicate (PATH_MAX - d.path.length) 0
  have hz : z.length = 4096 := List.length_replicate
  have hf : full.length = PATH_MAX := by
    simp only [full, List.length_append, List.length_replicate]
    unfold PATH_MAX
    omega
  have e1 : fill m stack z = some (patch m stack z) := fill_eq (by rw [hz]; exact hm)
  let m1 := patch m stack z
  have hm1 : ∀ a, (m a).isSome → (m1 a).isSome := by
    intro a ha
    show (patch m stack z a).isSome
    unfold patch
    split
    · rename_i hh
      rw [List.getElem?_eq_getElem (by omega)]
      rfl
    · exact ha
  have e2 : fill m1 stack full = some (patch m1 stack full) := fill_eq (by
    rw [hf]; exact fun i hi => hm1 _ (hm i hi))
  let m2 := patch m1 stack full
  have hm2 : ∀ a, (m a).isSome → (m2 a).isSome := by
    intro a ha
    show (patch m1 stack full a).isSome
    unfold patch
    split
    · rename_i hh
      rw [List.getElem?_eq_getElem (by omega)]
      rfl
    · exact hm1 a ha
  have e3 : readN m2 stack PATH_MAX = some full := by rw [← hf]; exact readN_patch
  have e4 : full.findIdx? (· == 0) = some d.path.length := by
    rw [List.findIdx?_eq_some_iff_getElem]
    refine ⟨by rw [hf]; exact hl, ?_, ?_⟩
    · simp only [full]
      rw [List.getElem_append_right (by omega)]
      simp
    · intro j hj
      simp only [full]
      rw [List.getElem_append_left hj]
      intro h
      exact h0 ((beq_iff_eq.1 h) ▸ List.getElem_mem hj)
  have e5 : full.take (d.path.length + 1) = d.path ++ List.replicate 1 0 := by
    simp only [full]
    rw [List.take_append, List.take_of_length_le (by omega), List.take_replicate]
    congr 2
    unfold PATH_MAX
    omega
  have e6 : fill m2 heap (full.take (d.path.length + 1)) = some (patch m2 heap (d.path ++ List.replicate 1 0)) := by
    rw [e5]
    exact fill_eq (by
      simp only [List.length_append, List.length_replicate]
      exact fun i hi => hm2 _ (hh i hi))
  refine ⟨patch m2 heap (d.path ++ List.replicate 1 0), ?_, cstr_patch h0 (by omega), ?_⟩
  · unfold getcwd
    rw [if_pos rfl]
    have e1' : fill m stack (List.replicate PATH_MAX 0) = some m1 := e1
    have e2' : getcwdInto (some d) m1 stack PATH_MAX = some (.ok d.path.length, m2) := by
      unfold getcwdInto
      have : ¬ d.path.length > PATH_MAX := by unfold PATH_MAX; omega
      show (if d.path.length > PATH_MAX then _ else _) = _
      rw [if_neg this]
      show (fill m1 stack full).map _ = _
      rw [e2]
      rfl
    simp only [e1', e2', e3, e4, e6, Option.bind_eq_bind, Option.bind_some]
  · intro a h1 h2
    have : patch m2 heap (d.path ++ List.replicate 1 0) a = m2 a := by
      simp only [patch, List.length_append, List.length_replicate]
      rw [if_neg (by omega)]
    rw [this]
    show patch m1 stack full a = _
    have : patch m1 stack full a = m1 a := by
      unfold patch
      rw [if_neg (by rw [hf]; unfold PATH_MAX; omega)]
    rw [this]
    show patch m stack z a = _
    unfold patch
    rw [if_neg (by omega)]

/-- C109. `fchdir`: on error the working directory stays as it was; otherwise it is the open file, with the name that `fpath` gives.
Missing: that the file is a directory (`C109_fchdir_violation`). -/
theorem C109_fchdir_partial (w : World P R N) (cwd : Option (Dir P N)) (f : Option N) :
    (∀ e, (fchdir w cwd f).1 = .error e → (fchdir w cwd f).2 = cwd) ∧
    ((fchdir w cwd f).1 = .ok () → ∃ g t q h, f = some g ∧ w.fpath g = .ok t ∧ w.fromAbsolute t = some q ∧ w.dupUpper g = .ok h ∧
      (fchdir w cwd f).2 = some ⟨t, q, h⟩ ∧ t.length ≤ 4096) := by
  unfold fchdir
  cases f with
  | none => simp
  | some f =>
    simp only
    cases ht : w.fpath f with
    | error e => simp
    | ok t =>
      by_cases hl : t.length > PATH_MAX
      · simp [hl]
      · simp only [hl, ↓reduceIte]
        cases hd : w.dupUpper f with
        | error e => simp
        | ok h =>
          dsimp only
          cases hq : w.fromAbsolute t with
          | none => simp
          | some q =>
            refine ⟨by simp, fun _ => ⟨f, t, q, h, rfl, ht, hq, hd, rfl, ?_⟩⟩
            unfold PATH_MAX at hl
            omega

/-- C109 fails: with a buffer of exactly the length of the name, `getcwd` succeeds but there is no NUL after the name. (POSIX: `ERANGE` if the
size is smaller than the length of the name plus one.) -/
theorem C109_getcwd_violation (d : Dir P N) (m : Mem UInt8) (stack heap buf : Nat) (hb : buf ≠ 0) (h0 : (0 : UInt8) ∉ d.path)
    (hm : Mapped m buf d.path.length) :
    ∃ m', getcwd (some d) m stack heap buf d.path.length = some (.ok buf, m') ∧ Bytes m' buf d.path ∧
      m' (buf + d.path.length) = m (buf + d.path.length) := by
  refine ⟨patch m buf d.path, ?_, ?_, ?_⟩
  · unfold getcwd getcwdInto
    rw [if_neg hb]
    simp only [Nat.lt_irrefl, gt_iff_lt, ↓reduceIte, Nat.sub_self, List.replicate_zero, List.append_nil]
    rw [fill_eq hm]
    rfl
  · rw [bytes_iff]
    intro i hi
    simp only [patch]
    rw [if_pos (by omega), show buf + i - buf = i by omega]
  · simp only [patch]
    rw [if_neg (by omega)]

/-- C109 fails: in a working directory whose name has `PATH_MAX` bytes, which `chdir` accepts, `getcwd(NULL, 0)` panics. -/
theorem C109_getcwd_null_violation (d : Dir P N) (m : Mem UInt8) (stack heap size : Nat) (h0 : (0 : UInt8) ∉ d.path)
    (hl : d.path.length = 4096) : getcwd (some d) m stack heap 0 size = none := by
  unfold getcwd
  rw [if_pos rfl]
  cases e1 : fill m stack (List.replicate PATH_MAX 0) with
  | none => rfl
  | some m1 =>
    simp only [Option.bind_eq_bind, Option.bind_some]
    have hl' : PATH_MAX = d.path.length := hl.symm
    simp only [getcwdInto, hl', Nat.lt_irrefl, gt_iff_lt, ↓reduceIte, Nat.sub_self, List.replicate_zero, List.append_nil]
    cases e2 : fill m1 stack d.path with
    | none => rfl
    | some m2 =>
      simp only [Option.map_some, Option.bind_some]
      cases e3 : readN m2 stack d.path.length with
      | none => rfl
      | some bs =>
        have : bs = d.path := by
          have hmap : Mapped m1 stack d.path.length := by
            have : ∀ (l : List UInt8) (m m' : Mem UInt8) (p : Nat), fill m p l = some m' → Mapped m p l.length := by
              intro l
              induction l with
              | nil => intro m m' p _ i hi; simp at hi
              | cons b l ih =>
                intro m m' p h i hi
                simp only [fill] at h
                cases hs : store m p b with
                | none => rw [hs] at h; simp at h
                | some m'' =>
                  rw [hs] at h
                  have hp : (m p).isSome := by
                    unfold store at hs
                    cases hp : m p with
                    | none => rw [hp] at hs; simp at hs
                    | some c => rfl
                  have h2 := ih m'' m' (p + 1) h
                  cases i with
                  | zero => exact hp
                  | succ i =>
                    have := h2 i (by simp at hi; omega)
                    rw [show p + 1 + i = p + (i + 1) by omega] at this
                    unfold store at hs
                    obtain ⟨c, hc⟩ := Option.isSome_iff_exists.1 hp
                    rw [hc] at hs
                    simp only [Option.some.injEq] at hs
                    subst hs
                    simp only at this
                    rw [if_neg (by omega)] at this
                    exact this
            exact this _ _ _ _ e2
          rw [fill_eq hmap] at e2
          cases e2
          rw [readN_patch] at e3
          exact (Option.some.inj e3).symm
        subst this
        simp only [Option.bind_some]
        have : d.path.findIdx? (· == 0) = none := by
          rw [List.findIdx?_eq_none_iff]
          intro x hx
          simp only [beq_eq_false_iff_ne, ne_eq]
          intro h
          exact h0 (h ▸ hx)
        rw [this]
        rfl

/-- A small tree for the examples; a component of a name is a letter. `/`, `/d` are directories, `/d/f`, `/f` files; `/d/l` is a link to `f`,
`/m` a link to `/d/l`, `/o` a link to itself. -/
def toyFiles : List (List UInt8) := [[], [100], [100, 102], [102]]

def toyLink : List UInt8 → Option (List UInt8)
  | [100, 108] => some [102]
  | [109] => some [47, 100, 108]
  | [111] => some [47, 111]
  | _ => none

def toyOpen (p : List UInt8) : Except Errno (List UInt8) :=
  if p ∈ toyFiles then .ok p else if (toyLink p).isSome then .error .EXDEV else .error .ENOENT

def toy : World (List UInt8) (List UInt8) (List UInt8) where
  canon p := p
  join := (· ++ ·)
  dirname := List.dropLast
  text p := 47 :: p
  fromAbsolute t := if t.head? = some 47 then some t.tail else none
  isEmpty := List.isEmpty
  openAbs := toyOpen
  openAt n r := toyOpen (n ++ r)
  statAbs := toyOpen
  statAt n r := toyOpen (n ++ r)
  isDir n := some (n == [] || n == [100])
  fpath n := .ok (47 :: n)
  dupUpper n := .ok n
  linkAbs p := match toyLink p with | some c => .ok c | none => .error .ENOENT
  linkAt n r := match toyLink (n ++ r) with | some c => .ok c | none => .error .ENOENT
  utf8 _ := true
  name c := if c.head? = some 47 then some (.abs c.tail) else some (.rel c)

/-- The working directory is `/`. -/
def toyRoot : Dir (List UInt8) (List UInt8) := ⟨[47], [], []⟩

/-- C109 fails: `fchdir` on a file that is not a directory succeeds. (POSIX: `ENOTDIR`.) -/
theorem C109_fchdir_violation : ∃ (w : World (List UInt8) (List UInt8) (List UInt8)) (f : List UInt8) (d : Dir (List UInt8) (List UInt8)),
    w.isDir f = some false ∧ (fchdir w (some toyRoot) (some f)).1 = .ok () ∧ (fchdir w (some toyRoot) (some f)).2 = some d ∧ d.fd = f :=
  ⟨toy, [102], ⟨[47, 102], [102], [102]⟩, by decide +kernel, rfl, rfl, rfl⟩

/-! `chdir("d")` from `/` moves to `/d`, from where `chdir("f")` fails with `ENOTDIR` and stays. -/
example : chdir toy (some toyRoot) (some (.rel [100])) = (.ok (), some ⟨[47, 100], [100], [100]⟩) := rfl
example : chdir toy (some ⟨[47, 100], [100], [100]⟩) (some (.rel [102])) = (.error .ENOTDIR, some ⟨[47, 100], [100], [100]⟩) := rfl
example : Spec.Good toy toyRoot := ⟨by decide +kernel, rfl, by decide⟩

/-! `getcwd` there with a buffer of four bytes at 10. -/
example : ((getcwd (some (⟨[47, 100], [100], [100]⟩ : Dir (List UInt8) (List UInt8))) (ofList 10 [1, 1, 1, 1, 1]) 0 0 10 4).map
    fun r => readN r.2 10 5) = some (some [47, 100, 0, 0, 1]) := by decide +kernel

end Verif.Cwd
