import Verif.Unistd.Model
/-!
# C158 to C164: names of terminals, `daemon`, `getpass`, `confstr`, `sleep`, interfaces, `wcswidth`
-/

namespace Verif.Unistd

/-! ## C158 -/

/-- The array holds the string, NUL-terminated, and behind it is as before. -/
def Holds (before after s : List UInt8) : Prop := after = s ++ 0 :: before.drop (s.length + 1)

theorem put_length {arr w : List UInt8} (h : w.length ≤ arr.length) : (put arr w).length = arr.length := by
  unfold put
  simp
  omega

/-- A terminal's name goes into an array that has room for it and its NUL. -/
theorem C158_ttyname_partial (d : Desc) (p name : List UInt8) (hp : d.path = .ok p) (hn : p.length < name.length) :
    (ttynameR d name).1 = 0 ∧ Holds name (ttynameR d name).2 p := by
  have hne : name ≠ [] := by intro e; subst e; simp at hn
  unfold ttynameR fpath
  rw [if_neg hne, hp]
  dsimp only
  rw [if_pos (by omega)]
  refine ⟨rfl, ?_⟩
  unfold Holds put
  dsimp only
  rw [List.set_append_right _ _ (by omega), Nat.sub_self]
  have : name.drop p.length = (name[p.length]'hn) :: name.drop (p.length + 1) := List.drop_eq_getElem_cons hn
  rw [this]
  rfl

/-- Never a byte outside the array; an array of no bytes is `ERANGE`. -/
theorem C158_bounds (d : Desc) (name : List UInt8) : (ttynameR d name).2.length = name.length ∧ (ttynameR d []).1 = 34 := by
  refine ⟨?_, rfl⟩
  unfold ttynameR
  split
  · rfl
  · have hf : (fpath d (name.length - 1)).2.length ≤ name.length := by
      unfold fpath
      split
      · simp
      · split
        · dsimp only; omega
        · dsimp only; rw [List.length_take]; omega
    split
    · rename_i e w heq
      rw [heq] at hf
      exact put_length hf
    · rename_i q w heq
      rw [heq] at hf
      rw [List.length_set]
      exact put_length hf

/-- An error is reported as a negative number, not as the number of the error. An array that is too short gives −36 instead of `ERANGE`
(34), with the beginning of the name in it, not terminated. -/
theorem C158_errors_violation (d : Desc) (name : List UInt8) (hne : name ≠ []) :
    (∀ e, d.path = .error e → (ttynameR d name).1 = -e) ∧
    (∀ p, d.path = .ok p → name.length ≤ p.length → (ttynameR d name).1 = -36 ∧
      (ttynameR d name).2 = p.take (name.length - 1) ++ name.drop (name.length - 1)) := by
  unfold ttynameR fpath
  rw [if_neg hne]
  have hl : 0 < name.length := by cases name with | nil => exact absurd rfl hne | cons => simp
  constructor
  · intro e h
    rw [h]
  · intro p h hle
    rw [h]
    dsimp only
    rw [if_neg (by omega)]
    refine ⟨rfl, ?_⟩
    unfold put
    dsimp only
    rw [List.length_take, Nat.min_eq_left (by omega)]

/-- A descriptor that is not a terminal has a name all the same, instead of `ENOTTY`. -/
theorem C158_notty_violation (d : Desc) (p name : List UInt8) (hp : d.path = .ok p) (hn : p.length < name.length) (_ht : d.terminal = false) :
    (ttynameR d name).1 = 0 := (C158_ttyname_partial d p name hp hn).1

/-- `ctermid` writes "/dev/tty" into an array of `L_ctermid` bytes or more. -/
theorem C158_ctermid (s : List UInt8) : Holds s (ctermid s) [0x2F, 0x64, 0x65, 0x76, 0x2F, 0x74, 0x74, 0x79] := rfl

example : (ttynameR ⟨.ok [0x2F, 0x74], true⟩ [1, 2, 3, 4]).2 = [0x2F, 0x74, 0, 4] := by decide

/-! ## C159 -/

/-- The process a daemon should be: in the root directory and on the null file unless asked not to be, everything else as it was, in
a session of its own. -/
structure Daemon {F : Type} (null : F) (nochdir noclose : Int) (n : Nat) (p q : Proc F) : Prop where
  root : q.root = (if nochdir = 0 then true else p.root)
  std : ∀ i < 3, q.fds i = (if noclose = 0 then some null else p.fds i)
  rest : ∀ i, 3 ≤ i → q.fds i = p.fds i
  session : q.session = n

theorem nullFds_ok {F : Type} {s : Sysc} {null : F} {p : Proc F} {fd : Nat} (ho : s.open_ = some fd) (hfree : p.fds fd = none)
    (hd : s.dup2 0 = true ∧ s.dup2 1 = true ∧ s.dup2 2 = true) :
    (nullFds s null p).1 = true ∧ (nullFds s null p).2.root = p.root ∧ (nullFds s null p).2.session = p.session ∧
    (∀ i < 3, (nullFds s null p).2.fds i = some null) ∧ (∀ i, 3 ≤ i → (nullFds s null p).2.fds i = p.fds i) := by
  obtain ⟨h0, h1, h2⟩ := hd
  have e : nullFds s null p = (true, (if fd > 2 then fun q => setFd q fd none else id)
      (setFd (setFd (setFd (setFd p fd (some null)) 0 (some null)) 1 (some null)) 2 (some null))) := by
    unfold nullFds
    rw [ho]
    simp only [dup2, h0, h1, h2, if_true, Bool.true_eq_false, if_false, setFd]
    have : ∀ (c : Prop) [Decidable c], (if c then some null else if True then some null else p.fds fd) = some null := by
      intro c _; split <;> rfl
    by_cases hf : fd > 2
    · simp [hf]
    · simp [hf]
  rw [e]
  refine ⟨rfl, ?_, ?_, ?_, ?_⟩
  · by_cases hf : fd > 2 <;> simp [hf, setFd]
  · by_cases hf : fd > 2 <;> simp [hf, setFd]
  · intro i hi
    by_cases hf : fd > 2
    · have : i ≠ fd := by omega
      simp only [hf, if_true, setFd]
      match i with
      | 0 => simp [this]
      | 1 => simp [this]
      | 2 => simp [this]
      | i + 3 => omega
    · simp only [hf, if_false, setFd]
      match i with
      | 0 => simp
      | 1 => simp
      | 2 => simp
      | i + 3 => omega
  · intro i hi
    have a0 : i ≠ 0 := by omega
    have a1 : i ≠ 1 := by omega
    have a2 : i ≠ 2 := by omega
    by_cases hf : fd > 2
    · by_cases hif : i = fd
      · subst hif
        simp [hf, setFd, hfree]
      · simp [hf, setFd, a0, a1, a2, hif]
    · have : i ≠ fd := by omega
      simp [hf, setFd, a0, a1, a2, this]

/-- When the system's calls succeed, the caller exits with 0 and the process it leaves is a daemon, in which `daemon` returns 0. -/
theorem C159_daemon {F : Type} (s : Sysc) (null : F) (nochdir noclose : Int) (p : Proc F) (fd n : Nat) (hc : s.chdir = true)
    (ho : s.open_ = some fd) (hfree : p.fds fd = none) (hd : ∀ i < 3, s.dup2 i = true) (hf : s.fork = true) (hs : s.setsid = some n) :
    ∃ q, daemon s null nochdir noclose p = .forked 0 q 0 ∧ Daemon null nochdir noclose n p q := by
  have hd' : s.dup2 0 = true ∧ s.dup2 1 = true ∧ s.dup2 2 = true := ⟨hd 0 (by omega), hd 1 (by omega), hd 2 (by omega)⟩
  unfold daemon
  rw [if_neg (by simp [hc])]
  dsimp only
  generalize hp' : (if nochdir = 0 then { p with root := true } else p) = p'
  have hfds : p'.fds = p.fds := by rw [← hp']; split <;> rfl
  have hroot : p'.root = (if nochdir = 0 then true else p.root) := by rw [← hp']; split <;> rfl
  have hN := nullFds_ok (null := null) ho (by rw [hfds]; exact hfree) hd'
  by_cases hnc : noclose = 0
  · rw [if_pos hnc, if_neg (by simp [hN.1]), if_neg (by simp [hf]), hs]
    refine ⟨_, rfl, ⟨?_, ?_, ?_, rfl⟩⟩
    · dsimp only; rw [hN.2.1, hroot]
    · intro i hi; dsimp only; rw [if_pos hnc, hN.2.2.2.1 i hi]
    · intro i hi; dsimp only; rw [hN.2.2.2.2 i hi, hfds]
  · rw [if_neg hnc, if_neg (by simp), if_neg (by simp [hf]), hs]
    refine ⟨_, rfl, ⟨hroot, ?_, ?_, rfl⟩⟩
    · intro i _; dsimp only; rw [if_neg hnc, hfds]
    · intro i _; dsimp only; rw [hfds]

/-- The caller goes on, with −1, exactly when the directory cannot be changed, the null file cannot be opened or be put on the
descriptors, or the process cannot fork. -/
theorem C159_failure {F : Type} (s : Sysc) (null : F) (nochdir noclose : Int) (p : Proc F) :
    (∃ q, daemon s null nochdir noclose p = .failed q) ↔
      (nochdir = 0 ∧ s.chdir = false) ∨ (noclose = 0 ∧ (s.open_ = none ∨ ∃ i < 3, s.dup2 i = false)) ∨ s.fork = false := by
  have hN : ∀ p' : Proc F, (nullFds s null p').1 = false ↔ (s.open_ = none ∨ ∃ i < 3, s.dup2 i = false) := by
    intro p'
    unfold nullFds
    cases ho : s.open_ with
    | none => simp
    | some fd =>
      have h3 : (∃ i < 3, s.dup2 i = false) ↔ (s.dup2 0 = false ∨ s.dup2 1 = false ∨ s.dup2 2 = false) := by
        constructor
        · rintro ⟨i, hi, h⟩
          match i with
          | 0 => exact .inl h
          | 1 => exact .inr (.inl h)
          | 2 => exact .inr (.inr h)
          | i + 3 => omega
        · rintro (h | h | h)
          · exact ⟨0, by omega, h⟩
          · exact ⟨1, by omega, h⟩
          · exact ⟨2, by omega, h⟩
      rw [h3]
      unfold dup2
      cases h0 : s.dup2 0 <;> cases h1 : s.dup2 1 <;> cases h2 : s.dup2 2 <;> simp
      all_goals split <;> rfl
  unfold daemon
  by_cases hc : nochdir = 0 ∧ s.chdir = false
  · rw [if_pos hc]
    exact ⟨fun _ => .inl hc, fun _ => ⟨p, rfl⟩⟩
  · rw [if_neg hc]
    dsimp only
    generalize (if nochdir = 0 then ({ p with root := true } : Proc F) else p) = p'
    by_cases hnc : noclose = 0
    · rw [if_pos hnc]
      cases hb : (nullFds s null p').1 with
      | false =>
        rw [if_pos rfl]
        exact ⟨fun _ => .inr (.inl ⟨hnc, (hN p').1 hb⟩), fun _ => ⟨_, rfl⟩⟩
      | true =>
        rw [if_neg (by simp)]
        have hno : ¬ (s.open_ = none ∨ ∃ i < 3, s.dup2 i = false) := fun h => by
          have := (hN p').2 h
          rw [hb] at this
          cases this
        cases hf : s.fork with
        | false => simp
        | true =>
          simp only [Bool.true_eq_false, if_false]
          constructor
          · rintro ⟨q, h⟩
            cases hs : s.setsid <;> rw [hs] at h <;> cases h
          · rintro (h | h | h)
            · exact absurd h hc
            · exact absurd h.2 hno
            · cases h
    · rw [if_neg hnc, if_neg (by simp)]
      cases hf : s.fork with
      | false => simp
      | true =>
        simp only [Bool.true_eq_false, if_false]
        constructor
        · rintro ⟨q, h⟩
          cases hs : s.setsid <;> rw [hs] at h <;> cases h
        · rintro (h | h | h)
          · exact absurd h hc
          · exact absurd h.1 hnc
          · cases h

example : ∃ q, daemon (F := Nat) ⟨true, some 0, fun _ => true, true, some 77⟩ 9 0 0 ⟨false, fun i => if i = 0 then none else some 1, 5⟩ = .forked 0 q 0 ∧
    q.fds 0 = some 9 ∧ q.fds 3 = some 1 ∧ q.session = 77 := ⟨_, rfl, rfl, rfl, rfl⟩

/-- A child that gets no session of its own is told so. -/
theorem C159_session {F : Type} (s : Sysc) (null : F) (nochdir noclose : Int) (p q : Proc F) (x y : Int)
    (h : daemon s null nochdir noclose p = .forked x q y) : (y = 0 ↔ s.setsid.isSome) ∧ (y ≠ 0 → y = -1 ∧ q.session = p.session) := by
  have hN : ∀ p' : Proc F, (nullFds s null p').2.session = p'.session := by
    intro p'
    unfold nullFds dup2 setFd
    repeat' split
    all_goals rfl
  unfold daemon at h
  split at h
  · cases h
  · have hr : (if noclose = 0 then nullFds s null (if nochdir = 0 then { p with root := true } else p) else
        (true, if nochdir = 0 then { p with root := true } else p)).2.session = p.session := by
      have hp : (if nochdir = 0 then { p with root := true } else p).session = p.session := by split <;> rfl
      split
      · rw [hN]; exact hp
      · exact hp
    dsimp only at h
    generalize (if noclose = 0 then nullFds s null (if nochdir = 0 then { p with root := true } else p) else
        (true, if nochdir = 0 then { p with root := true } else p)) = r at h hr
    by_cases h1 : r.1 = false
    · rw [if_pos h1] at h; cases h
    · rw [if_neg h1] at h
      by_cases h2 : s.fork = false
      · rw [if_pos h2] at h; cases h
      · rw [if_neg h2] at h
        cases hs : s.setsid with
        | none => rw [hs] at h; cases h; exact ⟨by simp, fun _ => ⟨rfl, hr⟩⟩
        | some n => rw [hs] at h; cases h; exact ⟨by simp, fun h => absurd rfl h⟩

/-! ## C160 -/

/-- Local flags: the bits of `ECHO`, `ISIG` and `ICANON`. -/
def bits (redox : Bool) : Nat × Nat × Nat := if redox then (3, 7, 8) else (3, 0, 1)

/-- While the password is typed there is no echo and no signal from the keyboard, and input comes by lines; no other local flag is
different. -/
theorem C160_quiet (redox : Bool) (a : Attr) :
    (∀ i < 32, Nat.testBit (quiet redox a).lflag i =
      (if i = (bits redox).1 ∨ i = (bits redox).2.1 then false else if i = (bits redox).2.2 then true else Nat.testBit a.lflag i)) ∧
    (∀ i < 32, Nat.testBit (quiet redox a).iflag i =
      (if i = 6 ∨ i = 7 then false else if i = 8 then true else Nat.testBit a.iflag i)) := by
  have m1 : ∀ i < 32, Nat.testBit 0xFFFFFF77 i = !(decide (i = 3 ∨ i = 7)) := by decide +kernel
  have m2 : ∀ i < 32, Nat.testBit 0xFFFFFFF6 i = !(decide (i = 3 ∨ i = 0)) := by decide +kernel
  have m3 : ∀ i < 32, Nat.testBit 0xFFFFFF3F i = !(decide (i = 6 ∨ i = 7)) := by decide +kernel
  have n1 : ∀ i < 32, Nat.testBit 0x100 i = decide (i = 8) := by decide +kernel
  have n2 : ∀ i < 32, Nat.testBit 2 i = decide (i = 1) := by decide +kernel
  constructor
  · intro i hi
    cases redox
    · simp only [quiet, bits, Bool.false_eq_true, if_false]
      rw [Nat.testBit_or, Nat.testBit_and, m2 i hi, n2 i hi]
      by_cases h : i = 3 ∨ i = 0
      · have : i ≠ 1 := by omega
        simp [h, this]
      · by_cases h1 : i = 1 <;> simp [h, h1]
    · simp only [quiet, bits, if_true]
      rw [Nat.testBit_or, Nat.testBit_and, m1 i hi, n1 i hi]
      by_cases h : i = 3 ∨ i = 7
      · have : i ≠ 8 := by omega
        simp [h, this]
      · by_cases h1 : i = 8 <;> simp [h, h1]
  · intro i hi
    simp only [quiet]
    rw [Nat.testBit_or, Nat.testBit_and, m3 i hi, n1 i hi]
    by_cases h : i = 6 ∨ i = 7
    · have : i ≠ 8 := by omega
      simp [h, this]
    · by_cases h1 : i = 8 <;> simp [h, h1]

/-- The password is the line without its newline; the terminal is set back. Partial: all reads and writes must succeed, and the line
with its newline must fit. -/
theorem C160_getpass_partial (redox : Bool) (pw buf : List UInt8) (a : Attr) (_hn : pw.length + 1 ≤ buf.length) :
    ∃ arr, getpass redox ⟨true, true, some (pw ++ [0x0A]), true⟩ buf a = (some arr, a, some (quiet redox a)) ∧ Holds buf arr pw := by
  refine ⟨_, rfl, ?_⟩
  unfold store Holds
  dsimp only
  have e : (pw ++ [0x0A] ++ buf.drop (pw ++ [0x0A]).length)[(pw ++ [0x0A]).length - 1]? = some (0x0A : UInt8) := by simp
  rw [if_pos (.inl ⟨by simp, e⟩)]
  rw [List.length_append, List.length_singleton, Nat.add_sub_cancel, List.append_assoc, List.set_append_right _ _ (by omega), Nat.sub_self]
  rfl

/-- Whatever is read, as far as it is not longer than the array, the array keeps its length and a NUL is put into it. -/
theorem C160_bounds (buf line : List UInt8) (h : line.length ≤ buf.length) (h0 : 0 < buf.length) :
    (store buf line).length = buf.length ∧ ∃ i, i ≤ line.length ∧ (store buf line)[i]? = some 0 := by
  have hl : (line ++ buf.drop line.length).length = buf.length := by simp; omega
  unfold store
  dsimp only
  refine ⟨by rw [List.length_set, hl], ?_⟩
  split
  · exact ⟨line.length - 1, by omega, by rw [List.getElem?_set_self (by rw [hl]; omega)]⟩
  · rename_i hc
    have : line.length ≠ buf.length := fun e => hc (.inr e.symm)
    exact ⟨line.length, by omega, by rw [List.getElem?_set_self (by rw [hl]; omega)]⟩

/-- A password is returned only if the terminal was opened, the prompt written, a line read and the newline written. -/
theorem C160_failure (redox : Bool) (t : Tty) (buf : List UInt8) (a : Attr) :
    (getpass redox t buf a).1.isSome ↔ t.opens = true ∧ t.prompt = true ∧ t.line.isSome ∧ t.newline = true := by
  obtain ⟨o, p, l, n⟩ := t
  cases o <;> cases p <;> cases l <;> cases n <;> simp [getpass]

/-- When the prompt cannot be written or nothing can be read, the terminal stays without echo. -/
theorem C160_echo_violation (redox : Bool) (t : Tty) (buf : List UInt8) (a : Attr) (h : t.opens = true) (hf : t.prompt = false ∨ t.line = none) :
    (getpass redox t buf a).1 = none ∧ Nat.testBit (getpass redox t buf a).2.1.lflag 3 = false := by
  have hq : Nat.testBit (quiet redox a).lflag 3 = false := by
    rw [(C160_quiet redox a).1 3 (by omega)]
    cases redox <;> rfl
  unfold getpass
  rw [if_neg (by simp [h])]
  by_cases hp : t.prompt = false
  · rw [if_pos hp]; exact ⟨rfl, hq⟩
  · rw [if_neg hp, hf.resolve_left hp]
    exact ⟨rfl, hq⟩

example : (getpass false ⟨true, true, some [0x61, 0x62, 0x0A], true⟩ [9, 9, 9, 9, 9] ⟨0x40, 0x8009⟩).1 = some [0x61, 0x62, 0, 9, 9] := by decide

/-! ## C161 -/

/-- The value of `_CS_PATH`, as much of it as fits, always terminated; the size it needs is returned. -/
theorem C161_path (buf : List UInt8) :
    (confstr 0 buf).1 = 9 ∧ (confstr 0 buf).2.1.length = buf.length ∧
    (9 ≤ buf.length → Holds buf (confstr 0 buf).2.1 usrBin) ∧
    (0 < buf.length → buf.length < 9 → (confstr 0 buf).2.1 = usrBin.take (buf.length - 1) ++ [0]) := by
  unfold confstr
  rw [if_pos rfl]
  cases buf with
  | nil => exact ⟨rfl, rfl, fun h => absurd h (by simp), fun h => absurd h (by simp)⟩
  | cons b buf =>
    have hu : usrBin.length = 8 := rfl
    dsimp only
    rw [if_neg (by simp)]
    refine ⟨rfl, ?_, ?_, ?_⟩
    · rw [put_length]
      simp [hu]
      omega
    · intro h
      unfold Holds put
      rw [List.take_of_length_le (by omega)]
      simp
    · intro _ h
      unfold put
      rw [List.drop_eq_nil_of_le (by simp only [List.length_append, List.length_take, hu, List.length_singleton]; omega), List.append_nil]

/-- A name that is not one of `confstr`'s is `EINVAL`. -/
theorem C161_unknown (name : Int) (buf : List UInt8) (h : name < 0 ∨ 1147 < name) : confstr name buf = (0, buf, some 22) := by
  unfold confstr
  rw [if_neg (by omega), if_neg (by omega)]

/-- Other names have the value "", whose size is returned; but nothing is written into the array. And ten names that `unistd.h` has
are refused. -/
theorem C161_violation (buf : List UInt8) :
    confstr 1 buf = (1, buf, none) ∧ (∀ name : Int, 1126 ≤ name → name ≤ 1147 → confstr name buf = (1, buf, none)) ∧
    (∀ name : Int, 1116 ≤ name → name < 1126 → confstr name buf = (0, buf, some 22)) := by
  refine ⟨rfl, ?_, ?_⟩
  · intro name h1 h2
    unfold confstr
    rw [if_neg (by omega), if_pos (by omega)]
  · intro name h1 h2
    unfold confstr
    rw [if_neg (by omega), if_neg (by omega)]

/-! ## C162 -/

/-- `sleep` asks for the seconds given, and returns 0 when they have passed; otherwise the whole seconds that are left. -/
theorem C162_sleep_partial (seconds : Nat) (hs : seconds < 2 ^ 32) (nap : Nat → Nap) :
    (sleep seconds nap).1 = seconds * 10 ^ 9 ∧
    (nap (seconds * 10 ^ 9) = .slept → (sleep seconds nap).2 = 0) ∧
    (∀ left, nap (seconds * 10 ^ 9) = .interrupted left → left ≤ seconds * 10 ^ 9 →
      (sleep seconds nap).2 * 10 ^ 9 ≤ left ∧ left < ((sleep seconds nap).2 + 1) * 10 ^ 9 ∧ (sleep seconds nap).2 ≤ seconds) := by
  unfold sleep
  dsimp only
  rw [show (1000000000 : Nat) = 10 ^ 9 from rfl]
  refine ⟨by split <;> rfl, ?_, ?_⟩
  · intro h; rw [h]
  · intro left h hl
    rw [h]
    dsimp only
    have : left / 10 ^ 9 < 2 ^ 32 := by omega
    rw [Nat.mod_eq_of_lt this]
    omega

/-- Interrupted with less than a second left, `sleep` returns 0, as if nothing had happened. -/
theorem C162_sleep_violation (seconds left : Nat) (nap : Nat → Nap) (h : nap (seconds * 10 ^ 9) = .interrupted left) (hl : left < 10 ^ 9) :
    (sleep seconds nap).2 = 0 := by
  unfold sleep
  dsimp only
  rw [show (1000000000 : Nat) = 10 ^ 9 from rfl, h]
  dsimp only
  rw [Nat.div_eq_of_lt hl]

/-- `usleep` asks for exactly the microseconds given, as a valid time. -/
theorem C162_usleep (useconds : Nat) :
    (usleepTime useconds).1 * 10 ^ 9 + (usleepTime useconds).2 = useconds * 1000 ∧ (usleepTime useconds).2 < 10 ^ 9 := by
  unfold usleepTime
  dsimp only
  rw [Nat.mod_eq_of_lt (a := useconds % 1000000 * 1000) (by omega)]
  omega

example : sleep 10 (fun _ => .interrupted 2500000000) = (10000000000, 2) := rfl

/-! ## C163 -/

/-- Names and indexes of interfaces belong together: an index is greater than 0 and of one name, and `if_nametoindex` and
`if_indextoname` agree with the list of `if_nameindex`. -/
theorem C163_interfaces_partial (buf : List UInt8) :
    (∀ i n, (i, n) ∈ ifNameindex → 0 < i ∧ ifNametoindex n = i ∧ (ifIndextoname i buf).1 = .ok n) ∧
    (∀ n, ifNametoindex n = 0 ↔ ∀ i, (i, n) ∉ ifNameindex) ∧
    (∀ i, (∀ n, (i, n) ∉ ifNameindex) → (ifIndextoname i buf).1 = .error 6) := by
  refine ⟨?_, ?_, ?_⟩
  · intro i n h
    unfold ifNameindex at h
    simp at h
    obtain ⟨rfl, rfl⟩ := h
    exact ⟨by omega, rfl, rfl⟩
  · intro n
    unfold ifNametoindex ifNameindex
    by_cases h : n = stub <;> simp [h]
  · intro i h
    unfold ifIndextoname
    rw [if_neg]
    intro e
    subst e
    exact h stub (by unfold ifNameindex; simp)

/-- `if_indextoname` never writes the name into the array it is given. -/
theorem C163_buffer_violation (i : Nat) (buf : List UInt8) : (ifIndextoname i buf).2 = buf := by
  unfold ifIndextoname
  split <;> rfl

/-! ## C164 -/

/-- The columns of the first `n` characters of a string, or −1 if one of them is not printable. -/
def columns (width : UInt32 → Int) (s : List UInt32) : Int := if ∃ c ∈ s, width c < 0 then -1 else (s.map width).sum

theorem columns_cons (width : UInt32 → Int) (c : UInt32) (s : List UInt32) :
    columns width (c :: s) = if width c < 0 then -1 else if columns width s < 0 then -1 else width c + columns width s := by
  have hsum : ∀ s : List UInt32, (¬ ∃ c ∈ s, width c < 0) → 0 ≤ (s.map width).sum := by
    intro s
    induction s with
    | nil => intro _; simp
    | cons d s ih =>
      intro h
      rw [List.map_cons, List.sum_cons]
      have h1 : ¬ width d < 0 := fun e => h ⟨d, by simp, e⟩
      have h2 := ih (fun ⟨x, hx, e⟩ => h ⟨x, List.mem_cons_of_mem _ hx, e⟩)
      omega
  unfold columns
  by_cases hc : width c < 0
  · rw [if_pos hc, if_pos ⟨c, by simp, hc⟩]
  · rw [if_neg hc]
    by_cases hs : ∃ d ∈ s, width d < 0
    · obtain ⟨d, hd, e⟩ := hs
      have h1 : ∃ d ∈ c :: s, width d < 0 := ⟨d, List.mem_cons_of_mem _ hd, e⟩
      have h2 : ∃ d ∈ s, width d < 0 := ⟨d, hd, e⟩
      rw [if_pos h1, if_pos h2]
      rfl
    · have hn : ¬ ∃ d ∈ c :: s, width d < 0 := by
        rintro ⟨d, hd, e⟩
        rcases List.mem_cons.1 hd with rfl | hd
        · exact hc e
        · exact hs ⟨d, hd, e⟩
      rw [if_neg hn, if_neg hs, List.map_cons, List.sum_cons]
      rw [if_neg (by have := hsum s hs; omega)]

/-- For characters that are all before the end of the string. -/
theorem C164_wcswidth_partial (width : UInt32 → Int) (s rest : List UInt32) : wcswidth width (s ++ rest) s.length = some (columns width s) := by
  induction s with
  | nil => simp [wcswidth, columns]
  | cons c s ih =>
    rw [List.cons_append, List.length_cons]
    unfold wcswidth
    rw [ih, columns_cons]
    dsimp only
    split
    · rfl
    · split <;> rfl

/-- It does not stop at the end of the string: what follows is counted, and when nothing does, it is read behind the array. -/
theorem C164_end_violation (width : UInt32 → Int) (s : List UInt32) (hw : ∀ c ∈ 0 :: s, 0 ≤ width c) :
    (∀ n, s.length + 1 < n → wcswidth width (s ++ [0]) n = none) ∧
    (∀ rest, wcswidth width (s ++ 0 :: rest) (s.length + 1 + rest.length) = some (columns width (s ++ 0 :: rest))) := by
  have hgen : ∀ (t : List UInt32), (∀ c ∈ t, 0 ≤ width c) → ∀ n, t.length < n → wcswidth width t n = none := by
    intro t
    induction t with
    | nil => intro _ n hn; cases n with | zero => simp at hn | succ n => rfl
    | cons c t ih =>
      intro h n hn
      cases n with
      | zero => simp at hn
      | succ n =>
        unfold wcswidth
        have hc := h c (by simp)
        rw [if_neg (by omega), ih (fun d hd => h d (List.mem_cons_of_mem _ hd)) n (by simp at hn; omega)]
  constructor
  · intro n hn
    apply hgen
    · intro c hc
      apply hw
      simp at hc ⊢
      rcases hc with h | h
      · exact .inr h
      · exact .inl h
    · simpa using hn
  · intro rest
    have := C164_wcswidth_partial width (s ++ 0 :: rest) []
    rw [List.append_nil] at this
    rw [← this]
    congr 1
    simp
    omega

example : wcswidth (fun c => if c < 32 then -1 else if c < 0x1100 then 1 else 2) [0x61, 0x4E2D, 0] 2 = some 3 := by decide

end Verif.Unistd
