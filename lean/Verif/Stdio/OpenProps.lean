import Verif.Stdio.OpenModel

/-!
# C132: opening streams
-/

namespace Verif.Fopen

/-! ## What is claimed -/

/-- What may be done with a descriptor. -/
def Entry.Readable (e : Entry) : Prop := e.flags &&& 0x00010000 ≠ 0
@[inherit_doc Entry.Readable] def Entry.Writable (e : Entry) : Prop := e.flags &&& 0x00020000 ≠ 0
@[inherit_doc Entry.Readable] def Entry.Appends (e : Entry) : Prop := e.flags &&& 0x00080000 ≠ 0

instance (e : Entry) : Decidable e.Readable := by unfold Entry.Readable; infer_instance
instance (e : Entry) : Decidable e.Writable := by unfold Entry.Writable; infer_instance
instance (e : Entry) : Decidable e.Appends := by unfold Entry.Appends; infer_instance

/-- The letters of a mode: `r`, `w`, `a`, `+`, `x`, `e`. -/
def cr : UInt8 := 0x72
@[inherit_doc cr] def cw : UInt8 := 0x77
@[inherit_doc cr] def ca : UInt8 := 0x61
@[inherit_doc cr] def plus : UInt8 := 0x2B
@[inherit_doc cr] def cx : UInt8 := 0x78
@[inherit_doc cr] def ce : UInt8 := 0x65

/-- A descriptor is open on the file as ISO C and POSIX say for the mode `c :: rest`, at its beginning. -/
structure OpenFor (e : Entry) (path : List UInt8) (c : UInt8) (rest : List UInt8) : Prop where
  path : e.path = path
  reads : e.Readable ↔ c = cr ∨ plus ∈ rest
  writes : e.Writable ↔ c ≠ cr ∨ plus ∈ rest
  appends : e.Appends ↔ c = ca
  cloexec : e.cloexec = true ↔ ce ∈ rest
  start : e.pos = 0

/-- The file that is opened, before and after: `r` takes an old file as it is, `w` empties it, `a` keeps it; `w` and `a` make a new one, which with `x` is the only possibility. -/
def FileFor (umask : UInt32) (old new : Option File) (c : UInt8) (rest : List UInt8) : Prop :=
  match (generalizing := false) old with
  | some f => (c ≠ cr → cx ∉ rest) ∧ new = some ⟨if c = cw then [] else f.data, f.perm⟩
  | none => c ≠ cr ∧ new = some ⟨[], 0o666 &&& ~~~umask⟩

/-- The reasons for which the system may refuse. -/
def Refusal (k : K) (ch : Choice) (path : List UInt8) (c : UInt8) (rest : List UInt8) (e : Errno) : Prop :=
  (ch.pick = none ∧ e = .EMFILE) ∨ ch.deny = some e ∨ (c = cr ∧ k.files path = none ∧ e = .ENOENT) ∨
    (c ≠ cr ∧ cx ∈ rest ∧ (k.files path).isSome ∧ e = .EEXIST)

/-! ## The mode -/

/-- The flags, from what is in the mode. -/
def word (c : UInt8) (p x e : Bool) : UInt32 :=
  (if p then 0x30000 else if c = cr then 0x10000 else 0x20000) ||| (if x then 0x8000000 else 0) ||| (if e then 0x1000000 else 0) |||
    (if c = cr then 0 else if c = cw then 0x6000000 else 0x2080000)

theorem parse_word {c : UInt8} {rest : List UInt8} (hc : c = cr ∨ c = cw ∨ c = ca) :
    parseMode (c :: rest) = word c (rest.contains plus) (rest.contains cx) (rest.contains ce) := by
  have h1 : (c :: rest).contains 0x2B = rest.contains plus := by
    rcases hc with rfl | rfl | rfl <;> simp [cr, cw, ca, plus]
  have h2 : (c :: rest).contains 0x78 = rest.contains cx := by
    rcases hc with rfl | rfl | rfl <;> simp [cr, cw, ca, cx]
  have h3 : (c :: rest).contains 0x65 = rest.contains ce := by
    rcases hc with rfl | rfl | rfl <;> simp [cr, cw, ca, ce]
  unfold parseMode
  rw [h1, h2, h3, show first (c :: rest) = c from rfl]
  generalize rest.contains plus = p
  generalize rest.contains cx = x
  generalize rest.contains ce = e
  clear h1 h2 h3
  revert p x e
  rcases hc with rfl | rfl | rfl <;> decide

theorem valid_of {c : UInt8} {rest : List UInt8} (hc : c = cr ∨ c = cw ∨ c = ca) : valid (c :: rest) = true := by
  rcases hc with rfl | rfl | rfl <;> rfl

theorem word_facts {c : UInt8} (hc : c = cr ∨ c = cw ∨ c = ca) (p x e : Bool) :
    (word c p x e &&& 0x00010000 ≠ 0 ↔ c = cr ∨ p = true) ∧ (word c p x e &&& 0x00020000 ≠ 0 ↔ c ≠ cr ∨ p = true) ∧
    (word c p x e &&& 0x00080000 ≠ 0 ↔ c = ca) ∧ has (word c p x e) O_CREAT = decide (c ≠ cr) ∧ has (word c p x e) O_EXCL = x ∧
    has (word c p x e) O_TRUNC = decide (c = cw) ∧ has (word c p x e) O_CLOEXEC = e ∧ decide (word c p x e &&& O_CLOEXEC ≠ 0) = e := by
  revert p x e
  rcases hc with rfl | rfl | rfl <;> decide

theorem mem_contains {a : UInt8} {l : List UInt8} : l.contains a = true ↔ a ∈ l := by simp

theorem or_and (a b f : UInt32) : (a ||| b) &&& f = (a &&& f) ||| (b &&& f) := by
  apply UInt32.toBitVec_inj.1
  simp only [UInt32.toBitVec_and, UInt32.toBitVec_or]
  rw [BitVec.and_comm (_ ||| _), BitVec.and_or_distrib_left, BitVec.and_comm f.toBitVec, BitVec.and_comm f.toBitVec]

/-! ## Theorems -/

/-- A mode that does not begin with `r`, `w` or `a` is refused by `fopen` and `fdopen`, and nothing happens. -/
theorem C132_invalid {k : K} {ch : Choice} {path mode : List UInt8} {fd : Nat} (h : ∀ c ∈ mode.head?, c ≠ cr ∧ c ≠ cw ∧ c ≠ ca) :
    fopen k ch path mode = (.error .EINVAL, k) ∧ fdopen k fd mode = (.error .EINVAL, k) := by
  have : valid mode = false := by
    cases mode with
    | nil => rfl
    | cons c l =>
      have := h c rfl
      simp only [valid, first, List.headD_cons]
      simp only [Bool.or_eq_false_iff]
      exact ⟨⟨decide_eq_false this.1, decide_eq_false this.2.1⟩, decide_eq_false this.2.2⟩
  simp [fopen, fdopen, this]

theorem setFd_same (k : K) (fd : Nat) (e : Option Entry) : (k.setFd fd e).fds fd = e := by simp [K.setFd]

theorem setFd_twice (k : K) (fd : Nat) (e e' : Option Entry) : (k.setFd fd e).setFd fd e' = k.setFd fd e' := by
  unfold K.setFd
  congr 1
  funext n
  dsimp only
  split <;> rfl

/-- What `_fdopen` does with a descriptor that has been opened with the flags of the same mode: nothing. -/
theorem fdopen_new {k : K} {fd : Nat} {e : Entry} {c : UInt8} {rest : List UInt8} (hc : c = cr ∨ c = cw ∨ c = ca) (he : k.fds fd = some e)
    (ha : e.Appends ↔ c = ca) (hx : e.cloexec = true ↔ ce ∈ rest) :
    ∃ fl, fdopen k fd (c :: rest) = (.ok ⟨fd, fl, [], []⟩, k) ∧ fl &&& (F_EOF ||| F_ERR ||| F_PERM) = 0 ∧
      (fl &&& F_NORD = 0 ↔ c = cr ∨ plus ∈ rest) ∧ (fl &&& F_NOWR = 0 ↔ c ≠ cr ∨ plus ∈ rest) := by
  have h1 : (c :: rest).contains 0x2B = rest.contains plus := by
    rcases hc with rfl | rfl | rfl <;> simp [cr, cw, ca, plus]
  have h3 : (c :: rest).contains 0x65 = rest.contains ce := by
    rcases hc with rfl | rfl | rfl <;> simp [cr, cw, ca, ce]
  have hk : (if rest.contains ce = true then setCloexec k fd else k) = k := by
    split
    · rename_i h
      rw [mem_contains] at h
      unfold setCloexec
      rw [he]
      simp only
      have : ({ e with cloexec := true } : Entry) = e := by rw [← hx.2 h]
      rw [this]
      unfold K.setFd
      have : (fun n => if n = fd then some e else k.fds n) = k.fds := by
        funext n
        split
        · rename_i h; rw [h, he]
        · rfl
      rw [this]
    · rfl
  unfold fdopen
  rw [valid_of hc, h1, h3, show first (c :: rest) = c from rfl]
  simp only [Bool.not_true, Bool.false_eq_true, if_false, hk, he]
  rw [← mem_contains (a := plus)]
  by_cases hca : c = 0x61
  · rw [if_pos hca]
    have hap := ha.2 hca
    have : ¬ e.flags &&& O_APPEND = 0 := hap
    rw [if_neg this]
    subst hca
    refine ⟨_, rfl, ?_⟩
    cases rest.contains plus <;> decide
  · rw [if_neg hca]
    refine ⟨_, rfl, ?_⟩
    rcases hc with rfl | rfl | rfl
    · cases rest.contains plus <;> decide
    · cases rest.contains plus <;> decide
    · exact absurd rfl hca

/-- **C132**, `fopen`: for every mode that begins with `r`, `w` or `a`, whatever follows. It fails only if the system has a reason to, and then changes nothing; otherwise one file and one descriptor,
which was free, are as they should be, and the stream is new. -/
theorem C132_fopen {k : K} {ch : Choice} {path : List UInt8} {c : UInt8} {rest : List UInt8} (hc : c = cr ∨ c = cw ∨ c = ca) :
    match (generalizing := false) fopen k ch path (c :: rest) with
    | (.error e, k') => k' = k ∧ Refusal k ch path c rest e
    | (.ok s, k') => (¬ ∃ e, Refusal k ch path c rest e) ∧ ch.pick = some s.fd ∧
      (∃ e, k'.fds s.fd = some e ∧ OpenFor e path c rest) ∧ (∀ n, n ≠ s.fd → k'.fds n = k.fds n) ∧
      FileFor k.umask (k.files path) (k'.files path) c rest ∧ (∀ p, p ≠ path → k'.files p = k.files p) ∧ k'.umask = k.umask ∧
      s.ahead = [] ∧ s.pending = [] ∧ s.flags &&& (F_EOF ||| F_ERR ||| F_PERM) = 0 ∧
      (s.flags &&& F_NORD = 0 ↔ c = cr ∨ plus ∈ rest) ∧ (s.flags &&& F_NOWR = 0 ↔ c ≠ cr ∨ plus ∈ rest) := by
  obtain ⟨w1, w2, w3, w4, w5, w6, w7, w8⟩ := word_facts hc (rest.contains plus) (rest.contains cx) (rest.contains ce)
  rw [mem_contains] at w1 w2
  unfold fopen
  rw [valid_of hc, parse_word hc]
  simp only [Bool.not_true, Bool.false_eq_true, if_false]
  generalize hw : word c (rest.contains plus) (rest.contains cx) (rest.contains ce) = w at *
  unfold sysOpen
  cases hp : ch.pick with
  | none => exact ⟨rfl, Or.inl ⟨hp, rfl⟩⟩
  | some fd =>
    cases hd : ch.deny with
    | some e => exact ⟨rfl, Or.inr (Or.inl hd)⟩
    | none =>
      simp only [w4, w5, w6, w7]
      have hopen : OpenFor ⟨path, w &&& (O_RDWR ||| O_APPEND), rest.contains ce, 0⟩ path c rest := by
        refine ⟨rfl, ?_, ?_, ?_, ?_, rfl⟩
        · rw [← w1]; unfold Entry.Readable
          rw [UInt32.and_assoc]; exact Iff.rfl
        · rw [← w2]; unfold Entry.Writable
          rw [UInt32.and_assoc]; exact Iff.rfl
        · rw [← w3]; unfold Entry.Appends
          rw [UInt32.and_assoc]; exact Iff.rfl
        · exact mem_contains
      have hce : ∀ k' : K, k'.fds fd = some ⟨path, w &&& (O_RDWR ||| O_APPEND), rest.contains ce, 0⟩ → (if w &&& O_CLOEXEC ≠ 0 then setCloexec k' fd else k') = k' := by
        intro k' h
        split
        · rename_i h2
          have h3 : rest.contains ce = true := by rw [← w8]; exact decide_eq_true h2
          unfold setCloexec
          rw [h]
          simp only
          unfold K.setFd
          have : (fun n => if n = fd then some (⟨path, w &&& (O_RDWR ||| O_APPEND), true, 0⟩ : Entry) else k'.fds n) = k'.fds := by
            funext n
            split
            · rename_i hn; rw [hn, h, h3]
            · rfl
          rw [this]
        · rfl
      cases hf : k.files path with
      | none =>
        by_cases hcr : c = cr
        · rw [show decide (c ≠ cr) = false by simp [hcr]]
          simp only [Bool.false_eq_true, if_false]
          exact ⟨by trivial, Or.inr (Or.inr (Or.inl ⟨hcr, hf, rfl⟩))⟩
        · rw [show decide (c ≠ cr) = true by simp [hcr]]
          simp only [if_true]
          rw [hce _ (setFd_same _ _ _)]
          obtain ⟨fl, e, f1, f2, f3⟩ := fdopen_new hc (setFd_same (k.put path ⟨[], 0o666 &&& ~~~k.umask &&& 0xFFF⟩) fd (some _)) hopen.appends hopen.cloexec
          rw [e]
          refine ⟨?_, rfl, ⟨_, setFd_same _ _ _, hopen⟩, ?_, ?_, ?_, rfl, rfl, rfl, f1, f2, f3⟩
          · rintro ⟨e, ⟨h, -⟩ | h | ⟨h, -⟩ | ⟨-, -, h, -⟩⟩
            · rw [hp] at h; simp at h
            · rw [hd] at h; simp at h
            · exact hcr h
            · rw [hf] at h; simp at h
          · intro n hn; simp [K.setFd, hn, K.put]
          · refine ⟨hcr, ?_⟩
            simp only [K.setFd, K.put, if_true]
            congr 2
            rw [UInt32.and_assoc, UInt32.and_comm (~~~k.umask), ← UInt32.and_assoc]; rfl
          · intro p hp; simp [K.setFd, K.put, hp]
      | some f =>
        by_cases hx : c ≠ cr ∧ cx ∈ rest
        · have hx2 := mem_contains.2 hx.2
          rw [hx2, show decide (c ≠ cr) = true by simp [hx.1]]
          simp only [Bool.and_self, if_true]
          exact ⟨by trivial, Or.inr (Or.inr (Or.inr ⟨hx.1, hx.2, by rw [hf]; rfl, rfl⟩))⟩
        · have hx2 : (decide (c ≠ cr) && rest.contains cx) = false := by
            rw [Bool.and_eq_false_iff]
            by_cases h : c = cr
            · left; simp [h]
            · right
              cases h2 : rest.contains cx with
              | false => rfl
              | true => exact absurd ⟨h, mem_contains.1 h2⟩ hx
          have hno : ¬ ∃ e, Refusal k ch path c rest e := by
            rintro ⟨e, ⟨h, -⟩ | h | ⟨-, h, -⟩ | ⟨h1, h2, -⟩⟩
            · rw [hp] at h; simp at h
            · rw [hd] at h; simp at h
            · rw [hf] at h; simp at h
            · exact hx ⟨h1, h2⟩
          simp only [hx2, Bool.false_eq_true, if_false]
          by_cases hcw : c = cw
          · rw [show decide (c = cw) = true by simp [hcw]]
            simp only [if_true]
            rw [hce _ (setFd_same _ _ _)]
            obtain ⟨fl, e, f1, f2, f3⟩ := fdopen_new hc (setFd_same (k.put path { f with data := [] }) fd (some _)) hopen.appends hopen.cloexec
            subst hcw
            rw [e]
            refine ⟨hno, rfl, ⟨_, setFd_same _ _ _, hopen⟩, ?_, ?_, ?_, rfl, rfl, rfl, f1, f2, f3⟩
            · intro n hn; simp [K.setFd, hn, K.put]
            · refine ⟨fun h1 h2 => hx ⟨h1, h2⟩, ?_⟩
              simp [K.setFd, K.put]
            · intro p hp; simp [K.setFd, K.put, hp]
          · rw [show decide (c = cw) = false by simp [hcw]]
            simp only [Bool.false_eq_true, if_false]
            rw [hce _ (setFd_same _ _ _)]
            obtain ⟨fl, e, f1, f2, f3⟩ := fdopen_new hc (setFd_same k fd (some _)) hopen.appends hopen.cloexec
            rw [e]
            refine ⟨hno, rfl, ⟨_, setFd_same _ _ _, hopen⟩, ?_, ?_, ?_, rfl, rfl, rfl, f1, f2, f3⟩
            · intro n hn; simp [K.setFd, hn]
            · refine ⟨fun h1 h2 => hx ⟨h1, h2⟩, ?_⟩
              simp [K.setFd, hcw, hf]
            · intro p hp; simp [K.setFd]

/-- `fdopen` on an open descriptor: no file is touched, the descriptor is the same, except that it appends with `a` and is closed on `exec` with `e`. -/
theorem C132_fdopen {k : K} {fd : Nat} {e : Entry} {c : UInt8} {rest : List UInt8} (hc : c = cr ∨ c = cw ∨ c = ca) (he : k.fds fd = some e) :
    ∃ s k' e', fdopen k fd (c :: rest) = (.ok s, k') ∧ s.fd = fd ∧ s.ahead = [] ∧ s.pending = [] ∧ s.flags &&& (F_EOF ||| F_ERR ||| F_PERM) = 0 ∧
      (s.flags &&& F_NORD = 0 ↔ c = cr ∨ plus ∈ rest) ∧ (s.flags &&& F_NOWR = 0 ↔ c ≠ cr ∨ plus ∈ rest) ∧
      k'.files = k.files ∧ k'.fds fd = some e' ∧ (∀ n, n ≠ fd → k'.fds n = k.fds n) ∧ e'.path = e.path ∧ e'.pos = e.pos ∧ (e'.Readable ↔ e.Readable) ∧ (e'.Writable ↔ e.Writable) ∧
      (e'.Appends ↔ e.Appends ∨ c = ca) ∧ (e'.cloexec = true ↔ e.cloexec = true ∨ ce ∈ rest) := by
  have h1 : (c :: rest).contains 0x2B = rest.contains plus := by
    rcases hc with rfl | rfl | rfl <;> simp [cr, cw, ca, plus]
  have h3 : (c :: rest).contains 0x65 = rest.contains ce := by
    rcases hc with rfl | rfl | rfl <;> simp [cr, cw, ca, ce]
  have hk : ∃ e1, (if rest.contains ce = true then setCloexec k fd else k).fds fd = some e1 ∧ e1 = { e with cloexec := e.cloexec || rest.contains ce } := by
    split
    · rename_i h
      rw [h]
      refine ⟨_, ?_, rfl⟩
      simp [setCloexec, he, K.setFd]
    · rename_i h
      refine ⟨e, he, ?_⟩
      cases h2 : rest.contains ce
      · simp
      · exact absurd h2 h
  have hkf : (if rest.contains ce = true then setCloexec k fd else k).files = k.files := by
    split
    · simp [setCloexec, he, K.setFd]
    · rfl
  have hkn : ∀ n, n ≠ fd → (if rest.contains ce = true then setCloexec k fd else k).fds n = k.fds n := by
    intro n hn
    split
    · simp [setCloexec, he, K.setFd, hn]
    · rfl
  obtain ⟨e1, hk1, hk2⟩ := hk
  have hcl : e1.cloexec = true ↔ e.cloexec = true ∨ ce ∈ rest := by
    rw [hk2]; simp
  unfold fdopen
  rw [valid_of hc, h1, h3, show first (c :: rest) = c from rfl]
  simp only [Bool.not_true, Bool.false_eq_true, if_false]
  generalize (if rest.contains ce = true then setCloexec k fd else k) = k1 at *
  rw [← mem_contains (a := plus)]
  simp only [hk1]
  by_cases hca : c = 0x61
  · rw [if_pos hca]
    subst hca
    by_cases hap : e1.flags &&& O_APPEND = 0
    · rw [if_pos hap]
      refine ⟨_, _, { e1 with flags := (e1.flags &&& O_RDWR) ||| ((e1.flags ||| O_APPEND) &&& O_APPEND) }, rfl, rfl, rfl, rfl, ?_, ?_, ?_, ?_, ?_, ?_, ?_, ?_, ?_, ?_, ?_, ?_⟩
      · dsimp only; cases rest.contains plus <;> decide
      · dsimp only; cases rest.contains plus <;> decide
      · dsimp only; cases rest.contains plus <;> decide
      · simp only [setfl, hk1]; exact hkf
      · simp only [setfl, hk1, setFd_same]
      · intro n hn; simp only [setfl, hk1, K.setFd, if_neg hn]; exact hkn n hn
      · rw [hk2]
      · rw [hk2]
      · unfold Entry.Readable
        dsimp only
        rw [or_and, UInt32.and_assoc, UInt32.and_assoc, hk2, show O_RDWR &&& 0x00010000 = 0x00010000 by decide, show O_APPEND &&& 0x00010000 = 0 by decide]
        simp
      · unfold Entry.Writable
        dsimp only
        rw [or_and, UInt32.and_assoc, UInt32.and_assoc, hk2, show O_RDWR &&& 0x00020000 = 0x00020000 by decide, show O_APPEND &&& 0x00020000 = 0 by decide]
        simp
      · unfold Entry.Appends
        dsimp only
        rw [or_and, UInt32.and_assoc, UInt32.and_assoc, or_and]
        rw [show e1.flags &&& (O_APPEND &&& 0x00080000) = 0 from hap, show e1.flags &&& (O_RDWR &&& 0x00080000) = 0 by
          rw [show O_RDWR &&& 0x00080000 = 0 by decide]; simp]
        exact ⟨fun _ => Or.inr rfl, fun _ => by decide⟩
      · exact hcl
    · rw [if_neg hap]
      refine ⟨_, _, e1, rfl, rfl, rfl, rfl, ?_, ?_, ?_, hkf, hk1, hkn, ?_, ?_, ?_, ?_, ?_, hcl⟩
      · dsimp only; cases rest.contains plus <;> decide
      · dsimp only; cases rest.contains plus <;> decide
      · dsimp only; cases rest.contains plus <;> decide
      · rw [hk2]
      · rw [hk2]
      · rw [hk2]; exact Iff.rfl
      · rw [hk2]; exact Iff.rfl
      · exact ⟨fun _ => Or.inr rfl, fun _ => hap⟩
  · rw [if_neg hca]
    refine ⟨_, _, e1, rfl, rfl, rfl, rfl, ?_, ?_, ?_, hkf, hk1, hkn, ?_, ?_, ?_, ?_, ?_, hcl⟩
    · dsimp only; rcases hc with rfl | rfl | rfl <;> cases rest.contains plus <;> decide
    · dsimp only; rcases hc with rfl | rfl | rfl <;> cases rest.contains plus <;> decide
    · dsimp only; rcases hc with rfl | rfl | rfl <;> cases rest.contains plus <;> first | decide | exact absurd rfl hca
    · rw [hk2]
    · rw [hk2]
    · rw [hk2]; exact Iff.rfl
    · rw [hk2]; exact Iff.rfl
    · rw [hk2]
      exact ⟨fun h => Or.inl h, fun h => h.elim id (fun h => absurd h hca)⟩

theorem flush_facts (k : K) (s : Stream) : (flush k s).2.fd = s.fd ∧ (∀ n, n ≠ s.fd → (flush k s).1.fds n = k.fds n) ∧ (flush k s).1.umask = k.umask ∧
    (flush k s).2.flags &&& F_PERM = s.flags &&& F_PERM := by
  have hp : (s.flags ||| F_ERR) &&& F_PERM = s.flags &&& F_PERM := by
    rw [or_and, show F_ERR &&& F_PERM = 0 by decide]; simp
  unfold flush
  split
  · exact ⟨rfl, fun _ _ => rfl, rfl, rfl⟩
  · split
    · exact ⟨rfl, fun _ _ => rfl, rfl, hp⟩
    · split
      · exact ⟨rfl, fun _ _ => rfl, rfl, hp⟩
      · split
        · refine ⟨rfl, fun n hn => ?_, rfl, rfl⟩
          simp [K.setFd, hn, K.put]
        · exact ⟨rfl, fun _ _ => rfl, rfl, hp⟩

theorem fclose_fds (k : K) (s : Stream) (n : Nat) : (fclose k s).fds n = if n = s.fd then none else k.fds n := by
  unfold fclose close
  simp only [K.setFd]
  split
  · rfl
  · rename_i h
    exact (flush_facts k s).2.1 n h

/-- What remains of C132 for `freopen` with a file name, for the modes without `a` and `e`: the stream has the same descriptor number, which is now open on the file as `fopen` would have opened
it; the end-of-file and error indicators are cleared; no other descriptor is left open or closed. If it fails the stream's descriptor is closed. What was pending has been written first
(`flush`, C37). -/
theorem C132_freopen_partial {k : K} {ch : Choice} {dupOk : Bool} {path : List UInt8} {c : UInt8} {rest : List UInt8} {s : Stream} (hc : c = cr ∨ c = cw) (he : ce ∉ rest)
    (hfree : ∀ fd, ch.pick = some fd → k.fds fd = none) :
    match (generalizing := false) freopen k ch dupOk (some path) (c :: rest) s with
    | (none, k') => ∀ n, k'.fds n = if n = s.fd then none else k.fds n
    | (some s', k') => s'.fd = s.fd ∧ (∃ e, k'.fds s.fd = some e ∧ OpenFor e path c rest) ∧ (∀ n, n ≠ s.fd → k'.fds n = k.fds n) ∧
      FileFor k.umask ((flush k s).1.files path) (k'.files path) c rest ∧ (∀ p, p ≠ path → k'.files p = (flush k s).1.files p) ∧
      s'.flags &&& (F_EOF ||| F_ERR) = 0 ∧ s'.flags &&& F_PERM = s.flags &&& F_PERM := by
  have hc3 : c = cr ∨ c = cw ∨ c = ca := hc.elim Or.inl (fun h => Or.inr (Or.inl h))
  have hca : c ≠ ca := by rcases hc with rfl | rfl <;> decide
  obtain ⟨f1, f2, f3, f4⟩ := flush_facts k s
  unfold freopen
  generalize hfl : flush k s = r at *
  obtain ⟨k1, s1⟩ := r
  dsimp only at f1 f2 f3 f4 ⊢
  have ho := C132_fopen (k := k1) (ch := ch) (path := path) (rest := rest) hc3
  generalize hop : fopen k1 ch path (c :: rest) = r at *
  obtain ⟨r, k2⟩ := r
  cases r with
  | error e =>
    obtain ⟨rfl, -⟩ := ho
    intro n
    rw [fclose_fds, f1]
    split
    · rfl
    · rename_i h; exact f2 n h
  | ok new =>
    obtain ⟨-, g2, ⟨e, g3, g4⟩, g5, g6, g7, -, g8, g9, g10, -⟩ := ho
    have hk0 : new.fd ≠ s.fd → k.fds new.fd = none := fun _ => hfree _ g2
    have hflags : ((s1.flags &&& F_PERM) ||| new.flags) &&& (F_EOF ||| F_ERR) = 0 := by
      rw [or_and, UInt32.and_assoc, show F_PERM &&& (F_EOF ||| F_ERR) = 0 by decide]
      have := congrArg (fun x => x &&& (F_EOF ||| F_ERR)) g10
      simp only [UInt32.and_assoc] at this
      rw [show (F_EOF ||| F_ERR ||| F_PERM) &&& (F_EOF ||| F_ERR) = F_EOF ||| F_ERR by decide] at this
      rw [this]; simp
    have hperm : ((s1.flags &&& F_PERM) ||| new.flags) &&& F_PERM = s.flags &&& F_PERM := by
      rw [or_and, UInt32.and_assoc, show F_PERM &&& F_PERM = F_PERM by decide, f4]
      have := congrArg (fun x => x &&& F_PERM) g10
      simp only [UInt32.and_assoc] at this
      rw [show (F_EOF ||| F_ERR ||| F_PERM) &&& F_PERM = F_PERM by decide] at this
      rw [this]; simp
    rw [f3] at g6
    dsimp only
    by_cases hsame : new.fd = s1.fd
    · rw [if_pos hsame]
      rw [f1] at hsame
      refine ⟨f1, ⟨e, by rw [← hsame]; exact g3, g4⟩, ?_, g6, g7, hflags, hperm⟩
      intro n hn
      rw [g5 n (by rw [hsame]; exact hn), f2 n hn]
    · rw [if_neg hsame]
      rw [f1] at hsame
      have fnone : ∀ (kk : K), (∀ n, n ≠ new.fd → n ≠ s.fd → kk.fds n = k2.fds n) → ∀ n, (fclose (fclose kk new) s1).fds n = if n = s.fd then none else k.fds n := by
        intro kk hkk n
        rw [fclose_fds, f1]
        split
        · rfl
        · rename_i hn
          rw [fclose_fds]
          split
          · rename_i h2
            rw [h2, hk0 hsame]
          · rename_i h2
            rw [hkk n h2 hn, g5 n h2, f2 n hn]
      have hcf : ∀ kk : K, fclose kk new = close kk new.fd := by
        intro kk; unfold fclose flush; rw [if_pos g9]
      cases dupOk with
      | false =>
        simp only [dup2, g3, Bool.false_eq_true, if_false]
        exact fnone k2 (fun _ _ _ => rfl)
      | true =>
        simp only [dup2, g3, if_true, setfl, f1, setFd_same]
        rw [hcf]
        refine ⟨by trivial, ⟨{ path := e.path, flags := (e.flags &&& O_RDWR) ||| (parseMode (c :: rest) &&& O_CLOEXEC &&& O_APPEND), cloexec := false, pos := e.pos }, ?_, ?_⟩, ?_, ?_, ?_, hflags, hperm⟩
        · have : s.fd ≠ new.fd := Ne.symm hsame
          simp [close, K.setFd, this]
        · have hz : parseMode (c :: rest) &&& O_CLOEXEC &&& O_APPEND = 0 := by
            rw [UInt32.and_assoc, show O_CLOEXEC &&& O_APPEND = 0 by decide]; simp
          rw [hz]
          refine ⟨g4.path, ?_, ?_, ?_, ?_, g4.start⟩
          · rw [← g4.reads]
            unfold Entry.Readable
            dsimp only
            rw [or_and, UInt32.and_assoc, show O_RDWR &&& 0x00010000 = 0x00010000 by decide]
            simp
          · rw [← g4.writes]
            unfold Entry.Writable
            dsimp only
            rw [or_and, UInt32.and_assoc, show O_RDWR &&& 0x00020000 = 0x00020000 by decide]
            simp
          · unfold Entry.Appends
            dsimp only
            rw [or_and, UInt32.and_assoc, show O_RDWR &&& 0x00080000 = 0 by decide]
            constructor
            · intro h; simp at h
            · intro h; exact absurd h hca
          · constructor
            · intro h; simp at h
            · intro h; exact absurd h he
        · intro n hn
          show (close _ _).fds n = _
          simp only [close, K.setFd]
          by_cases h2 : n = new.fd
          · rw [if_pos h2, h2, hk0 hsame]
          · rw [if_neg h2, if_neg hn, if_neg hn, g5 n h2, f2 n hn]
        · exact g6
        · exact g7

/-! ## Violations -/

/-- Two files, and a stream that has read ahead in the first. -/
def sample : K := ⟨fun p => if p = [1] then some ⟨[0x61, 0x62, 0x63], 0o644⟩ else if p = [2] then some ⟨[0x78, 0x79], 0o644⟩ else none,
  fun n => if n = 3 then some ⟨[1], O_RDONLY, false, 3⟩ else none, 0o022⟩
@[inherit_doc sample] def reader : Stream := ⟨3, F_NOWR, [0x62, 0x63], []⟩
@[inherit_doc sample] def four : Choice := ⟨some 4, none⟩

/-- `w+x` on a new name, `r` on an old one, and `wx` on an old one. -/
example : ((fopen sample four [9] [0x77, 0x2B, 0x78]).2.fds 4 = some ⟨[9], O_RDWR, false, 0⟩ ∧ (fopen sample four [9] [0x77, 0x2B, 0x78]).2.files [9] = some ⟨[], 0o644⟩) ∧
    (fopen sample four [1] [0x72]).2.fds 4 = some ⟨[1], O_RDONLY, false, 0⟩ ∧ (fopen sample four [1] [0x77, 0x78]).1.toOption = none := by decide +kernel

/-- A successful `freopen`. -/
example : (freopen sample four true (some [2]) [0x77] reader).1 = some ⟨3, F_NORD, [0x62, 0x63], []⟩ ∧ (freopen sample four true (some [2]) [0x77] reader).2.files [2] = some ⟨[], 0o644⟩ := by
  decide +kernel

/-- C132, violated by the code: after `freopen` with mode **`a` the stream does not append**: `F_SETFL` clears the flag. -/
theorem C132_append_violation : ∃ s e, (freopen sample four true (some [2]) [0x61] reader).1 = some s ∧ (freopen sample four true (some [2]) [0x61] reader).2.fds s.fd = some e ∧ ¬ e.Appends := by
  refine ⟨⟨3, F_NORD ||| F_APP, [0x62, 0x63], []⟩, ⟨[2], O_WRONLY, false, 0⟩, ?_, ?_, ?_⟩ <;> decide +kernel

/-- C132, violated by the code: after `freopen` with mode **`we` the descriptor is not closed on `exec`**. -/
theorem C132_cloexec_violation : ∃ s e, (freopen sample four true (some [2]) [0x77, 0x65] reader).1 = some s ∧
    (freopen sample four true (some [2]) [0x77, 0x65] reader).2.fds s.fd = some e ∧ e.cloexec = false := by
  refine ⟨⟨3, F_NORD, [0x62, 0x63], []⟩, ⟨[2], O_WRONLY, false, 0⟩, ?_, ?_, ?_⟩ <;> decide +kernel

/-- C132, violated by the code: **what had been read ahead from the old file is read from the new one**, for every stream and every file. -/
theorem C132_stale_violation {k : K} {ch : Choice} {dupOk : Bool} {path : List UInt8} {mode : List UInt8} {s s' : Stream} (hp : s.pending = [])
    (h : (freopen k ch dupOk (some path) mode s).1 = some s') : s'.ahead = s.ahead := by
  unfold freopen flush at h
  rw [if_pos hp] at h
  dsimp only at h
  split at h
  · simp at h
  · split at h
    · simp at h; rw [← h]
    · split at h
      · simp at h
      · split at h
        · simp at h
        · simp at h; rw [← h]

/-- C132, violated by the code: `freopen` **without a file name reports success and does not change the mode**. A stream for reading, reopened for writing, cannot be written, its file is not
emptied, and the stream says that it is for reading. -/
theorem C132_null_violation : ∃ s e, (freopen sample four true none [0x77] reader).1 = some s ∧ (freopen sample four true none [0x77] reader).2.fds s.fd = some e ∧
    ¬ e.Writable ∧ s.flags &&& F_NOWR ≠ 0 ∧ (freopen sample four true none [0x77] reader).2.files [1] = sample.files [1] := by
  refine ⟨⟨3, F_NOWR, [0x62, 0x63], []⟩, ⟨[1], O_RDONLY, false, 3⟩, ?_, ?_, ?_, ?_, ?_⟩ <;> decide +kernel

/-- C132, violated by the code: `freopen` without a file name accepts a mode that is none. -/
theorem C132_null_mode_violation : ((freopen sample four true none [0x71] reader).1).isSome := by decide +kernel

end Verif.Fopen
