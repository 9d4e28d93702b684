import Verif.Temp.Lemmas

/-!
# C131: temporary files
-/

namespace Verif.Temp

open Verif.Mem Verif.Str

/-! ## What is claimed -/

/-- A letter or a digit. -/
def AlphaNum (c : UInt8) : Prop := (0x30 ≤ c ∧ c ≤ 0x39) ∨ (0x41 ≤ c ∧ c ≤ 0x5A) ∨ (0x61 ≤ c ∧ c ≤ 0x7A)

/-- Six letters or digits. -/
def Unique (x : List UInt8) : Prop := x.length = 6 ∧ ∀ c ∈ x, AlphaNum c

/-- In every one of the 100 tries the name that was tried was taken, or the system refused it. -/
def AllRefused (w : World) (fs : Files) (pre suf : List UInt8) : Prop :=
  ∀ k, k < 100 → ∃ x, Unique x ∧ ((w.deny k (pre ++ x ++ suf)).isSome ∨ (drift w fs (k + 1) (pre ++ x ++ suf)).isSome)

/-- The name `name` did not exist when the other processes had acted `k` times, and then exactly this file was made. -/
def Made (w : World) (fs fs' : Files) (k : Nat) (name : List UInt8) (f : File) : Prop :=
  drift w fs k name = none ∧ fs' name = some f ∧ ∀ n, n ≠ name → fs' n = drift w fs k n

theorem alnum_ok (k : Fin 62) : AlphaNum (alnum k) := by
  revert k; unfold AlphaNum; decide +kernel

theorem letters_unique (d : Nat → Fin 62) : Unique (letters d) := by
  refine ⟨rfl, ?_⟩
  intro c hc
  simp only [letters, List.mem_cons, List.not_mem_nil, or_false] at hc
  rcases hc with rfl | rfl | rfl | rfl | rfl | rfl <;> exact alnum_ok _

theorem or_and (a b f : UInt32) : (a ||| b) &&& f = (a &&& f) ||| (b &&& f) := by
  apply UInt32.toBitVec_inj.1
  simp only [UInt32.toBitVec_and, UInt32.toBitVec_or]
  rw [BitVec.and_comm (_ ||| _), BitVec.and_or_distrib_left, BitVec.and_comm f.toBitVec, BitVec.and_comm f.toBitVec]

theorem absorb (a f : UInt32) : (a &&& f) ||| f = f := by
  apply UInt32.toBitVec_inj.1
  simp only [UInt32.toBitVec_and, UInt32.toBitVec_or]
  ext i hi
  simp

theorem has_or {a b f : UInt32} (h : b &&& f = f) : has (a ||| b) f = true := by
  unfold has
  rw [or_and, h, absorb]
  exact decide_eq_true rfl

/-! ## Files -/

/-- The file behind the descriptor: regular, readable and writable by its owner only, less the umask. -/
theorem C131_mkostemps {w : World} {p : Nat} {pre suf : List UInt8} {flags : UInt32} {m : M} {s : St}
    (hc : CStr m p (pre ++ List.replicate 6 0x58 ++ suf)) (hl : (pre ++ List.replicate 6 0x58 ++ suf).length < 2 ^ 31) :
    ∃ r m' s' x, mkostemps w p (Int32.ofNat suf.length) flags m s = some (r, m', s') ∧ x.length = 6 ∧ m' = patch m (p + pre.length) x ∧
      match (generalizing := false) r with
      | none => s'.files = drift w s.files 100 ∧ s'.fds = s.fds ∧ AllRefused w s.files pre suf
      | some fd => Unique x ∧ CStr m' p (pre ++ x ++ suf) ∧
        (∃ k, k ≤ 100 ∧ Made w s.files s'.files k (pre ++ x ++ suf) ⟨false, 0o600 &&& ~~~s.umask⟩) ∧
        (∀ d ∈ s.fds, d.1 ≠ fd) ∧
        ∃ fl, s'.fds = (fd, ⟨pre ++ x ++ suf, fl⟩) :: s.fds ∧ fl &&& 0x00030000 = 0x00030000 ∧ fl &&& ~~~0x0A030000 = flags &&& ~~~0x0A030000 := by
  unfold mkostemps
  obtain ⟨r, m', s', e, hr⟩ := inner_spec (w := w) (s := s) (open_harmless ((flags &&& ~~~O_ACCMODE) ||| (O_RDWR ||| O_CREAT ||| O_EXCL)) 0o600) hc hl
  have hcr : has ((flags &&& ~~~O_ACCMODE) ||| (O_RDWR ||| O_CREAT ||| O_EXCL)) O_CREAT = true := has_or (by decide)
  have hex : has ((flags &&& ~~~O_ACCMODE) ||| (O_RDWR ||| O_CREAT ||| O_EXCL)) O_EXCL = true := has_or (by decide)
  rcases hr with ⟨h0, h1, h2, h3, ⟨x, hx, -, hm⟩, h5⟩ | ⟨t, k, s2, h0, h1, h2, h3, h4, h5, hm⟩
  · refine ⟨r, m', s', x, e, hx, hm, ?_⟩
    subst h0
    refine ⟨h2, h3, ?_⟩
    intro k hk
    obtain ⟨s2, s3, g1, g2⟩ := h5 k hk
    refine ⟨_, letters_unique (w.draw k), ?_⟩
    rw [← g1]
    cases hd : w.deny k (pre ++ letters (w.draw k) ++ suf) with
    | some e => exact Or.inl rfl
    | none =>
      right
      rw [hd] at g2
      cases hf : s2.files (pre ++ letters (w.draw k) ++ suf) with
      | some f => rfl
      | none => simp [sysOpen, hf, hcr, -List.append_assoc] at g2
  · refine ⟨r, m', s', _, e, (letters_unique (w.draw k)).1, hm, ?_⟩
    subst h0
    have hc' := cstr_patch hc (r := letters (w.draw k)) (by rfl) (letters_ne _)
    rw [← hm] at hc'
    have hd : w.deny k (pre ++ letters (w.draw k) ++ suf) = none := by
      cases hd : w.deny k (pre ++ letters (w.draw k) ++ suf) with
      | none => rfl
      | some e => simp [hd, sysOpen, -List.append_assoc] at h5
    have hf : s2.files (pre ++ letters (w.draw k) ++ suf) = none := by
      cases hf : s2.files (pre ++ letters (w.draw k) ++ suf) with
      | none => rfl
      | some e => simp [hd, sysOpen, hf, hcr, hex, -List.append_assoc] at h5
    simp only [hd, sysOpen, hf, hcr, if_true, Prod.mk.injEq, Option.some.injEq] at h5
    obtain ⟨h5, h6⟩ := h5
    refine ⟨letters_unique _, hc', ⟨k + 1, by omega, ?_, ?_, ?_⟩, ?_, (flags &&& ~~~O_ACCMODE) ||| (O_RDWR ||| O_CREAT ||| O_EXCL), ?_, ?_, ?_⟩
    · rw [← h2]; exact hf
    · rw [← h6]
      simp only [set, if_true, h4]
      congr 2
      rw [UInt32.and_assoc, UInt32.and_comm (~~~s.umask), ← UInt32.and_assoc]; rfl
    · intro n hn
      rw [← h6, ← h2]
      simp only [set, if_neg hn]
    · intro d hd
      rw [← h5, h3]
      have := newFd_gt _ d hd
      omega
    · rw [← h6, ← h5, h3]
    · exact of_decide_eq_true (has_or (a := flags &&& ~~~O_ACCMODE) (b := O_RDWR ||| O_CREAT ||| O_EXCL) (f := 0x00030000) (by decide))
    · rw [or_and, UInt32.and_assoc, show (O_RDWR ||| O_CREAT ||| O_EXCL) &&& ~~~0x0A030000 = 0 by decide,
        show ~~~O_ACCMODE &&& ~~~0x0A030000 = ~~~0x0A030000 by decide]
      simp

/-- `mkstemp`: as `mkostemps` without a suffix and without flags. -/
theorem C131_mkstemp {w : World} {p : Nat} {pre : List UInt8} {m : M} {s : St}
    (hc : CStr m p (pre ++ List.replicate 6 0x58)) (hl : (pre ++ List.replicate 6 (0x58 : UInt8)).length < 2 ^ 31) :
    ∃ r m' s' x, mkstemp w p m s = some (r, m', s') ∧ x.length = 6 ∧ m' = patch m (p + pre.length) x ∧
      match (generalizing := false) r with
      | none => s'.files = drift w s.files 100 ∧ s'.fds = s.fds ∧ AllRefused w s.files pre []
      | some fd => Unique x ∧ CStr m' p (pre ++ x) ∧
        (∃ k, k ≤ 100 ∧ Made w s.files s'.files k (pre ++ x) ⟨false, 0o600 &&& ~~~s.umask⟩) ∧
        (∀ d ∈ s.fds, d.1 ≠ fd) ∧
        ∃ fl, s'.fds = (fd, ⟨pre ++ x, fl⟩) :: s.fds ∧ fl &&& 0x00030000 = 0x00030000 ∧ fl &&& ~~~0x0A030000 = 0 := by
  obtain ⟨r, m', s', x, e, h1, h2, h3⟩ := C131_mkostemps (w := w) (p := p) (pre := pre) (suf := []) (flags := 0) (m := m) (s := s) (by simpa using hc) (by simpa using hl)
  refine ⟨r, m', s', x, e, h1, h2, ?_⟩
  cases r with
  | none => exact h3
  | some fd => simpa only [List.append_nil, UInt32.zero_and] using h3

/-- A name that does not end in six times `X` and a suffix of the given length is refused, and nothing is changed. -/
theorem C131_template {w : World} {p k : Nat} {name : List UInt8} {flags : UInt32} {m : M} {s : St}
    (hc : CStr m p name) (hl : name.length < 2 ^ 31) (hk : k < 2 ^ 31)
    (h : ¬ ∃ pre suf, name = pre ++ List.replicate 6 0x58 ++ suf ∧ suf.length = k) :
    mkostemps w p (Int32.ofNat k) flags m s = some (none, m, { s with errno := some .EINVAL }) :=
  inner_einval hc hl hk h

/-! ## Directories and names -/

/-- `mkdtemp`. The permissions are not those that POSIX asks for, see below. -/
theorem C131_mkdtemp_partial {w : World} {p : Nat} {pre : List UInt8} {m : M} {s : St}
    (hc : CStr m p (pre ++ List.replicate 6 0x58)) (hl : (pre ++ List.replicate 6 (0x58 : UInt8)).length < 2 ^ 31) :
    ∃ r m' s' x, mkdtemp w p m s = some (r, m', s') ∧ x.length = 6 ∧ m' = patch m (p + pre.length) x ∧ s'.fds = s.fds ∧
      match (generalizing := false) r with
      | none => s'.files = drift w s.files 100 ∧ AllRefused w s.files pre []
      | some q => q = p ∧ Unique x ∧ CStr m' p (pre ++ x) ∧
        ∃ k, k ≤ 100 ∧ Made w s.files s'.files k (pre ++ x) ⟨true, 0o777 &&& ~~~s.umask⟩ := by
  unfold mkdtemp
  obtain ⟨r, m', s', e, hr⟩ := inner_spec (w := w) (s := s) (mkdir_harmless p 0o700) (suf := []) (by simpa [six] using hc) (by simpa [six] using hl)
  rw [show Int32.ofNat ([] : List UInt8).length = 0 from rfl] at e
  simp only [List.append_nil] at hr
  rcases hr with ⟨h0, h1, h2, h3, ⟨x, hx, -, hm⟩, h5⟩ | ⟨t, k, s2, h0, h1, h2, h3, h4, h5, hm⟩
  · refine ⟨r, m', s', x, e, hx, hm, h3, ?_⟩
    subst h0
    refine ⟨h2, ?_⟩
    intro k hk
    obtain ⟨s2, s3, g1, g2⟩ := h5 k hk
    refine ⟨_, letters_unique (w.draw k), ?_⟩
    rw [← g1, List.append_nil]
    cases hd : w.deny k (pre ++ letters (w.draw k)) with
    | some e => exact Or.inl rfl
    | none =>
      right
      rw [hd] at g2
      cases hf : s2.files (pre ++ letters (w.draw k)) with
      | some f => rfl
      | none => simp [sysMkdir, hf] at g2
  · have hd : w.deny k (pre ++ letters (w.draw k)) = none := by
      cases hd : w.deny k (pre ++ letters (w.draw k)) with
      | none => rfl
      | some e => simp [hd, sysMkdir] at h5
    have hf : s2.files (pre ++ letters (w.draw k)) = none := by
      cases hf : s2.files (pre ++ letters (w.draw k)) with
      | none => rfl
      | some e => simp [hd, sysMkdir, hf] at h5
    simp only [hd, sysMkdir, hf, Prod.mk.injEq, Option.some.injEq] at h5
    obtain ⟨h5, h6⟩ := h5
    refine ⟨r, m', s', _, e, (letters_unique (w.draw k)).1, hm, by rw [← h6, h3], ?_⟩
    subst h0
    have hc' := cstr_patch (suf := []) (by simpa using hc) (r := letters (w.draw k)) (by rfl) (letters_ne _)
    rw [← hm, List.append_nil] at hc'
    refine ⟨h5.symm, letters_unique _, hc', k + 1, by omega, ?_, ?_, ?_⟩
    · rw [← h2]; exact hf
    · rw [← h6]
      simp only [set, if_true, h4]
      congr 2
      rw [UInt32.and_assoc, UInt32.and_comm (~~~s.umask), ← UInt32.and_assoc]; rfl
    · intro n hn
      rw [← h6, ← h2]
      simp only [set, if_neg hn]

/-- `mktemp` gives a name which no file had at some moment during the call (or which lies in a directory that does not exist), and touches no file. If there is none the string is emptied. -/
theorem C131_mktemp {w : World} {p : Nat} {pre : List UInt8} {m : M} {s : St}
    (hc : CStr m p (pre ++ List.replicate 6 0x58)) (hl : (pre ++ List.replicate 6 (0x58 : UInt8)).length < 2 ^ 31) :
    ∃ m' s' k, mktemp w p m s = some (m', s') ∧ s'.fds = s.fds ∧ k ≤ 100 ∧ s'.files = drift w s.files k ∧
      (∀ a, a < p ∨ p + pre.length + 6 ≤ a → m' a = m a) ∧
      ((∃ x, Unique x ∧ m' = patch m (p + pre.length) x ∧ CStr m' p (pre ++ x) ∧
          (drift w s.files k (pre ++ x) = none ∨ ∃ j, w.deny j (pre ++ x) = some .ENOENT)) ∨
        (m' p = some 0 ∧ AllRefused w s.files pre [])) := by
  unfold mktemp
  obtain ⟨r, m', s', e, hr⟩ := inner_spec (w := w) (s := s) access_harmless (suf := []) (by simpa [six] using hc) (by simpa [six] using hl)
  rw [show Int32.ofNat ([] : List UInt8).length = 0 from rfl] at e
  simp only [List.append_nil] at hr
  rw [e]
  simp only [Option.bind_eq_bind, Option.bind_some]
  rcases hr with ⟨h0, h1, h2, h3, ⟨x, hx, -, hm⟩, h5⟩ | ⟨t, k, s2, h0, h1, h2, h3, h4, h5, hm⟩
  · subst h0
    have hmp : (m p).isSome := by
      have := hc.bytes0.mapped 0 (by simp)
      simpa using this
    have hp : (m' p).isSome := by rw [hm]; exact isSome_patch hmp
    simp only [store_patch hp, Option.bind_some]
    refine ⟨_, s', 100, rfl, h3, by omega, h2, ?_, Or.inr ⟨?_, ?_⟩⟩
    · intro a ha
      rw [patch_out (by simp; omega), hm, patch_out (by omega)]
    · have := patch_in (m := m') (p := p) (l := [(0 : UInt8)]) (i := 0) (by simp)
      simpa using this
    · intro k hk
      obtain ⟨s2, s3, g1, g2⟩ := h5 k hk
      refine ⟨_, letters_unique (w.draw k), ?_⟩
      rw [← g1, List.append_nil]
      cases hd : w.deny k (pre ++ letters (w.draw k)) with
      | some e => exact Or.inl rfl
      | none =>
        right
        rw [hd] at g2
        cases hf : s2.files (pre ++ letters (w.draw k)) with
        | some f => rfl
        | none => simp [accessAttempt, sysAccess, hf] at g2
  · subst h0
    have hc' := cstr_patch (suf := []) (by simpa using hc) (r := letters (w.draw k)) (by rfl) (letters_ne _)
    rw [← hm, List.append_nil] at hc'
    have key : (drift w s.files (k + 1) (pre ++ letters (w.draw k)) = none ∨ ∃ j, w.deny j (pre ++ letters (w.draw k)) = some .ENOENT) ∧ s' = s2 := by
      rw [← h2]
      cases hd : w.deny k (pre ++ letters (w.draw k)) with
      | none =>
        cases hf : s2.files (pre ++ letters (w.draw k)) with
        | none => simp [hd, hf, accessAttempt, sysAccess] at h5; exact ⟨Or.inl rfl, h5.symm⟩
        | some f => simp [hd, hf, accessAttempt, sysAccess] at h5
      | some e =>
        cases e <;> simp [hd, accessAttempt, sysAccess] at h5
        exact ⟨Or.inr ⟨k, hd⟩, h5.symm⟩
    refine ⟨_, s', k + 1, rfl, by rw [key.2, h3], by omega, by rw [key.2, h2], ?_, Or.inl ⟨_, letters_unique _, hm, hc', key.1⟩⟩
    intro a ha
    rw [hm, patch_out]
    rw [show (letters (w.draw k)).length = 6 from rfl]
    omega

theorem tmpnamInner_spec {w : World} {buf : Nat} {pre : List UInt8} {m : M} {s : St} (hb : Bytes m buf pre) (h0 : (0 : UInt8) ∉ pre) (hne : pre ≠ [])
    (hm : Mapped m (buf + pre.length) 7) (hl : pre.length + 6 < 2 ^ 31) :
    ∃ r m' s' k, tmpnamInner w buf pre.length m s = some (r, m', s') ∧ s'.fds = s.fds ∧ s'.errno = s.errno ∧ k ≤ 100 ∧ s'.files = drift w s.files k ∧
      (∀ a, a < buf ∨ buf + pre.length + 7 ≤ a → m' a = m a) ∧ m' (buf + pre.length + 6) = some 0 ∧
      match (generalizing := false) r with
      | none => AllRefused w s.files pre []
      | some q => q = buf ∧ ∃ x, Unique x ∧ CStr m' buf (pre ++ x) ∧ (drift w s.files k (pre ++ x) = none ∨ ∃ j, w.deny j (pre ++ x) = some .ENOENT) := by
  unfold tmpnamInner
  rw [copy_eq hm]
  simp only [Option.bind_eq_bind, Option.bind_some]
  have hx := bytes_patch m (buf + pre.length) [0x58, 0x58, 0x58, 0x58, 0x58, 0x58, 0]
  have hc : CStr (patch m (buf + pre.length) [0x58, 0x58, 0x58, 0x58, 0x58, 0x58, 0]) buf (pre ++ List.replicate 6 0x58) := by
    rw [cstr_iff]
    refine ⟨?_, ?_⟩
    · rw [List.append_assoc]
      refine bytes_append.2 ⟨?_, hx⟩
      refine hb.congr ?_
      intro i hi hi2
      rw [patch_out (by omega)]
    · simp [h0]
  generalize hm1 : patch m (buf + pre.length) [0x58, 0x58, 0x58, 0x58, 0x58, 0x58, 0] = m1 at *
  obtain ⟨m', s', k, e, h1, h2, h3, h4, h5⟩ := C131_mktemp (w := w) (s := s) hc (by simp; omega)
  rw [e]
  simp only [Option.bind_some]
  have hout : ∀ a, a < buf ∨ buf + pre.length + 7 ≤ a → m' a = m a := by
    intro a ha
    rw [h4 a (by omega), ← hm1, patch_out (by simp; omega)]
  have hz : m' (buf + pre.length + 6) = some 0 := by
    rw [h4 _ (by omega)]
    have := hc.2.1
    rw [← this]; congr 1; simp; omega
  rcases h5 with ⟨x, a1, a2, a3, a4⟩ | ⟨b1, b2⟩
  · have : ∃ c, m' buf = some c ∧ c ≠ 0 := by
      cases pre with
      | nil => exact absurd rfl hne
      | cons c pre =>
        refine ⟨c, a3.1.1, ?_⟩
        rintro rfl
        simp at h0
    obtain ⟨c, hc1, hc2⟩ := this
    simp only [hc1, Option.bind_some]
    rw [if_neg hc2]
    exact ⟨_, _, _, k, rfl, h1, rfl, h2, h3, hout, hz, rfl, x, a1, a3, a4⟩
  · simp only [b1, Option.bind_some, if_true]
    exact ⟨_, _, _, k, rfl, h1, rfl, h2, h3, hout, hz, b2⟩

/-- `tmpnam` with a buffer of **eight** bytes: a name in the root directory, `errno` is kept, nothing outside the buffer is written. -/
theorem C131_tmpnam_partial {w : World} {buf : Nat} {m : M} {s : St} (hm : Mapped m buf 8) :
    ∃ r m' s' k, tmpnam w buf m s = some (r, m', s') ∧ s'.fds = s.fds ∧ s'.errno = s.errno ∧ k ≤ 100 ∧ s'.files = drift w s.files k ∧
      (∀ a, a < buf ∨ buf + 8 ≤ a → m' a = m a) ∧
      match (generalizing := false) r with
      | none => AllRefused w s.files [0x2F] []
      | some q => q = buf ∧ ∃ x, Unique x ∧ CStr m' buf ([0x2F] ++ x) ∧ (drift w s.files k ([0x2F] ++ x) = none ∨ ∃ j, w.deny j ([0x2F] ++ x) = some .ENOENT) := by
  unfold tmpnam
  rw [store_patch (by simpa using hm 0 (by omega))]
  simp only [Option.bind_eq_bind, Option.bind_some]
  obtain ⟨r, m', s', k, e, h1, h2, h3, h4, h5, -, h6⟩ := tmpnamInner_spec (w := w) (s := s) (bytes_patch m buf [0x2F]) (by decide) (by decide)
    (mapped_patch (fun i hi => by have := hm (1 + i) (by omega); rwa [← Nat.add_assoc] at this)) (by decide)
  refine ⟨r, m', s', k, e, h1, h2, h3, h4, ?_, h6⟩
  intro a ha
  rw [h5 a (by simp; omega), patch_out (by simp; omega)]

/-- C131, violated by the code: a program that gives `tmpnam` an array of `L_tmpnam` bytes, as the standard asks, has **one byte after the array** overwritten with a NUL, whatever happens. -/
theorem C131_tmpnam_overflow_violation {w : World} {buf : Nat} {m : M} {s : St} (hm : Mapped m buf 8) :
    ∃ r m' s', tmpnam w buf m s = some (r, m', s') ∧ m' (buf + L_tmpnam) = some 0 := by
  unfold tmpnam
  rw [store_patch (by simpa using hm 0 (by omega))]
  simp only [Option.bind_eq_bind, Option.bind_some]
  obtain ⟨r, m', s', k, e, -, -, -, -, -, h6, -⟩ := tmpnamInner_spec (w := w) (s := s) (bytes_patch m buf [0x2F]) (by decide) (by decide)
    (mapped_patch (fun i hi => by have := hm (1 + i) (by omega); rwa [← Nat.add_assoc] at this)) (by decide)
  exact ⟨r, m', s', e, h6⟩

/-- The directories `tempnam` may use, in this order: the value of `TMPDIR`, the argument, `/tmp`. -/
def FirstWritable (writable : List UInt8 → Bool) (env dir : Option (List UInt8)) (d : List UInt8) : Prop :=
  (env = some d ∧ writable d = true) ∨
  ((∀ e, env = some e → writable e = false) ∧ ((dir = some d ∧ writable d = true) ∨ ((∀ e, dir = some e → writable e = false) ∧ d = [0x2F, 0x74, 0x6D, 0x70])))

theorem choose_ok (writable : List UInt8 → Bool) (env dir : Option (List UInt8)) : FirstWritable writable env dir (chooseDir writable env dir) := by
  unfold FirstWritable chooseDir
  cases env with
  | none =>
    right
    refine ⟨by simp, ?_⟩
    cases dir with
    | none =>
      right
      refine ⟨by simp, ?_⟩
      cases ht : writable tmpDir <;> simp [List.find?, appropriate, tmpDir] <;> simp [tmpDir] at ht <;> simp [ht]
    | some e =>
      cases he : writable e with
      | true => left; simp [List.find?, appropriate, he]
      | false =>
        right
        refine ⟨by simp [he], ?_⟩
        cases ht : writable tmpDir <;> simp [List.find?, appropriate, he, tmpDir] <;> simp [tmpDir] at ht <;> simp [ht]
  | some e0 =>
    cases he0 : writable e0 with
    | true => left; simp [List.find?, appropriate, he0]
    | false =>
      right
      refine ⟨by simp [he0], ?_⟩
      cases dir with
      | none =>
        right
        refine ⟨by simp, ?_⟩
        cases ht : writable tmpDir <;> simp [List.find?, appropriate, he0, tmpDir] <;> simp [tmpDir] at ht <;> simp [ht]
      | some e =>
        cases he : writable e with
        | true => left; simp [List.find?, appropriate, he, he0]
        | false =>
          right
          refine ⟨by simp [he], ?_⟩
          cases ht : writable tmpDir <;> simp [List.find?, appropriate, he, he0, tmpDir] <;> simp [tmpDir] at ht <;> simp [ht]

/-- `tempnam`: the first writable directory, at most five bytes of the prefix and six letters or digits, in a new buffer outside of which nothing is written; `errno` is kept. If there is no name
the buffer is freed. -/
theorem C131_tempnam {w : World} {writable : List UInt8 → Bool} {alloc : Nat → Option Nat} {env dir : Option (List UInt8)} {pfx : List UInt8} {m : M} {s : St}
    (henv : ∀ e, env = some e → (0 : UInt8) ∉ e) (hdir : ∀ e, dir = some e → (0 : UInt8) ∉ e) (hpfx : (0 : UInt8) ∉ pfx)
    (hel : ∀ e, env = some e → e.length < 2 ^ 30) (hdl : ∀ e, dir = some e → e.length < 2 ^ 30)
    (halloc : ∀ n b, alloc n = some b → Mapped m b n) :
    ∃ d, FirstWritable writable env dir d ∧ ∃ r freed m' s' k, tempnam w writable alloc env dir pfx m s = some (r, freed, m', s') ∧
      s'.fds = s.fds ∧ s'.errno = s.errno ∧ k ≤ 100 ∧ s'.files = drift w s.files k ∧
      ((∃ n, alloc n = none ∧ r = none ∧ freed = false ∧ m' = m) ∨
        ∃ n b, alloc n = some b ∧ (∀ a, a < b ∨ b + n ≤ a → m' a = m a) ∧
          ((r = none ∧ freed = true ∧ AllRefused w s.files (d ++ [0x2F] ++ pfx.take 5) []) ∨
            (r = some b ∧ freed = false ∧ ∃ x, Unique x ∧ CStr m' b (d ++ [0x2F] ++ pfx.take 5 ++ x) ∧
              (drift w s.files k (d ++ [0x2F] ++ pfx.take 5 ++ x) = none ∨ ∃ j, w.deny j (d ++ [0x2F] ++ pfx.take 5 ++ x) = some .ENOENT)))) := by
  have hf := choose_ok writable env dir
  refine ⟨_, hf, ?_⟩
  unfold tempnam
  generalize hd : chooseDir writable env dir = d at *
  have hd0 : (0 : UInt8) ∉ d ∧ d.length < 2 ^ 30 := by
    rcases hf with ⟨h, -⟩ | ⟨-, ⟨h, -⟩ | ⟨-, h⟩⟩
    · exact ⟨henv d h, hel d h⟩
    · exact ⟨hdir d h, hdl d h⟩
    · subst h; exact ⟨by decide, by decide⟩
  cases ha : alloc (tempnamSize d pfx) with
  | none =>
    simp only [ha]
    exact ⟨none, false, m, s, 0, rfl, rfl, rfl, by omega, rfl, Or.inl ⟨_, ha, rfl, rfl, rfl⟩⟩
  | some b =>
    have hmap := halloc _ _ ha
    have hsz : tempnamSize d pfx = d.length + 1 + (pfx.take 5).length + 8 := rfl
    have h5 : (pfx.take 5).length ≤ 5 := by simp; omega
    rw [hsz] at hmap
    generalize hq : pfx.take 5 = q at *
    have hq0 : (0 : UInt8) ∉ q := by rw [← hq]; exact fun h => hpfx (List.mem_of_mem_take h)
    simp only [ha]
    rw [copy_eq (hmap.mono (by omega))]
    simp only [Option.bind_eq_bind, Option.bind_some]
    rw [store_patch (isSome_patch (hmap d.length (by omega)))]
    simp only [Option.bind_some]
    rw [copy_eq (mapped_patch (mapped_patch (fun i hi => by
      have := hmap (d.length + 1 + i) (by omega)
      rwa [show b + (d.length + 1 + i) = b + (d.length + 1) + i by omega] at this)))]
    simp only [Option.bind_some]
    rw [patch_append m b d [0x2F], show b + (d.length + 1) = b + (d ++ [(0x2F : UInt8)]).length by simp, patch_append m b (d ++ [0x2F]) q]
    have hlen : (d ++ [0x2F] ++ q).length = d.length + 1 + q.length := by simp; omega
    have hmm : Mapped (patch m b (d ++ [0x2F] ++ q)) (b + (d ++ [0x2F] ++ q).length) 7 := by
      rw [hlen]
      apply mapped_patch
      intro i hi
      have := hmap (d.length + 1 + q.length + i) (by omega)
      rwa [show b + (d.length + 1 + q.length + i) = b + (d.length + 1 + q.length) + i by omega] at this
    obtain ⟨r, m', s', k, e, h1, h2, h3, h4, h5, -, h6⟩ := tmpnamInner_spec (w := w) (s := s) (bytes_patch m b (d ++ [0x2F] ++ q))
      (by simp [hd0.1, hq0]) (by simp) hmm (by rw [hlen]; omega)
    rw [hlen] at e h5
    rw [e]
    simp only [Option.bind_some]
    have hout : ∀ a, a < b ∨ b + tempnamSize d pfx ≤ a → m' a = m a := by
      intro a h
      rw [hsz] at h
      rw [h5 a (by omega), patch_out (by rw [hlen]; omega)]
    cases r with
    | none => exact ⟨none, true, m', s', k, rfl, h1, h2, h3, h4, Or.inr ⟨_, b, ha, hout, Or.inl ⟨rfl, rfl, h6⟩⟩⟩
    | some c =>
      obtain ⟨rfl, x, hx⟩ := h6
      exact ⟨some c, false, m', s', k, rfl, h1, h2, h3, h4, Or.inr ⟨_, c, ha, hout, Or.inr ⟨rfl, rfl, x, hx⟩⟩⟩

/-! ## `tmpfile` -/

/-- `tmpfile`: the stream is on a new file in `/tmp`, open for reading and writing, that has no name any more; if there is no stream there is no descriptor left either. In no case does a file
remain. -/
theorem C131_tmpfile {w : World} {ok : Bool} {s : St} :
    ∃ r s' k, tmpfile w ok s = some (r, s') ∧ k ≤ 100 ∧ s'.files = drift w s.files k ∧
      match (generalizing := false) r with
      | none => s'.fds = s.fds
      | some fd => (∀ d ∈ s.fds, d.1 ≠ fd) ∧ ∃ name fl, drift w s.files k name = none ∧ s'.fds = (fd, ⟨name, fl⟩) :: s.fds ∧
          [0x2F, 0x74, 0x6D, 0x70, 0x2F] <+: name ∧ fl &&& 0x00030000 = 0x00030000 := by
  have hc : CStr (ofList 0 (tmpfileTemplate ++ [0])) 0 ([0x2F, 0x74, 0x6D, 0x70, 0x2F, 0x74, 0x6D, 0x70, 0x66, 0x69, 0x6C, 0x65] ++ List.replicate 6 0x58) := by
    rw [cstr_iff]
    exact ⟨bytes_ofList 0 _, by decide⟩
  obtain ⟨r, m', s', x, e, hx, hm, hr⟩ := C131_mkstemp (w := w) (s := s) hc (by decide)
  unfold tmpfile
  rw [e]
  simp only [Option.bind_eq_bind, Option.bind_some]
  cases r with
  | none => exact ⟨none, s', 100, rfl, by omega, hr.1, hr.2.1⟩
  | some fd =>
    obtain ⟨h1, h2, ⟨k, hk, h3, h4, h5⟩, h6, fl, h7, h8, -⟩ := hr
    simp only [cname_eq h2, Option.bind_some]
    have hfiles : set s'.files ([0x2F, 0x74, 0x6D, 0x70, 0x2F, 0x74, 0x6D, 0x70, 0x66, 0x69, 0x6C, 0x65] ++ x) none = drift w s.files k := by
      funext n
      unfold set
      split
      · rename_i hn; rw [hn, h3]
      · rename_i hn; exact h5 n hn
    cases ok with
    | true =>
      refine ⟨some fd, _, k, rfl, hk, hfiles, h6, _, fl, h3, h7, ?_, h8⟩
      exact ⟨[0x74, 0x6D, 0x70, 0x66, 0x69, 0x6C, 0x65] ++ x, rfl⟩
    | false =>
      refine ⟨none, _, k, rfl, hk, hfiles, ?_⟩
      show s'.fds.filter _ = _
      rw [h7, List.filter_cons]
      simp only [ne_eq, not_true_eq_false, decide_false, Bool.false_eq_true, if_false]
      rw [List.filter_eq_self]
      intro d hd
      simpa using h6 d hd

/-! ## Violations -/

/-- C131, violated by the code: **the error is always EEXIST**. In a directory that does not exist `mkstemp` tries a hundred names and reports that they all exist. -/
theorem C131_errno_violation {w : World} {p : Nat} {pre : List UInt8} {m : M} {s : St} (hw : ∀ i n, w.deny i n = some .ENOENT)
    (hc : CStr m p (pre ++ List.replicate 6 0x58)) (hl : (pre ++ List.replicate 6 (0x58 : UInt8)).length < 2 ^ 31) :
    ∃ m' s', mkstemp w p m s = some (none, m', s') ∧ s'.errno = some .EEXIST := by
  unfold mkstemp mkostemps
  obtain ⟨r, m', s', e, hr⟩ := inner_spec (w := w) (s := s) (open_harmless ((0 &&& ~~~O_ACCMODE) ||| (O_RDWR ||| O_CREAT ||| O_EXCL)) 0o600) (suf := [])
    (by simpa [six] using hc) (by simpa [six] using hl)
  rw [show Int32.ofNat ([] : List UInt8).length = 0 from rfl] at e
  rcases hr with ⟨h0, h1, -⟩ | ⟨t, k, s2, h0, h1, h2, h3, h4, h5, hm⟩
  · subst h0; exact ⟨m', s', e, h1⟩
  · simp [hw, sysOpen] at h5

/-- A world in which nothing happens: every letter drawn is an `A`, no other process, no errors. -/
def calm : World := ⟨fun _ _ => 0, fun _ fs => fs, fun _ _ => none⟩

/-- No files, no descriptors. -/
def empty (umask : UInt32) : St := ⟨fun _ => none, [], umask, none⟩

theorem calm_drift (fs : Files) : ∀ k, drift calm fs k = fs
  | 0 => rfl
  | k + 1 => calm_drift fs k

/-- C131, violated by the code: **the directory of `mkdtemp` is not private**. With the usual umask 022 everybody may list it and enter it. -/
theorem C131_mkdtemp_private_violation {p : Nat} {pre : List UInt8} {m : M}
    (hc : CStr m p (pre ++ List.replicate 6 0x58)) (hl : (pre ++ List.replicate 6 (0x58 : UInt8)).length < 2 ^ 31) :
    ∃ m' s' x, mkdtemp calm p m (empty 0o022) = some (some p, m', s') ∧ CStr m' p (pre ++ x) ∧ s'.files (pre ++ x) = some ⟨true, 0o755⟩ := by
  obtain ⟨r, m', s', x, e, h1, h2, h3, h4⟩ := C131_mkdtemp_partial (w := calm) (s := empty 0o022) hc hl
  cases r with
  | none =>
    obtain ⟨-, h⟩ := h4
    obtain ⟨x, -, h | h⟩ := h 0 (by omega)
    · simp [calm] at h
    · rw [calm_drift] at h; simp [empty] at h
  | some q =>
    obtain ⟨rfl, h5, h6, k, hk, h7⟩ := h4
    refine ⟨m', s', x, e, h6, ?_⟩
    rw [h7.2.1]
    decide

/-- `mkstemp` succeeds in the calm world. -/
example {p : Nat} {pre : List UInt8} {m : M} (hc : CStr m p (pre ++ List.replicate 6 0x58)) (hl : (pre ++ List.replicate 6 (0x58 : UInt8)).length < 2 ^ 31) :
    ∃ fd m' s' x, mkstemp calm p m (empty 0o022) = some (some fd, m', s') ∧ CStr m' p (pre ++ x) ∧ s'.files (pre ++ x) = some ⟨false, 0o600⟩ := by
  obtain ⟨r, m', s', x, e, h1, h2, h3⟩ := C131_mkstemp (w := calm) (s := empty 0o022) hc hl
  cases r with
  | none =>
    obtain ⟨-, -, h⟩ := h3
    obtain ⟨x, -, h | h⟩ := h 0 (by omega)
    · simp [calm] at h
    · rw [calm_drift] at h; simp [empty] at h
  | some fd =>
    obtain ⟨h4, h5, ⟨k, hk, h7⟩, -⟩ := h3
    refine ⟨fd, m', s', x, e, h5, ?_⟩
    rw [h7.2.1]
    decide

/-- "aXXXXXX", a NUL, and another array that holds six times `X`. -/
def neighbours : List UInt8 := [0x61, 0x58, 0x58, 0x58, 0x58, 0x58, 0x58, 0, 0x58, 0x58, 0x58, 0x58, 0x58, 0x58]

/-- C131, violated by the code: **a negative length of the suffix** is not refused, and the bytes behind the string are overwritten. -/
theorem C131_negative_suffix_violation :
    ∃ m' s', mkstemps calm 0 (-7) (ofList 0 neighbours) (empty 0) = some (some 0, m', s') ∧ m' 8 = some 0x41 ∧ ofList 0 neighbours 8 = some (0x58 : UInt8) := by
  have hc : CStr (ofList 0 neighbours) 0 [0x61, 0x58, 0x58, 0x58, 0x58, 0x58, 0x58] := by
    refine ⟨bytes_iff.2 ?_, by decide +kernel, by decide⟩
    decide +kernel
  have hmap : Mapped (ofList 0 neighbours) 8 6 := by
    intro i hi
    have : ∀ i, i < 6 → (ofList 0 neighbours (8 + i)).isSome := by decide +kernel
    exact this i hi
  have hf := fill_eq hmap (fun _ => 0)
  have hc' : CStr (patch (ofList 0 neighbours) 8 (letters (fun _ => 0))) 0 [0x61, 0x58, 0x58, 0x58, 0x58, 0x58, 0x58] := by
    refine cstr_ext hc ?_
    intro a h1 h2
    rw [patch_out (by simp at h2; omega)]
  have hck : checkX (ofList 0 neighbours) 8 6 = some true := checkX_true (q := 8) (bytes_iff.2 (by decide +kernel))
  unfold mkstemps mkostemps innerMktemp
  rw [strlen_eq hc]
  simp only [Option.bind_eq_bind, Option.bind_some]
  rw [if_neg (by decide +kernel)]
  rw [show ((0 : Nat) : Int) + (Int32.ofNat [0x61, 0x58, 0x58, 0x58, 0x58, 0x58, (0x58 : UInt8)].length - -7 - 6).toInt = 8 by decide +kernel,
    show ((Int32.ofNat [0x61, 0x58, 0x58, 0x58, 0x58, 0x58, (0x58 : UInt8)].length - -7).toInt -
      (Int32.ofNat [0x61, 0x58, 0x58, 0x58, 0x58, 0x58, (0x58 : UInt8)].length - -7 - 6).toInt).toNat = 6 by decide +kernel, hck]
  simp only [Option.bind_some, Bool.not_true]
  rw [if_neg (by simp)]
  rw [show (Int32.ofNat [0x61, 0x58, 0x58, 0x58, 0x58, 0x58, (0x58 : UInt8)].length).toInt - (-7 : Int32).toInt - 1 = 13 by decide +kernel]
  rw [show (100 : Nat) = 99 + 1 from rfl, tries]
  rw [show ((0 : Nat) : Int) + 13 = ((8 + 5 : Nat) : Int) by decide]
  rw [show calm.draw 0 = fun _ => 0 from rfl, hf]
  simp only [Option.bind_eq_bind, Option.bind_some, cname_eq hc']
  refine ⟨_, _, rfl, ?_, ?_⟩ <;> decide +kernel

end Verif.Temp
