import Verif.Modes.Model

/-!
# C123: new files and their permissions

Which file a call creates, with which permissions, and that it does not touch a file that is there.
-/

namespace Verif.Modes

/-! ## Specification -/

/-- The permissions of a new file: those asked for without those in the mask. -/
def granted (mode mask : UInt32) : UInt32 := mode &&& ~~~mask

/-- Only the nine permission bits. -/
def Perm (m : UInt32) : Prop := m &&& 0o777 = m

/-- The files are the same but for `p`, which is `n`. -/
def Only (fs fs' : Fs) (p : Nat) (n : Node) : Prop := fs'.files p = some n ∧ ∀ q, q ≠ p → fs'.files q = fs.files q

/-- The permissions a process with user `uid` and group `gid` has to a file: the bits of the owner, of the group, or of the others. -/
def classBits (n : Node) (uid gid : UInt32) : UInt32 :=
  if n.uid = uid then n.perm >>> 6 else if n.gid = gid then n.perm >>> 3 else n.perm

/-- Everything in `mode` (read 4, write 2, execute 1) is permitted by `bits`. -/
def Permits (bits mode : UInt32) : Prop := mode &&& bits = mode

/-! ## Lemmas -/

theorem word_and (o m f : UInt32) : word o m &&& f = (o &&& (0xFFFF0000 &&& f)) ||| (m &&& (0xFFFF &&& f)) := by
  apply UInt32.toBitVec_inj.1
  simp only [word, UInt32.toBitVec_and, UInt32.toBitVec_or]
  rw [BitVec.and_comm (_ ||| _), BitVec.and_or_distrib_left, BitVec.and_comm f.toBitVec, BitVec.and_comm f.toBitVec, BitVec.and_assoc, BitVec.and_assoc]

theorem has_word (o m f : UInt32) (h1 : 0xFFFF0000 &&& f = f) (h2 : 0xFFFF &&& f = 0) : has (word o m) f = has o f := by
  unfold has
  rw [word_and, h1, h2]
  have : m &&& 0 = 0 := by simp
  rw [this]
  simp

theorem low_word (o m f : UInt32) (h1 : 0xFFFF0000 &&& f = 0) (h2 : 0xFFFF &&& f = f) : word o m &&& f = m &&& f := by
  rw [word_and, h1, h2]
  simp

theorem perm_fff {m : UInt32} (h : Perm m) (k : UInt32) : m &&& k &&& 0xFFF = m &&& k := by
  unfold Perm at h
  have : m &&& 0xFFF = m := by
    conv => lhs; rw [← h]
    rw [UInt32.and_assoc]
    exact h
  rw [UInt32.and_assoc, UInt32.and_comm k, ← UInt32.and_assoc, this]

theorem perm_kind {m : UInt32} (h : Perm m) (k : UInt32) : m &&& k &&& 0xF000 = 0 := by
  unfold Perm at h
  have : m &&& 0xF000 = 0 := by
    conv => lhs; rw [← h]
    rw [UInt32.and_assoc]
    show m &&& 0 = 0
    simp
  rw [UInt32.and_assoc, UInt32.and_comm k, ← UInt32.and_assoc, this]
  simp

theorem put_only (fs : Fs) (p : Nat) (n : Node) : Only fs (fs.put p n) p n :=
  ⟨by simp [Fs.put], fun q h => by simp [Fs.put, h]⟩

/-! ## C123 -/

/-- C123: **`open` with `O_CREAT`**. If there is no file of that name, the call creates a regular file with the permissions asked for without those in the file mode creation mask, which belongs to the
effective user and group; nothing else changes. With `O_EXCL` a file that is there makes the call fail with `EEXIST`, and nothing changes. Without `O_CREAT` no file is created. -/
theorem C123_open_exact (s : Proc) (fs : Fs) (p : Nat) (oflag mode : UInt32) (hm : Perm mode) :
    (fs.files p = none → has oflag O_CREAT = true → has oflag O_DIRECTORY = false → has oflag O_SYMLINK = false →
      ∃ fs', openat s fs p oflag mode = (.ok p, fs') ∧ Only fs fs' p ⟨.reg, granted mode s.mask, s.euid, s.egid, [], 0⟩)
    ∧ (fs.files p ≠ none → has oflag O_CREAT = true → has oflag O_EXCL = true → openat s fs p oflag mode = (.error .EEXIST, fs))
    ∧ (has oflag O_CREAT = false → (openat s fs p oflag mode).2 = fs) := by
  have h1 := has_word oflag (mode &&& ~~~s.mask) O_CREAT (by decide) (by decide)
  have h2 := has_word oflag (mode &&& ~~~s.mask) O_DIRECTORY (by decide) (by decide)
  have h3 := has_word oflag (mode &&& ~~~s.mask) O_SYMLINK (by decide) (by decide)
  have h4 := has_word oflag (mode &&& ~~~s.mask) O_EXCL (by decide) (by decide)
  have h5 := low_word oflag (mode &&& ~~~s.mask) 0xFFF (by decide) (by decide)
  have h6 := low_word oflag (mode &&& ~~~s.mask) 0xF000 (by decide) (by decide)
  rw [perm_fff hm] at h5
  rw [perm_kind hm] at h6
  refine ⟨fun hn hc hd hl => ⟨_, ?_, put_only fs p _⟩, fun hn hc he => ?_, fun hc => ?_⟩
  · simp [openat, fsOpen, hn, h1, h2, h3, h5, h6, hc, hd, hl, granted]
  · cases hf : fs.files p with
    | none => exact absurd hf hn
    | some n => simp [openat, fsOpen, hf, h1, h4, hc, he]
  · unfold openat fsOpen
    rw [h1, hc]
    cases hf : fs.files p with
    | none => rfl
    | some n =>
      simp only [Bool.false_and, Bool.false_eq_true, if_false]
      repeat' split
      all_goals rfl

/-- Files: 1 a regular file, 2 a link to it, 3 a link that is longer. -/
def files : Fs where
  files
    | 1 => some ⟨.reg, 0o640, 1000, 100, [0x78], 5⟩
    | 2 => some ⟨.link, 0o777, 1000, 100, [0x31], 5⟩
    | 3 => some ⟨.link, 0o777, 1000, 100, [0x2f, 0x65, 0x74, 0x63], 5⟩
    | _ => none
  dest _ := 1

/-- A process of user 1000. -/
def user : Proc := ⟨0o022, 1000, 1000, 100, 100⟩

example : ((openat user files 9 (O_WRONLY ||| O_CREAT) 0o666).2.files 9).map (·.perm) = some 0o644
    ∧ (openat user files 1 (O_WRONLY ||| O_CREAT ||| O_EXCL) 0o666).1.toOption = none := by decide +kernel

/-- C123: **`umask`** gives the previous mask and sets the new one, for masks of permission bits. -/
theorem C123_umask_exact (s : Proc) (m : UInt32) (hs : Perm s.mask) (hm : Perm m) :
    umask s m = (s.mask, { s with mask := m }) := by
  have key : ∀ m : UInt32, Perm m → m &&& ~~~0o1000 = m ∧ m &&& 0o7777 = m := by
    intro m h
    unfold Perm at h
    constructor
    · conv => lhs; rw [← h]
      rw [UInt32.and_assoc]
      exact h
    · conv => lhs; rw [← h]
      rw [UInt32.and_assoc]
      exact h
  unfold umask
  rw [(key _ hs).1, (key _ hm).2, (key _ hm).1]

example : (umask user 0o077).1 = 0o022 ∧ (umask (umask user 0o077).2 0).1 = 0o077 := by decide +kernel

/-- C123, part: **`mkdir`** creates a directory if there is no file of that name, and fails with `EEXIST` if there is one. Missing: its permissions are right only if all are asked for. -/
theorem C123_mkdir_partial (s : Proc) (fs : Fs) (p : Nat) (mode : UInt32) :
    (fs.files p = none → ∃ fs', mkdirat s fs p mode = (.ok (), fs') ∧ Only fs fs' p ⟨.dir, granted 0o777 s.mask, s.euid, s.egid, [], 0⟩)
    ∧ (fs.files p ≠ none → mkdirat s fs p mode = (.error .EEXIST, fs)) := by
  have h1 : has (word (O_DIRECTORY ||| O_EXCL ||| O_CLOEXEC ||| O_CREAT) (0o777 &&& ~~~s.mask)) O_CREAT = true := by rw [has_word _ _ _ (by decide) (by decide)]; decide
  have h2 : has (word (O_DIRECTORY ||| O_EXCL ||| O_CLOEXEC ||| O_CREAT) (0o777 &&& ~~~s.mask)) O_DIRECTORY = true := by rw [has_word _ _ _ (by decide) (by decide)]; decide
  have h4 : has (word (O_DIRECTORY ||| O_EXCL ||| O_CLOEXEC ||| O_CREAT) (0o777 &&& ~~~s.mask)) O_EXCL = true := by rw [has_word _ _ _ (by decide) (by decide)]; decide
  have h5 := low_word (O_DIRECTORY ||| O_EXCL ||| O_CLOEXEC ||| O_CREAT) (0o777 &&& ~~~s.mask) 0xFFF (by decide) (by decide)
  rw [perm_fff (show Perm 0o777 by unfold Perm; decide)] at h5
  refine ⟨fun hn => ⟨_, ?_, put_only fs p _⟩, fun hn => ?_⟩
  · simp [mkdirat, done, openat, fsOpen, hn, h1, h2, h5, granted]
  · cases hf : fs.files p with
    | none => exact absurd hf hn
    | some n => simp [mkdirat, done, openat, fsOpen, hf, h1, h4]

example : ((mkdirat user files 9 0o777).2.files 9).map (fun n => (n.kind, n.perm)) = some (.dir, 0o755)
    ∧ (mkdirat user files 2 0o777).1.toOption = none := by decide +kernel

/-- C123, violated by the code: **`mkdir` ignores the permissions asked for**. A directory that is to be for the owner alone can be read by everybody. -/
theorem C123_mkdir_violation : ((mkdirat user files 9 0o700).2.files 9).map (·.perm) = some 0o755 := by decide +kernel

/-- C123, part: **`mkfifo` and `mknod`** create the file if there is none of that name: `mkfifo` a FIFO, `mknod` with `S_IFREG` a regular file, with the permissions asked for without those in the mask. Missing: a file that
is there. -/
theorem C123_mkfifo_partial (s : Proc) (fs : Fs) (p : Nat) (mode : UInt32) (hs : Perm s.mask) (hm : Perm mode) (hn : fs.files p = none) :
    (∃ fs', mkfifoat s fs p mode = (.ok (), fs') ∧ Only fs fs' p ⟨.fifo, granted mode s.mask, s.euid, s.egid, [], 0⟩)
    ∧ (∃ fs', mknodat s fs p (0o100000 ||| mode) = (.ok (), fs') ∧ Only fs fs' p ⟨.reg, granted mode s.mask, s.euid, s.egid, [], 0⟩) := by
  have hd : ∀ x : UInt32, has (word (O_CREAT ||| O_CLOEXEC ||| O_CREAT) x) O_CREAT = true ∧ has (word (O_CREAT ||| O_CLOEXEC ||| O_CREAT) x) O_DIRECTORY = false
      ∧ has (word (O_CREAT ||| O_CLOEXEC ||| O_CREAT) x) O_SYMLINK = false := by
    intro x
    rw [has_word _ _ _ (by decide) (by decide), has_word _ _ _ (by decide) (by decide), has_word _ _ _ (by decide) (by decide)]
    decide
  have dist : ∀ t m k f : UInt32, ((t ||| m) &&& k) &&& f = (t &&& k &&& f) ||| (m &&& k &&& f) := by
    intro t m k f
    apply UInt32.toBitVec_inj.1
    simp only [UInt32.toBitVec_and, UInt32.toBitVec_or]
    rw [BitVec.and_assoc, BitVec.and_comm (_ ||| _), BitVec.and_or_distrib_left, BitVec.and_comm _ t.toBitVec, BitVec.and_comm _ m.toBitVec, BitVec.and_assoc, BitVec.and_assoc]
  have top : ∀ t f : UInt32, t &&& 0o777 = 0 → t &&& ~~~s.mask &&& f = t &&& f := by
    intro t f ht
    have : t &&& ~~~s.mask = t := by
      have h1 : t &&& s.mask = 0 := by
        unfold Perm at hs
        rw [← hs, UInt32.and_comm s.mask, ← UInt32.and_assoc, ht]
        simp
      apply UInt32.toBitVec_inj.1
      apply BitVec.eq_of_getLsbD_eq
      intro i hi
      have h2 : (t &&& s.mask).toBitVec.getLsbD i = (0 : UInt32).toBitVec.getLsbD i := by rw [h1]
      rw [UInt32.toBitVec_and, BitVec.getLsbD_and] at h2
      rw [UInt32.toBitVec_and, UInt32.toBitVec_not, BitVec.getLsbD_and, BitVec.getLsbD_not]
      have h3 : (0 : UInt32).toBitVec.getLsbD i = false := by simp
      rw [h3] at h2
      cases ht : t.toBitVec.getLsbD i <;> cases hm : s.mask.toBitVec.getLsbD i <;> simp_all
    rw [this]
  have zor : ∀ x : UInt32, 0 ||| x = x := by intro x; simp
  constructor
  · obtain ⟨h1, h2, h3⟩ := hd ((0x1000 ||| (mode &&& 0o777)) &&& ~~~s.mask)
    have hm' : mode &&& 0o777 = mode := hm
    rw [hm'] at h1 h2 h3
    have h5 := low_word (O_CREAT ||| O_CLOEXEC ||| O_CREAT) ((0x1000 ||| mode) &&& ~~~s.mask) 0xFFF (by decide) (by decide)
    rw [dist, perm_fff hm, top _ _ (by decide), show (0x1000 : UInt32) &&& 0xFFF = 0 by decide, zor] at h5
    have h6 := low_word (O_CREAT ||| O_CLOEXEC ||| O_CREAT) ((0x1000 ||| mode) &&& ~~~s.mask) 0xF000 (by decide) (by decide)
    rw [dist, perm_kind hm, top _ _ (by decide), show (0x1000 : UInt32) &&& 0xF000 ||| 0 = 0x1000 by decide] at h6
    exact ⟨_, by simp [mkfifoat, mknodat, done, openat, fsOpen, hn, hm', h1, h2, h3, h5, h6, granted], put_only fs p _⟩
  · obtain ⟨h1, h2, h3⟩ := hd ((0o100000 ||| mode) &&& ~~~s.mask)
    have h5 := low_word (O_CREAT ||| O_CLOEXEC ||| O_CREAT) ((0o100000 ||| mode) &&& ~~~s.mask) 0xFFF (by decide) (by decide)
    rw [dist, perm_fff hm, top _ _ (by decide), show (0o100000 : UInt32) &&& 0xFFF = 0 by decide, zor] at h5
    have h6 := low_word (O_CREAT ||| O_CLOEXEC ||| O_CREAT) ((0o100000 ||| mode) &&& ~~~s.mask) 0xF000 (by decide) (by decide)
    rw [dist, perm_kind hm, top _ _ (by decide), show (0o100000 : UInt32) &&& 0xF000 ||| 0 = 0x8000 by decide] at h6
    exact ⟨_, by simp [mknodat, done, openat, fsOpen, hn, h1, h2, h3, h5, h6, granted], put_only fs p _⟩

example : ((mkfifoat user files 9 0o622).2.files 9).map (fun n => (n.kind, n.perm)) = some (.fifo, 0o600) := by decide +kernel

/-- C123, violated by the code: **`mkfifo` and `mknod` succeed if there is a file of that name**, and create nothing. POSIX demands `EEXIST`. -/
theorem C123_mkfifo_violation (s : Proc) (fs : Fs) (p : Nat) (mode : UInt32) (n : Node) (hn : fs.files p = some n) (hk : n.kind = .reg) :
    mkfifoat s fs p mode = (.ok (), fs) := by
  have h1 := has_word (O_CREAT ||| O_CLOEXEC ||| O_CREAT) ((0x1000 ||| (mode &&& 0o777)) &&& ~~~s.mask) O_EXCL (by decide) (by decide)
  rw [show has (O_CREAT ||| O_CLOEXEC ||| O_CREAT) O_EXCL = false by decide] at h1
  have h2 := has_word (O_CREAT ||| O_CLOEXEC ||| O_CREAT) ((0x1000 ||| (mode &&& 0o777)) &&& ~~~s.mask) O_DIRECTORY (by decide) (by decide)
  rw [show has (O_CREAT ||| O_CLOEXEC ||| O_CREAT) O_DIRECTORY = false by decide] at h2
  simp [mkfifoat, mknodat, done, openat, fsOpen, hn, h1, h2, hk]

/-- C123, part: **`symlink`** creates a link with exactly the text given if there is no file of that name. Missing: a file that is there. -/
theorem C123_symlink_partial (s : Proc) (fs : Fs) (t : List UInt8) (p : Nat) (hn : fs.files p = none) :
    ∃ fs' perm, symlinkat s fs t p = (.ok (), fs') ∧ Only fs fs' p ⟨.link, perm, s.euid, s.egid, t, 0⟩ := by
  generalize hw : word (O_WRONLY ||| O_SYMLINK ||| O_CLOEXEC ||| O_CREAT) (0o777 &&& ~~~s.mask) = w
  have h1 : has w O_CREAT = true := by rw [← hw, has_word _ _ _ (by decide) (by decide)]; decide
  have h2 : has w O_DIRECTORY = false := by rw [← hw, has_word _ _ _ (by decide) (by decide)]; decide
  have h3 : has w O_SYMLINK = true := by rw [← hw, has_word _ _ _ (by decide) (by decide)]; decide
  have ho : openat s fs p (O_WRONLY ||| O_SYMLINK ||| O_CLOEXEC ||| O_CREAT) 0o777 = (.ok p, fs.put p ⟨.link, w &&& 0xFFF, s.euid, s.egid, [], 0⟩) := by
    simp [openat, hw, fsOpen, hn, h1, h2, h3]
  refine ⟨_, w &&& 0xFFF, by simp only [symlinkat, ho]; rfl, ?_⟩
  unfold writeText
  have hp : (fs.put p ⟨.link, w &&& 0xFFF, s.euid, s.egid, [], 0⟩).files p = some ⟨.link, w &&& 0xFFF, s.euid, s.egid, [], 0⟩ := by simp [Fs.put]
  rw [hp]
  refine ⟨by simp [Fs.put], fun q hq => by simp [Fs.put, hq]⟩

/-- C123, violated by the code: **`symlink` overwrites a link that is there**, and only its beginning: the link to `/etc` leads to `xetc` afterwards. POSIX demands `EEXIST`. -/
theorem C123_symlink_violation : (symlinkat user files [0x78] 3).1.toOption = some ()
    ∧ ((symlinkat user files [0x78] 3).2.files 3).map (·.text) = some [0x78, 0x65, 0x74, 0x63] := by decide +kernel

/-- C123, part: **`utimensat`** of a file that is not a link sets its time and changes nothing else. Missing: `AT_SYMLINK_NOFOLLOW`. -/
theorem C123_utimensat_partial (s : Proc) (fs : Fs) (p time : Nat) (flag : UInt32) (n : Node) (hn : fs.files p = some n) (hk : n.kind ≠ .link) :
    ∃ fs', utimensat s fs p time flag = (.ok (), fs') ∧ Only fs fs' p { n with time := time } := by
  have hz : flag &&& AT_SYMLINK_NOFOLLOW &&& 0xFFFF0000 = 0 := by
    rw [UInt32.and_assoc]
    show flag &&& 0 = 0
    simp
  have h1 : has (word (flag &&& AT_SYMLINK_NOFOLLOW) (0 &&& ~~~s.mask)) O_CREAT = false := by
    unfold has word; rw [hz]; simp; decide
  have h2 : has (word (flag &&& AT_SYMLINK_NOFOLLOW) (0 &&& ~~~s.mask)) O_DIRECTORY = false := by
    unfold has word; rw [hz]; simp; decide
  have ho : openat s fs p (flag &&& AT_SYMLINK_NOFOLLOW) 0 = (.ok p, fs) := by
    simp only [openat, fsOpen, hn, h1, h2]
    simp [hk]
  refine ⟨fs.put p { n with time := time }, ?_, put_only fs p _⟩
  simp [utimensat, ho, hn]

/-- C123, violated by the code: **`utimensat` with `AT_SYMLINK_NOFOLLOW` follows links**. The flag is handed to `open`, where it is not one; the time of the file the link leads to is changed, that of
the link is not. -/
theorem C123_utimensat_violation : ((utimensat user files 2 77 AT_SYMLINK_NOFOLLOW).2.files 1).map (·.time) = some 77
    ∧ ((utimensat user files 2 77 AT_SYMLINK_NOFOLLOW).2.files 2).map (·.time) = some 5 := by decide +kernel

theorem access_bits : ∀ m, m < 8 → ∀ b, b < 8 →
    (¬ (((UInt32.ofNat m &&& 4 = 4) ∧ UInt32.ofNat b &&& 4 ≠ 4) ∨ ((UInt32.ofNat m &&& 2 = 2) ∧ UInt32.ofNat b &&& 2 ≠ 2)
      ∨ ((UInt32.ofNat m &&& 1 = 1) ∧ UInt32.ofNat b &&& 1 ≠ 1)) ↔ UInt32.ofNat m &&& UInt32.ofNat b = UInt32.ofNat m) := by decide +kernel

theorem small_eq {m : UInt32} {k : Nat} (h : m.toNat < k) : ∃ n, n < k ∧ m = UInt32.ofNat n := ⟨m.toNat, h, by simp⟩

/-- C123, part: **`access`** (and `faccessat` with `AT_EACCESS`) of a file that is not a link succeeds exactly if everything asked for is permitted to the real (or effective) user and group by the class of permissions that applies:
the owner's, the group's or the others'. Asking only whether the file is there succeeds. Missing: the error if it is not permitted. -/
theorem C123_access_partial (s : Proc) (fs : Fs) (p : Nat) (mode : UInt32) (eff : Bool) (n : Node) (hn : fs.files p = some n) (hk : n.kind ≠ .link) (hm : mode.toNat < 8) :
    faccessat s fs p mode (if eff then AT_EACCESS else 0) = .ok ()
      ↔ Permits (classBits n (if eff then s.euid else s.ruid) (if eff then s.egid else s.rgid)) mode := by
  have h1 : has (word (O_PATH ||| O_CLOEXEC) (0 &&& ~~~s.mask)) O_CREAT = false := by rw [has_word _ _ _ (by decide) (by decide)]; decide
  have h2 : has (word (O_PATH ||| O_CLOEXEC) (0 &&& ~~~s.mask)) O_DIRECTORY = false := by rw [has_word _ _ _ (by decide) (by decide)]; decide
  have ho : openat s fs p (O_PATH ||| O_CLOEXEC) 0 = (.ok p, fs) := by
    simp only [openat, fsOpen, hn, h1, h2]
    simp [hk]
  have hf : (if eff then AT_EACCESS else 0) &&& ~~~AT_EACCESS = 0 := by cases eff <;> decide
  have he : ((if eff then AT_EACCESS else 0) &&& AT_EACCESS = AT_EACCESS) ↔ eff = true := by cases eff <;> decide
  generalize hb : classBits n (if eff then s.euid else s.ruid) (if eff then s.egid else s.rgid) = bits
  have hpair : (if (if eff then AT_EACCESS else 0) &&& AT_EACCESS = AT_EACCESS then (s.euid, s.egid) else (s.ruid, s.rgid))
      = (if eff then s.euid else s.ruid, if eff then s.egid else s.rgid) := by cases eff <;> simp [AT_EACCESS]
  have hp : (mode &&& (bits &&& 7) = mode) ↔ Permits bits mode := by
    unfold Permits
    have h7 : mode &&& 7 = mode := by
      obtain ⟨k, hk, rfl⟩ := small_eq hm
      have : ∀ k, k < 8 → UInt32.ofNat k &&& 7 = UInt32.ofNat k := by decide +kernel
      exact this k hk
    rw [UInt32.and_comm bits, ← UInt32.and_assoc, h7]
  have hlt : (bits &&& 7).toNat < 8 := by
    rw [UInt32.toNat_and]
    exact Nat.lt_of_le_of_lt Nat.and_le_right (by decide)
  simp only [faccessat, ho, hf, hn, hpair]
  rw [show (if n.uid = (if eff then s.euid else s.ruid) then n.perm >>> 6 else if n.gid = (if eff then s.egid else s.rgid) then n.perm >>> 3 else n.perm) = bits from hb]
  rw [if_neg (by simp)]
  by_cases h0 : mode = 0
  · subst h0
    simp [Permits]
  · rw [if_neg h0, ← hp]
    obtain ⟨k, hk, rfl⟩ := small_eq hm
    obtain ⟨b, hb', e⟩ := small_eq hlt
    rw [e]
    have := access_bits k hk b hb'
    rw [← this]
    split
    · next h => exact ⟨fun h => (by cases h), fun h' => absurd h h'⟩
    · next h => exact ⟨fun _ => h, fun _ => rfl⟩

example : (faccessat user files 1 6 0).toOption = some () ∧ (faccessat user files 1 1 0).toOption = none
    ∧ (faccessat { user with ruid := 5 } files 1 4 0).toOption = some () ∧ (faccessat { user with ruid := 5 } files 1 4 AT_EACCESS).toOption = some ()
    ∧ (faccessat { user with ruid := 5, rgid := 5 } files 1 4 0).toOption = none := by decide +kernel

/-- C123, violated by the code: **the error of `access` is `EINVAL`** if the file may not be used in this way; POSIX demands `EACCES`. -/
theorem C123_access_violation : (match faccessat user files 1 1 0 with
    | .error e => some e
    | .ok _ => none) = some .EINVAL := by decide +kernel

end Verif.Modes
