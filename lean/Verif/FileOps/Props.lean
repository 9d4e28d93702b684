import Verif.FileOps.Model
/-!
# C146: the times of files; C147: `posix_fallocate`; C148: `gethostname`
-/

namespace Verif.FileOps

/-! ## C146 -/

/-- What a time asked for stands for: now, no change, or itself. -/
inductive Means (now old : Timespec) : Timespec → Timespec → Prop
  | present (s : Int) : Means now old ⟨s, 2 ^ 30 - 1⟩ now
  | unchanged (s : Int) : Means now old ⟨s, 2 ^ 30 - 2⟩ old
  | given (t : Timespec) (h : 0 ≤ t.nsec ∧ t.nsec < 10 ^ 9) : Means now old t t

/-- The file `i` has the times `a` and `m` after the call, and nothing else has changed. -/
def Changed (fs fs' : Fs) (i : Nat) (n : Node) (a m : Timespec) : Prop :=
  fs'.node i = some { n with atime := a, mtime := m } ∧ (∀ j, j ≠ i → fs'.node j = fs.node j) ∧ fs'.lookup = fs.lookup ∧ fs'.now = fs.now

theorem newTime_means {now old t r : Timespec} (h : Means now old t r) : newTime now old t = .ok r := by
  unfold newTime UTIME_NOW UTIME_OMIT
  cases h with
  | present s => rw [if_pos rfl]
  | unchanged s => rw [if_neg (by dsimp only; decide), if_pos rfl]
  | given t h => rw [if_neg (by omega), if_neg (by omega), if_pos h]

theorem setTimes_ok {fs : Fs} {i : Nat} {n : Node} {a m a' m' : Timespec} (hn : fs.node i = some n) (ha : Means fs.now n.atime a a') (hm : Means fs.now n.mtime m m') : ∃ fs', setTimes fs i a m = (.ok (), fs') ∧ Changed fs fs' i n a' m' := by
  unfold setTimes
  rw [hn]
  dsimp only
  rw [newTime_means ha, newTime_means hm]
  exact ⟨_, rfl, if_pos rfl, fun j hj => if_neg hj, rfl, rfl⟩

theorem narrow_means {redox : Bool} {now old t r : Timespec} (h : Means now old t r) : narrow redox t = t := by
  unfold narrow
  cases redox with
  | false => rfl
  | true =>
    rw [if_pos rfl]
    have : asI32 t.nsec = t.nsec := by
      unfold asI32
      cases h with
      | present s => dsimp only; decide
      | unchanged s => dsimp only; decide
      | given t h => omega
    rw [this]

theorem futimens_ok (redox : Bool) {fs : Fs} {i : Nat} {n : Node} (hn : fs.node i = some n) :
    (∃ fs', futimens redox fs i none = (.ok (), fs') ∧ Changed fs fs' i n fs.now fs.now)
    ∧ (∀ a m a' m', Means fs.now n.atime a a' → Means fs.now n.mtime m m' → ∃ fs', futimens redox fs i (some (a, m)) = (.ok (), fs') ∧ Changed fs fs' i n a' m') := by
  refine ⟨setTimes_ok hn (.present 0) (.present 0), fun a m a' m' ha hm => ?_⟩
  unfold futimens
  dsimp only
  rw [narrow_means ha, narrow_means hm]
  exact setTimes_ok hn ha hm

/-- **C146.** `futimens` sets both times of the open file and of no other: to the present time without an argument, and else each as asked for. -/
theorem C146_futimens (redox : Bool) (fs : Fs) (i : Nat) (n : Node) (hn : fs.node i = some n) :
    (∃ fs', futimens redox fs i none = (.ok (), fs') ∧ Changed fs fs' i n fs.now fs.now)
    ∧ (∀ a m a' m', Means fs.now n.atime a a' → Means fs.now n.mtime m m' → ∃ fs', futimens redox fs i (some (a, m)) = (.ok (), fs') ∧ Changed fs fs' i n a' m') :=
  futimens_ok redox hn

/-- A number of nanoseconds that is none. -/
def Bad (t : Timespec) : Prop := (t.nsec < 0 ∨ 10 ^ 9 ≤ t.nsec) ∧ t.nsec ≠ 2 ^ 30 - 1 ∧ t.nsec ≠ 2 ^ 30 - 2

theorem newTime_bad {now old t : Timespec} (h : Bad t) : newTime now old t = .error .EINVAL := by
  unfold newTime UTIME_NOW UTIME_OMIT
  rw [if_neg h.2.1, if_neg h.2.2, if_neg (by have := h.1; omega)]

/-- **C146**, part: a number of nanoseconds out of range is refused, and nothing changes; on Redox if it has 32 bits. -/
theorem C146_range_partial (redox : Bool) (fs : Fs) (i : Nat) (n : Node) (a m : Timespec) (hn : fs.node i = some n) (hb : Bad a ∨ Bad m) (ha : redox = true → -2 ^ 31 ≤ a.nsec ∧ a.nsec < 2 ^ 31) (hm : redox = true → -2 ^ 31 ≤ m.nsec ∧ m.nsec < 2 ^ 31) :
    futimens redox fs i (some (a, m)) = (.error .EINVAL, fs) := by
  have na : ∀ t : Timespec, (redox = true → -2 ^ 31 ≤ t.nsec ∧ t.nsec < 2 ^ 31) → narrow redox t = t := by
    intro t h
    unfold narrow
    cases redox with
    | false => rfl
    | true =>
      have := h rfl
      rw [if_pos rfl]
      have : asI32 t.nsec = t.nsec := by unfold asI32; omega
      rw [this]
  unfold futimens
  dsimp only
  rw [na a ha, na m hm]
  unfold setTimes
  rw [hn]
  dsimp only
  rcases hb with hb | hb
  · rw [newTime_bad hb]
  · rw [newTime_bad hb]
    cases newTime fs.now n.atime a <;> rfl

/-- **C146**, violated by the code: on Redox the **nanoseconds lose their upper half**: `2^32 + 5`, which is to be refused, sets 5. -/
theorem C146_narrow_violation (fs : Fs) (i : Nat) (n : Node) (s : Int) (hn : fs.node i = some n) : ∃ fs', futimens true fs i (some (⟨s, 2 ^ 32 + 5⟩, ⟨s, 2 ^ 32 + 5⟩)) = (.ok (), fs') ∧ Changed fs fs' i n ⟨s, 5⟩ ⟨s, 5⟩ := by
  have : futimens true fs i (some (⟨s, 2 ^ 32 + 5⟩, ⟨s, 2 ^ 32 + 5⟩)) = setTimes fs i ⟨s, 5⟩ ⟨s, 5⟩ := rfl
  rw [this]
  exact setTimes_ok hn (.given ⟨s, 5⟩ (by dsimp only; decide)) (.given ⟨s, 5⟩ (by dsimp only; decide))

/-- **C146.** `utimes` of a path, behind a symbolic link, sets the times in microseconds, or to the present; it does not need the file to be readable. -/
theorem C146_utimes (redox : Bool) (fs : Fs) (path : List UInt8) (i : Nat) (n : Node) (hp : path ≠ []) (hl : fs.lookup (-100) path = some i) (hn : fs.node (follow fs i) = some n) :
    (∃ fs', utimes redox fs path none = (.ok (), fs') ∧ Changed fs fs' (follow fs i) n fs.now fs.now)
    ∧ (∀ a m : Timeval, 0 ≤ a.usec ∧ a.usec < 10 ^ 6 → 0 ≤ m.usec ∧ m.usec < 10 ^ 6 → ∃ fs', utimes redox fs path (some (a, m)) = (.ok (), fs') ∧ Changed fs fs' (follow fs i) n ⟨a.sec, 1000 * a.usec⟩ ⟨m.sec, 1000 * m.usec⟩) := by
  have e : ∀ t, utimens redox fs path t = futimens redox fs (follow fs i) t := by
    intro t
    unfold utimens AT_FDCWD
    rw [if_neg hp, hl]
  refine ⟨?_, fun a m ha hm => ?_⟩
  · unfold utimes
    rw [e]
    exact (futimens_ok redox hn).1
  · unfold utimes
    rw [e]
    show ∃ fs', futimens redox fs (follow fs i) (some (⟨a.sec, a.usec * 1000⟩, ⟨m.sec, m.usec * 1000⟩)) = _ ∧ _
    rw [Int.mul_comm a.usec, Int.mul_comm m.usec]
    exact (futimens_ok redox hn).2 _ _ _ _ (.given ⟨a.sec, 1000 * a.usec⟩ (by dsimp only; omega)) (.given ⟨m.sec, 1000 * m.usec⟩ (by dsimp only; omega))

/-- **C146**, part: `utime` sets the times in seconds. Missing: without times it is to set the present, and reads a null pointer (below). -/
theorem C146_utime_partial (redox : Bool) (fs : Fs) (path : List UInt8) (i : Nat) (n : Node) (a m : Int) (hp : path ≠ []) (hl : fs.lookup (-100) path = some i) (hn : fs.node (follow fs i) = some n) :
    ∃ fs', utime redox fs path (some (a, m)) = some (.ok (), fs') ∧ Changed fs fs' (follow fs i) n ⟨a, 0⟩ ⟨m, 0⟩ := by
  obtain ⟨fs', h1, h2⟩ := (futimens_ok redox hn).2 _ _ _ _ (.given ⟨a, 0⟩ (by dsimp only; decide)) (.given ⟨m, 0⟩ (by dsimp only; decide))
  refine ⟨fs', ?_, h2⟩
  have : utimens redox fs path (some (⟨a, 0⟩, ⟨m, 0⟩)) = (.ok (), fs') := by
    unfold utimens AT_FDCWD
    rw [if_neg hp, hl]
    exact h1
  unfold utime
  rw [Option.map_some, this]

/-- **C146**, violated by the code: `utime` with a **null pointer** faults. -/
theorem C146_utime_null_violation (redox : Bool) (fs : Fs) (path : List UInt8) : utime redox fs path none = none := rfl

theorem no_nofollow (redox : Bool) (flag : UInt32) : (flag &&& AT_SYMLINK_NOFOLLOW redox) &&& O_NOFOLLOW redox = 0 := by
  have key : ∀ a b c : UInt32, b &&& c = 0 → (a &&& b) &&& c = 0 := by
    intro a b c h
    apply UInt32.toBitVec_inj.1
    have h' := congrArg UInt32.toBitVec h
    simp only [UInt32.toBitVec_and] at h' ⊢
    rw [BitVec.and_assoc, h']
    simp
  cases redox
  · exact key _ _ _ (by decide)
  · exact key _ _ _ (by decide)

theorem utimensat_eq (redox : Bool) (fs : Fs) (fd : Int) (path : List UInt8) (flag : UInt32) (i : Nat) (n : Node) (times : Option (Timespec × Timespec)) (hl : fs.lookup fd path = some i) (hn : fs.node (follow fs i) = some n)
    (hr : redox = true ∨ n.readable = true) : utimensat redox fs fd path times flag = futimens redox fs (follow fs i) times := by
  have : openat redox fs fd path (flag &&& AT_SYMLINK_NOFOLLOW redox) = .ok (follow fs i) := by
    unfold openat
    rw [hl]
    dsimp only
    rw [no_nofollow, if_neg (by simp), hn]
    dsimp only
    rw [if_neg]
    rcases hr with h | h <;> simp [h]
  unfold utimensat
  rw [this]

/-- **C146**, part: `utimensat` of a path sets both times as `futimens`. Missing: it is for a readable file on Linux only, and always follows a symbolic link (below). -/
theorem C146_utimensat_partial (redox : Bool) (fs : Fs) (fd : Int) (path : List UInt8) (i : Nat) (n : Node) (hl : fs.lookup fd path = some i) (hn : fs.node (follow fs i) = some n) (hr : redox = true ∨ n.readable = true) :
    (∃ fs', utimensat redox fs fd path none 0 = (.ok (), fs') ∧ Changed fs fs' (follow fs i) n fs.now fs.now)
    ∧ (∀ a m a' m', Means fs.now n.atime a a' → Means fs.now n.mtime m m' → ∃ fs', utimensat redox fs fd path (some (a, m)) 0 = (.ok (), fs') ∧ Changed fs fs' (follow fs i) n a' m') := by
  have e := fun t => utimensat_eq redox fs fd path 0 i n t hl hn hr
  simp only [e]
  exact futimens_ok redox hn

/-- **C146**, violated by the code: **`AT_SYMLINK_NOFOLLOW`** is passed on as a flag of `open`, where it means `O_NOCTTY`: the times of the file behind the link are changed, and not those of the link. -/
theorem C146_nofollow_violation (redox : Bool) (fs : Fs) (fd : Int) (path : List UInt8) (i j : Nat) (l n : Node) (hl : fs.lookup fd path = some i) (hi : fs.node i = some l) (hlink : l.link = some j) (hij : i ≠ j) (hj : fs.node j = some n) (hr : n.readable = true) :
    ∃ fs', utimensat redox fs fd path none (if redox then 0x200 else 0x100) = (.ok (), fs') ∧ Changed fs fs' j n fs.now fs.now ∧ fs'.node i = some l := by
  have hf : follow fs i = j := by
    unfold follow
    rw [hi]
    dsimp only
    rw [hlink]
    rfl
  rw [utimensat_eq redox fs fd path _ i n none hl (by rw [hf]; exact hj) (.inr hr), hf]
  obtain ⟨fs', h1, h2⟩ := (futimens_ok redox hj).1
  exact ⟨fs', h1, h2, by rw [h2.2.1 i hij, hi]⟩

/-- **C146**, violated by the code: on Linux `utimensat` of a file that **cannot be read** fails, whoever owns it. -/
theorem C146_unreadable_violation (fs : Fs) (fd : Int) (path : List UInt8) (i : Nat) (n : Node) (times : Option (Timespec × Timespec)) (hl : fs.lookup fd path = some i) (hn : fs.node i = some n) (hlink : n.link = none) (hr : n.readable = false) :
    utimensat false fs fd path times 0 = (.error .EACCES, fs) := by
  have hf : follow fs i = i := by
    unfold follow
    rw [hn]
    dsimp only
    rw [hlink]
    rfl
  have : openat false fs fd path (0 &&& AT_SYMLINK_NOFOLLOW false) = .error .EACCES := by
    unfold openat
    rw [hl]
    dsimp only
    rw [no_nofollow, if_neg (by simp), hf, hn]
    dsimp only
    rw [hr]
    rfl
  unfold utimensat
  rw [this]

theorem setTimes_failed (fs : Fs) (i : Nat) (a m : Timespec) (e : Err) (h : (setTimes fs i a m).1 = .error e) : (setTimes fs i a m).2 = fs := by
  unfold setTimes at h ⊢
  cases hn : fs.node i with
  | none => rfl
  | some n =>
    rw [hn] at h
    dsimp only at h ⊢
    cases h1 : newTime fs.now n.atime a with
    | error x => rfl
    | ok x =>
      cases h2 : newTime fs.now n.mtime m with
      | error y => rfl
      | ok y => rw [h1, h2] at h; cases h

/-- **C146.** A call that fails changes no file. -/
theorem C146_failed (redox : Bool) (fs : Fs) (fd : Int) (path : List UInt8) (i : Nat) (flag : UInt32) (times : Option (Timespec × Timespec)) (tv : Option (Timeval × Timeval)) (e : Err) :
    ((futimens redox fs i times).1 = .error e → (futimens redox fs i times).2 = fs) ∧ ((utimensat redox fs fd path times flag).1 = .error e → (utimensat redox fs fd path times flag).2 = fs)
    ∧ ((utimes redox fs path tv).1 = .error e → (utimes redox fs path tv).2 = fs) := by
  have f : ∀ i times, (futimens redox fs i times).1 = .error e → (futimens redox fs i times).2 = fs := by
    intro i times h
    cases times with
    | none => exact setTimes_failed _ _ _ _ _ h
    | some t => exact setTimes_failed _ _ _ _ _ h
  refine ⟨f i times, ?_, ?_⟩
  · unfold utimensat
    cases openat redox fs fd path (flag &&& AT_SYMLINK_NOFOLLOW redox) with
    | error x => exact fun _ => rfl
    | ok j => exact f j times
  · unfold utimes utimens
    split
    · exact fun _ => rfl
    · cases fs.lookup AT_FDCWD path with
      | none => exact fun _ => rfl
      | some j => exact f _ _

/-! ## C147 -/

/-- **C147.** `posix_fallocate` on Redox, with a kernel that can lock the file and set its length: afterwards the file reaches to the end of the range, is not shorter than before, and has its content, followed by zeros. -/
theorem C147_fallocate (k : Kernel) (file : List UInt8) (offset len : Int) (h0 : 0 ≤ offset ∧ offset < 2 ^ 63) (hl : 0 < len ∧ len < 2 ^ 63) (hk : k.lock = none ∧ k.stat = none ∧ ∀ n, k.truncate n = none) :
    ∃ file', posixFallocate k file offset len = (0, file') ∧ (file'.length : Int) = max (file.length : Int) (offset + len) ∧ (∀ i, i < file.length → file'[i]? = file[i]?) ∧ (∀ i, file.length ≤ i → i < file'.length → file'[i]? = some 0) := by
  unfold posixFallocate
  rw [if_neg (by omega), if_neg (by omega)]
  unfold sysFallocate
  rw [hk.1]
  dsimp only
  rw [if_pos (by omega), hk.2.1]
  dsimp only
  by_cases h : file.length ≤ offset.toNat + len.toNat
  · rw [if_pos h, hk.2.2]
    refine ⟨_, rfl, ?_, ?_, ?_⟩
    · unfold truncated
      rw [List.length_append, List.length_replicate, List.length_take]
      omega
    · intro i hi
      unfold truncated
      rw [List.take_of_length_le h, List.getElem?_append_left hi]
    · intro i hi hi'
      unfold truncated at hi' ⊢
      rw [List.take_of_length_le h] at hi' ⊢
      rw [List.length_append, List.length_replicate] at hi'
      rw [List.getElem?_append_right hi, List.getElem?_replicate, if_pos (by omega)]
  · rw [if_neg h]
    exact ⟨file, rfl, by omega, fun _ _ => rfl, fun i h1 h2 => by omega⟩

/-- **C147.** Ranges that are none are refused with `EINVAL`, and a call that fails leaves the file as it is. -/
theorem C147_failed (k : Kernel) (file : List UInt8) (offset len : Int) :
    (offset < 0 ∨ len ≤ 0 → posixFallocate k file offset len = (22, file)) ∧ ((posixFallocate k file offset len).1 ≠ 0 → (posixFallocate k file offset len).2 = file) := by
  constructor
  · intro h
    unfold posixFallocate
    by_cases h0 : offset < 0
    · rw [if_pos h0]
    · rw [if_neg h0, if_pos (by omega)]
  · unfold posixFallocate
    split
    · exact fun _ => rfl
    · split
      · exact fun _ => rfl
      · unfold sysFallocate
        cases k.lock with
        | some e => exact fun _ => rfl
        | none =>
          dsimp only
          split
          · cases k.stat with
            | some e => exact fun _ => rfl
            | none =>
              dsimp only
              split
              · cases k.truncate (offset.toNat + len.toNat) with
                | some e => exact fun _ => rfl
                | none => exact fun h => absurd rfl h
              · exact fun _ => rfl
          · exact fun _ => rfl

/-- **C147**, violated by the code: an end **above the largest `off_t`** is not refused with `EFBIG` but passed on to the kernel. -/
theorem C147_large_violation (k : Kernel) (e : Int) (file : List UInt8) (hf : file.length < 2 ^ 63) (hk : k.lock = none ∧ k.stat = none) (ht : k.truncate (2 ^ 63 + 4) = some e) : posixFallocate k file (2 ^ 63 - 1) 5 = (e, file) := by
  have h : sysFallocate k file (2 ^ 63 - 1) 5 = (e, file) := by
    unfold sysFallocate
    rw [hk.1]
    dsimp only
    rw [if_pos (by decide), hk.2]
    dsimp only
    rw [if_pos (by omega), show 2 ^ 63 - 1 + 5 = 2 ^ 63 + 4 by decide, ht]
  exact h

/-! ## C148 -/

/-- **C148**, part: `gethostname` on Redox, with a name of less than 65 bytes and a buffer in which it has room with its end: the buffer holds the bytes of `/etc/hostname` and a zero, and is otherwise unchanged. Missing: a line feed at the end of the file is taken as part of the name (below). -/
theorem C148_gethostname_partial (host uninit buf : List UInt8) (h0 : 0 ∉ host) (hl : host.length ≤ 64) (hb : host.length < buf.length) :
    gethostname (some host) uninit buf = (0, host ++ 0 :: buf.drop (host.length + 1)) := by
  have key : ∀ (h rest buf : List UInt8), 0 ∉ h → h.length < buf.length → copyName (h ++ 0 :: rest) buf = h ++ 0 :: buf.drop (h.length + 1) := by
    intro h
    induction h with
    | nil =>
      intro rest buf _ hb
      cases buf with
      | nil => simp at hb
      | cons b buf =>
        show copyName (0 :: rest) (b :: buf) = _
        rw [copyName, if_pos rfl]
        rfl
    | cons c h ih =>
      intro rest buf h0 hb
      simp only [List.mem_cons, not_or] at h0
      cases buf with
      | nil => simp at hb
      | cons b buf =>
        simp only [List.length_cons, Nat.add_lt_add_iff_right] at hb
        show copyName (c :: (h ++ 0 :: rest)) (b :: buf) = _
        rw [copyName, if_neg (Ne.symm h0.1), ih rest buf h0.2 hb]
        rfl
  unfold gethostname nodename
  rw [Option.map_some]
  dsimp only
  rw [List.take_of_length_le hl, key host _ buf h0 hb]

/-- **C148.** Whatever the file, the buffer keeps its length: nothing is written behind it; and if the file cannot be read, the call fails and writes nothing. -/
theorem C148_bounds (file : Option (List UInt8)) (uninit buf : List UInt8) : (gethostname file uninit buf).2.length = buf.length ∧ (file = none → gethostname file uninit buf = (-1, buf)) := by
  have key : ∀ n buf : List UInt8, (copyName n buf).length = buf.length := by
    intro n
    induction n with
    | nil => intro buf; rfl
    | cons c n ih =>
      intro buf
      cases buf with
      | nil => rfl
      | cons b buf =>
        rw [copyName]
        split
        · rfl
        · rw [List.length_cons, List.length_cons, ih]
  constructor
  · unfold gethostname
    cases nodename file uninit with
    | none => rfl
    | some n => exact key n buf
  · rintro rfl
    rfl

/-- **C148**, violated by the code: the **line feed** of the line in `/etc/hostname` is part of the name. -/
theorem C148_newline_violation (host uninit buf : List UInt8) (h0 : 0 ∉ host) (hl : host.length < 64) (hb : host.length + 1 < buf.length) : gethostname (some (host ++ [0x0A])) uninit buf = (0, host ++ 0x0A :: 0 :: buf.drop (host.length + 2)) := by
  have := C148_gethostname_partial (host ++ [0x0A]) uninit buf (by simp [h0]) (by simp; omega) (by simp; omega)
  rw [this]
  simp

/-! ## Examples -/

/-- Two files and a link to the first. -/
def sample : Fs := { node := fun i => if i = 0 then some ⟨⟨1, 0⟩, ⟨2, 0⟩, none, true⟩ else if i = 1 then some ⟨⟨3, 0⟩, ⟨4, 0⟩, some 0, true⟩ else none, lookup := fun _ p => if p = [0x61] then some 0 else if p = [0x62] then some 1 else none, now := ⟨100, 7⟩ }

example : ((utimes true sample [0x62] (some (⟨5, 6⟩, ⟨7, 8⟩))).2.node 0).map (fun n => (n.atime, n.mtime)) = some (⟨5, 6000⟩, ⟨7, 8000⟩)
    ∧ ((utimensat false sample 3 [0x61] (some (⟨0, UTIME_NOW⟩, ⟨0, UTIME_OMIT⟩)) 0).2.node 0).map (fun n => (n.atime, n.mtime)) = some (⟨100, 7⟩, ⟨2, 0⟩)
    ∧ ((utimensat false sample 3 [0x62] none 0x100).2.node 1).map (fun n => n.atime) = some ⟨3, 0⟩ := by decide +kernel

example : posixFallocate ⟨none, none, fun _ => none⟩ [1, 2, 3] 2 4 = (0, [1, 2, 3, 0, 0, 0]) ∧ posixFallocate ⟨none, none, fun _ => none⟩ [1, 2, 3] 0 2 = (0, [1, 2, 3]) := by decide +kernel

example : gethostname (some [0x72, 0x78]) [] [9, 9, 9, 9] = (0, [0x72, 0x78, 0, 9]) ∧ gethostname (some [0x72, 0x78]) [] [9] = (0, [0x72]) := by decide +kernel

end Verif.FileOps
