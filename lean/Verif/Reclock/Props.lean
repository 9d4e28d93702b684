import Verif.Reclock.Model
import Verif.Time.TimespecProps

/-!
# C120: record locks

Which bytes of a file a request locks, and what is reported about a lock that is in the way.
-/

namespace Verif.Reclock

/-! ## Specification -/

/-- The bytes of a file that `l_start` and `l_len` describe if `l_whence` says to count from `base` (POSIX, `fcntl`): from the start on, or `l_len` bytes from there, or the
`-l_len` bytes before it. -/
def Section (base start len x : Int) : Prop :=
  if len = 0 then base + start ≤ x else if 0 < len then base + start ≤ x ∧ x < base + start + len else base + start + len ≤ x ∧ x < base + start

/-- The bytes that the two words of a request mean to the file system; a length of 0 is the rest of the file. -/
def Meant (w1 w2 : UInt64) (x : Int) : Prop :=
  (w1.toNat % 2 ^ 63 : Nat) ≤ x ∧ (w2.toNat % 2 ^ 63 = 0 ∨ x < (w1.toNat % 2 ^ 63 : Nat) + (w2.toNat % 2 ^ 63 : Nat))

/-- The flag in a word: the lock belongs to the open file description (first word), the lock is exclusive (second word). -/
def Flag (w : UInt64) : Prop := 2 ^ 63 ≤ w.toNat

/-- A section that begins in the file and whose numbers do not overflow. -/
def Inside (start len : Int64) : Prop := 0 ≤ start.toInt ∧ 0 ≤ start.toInt + len.toInt

/-! ## Lemmas -/

theorem or_bit (x : Nat) (h : x < 2 ^ 63) : x ||| 2 ^ 63 = x + 2 ^ 63 := by
  have := Nat.two_pow_add_eq_or_of_lt h 1
  rw [Nat.mul_one] at this
  rw [Nat.or_comm, ← this, Nat.add_comm]

theorem flagged (a : Int64) (f : Bool) (h : 0 ≤ a.toInt) :
    (a.toUInt64 ||| (if f then bit63 else 0)).toNat = a.toInt.toNat + (if f then 2 ^ 63 else 0) := by
  have ha : a.toUInt64.toNat = a.toInt.toNat := by
    have h1 := a.toInt_lt
    have : a.toInt = a.toUInt64.toBitVec.toInt := rfl
    rw [BitVec.toInt_eq_toNat_cond] at this
    have hl := a.toUInt64.toBitVec.isLt
    show a.toUInt64.toBitVec.toNat = _
    split at this <;> omega
  have hl : a.toInt.toNat < 2 ^ 63 := by have := a.toInt_lt; omega
  rw [UInt64.toNat_or, ha]
  cases f with
  | true => exact or_bit _ hl
  | false => simp

theorem meant {a b : Int64} (f g : Bool) (ha : 0 ≤ a.toInt) (hb : 0 ≤ b.toInt) (x : Int) :
    Meant (a.toUInt64 ||| (if f then bit63 else 0)) (b.toUInt64 ||| (if g then bit63 else 0)) x
      ↔ a.toInt ≤ x ∧ (b.toInt = 0 ∨ x < a.toInt + b.toInt) := by
  have h1 := a.toInt_lt
  have h2 := b.toInt_lt
  unfold Meant
  rw [flagged a f ha, flagged b g hb]
  have e : ∀ (c : Int) (f : Bool), 0 ≤ c → c < 2 ^ 63 → (c.toNat + (if f then 2 ^ 63 else 0)) % 2 ^ 63 = c.toNat := by
    intro c f h h'
    cases f <;> simp only [if_true, if_false, Bool.false_eq_true] <;> omega
  rw [e _ f ha h1, e _ g hb h2]
  have e1 : ((a.toInt.toNat : Nat) : Int) = a.toInt := by omega
  have e2 : ((b.toInt.toNat : Nat) : Int) = b.toInt := by omega
  rw [e1, e2]
  constructor
  · rintro ⟨h, h' | h'⟩
    · exact ⟨h, .inl (by omega)⟩
    · exact ⟨h, .inr h'⟩
  · rintro ⟨h, h' | h'⟩
    · exact ⟨h, .inl (by omega)⟩
    · exact ⟨h, .inr h'⟩

theorem flag_iff (a : Int64) (f : Bool) (ha : 0 ≤ a.toInt) : Flag (a.toUInt64 ||| (if f then bit63 else 0)) ↔ f = true := by
  unfold Flag
  rw [flagged a f ha]
  have := a.toInt_lt
  cases f
  · exact ⟨fun h => by simp only [Bool.false_eq_true, if_false] at h; omega, fun h => by cases h⟩
  · exact ⟨fun _ => rfl, fun _ => by simp only [if_true]; omega⟩

theorem neg_toInt {a : Int64} (h : -2 ^ 63 < a.toInt) : (-a).toInt = -a.toInt := by
  rw [Int64.toInt_neg, Int.bmod_eq_of_le] <;> have := a.toInt_lt <;> omega

theorem absolute_inside {start len : Int64} (h : Inside start len) :
    ∃ a b : Int64, toAbsolute 0 start len = some (.ok (a, b)) ∧ 0 ≤ a.toInt ∧ 0 ≤ b.toInt
      ∧ ∀ x, (a.toInt ≤ x ∧ (b.toInt = 0 ∨ x < a.toInt + b.toInt)) ↔ Section 0 start.toInt len.toInt x := by
  obtain ⟨h1, h2⟩ := h
  have hs := start.toInt_lt
  have hl := len.toInt_lt
  by_cases hn : len.toInt < 0
  · have hadd : (start + len).toInt = start.toInt + len.toInt := Time.add_toInt (by omega) (by omega)
    have hneg : (-len).toInt = -len.toInt := neg_toInt (by omega)
    refine ⟨start + len, -len, ?_, by omega, by omega, fun x => ?_⟩
    · simp only [toAbsolute, if_true, (Time.lt_zero len).2 hn]
      rw [if_neg (fun e => by have := (Time.lt_zero _).1 e; omega), if_neg (fun e => by have := (Time.lt_zero _).1 e; omega)]
    · rw [hadd, hneg]
      unfold Section
      rw [if_neg (by omega), if_neg (by omega)]
      omega
  · refine ⟨start, len, ?_, h1, by omega, fun x => ?_⟩
    · have : ¬ len < 0 := fun e => hn ((Time.lt_zero _).1 e)
      simp only [toAbsolute, if_true, this, if_false]
      rw [if_neg (fun e => by have := (Time.lt_zero _).1 e; omega)]
    · unfold Section
      by_cases h0 : len.toInt = 0
      · rw [if_pos h0]; omega
      · rw [if_neg h0, if_pos (by omega)]; omega

theorem absolute_outside {start len : Int64} (h1 : start.toInt < 0 ∨ start.toInt + len.toInt < 0) (h2 : len.toInt ≥ 0 → start.toInt < 0)
    (h3 : -2 ^ 63 ≤ start.toInt + len.toInt) (h4 : len.toInt < 0 → start.toInt + len.toInt < 0) : toAbsolute 0 start len = some (.error .EINVAL) := by
  have hs := start.toInt_lt
  have hl := len.toInt_lt
  simp only [toAbsolute, if_true]
  by_cases hn : len < 0
  · have hn' := (Time.lt_zero _).1 hn
    have hadd : (start + len).toInt = start.toInt + len.toInt := Time.add_toInt (by omega) (by omega)
    rw [if_pos hn, if_pos]
    exact (Time.lt_zero _).2 (by have := h4 hn'; show (start + len).toInt < 0; omega)
  · have hn' : 0 ≤ len.toInt := by
      rcases Int.lt_or_le len.toInt 0 with h | h
      · exact absurd ((Time.lt_zero _).2 h) hn
      · exact h
    rw [if_neg hn, if_pos]
    exact (Time.lt_zero _).2 (h2 hn')

/-! ## C120 -/

/-- C120, part: **`F_SETLK` and `F_OFD_SETLK` counted from the beginning of the file**. For a section inside the file, of any length, also negative, and a lock type
of the three, the file system is asked once, to lock or to unlock exactly the bytes of that section, shared or exclusive and for the process or the open
file description as asked, and the result is its answer. Other lock types are `EINVAL`. A section that begins before the file is
`EINVAL`. In the last two cases the file system is not asked. Missing: the other values of `l_whence`, blocking requests, and sections whose numbers overflow. -/
theorem C120_setlk_partial {σ : Type} (k : Fs σ) (s : σ) (fd : Nat) (ofd : Bool) (fl : Flock) (hw : fl.whence = 0) :
    let cmd := if ofd then F_OFD_SETLK else F_SETLK
    (Inside fl.start fl.len → ∃ w1 w2, (Flag w1 ↔ ofd = true) ∧ (∀ x, Meant w1 w2 x ↔ Section 0 fl.start.toInt fl.len.toInt x)
      ∧ (fl.type = F_UNLCK → ¬ Flag w2 ∧ fcntl k s fd cmd fl = match k.unlock s fd w1 w2 with
          | .error e => some (.error e, fl, s)
          | .ok t => some (.ok 0, fl, t))
      ∧ (fl.type = F_RDLCK ∨ fl.type = F_WRLCK → (Flag w2 ↔ fl.type = F_WRLCK) ∧ fcntl k s fd cmd fl = match k.lock s fd w1 w2 with
          | .error e => some (.error e, fl, s)
          | .ok t => some (.ok 0, fl, t))
      ∧ (fl.type ≠ F_UNLCK → fl.type ≠ F_RDLCK → fl.type ≠ F_WRLCK → fcntl k s fd cmd fl = some (.error .EINVAL, fl, s)))
    ∧ (fl.start.toInt < 0 → fl.len.toInt ≥ 0 → fcntl k s fd cmd fl = some (.error .EINVAL, fl, s))
    ∧ (fl.len.toInt < 0 → fl.start.toInt + fl.len.toInt < 0 → -2 ^ 63 ≤ fl.start.toInt + fl.len.toInt →
      fcntl k s fd cmd fl = some (.error .EINVAL, fl, s)) := by
  obtain ⟨type, whence, start, len, pid⟩ := fl
  dsimp only at hw
  subst hw
  have hf : ∀ fl : Flock, fcntl k s fd (if ofd then F_OFD_SETLK else F_SETLK) fl = match setlk k s fd ofd fl with
      | none => none
      | some (r, s) => some (r, fl, s) := by
    intro fl
    cases ofd <;> simp [fcntl, F_SETLK, F_OFD_SETLK] <;> rfl
  refine ⟨fun h => ?_, fun h1 h2 => ?_, fun h1 h2 h3 => ?_⟩
  · obtain ⟨a, b, hab, ha, hb, hsec⟩ := absolute_inside h
    dsimp only at hab hsec
    refine ⟨a.toUInt64 ||| (if ofd then bit63 else 0), b.toUInt64 ||| (if decide (type = F_WRLCK) then bit63 else 0), flag_iff a ofd ha,
      fun x => (meant ofd _ ha hb x).trans (hsec x), fun ht => ?_, fun ht => ?_, fun h1 h2 h3 => ?_⟩
    · dsimp only at ht
      subst ht
      refine ⟨fun hf => ?_, ?_⟩
      · have := (flag_iff b _ hb).1 hf
        simp [F_WRLCK, F_UNLCK] at this
      · rw [hf]
        simp only [setlk, hab, if_true]
        have e : b.toUInt64 ||| (if decide (F_UNLCK = F_WRLCK) = true then bit63 else 0) = b.toUInt64 := by simp [F_WRLCK, F_UNLCK]
        rw [e]
        cases k.unlock s fd (a.toUInt64 ||| (if ofd = true then bit63 else 0)) b.toUInt64 <;> rfl
    · refine ⟨by rw [flag_iff b _ hb]; simp, ?_⟩
      rw [hf]
      dsimp only at ht
      have hu : type ≠ F_UNLCK := by rintro rfl; simp [F_RDLCK, F_WRLCK, F_UNLCK] at ht
      simp only [setlk, hab, if_neg hu, if_pos ht, decide_eq_true_eq]
      cases k.lock s fd (a.toUInt64 ||| (if ofd = true then bit63 else 0)) (b.toUInt64 ||| (if type = F_WRLCK then bit63 else 0)) <;> rfl
    · rw [hf]
      dsimp only at h1 h2 h3
      simp [setlk, hab, h1, h2, h3]
  · rw [hf]
    dsimp only at h1 h2
    have := absolute_outside (start := start) (len := len) (.inl h1) (fun _ => h1) (by have := start.le_toInt; omega) (fun h => by omega)
    simp [setlk, this]
  · rw [hf]
    dsimp only at h1 h2 h3
    have := absolute_outside (start := start) (len := len) (.inr h2) (fun h => by omega) h3 (fun _ => h2)
    simp [setlk, this]

/-- A file system that writes down what it is asked. -/
def rec : Fs (List (Nat × UInt64 × UInt64)) where
  lock s _ a b := .ok (s ++ [(0, a, b)])
  unlock s _ a b := .ok (s ++ [(1, a, b)])
  getLock _ _ _ _ := .ok (77, 40, 0x8000000000000005)
  otherCmd s _ _ := (.error .EINVAL, s)

example : ((fcntl rec [] 3 F_SETLK ⟨F_WRLCK, 0, 100, -20, 0⟩).map (·.2.2) = some [(0, 80, 0x8000000000000014)])
    ∧ ((fcntl rec [] 3 F_OFD_SETLK ⟨F_UNLCK, 0, 5, 0, 0⟩).map (·.2.2) = some [(1, 0x8000000000000005, 0)])
    ∧ ((fcntl rec [] 3 F_SETLK ⟨F_WRLCK, 0, 10, -20, 0⟩).map (·.2.2) = some []) := by decide +kernel

/-- C120, violated by the code: **`lockf` locks the whole file**. `lockf(fd, F_TLOCK, 10)` is a request relative to the position in the file; it locks everything from the first byte
on, wherever the position `pos` is, so also bytes outside the ten. -/
theorem C120_lockf_violation (pos : Int) (h : 0 ≤ pos) : ∃ w1 w2,
    (lockf rec [] 9 3 2 10).map (·.2) = some [(0, w1, w2)] ∧ (∀ x, 0 ≤ x → Meant w1 w2 x) ∧ ¬ Section pos 0 10 (pos + 10) := by
  refine ⟨0, bit63, by decide +kernel, fun x hx => ⟨by simpa using hx, .inl (by decide)⟩, ?_⟩
  unfold Section
  rw [if_neg (by decide), if_pos (by decide)]
  omega

/-- C120, violated by the code: **`lockf` with `F_LOCK` takes no lock**. The command `F_SETLKW` is passed on to the descriptor layer, which does not know it; no
lock is requested. -/
theorem C120_lockf_block_violation {σ : Type} (k : Fs σ) (s : σ) (self : Int32) (fd : Nat) (size : Int64) :
    lockf k s self fd 1 size = some ((k.otherCmd s fd F_SETLKW).1, (k.otherCmd s fd F_SETLKW).2) := by
  simp [lockf, fcntl, F_SETLK, F_SETLKW, F_OFD_SETLK, F_GETLK, F_OFD_GETLK]

example : (lockf rec [] 9 3 1 10).map (·.2) = some [] := by decide +kernel

/-- C120, violated by the code: **`F_GETLK` reports a lock at a wrong place**. The file system says that bytes 40 to 44 are locked, the answer to a request about
the bytes from 7 on is that five bytes from 7 on are locked; and for a lock of an open file description the start is negative. -/
theorem C120_getlk_violation :
    ((fcntl rec [] 3 F_GETLK ⟨F_WRLCK, 0, 7, 0, 0⟩).map fun r => r.2.1) = some ⟨F_WRLCK, 0, 7, 5, 77⟩
    ∧ ((fcntl rec [] 3 F_OFD_GETLK ⟨F_WRLCK, 0, 7, 0, 0⟩).map fun r => r.2.1) = some ⟨F_WRLCK, 0, -9223372036854775801, 5, -1⟩ := by
  decide +kernel

/-- C120, part: **`F_GETLK`** counted from the beginning of the file. For a section inside the file, the file system is asked about exactly the bytes of the section and the kind of lock. If there is no lock in the
way, only `l_type` changes, to `F_UNLCK`. Another error is the result, and the structure does not change. If there is one, its kind, its
length and its owner are reported. Missing: where it begins. -/
theorem C120_getlk_partial {σ : Type} (k : Fs σ) (s : σ) (fd : Nat) (fl : Flock) (hw : fl.whence = 0) (h : Inside fl.start fl.len) :
    ∃ w1 w2, ¬ Flag w1 ∧ (Flag w2 ↔ fl.type = F_WRLCK) ∧ (∀ x, Meant w1 w2 x ↔ Section 0 fl.start.toInt fl.len.toInt x)
      ∧ (k.getLock s fd w1 w2 = .error .ESRCH → fcntl k s fd F_GETLK fl = some (.ok 0, { fl with type := F_UNLCK }, s))
      ∧ (∀ e, e ≠ .ESRCH → k.getLock s fd w1 w2 = .error e → fcntl k s fd F_GETLK fl = some (.error e, fl, s))
      ∧ (∀ pid p0 p1, k.getLock s fd w1 w2 = .ok (pid, p0, p1) → ∃ g : Flock, fcntl k s fd F_GETLK fl = some (.ok 0, g, s)
          ∧ (g.type = F_WRLCK ↔ Flag p1) ∧ (g.type = F_RDLCK ↔ ¬ Flag p1) ∧ g.whence = 0 ∧ g.len.toInt = (p1.toNat % 2 ^ 63 : Nat)
          ∧ g.pid = pid.toUInt32.toInt32) := by
  obtain ⟨type, whence, start, len, pid⟩ := fl
  dsimp only at hw h
  subst hw
  obtain ⟨a, b, hab, ha, hb, hsec⟩ := absolute_inside h
  have hf : ∀ fl : Flock, fcntl k s fd F_GETLK fl = match getlk k s fd false fl with
      | none => none
      | some (r, fl) => some (r, fl, s) := by
    intro fl
    simp [fcntl, F_SETLK, F_OFD_SETLK, F_GETLK, F_OFD_GETLK]
    rfl
  have hg : ∀ r, k.getLock s fd (a.toUInt64 ||| (if false then bit63 else 0)) (b.toUInt64 ||| (if decide (type = F_WRLCK) then bit63 else 0)) = r →
      getlk k s fd false ⟨type, 0, start, len, pid⟩ = match r with
        | .error .ESRCH => some (.ok 0, ⟨F_UNLCK, 0, start, len, pid⟩)
        | .error e => some (.error e, ⟨type, 0, start, len, pid⟩)
        | .ok (val, _, p1) => some (.ok 0,
          { pid := val.toUInt32.toInt32
            type := if p1 &&& bit63 = bit63 then F_WRLCK else F_RDLCK
            whence := 0
            start := (a.toUInt64 ||| (if false then bit63 else 0)).toInt64
            len := (p1 &&& ~~~bit63).toInt64 }) := by
    rintro r rfl
    simp only [getlk, hab, Bool.false_eq_true, false_and, if_false, decide_eq_true_eq]
    rfl
  refine ⟨a.toUInt64 ||| (if false then bit63 else 0), b.toUInt64 ||| (if decide (type = F_WRLCK) then bit63 else 0),
    (fun hx => by have := (flag_iff a false ha).1 hx; cases this), by rw [flag_iff b _ hb]; simp,
    fun x => (meant false _ ha hb x).trans (hsec x), fun hk => ?_, fun e he hk => ?_, fun val p0 p1 hk => ?_⟩
  · rw [hf, hg _ hk]
  · rw [hf, hg _ hk]
    cases e with
    | ESRCH => exact absurd rfl he
    | _ => rfl
  · rw [hf, hg _ hk]
    have hbit : (p1 &&& bit63 = bit63) ↔ Flag p1 := by
      have hp := p1.toNat_lt
      have hb : p1.toBitVec.getLsbD 63 = true ↔ Flag p1 := by
        rw [BitVec.getLsbD, Nat.testBit_eq_decide_div_mod_eq, decide_eq_true_eq]
        show p1.toNat / 2 ^ 63 % 2 = 1 ↔ 2 ^ 63 ≤ p1.toNat
        omega
      rw [← hb, ← UInt64.toBitVec_inj, UInt64.toBitVec_and, show bit63.toBitVec = BitVec.twoPow 64 63 by decide, BitVec.and_twoPow]
      cases h : p1.toBitVec.getLsbD 63 with
      | true => simp
      | false => simp only [Bool.false_eq_true, if_false, iff_false]; decide
    refine ⟨_, rfl, ?_, ?_, rfl, ?_, rfl⟩
    · dsimp only
      rw [← hbit]
      split <;> simp_all [F_WRLCK, F_RDLCK]
    · dsimp only
      rw [← hbit]
      split <;> simp_all [F_WRLCK, F_RDLCK]
    · dsimp only
      have e : (p1 &&& ~~~bit63).toNat = p1.toNat % 2 ^ 63 := by
        rw [UInt64.toNat_and]
        show p1.toNat &&& (2 ^ 63 - 1) = _
        exact Nat.and_two_pow_sub_one_eq_mod _ _
      have h1 : ((p1 &&& ~~~bit63).toInt64).toInt = ((p1 &&& ~~~bit63).toBitVec).toInt := rfl
      rw [h1, BitVec.toInt_eq_toNat_cond]
      have h2 : (p1 &&& ~~~bit63).toBitVec.toNat = (p1 &&& ~~~bit63).toNat := rfl
      rw [h2, e]
      have := Nat.mod_lt p1.toNat (show 2 ^ 63 > 0 by decide)
      split <;> omega

example : ((fcntl rec [] 3 F_GETLK ⟨F_RDLCK, 0, 40, 9, 0⟩).map fun r => (r.2.1.type, r.2.1.len, r.2.1.pid)) = some (F_WRLCK, 5, 77) := by decide +kernel

/-- C120, violated by the code: **extreme numbers**. A section that begins far before the file because its numbers overflow is not `EINVAL`: with the smallest length the
program is terminated by an assertion, with the second smallest something else is locked. -/
theorem C120_overflow_violation :
    fcntl rec [] 3 F_SETLK ⟨F_WRLCK, 0, -1, Int64.minValue, 0⟩ = none
    ∧ (fcntl rec [] 3 F_SETLK ⟨F_WRLCK, 0, -2, Int64.minValue + 1, 0⟩).map (·.2.2) = some [(0, 0x7FFFFFFFFFFFFFFF, 0xFFFFFFFFFFFFFFFF)] := by
  decide +kernel

/-- C120, part: **`lockf`** with another function than the four is `EINVAL`, and no lock is requested. -/
theorem C120_lockf_partial {σ : Type} (k : Fs σ) (s : σ) (self : Int32) (fd : Nat) (f : Int) (size : Int64) (h : f < 0 ∨ 3 < f) :
    lockf k s self fd f size = some (.error .EINVAL, s) := by
  unfold lockf
  rw [if_neg (by omega), if_neg (by omega), if_neg (by omega), if_neg (by omega)]

/-- C120, part: **`lockf` to test and to unlock**. `F_TEST` (3) changes no lock: it succeeds if nothing is locked or the lock is the caller's own, fails with `EACCES` if it is that of somebody else, and passes on other
errors. `F_ULOCK` (0) only unlocks, `F_TLOCK` (2) only locks. The request is about the whole file (`C120_lockf_violation`). -/
theorem C120_lockf_requests_partial {σ : Type} (k : Fs σ) (s : σ) (self : Int32) (fd : Nat) (size : Int64) :
    (k.getLock s fd 0 0 = .error .ESRCH → lockf k s self fd 3 size = some (.ok 0, s))
    ∧ (∀ e, e ≠ .ESRCH → k.getLock s fd 0 0 = .error e → lockf k s self fd 3 size = some (.error e, s))
    ∧ (∀ pid p0 p1, k.getLock s fd 0 0 = .ok (pid, p0, p1) → lockf k s self fd 3 size = some (if pid.toUInt32.toInt32 = self then .ok 0 else .error .EACCES, s))
    ∧ lockf k s self fd 0 size = (match k.unlock s fd 0 0 with
        | .error e => some (.error e, s)
        | .ok t => some (.ok 0, t))
    ∧ lockf k s self fd 2 size = (match k.lock s fd 0 0x8000000000000000 with
        | .error e => some (.error e, s)
        | .ok t => some (.ok 0, t)) := by
  have z : (0 : Int64).toUInt64 = 0 := rfl
  refine ⟨fun h => ?_, fun e he h => ?_, fun pid p0 p1 h => ?_, ?_, ?_⟩
  · simp [lockf, fcntl, getlk, toAbsolute, F_GETLK, F_SETLK, F_OFD_SETLK, F_OFD_GETLK, F_RDLCK, F_WRLCK, F_UNLCK, z, h]
  · simp [lockf, fcntl, getlk, toAbsolute, F_GETLK, F_SETLK, F_OFD_SETLK, F_OFD_GETLK, F_RDLCK, F_WRLCK, F_UNLCK, z, h]
  · simp only [lockf, fcntl, getlk, toAbsolute, F_GETLK, F_SETLK, F_OFD_SETLK, F_OFD_GETLK, F_RDLCK, F_WRLCK, F_UNLCK, z]
    have h' : k.getLock s fd (Int64.toUInt64 0) (Int64.toUInt64 0) = .ok (pid, p0, p1) := h
    simp [h']
    by_cases hb : p1 &&& bit63 = bit63 <;> by_cases hp : pid.toUInt32.toInt32 = self <;> simp [hb, hp]
  · simp [lockf, fcntl, setlk, toAbsolute, F_GETLK, F_SETLK, F_OFD_SETLK, F_OFD_GETLK, F_RDLCK, F_WRLCK, F_UNLCK, z]
    cases k.unlock s fd 0 0 <;> simp
  · simp [lockf, fcntl, setlk, toAbsolute, F_GETLK, F_SETLK, F_OFD_SETLK, F_OFD_GETLK, F_RDLCK, F_WRLCK, F_UNLCK, z, bit63]
    cases k.lock s fd 0 0x8000000000000000 <;> simp

example : (lockf rec [] 77 3 3 10).map (·.1.toOption) = some (some 0) ∧ (lockf rec [] 9 3 3 10).map (·.1.toOption) = some none := by decide +kernel

end Verif.Reclock
