import Verif.Ids.Model
import Verif.Time.StrftimeProps
import Verif.Time.CalendarProps

/-!
# C118, C119: user and group ids, nice values

What the functions ask of the process manager, that the process reports the ids it has, and where the functions built on `setresuid` differ from POSIX.
-/

namespace Verif.Ids

/-! ## Specification of ids -/

/-- The id that an argument of `setresuid` asks for: −1 leaves it as it is. -/
def wanted (old : UInt32) (arg : Int32) : UInt32 := if arg = -1 then old else arg.toUInt32

/-- An argument that is an id, or −1. -/
def Valid (arg : Int32) : Prop := arg = -1 ∨ 0 ≤ arg

/-- The process reports the ids it has. -/
def Honest (s : St) : Prop := s.copy = s.own

/-- The rule of Unix: a process whose effective user id is 0 may ask for everything, another one only for ids that are one of its three. -/
def unix (old new : Ids) : Option Errno :=
  if old.euid = 0 then none
  else if [new.ruid, new.euid, new.suid].all (fun u => u = 0xFFFFFFFF || u = old.ruid || u = old.euid || u = old.suid)
      && [new.rgid, new.egid, new.sgid].all (fun g => g = 0xFFFFFFFF || g = old.rgid || g = old.egid || g = old.sgid)
    then none else some (.other 1)

/-! ## Lemmas -/

theorem cvt_valid {a : Int32} (h : Valid a) : cvtUid a = .ok (if a = -1 then none else some a.toUInt32) := by
  unfold cvtUid
  by_cases h1 : a = -1
  · simp [h1]
  · have : ¬ a < 0 := by
      rcases h with h | h
      · exact absurd h h1
      · exact Int32.not_lt.2 h
    simp [h1, this]

theorem cvt_invalid {a : Int32} (h : ¬ Valid a) : cvtUid a = .error .EINVAL := by
  unfold cvtUid Valid at *
  have h1 : a ≠ -1 := fun e => h (.inl e)
  have h2 : a < 0 := Int32.not_le.1 fun e => h (.inr e)
  simp [h1, h2]

theorem toUInt32_ne {a : Int32} (h : 0 ≤ a) : a.toUInt32 ≠ 0xFFFFFFFF := by
  intro e
  have : a.toUInt32.toInt32 = (0xFFFFFFFF : UInt32).toInt32 := by rw [e]
  rw [Int32.toInt32_toUInt32] at this
  subst this
  exact absurd h (by decide)

theorem word_arg {old : UInt32} {a : Int32} (h : Valid a) : word old (wanted 0xFFFFFFFF a) = wanted old a := by
  unfold word wanted
  by_cases h1 : a = -1
  · simp [h1]
  · rw [if_neg h1, if_neg h1]
    rcases h with h | h
    · exact absurd h h1
    · simp [toUInt32_ne h]

theorem copy_arg {old : UInt32} {a : Int32} :
    (if a = -1 then none else some a.toUInt32 : Option UInt32).getD old = wanted old a := by
  unfold wanted
  by_cases h1 : a = -1 <;> simp [h1]

theorem word_none {old : UInt32} : word old 0xFFFFFFFF = old := by simp [word]

/-- The request of `setresuid`. -/
def uidRequest (r e u : Int32) : Ids := ⟨wanted 0xFFFFFFFF r, wanted 0xFFFFFFFF e, wanted 0xFFFFFFFF u, 0xFFFFFFFF, 0xFFFFFFFF, 0xFFFFFFFF⟩

/-- The request of `setresgid`. -/
def gidRequest (r e u : Int32) : Ids := ⟨0xFFFFFFFF, 0xFFFFFFFF, 0xFFFFFFFF, wanted 0xFFFFFFFF r, wanted 0xFFFFFFFF e, wanted 0xFFFFFFFF u⟩

/-! ## C118 -/

/-- C118: **setting user ids**. With an argument that is negative and not −1, `setresuid` fails with `EINVAL`; nothing is asked of the process
manager. Otherwise it asks for exactly the ids whose arguments are not −1. If the request is refused, the function fails with that error and nothing
changes. If it is accepted, each id whose argument is not −1 is what the argument says, the others, the group ids and the child's ids
are what they were, and the ids the process reports change in the same way. -/
theorem C118_setresuid_exact (k : Manager) (s : St) (r e u : Int32) :
    (¬ (Valid r ∧ Valid e ∧ Valid u) → setresuid k s r e u = (.error .EINVAL, s))
    ∧ (Valid r → Valid e → Valid u → ∀ err, k s.own (uidRequest r e u) = some err → setresuid k s r e u = (.error err, s))
    ∧ (Valid r → Valid e → Valid u → k s.own (uidRequest r e u) = none →
      setresuid k s r e u = (.ok (),
        { s with
          own := { s.own with ruid := wanted s.own.ruid r, euid := wanted s.own.euid e, suid := wanted s.own.suid u }
          copy := { s.copy with ruid := wanted s.copy.ruid r, euid := wanted s.copy.euid e, suid := wanted s.copy.suid u } })) := by
  refine ⟨fun h => ?_, fun hr he hu err hk => ?_, fun hr he hu hk => ?_⟩
  · unfold setresuid
    by_cases hr : Valid r
    · rw [cvt_valid hr]
      by_cases he : Valid e
      · rw [cvt_valid he]
        by_cases hu : Valid u
        · exact absurd ⟨hr, he, hu⟩ h
        · rw [cvt_invalid hu]
      · rw [cvt_invalid he]
    · rw [cvt_invalid hr]
  · have hk' : k s.own (words ⟨if r = -1 then none else some r.toUInt32, if e = -1 then none else some e.toUInt32,
        if u = -1 then none else some u.toUInt32, none, none, none⟩) = some err := by
      simp only [words, copy_arg]
      exact hk
    simp only [setresuid, cvt_valid hr, cvt_valid he, cvt_valid hu, posixSetresugid, hk']
  · have hk' : k s.own (words ⟨if r = -1 then none else some r.toUInt32, if e = -1 then none else some e.toUInt32,
        if u = -1 then none else some u.toUInt32, none, none, none⟩) = none := by
      simp only [words, copy_arg]
      exact hk
    simp only [setresuid, cvt_valid hr, cvt_valid he, cvt_valid hu, posixSetresugid, hk']
    simp only [apply, words, updateCopy, copy_arg, Option.getD_none, word_none]
    rw [word_arg hr, word_arg he, word_arg hu]

/-- C118: **setting group ids**, likewise. -/
theorem C118_setresgid_exact (k : Manager) (s : St) (r e u : Int32) :
    (¬ (Valid r ∧ Valid e ∧ Valid u) → setresgid k s r e u = (.error .EINVAL, s))
    ∧ (Valid r → Valid e → Valid u → ∀ err, k s.own (gidRequest r e u) = some err → setresgid k s r e u = (.error err, s))
    ∧ (Valid r → Valid e → Valid u → k s.own (gidRequest r e u) = none →
      setresgid k s r e u = (.ok (),
        { s with
          own := { s.own with rgid := wanted s.own.rgid r, egid := wanted s.own.egid e, sgid := wanted s.own.sgid u }
          copy := { s.copy with rgid := wanted s.copy.rgid r, egid := wanted s.copy.egid e, sgid := wanted s.copy.sgid u } })) := by
  refine ⟨fun h => ?_, fun hr he hu err hk => ?_, fun hr he hu hk => ?_⟩
  · unfold setresgid
    by_cases hr : Valid r
    · rw [cvt_valid hr]
      by_cases he : Valid e
      · rw [cvt_valid he]
        by_cases hu : Valid u
        · exact absurd ⟨hr, he, hu⟩ h
        · rw [cvt_invalid hu]
      · rw [cvt_invalid he]
    · rw [cvt_invalid hr]
  · have hk' : k s.own (words ⟨none, none, none, if r = -1 then none else some r.toUInt32, if e = -1 then none else some e.toUInt32,
        if u = -1 then none else some u.toUInt32⟩) = some err := by
      simp only [words, copy_arg]
      exact hk
    simp only [setresgid, cvt_valid hr, cvt_valid he, cvt_valid hu, posixSetresugid, hk']
  · have hk' : k s.own (words ⟨none, none, none, if r = -1 then none else some r.toUInt32, if e = -1 then none else some e.toUInt32,
        if u = -1 then none else some u.toUInt32⟩) = none := by
      simp only [words, copy_arg]
      exact hk
    simp only [setresgid, cvt_valid hr, cvt_valid he, cvt_valid hu, posixSetresugid, hk']
    simp only [apply, words, updateCopy, copy_arg, Option.getD_none, word_none]
    rw [word_arg hr, word_arg he, word_arg hu]

/-- A process with the ids 1000, 1000 and 0 (a set-user-id program). -/
def prog : St := ⟨⟨1000, 1000, 0, 100, 100, 100⟩, ⟨1000, 1000, 0, 100, 100, 100⟩, ⟨1000, 1000, 0, 100, 100, 100⟩⟩

/-- A process of the administrator. -/
def root : St := ⟨⟨0, 0, 0, 0, 0, 0⟩, ⟨0, 0, 0, 0, 0, 0⟩, ⟨0, 0, 0, 0, 0, 0⟩⟩

example : (setresuid unix prog (-1) 0 1000).2.own = ⟨1000, 0, 1000, 100, 100, 100⟩ ∧ (setresuid unix prog 5 0 0).2 = prog
    ∧ (setresuid unix root (-2) 0 0).1.toOption = none ∧ (setresgid unix root 7 (-1) 8).2.copy = ⟨0, 0, 0, 7, 0, 8⟩ := by decide +kernel

/-- The state after calls. -/
def after (k : Manager) (s : St) : List Call → St
  | [] => s
  | c :: cs => after k (run k s c).2 cs

theorem run_honest (k : Manager) (s : St) (h : Honest s) (c : Call) : Honest (run k s c).2 ∧ (run k s c).2.child = s.child := by
  have hu : ∀ r e u, Honest (setresuid k s r e u).2 ∧ (setresuid k s r e u).2.child = s.child := by
    intro r e u
    have hx := C118_setresuid_exact k s r e u
    by_cases hv : Valid r ∧ Valid e ∧ Valid u
    · cases hk : k s.own (uidRequest r e u) with
      | some err => rw [hx.2.1 hv.1 hv.2.1 hv.2.2 err hk]; exact ⟨h, rfl⟩
      | none =>
        rw [hx.2.2 hv.1 hv.2.1 hv.2.2 hk]
        unfold Honest at h ⊢
        simp [h]
    · rw [hx.1 hv]; exact ⟨h, rfl⟩
  have hg : ∀ r e u, Honest (setresgid k s r e u).2 ∧ (setresgid k s r e u).2.child = s.child := by
    intro r e u
    have hx := C118_setresgid_exact k s r e u
    by_cases hv : Valid r ∧ Valid e ∧ Valid u
    · cases hk : k s.own (gidRequest r e u) with
      | some err => rw [hx.2.1 hv.1 hv.2.1 hv.2.2 err hk]; exact ⟨h, rfl⟩
      | none =>
        rw [hx.2.2 hv.1 hv.2.1 hv.2.2 hk]
        unfold Honest at h ⊢
        simp [h]
    · rw [hx.1 hv]; exact ⟨h, rfl⟩
  cases c <;> first | exact hu _ _ _ | exact hg _ _ _

/-- C118, part: **the process reports the ids it has**. Whatever calls a process makes that set its ids, and whatever the process manager accepts, the
ids that `getresuid`, `getresgid`, `getuid`, `geteuid`, `getgid` and `getegid` report are the ones the process manager has. Missing: `posix_spawn`. -/
theorem C118_reports_partial (k : Manager) (s : St) (h : Honest s) (cs : List Call) :
    let t := after k s cs
    getresugid t = ⟨t.own.ruid.toInt32, t.own.euid.toInt32, t.own.suid.toInt32, t.own.rgid.toInt32, t.own.egid.toInt32, t.own.sgid.toInt32⟩ := by
  have key : ∀ cs s, Honest s → Honest (after k s cs) := by
    intro cs
    induction cs with
    | nil => exact fun _ h => h
    | cons c cs ih => exact fun s h => ih _ (run_honest k s h c).1
  intro t
  have ht : Honest t := key cs s h
  unfold Honest at ht
  simp [getresugid, ht]

example : getresugid (after unix prog [.seteuid 0, .setresgid 7 8 (-1), .setuid 1000, .setuid 5]) = ⟨1000, 1000, 0, 7, 8, 100⟩ := by decide +kernel

/-- C118, violated by the code: **a process that starts a set-user-id program with attributes reports the program's ids as its own**. `posix_setresugid`
puts the ids of the child into the copy of the parent. The parent is user 1000, the program belongs to 0; afterwards `geteuid` of the parent is 0. -/
theorem C118_spawn_violation : ∃ s : St, Honest s ∧ (getresugid s).euid = 1000 ∧
    let t := (spawnIds (fun _ _ => none) s (some 0) none false).2
    t.own = s.own ∧ (getresugid t).euid = 0 :=
  ⟨⟨⟨1000, 1000, 1000, 100, 100, 100⟩, ⟨1000, 1000, 1000, 100, 100, 100⟩, ⟨1000, 1000, 1000, 100, 100, 100⟩⟩, rfl, by decide +kernel⟩

/-- C118, part: **starting a program** without the set-user-id and set-group-id bits leaves the ids that the process has and reports alone, unless
`POSIX_SPAWN_RESETIDS` is given and its real and effective ids differ; and the child gets the effective ids of the parent, or with that flag the real
ones. -/
theorem C118_spawn_partial (k : Manager) (s : St) (h : Honest s) (reset : Bool) (he : s.own.euid ≠ 0xFFFFFFFF) (hg : s.own.egid ≠ 0xFFFFFFFF)
    (hr : reset = true → s.own.ruid = s.own.euid ∧ s.own.rgid = s.own.egid) :
    let t := (spawnIds k s none none reset).2
    t.own = s.own ∧ getresugid t = getresugid s
    ∧ ((spawnIds k s none none reset).1 = .ok () → t.child = { s.child with euid := s.own.euid, egid := s.own.egid }) := by
  obtain ⟨own, copy, child⟩ := s
  unfold Honest at h
  dsimp only at h he hg hr
  subst h
  have h1 : (if reset = true then copy.ruid else copy.euid) = copy.euid := by
    split
    · next h => exact (hr h).1
    · rfl
  have h2 : (if reset = true then copy.rgid else copy.egid) = copy.egid := by
    split
    · next h => exact (hr h).2
    · rfl
  simp only [spawnIds, posixSetresugid, Option.getD_none, h1, h2]
  cases k child (words ⟨none, some copy.euid, none, none, some copy.egid, none⟩) with
  | some e => exact ⟨rfl, rfl, fun h => by cases h⟩
  | none => exact ⟨rfl, rfl, fun _ => by simp [apply, words, word, he, hg]⟩

example : (spawnIds unix prog none none true).2.child = ⟨1000, 1000, 0, 100, 100, 100⟩ ∧ (spawnIds unix prog none none true).2 = prog := by
  decide +kernel

/-- C118, violated by the code: **a privileged process that calls `setuid` can take its privileges back**. `setuid(1000)` by a process with the
effective user id 0 leaves the saved id 0, POSIX sets all three; then `seteuid(0)` succeeds. -/
theorem C118_setuid_saved_violation :
    (setuid unix root 1000).1.toOption = some () ∧ (setuid unix root 1000).2.own = ⟨1000, 1000, 0, 0, 0, 0⟩
    ∧ (seteuid unix (setuid unix root 1000).2 0).1.toOption = some () ∧ (seteuid unix (setuid unix root 1000).2 0).2.own.euid = 0 := by
  decide +kernel

/-- C118, violated by the code: **`setuid` of a process without privileges changes its real user id**, too. POSIX changes only the effective one. -/
theorem C118_setuid_real_violation : ∃ s : St, s.own.euid ≠ 0 ∧ s.own.ruid = 1000 ∧ (setuid unix s 2000).1.toOption = some ()
    ∧ (setuid unix s 2000).2.own.ruid = 2000 :=
  ⟨⟨⟨1000, 1000, 2000, 0, 0, 0⟩, ⟨1000, 1000, 2000, 0, 0, 0⟩, root.child⟩, by decide +kernel⟩

/-- C118, violated by the code: **`setreuid` does not set the saved id**. POSIX sets it to the new effective id if the real id is given. -/
theorem C118_setreuid_saved_violation :
    (setreuid unix root 1000 1000).1.toOption = some () ∧ (setreuid unix root 1000 1000).2.own.suid = 0
    ∧ (setresuid unix (setreuid unix root 1000 1000).2 0 0 0).2.own = ⟨0, 0, 0, 0, 0, 0⟩ := by
  decide +kernel

/-- C118, part: **the other functions**. If `setuid`, `seteuid` or `setreuid` (`setgid`, `setegid`, `setregid`) succeeds, the effective id
is the one that was given; `seteuid` changes no other id; and no function changes the ids of the other kind. Missing: the real and saved ids as POSIX
demands, the three theorems above. -/
theorem C118_effective_partial (k : Manager) (s : St) (id rid : Int32) (h : 0 ≤ id) :
    ((setuid k s id).1 = .ok () → (setuid k s id).2.own = { s.own with ruid := id.toUInt32, euid := id.toUInt32 })
    ∧ ((seteuid k s id).1 = .ok () → (seteuid k s id).2.own = { s.own with euid := id.toUInt32 })
    ∧ ((setreuid k s rid id).1 = .ok () → (setreuid k s rid id).2.own = { s.own with ruid := wanted s.own.ruid rid, euid := id.toUInt32 })
    ∧ ((setgid k s id).1 = .ok () → (setgid k s id).2.own = { s.own with rgid := id.toUInt32, egid := id.toUInt32 })
    ∧ ((setegid k s id).1 = .ok () → (setegid k s id).2.own = { s.own with egid := id.toUInt32 })
    ∧ ((setregid k s rid id).1 = .ok () → (setregid k s rid id).2.own = { s.own with rgid := wanted s.own.rgid rid, egid := id.toUInt32 }) := by
  have hi : id ≠ -1 := by rintro rfl; exact absurd h (by decide)
  have hw : ∀ old, wanted old id = id.toUInt32 := fun old => if_neg hi
  have hm : ∀ old, wanted old (-1) = old := fun old => if_pos rfl
  have hu : ∀ r e u, (setresuid k s r e u).1 = .ok () →
      (setresuid k s r e u).2.own = { s.own with ruid := wanted s.own.ruid r, euid := wanted s.own.euid e, suid := wanted s.own.suid u } := by
    intro r e u hok
    have hx := C118_setresuid_exact k s r e u
    by_cases hv : Valid r ∧ Valid e ∧ Valid u
    · cases hk : k s.own (uidRequest r e u) with
      | some err => rw [hx.2.1 hv.1 hv.2.1 hv.2.2 err hk] at hok; cases hok
      | none => rw [hx.2.2 hv.1 hv.2.1 hv.2.2 hk]
    · rw [hx.1 hv] at hok; cases hok
  have hg : ∀ r e u, (setresgid k s r e u).1 = .ok () →
      (setresgid k s r e u).2.own = { s.own with rgid := wanted s.own.rgid r, egid := wanted s.own.egid e, sgid := wanted s.own.sgid u } := by
    intro r e u hok
    have hx := C118_setresgid_exact k s r e u
    by_cases hv : Valid r ∧ Valid e ∧ Valid u
    · cases hk : k s.own (gidRequest r e u) with
      | some err => rw [hx.2.1 hv.1 hv.2.1 hv.2.2 err hk] at hok; cases hok
      | none => rw [hx.2.2 hv.1 hv.2.1 hv.2.2 hk]
    · rw [hx.1 hv] at hok; cases hok
  refine ⟨fun ho => ?_, fun ho => ?_, fun ho => ?_, fun ho => ?_, fun ho => ?_, fun ho => ?_⟩
  · have := hu _ _ _ ho; rw [hw, hw, hm] at this; exact this
  · have := hu _ _ _ ho; rw [hw, hm, hm] at this; exact this
  · have := hu _ _ _ ho; rw [hw, hm] at this; exact this
  · have := hg _ _ _ ho; rw [hw, hw, hm] at this; exact this
  · have := hg _ _ _ ho; rw [hw, hm, hm] at this; exact this
  · have := hg _ _ _ ho; rw [hw, hm] at this; exact this

example : (seteuid unix prog 0).2.own = ⟨1000, 0, 0, 100, 100, 100⟩ := by decide +kernel

/-! ## C119 -/

/-- A nice value brought into the range from −20 to 19. -/
def inRange (n : Int) : Int := if n < -20 then -20 else if 19 < n then 19 else n

/-- A kernel that keeps priorities: they are from 0 to 39 (20 more than the nice value), and one that has been set is the one that it gives until
another is set for the same process. -/
structure Keeps {σ : Type} (k : Prio σ) : Prop where
  range : ∀ s who p, k.get s who = .ok p → p.toNat ≤ 39
  same : ∀ s who p t, k.set s who p = .ok t → k.get t who = .ok p

theorem prio_toInt {p : UInt32} (h : p.toNat ≤ 39) : (-p.toInt32 + 40 : Int32).toInt = 40 - p.toNat := by
  have hp : p = UInt32.ofNat p.toNat := by simp
  have : ∀ n, n ≤ 39 → (-(UInt32.ofNat n).toInt32 + 40 : Int32).toInt = 40 - n := by decide +kernel
  rw [hp, this _ h]
  simp

theorem lt_iff {a b : Int32} : a < b ↔ a.toInt < b.toInt := Int32.lt_iff_toInt_lt

theorem twenty_sub {r : Int32} {m : Int} (h : r.toInt = m) (h0 : 0 ≤ m) (hm : m ≤ 40) : (20 - r).toInt = 20 - m := by
  have h20 : (20 : Int32).toInt = 20 := rfl
  rw [Time.i32_sub (by rw [h, h20]; omega) (by rw [h, h20]; omega), h, h20]

theorem get_ok {σ : Type} {k : Prio σ} (hk : Keeps k) {s : σ} {who p : UInt32} (h : k.get s who = .ok p) :
    ∃ r, sysGetpriority k s 0 who = .ok r ∧ r.toInt = 40 - p.toNat :=
  ⟨-p.toInt32 + 40, by simp [sysGetpriority, h], prio_toInt (hk.range _ _ _ h)⟩

/-- The clamped value in the code. -/
def clamp (n : Int32) : Int32 := if n < -20 then -20 else if 19 < n then 19 else n

theorem clamp_toInt (n : Int32) : (clamp n).toInt = inRange n.toInt := by
  unfold clamp inRange
  have h1 : (-20 : Int32).toInt = -20 := rfl
  have h2 : (19 : Int32).toInt = 19 := rfl
  by_cases a : n < -20
  · have a' := lt_iff.1 a; rw [h1] at a'
    simp [a, a']
  · have a' := fun h => a (lt_iff.2 (by rw [h1]; exact h))
    by_cases b : 19 < n
    · have b' := lt_iff.1 b; rw [h2] at b'
      rw [if_neg a, if_pos b, if_neg a', if_pos b']; rfl
    · have b' := fun h => b (lt_iff.2 (by rw [h2]; exact h))
      rw [if_neg a, if_neg b, if_neg a', if_neg b']

theorem inRange_bounds (n : Int) : -20 ≤ inRange n ∧ inRange n ≤ 19 := by
  unfold inRange; split
  · omega
  · split <;> omega

theorem sent {n : Int32} (h1 : -20 ≤ n.toInt) (h2 : n.toInt ≤ 19) : ((20 + n).toUInt32.toNat : Int) = n.toInt + 20 := by
  have h20 : (20 : Int32).toInt = 20 := rfl
  have : (20 + n).toInt = 20 + n.toInt := by
    rw [Time.i32_add (by rw [h20]; omega) (by rw [h20]; omega), h20]
  rw [Time.u32_toNat, this]
  omega

/-- C119: **`getpriority`**. Other targets than processes are refused with `EINVAL`. If the kernel refuses, the function gives −1 and sets `errno`;
otherwise it gives the nice value, which is 20 less than the kernel's priority, also if it is negative, and `errno` is not set. -/
theorem C119_getpriority_exact {σ : Type} {k : Prio σ} (hk : Keeps k) (s : σ) (which : Int32) (who : UInt32) :
    (which ≠ 0 → getpriority k s which who = (-1, some .EINVAL))
    ∧ (∀ e, k.get s who = .error e → getpriority k s 0 who = (-1, some e))
    ∧ (∀ p, k.get s who = .ok p → (getpriority k s 0 who).1.toInt = p.toNat - 20 ∧ (getpriority k s 0 who).2 = none) := by
  refine ⟨fun h => by simp [getpriority, sysGetpriority, h], fun e h => by simp [getpriority, sysGetpriority, h], fun p h => ?_⟩
  obtain ⟨r, hr, hi⟩ := get_ok hk h
  have hp := hk.range _ _ _ h
  have h0 : ¬ r < 0 := by
    intro hlt
    have := lt_iff.1 hlt
    rw [hi, show (0 : Int32).toInt = 0 from rfl] at this
    omega
  simp only [getpriority, hr, h0, if_false]
  rw [twenty_sub hi (by omega) (by omega)]
  exact ⟨by omega, trivial⟩

/-- C119: **`setpriority`**. Other targets than processes are refused with `EINVAL`. If the kernel refuses, the function fails with its error. In both cases
nothing changes. Otherwise the function succeeds, and the nice value that `getpriority` gives for this process is then the one asked
for, brought into the range from −20 to 19. -/
theorem C119_setpriority_exact {σ : Type} {k : Prio σ} (hk : Keeps k) (s : σ) (which : Int32) (who : UInt32) (n : Int32) :
    (which ≠ 0 → setpriority k s which who n = (.error .EINVAL, s))
    ∧ ((∃ e, setpriority k s 0 who n = (.error e, s))
      ∨ ∃ t, setpriority k s 0 who n = (.ok (), t) ∧ (getpriority k t 0 who).1.toInt = inRange n.toInt ∧ (getpriority k t 0 who).2 = none) := by
  refine ⟨fun h => by simp [setpriority, sysSetpriority, h], ?_⟩
  have hw : setpriority k s 0 who n = match k.set s who (20 + clamp n).toUInt32 with
      | .error e => (.error e, s)
      | .ok s => (.ok (), s) := by
    simp only [setpriority, sysSetpriority, ne_eq, not_true, if_false]
    rfl
  rw [hw]
  cases hs : k.set s who (20 + clamp n).toUInt32 with
  | error e => exact .inl ⟨e, rfl⟩
  | ok t =>
    refine .inr ⟨t, rfl, ?_⟩
    obtain ⟨h1, h2⟩ := (C119_getpriority_exact hk t 0 who).2.2 _ (hk.same _ _ _ _ hs)
    have hb := inRange_bounds n.toInt
    have hc := clamp_toInt n
    rw [sent (by omega) (by omega)] at h1
    exact ⟨by omega, h2⟩

theorem satAdd_toInt (a b : Int32) : inRange (satAdd a b).toInt = inRange (a.toInt + b.toInt) := by
  unfold satAdd
  by_cases h1 : a.toInt + b.toInt < -2 ^ 31
  · rw [if_pos h1, show Int32.minValue.toInt = -2 ^ 31 from rfl]
    unfold inRange
    rw [if_pos (by decide), if_pos (by omega)]
  · rw [if_neg h1]
    by_cases h2 : 2 ^ 31 ≤ a.toInt + b.toInt
    · rw [if_pos h2, show Int32.maxValue.toInt = 2 ^ 31 - 1 from rfl]
      unfold inRange
      rw [if_neg (by decide), if_pos (by decide), if_neg (by omega), if_pos (by omega)]
    · rw [if_neg h2, Time.i32_add (by omega) (by omega)]

/-- C119: **`nice`**. If the process has the nice value `p − 20` and the kernel does not refuse, `nice` gives that value plus the argument, brought into the range from −20 to
19 and without overflow for arguments of any size, and this is the nice value that `getpriority` gives afterwards. If the kernel refuses one of the two
requests, `nice` gives −1, sets `errno`, and nothing changes. -/
theorem C119_nice_exact {σ : Type} {k : Prio σ} (hk : Keeps k) (s : σ) (incr : Int32) :
    (∀ e, k.get s 0 = .error e → nice k s incr = (-1, some e, s))
    ∧ (∀ p, k.get s 0 = .ok p → (∃ e, nice k s incr = (-1, some e, s))
      ∨ ∃ v t, nice k s incr = (v, none, t) ∧ v.toInt = inRange (p.toNat - 20 + incr.toInt) ∧ getpriority k t 0 0 = (v, none)) := by
  refine ⟨fun e h => by simp [nice, sysGetpriority, h], fun p h => ?_⟩
  obtain ⟨r, hr, hi⟩ := get_ok hk h
  have hp := hk.range _ _ _ h
  have h0 : ¬ r < 0 := by
    intro hlt
    have := lt_iff.1 hlt
    rw [hi, show (0 : Int32).toInt = 0 from rfl] at this
    omega
  have hn : nice k s incr = match sysSetpriority k s 0 0 (clamp (satAdd (20 - r) incr)) with
      | (.error e, s) => (-1, some e, s)
      | (.ok (), s) => (clamp (satAdd (20 - r) incr), none, s) := by
    simp only [nice, hr, h0, if_false]
    rfl
  have hv : (clamp (satAdd (20 - r) incr)).toInt = inRange (p.toNat - 20 + incr.toInt) := by
    rw [clamp_toInt, satAdd_toInt, twenty_sub hi (by omega) (by omega)]
    congr 1; omega
  rw [hn]
  generalize clamp (satAdd (20 - r) incr) = v at hv
  rcases (C119_setpriority_exact hk s 0 0 v).2 with ⟨e, he⟩ | ⟨t, ht, hg, hg'⟩
  · unfold setpriority at he
    rw [he]
    exact .inl ⟨e, rfl⟩
  · unfold setpriority at ht
    rw [ht]
    refine .inr ⟨v, t, rfl, hv, Prod.ext (Int32.toInt_inj.1 ?_) hg'⟩
    rw [hg]
    have hb := inRange_bounds (p.toNat - 20 + incr.toInt)
    rw [hv]
    unfold inRange at hb ⊢
    split
    · omega
    · split
      · omega
      · rfl

/-- A kernel that keeps the priority of the one process there is, and allows everything. -/
def one : Prio (Fin 40) where
  get s _ := .ok (UInt32.ofNat s.val)
  set s _ p := if h : p.toNat < 40 then .ok ⟨p.toNat, h⟩ else .error .EINVAL

theorem one_keeps : Keeps one where
  range s who p h := by
    simp only [one, Except.ok.injEq] at h
    subst h
    have := s.isLt
    simp; omega
  same s who p t h := by
    simp only [one] at h ⊢
    split at h
    · simp only [Except.ok.injEq] at h
      subst h
      simp
    · cases h

example : nice one 20 5 = (5, none, 25) ∧ nice one 25 2147483647 = (19, none, 39) ∧ nice one 20 (-7) = (-7, none, 13)
    ∧ getpriority one 13 0 0 = (-7, none) ∧ (setpriority one 13 0 0 (-100)).2 = 0 := by decide +kernel

end Verif.Ids
