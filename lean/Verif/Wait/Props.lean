import Verif.Wait.Model

/-!
# C121, C122: waiting for children; `system` and `popen`
-/

namespace Verif.Wait

/-! ## C121 -/

/-- Options `waitpid` knows: `WNOHANG` (1), `WUNTRACED` (2), `WCONTINUED` (8), in any combination. -/
def Known (o : Int32) : Prop := o ∈ [0, 1, 2, 3, 8, 9, 10, 11]

/-- The child has been stopped. -/
def Stopped (status : UInt64) : Prop := status.toNat % 256 = 0x7f

/-- The status as the program sees it. -/
def seen (status : UInt64) : Int32 := status.toUInt32.toInt32

theorem stopped_iff (st : UInt64) : wifstopped st = true ↔ Stopped st := by
  unfold wifstopped Stopped
  rw [decide_eq_true_eq, ← UInt64.toNat_inj, UInt64.toNat_and]
  show st.toNat &&& (2 ^ 8 - 1) = 0x7f ↔ _
  rw [Nat.and_two_pow_sub_one_eq_mod]

theorem flags_low : ∀ n, n < 16 → ((UInt32.ofNat n &&& ~~~11 = 0) ↔ (UInt32.ofNat n).toInt32 ∈ ([0, 1, 2, 3, 8, 9, 10, 11] : List Int32)) := by
  decide +kernel

theorem flagsOf_iff (o : Int32) : flagsOf o = if o ∈ ([0, 1, 2, 3, 8, 9, 10, 11] : List Int32) then some o.toUInt32 else none := by
  unfold flagsOf
  by_cases h0 : o < 0
  · rw [if_pos h0, if_neg]
    intro hm
    simp only [List.mem_cons, List.not_mem_nil, or_false] at hm
    rcases hm with rfl | rfl | rfl | rfl | rfl | rfl | rfl | rfl <;> exact absurd h0 (by decide)
  · rw [if_neg h0]
    have ho : o = o.toUInt32.toInt32 := (Int32.toInt32_toUInt32 o).symm
    by_cases hs : o.toUInt32.toNat < 16
    · have he : o.toUInt32 = UInt32.ofNat o.toUInt32.toNat := by simp
      have := flags_low _ hs
      rw [← he, ← ho] at this
      by_cases hm : o ∈ ([0, 1, 2, 3, 8, 9, 10, 11] : List Int32)
      · rw [if_pos hm, if_pos (this.2 hm)]
      · rw [if_neg hm, if_neg (fun h => hm (this.1 h))]
    · rw [if_neg, if_neg]
      · intro hm
        simp only [List.mem_cons, List.not_mem_nil, or_false] at hm
        rcases hm with rfl | rfl | rfl | rfl | rfl | rfl | rfl | rfl <;> exact hs (by decide)
      · intro hz
        have h1 : (o.toUInt32 &&& ~~~11).toNat = 0 := by rw [hz]; rfl
        rw [UInt32.toNat_and] at h1
        have h2 : ∀ i, 4 ≤ i → i < 32 → o.toUInt32.toNat.testBit i = false := by
          intro i h4 h32
          have hb : (o.toUInt32.toNat &&& (~~~(11 : UInt32)).toNat).testBit i = false := by rw [h1]; simp
          rw [Nat.testBit_and] at hb
          have : ∀ i, i < 32 → 4 ≤ i → (~~~(11 : UInt32)).toNat.testBit i = true := by decide +kernel
          rw [this i h32 h4, Bool.and_true] at hb
          exact hb
        have h3 : o.toUInt32.toNat < 2 ^ 4 := by
          apply Nat.lt_pow_two_of_testBit
          intro i hi
          by_cases h32 : i < 32
          · exact h2 i hi h32
          · apply Nat.testBit_lt_two_pow
            exact Nat.lt_of_lt_of_le o.toUInt32.toNat_lt (Nat.pow_le_pow_right (by decide) (by omega))
        omega

theorem untraced_iff : ∀ o ∈ ([0, 1, 2, 3, 8, 9, 10, 11] : List Int32), (o.toUInt32 &&& 2 = 2 ↔ o ∈ ([2, 3, 10, 11] : List Int32)) := by decide +kernel

/-- C121: **what is asked**. Options other than combinations of `WNOHANG`, `WUNTRACED` and `WCONTINUED` are `EINVAL`, and nothing is asked. Otherwise every request is
for: the child `pid` if that is positive; any child if it is −1; any child of the caller's process group if it is 0; any child of process group `-pid` if it is less
than −1. Stopped children are always asked for, the other options are as given. -/
theorem C121_request_exact (pid o : Int32) :
    (¬ Known o → request pid o = .error .EINVAL ∧ ∀ ans traced n, waitpid ans traced n pid o = some (.error .EINVAL, none))
    ∧ (Known o → ∃ r, request pid o = .ok r
        ∧ (0 < pid.toInt → r.call = .waitpid ∧ r.id = pid.toInt) ∧ (pid.toInt = -1 → r.call = .waitpid ∧ r.id = 0)
        ∧ (pid.toInt = 0 → r.call = .waitpgid ∧ r.id = 0) ∧ (pid.toInt < -1 → r.call = .waitpgid ∧ r.id = -pid.toInt)
        ∧ r.flags = o.toUInt32 ||| 2) := by
  constructor
  · intro h
    have : flagsOf o = none := by rw [flagsOf_iff]; exact if_neg h
    exact ⟨by simp [request, this], fun _ _ _ => by simp [waitpid, this]⟩
  · intro h
    have : flagsOf o = some o.toUInt32 := by rw [flagsOf_iff]; exact if_pos h
    refine ⟨_, by simp only [request, this]; rfl, fun hp => ?_, fun hp => ?_, fun hp => ?_, fun hp => ?_, rfl⟩
    · have : target pid.toInt = (.waitpid, pid.toInt.toNat) := by
        unfold target; rw [if_neg (by omega), if_neg (by omega), if_pos (by omega)]
      rw [this]; exact ⟨rfl, by show ((pid.toInt.toNat : Nat) : Int) = _; omega⟩
    · rw [hp]; exact ⟨rfl, rfl⟩
    · rw [hp]; exact ⟨rfl, rfl⟩
    · have : target pid.toInt = (.waitpgid, (-pid.toInt).toNat) := by
        unfold target; rw [if_neg (by omega), if_neg (by omega), if_neg (by omega)]
      rw [this]; exact ⟨rfl, by show (((-pid.toInt).toNat : Nat) : Int) = _; omega⟩

example : (request (-7) 1).toOption = some ⟨.waitpgid, 7, 3⟩ ∧ (request 5 4).toOption = none := by decide +kernel

theorem loop_skip (ans : Nat → Answer) (traced : Nat → Bool) (i n k : Nat) (st : UInt64)
    (hs : ∀ j, j < i → ∃ p s, ans (k + j) = .child p s ∧ Stopped s ∧ traced (k + j) = false) (hi : i ≤ n) :
    ∃ s', loop ans traced false n k st = loop ans traced false (n - i) (k + i) s' := by
  induction i generalizing n k st with
  | zero => exact ⟨st, rfl⟩
  | succ i ih =>
    obtain ⟨p, s, ha, hst, ht⟩ := hs 0 (by omega)
    obtain ⟨n, rfl⟩ : ∃ m, n = m + 1 := ⟨n - 1, by omega⟩
    obtain ⟨s', h'⟩ := ih n (k + 1) s (fun j hj => by
      have := hs (j + 1) (by omega)
      rw [show k + (j + 1) = k + 1 + j by omega] at this
      exact this) (by omega)
    refine ⟨s', ?_⟩
    rw [show n + 1 - (i + 1) = n - i by omega, show k + (i + 1) = k + 1 + i by omega, ← h']
    conv => lhs; unfold loop
    rw [Nat.add_zero] at ha ht
    simp [ha, (stopped_iff s).2 hst, ht]

/-- C121, part: **`waitpid` gives the first answer that is asked for**. If the process manager reports the child `p` with status `s`, which is not that the child has been stopped unless
`WUNTRACED` is given or the child is traced, and before that only children that have been stopped, the result is `p`, and the status stored is `s`. If it says at once that no
child has changed its state, or that there is an error, that is the result. Missing: these two answers after one about a stopped child. -/
theorem C121_waitpid_partial (ans : Nat → Answer) (traced : Nat → Bool) (pid o : Int32) (ho : Known o) :
    (∀ i p s n, i < n → ans i = .child p s → (¬ Stopped s ∨ o ∈ ([2, 3, 10, 11] : List Int32) ∨ traced i = true) →
      (∀ j, j < i → o ∉ ([2, 3, 10, 11] : List Int32) ∧ ∃ p s, ans j = .child p s ∧ Stopped s ∧ traced j = false) →
      waitpid ans traced n pid o = some (.ok (Int32.ofNat p), some (seen s)))
    ∧ (∀ n, 0 < n → ans 0 = .nothing → waitpid ans traced n pid o = some (.ok 0, some 0))
    ∧ (∀ e n, 0 < n → ans 0 = .error e → waitpid ans traced n pid o = some (.error e, some 0)) := by
  have hf : flagsOf o = some o.toUInt32 := by rw [flagsOf_iff]; exact if_pos ho
  refine ⟨fun i p s n hin ha hs hj => ?_, fun n hn ha => ?_, fun e n hn ha => ?_⟩
  · have key : loop ans traced (decide (o.toUInt32 &&& 2 = 2)) n 0 0 = some (.ok p, s) := by
      have last : ∀ u m st, (¬ Stopped s ∨ u = true ∨ traced i = true) → loop ans traced u (m + 1) i st = some (.ok p, s) := by
        intro u m st h
        unfold loop
        simp only [ha]
        rw [if_pos]
        rcases h with h | h | h
        · have : wifstopped s = false := by
            cases hw : wifstopped s with
            | false => rfl
            | true => exact absurd ((stopped_iff s).1 hw) h
          simp [this]
        · simp [h]
        · simp [h]
      by_cases hi : i = 0
      · subst hi
        obtain ⟨n, rfl⟩ : ∃ m, n = m + 1 := ⟨n - 1, by omega⟩
        apply last
        rcases hs with h | h | h
        · exact .inl h
        · exact .inr (.inl (by rw [decide_eq_true_eq]; exact (untraced_iff o ho).2 h))
        · exact .inr (.inr h)
      · have hu : decide (o.toUInt32 &&& 2 = 2) = false := by
          rw [decide_eq_false_iff_not]
          exact fun h => (hj 0 (by omega)).1 ((untraced_iff o ho).1 h)
        rw [hu]
        obtain ⟨s', h'⟩ := loop_skip ans traced i n 0 0 (fun j hji => by rw [Nat.zero_add]; exact (hj j hji).2) (by omega)
        rw [h', Nat.zero_add]
        obtain ⟨m, hm⟩ : ∃ m, n - i = m + 1 := ⟨n - i - 1, by omega⟩
        rw [hm]
        apply last
        rcases hs with h | h | h
        · exact .inl h
        · exact absurd h (hj 0 (by omega)).1
        · exact .inr (.inr h)
    simp only [waitpid, hf, key]
    rfl
  · obtain ⟨n, rfl⟩ : ∃ m, n = m + 1 := ⟨n - 1, by omega⟩
    simp only [waitpid, hf]
    unfold loop
    simp only [ha]
    rfl
  · obtain ⟨n, rfl⟩ : ∃ m, n = m + 1 := ⟨n - 1, by omega⟩
    simp only [waitpid, hf]
    unfold loop
    simp only [ha]
    rfl

/-- Answers: the child 5 has been stopped, then it exits with 3. -/
def stopThenExit : Nat → Answer
  | 0 => .child 5 0x137f
  | _ => .child 5 0x300

example : ((waitpid stopThenExit (fun _ => false) 9 5 0).map fun r => (r.1.toOption, r.2)) = some (some 5, some 0x300)
    ∧ ((waitpid stopThenExit (fun _ => false) 9 5 2).map fun r => (r.1.toOption, r.2)) = some (some 5, some 0x137f) := by decide +kernel

/-- C121, violated by the code: **`waitpid` with `WNOHANG` does not return** after a child has been stopped. The process manager reports the stop, which was not asked for, and
from then on that there is nothing (or an error, for example that there are no children): `waitpid` asks again and again, however many requests one waits for, because the status
of the first answer is looked at each time. -/
theorem C121_nohang_violation (rest : Nat → Answer) (h : ∀ i, rest i = .nothing ∨ ∃ e, rest i = .error e) (pid : Int32) (o : Int32) (ho : o ∈ ([0, 1, 8, 9] : List Int32)) (n : Nat) :
    waitpid (fun i => match i with
      | 0 => .child 5 0x137f
      | i + 1 => rest i) (fun _ => false) n pid o = none := by
  have hf : flagsOf o = some o.toUInt32 ∧ ¬ o.toUInt32 &&& 2 = 2 := by
    simp only [List.mem_cons, List.not_mem_nil, or_false] at ho
    rcases ho with rfl | rfl | rfl | rfl <;> decide
  simp only [waitpid, hf.1, hf.2, decide_false]
  generalize hans : (fun i => match i with
      | 0 => Answer.child 5 0x137f
      | i + 1 => rest i) = ans
  have h0 : ans 0 = .child 5 0x137f := by rw [← hans]
  have hs : ∀ i, ans (i + 1) = .nothing ∨ ∃ e, ans (i + 1) = .error e := by intro i; rw [← hans]; exact h i
  have key : ∀ n i, loop ans (fun _ => false) false n (i + 1) 0x137f = none := by
    intro n
    induction n with
    | zero => intro i; rfl
    | succ n ih =>
      intro i
      unfold loop
      rcases hs i with h | ⟨e, h⟩
      · simp only [h]; exact ih _
      · simp only [h]; exact ih _
  cases n with
  | zero => rfl
  | succ n =>
    unfold loop
    simp only [h0]
    have := key n 0
    rw [show 0 + 1 = 1 from rfl] at this ⊢
    have e : (!wifstopped 0x137f || false || false) = false := by decide
    rw [e]
    simp only [Bool.false_eq_true, if_false]
    rw [this]

/-! ### The macros -/

theorem and7f (s : UInt32) : (s &&& 0x7f).toNat = s.toNat % 128 := by
  rw [UInt32.toNat_and]
  exact Nat.and_two_pow_sub_one_eq_mod s.toNat 7

theorem andff (s : UInt32) : (s &&& 0xff).toNat = s.toNat % 256 := by
  rw [UInt32.toNat_and]
  exact Nat.and_two_pow_sub_one_eq_mod s.toNat 8

theorem exited_iff (s : UInt32) : WIFEXITED s = true ↔ s.toNat % 128 = 0 := by
  unfold WIFEXITED
  rw [decide_eq_true_eq, ← UInt32.toNat_inj, and7f]; rfl

theorem wstopped_iff (s : UInt32) : WIFSTOPPED s = true ↔ s.toNat % 256 = 127 := by
  unfold WIFSTOPPED
  rw [decide_eq_true_eq, ← UInt32.toNat_inj, andff]; rfl

theorem signaled_iff (s : UInt32) : WIFSIGNALED s = true ↔ 1 ≤ s.toNat % 128 ∧ s.toNat % 128 ≤ 126 := by
  unfold WIFSIGNALED
  rw [decide_eq_true_eq, UInt32.le_iff_toNat_le, and7f, UInt32.toNat_add, and7f]
  show 2 ≤ (s.toNat % 128 + 1) % 2 ^ 32 % 128 ↔ _
  omega

/-- C121: **a status says one thing**. No status is two of: exited, terminated by a signal, stopped, continued. -/
theorem C121_macros_exclusive (s : UInt32) :
    ¬ (WIFEXITED s = true ∧ WIFSIGNALED s = true) ∧ ¬ (WIFEXITED s = true ∧ WIFSTOPPED s = true) ∧ ¬ (WIFEXITED s = true ∧ WIFCONTINUED s = true)
    ∧ ¬ (WIFSIGNALED s = true ∧ WIFSTOPPED s = true) ∧ ¬ (WIFSIGNALED s = true ∧ WIFCONTINUED s = true) ∧ ¬ (WIFSTOPPED s = true ∧ WIFCONTINUED s = true) := by
  have hc : WIFCONTINUED s = true → s.toNat = 65535 := by
    intro h
    simp only [WIFCONTINUED, decide_eq_true_eq] at h
    rw [h]; rfl
  simp only [exited_iff, signaled_iff, wstopped_iff]
  refine ⟨by omega, by omega, ?_, by omega, ?_, ?_⟩
  all_goals
    rintro ⟨h1, h2⟩
    have := hc h2
    omega

/-- C121: **the macros say what happened**: for a child that exited with the code `c`, was terminated by signal `g` (with a core image or not), was stopped by signal `g`, or was continued,
with the usual encoding of the status. -/
theorem C121_macros_exact :
    (∀ c, c < 256 → WIFEXITED (UInt32.ofNat (c * 256)) = true ∧ WEXITSTATUS (UInt32.ofNat (c * 256)) = UInt32.ofNat c)
    ∧ (∀ g, g < 127 → 1 ≤ g → ∀ core : Bool, WIFSIGNALED (UInt32.ofNat (g + if core then 128 else 0)) = true
        ∧ WTERMSIG (UInt32.ofNat (g + if core then 128 else 0)) = UInt32.ofNat g ∧ WCOREDUMP (UInt32.ofNat (g + if core then 128 else 0)) = core)
    ∧ (∀ g, g < 256 → WIFSTOPPED (UInt32.ofNat (g * 256 + 127)) = true ∧ WEXITSTATUS (UInt32.ofNat (g * 256 + 127)) = UInt32.ofNat g)
    ∧ WIFCONTINUED 0xffff = true := by
  refine ⟨by decide +kernel, by decide +kernel, by decide +kernel, rfl⟩

/-- C121: **the exit code arrives**. If the process manager reports the word that `_exit(status)` sends it, in the usual encoding, `WEXITSTATUS` is the low byte of `status`, also if that is
negative. -/
theorem C121_exit_exact (status : Int32) :
    let st := exitWord status * 256
    WIFEXITED (seen st).toUInt32 = true ∧ ((WEXITSTATUS (seen st).toUInt32).toNat : Int) = status.toInt % 256 := by
  intro st
  have h1 : (status &&& 0xFF).toUInt32.toNat = status.toUInt32.toNat % 256 := by
    show (status.toUInt32 &&& 0xFF).toNat = _
    exact andff _
  have h2 : (seen st).toUInt32.toNat = status.toUInt32.toNat % 256 * 256 := by
    show st.toUInt32.toNat = _
    show (exitWord status * 256).toUInt32.toNat = _
    rw [UInt64.toNat_toUInt32, UInt64.toNat_mul]
    unfold exitWord
    rw [UInt32.toNat_toUInt64, h1]
    show _ % 256 * 256 % 2 ^ 64 % 2 ^ 32 = _
    omega
  have h3 : status.toInt % 256 = (status.toUInt32.toNat % 256 : Nat) := by
    have : status.toInt = status.toUInt32.toBitVec.toInt := rfl
    rw [BitVec.toInt_eq_toNat_cond] at this
    have e : status.toUInt32.toBitVec.toNat = status.toUInt32.toNat := rfl
    rw [e] at this
    split at this <;> omega
  refine ⟨(exited_iff _).2 (by omega), ?_⟩
  unfold WEXITSTATUS
  rw [andff, UInt32.toNat_shiftRight, h2, h3, Nat.shiftRight_eq_div_pow]
  show ((status.toUInt32.toNat % 256 * 256 / 2 ^ 8 % 256 : Nat) : Int) = _
  omega

example : WEXITSTATUS (seen (exitWord (-1) * 256)).toUInt32 = 255 := by decide +kernel

/-! ## C122 -/

/-- C122, part: **`system`** does not write anything of the caller's twice: if the shell can be executed, or there is no child, the caller's output is what was in the file, what the shell writes, and
then what was in the buffer. The result is the status of the child, or −1. Missing: a shell that cannot be executed. -/
theorem C122_system_partial (forks : Bool) (wait : Option Int32) (handlers shell : List UInt8) (o : Out) :
    (system forks true wait handlers shell o).1 = (if forks = true then wait.getD (-1) else -1)
    ∧ (flush (system forks true wait handlers shell o).2).file = o.file ++ (if forks = true then shell else []) ++ o.buffer := by
  cases forks <;> cases wait <;> simp [system, flush]

example : (flush (system true true (some 0) [9] [7, 8] ⟨[1], [2, 3]⟩).2).file = [1, 7, 8, 2, 3] := by decide

/-- C122, violated by the code: **if the shell cannot be executed, buffered output of the caller is written twice**, and the functions registered with `atexit` run in the child: the child
calls `exit` and not `_exit`. -/
theorem C122_system_violation :
    (flush (system true false (some 0x7f00) [9] [] ⟨[1], [2, 3]⟩).2).file = [1, 2, 3, 9, 2, 3] := by decide

/-- The mode of a stream: `r` or `w`, and any number of `e` before and after. -/
def Mode (m : List UInt8) (write ce : Bool) : Prop :=
  ∃ i j, m = List.replicate i 0x65 ++ [if write then 0x77 else 0x72] ++ List.replicate j 0x65 ∧ (ce = true ↔ 0 < i + j)

theorem parse_tail (j : Nat) (w : Bool) (ce : Bool) : parseMode (List.replicate j 0x65) (some w) ce = some (w, ce || decide (0 < j)) := by
  induction j generalizing ce with
  | zero => simp [parseMode]
  | succ j ih => simp [List.replicate_succ, parseMode, ih]

theorem parse_mode {m : List UInt8} {write ce : Bool} (h : Mode m write ce) : parseMode m none false = some (write, ce) := by
  obtain ⟨i, j, rfl, hce⟩ := h
  have key : ∀ i c, parseMode (List.replicate i 0x65 ++ [if write then 0x77 else 0x72] ++ List.replicate j 0x65) none c
      = some (write, c || decide (0 < i + j)) := by
    intro i
    induction i with
    | zero => intro c; cases write <;> simp [parseMode, parse_tail]
    | succ i ih => intro c; simp only [List.replicate_succ, List.cons_append, parseMode, if_true]; rw [ih]; simp; omega
  rw [key]
  simp only [Bool.false_or, Option.some.injEq, Prod.mk.injEq, true_and]
  cases ce with
  | true => simpa using hce.1 rfl
  | false =>
    rw [decide_eq_false_iff_not]
    exact fun h => by cases hce.2 h

theorem parse_some_tail {w w' : Bool} : ∀ {m : List UInt8} {c ce : Bool}, parseMode m (some w) c = some (w', ce) → w' = w ∧ ∃ j, m = List.replicate j 0x65 ∧ (ce = true ↔ c = true ∨ 0 < j) := by
  intro m
  induction m with
  | nil =>
    intro c ce h
    simp only [parseMode, Option.some.injEq, Prod.mk.injEq] at h
    exact ⟨h.1.symm, 0, rfl, by simp [h.2]⟩
  | cons b m ih =>
    intro c ce h
    simp only [parseMode, reduceCtorEq, and_false, if_false] at h
    split at h
    · rename_i hb
      obtain ⟨h1, j, rfl, h3⟩ := ih h
      exact ⟨h1, j + 1, by rw [hb, List.replicate_succ], by rw [h3]; simp⟩
    · cases h

theorem parse_some {write : Bool} : ∀ {m : List UInt8} {c ce : Bool}, parseMode m none c = some (write, ce) →
    ∃ i j, m = List.replicate i 0x65 ++ [if write then 0x77 else 0x72] ++ List.replicate j 0x65 ∧ (ce = true ↔ c = true ∨ 0 < i + j) := by
  intro m
  induction m with
  | nil => intro c ce h; cases h
  | cons b m ih =>
    intro c ce h
    simp only [parseMode, and_true] at h
    split at h
    · rename_i hb
      obtain ⟨i, j, rfl, h3⟩ := ih h
      refine ⟨i + 1, j, by rw [hb, List.replicate_succ]; rfl, ?_⟩
      rw [h3]
      have : 0 < i + 1 + j := by omega
      simp [this]
    · split at h
      · rename_i hb
        obtain ⟨h1, j, rfl, h3⟩ := parse_some_tail h
        exact ⟨0, j, by rw [h1, hb]; rfl, by rw [h3, Nat.zero_add]⟩
      · split at h
        · rename_i hb
          obtain ⟨h1, j, rfl, h3⟩ := parse_some_tail h
          exact ⟨0, j, by rw [h1, hb]; rfl, by rw [h3, Nat.zero_add]⟩
        · cases h

/-- C122: **`popen` with a mode that is none** fails and does nothing; so it does without a pipe. -/
theorem C122_popen_mode (w : World) (m : List UInt8) (pipe : Option (Nat × Nat)) (forks : Bool) (h : (∀ write ce, ¬ Mode m write ce) ∨ pipe = none) : popen w m pipe forks = (none, w) := by
  unfold popen
  cases hp : parseMode m none false with
  | none => rfl
  | some r =>
    obtain ⟨write, ce⟩ := r
    rcases h with h | h
    · obtain ⟨i, j, h1, h2⟩ := parse_some hp
      exact absurd ⟨i, j, h1, by rw [h2]; simp⟩ (h write ce)
    · rw [h]

/-- Somebody can still write to pipe `k`; as long as this holds, its reader does not see the end. -/
def Writable (w : World) (k : Nat) : Prop := ∃ t ∈ w.self :: w.kids, ∃ fd c, t fd = some (.write k, c)

/-- C122, part: **`popen`**, if the two numbers of the pipe are new and neither is that of standard input or output. The caller gets the descriptor of the stream, which is its end of a new pipe and has
`FD_CLOEXEC` if the mode says so; nothing else in its table changes. The shell gets the other end as standard input or output, and otherwise exactly the descriptors of the caller without `FD_CLOEXEC`; it does not have the
caller's end. Missing: the four theorems below. -/
theorem C122_popen_partial (w : World) (m : List UInt8) (write ce : Bool) (hm : Mode m write ce) (a b : Nat) (ha : 2 ≤ a) (hb : 2 ≤ b) (hab : a ≠ b)
    (fa : w.self a = none) (fb : w.self b = none) :
    let mine := if write then b else a
    let std := if write then 0 else 1
    ∃ w' child, popen w m (some (a, b)) true = (some mine, w') ∧ w'.kids = w.kids ++ [child]
      ∧ w'.self mine = some (if write then .write w.pipes else .read w.pipes, ce) ∧ (∀ i, i ≠ mine → w'.self i = w.self i)
      ∧ child std = some (if write then .read w.pipes else .write w.pipes, false)
      ∧ (∀ i, i ≠ std → child i = (w.self i).filter fun e => !e.2) := by
  have a0 : a ≠ 0 := by omega
  have b0 : b ≠ 0 := by omega
  have a1 : a ≠ 1 := by omega
  have b1 : b ≠ 1 := by omega
  have a0' := a0.symm
  have b0' := b0.symm
  have a1' := a1.symm
  have b1' := b1.symm
  have hba := hab.symm
  have hp := parse_mode hm
  clear hm
  generalize hu : put (put w.self a (some (.read w.pipes, false))) b (some (.write w.pipes, false)) = u
  have ua : u a = some (.read w.pipes, false) := by rw [← hu]; simp [put, hab]
  have ub : u b = some (.write w.pipes, false) := by rw [← hu]; simp [put]
  have uo : ∀ i, i ≠ a → i ≠ b → u i = w.self i := by intro i h1 h2; rw [← hu]; simp [put, h1, h2]
  cases write
  · refine ⟨⟨if ce = true then put (close u b) a (((close u b) a).map fun e => (e.1, true)) else close u b, w.kids ++ [childTab u false a b], w.pipes + 1⟩,
      childTab u false a b, by simp [popen, hp, hu], rfl, ?_, fun i hi => ?_, ?_, fun i hi => ?_⟩
    · cases ce <;> simp [put, close, hab, ua]
    · simp only [Bool.false_eq_true, if_false] at hi
      have : close u b i = w.self i := by
        by_cases h2 : i = b
        · subst h2; simp [close, put, fb]
        · simp [close, put, h2, uo i hi h2]
      cases ce
      · exact this
      · show put (close u b) a _ i = _
        simp [put, hi, this]
    · simp [childTab, dup2, exec, put, close, b1, a1', b1', ub]
    · simp only [Bool.false_eq_true, if_false] at hi
      by_cases h1 : i = a
      · subst h1; simp [childTab, exec, put, close, fa, hab]
      · by_cases h2 : i = b
        · subst h2; simp [childTab, exec, put, close, fb]
        · simp [childTab, dup2, exec, put, close, b1, h1, h2, hi, uo i h1 h2]
  · refine ⟨⟨if ce = true then put (close u a) b (((close u a) b).map fun e => (e.1, true)) else close u a, w.kids ++ [childTab u true a b], w.pipes + 1⟩,
      childTab u true a b, by simp [popen, hp, hu], rfl, ?_, fun i hi => ?_, ?_, fun i hi => ?_⟩
    · cases ce <;> simp [put, close, hba, ub]
    · simp only [if_true] at hi
      have : close u a i = w.self i := by
        by_cases h2 : i = a
        · subst h2; simp [close, put, fa]
        · simp [close, put, h2, uo i h2 hi]
      cases ce
      · exact this
      · show put (close u a) b _ i = _
        simp [put, hi, this]
    · simp [childTab, dup2, exec, put, close, a0, a0', b0', ua]
    · simp only [if_true] at hi
      by_cases h1 : i = a
      · subst h1; simp [childTab, exec, put, close, fa, hab]
      · by_cases h2 : i = b
        · subst h2; simp [childTab, exec, put, close, fb]
        · simp [childTab, dup2, exec, put, close, a0, h1, h2, hi, uo i h1 h2]

/-- Standard input, output and error are open. -/
def std : World := ⟨fun i => if i < 3 then some (.other i, false) else none, [], 0⟩

example : (popen std [0x72] (some (3, 4)) true).1 = some 3 ∧ (popen std [0x72] (some (3, 4)) true).2.self 3 = some (.read 0, false)
    ∧ ((popen std [0x72] (some (3, 4)) true).2.kids.map fun t => (t 0, t 1)) = [(some (.other 0, false), some (.write 0, false))]
    ∧ (popen std [0x72, 0x77] (some (3, 4)) true).1 = none := by decide +kernel

/-- C122, violated by the code: **if `fork` fails, both ends of the pipe stay open**, and the caller does not know their numbers. -/
theorem C122_popen_fork_violation (w : World) (m : List UInt8) (write ce : Bool) (hm : Mode m write ce) (a b : Nat) (hab : a ≠ b) :
    ∃ w', popen w m (some (a, b)) false = (none, w') ∧ w'.self a = some (.read w.pipes, false) ∧ w'.self b = some (.write w.pipes, false) := by
  refine ⟨_, by simp only [popen, parse_mode hm]; rfl, ?_, ?_⟩
  · simp [put, hab]
  · simp [put]

/-- C122, violated by the code: **if standard input is closed, the shell has none**. Then the pipe has the number 0; the child duplicates it onto itself and closes it. The same with standard output
for reading. -/
theorem C122_popen_std_violation :
    let w : World := ⟨fun i => if i = 1 ∨ i = 2 then some (.other i, false) else none, [], 0⟩
    ((popen w [0x77] (some (0, 3)) true).1 = some 3 ∧ ((popen w [0x77] (some (0, 3)) true).2.kids.map fun t => t 0) = [none])
    ∧ (let w : World := ⟨fun i => if i = 0 ∨ i = 2 then some (.other i, false) else none, [], 0⟩
      (popen w [0x72] (some (3, 1)) true).1 = some 3 ∧ ((popen w [0x72] (some (3, 1)) true).2.kids.map fun t => t 1) = [none]) := by
  decide +kernel

/-- C122, violated by the code: **a second shell keeps the first one's pipe open**. POSIX closes the streams of earlier calls of `popen` in the child; here, after two calls for
writing, when `pclose` has closed the first stream, the second shell still has the end for writing of the first pipe: the first one does not see the end of its input, and `pclose` waits
until the second one is gone. -/
theorem C122_popen_inherit_violation :
    let w1 := (popen std [0x77] (some (3, 4)) true).2
    let w2 := (popen w1 [0x77] (some (3, 5)) true).2
    (popen std [0x77] (some (3, 4)) true).1 = some 4 ∧ (popen w1 [0x77] (some (3, 5)) true).1 = some 5 ∧ Writable (pcloseClose w2 4) 0 := by
  refine ⟨by decide +kernel, by decide +kernel, ?_⟩
  refine ⟨((popen (popen std [0x77] (some (3, 4)) true).2 [0x77] (some (3, 5)) true).2.kids.getLastD std.self), ?_, 4, false, by decide +kernel⟩
  exact List.mem_cons_of_mem _ (List.mem_cons_of_mem _ List.mem_cons_self)

/-- C122, part: **with `e` in the mode** this does not happen: after `pclose` has closed the stream, nobody can write to its pipe, if nobody could before and the next shell is the only other
one. -/
theorem C122_popen_cloexec_partial (w : World) (m m' : List UInt8) (ce' : Bool) (write' : Bool) (hm : Mode m true true) (hm' : Mode m' write' ce') (a b a' b' : Nat)
    (ha : 2 ≤ a) (hb : 2 ≤ b) (hab : a ≠ b) (fa : w.self a = none) (fb : w.self b = none) (ha' : 2 ≤ a') (hb' : 2 ≤ b') (hab' : a' ≠ b') (hne : a' ≠ b) (hne' : b' ≠ b)
    (fa' : w.self a' = none) (fb' : w.self b' = none) (hw : ¬ Writable w w.pipes) :
    let w1 := (popen w m (some (a, b)) true).2
    let w2 := (popen w1 m' (some (a', b')) true).2
    ¬ Writable (pcloseClose w2 b) w.pipes := by
  intro w1 w2
  obtain ⟨v1, c1, e1, k1, s1, o1, d1, x1⟩ := C122_popen_partial w m true true hm a b ha hb hab fa fb
  have hw1 : w1 = v1 := congrArg Prod.snd e1
  have hp1 : v1.pipes = w.pipes + 1 := by
    rw [← hw1]; show (popen w m (some (a, b)) true).2.pipes = _
    simp [popen, parse_mode hm]
  simp only [if_true] at s1 o1 d1 x1
  have g1 : v1.self a' = none := by rw [o1 _ hne]; exact fa'
  have g2 : v1.self b' = none := by rw [o1 _ hne']; exact fb'
  obtain ⟨v2, c2, e2, k2, s2, o2, d2, x2⟩ := C122_popen_partial v1 m' write' ce' hm' a' b' ha' hb' hab' g1 g2
  have hw2 : w2 = v2 := by show (popen w1 m' (some (a', b')) true).2 = v2; rw [hw1, e2]
  rw [hw2]
  have hself : ∀ fd c, w.self fd ≠ some (.write w.pipes, c) := fun fd c h => hw ⟨_, List.mem_cons_self, fd, c, h⟩
  have h1 : ∀ fd c, fd ≠ b → v1.self fd ≠ some (.write w.pipes, c) := fun fd c hb h => hself fd c (by rw [← o1 fd hb]; exact h)
  have hbmine : b ≠ (if write' = true then b' else a') := by split <;> exact fun h => by first | exact hne' h.symm | exact hne h.symm
  rintro ⟨t, ht, fd, c, hfd⟩
  rw [List.mem_cons] at ht
  rcases ht with rfl | ht
  · simp only [pcloseClose, close, put] at hfd
    split at hfd
    · cases hfd
    · next hb =>
      by_cases hm2 : fd = (if write' = true then b' else a')
      · rw [hm2, s2, hp1] at hfd
        cases write' <;> simp at hfd
      · rw [o2 _ hm2] at hfd
        exact h1 fd c hb hfd
  · simp only [pcloseClose] at ht
    rw [k2, k1] at ht
    simp only [List.append_assoc, List.mem_append, List.mem_cons, List.not_mem_nil, or_false] at ht
    rcases ht with ht | rfl | rfl
    · exact hw ⟨t, List.mem_cons_of_mem _ ht, fd, c, hfd⟩
    · by_cases h0 : fd = 0
      · rw [h0, d1] at hfd; cases hfd
      · rw [x1 fd h0] at hfd
        have := Option.filter_eq_some_iff.1 hfd
        exact hself fd c this.1
    · by_cases h0 : fd = (if write' = true then 0 else 1)
      · rw [h0, d2, hp1] at hfd
        cases write' <;> simp at hfd
      · rw [x2 fd h0] at hfd
        obtain ⟨q1, q2⟩ := Option.filter_eq_some_iff.1 hfd
        by_cases hb : fd = b
        · subst hb
          rw [s1] at q1
          simp only [Option.some.injEq, Prod.mk.injEq] at q1
          rw [← q1.2] at q2
          simp at q2
        · exact h1 fd c hb q1

end Verif.Wait
