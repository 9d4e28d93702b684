import Verif.Signal.MaskModel
import Verif.Signal.SigsetProps
/-!
# The signal mask (C63, C64)
-/

namespace Verif.Signal

/-! ## Specification -/

/-- Signal `k` is allowed: its bit in the high half of its word is set. -/
def Allowed (c : Ctl) (k : Nat) : Prop :=
  1 ≤ k ∧ if k ≤ 32 then c.w0.getLsbD (32 + (k - 1)) = true else c.w1.getLsbD (32 + (k - 33)) = true

/-- Signal `k` is blocked for the thread. -/
def Blocked (c : Ctl) (k : Nat) : Prop := ¬ Allowed c k

/-- Signal `k` is pending for the thread: its bit in the low half of its word is set. -/
def Pending (c : Ctl) (k : Nat) : Prop :=
  1 ≤ k ∧ if k ≤ 32 then c.w0.getLsbD (k - 1) = true else c.w1.getLsbD (k - 33) = true

/-- Signal `k` is in the `sigset_t`. -/
def Mem (set : U64) (k : Nat) : Prop := 1 ≤ k ∧ set.getLsbD (k - 1) = true

/-- Somebody posted signal `k` to the thread before one of the accesses number `a`, …, `b - 1`. -/
def Posted (e : Env) (a b k : Nat) : Prop :=
  ∃ t, a ≤ t ∧ t < b ∧ Mem ((if k ≤ 32 then (e t).t0 else (e t).t1)) (if k ≤ 32 then k else k - 32)

/-- `SIGKILL` and `SIGSTOP`, which cannot be blocked. -/
def Unblockable (k : Nat) : Prop := k = 9 ∨ k = 19

/-- The two signals the library uses itself, which the program cannot block. -/
def Internal (k : Nat) : Prop := k = 33 ∨ k = 34

/-- The mask that POSIX prescribes for `how`: 0 = `SIG_BLOCK`, 1 = `SIG_UNBLOCK`, 2 = `SIG_SETMASK`. -/
def NewMask (how : Int) (old set : Nat → Prop) (k : Nat) : Prop :=
  (how = 0 ∧ (old k ∨ set k)) ∨ (how = 1 ∧ old k ∧ ¬ set k) ∨ (how = 2 ∧ set k)

/-- The invariant of the mask: `SIGKILL` and `SIGSTOP` are allowed. -/
def Ctl.Ok (c : Ctl) : Prop := ∀ k, Unblockable k → Allowed c k

/-- Nothing happened to the thread's pending signals but what others posted. -/
def PendingKept (e : Env) (s s' : Mach) : Prop :=
  ∀ k, k ≤ 64 → (Pending s'.ctl k ↔ Pending s.ctl k ∨ Posted e s.time s'.time k)

/-! ## Lemmas: one word -/

theorem getLsbD_lo32 (i : Nat) : lo32.getLsbD i = decide (i < 32) := by
  have : lo32 = (BitVec.allOnes 32).setWidth 64 := by decide
  rw [this, BitVec.getLsbD_setWidth, BitVec.getLsbD_allOnes]
  by_cases h : i < 32
  · simp [h]; omega
  · simp [h]

theorem and_zero_of {x y : U64} (h : ∀ i, i < 64 → ¬ (x.getLsbD i = true ∧ y.getLsbD i = true)) : x &&& y = 0#64 := by
  apply BitVec.eq_of_getLsbD_eq
  intro i hi
  rw [BitVec.getLsbD_and]
  have := h i hi
  simp
  cases hx : x.getLsbD i <;> cases hy : y.getLsbD i <;> simp_all

/-- The word whose high half is the low half of `a` and whose low half is that of `w`. -/
def join (a w : U64) : U64 := ((a &&& lo32) <<< 32) ||| (w &&& lo32)

theorem join_add (a w : U64) : join a w = ((a &&& lo32) <<< 32) + (w &&& lo32) := by
  unfold join
  rw [BitVec.add_eq_or_of_and_eq_zero]
  apply and_zero_of
  intro i hi
  simp only [BitVec.getLsbD_shiftLeft, BitVec.getLsbD_and, getLsbD_lo32]
  simp
  omega

theorem join_self {a w : U64} (h : w >>> 32 = a &&& lo32) : join a w = w := by
  apply BitVec.eq_of_getLsbD_eq
  intro i hi
  unfold join
  rw [← h]
  simp only [BitVec.getLsbD_or, BitVec.getLsbD_shiftLeft, BitVec.getLsbD_and, getLsbD_lo32, BitVec.getLsbD_ushiftRight]
  by_cases h32 : i < 32
  · simp [h32]
  · simp [h32, hi, show 32 + (i - 32) = i by omega]

theorem word_add {old new w : U64} (h : w >>> 32 = old &&& lo32) :
    w + (((new &&& lo32) <<< 32) - ((old &&& lo32) <<< 32)) = join new w := by
  have e := join_self h
  rw [join_add] at e
  rw [join_add]
  generalize (new &&& lo32) <<< 32 = N at *
  generalize (old &&& lo32) <<< 32 = O at *
  generalize w &&& lo32 = L at *
  subst e
  grind

theorem shift_and (x : U64) : (x >>> 32) &&& lo32 = x >>> 32 := by
  apply BitVec.eq_of_getLsbD_eq
  intro i hi
  simp only [BitVec.getLsbD_and, getLsbD_lo32, BitVec.getLsbD_ushiftRight]
  by_cases h32 : i < 32
  · simp [h32]
  · simp [h32]; exact BitVec.getLsbD_of_ge _ _ (by omega)

theorem post_high (w p : U64) : (w ||| (p &&& lo32)) >>> 32 = w >>> 32 := by
  apply BitVec.eq_of_getLsbD_eq
  intro i hi
  simp only [BitVec.getLsbD_or, BitVec.getLsbD_and, getLsbD_lo32, BitVec.getLsbD_ushiftRight]
  simp [show ¬ 32 + i < 32 by omega]

theorem join_high (a w : U64) (i : Nat) (hi : i < 32) : (join a w).getLsbD (32 + i) = a.getLsbD i := by
  unfold join
  simp only [BitVec.getLsbD_or, BitVec.getLsbD_and, getLsbD_lo32, BitVec.getLsbD_shiftLeft]
  simp [hi, show 32 + i < 64 by omega, show ¬ 32 + i < 32 by omega, show 32 + i - 32 = i by omega]

theorem join_low (a w : U64) (i : Nat) (hi : i < 32) : (join a w).getLsbD i = w.getLsbD i := by
  unfold join
  simp only [BitVec.getLsbD_or, BitVec.getLsbD_and, getLsbD_lo32, BitVec.getLsbD_shiftLeft]
  simp [hi]

theorem join_shift (a w : U64) : join a w >>> 32 = a &&& lo32 := by
  apply BitVec.eq_of_getLsbD_eq
  intro i hi
  rw [BitVec.getLsbD_ushiftRight, BitVec.getLsbD_and, getLsbD_lo32]
  by_cases h32 : i < 32
  · rw [join_high a w i h32]; simp [h32]
  · simp [h32]; exact BitVec.getLsbD_of_ge _ _ (by omega)

/-! ## Lemmas: the functions -/

/-- The allow set. -/
def Ctl.allow (c : Ctl) : U64 := (c.w0 >>> 32) ||| ((c.w1 >>> 32) <<< 32)

theorem allow_low (c : Ctl) : c.allow &&& lo32 = c.w0 >>> 32 := by
  apply BitVec.eq_of_getLsbD_eq
  intro i hi
  simp only [Ctl.allow, BitVec.getLsbD_or, BitVec.getLsbD_and, getLsbD_lo32, BitVec.getLsbD_shiftLeft,
    BitVec.getLsbD_ushiftRight]
  by_cases h32 : i < 32
  · simp [h32]
  · simp [h32]; exact BitVec.getLsbD_of_ge c.w0 (32 + i) (by omega)

theorem allow_high (c : Ctl) : c.allow >>> 32 = c.w1 >>> 32 := by
  apply BitVec.eq_of_getLsbD_eq
  intro i hi
  simp only [Ctl.allow, BitVec.getLsbD_or, BitVec.getLsbD_shiftLeft, BitVec.getLsbD_ushiftRight]
  by_cases h32 : i < 32
  · rw [BitVec.getLsbD_of_ge c.w0 (32 + (32 + i)) (by omega)]
    simp [show 32 + i < 64 by omega, show ¬ 32 + i < 32 by omega, show 32 + i - 32 = i by omega]
  · rw [BitVec.getLsbD_of_ge c.w0 (32 + (32 + i)) (by omega), BitVec.getLsbD_of_ge c.w1 (32 + i) (by omega)]
    simp [show ¬ 32 + i < 64 by omega]

theorem allow_ext {c d : Ctl} (h0 : d.w0 >>> 32 = c.w0 >>> 32) (h1 : d.w1 >>> 32 = c.w1 >>> 32) :
    d.allow = c.allow := by
  unfold Ctl.allow
  rw [h0, h1]

theorem getLsbD_allow (c : Ctl) (i : Nat) (hi : i < 64) : c.allow.getLsbD i = true ↔ Allowed c (i + 1) := by
  unfold Ctl.allow Allowed
  simp only [BitVec.getLsbD_or, BitVec.getLsbD_shiftLeft, BitVec.getLsbD_ushiftRight]
  by_cases h32 : i < 32
  · simp [h32, show i + 1 ≤ 32 by omega, Nat.add_comm]
  · have h1 : ¬ i + 1 ≤ 32 := by omega
    rw [if_neg h1, show i + 1 - 33 = i - 32 by omega]
    simp only [h32, hi, decide_true, decide_false, Bool.not_false, Bool.true_and, Bool.or_eq_true]
    rw [BitVec.getLsbD_of_ge c.w0 (32 + i) (by omega)]
    simp

theorem post_allow (c : Ctl) (p : Post) : (c.post p).allow = c.allow :=
  allow_ext (post_high _ _) (post_high _ _)

theorem getAllowset_eq (e : Env) (s : Mach) :
    getAllowset e s = (s.ctl.allow, ⟨(s.ctl.post (e s.time)).post (e (s.time + 1)), s.time + 2⟩) := by
  have h1 := post_high s.ctl.w0 (e s.time).t0
  have h2 := post_high s.ctl.w1 (e s.time).t1
  have h3 := post_high (s.ctl.w1 ||| ((e s.time).t1 &&& lo32)) (e (s.time + 1)).t1
  simp only [getAllowset, load0, load1, access, Ctl.post, h1, h2, h3, Ctl.allow]

theorem word_add' {old new w : U64} (h : w >>> 32 = old >>> 32) :
    w + (((new >>> 32) <<< 32) - ((old >>> 32) <<< 32)) = join (new >>> 32) w := by
  have := word_add (old := old >>> 32) (new := new >>> 32) (w := w) (by rw [shift_and, h])
  rwa [shift_and, shift_and] at this

/-- `set_allowset_raw` with the right `old`. -/
theorem setAllowset_eq (e : Env) (s : Mach) (new : U64) :
    setAllowset e s s.ctl.allow new =
      let c := s.ctl.post (e s.time)
      let d := Ctl.post ⟨join (new ||| allowsetAlways) c.w0, c.w1, c.proc⟩ (e (s.time + 1))
      ((c.w0 &&& lo32) ||| ((d.w1 &&& lo32) <<< 32),
        ⟨⟨d.w0, join ((new ||| allowsetAlways) >>> 32) d.w1, d.proc⟩, s.time + 2⟩) := by
  have h0 : (s.ctl.w0 ||| ((e s.time).t0 &&& lo32)) >>> 32 = s.ctl.allow &&& lo32 := by
    rw [allow_low, post_high]
  have h1 : ((s.ctl.w1 ||| ((e s.time).t1 &&& lo32)) ||| ((e (s.time + 1)).t1 &&& lo32)) >>> 32 = s.ctl.allow >>> 32 := by
    rw [allow_high, post_high, post_high]
  simp only [setAllowset, fetchAdd0, fetchAdd1, access, Ctl.post]
  rw [word_add h0, word_add' h1]

/-- The pending set of the thread. -/
def Ctl.pend (c : Ctl) : U64 := (c.w0 &&& lo32) ||| ((c.w1 &&& lo32) <<< 32)

/-- The set of signals posted to the thread. -/
def Post.bits (p : Post) : U64 := (p.t0 &&& lo32) ||| ((p.t1 &&& lo32) <<< 32)

theorem getLsbD_halves (a b : U64) (i : Nat) (hi : i < 64) :
    ((a &&& lo32) ||| ((b &&& lo32) <<< 32)).getLsbD i = if i < 32 then a.getLsbD i else b.getLsbD (i - 32) := by
  simp only [BitVec.getLsbD_or, BitVec.getLsbD_and, getLsbD_lo32, BitVec.getLsbD_shiftLeft]
  by_cases h : i < 32
  · simp [h]
  · simp [h, hi]
    omega

theorem getLsbD_pend (c : Ctl) (i : Nat) (hi : i < 64) : c.pend.getLsbD i = true ↔ Pending c (i + 1) := by
  unfold Ctl.pend Pending
  rw [getLsbD_halves _ _ _ hi]
  by_cases h : i < 32
  · rw [if_pos h, if_pos (by omega)]
    simp
  · rw [if_neg h, if_neg (by omega), show i + 1 - 33 = i - 32 by omega]
    simp

theorem posted_iff (e : Env) (a b i : Nat) (hi : i < 64) :
    Posted e a b (i + 1) ↔ ∃ t, a ≤ t ∧ t < b ∧ (e t).bits.getLsbD i = true := by
  unfold Posted Mem Post.bits
  have : ∀ t, ((1 ≤ if i + 1 ≤ 32 then i + 1 else i + 1 - 32) ∧
      (if i + 1 ≤ 32 then (e t).t0 else (e t).t1).getLsbD ((if i + 1 ≤ 32 then i + 1 else i + 1 - 32) - 1) = true)
      ↔ (((e t).t0 &&& lo32) ||| (((e t).t1 &&& lo32) <<< 32)).getLsbD i = true := by
    intro t
    rw [getLsbD_halves _ _ _ hi]
    by_cases h : i < 32
    · rw [if_pos h]
      simp [show i + 1 ≤ 32 by omega]
    · rw [if_neg h]
      simp only [show ¬ i + 1 ≤ 32 by omega, if_false]
      rw [show i + 1 - 32 - 1 = i - 32 by omega]
      exact ⟨fun h => h.2, fun h => ⟨by omega, h⟩⟩
  simp only [this]

theorem post_pend (c : Ctl) (p : Post) : (c.post p).pend = c.pend ||| p.bits := by
  apply BitVec.eq_of_getLsbD_eq
  intro i hi
  rw [BitVec.getLsbD_or, Ctl.pend, Ctl.pend, Post.bits, getLsbD_halves _ _ _ hi, getLsbD_halves _ _ _ hi,
    getLsbD_halves _ _ _ hi]
  simp only [Ctl.post, BitVec.getLsbD_or, BitVec.getLsbD_and, getLsbD_lo32]
  by_cases h : i < 32
  · simp [h]
  · simp [h, show i - 32 < 32 by omega]

theorem pend_join0 (c : Ctl) (a : U64) : (Ctl.pend ⟨join a c.w0, c.w1, c.proc⟩) = c.pend := by
  apply BitVec.eq_of_getLsbD_eq
  intro i hi
  rw [Ctl.pend, Ctl.pend, getLsbD_halves _ _ _ hi, getLsbD_halves _ _ _ hi]
  by_cases h : i < 32
  · rw [if_pos h, if_pos h, join_low _ _ _ h]
  · rw [if_neg h, if_neg h]

theorem pend_join1 (c : Ctl) (a : U64) : (Ctl.pend ⟨c.w0, join a c.w1, c.proc⟩) = c.pend := by
  apply BitVec.eq_of_getLsbD_eq
  intro i hi
  rw [Ctl.pend, Ctl.pend, getLsbD_halves _ _ _ hi, getLsbD_halves _ _ _ hi]
  by_cases h : i < 32
  · rw [if_pos h, if_pos h]
  · rw [if_neg h, if_neg h, join_low _ _ _ (by omega)]

/-- From `s` to `s'` the thread's pending set got exactly what others posted. -/
structure Kept (e : Env) (s s' : Mach) : Prop where
  time : s.time ≤ s'.time
  pend : ∀ i, i < 64 → (s'.ctl.pend.getLsbD i = true ↔
    s.ctl.pend.getLsbD i = true ∨ ∃ t, s.time ≤ t ∧ t < s'.time ∧ (e t).bits.getLsbD i = true)

theorem Kept.trans {e : Env} {a b c : Mach} (h : Kept e a b) (k : Kept e b c) : Kept e a c := by
  have h1 := h.time
  have h2 := k.time
  refine ⟨by omega, fun i hi => ?_⟩
  rw [k.pend i hi, h.pend i hi]
  constructor
  · rintro ((h | ⟨t, h3, h4, h5⟩) | ⟨t, h3, h4, h5⟩)
    · exact .inl h
    · exact .inr ⟨t, h3, by omega, h5⟩
    · exact .inr ⟨t, by omega, h4, h5⟩
  · rintro (h | ⟨t, h3, h4, h5⟩)
    · exact .inl (.inl h)
    · by_cases ht : t < b.time
      · exact .inl (.inr ⟨t, h3, ht, h5⟩)
      · exact .inr ⟨t, by omega, h4, h5⟩

theorem Kept.refl (e : Env) (s : Mach) : Kept e s s := by
  refine ⟨Nat.le_refl _, fun i _ => ⟨.inl, ?_⟩⟩
  rintro (h | ⟨t, h1, h2, _⟩)
  · exact h
  · omega

/-- One access that leaves the pending bits alone. -/
theorem Kept.access (e : Env) (s : Mach) (c : Ctl) (h : c.pend = (s.ctl.post (e s.time)).pend) :
    Kept e s ⟨c, s.time + 1⟩ := by
  refine ⟨by simp, fun i hi => ?_⟩
  rw [h, post_pend, BitVec.getLsbD_or, Bool.or_eq_true]
  constructor
  · rintro (h | h)
    · exact .inl h
    · exact .inr ⟨s.time, by omega, by simp, h⟩
  · rintro (h | ⟨t, h1, h2, h3⟩)
    · exact .inl h
    · have : t = s.time := by simp at h2; omega
      exact .inr (this ▸ h3)

theorem getAllowset_kept (e : Env) (s : Mach) : Kept e s (getAllowset e s).2
    ∧ (getAllowset e s).2.ctl.allow = s.ctl.allow ∧ (getAllowset e s).1 = s.ctl.allow := by
  rw [getAllowset_eq]
  refine ⟨(Kept.access e s _ rfl).trans (Kept.access e ⟨s.ctl.post (e s.time), s.time + 1⟩ _ rfl), ?_, rfl⟩
  rw [post_allow, post_allow]

theorem setAllowset_kept (e : Env) (s : Mach) (old new : U64) (h : old = s.ctl.allow) :
    Kept e s (setAllowset e s old new).2
    ∧ (setAllowset e s old new).2.ctl.allow = new ||| allowsetAlways
    ∧ ∀ i, i < 64 → s.ctl.pend.getLsbD i = true → (setAllowset e s old new).1.getLsbD i = true := by
  subst h
  rw [setAllowset_eq]
  refine ⟨?_, ?_, ?_⟩
  · refine (Kept.access e s ⟨join (new ||| allowsetAlways) (s.ctl.post (e s.time)).w0, (s.ctl.post (e s.time)).w1,
      (s.ctl.post (e s.time)).proc⟩ (pend_join0 _ _)).trans
      (Kept.access e ⟨_, s.time + 1⟩ _ (pend_join1 _ _))
  · generalize new ||| allowsetAlways = n
    simp only [Ctl.allow, Ctl.post]
    rw [post_high, join_shift, join_shift, shift_and]
    apply BitVec.eq_of_getLsbD_eq
    intro i hi
    simp only [BitVec.getLsbD_or, BitVec.getLsbD_and, getLsbD_lo32, BitVec.getLsbD_shiftLeft, BitVec.getLsbD_ushiftRight]
    by_cases h : i < 32
    · simp [h]
    · simp [h, hi, show 32 + (i - 32) = i by omega]
  · intro i hi h
    rw [getLsbD_halves _ _ _ hi]
    rw [Ctl.pend, getLsbD_halves _ _ _ hi] at h
    simp only [Ctl.post, BitVec.getLsbD_or]
    by_cases h32 : i < 32
    · rw [if_pos h32] at h ⊢
      simp [h]
    · rw [if_neg h32] at h ⊢
      simp [h]

theorem loadProc_kept (e : Env) (s : Mach) : Kept e s (loadProc e s).2 ∧ (loadProc e s).2.ctl.allow = s.ctl.allow :=
  ⟨Kept.access e s _ rfl, post_allow _ _⟩

theorem sleep_kept (e : Env) (s : Mach) : Kept e s (sleep e s).2 ∧ (sleep e s).2.ctl.allow = s.ctl.allow :=
  ⟨Kept.access e s _ rfl, post_allow _ _⟩

theorem modifySigmask_none (e : Env) (s : Mach) : Kept e s (modifySigmask e s none).2
    ∧ (modifySigmask e s none).2.ctl.allow = s.ctl.allow ∧ (modifySigmask e s none).1.old = ~~~ s.ctl.allow
    ∧ (modifySigmask e s none).1.entered = false := by
  obtain ⟨h1, h2, h3⟩ := getAllowset_kept e s
  unfold modifySigmask
  exact ⟨h1, h2, by simp only [h3], rfl⟩

theorem modifySigmask_some (e : Env) (s : Mach) (op : U64 → U64) : Kept e s (modifySigmask e s (some op)).2
    ∧ (modifySigmask e s (some op)).2.ctl.allow = ~~~ op (~~~ s.ctl.allow) ||| allowsetAlways
    ∧ (modifySigmask e s (some op)).1.old = ~~~ s.ctl.allow
    ∧ ((∃ i, i < 64 ∧ s.ctl.pend.getLsbD i = true ∧ (op (~~~ s.ctl.allow)).getLsbD i = false) →
      (modifySigmask e s (some op)).1.entered = true) := by
  obtain ⟨h1, h2, h3⟩ := getAllowset_kept e s
  obtain ⟨k1, k2, k3⟩ := setAllowset_kept e (getAllowset e s).2 s.ctl.allow (~~~ op (~~~ s.ctl.allow)) h2.symm
  have e1 : modifySigmask e s (some op) =
      (⟨~~~ (getAllowset e s).1,
        ((setAllowset e (getAllowset e s).2 (getAllowset e s).1 (~~~ op (~~~ (getAllowset e s).1))).1
          ||| (loadProc e (setAllowset e (getAllowset e s).2 (getAllowset e s).1 (~~~ op (~~~ (getAllowset e s).1))).2).1)
          &&& ~~~ op (~~~ (getAllowset e s).1) ≠ 0⟩,
        (loadProc e (setAllowset e (getAllowset e s).2 (getAllowset e s).1 (~~~ op (~~~ (getAllowset e s).1))).2).2) := rfl
  rw [e1, h3]
  clear e1
  generalize setAllowset e (getAllowset e s).2 s.ctl.allow (~~~ op (~~~ s.ctl.allow)) = r at *
  generalize getAllowset e s = g at *
  obtain ⟨l1, l2⟩ := loadProc_kept e r.2
  generalize loadProc e r.2 = q at *
  refine ⟨(h1.trans k1).trans l1, by rw [l2, k2], rfl, ?_⟩
  rintro ⟨i, hi, hp, ho⟩
  have hp2 := (h1.pend i hi).mpr (.inl hp)
  have hp3 := k3 i hi hp2
  simp only [ne_eq, decide_eq_true_eq]
  intro hz
  have := congrArg (BitVec.getLsbD · i) hz
  simp only [BitVec.getLsbD_and, BitVec.getLsbD_or, BitVec.getLsbD_not, hi, ho, hp3] at this
  simp at this

theorem Kept.pendingKept {e : Env} {s s' : Mach} (h : Kept e s s') : PendingKept e s s' := by
  intro k hk
  cases k with
  | zero =>
    have : ∀ c : Ctl, ¬ Pending c 0 := fun c h => by unfold Pending at h; omega
    have h2 : ¬ Posted e s.time s'.time 0 := by
      rintro ⟨t, _, _, h, _⟩
      simp at h
    simp [this, h2]
  | succ i =>
    rw [← getLsbD_pend _ i (by omega), ← getLsbD_pend _ i (by omega), posted_iff _ _ _ i (by omega)]
    exact h.pend i (by omega)

theorem getLsbD_always (i : Nat) : allowsetAlways.getLsbD i = true ↔ Unblockable (i + 1) := by
  unfold allowsetAlways Unblockable
  rw [BitVec.getLsbD_or, getLsbD_bit _ _ (by omega), getLsbD_bit _ _ (by omega)]
  simp
  omega

theorem getLsbD_rlct (i : Nat) : rlctMask.getLsbD i = true ↔ Internal (i + 1) := by
  unfold rlctMask Internal
  rw [BitVec.getLsbD_or, getLsbD_bit _ _ (by omega), getLsbD_bit _ _ (by omega)]
  simp
  omega

theorem blocked_iff {c : Ctl} {a : U64} (h : c.allow = a ||| allowsetAlways) (i : Nat) (hi : i < 64) :
    Blocked c (i + 1) ↔ a.getLsbD i = false ∧ ¬ Unblockable (i + 1) := by
  unfold Blocked
  rw [← getLsbD_allow c i hi, h, BitVec.getLsbD_or, Bool.or_eq_true, getLsbD_always, not_or]
  simp

theorem blocked_iff' (c : Ctl) (i : Nat) (hi : i < 64) : Blocked c (i + 1) ↔ c.allow.getLsbD i = false := by
  unfold Blocked
  rw [← getLsbD_allow c i hi]
  simp

theorem mem_filter (set : U64) (i : Nat) (hi : i < 64) :
    (set &&& ~~~ rlctMask).getLsbD i = true ↔ Mem set (i + 1) ∧ ¬ Internal (i + 1) := by
  rw [← getLsbD_rlct, BitVec.getLsbD_and, BitVec.getLsbD_not]
  simp [Mem, hi]

/-! ## C63 -/

/-- What `sigprocmask` has to do when `set` is not null and `how` is one of the three. -/
structure Procmask (e : Env) (s : Mach) (how : Int) (set : U64) (want : Bool) (r : ProcmaskResult) (s' : Mach) : Prop where
  ret : r.ret = 0
  /-- The new mask is as prescribed; the internal signals in `set` are ignored; `SIGKILL` and `SIGSTOP` stay allowed. -/
  mask : ∀ k, 1 ≤ k → k ≤ 64 → (Blocked s'.ctl k ↔
    NewMask how (Blocked s.ctl) (fun k => Mem set k ∧ ¬ Internal k) k ∧ ¬ Unblockable k)
  /-- The old mask is reported, without the internal signals. -/
  oset : (want = false → r.oset = none) ∧ (want = true → ∃ o, r.oset = some o
    ∧ ∀ k, 1 ≤ k → k ≤ 64 → (Mem o k ↔ Blocked s.ctl k ∧ ¬ Internal k))
  /-- No signal sent to the thread is lost and none is invented. -/
  pending : PendingKept e s s'
  /-- A signal that was pending and is not blocked by the new mask is delivered before the call returns. -/
  deliver : (∃ k, 1 ≤ k ∧ k ≤ 64 ∧ Pending s.ctl k ∧ ¬ NewMask how (Blocked s.ctl) (fun k => Mem set k ∧ ¬ Internal k) k) →
    r.entered = true

theorem oset_spec (s : Mach) (o : U64) (ho : o = ~~~ s.ctl.allow &&& ~~~ rlctMask) (k : Nat) (h1 : 1 ≤ k) (h2 : k ≤ 64) :
    Mem o k ↔ Blocked s.ctl k ∧ ¬ Internal k := by
  obtain ⟨i, rfl⟩ : ∃ i, k = i + 1 := ⟨k - 1, by omega⟩
  subst ho
  rw [Mem, show i + 1 - 1 = i by omega, mem_filter _ i (by omega), Mem, show i + 1 - 1 = i by omega,
    BitVec.getLsbD_not, blocked_iff' _ _ (by omega)]
  simp [show i < 64 by omega]

theorem procmask_of (e : Env) (s : Mach) (how : Int) (set : U64) (want : Bool) (op : U64 → U64)
    (hop : ∀ i, i < 64 → ((op (~~~ s.ctl.allow)).getLsbD i = true ↔
      NewMask how (Blocked s.ctl) (fun k => Mem set k ∧ ¬ Internal k) (i + 1)))
    (r : ProcmaskResult) (s' : Mach)
    (hr : r = ⟨0, if want then some ((modifySigmask e s (some op)).1.old &&& ~~~ rlctMask) else none,
      (modifySigmask e s (some op)).1.entered⟩) (hs : s' = (modifySigmask e s (some op)).2) :
    Procmask e s how set want r s' := by
  obtain ⟨h1, h2, h3, h4⟩ := modifySigmask_some e s op
  rw [hr, hs]
  refine ⟨rfl, ?_, ⟨?_, ?_⟩, h1.pendingKept, ?_⟩
  · intro k hk1 hk2
    obtain ⟨i, rfl⟩ : ∃ i, k = i + 1 := ⟨k - 1, by omega⟩
    rw [blocked_iff h2 i (by omega), ← hop i (by omega), BitVec.getLsbD_not]
    simp [show i < 64 by omega]
  · intro hw; simp [hw]
  · intro hw
    exact ⟨~~~ s.ctl.allow &&& ~~~ rlctMask, by simp only [hw, if_true, h3], oset_spec s _ rfl⟩
  · rintro ⟨k, hk1, hk2, hp, hn⟩
    obtain ⟨i, rfl⟩ : ∃ i, k = i + 1 := ⟨k - 1, by omega⟩
    refine h4 ⟨i, by omega, (getLsbD_pend _ i (by omega)).mpr hp, ?_⟩
    rw [← hop i (by omega)] at hn
    simpa using hn

theorem newmask_block (s : Mach) (set : U64) (i : Nat) (hi : i < 64) :
    (~~~ s.ctl.allow ||| (set &&& ~~~ rlctMask)).getLsbD i = true ↔
      NewMask 0 (Blocked s.ctl) (fun k => Mem set k ∧ ¬ Internal k) (i + 1) := by
  rw [BitVec.getLsbD_or, Bool.or_eq_true, mem_filter _ i hi, BitVec.getLsbD_not]
  simp [NewMask, blocked_iff' _ _ hi, hi]

theorem newmask_unblock (s : Mach) (set : U64) (i : Nat) (hi : i < 64) :
    (~~~ s.ctl.allow &&& ~~~ (set &&& ~~~ rlctMask)).getLsbD i = true ↔
      NewMask 1 (Blocked s.ctl) (fun k => Mem set k ∧ ¬ Internal k) (i + 1) := by
  rw [BitVec.getLsbD_and, Bool.and_eq_true, BitVec.getLsbD_not, BitVec.getLsbD_not]
  have := mem_filter set i hi
  simp only [NewMask, blocked_iff' _ _ hi, ← this]
  generalize (set &&& ~~~ rlctMask).getLsbD i = b
  simp [hi]

theorem newmask_set (s : Mach) (set : U64) (i : Nat) (hi : i < 64) :
    (set &&& ~~~ rlctMask).getLsbD i = true ↔
      NewMask 2 (Blocked s.ctl) (fun k => Mem set k ∧ ¬ Internal k) (i + 1) := by
  rw [mem_filter _ i hi]
  simp [NewMask]

/-- C63: `sigprocmask` with a set changes the mask as POSIX prescribes, reports the old one, keeps `SIGKILL`, `SIGSTOP`
and the library's internal signals deliverable, and loses no signal, whatever is sent to the thread meanwhile. -/
theorem C63_sigprocmask (e : Env) (s : Mach) (how : Int) (set : U64) (want : Bool) (hh : how = 0 ∨ how = 1 ∨ how = 2) :
    Procmask e s how set want (sigprocmask e s how (some set) want).1 (sigprocmask e s how (some set) want).2 := by
  rcases hh with rfl | rfl | rfl
  · exact procmask_of e s 0 set want _ (newmask_block s set) _ _ rfl rfl
  · exact procmask_of e s 1 set want _ (newmask_unblock s set) _ _ rfl rfl
  · exact procmask_of e s 2 set want (fun _ => set &&& ~~~ rlctMask) (newmask_set s set) _ _ rfl rfl

/-- C63, an unknown `how` is refused and nothing happens. -/
theorem C63_bad_how (e : Env) (s : Mach) (how : Int) (set : U64) (want : Bool)
    (hh : ¬ (how = 0 ∨ how = 1 ∨ how = 2)) : sigprocmask e s how (some set) want = (⟨-1, none, false⟩, s) := by
  unfold sigprocmask
  simp only [Option.map_some]
  rw [if_neg (by omega), if_neg (by omega), if_neg (by omega)]

/-- C63, without a set the mask is only reported, for any `how`. -/
theorem C63_query (e : Env) (s : Mach) (how : Int) :
    ∃ o s', sigprocmask e s how none true = (⟨0, some o, false⟩, s') ∧ PendingKept e s s'
      ∧ (∀ k, 1 ≤ k → k ≤ 64 → (Mem o k ↔ Blocked s.ctl k ∧ ¬ Internal k))
      ∧ ∀ k, 1 ≤ k → k ≤ 64 → (Blocked s'.ctl k ↔ Blocked s.ctl k) := by
  obtain ⟨h1, h2, h3, h4⟩ := modifySigmask_none e s
  refine ⟨~~~ s.ctl.allow &&& ~~~ rlctMask, (modifySigmask e s none).2, ?_, h1.pendingKept, oset_spec s _ rfl, ?_⟩
  · simp only [sigprocmask, Option.map_none, if_true]
    rw [h3, h4]
  · intro k hk1 hk2
    obtain ⟨i, rfl⟩ : ∃ i, k = i + 1 := ⟨k - 1, by omega⟩
    rw [blocked_iff' _ i (by omega), blocked_iff' _ i (by omega), h2]

/-- A call of `sigprocmask`. -/
structure MaskCall where
  how : Int
  set : Option U64
  want : Bool

/-- C63, for every sequence of calls: a thread that starts with the internal signals, `SIGKILL` and `SIGSTOP` unblocked
keeps them unblocked. -/
theorem C63_always_deliverable (e : Env) (calls : List MaskCall) (s : Mach)
    (h : ∀ k, Internal k ∨ Unblockable k → ¬ Blocked s.ctl k) :
    ∀ k, Internal k ∨ Unblockable k →
      ¬ Blocked (calls.foldl (fun s c => (sigprocmask e s c.how c.set c.want).2) s).ctl k := by
  induction calls generalizing s with
  | nil => exact h
  | cons c cs ih =>
    refine ih _ fun k hk => ?_
    have hk1 : 1 ≤ k ∧ k ≤ 64 := by unfold Internal Unblockable at hk; omega
    rcases c with ⟨how, set, want⟩
    cases set with
    | none =>
      cases want with
      | false => exact h k hk
      | true =>
        obtain ⟨o, s', he, _, _, hb⟩ := C63_query e s how
        simp only [he]
        rw [hb k hk1.1 hk1.2]
        exact h k hk
    | some set =>
      by_cases hh : how = 0 ∨ how = 1 ∨ how = 2
      · have hp := C63_sigprocmask e s how set want hh
        simp only
        rw [hp.mask k hk1.1 hk1.2]
        have hb := h k hk
        unfold NewMask
        grind
      · simp only
        rw [C63_bad_how e s how set want hh]
        exact h k hk

/-! ## C64 -/

/-- The mask is the same as before. -/
def SameMask (s s' : Mach) : Prop := ∀ k, 1 ≤ k → k ≤ 64 → (Blocked s'.ctl k ↔ Blocked s.ctl k)

theorem sameMask_of {s s' : Mach} (h : s'.ctl.allow = s.ctl.allow) : SameMask s s' := by
  intro k hk1 hk2
  obtain ⟨i, rfl⟩ : ∃ i, k = i + 1 := ⟨k - 1, by omega⟩
  rw [blocked_iff' _ i (by omega), blocked_iff' _ i (by omega), h]

theorem or_always {a : U64} (h : ∀ k, Unblockable k → a.getLsbD (k - 1) = true) : a ||| allowsetAlways = a := by
  apply BitVec.eq_of_getLsbD_eq
  intro i hi
  rw [BitVec.getLsbD_or]
  by_cases hu : Unblockable (i + 1)
  · have := h _ hu
    rw [show i + 1 - 1 = i by omega] at this
    simp [this]
  · have : allowsetAlways.getLsbD i = false := by
      rw [← Bool.not_eq_true, getLsbD_always]; exact hu
    simp [this]

theorem ok_allow {c : Ctl} (h : c.Ok) : c.allow ||| allowsetAlways = c.allow := by
  refine or_always fun k hk => ?_
  have := h k hk
  unfold Unblockable at hk
  rw [show k = (k - 1) + 1 by omega] at this
  exact (getLsbD_allow c (k - 1) (by omega)).mpr this

theorem restore (e : Env) (s s1 s2 : Mach) (inner : U64) (hs : s.ctl.Ok) (hi : ∀ k, Unblockable k → Mem inner k)
    (h1 : s1.ctl.allow = s.ctl.allow) (h12 : s2.ctl.allow = (setAllowset e s1 s.ctl.allow inner).2.ctl.allow) :
    (setAllowset e s2 inner s.ctl.allow).2.ctl.allow = s.ctl.allow ∧ Kept e s1 (setAllowset e s1 s.ctl.allow inner).2
    ∧ Kept e s2 (setAllowset e s2 inner s.ctl.allow).2 := by
  have hin := or_always (a := inner) fun k hk => (hi k hk).2
  obtain ⟨k1, k2, -⟩ := setAllowset_kept e s1 s.ctl.allow inner h1.symm
  rw [k2, hin] at h12
  obtain ⟨l1, l2, -⟩ := setAllowset_kept e s2 inner s.ctl.allow h12.symm
  exact ⟨by rw [l2, ok_allow hs], k1, l1⟩

/-- C64, `sigsuspend` (`ppoll`, `pselect`, `epoll_pwait`) restores the mask, provided that the temporary mask contains
neither `SIGKILL` nor `SIGSTOP`. Missing: any other mask, for which it is false (`C64_sigsuspend_violation`). -/
theorem C64_sigsuspend_partial (e : Env) (s : Mach) (mask : U64) (hs : s.ctl.Ok)
    (hm : ∀ k, Unblockable k → ¬ Mem mask k) :
    SameMask s (sigsuspend e s mask) ∧ PendingKept e s (sigsuspend e s mask)
    ∧ SameMask s (epollPwait e s mask) ∧ PendingKept e s (epollPwait e s mask) := by
  obtain ⟨h1, h2, h3⟩ := getAllowset_kept e s
  have hi : ∀ k, Unblockable k → Mem (~~~ mask) k := by
    intro k hk
    have := hm k hk
    unfold Unblockable at hk
    unfold Mem at *
    rw [BitVec.getLsbD_not]
    refine ⟨by omega, ?_⟩
    simp only [show k - 1 < 64 by omega, decide_true, Bool.true_and, Bool.not_eq_true']
    simpa [show 1 ≤ k by omega] using this
  have hsl := sleep_kept e (setAllowset e (getAllowset e s).2 s.ctl.allow (~~~ mask)).2
  obtain ⟨r1, r2, r3⟩ := restore e s (getAllowset e s).2
    (sleep e (setAllowset e (getAllowset e s).2 s.ctl.allow (~~~ mask)).2).2 (~~~ mask) hs hi h2 hsl.2
  have e1 : sigsuspend e s mask = (setAllowset e (sleep e (setAllowset e (getAllowset e s).2 s.ctl.allow
      (~~~ mask)).2).2 (~~~ mask) s.ctl.allow).2 := by
    simp only [sigsuspend, h3]
  have hk := ((h1.trans r2).trans hsl.1).trans r3
  rw [epollPwait, e1]
  exact ⟨sameMask_of r1, hk.pendingKept, sameMask_of r1, hk.pendingKept⟩

/-- C64, `sigwait` (`sigwaitinfo`, `sigtimedwait`) restores the mask, provided that both `SIGKILL` and `SIGSTOP` are in
the set. Missing: any other set, in particular all useful ones, for which it is false (`C64_sigwait_violation`). -/
theorem C64_sigwait_partial (e : Env) (s : Mach) (set : U64) (early : Bool) (hs : s.ctl.Ok)
    (hm : ∀ k, Unblockable k → Mem set k) :
    SameMask s (sigwait e s set early) ∧ PendingKept e s (sigwait e s set early) := by
  obtain ⟨h1, h2, h3⟩ := getAllowset_kept e s
  obtain ⟨l1, l2⟩ := loadProc_kept e (getAllowset e s).2
  generalize hs1 : (loadProc e (getAllowset e s).2).2 = s1 at *
  rw [h2] at l2
  cases early with
  | true =>
    obtain ⟨r1, r2, r3⟩ := restore e s s1 (setAllowset e s1 s.ctl.allow set).2 set hs hm l2 rfl
    have e1 : sigwait e s set true = (setAllowset e (setAllowset e s1 s.ctl.allow set).2 set s.ctl.allow).2 := by
      simp only [sigwait, h3, hs1, if_true]
    rw [e1]
    exact ⟨sameMask_of r1, (((h1.trans l1).trans r2).trans r3).pendingKept⟩
  | false =>
    obtain ⟨m1, m2⟩ := sleep_kept e (setAllowset e s1 s.ctl.allow set).2
    obtain ⟨r1, r2, r3⟩ := restore e s s1 (sleep e (setAllowset e s1 s.ctl.allow set).2).2 set hs hm l2 m2
    obtain ⟨p1, p2⟩ := loadProc_kept e (setAllowset e (sleep e (setAllowset e s1 s.ctl.allow set).2).2 set s.ctl.allow).2
    have e1 : sigwait e s set false = (loadProc e (setAllowset e (sleep e (setAllowset e s1 s.ctl.allow set).2).2
        set s.ctl.allow).2).2 := by
      simp only [sigwait, h3, hs1, Bool.false_eq_true, if_false]
    rw [e1]
    exact ⟨sameMask_of (p2.trans r1), (((((h1.trans l1).trans r2).trans m1).trans r3).trans p1).pendingKept⟩

/-- Nobody else does anything. -/
def quiet : Env := fun _ => ⟨0, 0, id⟩

/-- A thread that blocks nothing and has nothing pending. -/
def fresh : Mach := ⟨⟨0xFFFFFFFF00000000, 0xFFFFFFFF00000000, 0⟩, 0⟩

theorem allowed_iff (c : Ctl) (k : Nat) (h1 : 1 ≤ k) (h2 : k ≤ 64) : Allowed c k ↔ c.allow.getLsbD (k - 1) = true := by
  rw [getLsbD_allow c (k - 1) (by omega), show k - 1 + 1 = k by omega]

/-- C64 fails for `sigsuspend`: a thread that blocks nothing waits for `SIGUSR1` (10) with everything else blocked, made
by `sigfillset` and `sigdelset`. Afterwards `SIGTERM` (15) is blocked for good. -/
theorem C64_sigsuspend_violation :
    fresh.ctl.Ok ∧ (sigdelset (sigfillset (some 0)).set 10).set = some 0xFFFFFFFFFFFFFDFF
    ∧ ¬ Blocked fresh.ctl 15 ∧ Blocked (sigsuspend quiet fresh 0xFFFFFFFFFFFFFDFF).ctl 15
    ∧ ¬ SameMask fresh (sigsuspend quiet fresh 0xFFFFFFFFFFFFFDFF) := by
  have h15 : ¬ Blocked fresh.ctl 15 := by
    unfold Blocked; rw [allowed_iff _ _ (by omega) (by omega)]; decide +kernel
  have h15' : Blocked (sigsuspend quiet fresh 0xFFFFFFFFFFFFFDFF).ctl 15 := by
    unfold Blocked; rw [allowed_iff _ _ (by omega) (by omega)]; decide +kernel
  refine ⟨?_, by decide +kernel, h15, h15', fun h => h15 ((h 15 (by omega) (by omega)).mp h15')⟩
  rintro k (rfl | rfl) <;> rw [allowed_iff _ _ (by omega) (by omega)] <;> decide +kernel

/-- C64 fails for `sigwait`: a thread blocks `SIGUSR1` (10) only and waits for it with `sigwait`. Afterwards `SIGUSR1` is
not blocked any more, and `SIGWINCH` (28) is blocked, and so is even `SIGKILL` (9). -/
theorem C64_sigwait_violation (early : Bool) :
    let s : Mach := (sigprocmask quiet fresh 0 (some 0x200) false).2
    let s' : Mach := sigwait quiet s 0x200 early
    s.ctl.Ok ∧ (Blocked s.ctl 10 ∧ ¬ Blocked s'.ctl 10) ∧ (¬ Blocked s.ctl 28 ∧ Blocked s'.ctl 28) ∧ Blocked s'.ctl 9
    ∧ ¬ SameMask s s' := by
  intro s s'
  have h10 : ¬ Blocked s'.ctl 10 := by
    unfold Blocked; rw [allowed_iff _ _ (by omega) (by omega)]; cases early <;> decide +kernel
  have h10' : Blocked s.ctl 10 := by
    unfold Blocked; rw [allowed_iff _ _ (by omega) (by omega)]; decide +kernel
  refine ⟨?_, ⟨h10', h10⟩, ⟨?_, ?_⟩, ?_, fun h => h10 ((h 10 (by omega) (by omega)).mpr h10')⟩
  · rintro k (rfl | rfl) <;> rw [allowed_iff _ _ (by omega) (by omega)] <;> decide +kernel
  · unfold Blocked; rw [allowed_iff _ _ (by omega) (by omega)]; decide +kernel
  · unfold Blocked; rw [allowed_iff _ _ (by omega) (by omega)]; cases early <;> decide +kernel
  · unfold Blocked; rw [allowed_iff _ _ (by omega) (by omega)]; cases early <;> decide +kernel

/-! ## Examples -/

/-- A thread blocks `SIGUSR1` while somebody sends it: it is blocked, it is pending, `SIGTERM` is not blocked. -/
example :
    let e : Env := fun t => if t = 1 then ⟨0x200, 0, id⟩ else ⟨0, 0, id⟩
    let s := (sigprocmask e fresh 0 (some 0x200) true).2
    s.ctl.allow = 0xFFFFFFFFFFFFFDFF ∧ s.ctl.pend = 0x200
    ∧ (sigprocmask e s 2 (some 0) true).1.oset = some 0x200 ∧ (sigprocmask e s 2 (some 0) true).1.entered = true := by
  decide +kernel

/-- `sigsuspend` with an empty mask is covered by the partial theorem. -/
example : SameMask fresh (sigsuspend quiet fresh 0) :=
  (C64_sigsuspend_partial quiet fresh 0 C64_sigsuspend_violation.1 (by rintro k - h; simp [Mem] at h)).1

end Verif.Signal
