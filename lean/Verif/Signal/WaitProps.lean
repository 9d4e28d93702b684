import Verif.Signal.WaitModel
import Verif.Signal.MaskProps
/-!
# C76, C77: the alternate signal stack, and waiting for signals
-/

namespace Verif.Signal

/-! ## C76: specification -/

/-- The alternate stack of a thread: none, or base and size. -/
abbrev AltStack := Option (Nat × Nat)

/-- The thread runs on its alternate stack. -/
def AltStack.On (a : AltStack) (sp : Nat) : Prop := ∃ b n, a = some (b, n) ∧ b ≤ sp ∧ sp ≤ b + n

instance (a : AltStack) (sp : Nat) : Decidable (a.On sp) :=
  match a with
  | none => isFalse nofun
  | some (b, n) =>
    if h : b ≤ sp ∧ sp ≤ b + n then isTrue ⟨b, n, rfl, h⟩
    else isFalse fun ⟨_, _, h1, h2⟩ => h (by injection h1 with h1; injection h1 with h1 h3; subst h1; subst h3; exact h2)

/-- What `*oss` says: `SS_DISABLE` is 2, `SS_ONSTACK` is 1. -/
def altShows (a : AltStack) (sp : Nat) : CStack :=
  match a with
  | none => ⟨0, 2, 0⟩
  | some (b, n) => ⟨BitVec.ofNat 64 b, if a.On sp then 1 else 0, BitVec.ofNat 64 n⟩

/-- What a call has to do: an error with nothing changed — 22 = `EINVAL`, 1 = `EPERM`, 12 = `ENOMEM` —, or the old stack and the new one. -/
def altExpect (a : AltStack) (sp : Nat) : Option CStack → Except Int CStack × AltStack
  | none => (.ok (altShows a sp), a)
  | some c =>
    if c.flags < 0 ∨ 4 ≤ c.flags then (.error 22, a)
    else if a.On sp then (.error 1, a)
    else if 2 ≤ c.flags then (.ok (altShows a sp), none)
    else if c.size.toNat < 2048 then (.error 12, a)
    else (.ok (altShows a sp), some (c.sp.toNat, c.size.toNat))

/-- Calls, each with the stack pointer of the moment. -/
def altRun (t : Area) : List (U64 × Option CStack) → List (Except Int CStack)
  | [] => []
  | (sp, new) :: cs => (sigaltstack t sp new).1 :: altRun (sigaltstack t sp new).2 cs

/-- What they have to give. -/
def altExpected (a : AltStack) : List (U64 × Option CStack) → List (Except Int CStack)
  | [] => []
  | (sp, new) :: cs => (altExpect a sp.toNat new).1 :: altExpected (altExpect a sp.toNat new).2 cs

/-- The stack lies within the address space. -/
def CStack.Fits (c : CStack) : Prop := c.sp.toNat + c.size.toNat < 2 ^ 64 - 1

/-! ## C76: proof -/

/-- The fields hold the stack. -/
def AreaIs (t : Area) : AltStack → Prop
  | none => t = ⟨0, BitVec.allOnes 64⟩
  | some (b, n) => t.bottom.toNat = b ∧ t.top.toNat = b + n ∧ b + n < 2 ^ 64 - 1

theorem area_get {t : Area} {a : AltStack} (h : AreaIs t a) (sp : U64) :
    (t.get sp).toC = altShows a sp.toNat ∧ ((∃ b n, t.get sp = .enabled true b n) ↔ a.On sp.toNat) := by
  cases a with
  | none =>
    unfold AreaIs at h
    subst h
    refine ⟨rfl, ⟨fun ⟨b, n, h⟩ => ?_, fun h => ?_⟩⟩
    · simp [Area.get] at h
    · obtain ⟨b, n, h, -⟩ := h; cases h
  | some p =>
    obtain ⟨b, n⟩ := p
    obtain ⟨h1, h2, h3⟩ := h
    have hne : ¬ (t.bottom = 0 ∧ t.top = BitVec.allOnes 64) := by
      rintro ⟨-, h⟩
      rw [h] at h2
      rw [BitVec.toNat_allOnes] at h2
      omega
    have hg : t.get sp = .enabled (decide (t.bottom ≤ sp ∧ sp ≤ t.top)) t.bottom (t.top - t.bottom) := by
      unfold Area.get
      rw [if_neg hne]
    have hon : (t.bottom ≤ sp ∧ sp ≤ t.top) ↔ AltStack.On (some (b, n)) sp.toNat := by
      rw [BitVec.le_def, BitVec.le_def, h1, h2]
      constructor
      · intro h; exact ⟨b, n, rfl, h⟩
      · rintro ⟨b', n', h, h'⟩
        injection h with h; injection h with h4 h5; subst h4; subst h5; exact h'
    have hb : t.bottom = BitVec.ofNat 64 b := by
      apply BitVec.eq_of_toNat_eq
      rw [h1, BitVec.toNat_ofNat, Nat.mod_eq_of_lt (by omega)]
    have hn : t.top - t.bottom = BitVec.ofNat 64 n := by
      apply BitVec.eq_of_toNat_eq
      rw [BitVec.toNat_sub, h1, h2, BitVec.toNat_ofNat]
      omega
    rw [hg]
    constructor
    · unfold Alt.toC altShows
      simp only [decide_eq_true_eq, hon, hn, ← hb]
    · rw [← hon]
      constructor
      · rintro ⟨_, _, h⟩
        injection h with h
        simpa using h
      · intro h
        exact ⟨t.bottom, t.top - t.bottom, by rw [decide_eq_true h]⟩

theorem altstack_step {t : Area} {a : AltStack} (h : AreaIs t a) (sp : U64) (new : Option CStack) (hf : ∀ c ∈ new, c.Fits) :
    (sigaltstack t sp new).1 = (altExpect a sp.toNat new).1 ∧ AreaIs (sigaltstack t sp new).2 (altExpect a sp.toNat new).2 := by
  obtain ⟨h1, h2⟩ := area_get h sp
  cases new with
  | none =>
    have : altstack t sp none = (.ok (t.get sp), t) := by
      unfold altstack
      cases t.get sp with
      | disabled => rfl
      | enabled o b n => cases o <;> rfl
    unfold sigaltstack altExpect
    simp only [this, h1]
    exact ⟨trivial, h⟩
  | some c =>
    unfold sigaltstack altExpect
    simp only
    by_cases hfl : c.flags < 0 ∨ 4 ≤ c.flags
    · rw [if_pos hfl, if_pos hfl]
      exact ⟨rfl, h⟩
    · rw [if_neg hfl, if_neg hfl]
      by_cases hon : a.On sp.toNat
      · rw [if_pos hon]
        obtain ⟨b, n, hg⟩ := h2.2 hon
        have : ∀ x : Alt, (∀ b n, x ≠ .enabled true b n) → altstack t sp (some x) = (.error EPERM, t) := by
          intro x hx
          unfold altstack
          rw [hg]
          simp only
          rw [if_pos (hx b n)]
        rw [this _ (by intro b n; split <;> simp)]
        exact ⟨rfl, h⟩
      · rw [if_neg hon]
        have hg : ∀ b n, t.get sp ≠ .enabled true b n := fun b n he => hon (h2.1 ⟨b, n, he⟩)
        by_cases hd : 2 ≤ c.flags
        · rw [if_pos hd, if_pos (by omega)]
          have : altstack t sp (some .disabled) = (.ok (t.get sp), ⟨0, BitVec.allOnes 64⟩) := by
            unfold altstack
            cases hgt : t.get sp with
            | disabled => rfl
            | enabled o b n =>
              cases o with
              | false => rfl
              | true => exact absurd hgt (hg b n)
          rw [this]
          simp only [h1]
          exact ⟨trivial, rfl⟩
        · rw [if_neg hd, if_neg (by omega)]
          have : altstack t sp (some (.enabled false c.sp c.size)) =
              if c.size < 2048#64 then (.error ENOMEM, t) else (.ok (t.get sp), ⟨c.sp, c.sp + c.size⟩) := by
            unfold altstack
            cases hgt : t.get sp with
            | disabled => rfl
            | enabled o b n =>
              cases o with
              | false => rfl
              | true => exact absurd hgt (hg b n)
          rw [this]
          have hlt : c.size < 2048#64 ↔ c.size.toNat < 2048 := by rw [BitVec.lt_def]; rfl
          by_cases hs : c.size.toNat < 2048
          · rw [if_pos hs, if_pos (hlt.2 hs)]
            exact ⟨rfl, h⟩
          · rw [if_neg hs, if_neg (mt hlt.1 hs)]
            simp only [h1]
            refine ⟨trivial, rfl, ?_, hf c rfl⟩
            have := hf c rfl
            unfold CStack.Fits at this
            rw [BitVec.toNat_add, Nat.mod_eq_of_lt (by omega)]

/-- **C76.** However a thread calls `sigaltstack`, on and off its alternate stack: each call reports the stack last established, and whether the
thread runs on it; a stack is established exactly if the flags are valid, the thread does not run on its alternate stack, and the new
one has at least `MINSIGSTKSZ` bytes; otherwise the call fails with the right error and changes nothing. -/
theorem C76_sigaltstack (calls : List (U64 × Option CStack)) (hf : ∀ p ∈ calls, ∀ c ∈ p.2, c.Fits) :
    altRun .init calls = altExpected none calls := by
  have : ∀ (t : Area) (a : AltStack), AreaIs t a → altRun t calls = altExpected a calls := by
    induction calls with
    | nil => intros; rfl
    | cons p cs ih =>
      intro t a h
      obtain ⟨sp, new⟩ := p
      obtain ⟨h1, h2⟩ := altstack_step h sp new (hf _ (List.mem_cons_self ..))
      unfold altRun altExpected
      rw [h1, ih (fun q hq => hf q (List.mem_cons_of_mem _ hq)) _ _ h2]
  exact this _ _ rfl

/-- A stack is established, a handler on it cannot change it, and outside it is disabled. -/
example : altRun .init [(0x7000, some ⟨0x1000, 0, 0x1000⟩), (0x1800, some ⟨0x9000, 0, 0x1000⟩), (0x1800, none), (0x7000, some ⟨0, 2, 0⟩)] =
    [.ok ⟨0, 2, 0⟩, .error 1, .ok ⟨0x1000, 1, 0x1000⟩, .ok ⟨0x1000, 0, 0x1000⟩] := by
  rfl

/-! ## C77: specification -/

/-- Signal `k` is pending for the process. -/
def ProcPending (c : Ctl) (k : Nat) : Prop := Mem c.proc k

/-- Nothing happened to the thread's pending signals, signal `k` apart, but what others posted. -/
def PendingKeptBut (k : Nat) (e : Env) (s s' : Mach) : Prop :=
  ∀ j, j ≤ 64 → j ≠ k → (Pending s'.ctl j ↔ Pending s.ctl j ∨ Posted e s.time s'.time j)

/-- No other thread takes signals of the process and none are sent to it. -/
def NobodyElse (e : Env) : Prop := ∀ t p, (e t).proc p = p

/-! ## C77: proof -/

/-- As `Kept`, for some of the signals. -/
structure KeptOn (P : Nat → Prop) (e : Env) (s s' : Mach) : Prop where
  time : s.time ≤ s'.time
  pend : ∀ i, i < 64 → P i → (s'.ctl.pend.getLsbD i = true ↔
    s.ctl.pend.getLsbD i = true ∨ ∃ t, s.time ≤ t ∧ t < s'.time ∧ (e t).bits.getLsbD i = true)

theorem Kept.on {P : Nat → Prop} {e : Env} {s s' : Mach} (h : Kept e s s') : KeptOn P e s s' :=
  ⟨h.time, fun i hi _ => h.pend i hi⟩

theorem KeptOn.trans {P : Nat → Prop} {e : Env} {a b c : Mach} (h : KeptOn P e a b) (k : KeptOn P e b c) : KeptOn P e a c := by
  have h1 := h.time
  have h2 := k.time
  refine ⟨by omega, fun i hi hP => ?_⟩
  rw [k.pend i hi hP, h.pend i hi hP]
  constructor
  · rintro ((h | ⟨t, h3, h4, h5⟩) | ⟨t, h3, h4, h5⟩)
    · exact .inl h
    · exact .inr ⟨t, h3, by omega, h5⟩
    · exact .inr ⟨t, by omega, h4, h5⟩
  · rintro (h | ⟨t, h3, h4, h5⟩)
    · exact .inl (.inl h)
    · by_cases ht : t < b.time
      · exact .inl (.inr ⟨t, h3, ht, h5⟩)
      · exact .inr ⟨t, by omega, h4, h5⟩

theorem add_high (w d : U64) : (w + d <<< 32) &&& lo32 = w &&& lo32 := by
  have h32 : ∀ v : U64, v &&& lo32 = (v.setWidth 32).setWidth 64 := by
    intro v
    apply BitVec.eq_of_getLsbD_eq
    intro i hi
    simp only [BitVec.getLsbD_and, getLsbD_lo32, BitVec.getLsbD_setWidth]
    by_cases h : i < 32 <;> simp [h, hi]
  have h0 : (d <<< 32).setWidth 32 = 0#32 := by
    apply BitVec.eq_of_getLsbD_eq
    intro i hi
    simp [hi]
  rw [h32, h32, BitVec.setWidth_add _ _ (by omega), h0, BitVec.add_zero]

theorem shift_sub (a b : U64) : a <<< 32 - b <<< 32 = (a - b) <<< 32 := by
  rw [BitVec.shiftLeft_eq_mul_twoPow, BitVec.shiftLeft_eq_mul_twoPow, BitVec.shiftLeft_eq_mul_twoPow]
  grind

/-- `set_allowset_raw` changes no pending bit, whatever `old` is, and gives all the signals that were pending. -/
theorem setAllowset_pend (e : Env) (s : Mach) (old new : U64) :
    Kept e s (setAllowset e s old new).2
    ∧ (∀ i, i < 64 → s.ctl.pend.getLsbD i = true → (setAllowset e s old new).1.getLsbD i = true)
    ∧ (∀ i, i < 64 → (setAllowset e s old new).1.getLsbD i = true → (setAllowset e s old new).2.ctl.pend.getLsbD i = true)
    ∧ (NobodyElse e → (setAllowset e s old new).2.ctl.proc = s.ctl.proc) := by
  simp only [setAllowset, fetchAdd0, fetchAdd1, access, shift_sub]
  generalize ((new ||| allowsetAlways) &&& lo32) - (old &&& lo32) = d0
  generalize ((new ||| allowsetAlways) >>> 32) - (old >>> 32) = d1
  refine ⟨?_, ?_, ?_, ?_⟩
  · refine (Kept.access e s ⟨(s.ctl.post (e s.time)).w0 + d0 <<< 32, (s.ctl.post (e s.time)).w1, (s.ctl.post (e s.time)).proc⟩ ?_).trans
      (Kept.access e ⟨_, s.time + 1⟩ _ ?_)
    · unfold Ctl.pend
      rw [add_high]
    · unfold Ctl.pend
      simp only [add_high]
  · intro i hi h
    rw [getLsbD_halves _ _ _ hi]
    rw [Ctl.pend, getLsbD_halves _ _ _ hi] at h
    simp only [Ctl.post, BitVec.getLsbD_or]
    by_cases h32 : i < 32
    · rw [if_pos h32] at h ⊢
      simp [h]
    · rw [if_neg h32] at h ⊢
      simp [h]
  · intro i hi h
    rw [getLsbD_halves _ _ _ hi] at h
    unfold Ctl.pend
    simp only [add_high]
    rw [getLsbD_halves _ _ _ hi]
    by_cases h32 : i < 32
    · rw [if_pos h32] at h ⊢
      unfold Ctl.post at h ⊢
      simp only [BitVec.getLsbD_or]
      have e1 := congrArg (BitVec.getLsbD · i) (add_high ((s.ctl.w0 ||| (e s.time).t0 &&& lo32)) d0)
      simp only [BitVec.getLsbD_and, getLsbD_lo32, h32, decide_true, Bool.and_true] at e1
      rw [e1, h]
      rfl
    · rw [if_neg h32] at h ⊢
      exact h
  · intro hq
    simp only [Ctl.post, hq _ _]

theorem and_bit_iff (a b : U64) (i : Nat) (hi : i < 64) : a &&& b &&& bit i ≠ 0 ↔ a.getLsbD i = true ∧ b.getLsbD i = true := by
  rw [and_bit_ne_zero _ _ hi, BitVec.getLsbD_and, Bool.and_eq_true]

theorem getLsbD_drop (w : U64) (i j : Nat) (hi : i < 64) (hj : j < 64) :
    (w &&& ~~~ bit i).getLsbD j = true ↔ w.getLsbD j = true ∧ j ≠ i := by
  rw [BitVec.getLsbD_and, BitVec.getLsbD_not, getLsbD_bit _ _ hi]
  by_cases h : i = j
  · simp [h]
  · simp [h, hj]
    omega

/-- Claiming a signal of the thread. -/
theorem claimSingle_thread (y : Sys) (s : Mach) (i : Nat) (hi : i < 64) :
    (claimSingle y s i true).1 = true ∧ KeptOn (· ≠ i) y.env s (claimSingle y s i true).2
    ∧ (claimSingle y s i true).2.ctl.pend.getLsbD i = false
    ∧ (NobodyElse y.env → (claimSingle y s i true).2.ctl.proc = s.ctl.proc) := by
  unfold claimSingle
  rw [if_neg (by simp), if_pos rfl]
  unfold access
  simp only [true_and]
  have key : ∀ j, j < 64 → ((if i / 32 = 0 then { s.ctl.post (y.env s.time) with w0 := (s.ctl.post (y.env s.time)).w0 &&& ~~~ bit (i % 32) }
      else { s.ctl.post (y.env s.time) with w1 := (s.ctl.post (y.env s.time)).w1 &&& ~~~ bit (i % 32) } : Ctl).pend.getLsbD j = true ↔
      (s.ctl.post (y.env s.time)).pend.getLsbD j = true ∧ j ≠ i) := by
    intro j hj
    unfold Ctl.pend
    rw [getLsbD_halves _ _ _ hj, getLsbD_halves _ _ _ hj]
    by_cases h : i / 32 = 0
    · rw [if_pos h]
      by_cases h32 : j < 32
      · rw [if_pos h32, if_pos h32, getLsbD_drop _ _ _ (by omega) hj]
        simp only [show i % 32 = i by omega]
      · rw [if_neg h32, if_neg h32]
        simp only [show j ≠ i by omega, ne_eq, not_false_eq_true, and_true]
    · rw [if_neg h]
      by_cases h32 : j < 32
      · rw [if_pos h32, if_pos h32]
        simp only [show j ≠ i by omega, ne_eq, not_false_eq_true, and_true]
      · rw [if_neg h32, if_neg h32, getLsbD_drop _ _ _ (by omega) (by omega)]
        have : j - 32 ≠ i % 32 ↔ j ≠ i := by omega
        rw [this]
  refine ⟨⟨by simp, fun j hj hne => ?_⟩, ?_, ?_⟩
  · rw [key j hj, ← (Kept.access y.env s _ rfl).pend j hj]
    simp [hne]
  · rw [← Bool.not_eq_true, key i hi]
    simp
  · intro hq
    split <;> simp only [Ctl.post, hq _ _]

/-- Claiming a signal of the process. -/
theorem claimSingle_proc (y : Sys) (s : Mach) (i : Nat) (hi : i < 64) :
    Kept y.env s (claimSingle y s i false).2
    ∧ (NobodyElse y.env →
        (∀ j, j < 64 → j ≠ i → (claimSingle y s i false).2.ctl.proc.getLsbD j = s.ctl.proc.getLsbD j)
        ∧ (i < 32 → (claimSingle y s i false).1 = s.ctl.proc.getLsbD i ∧ (claimSingle y s i false).2.ctl.proc.getLsbD i = false)
        ∧ (32 ≤ i → (claimSingle y s i false).2.ctl.proc = s.ctl.proc)) := by
  unfold claimSingle
  by_cases h : i / 32 = 1
  · rw [if_pos ⟨h, rfl⟩]
    refine ⟨Kept.access y.env s _ rfl, fun hq => ⟨fun j _ _ => ?_, fun h' => by omega, fun _ => ?_⟩⟩
    · simp only [access, Ctl.post, hq _ _]
    · simp only [access, Ctl.post, hq _ _]
  · rw [if_neg (by simp [h]), if_neg (by simp)]
    refine ⟨Kept.access y.env s _ rfl, fun hq => ⟨fun j hj hne => ?_, fun h' => ?_, fun h' => by omega⟩⟩
    · simp only [access, Ctl.post, hq _ _]
      rw [BitVec.getLsbD_and, BitVec.getLsbD_not, getLsbD_bit _ _ hi]
      simp [hj, Ne.symm hne]
    · simp only [access, Ctl.post, hq _ _]
      rw [BitVec.getLsbD_and, BitVec.getLsbD_not, getLsbD_bit _ _ hi]
      simp

/-- The outcome of `try_claim_multiple`. -/
structure Claims (y : Sys) (s : Mach) (proc thr allow : U64) (r : Option Nat × Mach) : Prop where
  no : r.1 = none → Kept y.env s r.2 ∧ (∀ i, i < 64 → allow.getLsbD i = true → thr.getLsbD i = false)
  yes : ∀ k, r.1 = some k → k < 64 ∧ allow.getLsbD k = true ∧ KeptOn (· ≠ k) y.env s r.2
    ∧ (∀ i, i < k → allow.getLsbD i = true → thr.getLsbD i = false)
    ∧ ((thr.getLsbD k = true ∧ r.2.ctl.pend.getLsbD k = false)
      ∨ (thr.getLsbD k = false ∧ proc.getLsbD k = true ∧ Kept y.env s r.2))
  quiet : NobodyElse y.env → (∀ i, i < 64 → proc.getLsbD i = true → s.ctl.proc.getLsbD i = true) →
    (r.1 = none → r.2.ctl.proc = s.ctl.proc)
    ∧ (∀ k, r.1 = some k → (∀ j, j < 64 → j ≠ k → r.2.ctl.proc.getLsbD j = s.ctl.proc.getLsbD j)
      ∧ (thr.getLsbD k = true → r.2.ctl.proc = s.ctl.proc)
      ∧ (thr.getLsbD k = false → k < 32 → r.2.ctl.proc.getLsbD k = false))

theorem claimMultiple_spec (y : Sys) (s : Mach) (proc thr allow : U64) : Claims y s proc thr allow (claimMultiple y s proc thr allow) := by
  fun_induction claimMultiple y s proc thr allow with
  | case1 s proc thr h =>
    refine ⟨fun _ => ⟨Kept.refl _ _, fun i hi ha => ?_⟩, nofun, fun _ _ => ⟨fun _ => rfl, nofun⟩⟩
    have := congrArg (BitVec.getLsbD · i) h
    simp only [BitVec.getLsbD_and, BitVec.getLsbD_or, ha] at this
    simp at this
    exact this.2
  | case2 s proc thr h idx a ha =>
    obtain ⟨h1, h2, h3⟩ := lowest_spec h
    by_cases hc : thr &&& allow &&& bit idx ≠ 0
    · have hae : a = claimSingle y s idx true := if_pos hc
      obtain ⟨k1, k2, k3, k4⟩ := claimSingle_thread y s idx h1
      rw [and_bit_iff _ _ _ h1] at hc
      refine ⟨nofun, ?_, ?_⟩
      · rintro k ⟨⟩
        refine ⟨h1, hc.2, hae ▸ k2, fun i hi hal => ?_, .inl ⟨hc.1, hae ▸ k3⟩⟩
        have := h3 i hi
        simp only [BitVec.getLsbD_and, BitVec.getLsbD_or, hal] at this
        simp at this
        exact this.2
      · intro hq _
        refine ⟨nofun, ?_⟩
        rintro k ⟨⟩
        have := k4 hq
        exact ⟨fun j _ _ => by rw [hae, this], fun _ => by rw [hae, this], fun hf => by rw [hc.1] at hf; cases hf⟩
    · have hae : a = (false, s) := if_neg hc
      rw [hae] at ha
      cases ha
  | case3 s proc thr h idx a ha b hb =>
    obtain ⟨h1, h2, h3⟩ := lowest_spec h
    have hc : ¬ (thr &&& allow &&& bit idx ≠ 0) := by
      intro hc
      have hae : a = claimSingle y s idx true := if_pos hc
      exact ha (hae ▸ (claimSingle_thread y s idx h1).1)
    have hae : a = (false, s) := if_neg hc
    by_cases hd : proc &&& allow &&& bit idx ≠ 0
    · have hbe : b = claimSingle y s idx false := by
        have : b = claimSingle y a.2 idx false := if_pos hd
        rw [this, hae]
      obtain ⟨k1, k2⟩ := claimSingle_proc y s idx h1
      rw [and_bit_iff _ _ _ h1] at hc hd
      have hthr : thr.getLsbD idx = false := by
        rw [← Bool.not_eq_true]
        exact fun h => hc ⟨h, hd.2⟩
      refine ⟨nofun, ?_, ?_⟩
      · rintro k ⟨⟩
        refine ⟨h1, hd.2, hbe ▸ k1.on, fun i hi hal => ?_, .inr ⟨hthr, hd.1, hbe ▸ k1⟩⟩
        have := h3 i hi
        simp only [BitVec.getLsbD_and, BitVec.getLsbD_or, hal] at this
        simp at this
        exact this.2
      · intro hq _
        refine ⟨nofun, ?_⟩
        rintro k ⟨⟩
        obtain ⟨q1, q2, q3⟩ := k2 hq
        exact ⟨fun j hj hne => by rw [hbe, q1 j hj hne], fun hf => by rw [hthr] at hf; (cases hf), fun _ hlt => by rw [hbe, (q2 hlt).2]⟩
    · have hbe : b = (false, a.2) := if_neg hd
      rw [hbe] at hb
      cases hb
  | case4 s proc thr h idx a ha thr' b hb ih =>
    obtain ⟨h1, h2, h3⟩ := lowest_spec h
    have hc : ¬ (thr &&& allow &&& bit idx ≠ 0) := by
      intro hc
      have hae : a = claimSingle y s idx true := if_pos hc
      exact ha (hae ▸ (claimSingle_thread y s idx h1).1)
    have hae : a = (false, s) := if_neg hc
    have hal : allow.getLsbD idx = true := by
      rw [BitVec.getLsbD_and, Bool.and_eq_true] at h2
      exact h2.2
    rw [and_bit_iff _ _ _ h1] at hc
    have hthr : thr.getLsbD idx = false := by
      rw [← Bool.not_eq_true]
      exact fun h => hc ⟨h, hal⟩
    have hpr : proc.getLsbD idx = true := by
      rw [BitVec.getLsbD_and, BitVec.getLsbD_or, hthr] at h2
      simp at h2
      exact h2.1
    have hbe : b = claimSingle y s idx false := by
      have : b = claimSingle y a.2 idx false := if_pos ((and_bit_iff _ _ _ h1).2 ⟨hpr, hal⟩)
      rw [this, hae]
    obtain ⟨k1, k2⟩ := claimSingle_proc y s idx h1
    rw [← hbe] at k1 k2
    have hdrop : ∀ i, i < 64 → thr'.getLsbD i = thr.getLsbD i := by
      intro i hi
      rw [Bool.eq_iff_iff]
      show (thr &&& ~~~ bit idx).getLsbD i = true ↔ _
      rw [getLsbD_drop _ _ _ h1 hi]
      refine ⟨And.left, fun h => ⟨h, ?_⟩⟩
      rintro rfl
      rw [hthr] at h
      cases h
    generalize claimMultiple y b.2 (proc &&& ~~~ bit idx) thr' allow = r at *
    refine ⟨fun hn => ?_, fun k hk => ?_, fun hq hsub => ?_⟩
    · obtain ⟨i1, i2⟩ := ih.no hn
      exact ⟨k1.trans i1, fun i hi hal => by rw [← hdrop i hi]; exact i2 i hi hal⟩
    · obtain ⟨i1, i2, i3, i4, i5⟩ := ih.yes k hk
      refine ⟨i1, i2, k1.on.trans i3, fun i hi hal => by rw [← hdrop i (by omega)]; exact i4 i hi hal, ?_⟩
      rw [hdrop k i1] at i5
      rcases i5 with i5 | ⟨i5, i6, i7⟩
      · exact .inl i5
      · exact .inr ⟨i5, ((getLsbD_drop _ _ _ h1 i1).1 i6).1, k1.trans i7⟩
    · obtain ⟨q1, q2, q3⟩ := k2 hq
      have h32 : 32 ≤ idx := by
        refine Nat.le_of_not_lt fun hlt => ?_
        have := (q2 hlt).1
        rw [hsub idx h1 hpr] at this
        exact hb this
      have hbp := q3 h32
      obtain ⟨j1, j2⟩ := ih.quiet hq (fun i hi hp => by rw [hbp]; exact hsub i hi ((getLsbD_drop _ _ _ h1 hi).1 hp).1)
      rw [hbp] at j1 j2
      refine ⟨j1, fun k hk => ?_⟩
      obtain ⟨l1, l2, l3⟩ := j2 k hk
      have hk64 := (ih.yes k hk).1
      rw [hdrop k hk64] at l2 l3
      exact ⟨l1, l2, l3⟩

theorem loadProc_eq (e : Env) (s : Mach) (hq : NobodyElse e) : (loadProc e s).1 = s.ctl.proc ∧ (loadProc e s).2.ctl.proc = s.ctl.proc := by
  simp only [loadProc, access, Ctl.post, hq _ _, and_self]

theorem getAllowset_proc (e : Env) (s : Mach) (hq : NobodyElse e) : (getAllowset e s).2.ctl.proc = s.ctl.proc := by
  simp only [getAllowset, load0, load1, access, Ctl.post, hq _ _]

theorem sleep_proc (e : Env) (s : Mach) (hq : NobodyElse e) : (sleep e s).2.ctl.proc = s.ctl.proc := by
  simp only [sleep, access, Ctl.post, hq _ _]

/-- The outcome of `sigtimedwait`, for the bits. -/
structure Waited (y : Sys) (s : Mach) (set : U64) (r : Except Int Nat × Mach) : Prop where
  err : ∀ x, r.1 = .error x → Kept y.env s r.2 ∧ (NobodyElse y.env → r.2.ctl.proc = s.ctl.proc)
  ok : ∀ n, r.1 = .ok n → ∃ k, n = k + 1 ∧ k < 64 ∧ set.getLsbD k = true ∧ KeptOn (· ≠ k) y.env s r.2
    ∧ (r.2.ctl.pend.getLsbD k = true → ∃ t, s.time ≤ t ∧ t < r.2.time ∧ (y.env t).bits.getLsbD k = true)
    ∧ (NobodyElse y.env → (∀ j, j < 64 → j ≠ k → r.2.ctl.proc.getLsbD j = s.ctl.proc.getLsbD j)
      ∧ ((s.ctl.pend.getLsbD k = true ∨ ∃ t, s.time ≤ t ∧ t < r.2.time ∧ (y.env t).bits.getLsbD k = true)
        ∨ (s.ctl.proc.getLsbD k = true ∧ (k < 32 → r.2.ctl.proc.getLsbD k = false))))

/-- The part of `Waited` that a claim gives: `a` is the start, `b` the state before the claim. -/
theorem waited_claim {y : Sys} {a b : Mach} {set proc thr : U64} {k : Nat} {c d : Mach} (hab : Kept y.env a b)
    (hthr : ∀ i, i < 64 → a.ctl.pend.getLsbD i = true → thr.getLsbD i = true)
    (hthr' : ∀ i, i < 64 → thr.getLsbD i = true → b.ctl.pend.getLsbD i = true)
    (hp : NobodyElse y.env → proc = a.ctl.proc ∧ b.ctl.proc = a.ctl.proc)
    (hc : Claims y b proc thr set (some k, c)) (hcd : Kept y.env c d) (hd : NobodyElse y.env → d.ctl.proc = c.ctl.proc) :
    Waited y a set (.ok (k + 1), d) := by
  obtain ⟨h1, h2, h3, h4, h5⟩ := hc.yes k rfl
  have hac := (hab.on (P := (· ≠ k))).trans h3
  have t1 := hab.time
  have t2 := h3.time
  have t3 := hcd.time
  refine ⟨nofun, ?_⟩
  rintro n ⟨⟩
  refine ⟨k, rfl, h1, h2, hac.trans hcd.on, ?_, fun hq => ?_⟩
  · intro hpd
    simp only at t3 ⊢
    rcases (hcd.pend k h1).1 hpd with h | ⟨t, h6, h7, h8⟩
    · rcases h5 with h5 | ⟨h5, -, h6⟩
      · rw [h5.2] at h; cases h
      · rcases ((hab.trans h6).pend k h1).1 h with h | ⟨t, h7, h8, h9⟩
        · rw [hthr k h1 h] at h5; cases h5
        · exact ⟨t, h7, by simp only at h8; omega, h9⟩
    · exact ⟨t, by simp only at t2 h6; omega, h7, h8⟩
  · obtain ⟨hp1, hp2⟩ := hp hq
    obtain ⟨-, hy⟩ := hc.quiet hq (fun i _ h => by rw [hp2, ← hp1]; exact h)
    obtain ⟨y1, y2, y3⟩ := hy k rfl
    simp only at y1 y2 y3 ⊢
    rw [hd hq]
    refine ⟨fun j hj hne => by rw [y1 j hj hne, hp2], ?_⟩
    rcases h5 with h5 | ⟨h5, h6, -⟩
    · have := (hab.pend k h1).1 (hthr' k h1 h5.1)
      rcases this with h | ⟨t, h7, h8, h9⟩
      · exact .inl (.inl h)
      · exact .inl (.inr ⟨t, h7, by simp only at t2 h8; omega, h9⟩)
    · exact .inr ⟨by rw [← hp1]; exact h6, y3 h5⟩

theorem sigtimedwait_spec (y : Sys) (s : Mach) (set : U64) : Waited y s set (sigtimedwait y s set) := by
  unfold sigtimedwait
  simp only
  obtain ⟨g1, -, -⟩ := getAllowset_kept y.env s
  have g2 := getAllowset_proc y.env s
  generalize getAllowset y.env s = old at *
  obtain ⟨l1, -⟩ := loadProc_kept y.env old.2
  have l2 := loadProc_eq y.env old.2
  generalize loadProc y.env old.2 = proc at *
  obtain ⟨a1, a2, a3, a4⟩ := setAllowset_pend y.env proc.2 old.1 set
  generalize setAllowset y.env proc.2 old.1 set = thr at *
  have hk : Kept y.env s thr.2 := (g1.trans l1).trans a1
  have hc := claimMultiple_spec y thr.2 proc.1 thr.1 set
  generalize claimMultiple y thr.2 proc.1 thr.1 set = r at *
  obtain ⟨k?, s1⟩ := r
  cases k? with
  | some k =>
    obtain ⟨b1, -, -, b4⟩ := setAllowset_pend y.env s1 set old.1
    refine waited_claim hk (fun i hi h => a2 i hi ?_) a3 (fun hq => ?_) hc b1 b4
    · exact ((g1.trans l1).pend i hi).2 (.inl h)
    · rw [(l2 hq).1, a4 hq, (l2 hq).2, g2 hq]
      exact ⟨rfl, rfl⟩
  | none =>
    obtain ⟨n1, -⟩ := hc.no rfl
    have hq1 : NobodyElse y.env → s1.ctl.proc = s.ctl.proc := by
      intro hq
      have := (hc.quiet hq (fun i _ h => by rw [a4 hq, (l2 hq).2, ← (l2 hq).1]; exact h)).1 rfl
      simp only at this
      rw [this, a4 hq, (l2 hq).2, g2 hq]
    simp only
    obtain ⟨m1, -⟩ := sleep_kept y.env s1
    have m2 := sleep_proc y.env s1
    generalize Verif.Signal.sleep y.env s1 = w at *
    obtain ⟨c1, c2, c3, c4⟩ := setAllowset_pend y.env w.2 set old.1
    generalize setAllowset y.env w.2 set old.1 = thr2 at *
    obtain ⟨p1, -⟩ := loadProc_kept y.env thr2.2
    have p2 := loadProc_eq y.env thr2.2
    generalize loadProc y.env thr2.2 = proc2 at *
    have hk1 : Kept y.env s w.2 := (hk.trans n1).trans m1
    have hk2 : Kept y.env s proc2.2 := (hk1.trans c1).trans p1
    have hq2 : NobodyElse y.env → proc2.1 = s.ctl.proc ∧ proc2.2.ctl.proc = s.ctl.proc := by
      intro hq
      rw [(p2 hq).1, (p2 hq).2, c4 hq, m2 hq, hq1 hq]
      exact ⟨rfl, rfl⟩
    by_cases hr : y.sleep s1.time ≠ none ∧ y.sleep s1.time ≠ some EINTR
    · rw [if_pos hr]
      exact ⟨fun _ _ => ⟨hk2, fun hq => (hq2 hq).2⟩, nofun⟩
    · rw [if_neg hr]
      have hd := claimMultiple_spec y proc2.2 proc2.1 thr2.1 set
      generalize claimMultiple y proc2.2 proc2.1 thr2.1 set = r at *
      obtain ⟨k?, s2⟩ := r
      cases k? with
      | some k =>
        exact waited_claim hk2 (fun i hi h => c2 i hi ((hk1.pend i hi).2 (.inl h)))
          (fun i hi h => (p1.pend i hi).2 (.inl (c3 i hi h))) hq2 hd (Kept.refl _ _) (fun _ => rfl)
      | none =>
        simp only
        refine ⟨fun _ _ => ⟨hk2.trans (hd.no rfl).1, fun hq => ?_⟩, nofun⟩
        have := (hd.quiet hq (fun i _ h => by rw [(hq2 hq).2, ← (hq2 hq).1]; exact h)).1 rfl
        simp only at this ⊢
        rw [this, (hq2 hq).2]

/-! ## C77 -/

/-- **C77.** If `sigwait`, `sigwaitinfo` or `sigtimedwait` gives a signal, it is one of the set; if it had been pending for the
thread it no longer is, unless sent again; and whatever is sent meanwhile, no other signal of the thread is lost or invented. -/
theorem C77_taken (y : Sys) (s : Mach) (set : U64) (k : Nat) (s' : Mach) (h : sigtimedwait y s set = (.ok k, s')) :
    k ≤ 64 ∧ Mem set k ∧ PendingKeptBut k y.env s s' ∧ (Pending s'.ctl k → Posted y.env s.time s'.time k) := by
  have hw := sigtimedwait_spec y s set
  rw [h] at hw
  obtain ⟨i, rfl, h1, h2, h3, h4, -⟩ := hw.ok k rfl
  refine ⟨by omega, ⟨by omega, h2⟩, fun j hj hne => ?_, fun hp => ?_⟩
  · cases j with
    | zero =>
      have : ∀ c : Ctl, ¬ Pending c 0 := fun c h => by unfold Pending at h; omega
      have h2 : ¬ Posted y.env s.time s'.time 0 := by
        rintro ⟨t, _, _, h, _⟩
        simp at h
      simp [this, h2]
    | succ j =>
      rw [← getLsbD_pend _ j (by omega), ← getLsbD_pend _ j (by omega), posted_iff _ _ _ j (by omega)]
      exact h3.pend j (by omega) (by omega)
  · rw [posted_iff _ _ _ i h1]
    exact h4 ((getLsbD_pend _ i h1).2 hp)

/-- **C77, the signals of the process.** If nobody else touches them: the signal given was pending for the thread — or sent to it
meanwhile —, or it was pending for the process; in that case it no longer is, unless it is a queued one (above 32, the process manager
keeps those); the others remain. -/
theorem C77_process (y : Sys) (s : Mach) (set : U64) (k : Nat) (s' : Mach) (h : sigtimedwait y s set = (.ok k, s')) (hq : NobodyElse y.env) :
    (Pending s.ctl k ∨ Posted y.env s.time s'.time k ∨ (ProcPending s.ctl k ∧ (k ≤ 32 → ¬ ProcPending s'.ctl k)))
    ∧ ∀ j, j ≤ 64 → j ≠ k → (ProcPending s'.ctl j ↔ ProcPending s.ctl j) := by
  have hw := sigtimedwait_spec y s set
  rw [h] at hw
  obtain ⟨i, rfl, h1, -, -, -, h5⟩ := hw.ok k rfl
  obtain ⟨h6, h7⟩ := h5 hq
  constructor
  · rw [← getLsbD_pend _ i h1, posted_iff _ _ _ i h1]
    rcases h7 with (h7 | h7) | ⟨h7, h8⟩
    · exact .inl h7
    · exact .inr (.inl h7)
    · refine .inr (.inr ⟨⟨by omega, h7⟩, fun hle hp => ?_⟩)
      have := hp.2
      rw [Nat.add_sub_cancel] at this
      rw [h8 (by omega)] at this
      cases this
  · intro j hj hne
    unfold ProcPending Mem
    cases j with
    | zero => simp
    | succ j =>
      rw [Nat.add_sub_cancel]
      have := h6 j (by omega) (by omega)
      simp only at this
      rw [this]

/-- **C77, failure.** If they fail, no signal is lost. -/
theorem C77_error (y : Sys) (s : Mach) (set : U64) (x : Int) (s' : Mach) (h : sigtimedwait y s set = (.error x, s')) :
    PendingKept y.env s s' ∧ (NobodyElse y.env → ∀ j, ProcPending s'.ctl j ↔ ProcPending s.ctl j) := by
  have hw := sigtimedwait_spec y s set
  rw [h] at hw
  obtain ⟨h1, h2⟩ := hw.err x rfl
  refine ⟨h1.pendingKept, fun hq j => ?_⟩
  unfold ProcPending
  have := h2 hq
  simp only at this
  rw [this]

/-- **C77, no waiting.** If a signal of the set is pending for the thread, the call gives at once one that is no higher —
however sleeping would end. -/
theorem C77_immediate (y : Sys) (s : Mach) (set : U64) (j : Nat) (hj : j ≤ 64) (hm : Mem set j) (hp : Pending s.ctl j) :
    (∃ k s', sigtimedwait y s set = (.ok k, s') ∧ k ≤ j)
    ∧ ∀ sl, sigtimedwait { y with sleep := sl } s set = sigtimedwait y s set := by
  obtain ⟨hj1, hm⟩ := hm
  obtain ⟨i, rfl⟩ : ∃ i, j = i + 1 := ⟨j - 1, by omega⟩
  rw [Nat.add_sub_cancel] at hm
  have hp := (getLsbD_pend _ i (by omega)).2 hp
  have hcl : ∀ sl (s : Mach) (p t a : U64), claimMultiple { y with sleep := sl } s p t a = claimMultiple y s p t a := by
    intro sl s p t a
    fun_induction claimMultiple y s p t a with
    | case1 s proc thr h =>
      unfold claimMultiple
      rw [dif_pos h]
    | case2 s proc thr h idx a ha =>
      unfold claimMultiple
      rw [dif_neg h]
      exact if_pos ha
    | case3 s proc thr h idx a ha b hb =>
      unfold claimMultiple
      rw [dif_neg h]
      refine (if_neg ha).trans (if_pos hb)
    | case4 s proc thr h idx a ha thr' b hb ih =>
      rw [← ih]
      conv => lhs; unfold claimMultiple
      rw [dif_neg h]
      refine (if_neg ha).trans (if_neg hb)
  unfold sigtimedwait
  simp only [hcl]
  obtain ⟨g1, -, -⟩ := getAllowset_kept y.env s
  generalize getAllowset y.env s = old at *
  obtain ⟨l1, -⟩ := loadProc_kept y.env old.2
  generalize loadProc y.env old.2 = proc at *
  obtain ⟨a1, a2, -, -⟩ := setAllowset_pend y.env proc.2 old.1 set
  generalize setAllowset y.env proc.2 old.1 set = thr at *
  have ht := a2 i (by omega) (((g1.trans l1).pend i (by omega)).2 (.inl hp))
  have hc := claimMultiple_spec y thr.2 proc.1 thr.1 set
  generalize claimMultiple y thr.2 proc.1 thr.1 set = r at *
  obtain ⟨k?, s1⟩ := r
  cases k? with
  | none =>
    have := (hc.no rfl).2 i (by omega) hm
    rw [ht] at this
    cases this
  | some k =>
    refine ⟨⟨k + 1, _, rfl, ?_⟩, fun _ => rfl⟩
    refine Nat.succ_le_succ (Nat.le_of_not_lt fun hlt => ?_)
    have := (hc.yes k rfl).2.2.2.1 i hlt hm
    rw [ht] at this
    cases this

/-- **C77 fails for `sigwait` itself**, which has to wait until a signal of the set is there: the thread is woken by `SIGUSR1` (10) sent to the
process, another thread takes it first, and `sigwait` returns -1 — not even an error number — without a signal. -/
theorem C77_sigwait_violation :
    let e : Env := fun t => if t = 5 then ⟨0, 0, fun _ => 0x200⟩ else if t = 6 then ⟨0, 0, fun _ => 0⟩ else ⟨0, 0, id⟩
    let y : Sys := ⟨e, fun _ => false, fun _ => some 4⟩
    sigwaitC y ⟨⟨0xFFFFFDFF00000000, 0xFFFFFFFF00000000, 0⟩, 0⟩ 0x200 = (-1, none) := by
  decide +kernel

/-- `SIGUSR1` (10) and `SIGTERM` (15) are pending and blocked; `sigwait` for both gives `SIGUSR1` and leaves `SIGTERM`; and `SIGUSR1` arrives for the
process while waiting for it. -/
example :
    let s : Mach := ⟨⟨0xFFFFBDFF00004200, 0xFFFFFFFF00000000, 0⟩, 0⟩
    let y : Sys := ⟨quiet, fun _ => false, fun _ => some 4⟩
    let e : Env := fun t => if t = 5 then ⟨0, 0, fun _ => 0x200⟩ else ⟨0, 0, id⟩
    (sigwaitC y s 0x4200 = (0, some 10) ∧ (sigtimedwait y s 0x4200).2.ctl.pend = 0x4000)
    ∧ sigwaitC { y with env := e } ⟨⟨0xFFFFFDFF00000000, 0xFFFFFFFF00000000, 0⟩, 0⟩ 0x200 = (0, some 10) := by
  decide +kernel

end Verif.Signal
