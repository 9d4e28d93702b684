import Verif.Signal.SigsetModel
/-!
# Signal sets behave as sets (C42)
-/

namespace Verif.Signal

/-! ## Specification -/

/-- A signal number. -/
def Sig (k : Int) : Prop := 1 ≤ k ∧ k ≤ 64

/-- The sets of signals, mathematically. -/
abbrev SigSet := Int → Prop

/-- The word `w` in a `sigset_t` represents the set `S` of signals: `sigismember` finds exactly its members. -/
def Represents (w : U64) (S : SigSet) : Prop :=
  ∀ k, Sig k → sigismember (some w) k = ⟨if w.getLsbD (k.toNat - 1) then 1 else 0, false, some w⟩
    ∧ (S k ↔ w.getLsbD (k.toNat - 1) = true)

/-! ## Lemmas -/

theorem badSig_iff (k : Int) : badSig k = true ↔ ¬ Sig k := by
  unfold badSig Sig maxSig
  simp
  omega

theorem getLsbD_bit (i j : Nat) (hi : i < 64) : (bit i).getLsbD j = decide (i = j) := by
  unfold bit
  rw [BitVec.getLsbD_shiftLeft, BitVec.getLsbD_one]
  by_cases h : i = j
  · subst h; simp [hi]
  · simp [h]; omega

theorem and_bit_ne_zero (w : U64) (i : Nat) (hi : i < 64) : w &&& bit i ≠ 0 ↔ w.getLsbD i = true := by
  constructor
  · intro h
    refine Classical.byContradiction fun hc => h ?_
    apply BitVec.eq_of_getLsbD_eq
    intro j hj
    rw [BitVec.getLsbD_and, getLsbD_bit i j hi]
    by_cases e : i = j
    · subst e; simp only [Bool.not_eq_true] at hc; simp [hc]
    · simp [e]
  · intro h h0
    have : (w &&& bit i).getLsbD i = true := by rw [BitVec.getLsbD_and, getLsbD_bit i i hi, h]; simp
    rw [h0] at this
    simp at this

theorem sigismember_eq (w : U64) (k : Int) (hk : Sig k) :
    sigismember (some w) k = ⟨if w.getLsbD (k.toNat - 1) then 1 else 0, false, some w⟩ := by
  unfold sigismember
  have hb : ¬ badSig k = true := by rw [badSig_iff]; simpa using hk
  rw [if_neg hb]
  have hi : k.toNat - 1 < 64 := by unfold Sig at hk; omega
  by_cases h : w.getLsbD (k.toNat - 1) = true
  · have hn := (and_bit_ne_zero w _ hi).mpr h
    simp only [h, if_true]
    rw [if_pos hn]
  · have hn := fun hc => h ((and_bit_ne_zero w _ hi).mp hc)
    simp only [h]
    rw [if_neg hn]
    rfl

theorem represents_iff (w : U64) (S : SigSet) :
    Represents w S ↔ ∀ k, Sig k → (S k ↔ w.getLsbD (k.toNat - 1) = true) :=
  ⟨fun h k hk => (h k hk).2, fun h k hk => ⟨sigismember_eq w k hk, h k hk⟩⟩

/-! ## C42 -/

/-- C42, `sigemptyset` makes the empty set and `sigfillset` the set of all signals, whatever was there before. -/
theorem C42_init (w : U64) :
    (∃ w', sigemptyset (some w) = ⟨0, false, some w'⟩ ∧ Represents w' fun _ => False)
    ∧ ∃ w', sigfillset (some w) = ⟨0, false, some w'⟩ ∧ Represents w' fun _ => True := by
  refine ⟨⟨0, rfl, ?_⟩, ⟨BitVec.allOnes 64, rfl, ?_⟩⟩
  · rw [represents_iff]
    intro k hk
    simp
  · rw [represents_iff]
    intro k hk
    unfold Sig at hk
    rw [BitVec.getLsbD_allOnes]
    have : k.toNat - 1 < 64 := by omega
    simp [this]

/-- C42, `sigaddset` adds exactly the given signal. -/
theorem C42_add {w : U64} {S : SigSet} (h : Represents w S) {k : Int} (hk : Sig k) :
    ∃ w', sigaddset (some w) k = ⟨0, false, some w'⟩ ∧ Represents w' fun j => j = k ∨ S j := by
  have hb : ¬ badSig k = true := by rw [badSig_iff]; simpa using hk
  refine ⟨_, if_neg hb, ?_⟩
  rw [represents_iff] at h ⊢
  intro j hj
  unfold Sig at hk
  rw [h j hj, BitVec.getLsbD_or, getLsbD_bit _ _ (by omega), Bool.or_eq_true, decide_eq_true_eq]
  unfold Sig at hj
  have : j = k ↔ k.toNat - 1 = j.toNat - 1 := by omega
  rw [this, Or.comm]

/-- C42, `sigdelset` removes exactly the given signal. -/
theorem C42_del {w : U64} {S : SigSet} (h : Represents w S) {k : Int} (hk : Sig k) :
    ∃ w', sigdelset (some w) k = ⟨0, false, some w'⟩ ∧ Represents w' fun j => j ≠ k ∧ S j := by
  have hb : ¬ badSig k = true := by rw [badSig_iff]; simpa using hk
  refine ⟨_, if_neg hb, ?_⟩
  rw [represents_iff] at h ⊢
  intro j hj
  unfold Sig at hk hj
  rw [h j hj, BitVec.getLsbD_and, BitVec.getLsbD_not, getLsbD_bit _ _ (by omega)]
  have : j = k ↔ k.toNat - 1 = j.toNat - 1 := by omega
  have hj' : j.toNat - 1 < 64 := by omega
  simp only [Ne, this, hj', decide_true, Bool.true_and, Bool.and_eq_true, Bool.not_eq_true', decide_eq_false_iff_not]
  rw [And.comm]

/-- C42, `sigismember` returns 1 for the members and 0 for the other signals, and does not change the set. -/
theorem C42_member {w : U64} {S : SigSet} (h : Represents w S) {k : Int} (hk : Sig k) :
    (S k → sigismember (some w) k = ⟨1, false, some w⟩) ∧ (¬ S k → sigismember (some w) k = ⟨0, false, some w⟩) := by
  obtain ⟨h1, h2⟩ := h k hk
  refine ⟨fun hs => ?_, fun hs => ?_⟩
  · rw [h1, if_pos (h2.mp hs)]
  · rw [h1, if_neg (fun hc => hs (h2.mpr hc))]

/-- C42, numbers that are not signals are refused with `EINVAL` and the set is left alone. -/
theorem C42_invalid (set : Option U64) {k : Int} (hk : ¬ Sig k) :
    sigaddset set k = ⟨-1, true, set⟩ ∧ sigdelset set k = ⟨-1, true, set⟩ ∧ sigismember set k = ⟨-1, true, set⟩ := by
  have hb := (badSig_iff k).mpr hk
  exact ⟨if_pos hb, if_pos hb, if_pos hb⟩

/-- The calls a program can make on a set. -/
inductive SetCall where
  | empty
  | fill
  | add (k : Int)
  | del (k : Int)

/-- What they do to the set in memory. -/
def SetCall.run (w : U64) : SetCall → U64
  | .empty => (sigemptyset (some w)).set.getD w
  | .fill => (sigfillset (some w)).set.getD w
  | .add k => (sigaddset (some w) k).set.getD w
  | .del k => (sigdelset (some w) k).set.getD w

/-- What they should do. -/
def SetCall.spec (S : SigSet) : SetCall → SigSet
  | .empty => fun _ => False
  | .fill => fun _ => True
  | .add k => fun j => (Sig k ∧ j = k) ∨ S j
  | .del k => fun j => ¬ (Sig k ∧ j = k) ∧ S j

/-- C42, any sequence of calls has the effect of the same sequence of operations on mathematical sets. -/
theorem C42_sequence (cs : List SetCall) {w : U64} {S : SigSet} (h : Represents w S) :
    Represents (cs.foldl SetCall.run w) (cs.foldl SetCall.spec S) := by
  induction cs generalizing w S with
  | nil => exact h
  | cons c cs ih =>
    apply ih
    cases c with
    | empty => obtain ⟨w', h1, h2⟩ := (C42_init w).1; simpa [SetCall.run, SetCall.spec, h1] using h2
    | fill => obtain ⟨w', h1, h2⟩ := (C42_init w).2; simpa [SetCall.run, SetCall.spec, h1] using h2
    | add k =>
      by_cases hk : Sig k
      · obtain ⟨w', h1, h2⟩ := C42_add h hk
        simpa [SetCall.run, SetCall.spec, h1, hk] using h2
      · simpa [SetCall.run, SetCall.spec, (C42_invalid (some w) hk).1, hk] using h
    | del k =>
      by_cases hk : Sig k
      · obtain ⟨w', h1, h2⟩ := C42_del h hk
        simpa [SetCall.run, SetCall.spec, h1, hk] using h2
      · simpa [SetCall.run, SetCall.spec, (C42_invalid (some w) hk).2.1, hk] using h

/-! ## Examples -/

example : (sigaddset (some 0x5) 64).set = some 0x8000000000000005 := by decide +kernel
example : (sigismember (some 0x5) 3).ret = 1 ∧ (sigismember (some 0x5) 2).ret = 0 := by decide +kernel
example : sigaddset (some 0x5) 65 = ⟨-1, true, some 0x5⟩ := by decide +kernel

/-- `Represents` is not vacuous. -/
example : Represents 0x5 fun k => k = 1 ∨ k = 3 := by
  obtain ⟨w1, e1, h1⟩ := (C42_init 0).1
  obtain ⟨w2, e2, h2⟩ := C42_add h1 (k := 3) (by unfold Sig; omega)
  obtain ⟨w3, e3, h3⟩ := C42_add h2 (k := 1) (by unfold Sig; omega)
  have : w3 = 0x5 := by
    cases (by simpa [sigemptyset] using e1 : (0 : U64) = w1)
    cases (by simpa [sigaddset, badSig, maxSig] using e2 : (0 : U64) ||| bit 2 = w2)
    have := (by simpa [sigaddset, badSig, maxSig] using e3 : ((0 : U64) ||| bit 2) ||| bit 0 = w3)
    rw [← this]; decide
  subst this
  simpa using h3

end Verif.Signal
