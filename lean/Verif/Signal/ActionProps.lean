import Verif.Signal.ActionModel
import Verif.Signal.MaskProps
/-!
# C74, C75: signal actions and the delivery of a signal
-/

namespace Verif.Signal

/-! ## Specification -/

/-- What a program has told the system to do about a signal. -/
inductive Disp where
  | dfl
  | ign
  | caught (handler : U64) (flags : BitVec 32) (mask : U64)

/-- What a `struct sigaction` asks for: `SIG_DFL` is 0, `SIG_IGN` is 1. -/
def Disp.of (c : CAction) : Disp :=
  if c.handler = 0 then .dfl else if c.handler = 1 then .ign else .caught c.handler c.flags c.mask

/-- What `*oact` has to say. -/
def Shows : Disp → CAction → Prop
  | .dfl, c => c.handler = 0
  | .ign, c => c.handler = 1
  | .caught h f m, c => c = ⟨h, f, m⟩

/-- The handler `signal` has to return. -/
def Disp.addr : Disp → U64
  | .dfl => 0
  | .ign => 1
  | .caught h _ _ => h

/-- The signals which have an action: 1 to 64, except 32. -/
def HasAction (k : Int) : Prop := 1 ≤ k ∧ k ≤ 64 ∧ k ≠ 32

instance (k : Int) : Decidable (HasAction k) := by unfold HasAction; infer_instance

/-- A function of the program, as opposed to one of the library, at an address below `2 ^ 57`. -/
def Func (s : Sigs) (h : U64) : Prop := h.toNat < 2 ^ 57 ∧ h ≠ s.dflAddr

/-- The flags of `<signal.h>`: `SA_SIGINFO`, `SA_ONSTACK`, `SA_RESTART`, `SA_NODEFER`, `SA_RESETHAND`, `SA_NOCLDSTOP`. -/
def Flags (f : BitVec 32) : Prop := f &&& 0x7e000000 = f

/-- Calls that examine or change actions. -/
inductive ActCall where
  | sigaction (sig : Int) (act : Option CAction)
  | signal (sig : Int) (func : U64)

/-- What a call gives: failed, an action, a handler. -/
inductive ActOut where
  | fail
  | act (c : CAction)
  | addr (h : U64)

/-- The calls are made one after the other. -/
def runActs (s : Sigs) : List ActCall → List ActOut
  | [] => []
  | .sigaction sig act :: cs =>
    (match (Verif.Signal.sigaction s sig act).1 with
      | none => .fail
      | some c => .act c) :: runActs (Verif.Signal.sigaction s sig act).2 cs
  | .signal sig func :: cs => .addr (Verif.Signal.signal s sig func).1 :: runActs (Verif.Signal.signal s sig func).2 cs

/-- The arguments are ones a program can make. -/
def ActCall.Good (s : Sigs) : ActCall → Prop
  | .sigaction _ act => ∀ c ∈ act, Func s c.handler ∧ Flags c.flags
  | .signal _ func => Func s func

/-- Entering a new disposition. -/
def update (M : Int → Disp) (k : Int) (d : Disp) (j : Int) : Disp := if j = k then d else M j

/-- What the calls have to give if the dispositions are `M`. -/
def Expected (M : Int → Disp) : List ActCall → List ActOut → Prop
  | [], outs => outs = []
  | .sigaction sig act :: cs, outs => ∃ o os, outs = o :: os ∧
    (if HasAction sig ∧ (act ≠ none → sig ≠ 9 ∧ sig ≠ 19)
      then (∃ c, o = .act c ∧ Shows (M sig) c) ∧ Expected (match act with | none => M | some c => update M sig (.of c)) cs os
      else o = .fail ∧ Expected M cs os)
  | .signal sig func :: cs, outs => ∃ o os, outs = o :: os ∧
    (if HasAction sig ∧ sig ≠ 9 ∧ sig ≠ 19
      then o = .addr (M sig).addr ∧ Expected (update M sig (.of ⟨func, 0x08000000, 0⟩)) cs os
      else o = .addr (-1) ∧ Expected M cs os)

/-! ## Lemmas -/

theorem getLsbD_stored (i : Nat) : storedFlags.getLsbD i = decide (25 ≤ i ∧ i < 32) := by
  by_cases h : i < 32
  · have : ∀ i, i < 32 → storedFlags.getLsbD i = decide (25 ≤ i ∧ i < 32) := by decide
    exact this i h
  · rw [BitVec.getLsbD_of_ge _ _ (by omega)]
    simp [h]

theorem getLsbD_handlerBits (i : Nat) : handlerBits.getLsbD i = decide (i < 57) := by
  by_cases h : i < 64
  · have : ∀ i, i < 64 → handlerBits.getLsbD i = decide (i < 57) := by decide
    exact this i h
  · rw [BitVec.getLsbD_of_ge _ _ (by omega)]
    simp; omega

theorem high_false {h : U64} (hh : h.toNat < 2 ^ 57) {i : Nat} (hi : 57 ≤ i) : h.getLsbD i = false := by
  rw [BitVec.getLsbD]
  exact Nat.testBit_lt_two_pow (Nat.lt_of_lt_of_le hh (Nat.pow_le_pow_right (by omega) hi))

theorem pack_handler {h : U64} (hh : h.toNat < 2 ^ 57) (f : BitVec 32) :
    (h ||| ((f &&& storedFlags).setWidth 64 <<< 32)) &&& handlerBits = h := by
  apply BitVec.eq_of_getLsbD_eq
  intro i hi
  simp only [BitVec.getLsbD_and, BitVec.getLsbD_or, BitVec.getLsbD_shiftLeft, BitVec.getLsbD_setWidth, getLsbD_stored,
    getLsbD_handlerBits]
  by_cases h57 : i < 57
  · have : ¬ 25 ≤ i - 32 := by omega
    simp [h57, this]
  · simp [h57, high_false hh (i := i) (by omega)]

theorem pack_flags {h : U64} (hh : h.toNat < 2 ^ 57) (f : BitVec 32) :
    ((h ||| ((f &&& storedFlags).setWidth 64 <<< 32)) >>> 32).setWidth 32 &&& storedFlags = f &&& storedFlags := by
  apply BitVec.eq_of_getLsbD_eq
  intro i hi
  simp only [BitVec.getLsbD_and, BitVec.getLsbD_or, BitVec.getLsbD_shiftLeft, BitVec.getLsbD_setWidth, getLsbD_stored,
    BitVec.getLsbD_ushiftRight]
  by_cases h25 : 25 ≤ i
  · rw [high_false hh (i := 32 + i) (by omega)]
    simp only [h25, hi, and_self, decide_true, Bool.and_true, Bool.true_and, Bool.false_or, show 32 + i < 64 by omega,
      show ¬ 32 + i < 32 by omega, show i < 64 by omega, decide_false, Bool.not_false, show 32 + i - 32 = i by omega]
  · simp [h25]

theorem convert_pack {D h m : U64} (hh : h.toNat < 2 ^ 57) (f : BitVec 32) :
    convertOld D ⟨h ||| ((f &&& storedFlags).setWidth 64 <<< 32), m⟩ =
      ⟨if h = D then .dfl else if (f &&& storedFlags) &&& flagIgnored = flagIgnored then .ign else .handled h, m, f &&& storedFlags⟩ := by
  unfold convertOld
  simp only [pack_handler hh, pack_flags hh]

theorem flags_stored {f : BitVec 32} (h : Flags f) : f &&& storedFlags = f := by
  unfold Flags at h
  rw [← h, BitVec.and_assoc]
  rfl

theorem flags_ignored {f : BitVec 32} (h : Flags f) : ¬ f &&& flagIgnored = flagIgnored := by
  unfold Flags at h
  rw [← h, BitVec.and_assoc, show (0x7e000000 : BitVec 32) &&& flagIgnored = 0#32 from rfl, BitVec.and_zero]
  decide

/-- The table holds the disposition. -/
def Table (s : Sigs) (M : Int → Disp) : Prop :=
  ∀ k : Nat, HasAction k → k ≠ 9 → k ≠ 19 →
    match M k with
    | .dfl => (convertOld s.dflAddr (s.actions (k - 1))).kind = .dfl
    | .ign => (convertOld s.dflAddr (s.actions (k - 1))).kind = .ign
    | .caught h f m => convertOld s.dflAddr (s.actions (k - 1)) = ⟨.handled h, m, f⟩ ∧ h ≠ 0 ∧ h ≠ 1

/-- The library's own function is neither `SIG_DFL` nor `SIG_IGN`. -/
def Sane (s : Sigs) : Prop := s.dflAddr.toNat < 2 ^ 57 ∧ s.dflAddr ≠ 0

theorem new_convert {s : Sigs} (hs : Sane s) {c : CAction} (hc : Func s c.handler) (hf : Flags c.flags) (sig : Nat) :
    match Disp.of c with
    | .dfl => (convertOld s.dflAddr (newRaw s.dflAddr sig c.toRt).1).kind = .dfl
    | .ign => (convertOld s.dflAddr (newRaw s.dflAddr sig c.toRt).1).kind = .ign
    | .caught h f m => convertOld s.dflAddr (newRaw s.dflAddr sig c.toRt).1 = ⟨.handled h, m, f⟩ ∧ h ≠ 0 ∧ h ≠ 1 := by
  unfold Disp.of CAction.toRt newRaw
  by_cases h0 : c.handler = 0
  · simp only [h0, if_true]
    repeat' split
    all_goals (rw [convert_pack hs.1]; simp)
  · by_cases h1 : c.handler = 1
    · rw [if_neg h0, if_pos h1, if_neg h0, if_pos h1]
      simp only
      rw [convert_pack (by decide)]
      simp only
      rw [if_neg (Ne.symm hs.2), if_pos (by decide)]
    · rw [if_neg h0, if_neg h1, if_neg h0, if_neg h1]
      simp only
      rw [convert_pack hc.1, if_neg hc.2, flags_stored hf, if_neg (flags_ignored hf)]
      exact ⟨rfl, h0, h1⟩

theorem inner_bad (s : Sigs) {sig : Nat} (h : ¬ HasAction sig) (a : Option Action) : sigactionInner s sig a = (false, ⟨.dfl, 0, 0⟩, s) := by
  unfold sigactionInner
  unfold HasAction at h
  rw [if_pos (by omega)]

theorem sigaction_bad (s : Sigs) {sig : Int} (h : ¬ HasAction sig) (a : Option CAction) : sigaction s sig a = (none, s) := by
  unfold sigaction
  split
  · rfl
  · have : ¬ HasAction sig.toNat := by unfold HasAction at *; omega
    rw [inner_bad s this]
    rfl

theorem sigaction_fixed (s : Sigs) {sig : Int} (h : sig = 9 ∨ sig = 19) (a : Option CAction) :
    sigaction s sig a = (if a = none then some ⟨0, 0, 0⟩ else none, s) := by
  rcases h with rfl | rfl <;> cases a <;> rfl

theorem sigaction_good (s : Sigs) {sig : Int} (h : HasAction sig) (h9 : sig ≠ 9) (h19 : sig ≠ 19) (a : Option CAction) :
    (sigaction s sig a).1 = some (convertOld s.dflAddr (s.actions (sig.toNat - 1))).toC ∧
    (sigaction s sig a).2 = match a with
      | none => s
      | some c => { s with
          actions := fun i => if i = sig.toNat - 1 then (newRaw s.dflAddr sig.toNat c.toRt).1 else s.actions i
          ctl := if (newRaw s.dflAddr sig.toNat c.toRt).2 then s.ctl.discard sig.toNat else s.ctl } := by
  unfold HasAction at h
  unfold sigaction
  rw [if_neg (by omega)]
  unfold sigactionInner
  rw [if_neg (by omega), if_neg (by unfold SIGKILL SIGSTOP; omega)]
  cases a <;> simp

theorem table_shows {s : Sigs} {M : Int → Disp} (h : Table s M) {sig : Int} (h1 : HasAction sig) (h9 : sig ≠ 9) (h19 : sig ≠ 19) :
    Shows (M sig) (convertOld s.dflAddr (s.actions (sig.toNat - 1))).toC ∧
    (convertOld s.dflAddr (s.actions (sig.toNat - 1))).toC.handler = (M sig).addr := by
  have hk : ((sig.toNat : Nat) : Int) = sig := by unfold HasAction at h1; omega
  have := h sig.toNat (by rw [hk]; exact h1) (by omega) (by omega)
  rw [hk] at this
  cases hm : M sig with
  | dfl => rw [hm] at this; simp only at this; simp [Action.toC, this, Shows, Disp.addr]
  | ign => rw [hm] at this; simp only at this; simp [Action.toC, this, Shows, Disp.addr]
  | caught => rw [hm] at this; simp only at this; simp [Action.toC, this.1, Shows, Disp.addr]

theorem table_update {s : Sigs} {M : Int → Disp} (h : Table s M) (hs : Sane s) {sig : Int} (h1 : HasAction sig)
    {c : CAction} (hc : Func s c.handler) (hf : Flags c.flags) (t : Sigs) (hd : t.dflAddr = s.dflAddr)
    (ha : t.actions = fun i => if i = sig.toNat - 1 then (newRaw s.dflAddr sig.toNat c.toRt).1 else s.actions i) :
    Table t (update M sig (.of c)) := by
  intro k hk h9 h19
  rw [hd, ha]
  unfold update
  by_cases he : (k : Int) = sig
  · rw [if_pos he]
    have : k - 1 = sig.toNat - 1 := by omega
    simp only [this, if_true]
    exact new_convert hs hc hf _
  · rw [if_neg he]
    have : k - 1 ≠ sig.toNat - 1 := by unfold HasAction at *; omega
    simp only [this, if_false]
    exact h k hk h9 h19

theorem run_expected (cs : List ActCall) {s : Sigs} (hs : Sane s) (hc : ∀ c ∈ cs, c.Good s) {M : Int → Disp} (h : Table s M)
    (h9 : M 9 = .dfl) (h19 : M 19 = .dfl) : Expected M cs (runActs s cs) := by
  induction cs generalizing s M with
  | nil => rfl
  | cons c cs ih =>
    have hc0 := hc c (List.mem_cons_self ..)
    have hc' : ∀ c ∈ cs, c.Good s := fun x hx => hc x (List.mem_cons_of_mem _ hx)
    have hup : ∀ {sig : Int} (d : Disp), sig ≠ 9 → sig ≠ 19 → update M sig d 9 = .dfl ∧ update M sig d 19 = .dfl := by
      intro sig d a b
      unfold update
      rw [if_neg (Ne.symm a), if_neg (Ne.symm b)]
      exact ⟨h9, h19⟩
    cases c with
    | sigaction sig act =>
      refine ⟨_, _, rfl, ?_⟩
      by_cases hv : HasAction sig
      · by_cases hf : sig = 9 ∨ sig = 19
        · rw [sigaction_fixed s hf]
          cases act with
          | none =>
            rw [if_pos ⟨hv, fun h => absurd rfl h⟩]
            refine ⟨⟨_, rfl, ?_⟩, ih hs hc' h h9 h19⟩
            rcases hf with rfl | rfl
            · rw [h9]; rfl
            · rw [h19]; rfl
          | some a =>
            rw [if_neg (fun h => by have := h.2 nofun; omega)]
            exact ⟨rfl, ih hs hc' h h9 h19⟩
        · rw [if_pos ⟨hv, fun _ => by omega⟩]
          obtain ⟨e1, e2⟩ := sigaction_good s hv (fun h => hf (.inl h)) (fun h => hf (.inr h)) act
          rw [e1, e2]
          refine ⟨⟨_, rfl, (table_shows h hv (fun h => hf (.inl h)) (fun h => hf (.inr h))).1⟩, ?_⟩
          cases act with
          | none => exact ih hs hc' h h9 h19
          | some a =>
            obtain ⟨f1, f2⟩ := hc0 a rfl
            have hu := hup (sig := sig) (.of a) (by omega) (by omega)
            refine ih ?_ ?_ (table_update h hs hv f1 f2 _ rfl rfl) hu.1 hu.2
            · exact hs
            · exact hc'
      · rw [if_neg fun h => hv h.1, sigaction_bad s hv]
        exact ⟨rfl, ih hs hc' h h9 h19⟩
    | signal sig func =>
      refine ⟨_, _, rfl, ?_⟩
      by_cases hv : HasAction sig
      · by_cases hf : sig = 9 ∨ sig = 19
        · rw [if_neg (by omega)]
          unfold signal
          rw [sigaction_fixed s hf]
          exact ⟨rfl, ih hs hc' h h9 h19⟩
        · rw [if_pos ⟨hv, by omega⟩]
          obtain ⟨e1, e2⟩ := sigaction_good s hv (fun h => hf (.inl h)) (fun h => hf (.inr h)) (some ⟨func, flagRestart, 0⟩)
          unfold signal
          simp only [e1, e2]
          rw [(table_shows h hv (fun h => hf (.inl h)) (fun h => hf (.inr h))).2]
          have hu := hup (sig := sig) (.of ⟨func, 0x08000000, 0⟩) (by omega) (by omega)
          refine ⟨rfl, ih ?_ ?_ (table_update (c := ⟨func, flagRestart, 0⟩) h hs hv hc0 (show flagRestart &&& 0x7e000000 = flagRestart from rfl) _ rfl rfl) hu.1 hu.2⟩
          · exact hs
          · exact hc'
      · rw [if_neg fun h => hv h.1]
        unfold signal
        rw [sigaction_bad s hv]
        exact ⟨rfl, ih hs hc' h h9 h19⟩

theorem init_table (D : U64) (hD : D.toNat < 2 ^ 57) (c : Ctl) : Table ⟨initActions D, c, D⟩ (fun _ => .dfl) := by
  intro k hk h9 h19
  simp only
  unfold initActions
  have : ∀ b : BitVec 32, b &&& storedFlags = b → (convertOld D ⟨(b.setWidth 64 <<< 32) ||| D, 0⟩).kind = .dfl := by
    intro b hb
    rw [BitVec.or_comm, ← hb, convert_pack hD]
    simp
  apply this
  repeat' split
  all_goals rfl

/-! ## C74 -/

/-- **C74.** However `sigaction` and `signal` are called after the start of a program: each call that does not fail gives what the program has
last asked for, with the flags and the mask if the signal is caught, `SIG_DFL` if nothing has been asked for; a call fails exactly if there
is no such signal or the action of `SIGKILL` or `SIGSTOP` was to be changed, and then it changes nothing; one signal's action does not
affect another's. -/
theorem C74_sigaction (D : U64) (hD : D.toNat < 2 ^ 57) (h0 : D ≠ 0) (c : Ctl) (cs : List ActCall)
    (hc : ∀ x ∈ cs, x.Good ⟨initActions D, c, D⟩) :
    Expected (fun _ => .dfl) cs (runActs ⟨initActions D, c, D⟩ cs) :=
  run_expected cs ⟨hD, h0⟩ hc (init_table D hD c) rfl rfl

/-- **C74.** A signal that is set to be ignored is no longer pending for the thread nor the process, all other pending signals are, and the
mask is as before; a signal that is set to be caught stays pending. -/
theorem C74_discard (s : Sigs) (sig : Int) (h : HasAction sig) (h9 : sig ≠ 9) (h19 : sig ≠ 19) (c : CAction) :
    (c.handler = 1 → ∀ k : Nat, 1 ≤ k → k ≤ 64 →
      (Pending (sigaction s sig (some c)).2.ctl k ↔ Pending s.ctl k ∧ (k : Int) ≠ sig) ∧
      (Mem (sigaction s sig (some c)).2.ctl.proc k ↔ Mem s.ctl.proc k ∧ (k : Int) ≠ sig) ∧
      (Blocked (sigaction s sig (some c)).2.ctl k ↔ Blocked s.ctl k)) ∧
    (c.handler ≠ 0 → c.handler ≠ 1 → (sigaction s sig (some c)).2.ctl = s.ctl) := by
  rw [(sigaction_good s h h9 h19 (some c)).2]
  simp only
  constructor
  · intro h1 k hk1 hk2
    have e : newRaw s.dflAddr sig.toNat c.toRt = newRaw s.dflAddr sig.toNat ⟨.ign, c.mask, c.flags⟩ := by
      unfold CAction.toRt
      rw [if_neg (by rw [h1]; decide), if_pos h1]
    rw [e]
    simp only [newRaw, if_true]
    unfold HasAction at h
    obtain ⟨n, rfl⟩ : ∃ n : Nat, sig = n := ⟨sig.toNat, by omega⟩
    have hn : n - 1 < 64 := by omega
    have hne : (((k : Nat) : Int) ≠ ((n : Nat) : Int)) ↔ k ≠ n := by omega
    rw [hne, Int.toNat_natCast]
    refine ⟨?_, ?_, ?_⟩
    · unfold Pending Ctl.discard
      simp only [hk1, true_and]
      split <;> rename_i hk <;> split <;> rename_i hg <;>
        try simp only [BitVec.getLsbD_and, BitVec.getLsbD_not, getLsbD_bit _ _ (show (n - 1) % 32 < 64 by omega), Bool.and_eq_true]
      · simp; omega
      · simp; omega
      · simp; omega
      · simp; omega
    · unfold Mem Ctl.discard
      simp only [hk1, true_and]
      simp only [BitVec.getLsbD_and, BitVec.getLsbD_not, getLsbD_bit _ _ hn, Bool.and_eq_true]
      have : n - 1 = k - 1 ↔ k = n := by omega
      simp [this, show k - 1 < 64 by omega]
    · unfold Blocked Allowed Ctl.discard
      simp only [hk1, true_and]
      have h2 : ∀ x, (n - 1) % 32 ≠ 32 + x := by omega
      split <;> rename_i hk <;> split <;> rename_i hg <;>
        try simp only [BitVec.getLsbD_and, BitVec.getLsbD_not, getLsbD_bit _ _ (show (n - 1) % 32 < 64 by omega), Bool.and_eq_true]
      · simp [h2, show 32 + (k - 1) < 64 by omega]
      · simp [h2, show 32 + (k - 33) < 64 by omega]
  · intro h0 h1
    have e : newRaw s.dflAddr sig.toNat c.toRt = newRaw s.dflAddr sig.toNat ⟨.handled c.handler, c.mask, c.flags⟩ := by
      unfold CAction.toRt
      rw [if_neg h0, if_neg h1]
    rw [e]
    simp [newRaw]

/-- The state after some calls. -/
def afterActs (s : Sigs) : List ActCall → Sigs
  | [] => s
  | .sigaction sig act :: cs => afterActs (Verif.Signal.sigaction s sig act).2 cs
  | .signal sig func :: cs => afterActs (Verif.Signal.signal s sig func).2 cs

theorem table_step {s : Sigs} (hs : Sane s) {sig : Int} {act : Option CAction} (hc : ∀ c ∈ act, Func s c.handler ∧ Flags c.flags)
    {M : Int → Disp} (h : Table s M) : (∃ M', Table (sigaction s sig act).2 M') ∧ (sigaction s sig act).2.dflAddr = s.dflAddr := by
  by_cases hv : HasAction sig
  · by_cases hf : sig = 9 ∨ sig = 19
    · rw [sigaction_fixed s hf]
      exact ⟨⟨M, h⟩, rfl⟩
    · rw [(sigaction_good s hv (fun h => hf (.inl h)) (fun h => hf (.inr h)) act).2]
      cases act with
      | none => exact ⟨⟨M, h⟩, rfl⟩
      | some c => exact ⟨⟨_, table_update h hs hv (hc c rfl).1 (hc c rfl).2 _ rfl rfl⟩, rfl⟩
  · rw [sigaction_bad s hv]
    exact ⟨⟨M, h⟩, rfl⟩

theorem table_after (cs : List ActCall) {s : Sigs} (hs : Sane s) (hc : ∀ c ∈ cs, c.Good s) {M : Int → Disp} (h : Table s M) :
    (∃ M', Table (afterActs s cs) M') ∧ (afterActs s cs).dflAddr = s.dflAddr := by
  induction cs generalizing s M with
  | nil => exact ⟨⟨M, h⟩, rfl⟩
  | cons c cs ih =>
    have hc0 := hc c (List.mem_cons_self ..)
    have key : ∀ {sig : Int} {act : Option CAction} (_ : ∀ c ∈ act, Func s c.handler ∧ Flags c.flags),
        (∃ M', Table (afterActs (sigaction s sig act).2 cs) M') ∧ (afterActs (sigaction s sig act).2 cs).dflAddr = s.dflAddr := by
      intro sig act ha
      obtain ⟨⟨M', hM⟩, hd⟩ := table_step (sig := sig) hs ha h
      have := ih (s := (sigaction s sig act).2) (by unfold Sane; rw [hd]; exact hs) (fun x hx => by
        have := hc x (List.mem_cons_of_mem _ hx)
        cases x <;> simp only [ActCall.Good, Func] at * <;> rw [hd] <;> exact this) hM
      rw [← hd]
      exact this
    cases c with
    | sigaction sig act => exact key hc0
    | signal sig func => exact key (act := some ⟨func, flagRestart, 0⟩) (by
        intro c hc
        injection hc with hc
        subst hc
        exact ⟨hc0, (show flagRestart &&& 0x7e000000 = flagRestart from rfl)⟩)

theorem ignmask_bit (s : Sigs) (L : List Nat) (hL : ∀ b ∈ L, b < 64) (acc : U64) (i : Nat) :
    (L.foldl (fun mask b => if (sigactionInner s (b + 1) none).2.1.kind = .ign then mask ||| bit b else mask) acc).getLsbD i = true ↔
      acc.getLsbD i = true ∨ (i ∈ L ∧ (sigactionInner s (i + 1) none).2.1.kind = .ign) := by
  induction L generalizing acc with
  | nil => simp
  | cons b L ih =>
    rw [List.foldl_cons, ih (fun x hx => hL x (List.mem_cons_of_mem _ hx))]
    have hb := hL b (List.mem_cons_self ..)
    split
    · rename_i h
      rw [BitVec.getLsbD_or, getLsbD_bit _ _ hb]
      by_cases hi : b = i
      · subst hi; simp [h]
      · simp [hi, Ne.symm hi]
    · rename_i h
      by_cases hi : b = i
      · subst hi; simp [h]
      · simp [Ne.symm hi]

theorem inner_ign (s : Sigs) (b : Nat) :
    (sigactionInner s (b + 1) (some ⟨.ign, 0, flagIgnored⟩)).2.2.dflAddr = s.dflAddr ∧
    ∀ i, (sigactionInner s (b + 1) (some ⟨.ign, 0, flagIgnored⟩)).2.2.actions i =
      if i = b ∧ b < 64 ∧ b ≠ 31 ∧ b ≠ 8 ∧ b ≠ 18 then ⟨0x8000000000000000, BitVec.allOnes 64⟩ else s.actions i := by
  unfold sigactionInner SIGKILL SIGSTOP
  split
  · refine ⟨rfl, fun i => ?_⟩
    rw [if_neg (by omega)]
  · split
    · refine ⟨rfl, fun i => ?_⟩
      rw [if_neg (by omega)]
    · refine ⟨rfl, fun i => ?_⟩
      simp only [newRaw, Nat.add_sub_cancel]
      by_cases hi : i = b
      · rw [if_pos hi, if_pos (by omega)]
        rfl
      · rw [if_neg hi, if_neg (by omega)]

theorem apply_foldl (L : List Nat) (s : Sigs) :
    let t := L.foldl (fun s b => (sigactionInner s (b + 1) (some ⟨.ign, 0, flagIgnored⟩)).2.2) s
    t.dflAddr = s.dflAddr ∧
    ∀ i, t.actions i = if i ∈ L ∧ i < 64 ∧ i ≠ 31 ∧ i ≠ 8 ∧ i ≠ 18 then ⟨0x8000000000000000, BitVec.allOnes 64⟩ else s.actions i := by
  induction L generalizing s with
  | nil => simp
  | cons b L ih =>
    obtain ⟨h1, h2⟩ := ih (sigactionInner s (b + 1) (some ⟨.ign, 0, flagIgnored⟩)).2.2
    obtain ⟨h3, h4⟩ := inner_ign s b
    refine ⟨h1.trans h3, fun i => ?_⟩
    rw [List.foldl_cons, h2, h4]
    simp only [List.mem_cons]
    grind

/-- **C74.** The signals which the new program image finds ignored after `execve` are those for which the old one had asked for `SIG_IGN`; all
others have their default action. -/
theorem C74_inherit (D D' : U64) (hD : D.toNat < 2 ^ 57) (h0 : D ≠ 0) (hD' : D'.toNat < 2 ^ 57) (h0' : D' ≠ 0) (c c' : Ctl)
    (cs : List ActCall) (hc : ∀ x ∈ cs, x.Good ⟨initActions D, c, D⟩) (sig : Int) (h : HasAction sig) :
    let old := afterActs ⟨initActions D, c, D⟩ cs
    let new := applyIgnmask ⟨initActions D', c', D'⟩ (ignmask old)
    ((sigaction new sig none).1.map (·.handler) = some 1 ∧ (sigaction old sig none).1.map (·.handler) = some 1) ∨
    ((sigaction new sig none).1.map (·.handler) = some 0 ∧ (sigaction old sig none).1.map (·.handler) ≠ some 1) := by
  intro old new
  obtain ⟨⟨M, hM⟩, hd⟩ := table_after cs ⟨hD, h0⟩ hc (init_table D hD c)
  by_cases hf : sig = 9 ∨ sig = 19
  · rw [sigaction_fixed _ hf, sigaction_fixed _ hf]
    right
    exact ⟨rfl, by simp⟩
  · rw [(sigaction_good old h (fun h => hf (.inl h)) (fun h => hf (.inr h)) none).1,
      (sigaction_good new h (fun h => hf (.inl h)) (fun h => hf (.inr h)) none).1]
    have hh := h
    unfold HasAction at h
    obtain ⟨n, rfl⟩ : ∃ n : Nat, sig = n := ⟨sig.toNat, by omega⟩
    rw [Int.toNat_natCast]
    have ht := hM n hh (by omega) (by omega)
    have ht0 := init_table D' hD' c' n hh (by omega) (by omega)
    simp only at ht0
    obtain ⟨a1, a2⟩ := apply_foldl ((List.range 64).filter fun b => ignmask old &&& bit b ≠ 0) ⟨initActions D', c', D'⟩
    have ha2 := a2 (n - 1)
    have hbit : ignmask old &&& bit (n - 1) ≠ 0 ↔ (convertOld old.dflAddr (old.actions (n - 1))).kind = .ign := by
      rw [and_bit_ne_zero _ _ (by omega), ignmask, ignmask_bit _ _ (fun b hb => List.mem_range.1 hb), Nat.sub_add_cancel (by omega)]
      unfold sigactionInner SIGKILL SIGSTOP
      rw [if_neg (by omega), if_neg (by omega)]
      simp; omega
    by_cases hk : (convertOld old.dflAddr (old.actions (n - 1))).kind = .ign
    · left
      have h2 := hbit.2 hk
      rw [if_pos ⟨by simp only [List.mem_filter, List.mem_range, decide_eq_true_eq]; exact ⟨by omega, h2⟩, by omega⟩] at ha2
      have e1 : new.actions (n - 1) = ⟨0x8000000000000000, BitVec.allOnes 64⟩ := ha2
      have e2 : new.dflAddr = D' := a1
      rw [e1, e2]
      constructor
      · have : (convertOld D' ⟨0x8000000000000000, BitVec.allOnes 64⟩).kind = .ign := by
          unfold convertOld
          simp only
          rw [if_neg (by rw [show (0x8000000000000000 : U64) &&& handlerBits = 0 from rfl]; exact Ne.symm h0'), if_pos (by decide)]
        simp only [Action.toC, this, Option.map_some]
      · simp [Action.toC, hk]
    · right
      have h2 := mt hbit.1 hk
      rw [if_neg (fun h => by have := h.1; simp only [List.mem_filter, decide_eq_true_eq] at this; exact h2 this.2)] at ha2
      have e1 : new.actions (n - 1) = initActions D' (n - 1) := ha2
      have e2 : new.dflAddr = D' := a1
      rw [e1, e2]
      constructor
      · simp [Action.toC, ht0]
      · cases hm : M n with
        | dfl => rw [hm] at ht; simp only at ht; simp [old, Action.toC, ht]
        | ign => rw [hm] at ht; simp only at ht; exact absurd ht hk
        | caught => rw [hm] at ht; simp only at ht; simp [old, Action.toC, ht.1]; exact ht.2.2

/-- **C74** fails for `siginterrupt`: with a flag other than 0 it panics, whatever the signal and the state. -/
theorem C74_siginterrupt_violation (s : Sigs) (sig flag : Int) (h : flag ≠ 0) : siginterrupt s sig flag = none := by
  unfold siginterrupt
  simp only
  rw [if_pos h, if_neg (by decide)]

/-- A program sets a handler for `SIGUSR1` (10), sets it to be ignored with `signal`, fails to catch `SIGKILL`, and asks. -/
example : runActs ⟨initActions 0x1000, ⟨0, 0, 0⟩, 0x1000⟩
    [.sigaction 10 (some ⟨0x5555, 0x10000000, 0x800⟩), .signal 10 1, .signal 9 0x5555, .sigaction 10 none, .sigaction 17 none] =
    [.act ⟨0, 0, 0⟩, .addr 0x5555, .addr (-1), .act ⟨1, 0, 0⟩, .act ⟨0, 0, 0⟩] := by
  rfl

/-! ## C75 -/

/-- **C75.** When a handler is called, the mask is the mask before, the signals in `sa_mask`, and the signal itself unless `SA_NODEFER` is set, but
never `SIGKILL` and `SIGSTOP`. Whatever state the handler leaves behind, afterwards the mask is as it was before the signal, if the set saved in the
context has not been changed. No pending signal is lost before or after the handler, and one that is then unblocked is delivered at once. -/
theorem C75_handler_mask (e : Env) (s : Mach) (hs : s.ctl.Ok) (a : Action) (sig : Nat) (h1 : 1 ≤ sig) (h2 : sig ≤ 64) :
    let saved := (enterHandler e s a sig).1
    let inside := (enterHandler e s a sig).2
    PendingKept e s inside ∧
    (∀ k, 1 ≤ k → k ≤ 64 →
      (Blocked inside.ctl k ↔ (Blocked s.ctl k ∨ Mem a.mask k ∨ (k = sig ∧ a.flags &&& 0x10000000 ≠ 0x10000000)) ∧ ¬ Unblockable k)) ∧
    ∀ after : Mach, let final := (leaveHandler e after saved).2
      PendingKept e after final ∧ SameMask s final ∧
      ((∃ k, 1 ≤ k ∧ k ≤ 64 ∧ Pending after.ctl k ∧ ¬ Blocked s.ctl k) → (leaveHandler e after saved).1 = true) := by
  obtain ⟨g1, g2, g3⟩ := getAllowset_kept e s
  let ins : U64 := if a.flags &&& flagNodefer = flagNodefer then ~~~ a.mask &&& s.ctl.allow else (~~~ a.mask &&& s.ctl.allow) &&& ~~~ bit (sig - 1)
  obtain ⟨k1, k2, -⟩ := setAllowset_kept e (getAllowset e s).2 s.ctl.allow ins g2.symm
  have e1 : enterHandler e s a sig = (s.ctl.allow, (setAllowset e (getAllowset e s).2 s.ctl.allow ins).2) := by
    unfold enterHandler
    simp only [g3]
    rfl
  rw [e1]
  intro saved inside
  refine ⟨(g1.trans k1).pendingKept, ?_, ?_⟩
  · intro k hk1 hk2
    obtain ⟨i, rfl⟩ : ∃ i, k = i + 1 := ⟨k - 1, by omega⟩
    have hi : i < 64 := by omega
    rw [blocked_iff k2 i hi, blocked_iff' _ i hi]
    have hm : Mem a.mask (i + 1) ↔ a.mask.getLsbD i = true := by simp [Mem]
    rw [hm]
    have : ins.getLsbD i = false ↔ (s.ctl.allow.getLsbD i = false ∨ a.mask.getLsbD i = true ∨ (i + 1 = sig ∧ a.flags &&& 0x10000000 ≠ 0x10000000)) := by
      simp only [ins]
      split
      · rename_i hn
        have hn' : a.flags &&& 0x10000000 = 0x10000000 := hn
        simp only [BitVec.getLsbD_and, BitVec.getLsbD_not, hi, hn']
        cases a.mask.getLsbD i <;> cases s.ctl.allow.getLsbD i <;> simp
      · rename_i hn
        have hn' : ¬ a.flags &&& 0x10000000 = 0x10000000 := hn
        simp only [BitVec.getLsbD_and, BitVec.getLsbD_not, hi, getLsbD_bit _ _ (show sig - 1 < 64 by omega), hn', ne_eq]
        have : sig - 1 = i ↔ i + 1 = sig := by omega
        cases a.mask.getLsbD i <;> cases s.ctl.allow.getLsbD i <;> simp [this]
    rw [this]
  · intro after final
    obtain ⟨l1, l2, l3⟩ := getAllowset_kept e after
    obtain ⟨m1, m2, m3⟩ := setAllowset_kept e (getAllowset e after).2 after.ctl.allow s.ctl.allow l2.symm
    obtain ⟨p1, p2⟩ := loadProc_kept e (setAllowset e (getAllowset e after).2 after.ctl.allow s.ctl.allow).2
    have ef : leaveHandler e after saved =
        (decide (((setAllowset e (getAllowset e after).2 after.ctl.allow s.ctl.allow).1 |||
          (loadProc e (setAllowset e (getAllowset e after).2 after.ctl.allow s.ctl.allow).2).1) &&& s.ctl.allow ≠ 0),
        (loadProc e (setAllowset e (getAllowset e after).2 after.ctl.allow s.ctl.allow).2).2) := by
      unfold leaveHandler
      simp only [l3]
      rfl
    have ef2 : final = (loadProc e (setAllowset e (getAllowset e after).2 after.ctl.allow s.ctl.allow).2).2 := by
      show (leaveHandler e after saved).2 = _
      rw [ef]
    refine ⟨?_, ?_, ?_⟩
    · rw [ef2]
      exact ((l1.trans m1).trans p1).pendingKept
    · apply sameMask_of
      rw [ef2, p2, m2, ok_allow hs]
    · rintro ⟨k, hk1, hk2, hp, hbk⟩
      obtain ⟨i, rfl⟩ : ∃ i, k = i + 1 := ⟨k - 1, by omega⟩
      have hi : i < 64 := by omega
      rw [← getLsbD_pend _ i hi] at hp
      rw [blocked_iff' _ i hi, Bool.not_eq_false] at hbk
      have hp3 := m3 i hi ((l1.pend i hi).2 (.inl hp))
      rw [ef]
      simp only [ne_eq, decide_eq_true_eq]
      intro hz
      have := congrArg (BitVec.getLsbD · i) hz
      simp only [BitVec.getLsbD_and, BitVec.getLsbD_or, hbk, hp3] at this
      simp at this

/-- **C75.** A caught signal whose action is not being changed has its handler called, with three arguments exactly if `SA_SIGINFO` is set; with
`SA_RESETHAND`, and only then, the action is `SIG_DFL` when the handler begins. -/
theorem C75_handler_called (s : Sigs) (hs : Sane s) (sig : Nat) (h : HasAction sig) (h9 : sig ≠ 9) (h19 : sig ≠ 19) (c : CAction)
    (hc : Func s c.handler) (hf : Flags c.flags) (h0 : c.handler ≠ 0) (h1 : c.handler ≠ 1) :
    let t := (sigaction s sig (some c)).2
    let a := deliverRead t sig
    a.fate sig = .call c.handler (c.flags &&& 0x02000000 = 0x02000000) ∧ a.mask = c.mask ∧ a.flags = c.flags ∧
    (sigaction (deliverReset t sig a) sig none).1.map (·.handler) =
      some (if c.flags &&& 0x20000000 = 0x20000000 then 0 else c.handler) := by
  intro t a
  have e := (sigaction_good s h (by omega) (by omega) (some c)).2
  have hn := new_convert hs hc hf sig
  have hof : Disp.of c = .caught c.handler c.flags c.mask := by
    unfold Disp.of
    rw [if_neg h0, if_neg h1]
  rw [hof] at hn
  simp only at hn
  have hd : t.dflAddr = s.dflAddr := by show (sigaction s sig (some c)).2.dflAddr = _; rw [e]
  have ht : t.actions (sig - 1) = (newRaw s.dflAddr sig c.toRt).1 := by
    show (sigaction s sig (some c)).2.actions (sig - 1) = _
    rw [e]
    simp
  have ha : a = ⟨.handled c.handler, c.mask, c.flags⟩ := by
    show convertOld t.dflAddr (t.actions (sig - 1)) = _
    rw [hd, ht]
    exact hn.1
  rw [ha]
  refine ⟨?_, rfl, rfl, ?_⟩
  · unfold Action.fate
    simp only
    rw [if_neg h0]
    rfl
  · rw [(sigaction_good _ h (by omega) (by omega) none).1]
    unfold deliverReset
    simp only
    split
    · rename_i hr
      have hr' : c.flags &&& 0x20000000 = 0x20000000 := hr
      rw [if_pos hr']
      have := (sigaction_good t h (by omega) (by omega) (some ⟨0, 0, 0⟩)).2
      have e2 : (sigactionInner t sig (some ⟨.dfl, 0, 0⟩)).2.2 = (sigaction t sig (some ⟨0, 0, 0⟩)).2 := by
        unfold sigaction
        rw [if_neg (by unfold HasAction at h; omega)]
        rfl
      rw [e2, this]
      simp only [Int.toNat_natCast, if_true]
      have := new_convert (s := t) (by unfold Sane; rw [hd]; exact hs) (c := ⟨0, 0, 0⟩)
        ⟨by decide, by rw [hd]; exact Ne.symm hs.2⟩ rfl sig
      have this : (convertOld t.dflAddr (newRaw t.dflAddr sig (CAction.toRt ⟨0, 0, 0⟩)).1).kind = .dfl := this
      simp only [Action.toC, this, Option.map_some]
    · rename_i hr
      have hr' : ¬ c.flags &&& 0x20000000 = 0x20000000 := hr
      rw [if_neg hr', Int.toNat_natCast, hd, ht, hn.1]
      rfl

/-- **C75** fails for `SA_RESETHAND` with several threads. Two threads receive a signal with such a handler: both read the action before either
resets it, and both call the handler. Or a second thread installs a new handler just then: its handler is lost, the next signal ends the
process. -/
theorem C75_resethand_violation :
    let s : Sigs := ⟨initActions 0x1000, ⟨0, 0, 0⟩, 0x1000⟩
    let t := (sigaction s 10 (some ⟨0x5555, 0x20000000, 0⟩)).2
    -- both read, then both reset
    (let a := deliverRead t 10
     let b := deliverRead t 10
     (deliverReset (deliverReset t 10 a) 10 b, a.fate 10, b.fate 10).2 = (.call 0x5555 false, .call 0x5555 false)) ∧
    -- a thread reads, the other installs a handler, the first resets
    (let a := deliverRead t 10
     let u := (sigaction t 10 (some ⟨0x6666, 0, 0⟩)).2
     let v := deliverReset u 10 a
     (sigaction u 10 none).1 = some ⟨0x6666, 0, 0⟩ ∧ (sigaction v 10 none).1 = some ⟨0, 0, 0⟩ ∧ (deliverRead v 10).fate 10 = .exit 10) := by
  decide +kernel

/-- **C75** fails when a signal is set to be ignored while it is being delivered to another thread: that thread panics; and a signal which is
ignored by default ends the process if it is set to `SIG_DFL` then (here `SIGCHLD`, 17). -/
theorem C75_ignore_violation :
    let s : Sigs := ⟨initActions 0x1000, ⟨0, 0, 0⟩, 0x1000⟩
    (deliverRead (sigaction s 10 (some ⟨1, 0, 0⟩)).2 10).fate 10 = .panic ∧
    (deliverRead (sigaction s 17 (some ⟨0, 0, 0⟩)).2 17).fate 17 = .exit 17 := by
  decide +kernel

/-- **C75**: the set saved in the context of the handler (`uc_sigmask`) is not the mask before, but its complement. -/
theorem C75_context_violation (e : Env) (s : Mach) (a : Action) (sig k : Nat) (h1 : 1 ≤ k) (h2 : k ≤ 64) :
    Mem (enterHandler e s a sig).1 k ↔ ¬ Blocked s.ctl k := by
  unfold enterHandler
  simp only [(getAllowset_kept e s).2.2]
  unfold Mem Blocked
  rw [Classical.not_not, allowed_iff _ _ h1 h2]
  simp [h1]

/-- **C75**: the signal by which threads are cancelled (34) can be blocked during a handler by `sa_mask`, unlike by `sigprocmask`. -/
theorem C75_internal_violation :
    ¬ Blocked fresh.ctl 34 ∧ Blocked (enterHandler quiet fresh ⟨.handled 0x5555, 0x200000000, 0⟩ 10).2.ctl 34 := by
  refine ⟨?_, ?_⟩
  · unfold Blocked; rw [allowed_iff _ _ (by omega) (by omega)]; decide +kernel
  · unfold Blocked; rw [allowed_iff _ _ (by omega) (by omega)]; decide +kernel

/-- Inside the handler of `SIGUSR1` (10) with `SIGUSR2` (12) in `sa_mask` both are blocked; afterwards neither is. -/
example :
    let r := enterHandler quiet fresh ⟨.handled 0x5555, 0x800, 0⟩ 10
    r.2.ctl.allow = 0xFFFFFFFFFFFFF5FF ∧ (leaveHandler quiet r.2 r.1).2.ctl.allow = 0xFFFFFFFFFFFFFFFF := by
  decide +kernel

end Verif.Signal
