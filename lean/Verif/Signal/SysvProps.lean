import Verif.Signal.SysvModel
import Verif.Signal.ActionProps
/-!
# C133: the signal functions of System V
-/

namespace Verif.Signal

/-! ## Specification -/

/-- Calls of the System V functions. -/
inductive SvCall where
  | hold (sig : Int)
  | relse (sig : Int)
  | ignore (sig : Int)
  | set (sig : Int) (func : U64)

/-- What a call returns: a number, or a handler. -/
inductive SvOut where
  | ret (r : Int)
  | addr (h : U64)
deriving DecidableEq

/-- The values returned by a sequence of calls. -/
def runSv (e : Env) (s : Sysv) : List SvCall → List SvOut
  | [] => []
  | .hold sig :: cs => .ret (sighold e s sig).1 :: runSv e (sighold e s sig).2 cs
  | .relse sig :: cs => .ret (sigrelse e s sig).1 :: runSv e (sigrelse e s sig).2 cs
  | .ignore sig :: cs => .ret (sigignore s sig).1 :: runSv e (sigignore s sig).2 cs
  | .set sig func :: cs => .addr (sigset e s sig func).1 :: runSv e (sigset e s sig func).2 cs

/-- The process after a sequence of calls. -/
def afterSv (e : Env) (s : Sysv) : List SvCall → Sysv
  | [] => s
  | .hold sig :: cs => afterSv e (sighold e s sig).2 cs
  | .relse sig :: cs => afterSv e (sigrelse e s sig).2 cs
  | .ignore sig :: cs => afterSv e (sigignore s sig).2 cs
  | .set sig func :: cs => afterSv e (sigset e s sig func).2 cs

/-- What the system has to remember: the dispositions, and the signals held. -/
structure SvSpec where
  disp : Int → Disp
  held : Int → Prop

/-- The signals which can be held: not `SIGKILL`, `SIGSTOP`, nor the two the library uses itself. -/
def Holdable (k : Int) : Prop := k ≠ 9 ∧ k ≠ 19 ∧ k ≠ 33 ∧ k ≠ 34

/-- The disposition of a signal can be changed. -/
def Changeable (k : Int) : Prop := HasAction k ∧ k ≠ 9 ∧ k ≠ 19

/-- Holding a signal. -/
def SvSpec.hold (m : SvSpec) (sig : Int) : SvSpec := { m with held := fun k => m.held k ∨ (k = sig ∧ Holdable sig) }

/-- Releasing a signal. -/
def SvSpec.relse (m : SvSpec) (sig : Int) : SvSpec := { m with held := fun k => m.held k ∧ k ≠ sig }

/-- Setting the disposition of a signal. -/
def SvSpec.dispose (m : SvSpec) (sig : Int) (func : U64) : SvSpec := { m with disp := update m.disp sig (.of ⟨func, 0, 0⟩) }

/-- The answer of `sigset`: `SIG_HOLD` (2) if the signal was held, otherwise its disposition. -/
def SvSpec.Answers (m : SvSpec) (sig : Int) (o : SvOut) : Prop :=
  (m.held sig → o = .addr 2) ∧ (¬ m.held sig → o = .addr (m.disp sig).addr)

/-- A call has to answer `o` and to lead from `m` to `m'`. -/
def SvStep (m : SvSpec) : SvCall → SvOut → SvSpec → Prop
  | .hold sig, o, m' => (Sig sig ∧ o = .ret 0 ∧ m' = m.hold sig) ∨ (¬ Sig sig ∧ o = .ret (-1) ∧ m' = m)
  | .relse sig, o, m' => (Sig sig ∧ o = .ret 0 ∧ m' = m.relse sig) ∨ (¬ Sig sig ∧ o = .ret (-1) ∧ m' = m)
  | .ignore sig, o, m' => (Changeable sig ∧ o = .ret 0 ∧ m' = m.dispose sig 1) ∨ (¬ Changeable sig ∧ o = .ret (-1) ∧ m' = m)
  | .set sig func, o, m' =>
    (func = 2 ∧ HasAction sig ∧ m.Answers sig o ∧ m' = m.hold sig) ∨
    (func ≠ 2 ∧ Changeable sig ∧ m.Answers sig o ∧ m' = (m.dispose sig func).relse sig) ∨
    (¬ HasAction sig ∧ o = .addr (-1) ∧ m' = m) ∨
    (func ≠ 2 ∧ ¬ Changeable sig ∧ o = .addr (-1) ∧ m' = m)

/-- The answers a sequence of calls has to give, and the end. -/
def SvRun (m : SvSpec) : List SvCall → List SvOut → SvSpec → Prop
  | [], outs, m' => outs = [] ∧ m' = m
  | c :: cs, outs, m' => ∃ o os mid, outs = o :: os ∧ SvStep m c o mid ∧ SvRun mid cs os m'

/-- Only `sigset` takes a handler: it is a function of the program, or one of the constants `SIG_DFL`, `SIG_IGN`, `SIG_HOLD`. -/
def SvCall.Good (D : U64) : SvCall → Prop
  | .set _ func => func.toNat < 2 ^ 57 ∧ func ≠ D
  | _ => True

/-! ## Lemmas -/

theorem set_of (sig : Int) :
    (¬ Sig sig → (sigaddset (sigemptyset (some 0)).set sig).ret = -1) ∧
    (Sig sig → ∃ w, sigaddset (sigemptyset (some 0)).set sig = ⟨0, false, some w⟩ ∧
      ∀ k : Nat, 1 ≤ k → k ≤ 64 → (Mem w k ↔ (k : Int) = sig)) := by
  constructor
  · intro h
    rw [(C42_invalid _ h).1]
  · intro h
    refine ⟨0 ||| bit (sig.toNat - 1), if_neg (by rw [badSig_iff]; simpa using h), ?_⟩
    intro k h1 h2
    unfold Sig at h
    unfold Mem
    rw [BitVec.getLsbD_or, getLsbD_bit _ _ (by omega)]
    simp
    omega

/-- The mask is `B` and the dispositions are `M`. -/
structure SvOk (D : U64) (s : Sysv) (m : SvSpec) : Prop where
  sane : Sane s.sigs
  addr : s.sigs.dflAddr = D
  table : Table s.sigs m.disp
  d9 : m.disp 9 = .dfl
  d19 : m.disp 19 = .dfl
  mask : ∀ k : Nat, 1 ≤ k → k ≤ 64 → (Blocked s.sigs.ctl k ↔ m.held k)
  free : ∀ k, m.held k → Holdable k

theorem holdable_iff (k : Nat) : Holdable k ↔ ¬ Internal k ∧ ¬ Unblockable k := by
  unfold Holdable Internal Unblockable
  omega

theorem block_step {e : Env} {D : U64} {s : Sysv} {m : SvSpec} (h : SvOk D s m) {sig : Int} {w : U64}
    (hw : ∀ k : Nat, 1 ≤ k → k ≤ 64 → (Mem w k ↔ (k : Int) = sig)) (want : Bool) :
    SvOk D (s.withMach (sigprocmask e s.mach 0 (some w) want).2) (m.hold sig) := by
  have hp := C63_sigprocmask e s.mach 0 w want (.inl rfl)
  refine ⟨h.sane, h.addr, h.table, h.d9, h.d19, ?_, ?_⟩
  · intro k h1 h2
    refine (hp.mask k h1 h2).trans ?_
    unfold NewMask SvSpec.hold
    dsimp only
    rw [show Blocked s.mach.ctl k ↔ m.held k from h.mask k h1 h2, hw k h1 h2]
    have := holdable_iff k
    constructor
    · rintro ⟨⟨-, a | ⟨a, b⟩⟩ | ⟨a, -⟩ | ⟨a, -⟩, u⟩
      · exact .inl a
      · exact .inr ⟨a, by rw [← a, this]; exact ⟨b, u⟩⟩
      · omega
      · omega
    · rintro (a | ⟨a, b⟩)
      · exact ⟨.inl ⟨rfl, .inl a⟩, (this.1 (h.free _ a)).2⟩
      · rw [← a, this] at b
        exact ⟨.inl ⟨rfl, .inr ⟨a, b.1⟩⟩, b.2⟩
  · rintro k (a | ⟨rfl, b⟩)
    · exact h.free k a
    · exact b

theorem unblock_step {e : Env} {D : U64} {s : Sysv} {m : SvSpec} (h : SvOk D s m) {sig : Int} {w : U64}
    (hw : ∀ k : Nat, 1 ≤ k → k ≤ 64 → (Mem w k ↔ (k : Int) = sig)) (want : Bool) :
    SvOk D (s.withMach (sigprocmask e s.mach 1 (some w) want).2) (m.relse sig) := by
  have hp := C63_sigprocmask e s.mach 1 w want (.inr (.inl rfl))
  refine ⟨h.sane, h.addr, h.table, h.d9, h.d19, ?_, fun k hk => h.free k hk.1⟩
  intro k h1 h2
  refine (hp.mask k h1 h2).trans ?_
  unfold NewMask SvSpec.relse
  dsimp only
  rw [show Blocked s.mach.ctl k ↔ m.held k from h.mask k h1 h2, hw k h1 h2]
  have := holdable_iff k
  constructor
  · rintro ⟨⟨a, -⟩ | ⟨-, a, b⟩ | ⟨a, -⟩, u⟩
    · omega
    · exact ⟨a, fun c => b ⟨c, (this.1 (h.free _ a)).1⟩⟩
    · omega
  · rintro ⟨a, b⟩
    exact ⟨.inr (.inl ⟨rfl, a, fun c => b c.1⟩), (this.1 (h.free _ a)).2⟩

theorem discard_blocked (c : Ctl) (n k : Nat) (h1 : 1 ≤ k) (h2 : k ≤ 64) : Blocked (c.discard n) k ↔ Blocked c k := by
  unfold Blocked Allowed Ctl.discard
  simp only [h1, true_and]
  have h3 : ∀ x, (n - 1) % 32 ≠ 32 + x := by omega
  split <;> rename_i hk <;> split <;> rename_i hg <;>
    try simp only [BitVec.getLsbD_and, BitVec.getLsbD_not, getLsbD_bit _ _ (show (n - 1) % 32 < 64 by omega), Bool.and_eq_true]
  · simp [h3, show 32 + (k - 1) < 64 by omega]
  · simp [h3, show 32 + (k - 33) < 64 by omega]

theorem dispose_step {D : U64} {s : Sysv} {m : SvSpec} (h : SvOk D s m) {sig : Int} (hs : Changeable sig) {func : U64}
    (hf : func.toNat < 2 ^ 57) (hD : func ≠ D) :
    (∃ old, (sigaction s.sigs sig (some ⟨func, 0, 0⟩)).1 = some old ∧ old.handler = (m.disp sig).addr) ∧
    SvOk D (s.withSigs (sigaction s.sigs sig (some ⟨func, 0, 0⟩)).2) (m.dispose sig func) := by
  obtain ⟨hv, h9, h19⟩ := hs
  obtain ⟨e1, e2⟩ := sigaction_good s.sigs hv h9 h19 (some ⟨func, 0, 0⟩)
  refine ⟨⟨_, e1, (table_shows h.table hv h9 h19).2⟩, ?_⟩
  rw [e2]
  refine ⟨h.sane, h.addr, ?_, ?_, ?_, ?_, h.free⟩
  · exact table_update (c := ⟨func, 0, 0⟩) h.table h.sane hv ⟨hf, by rw [h.addr]; exact hD⟩ (show (0 : BitVec 32) &&& 0x7e000000 = 0 from rfl) _ rfl rfl
  · exact (if_neg (Ne.symm h9)).trans h.d9
  · exact (if_neg (Ne.symm h19)).trans h.d19
  · intro k h1 h2
    refine Iff.trans ?_ (h.mask k h1 h2)
    show Blocked (if _ then _ else _) k ↔ _
    split
    · exact discard_blocked _ _ _ h1 h2
    · rfl

theorem answers {D : U64} {s : Sysv} {m : SvSpec} (h : SvOk D s m) {sig : Int} (hv : HasAction sig) {o : U64}
    (ho : ∀ k, 1 ≤ k → k ≤ 64 → (Mem o k ↔ Blocked s.sigs.ctl k ∧ ¬ Internal k)) {old : CAction}
    (hold : old.handler = (m.disp sig).addr) : m.Answers sig (.addr (sigsetResult (some o) sig old)) := by
  unfold HasAction at hv
  have hb : ¬ badSig sig = true := by rw [badSig_iff]; unfold Sig; omega
  have hm : Mem o sig.toNat ↔ m.held sig := by
    rw [ho _ (by omega) (by omega), h.mask _ (by omega) (by omega), show ((sig.toNat : Nat) : Int) = sig by omega]
    constructor
    · exact fun a => a.1
    · intro a
      have := h.free _ a
      unfold Holdable at this
      unfold Internal
      exact ⟨a, by omega⟩
  have hx : (sigismember (some o) sig).ret = 1 ↔ m.held sig := by
    rw [← hm]
    unfold sigismember
    rw [if_neg hb]
    dsimp only
    have : o &&& bit (sig.toNat - 1) ≠ 0 ↔ Mem o sig.toNat := by
      unfold Mem
      constructor
      · intro hn
        refine ⟨by omega, ?_⟩
        cases hc : o.getLsbD (sig.toNat - 1) with
        | true => rfl
        | false =>
          refine absurd (and_zero_of fun i hi hh => ?_) hn
          rw [getLsbD_bit _ _ (by omega)] at hh
          have : sig.toNat - 1 = i := by simpa using hh.2
          rw [← this, hc] at hh
          exact absurd hh.1 (by decide)
      · intro hn h0
        have := congrArg (fun x : U64 => x.getLsbD (sig.toNat - 1)) h0
        simp only [BitVec.getLsbD_and, getLsbD_bit _ _ (show sig.toNat - 1 < 64 by omega), hn.2] at this
        simp at this
    rw [← this]
    split <;> simp_all
  unfold sigsetResult
  constructor
  · intro a
    rw [if_pos (hx.2 a)]
    rfl
  · intro a
    rw [if_neg fun b => a (hx.1 b), hold]

theorem query_step {D : U64} {s : Sysv} {m : SvSpec} (h : SvOk D s m) {sig : Int} (hv : HasAction sig) :
    ∃ old, sigaction s.sigs sig none = (some old, s.sigs) ∧ old.handler = (m.disp sig).addr := by
  by_cases hf : sig = 9 ∨ sig = 19
  · rw [sigaction_fixed _ hf]
    refine ⟨⟨0, 0, 0⟩, rfl, ?_⟩
    rcases hf with rfl | rfl
    · rw [h.d9]; rfl
    · rw [h.d19]; rfl
  · obtain ⟨e1, e2⟩ := sigaction_good s.sigs hv (fun h => hf (.inl h)) (fun h => hf (.inr h)) none
    exact ⟨_, Prod.ext e1 e2, (table_shows h.table hv (fun h => hf (.inl h)) (fun h => hf (.inr h))).2⟩

theorem has_sig {sig : Int} (h : HasAction sig) : Sig sig := ⟨h.1, h.2.1⟩

theorem refuse {s : Sigs} {sig : Int} (h : ¬ Changeable sig) (c : CAction) : sigaction s sig (some c) = (none, s) := by
  by_cases hv : HasAction sig
  · rw [sigaction_fixed s (Classical.byContradiction fun hn => h ⟨hv, by omega, by omega⟩)]
    rfl
  · exact sigaction_bad s hv _

theorem sv_step (e : Env) {D : U64} {s : Sysv} {m : SvSpec} (h : SvOk D s m) (hD1 : D ≠ 1) (c : SvCall) (hc : c.Good D) (cs : List SvCall) :
    ∃ o s' m', runSv e s (c :: cs) = o :: runSv e s' cs ∧ afterSv e s (c :: cs) = afterSv e s' cs ∧ SvOk D s' m' ∧ SvStep m c o m' := by
  cases c with
  | hold sig =>
    refine ⟨.ret (sighold e s sig).1, (sighold e s sig).2, ?_⟩
    by_cases hs : Sig sig
    · obtain ⟨w, hw, hw'⟩ := (set_of sig).2 hs
      refine ⟨m.hold sig, rfl, rfl, ?_, .inl ⟨hs, ?_, rfl⟩⟩
      · unfold sighold
        rw [hw]
        exact block_step h hw' false
      · unfold sighold
        rw [hw]
        exact congrArg _ (C63_sigprocmask e s.mach 0 w false (.inl rfl)).ret
    · refine ⟨m, rfl, rfl, ?_, .inr ⟨hs, ?_, rfl⟩⟩
      · unfold sighold
        dsimp only
        rw [(set_of sig).1 hs]
        exact h
      · unfold sighold
        dsimp only
        rw [(set_of sig).1 hs]
        rfl
  | relse sig =>
    refine ⟨.ret (sigrelse e s sig).1, (sigrelse e s sig).2, ?_⟩
    by_cases hs : Sig sig
    · obtain ⟨w, hw, hw'⟩ := (set_of sig).2 hs
      refine ⟨m.relse sig, rfl, rfl, ?_, .inl ⟨hs, ?_, rfl⟩⟩
      · unfold sigrelse
        rw [hw]
        exact unblock_step h hw' false
      · unfold sigrelse
        rw [hw]
        exact congrArg _ (C63_sigprocmask e s.mach 1 w false (.inr (.inl rfl))).ret
    · refine ⟨m, rfl, rfl, ?_, .inr ⟨hs, ?_, rfl⟩⟩
      · unfold sigrelse
        dsimp only
        rw [(set_of sig).1 hs]
        exact h
      · unfold sigrelse
        dsimp only
        rw [(set_of sig).1 hs]
        rfl
  | ignore sig =>
    refine ⟨.ret (sigignore s sig).1, (sigignore s sig).2, ?_⟩
    by_cases hs : Changeable sig
    · obtain ⟨⟨old, h1, -⟩, h2⟩ := dispose_step h hs (func := 1) (by decide) (Ne.symm hD1)
      refine ⟨m.dispose sig 1, rfl, rfl, ?_, .inl ⟨hs, ?_, rfl⟩⟩
      · exact h2
      · unfold sigignore
        dsimp only
        rw [h1]
        rfl
    · refine ⟨m, rfl, rfl, ?_, .inr ⟨hs, ?_, rfl⟩⟩
      · unfold sigignore
        rw [refuse hs]
        exact h
      · unfold sigignore
        rw [refuse hs]
        rfl
  | set sig func =>
    by_cases hs : Sig sig
    · obtain ⟨w, hw, hw'⟩ := (set_of sig).2 hs
      by_cases hh : func = 2
      · by_cases hv : HasAction sig
        · obtain ⟨old, q1, q2⟩ := query_step h hv
          have hp := C63_sigprocmask e s.mach 0 w true (.inl rfl)
          obtain ⟨o, ho1, ho2⟩ := hp.oset.2 rfl
          have hr : sigset e s sig func = (sigsetResult (some o) sig old, s.withMach (sigprocmask e s.mach 0 (some w) true).2) := by
            unfold sigset
            rw [hw, q1]
            dsimp only
            rw [if_neg (by decide), if_pos (show func = SIG_HOLD from hh)]
            have : (s.withSigs s.sigs) = s := rfl
            rw [this, hp.ret, ho1, if_neg (by decide)]
          refine ⟨.addr (sigset e s sig func).1, (sigset e s sig func).2, m.hold sig, rfl, rfl, ?_, .inl ⟨hh, hv, ?_, rfl⟩⟩
          · rw [hr]
            exact block_step h hw' true
          · rw [hr]
            exact answers h hv ho2 q2
        · refine ⟨.addr (sigset e s sig func).1, (sigset e s sig func).2, m, rfl, rfl, ?_, .inr (.inr (.inl ⟨hv, ?_, rfl⟩))⟩ <;>
          · unfold sigset
            rw [hw]
            dsimp only
            rw [if_neg (by decide), if_pos (show func = SIG_HOLD from hh), sigaction_bad _ hv]
            first | exact h | rfl
      · by_cases hv : Changeable sig
        · obtain ⟨⟨old, h1, q2⟩, h2⟩ := dispose_step h hv hc.1 hc.2
          generalize ht : sigaction s.sigs sig (some ⟨func, 0, 0⟩) = t at h1 h2
          obtain ⟨t1, t2⟩ := t
          dsimp only at h1 h2
          subst h1
          have hp := C63_sigprocmask e (s.withSigs t2).mach 1 w true (.inr (.inl rfl))
          obtain ⟨o, ho1, ho2⟩ := hp.oset.2 rfl
          have hr : sigset e s sig func = (sigsetResult (some o) sig old,
              (s.withSigs t2).withMach (sigprocmask e (s.withSigs t2).mach 1 (some w) true).2) := by
            unfold sigset
            rw [hw, ht]
            dsimp only
            rw [if_neg (by decide), if_neg (show ¬ func = SIG_HOLD from hh)]
            rw [hp.ret, ho1, if_neg (by decide)]
          refine ⟨.addr (sigset e s sig func).1, (sigset e s sig func).2, (m.dispose sig func).relse sig, rfl, rfl, ?_, .inr (.inl ⟨hh, hv, ?_, rfl⟩)⟩
          · rw [hr]
            exact unblock_step h2 hw' true
          · rw [hr]
            have hmask : ∀ k, 1 ≤ k → k ≤ 64 → (Mem o k ↔ Blocked s.sigs.ctl k ∧ ¬ Internal k) := by
              intro k k1 k2
              rw [ho2 k k1 k2, h.mask k k1 k2]
              exact and_congr (h2.mask k k1 k2) Iff.rfl
            exact answers h hv.1 hmask q2
        · refine ⟨.addr (sigset e s sig func).1, (sigset e s sig func).2, m, rfl, rfl, ?_, .inr (.inr (.inr ⟨hh, hv, ?_, rfl⟩))⟩ <;>
          · unfold sigset
            rw [hw]
            dsimp only
            rw [if_neg (by decide), if_neg (show ¬ func = SIG_HOLD from hh), refuse hv]
            first | exact h | rfl
    · refine ⟨.addr (sigset e s sig func).1, (sigset e s sig func).2, m, rfl, rfl, ?_, .inr (.inr (.inl ⟨fun hv => hs (has_sig hv), ?_, rfl⟩))⟩ <;>
      · unfold sigset
        dsimp only
        rw [(set_of sig).1 hs, if_pos (by decide)]
        first | exact h | rfl

theorem sv_run (e : Env) {D : U64} (hD1 : D ≠ 1) (cs : List SvCall) (hc : ∀ c ∈ cs, c.Good D) {s : Sysv} {m : SvSpec} (h : SvOk D s m) :
    ∃ m', SvRun m cs (runSv e s cs) m' ∧ SvOk D (afterSv e s cs) m' := by
  induction cs generalizing s m with
  | nil => exact ⟨m, ⟨rfl, rfl⟩, h⟩
  | cons c cs ih =>
    obtain ⟨o, s', m', h1, h2, h3, h4⟩ := sv_step e h hD1 c (hc c (List.mem_cons_self ..)) cs
    obtain ⟨m'', h5, h6⟩ := ih (fun x hx => hc x (List.mem_cons_of_mem _ hx)) h3
    rw [h1, h2]
    exact ⟨m'', ⟨o, _, m', rfl, h4, h5⟩, h6⟩

/-! ## C133 -/

/-- **C133.** However `sighold`, `sigrelse`, `sigignore` and `sigset` are called after the start of a program, and whatever signals are sent
meanwhile: each call answers as it has to according to the dispositions and the signals held so far, and in the end exactly the signals held
are blocked. -/
theorem C133_sysv (e : Env) (D : U64) (hD : D.toNat < 2 ^ 57) (h0 : D ≠ 0) (hD1 : D ≠ 1) (c : Ctl) (t : Nat)
    (hb : ∀ k, 1 ≤ k → k ≤ 64 → ¬ Blocked c k) (cs : List SvCall) (hc : ∀ x ∈ cs, x.Good D) :
    ∃ m', SvRun ⟨fun _ => .dfl, fun _ => False⟩ cs (runSv e ⟨⟨initActions D, c, D⟩, t⟩ cs) m' ∧
      ∀ k : Nat, 1 ≤ k → k ≤ 64 → (Blocked (afterSv e ⟨⟨initActions D, c, D⟩, t⟩ cs).sigs.ctl k ↔ m'.held k) := by
  have h : SvOk D ⟨⟨initActions D, c, D⟩, t⟩ ⟨fun _ => .dfl, fun _ => False⟩ :=
    ⟨⟨hD, h0⟩, rfl, init_table D hD c, rfl, rfl, fun k h1 h2 => iff_of_false (hb k h1 h2) id, fun _ h => h.elim⟩
  obtain ⟨m', h1, h2⟩ := sv_run e hD1 cs hc h
  exact ⟨m', h1, h2.mask⟩

/-- **C133.** `sigpause` waits with the mask without the signal; afterwards the mask is what it was, and no signal sent meanwhile is lost;
for a number that is not a signal's it does not wait. -/
theorem C133_sigpause (e : Env) (s : Mach) (hs : s.ctl.Ok) (hi : ∀ k, Internal k → ¬ Blocked s.ctl k) (sig : Int) :
    SameMask s (sigpause e s sig).2 ∧ PendingKept e s (sigpause e s sig).2 ∧
    (¬ Sig sig → (sigpause e s sig).1 = none) ∧
    (Sig sig → ∃ w, (sigpause e s sig).1 = some w ∧
      ∀ k : Nat, 1 ≤ k → k ≤ 64 → (Blocked w.ctl k ↔ Blocked s.ctl k ∧ (k : Int) ≠ sig)) := by
  obtain ⟨o, s', q1, q2, q3, q4⟩ := C63_query e s 0
  obtain ⟨m1, m2, m3, m4⟩ := modifySigmask_none e s
  have hs' : s' = (modifySigmask e s none).2 := by
    have := congrArg Prod.snd q1
    simpa [sigprocmask] using this.symm
  by_cases hv : Sig sig
  · have hd : sigdelset (some o) sig = ⟨0, false, some (o &&& ~~~ bit (sig.toNat - 1))⟩ :=
      if_neg (by rw [badSig_iff]; simpa using hv)
    generalize hmask : o &&& ~~~ bit (sig.toNat - 1) = mask at hd
    have hp : sigpause e s sig = (some (suspended e s' mask), sigsuspend e s' mask) := by
      unfold sigpause
      rw [q1]
      dsimp only
      rw [hd, if_neg (show ¬ (0 : Int) = -1 by decide)]
      rfl
    have hmem : ∀ k, 1 ≤ k → k ≤ 64 → (Mem mask k ↔ Blocked s.ctl k ∧ (k : Int) ≠ sig) := by
      intro k k1 k2
      unfold Sig at hv
      have h1 := q3 k k1 k2
      have h2 : Mem mask k ↔ Mem o k ∧ (k : Int) ≠ sig := by
        rw [← hmask]
        unfold Mem
        rw [BitVec.getLsbD_and, BitVec.getLsbD_not, getLsbD_bit _ _ (by omega)]
        have : sig.toNat - 1 = k - 1 ↔ (k : Int) = sig := by omega
        simp [this, k1, show k - 1 < 64 by omega]
      rw [h2, h1]
      constructor
      · exact fun a => ⟨a.1.1, a.2⟩
      · exact fun a => ⟨⟨a.1, fun b => hi k b a.1⟩, a.2⟩
    have hok : s'.ctl.Ok := by
      intro k hk
      have hk' : 1 ≤ k ∧ k ≤ 64 := by unfold Unblockable at hk; omega
      have := q4 k hk'.1 hk'.2
      unfold Blocked at this
      exact Classical.not_not.1 fun hn => this.1 hn (hs k hk)
    have hun : ∀ k, Unblockable k → ¬ Mem mask k := by
      intro k hk hm
      have hk' : 1 ≤ k ∧ k ≤ 64 := by unfold Unblockable at hk; omega
      exact ((hmem k hk'.1 hk'.2).1 hm).1 (hs k hk)
    obtain ⟨r1, r2, -, -⟩ := C64_sigsuspend_partial e s' mask hok hun
    rw [hp]
    refine ⟨fun k k1 k2 => (r1 k k1 k2).trans (q4 k k1 k2), ?_, fun h => absurd hv h, fun _ => ⟨_, rfl, ?_⟩⟩
    · have hk : Kept e s s' := hs' ▸ m1
      obtain ⟨h1, h2, h3⟩ := getAllowset_kept e s'
      intro k hk64
      dsimp only
      have ht : s.time ≤ s'.time := hk.1
      have ht2 : s'.time ≤ (sigsuspend e s' mask).time := by
        simp [sigsuspend, sleep, setAllowset, getAllowset, access, load0, load1, fetchAdd0, fetchAdd1]
        omega
      rw [r2 k hk64, q2 k hk64]
      unfold Posted
      constructor
      · rintro ((a | ⟨t, t1, t2, t3⟩) | ⟨t, t1, t2, t3⟩)
        · exact .inl a
        · exact .inr ⟨t, t1, by omega, t3⟩
        · exact .inr ⟨t, by omega, t2, t3⟩
      · rintro (a | ⟨t, t1, t2, t3⟩)
        · exact .inl (.inl a)
        · by_cases hlt : t < s'.time
          · exact .inl (.inr ⟨t, t1, hlt, t3⟩)
          · exact .inr ⟨t, by omega, t2, t3⟩
    · intro k k1 k2
      rw [← hmem k k1 k2]
      obtain ⟨h1, h2, h3⟩ := getAllowset_kept e s'
      obtain ⟨g1, g2, -⟩ := setAllowset_kept e (getAllowset e s').2 s'.ctl.allow (~~~ mask) h2.symm
      obtain ⟨i, rfl⟩ : ∃ i, k = i + 1 := ⟨k - 1, by omega⟩
      unfold suspended
      dsimp only
      rw [h3, blocked_iff g2 i (by omega)]
      have := hun (i + 1)
      unfold Mem at this ⊢
      rw [BitVec.getLsbD_not]
      simp only [show i < 64 by omega, decide_true, Bool.true_and, show i + 1 - 1 = i by omega] at this ⊢
      constructor
      · exact fun a => ⟨by omega, by simpa using a.1⟩
      · exact fun a => ⟨by simpa using a.2, fun u => this u a⟩
  · have hp : sigpause e s sig = (none, s') := by
      unfold sigpause
      rw [q1]
      dsimp only
      rw [(C42_invalid _ hv).2.1, if_pos rfl]
    rw [hp]
    exact ⟨q4, q2, fun _ => rfl, fun h => absurd h hv⟩

/-- A program holds `SIGUSR1` (10) with `sigset`, catches it, which releases it, ignores it, fails to ignore `SIGKILL`, holds `SIGUSR2` and
asks. -/
example : runSv quiet ⟨⟨initActions 0x1000, fresh.ctl, 0x1000⟩, 0⟩
    [.set 10 2, .set 10 0x5555, .ignore 10, .set 10 0, .ignore 9, .hold 12, .set 12 2, .set 65 0, .relse 12, .set 12 1] =
    [.addr 0, .addr 2, .ret 0, .addr 1, .ret (-1), .ret 0, .addr 2, .addr (-1), .ret 0, .addr 0] := by
  decide +kernel

/-- **C133.** The signals which cannot be held: `sighold` gives 0 for signal 33, and does not hold it. -/
theorem C133_unholdable :
    (sighold quiet ⟨⟨initActions 0x1000, fresh.ctl, 0x1000⟩, 0⟩ 33).1 = 0 ∧
    ¬ Blocked (sighold quiet ⟨⟨initActions 0x1000, fresh.ctl, 0x1000⟩, 0⟩ 33).2.sigs.ctl 33 := by
  refine ⟨by decide +kernel, ?_⟩
  unfold Blocked; rw [allowed_iff _ _ (by omega) (by omega)]; decide +kernel

end Verif.Signal
