import Verif.Syslog.Model
import Verif.Stdio.WriteLemmas
import Verif.Time.AsctimeProps
/-!
# What `syslog` logs (C137)
-/

namespace Verif.Syslog
open Verif.Stdio

/-! ## Specification -/

/-- What a program has set: the identity, `LOG_PID`, `LOG_PERROR`, and the severities that are logged (a set of bits). -/
structure Conf where
  ident : List UInt8
  pid : Bool
  perror : Bool
  mask : Nat

/-- Before any call: the identity is the name of the program, everything is logged. -/
def Conf.start (prog : List UInt8) : Conf := ⟨prog, false, false, 0xFF⟩

/-- What a call sets: `setlogmask 0` changes nothing, and no identity or an empty one is the name of the program. -/
def Conf.after (prog : List UInt8) (c : Conf) : Op → Conf
  | .openlog ident opt _ =>
    { c with ident := (match ident with
        | some s => if s = [] then prog else s
        | none => prog)
             pid := opt.toNat.testBit 0, perror := opt.toNat.testBit 5 }
  | .setlogmask m => if m = 0 then c else { c with mask := m.toNat }
  | .closelog => c
  | .syslog _ => c

/-- The severity of a message, the lower three bits of its priority, is one of those that are logged. -/
def Conf.wants (c : Conf) (x : Call) : Bool := c.mask.testBit (x.prio.toNat % 8)

/-- The record of a message: `<priority>time ident: message`, with `LOG_PID` the process id behind the identity. -/
def Conf.line (c : Conf) (x : Call) : List UInt8 :=
  [0x3C] ++ numeral 10 false x.prio.toNat ++ [0x3E] ++ x.stamp ++ [0x20] ++ c.ident
    ++ (if c.pid then numeral 10 false x.pid else []) ++ [0x3A, 0x20] ++ x.text ++ [0x0A]

/-- What a call adds to the log. -/
def Conf.adds (c : Conf) : Op → List UInt8
  | .syslog x => if c.wants x then c.line x else []
  | _ => []

/-- What a call prints on standard error. -/
def Conf.prints (c : Conf) : Op → List UInt8
  | .syslog x => if c.wants x ∧ c.perror then c.ident ++ [0x3A, 0x20] ++ x.text ++ [0x0A] else []
  | _ => []

/-- What calls in a row add to the log. -/
def logged (prog : List UInt8) (c : Conf) : List Op → List UInt8
  | [] => []
  | o :: l => c.adds o ++ logged prog (c.after prog o) l

/-- What calls in a row print. -/
def printed (prog : List UInt8) (c : Conf) : List Op → List UInt8
  | [] => []
  | o :: l => c.prints o ++ printed prog (c.after prog o) l

/-- The mask set last, by calls in a row. -/
def lastMask (m : UInt32) : List Op → UInt32
  | [] => m
  | .setlogmask n :: l => lastMask (if n = 0 then m else n) l
  | _ :: l => lastMask m l

/-- A text that C can pass and Rust accepts. -/
def Text (e : Env) (s : List UInt8) : Prop := e.utf8 s = true ∧ 0 ∉ s

/-- A call that makes no message: any, with a proper identity. -/
def Prepares (e : Env) : Op → Prop
  | .openlog ident _ _ => ∀ s, ident = some s → Text e s
  | .setlogmask _ => True
  | .closelog => True
  | .syslog _ => False

/-- A call that neither closes nor reopens the log. Messages have a format, no NUL in them, and one of the facilities `LOG_KERN`, `LOG_AUTH`,
`LOG_UUCP`, `LOG_LOCAL0`, `LOG_LOCAL4`: multiples of 32. -/
def Plain (e : Env) : Op → Prop
  | .openlog ident opt _ => (∀ s, ident = some s → Text e s) ∧ opt.toNat.testBit 3 = false
  | .setlogmask _ => True
  | .closelog => False
  | .syslog x => x.prio.toNat < 1024 ∧ x.prio.toNat % 32 < 8 ∧ x.emptyFormat = false ∧ 0 ∉ x.text ∧ 0 ∉ x.stamp

/-! ## Bits -/

theorem bit_and (x : UInt32) (i : Nat) (c : UInt32) (hc : c.toNat = 2 ^ i) : (x &&& c = c) ↔ x.toNat.testBit i = true := by
  rw [← UInt32.toNat_inj, UInt32.toNat_and, hc]
  constructor
  · intro h
    have := congrArg (fun n => Nat.testBit n i) h
    simpa [Nat.testBit_and, Nat.testBit_two_pow_self] using this
  · intro h
    apply Nat.eq_of_testBit_eq
    intro j
    rw [Nat.testBit_and, Nat.testBit_two_pow]
    by_cases hj : i = j
    · subst hj
      simp [h]
    · simp [hj]

theorem shift_toNat (p : UInt32) : ((1 : UInt32) <<< p).toNat = 2 ^ (p.toNat % 32) := by
  rw [UInt32.toNat_shiftLeft]
  have : (1 : UInt32).toNat = 1 := rfl
  rw [this, Nat.shiftLeft_eq, Nat.one_mul]
  apply Nat.mod_eq_of_lt
  exact Nat.pow_lt_pow_right (by decide) (Nat.mod_lt _ (by decide))

theorem low10 (i : Nat) : (0x3FF : UInt32).toNat.testBit i = decide (i < 10) := by
  have : (0x3FF : UInt32).toNat = 2 ^ 10 - 1 := rfl
  rw [this, Nat.testBit_two_pow_sub_one]

theorem shouldLog_iff (m p : UInt32) : shouldLog m p = (decide (p.toNat % 32 < 10) && m.toNat.testBit (p.toNat % 32)) := by
  unfold shouldLog
  have h := bit_and (m &&& 0x3FF) (p.toNat % 32) ((1 : UInt32) <<< p) (shift_toNat p)
  rw [Bool.eq_iff_iff, decide_eq_true_iff, h, UInt32.toNat_and, Nat.testBit_and, low10]
  simp [and_comm]

theorem keep_bit (a b : UInt32) (i : Nat) (hi : i < 10) : ((a &&& 0x3FF) ||| (b &&& ~~~0x3FF)).toNat.testBit i = a.toNat.testBit i := by
  have hn : (~~~ (0x3FF : UInt32)).toNat.testBit i = false := by
    have : ∀ j, j < 10 → (~~~ (0x3FF : UInt32)).toNat.testBit j = false := by decide +kernel
    exact this i hi
  rw [UInt32.toNat_or, UInt32.toNat_and, UInt32.toNat_and, Nat.testBit_or, Nat.testBit_and, Nat.testBit_and, low10, hn]
  simp [hi]

/-! ## Writing -/

theorem write_cap (w : BufWriter) (k : Kernel) (b : List UInt8) (hc : w.cap = 8192) : (w.write k b).2.1.cap = 8192 := by
  unfold BufWriter.write
  have hn : ¬ w.cap = 0 := by omega
  simp only [if_neg hn]
  have hp : ∀ (w : BufWriter) (k : Kernel), w.cap = 8192 → (w.put k b).2.1.cap = 8192 := by
    intro w k h
    unfold BufWriter.put
    split <;> exact h
  split
  · unfold BufWriter.flush
    dsimp only
    split
    · exact hp _ _ hc
    · exact hc
  · exact hp _ _ hc

theorem writeAll_spec (n : Nat) (w : BufWriter) (k : Kernel) (b : List UInt8) (hn : b.length ≤ n) (hw : w.buf.length ≤ w.cap) (hc : w.cap = 8192)
    (hk : ∀ t, k.answer t ≠ .err ∧ k.answer t ≠ .upTo 0) :
    ∃ w' k', writeAll w k b = (true, w', k') ∧ Sent w.buf k b w'.buf k' ∧ w'.buf.length ≤ w'.cap ∧ w'.cap = 8192 := by
  induction n generalizing w k b with
  | zero =>
    have : b = [] := List.length_eq_zero_iff.1 (by omega)
    subst this
    unfold writeAll
    exact ⟨w, k, rfl, .refl _ _, hw, hc⟩
  | succ n ih =>
    by_cases hb : b = []
    · subst hb
      unfold writeAll
      exact ⟨w, k, rfl, .refl _ _, hw, hc⟩
    · obtain ⟨r, w1, k1, e1, s1, l1, l2, f1⟩ := write_spec w k b hw
      have c1 := write_cap w k b hc
      rw [e1] at c1
      rw [writeAll, if_neg hb, e1]
      have no : ¬ Refused k k1 := fun ⟨t, _, _, h⟩ => h.elim (hk t).1 (hk t).2
      have ans : k1.answer = k.answer := by
        obtain ⟨a, p, _⟩ := s1.ex
        exact p.answer
      match r, s1, l2, f1 with
      | none, _, _, f => exact absurd (f rfl hb) no
      | some 0, _, _, f => exact absurd (f rfl hb) no
      | some (j + 1), s1, l2, _ =>
        simp only [Option.getD_some] at s1 l2
        obtain ⟨w', k', e2, s2, l3, c2⟩ := ih w1 k1 (b.drop (j + 1)) (by rw [List.length_drop]; omega) l1 c1 (by rw [ans]; exact hk)
        refine ⟨w', k', e2, ?_, l3, c2⟩
        have := s1.trans s2
        rwa [List.take_append_drop] at this

/-- The bytes that are not yet in the log. -/
def pending (s : St) : List UInt8 := match s.writer with
  | some w => w.buf
  | none => []

theorem keeps (l : List UInt8) (h : 0 ∉ l) : l.filter (· ≠ 0) = l := by
  rw [List.filter_eq_self]
  intro a ha
  simp only [ne_eq, decide_not, Bool.not_eq_eq_eq_not, Bool.not_true, decide_eq_false_iff_not]
  intro h0
  exact h (h0 ▸ ha)

theorem cstr_nul (a b : List UInt8) (h : 0 ∉ a) : cstr (a ++ 0 :: b) = a := by
  unfold cstr
  rw [List.takeWhile_append_of_pos]
  · simp
  · intro x hx
    simp only [ne_eq, decide_not, Bool.not_eq_eq_eq_not, Bool.not_true, decide_eq_false_iff_not]
    intro h0
    exact h (h0 ▸ hx)

/-! ## The invariant -/

structure Inv (prog : List UInt8) (s : St) (c : Conf) (out err : List UInt8) : Prop where
  ident : (s.ident = [] ∧ c.ident = prog) ∨ s.ident = c.ident ++ [0]
  nul : 0 ∉ c.ident
  pid : s.opt &&& 1 = 1 ↔ c.pid = true
  perror : s.opt &&& 32 = 32 ↔ c.perror = true
  mask : ∀ i, i < 8 → s.mask.toNat.testBit i = c.mask.testBit i
  writer : ∀ w, s.writer = some w → w.buf.length ≤ w.cap ∧ w.cap = 8192
  answer : ∀ t, s.k.answer t ≠ .err ∧ s.k.answer t ≠ .upTo 0
  out : (s.k.log ++ pending s).filter (· ≠ 0) = out
  err : s.err = err

theorem identity_none {e : Env} {prog : List UInt8} (h1 : e.prog = some prog) (h2 : Text e prog) : identity e none = prog ++ [0] := by
  unfold identity
  simp [h1, h2.1]

theorem identityC_eq {e : Env} {prog : List UInt8} (h1 : e.prog = some prog) (h2 : Text e prog) (c : Conf) (i : Option (List UInt8)) (opt f : UInt32)
    (hi : ∀ s, i = some s → Text e s) :
    identityC e i = (c.after prog (.openlog i opt f)).ident ++ [0] ∧ 0 ∉ (c.after prog (.openlog i opt f)).ident := by
  unfold identityC Conf.after
  cases i with
  | none => exact ⟨identity_none h1 h2, h2.2⟩
  | some s =>
    dsimp only
    split
    · exact ⟨identity_none h1 h2, h2.2⟩
    · rw [if_pos (hi s rfl).1]
      exact ⟨rfl, (hi s rfl).2⟩

theorem opt_bit (opt : UInt32) (i : Nat) (hi : i < 6) (c : UInt32) (hc : c.toNat = 2 ^ i) : ((opt &&& 0x3F) &&& c = c) ↔ opt.toNat.testBit i = true := by
  rw [bit_and _ i c hc, UInt32.toNat_and, Nat.testBit_and]
  have : (0x3F : UInt32).toNat = 2 ^ 6 - 1 := rfl
  rw [this, Nat.testBit_two_pow_sub_one]
  simp [hi]

/-- Setting does not depend on the writer. -/
theorem Inv.opened {e : Env} {prog : List UInt8} {s : St} {c : Conf} {out err : List UInt8} (h : Inv prog s c out err) (h1 : e.prog = some prog)
    (h2 : Text e prog) (i : Option (List UInt8)) (opt f : UInt32) (hi : ∀ s, i = some s → Text e s) :
    Inv prog { s with ident := identityC e i, opt := opt &&& 0x3F, mask := (s.mask &&& 0x3FF) ||| (f &&& ~~~0x3FF) }
      (c.after prog (.openlog i opt f)) out err where
  ident := .inr (identityC_eq h1 h2 c i opt f hi).1
  nul := (identityC_eq h1 h2 c i opt f hi).2
  pid := opt_bit opt 0 (by decide) 1 rfl
  perror := opt_bit opt 5 (by decide) 32 rfl
  mask := fun j hj => (keep_bit _ _ j (by omega)).trans (h.mask j hj)
  writer := h.writer
  answer := h.answer
  out := h.out
  err := h.err

theorem Inv.masked {prog : List UInt8} {s : St} {c : Conf} {out err : List UInt8} (h : Inv prog s c out err) (m : UInt32) :
    Inv prog (setlogmask s m).2 (c.after prog (.setlogmask m)) out err := by
  unfold setlogmask Conf.after
  by_cases hm : m = 0
  · simp only [hm, ne_eq, not_true_eq_false, if_false, if_true]
    exact h
  · simp only [ne_eq, hm, not_false_eq_true, if_true, if_false]
    exact { h with mask := fun j _ => keep_bit _ _ j (by omega) }

/-- A new writer, if nothing is pending. -/
theorem Inv.renewed {prog : List UInt8} {s : St} {c : Conf} {out err : List UInt8} (h : Inv prog s c out err) (hp : pending s = []) (n : Nat) :
    Inv prog { s with writer := some ⟨[], 8192⟩, opened := n } c out err :=
  { h with
    writer := by
      intro w hw
      cases hw
      exact ⟨by decide, rfl⟩
    out := by
      have := h.out
      rw [hp] at this
      exact this }

/-- A writer there is, after its bytes. -/
theorem attempt_spec {prog : List UInt8} {s : St} {c : Conf} {out err : List UInt8} (h : Inv prog s c out err) (w : BufWriter) (hw : s.writer = some w)
    (b : List UInt8) : ∃ s', attempt s b = (true, s') ∧ Inv prog s' c (out ++ b.filter (· ≠ 0)) err ∧ s'.ident = s.ident ∧ s'.opt = s.opt := by
  obtain ⟨w', k', e1, s1, l1, c1⟩ := writeAll_spec _ w s.k b (Nat.le_refl _) (h.writer w hw).1 (h.writer w hw).2 h.answer
  unfold attempt
  rw [hw]
  dsimp only
  rw [e1]
  obtain ⟨a, p, q⟩ := s1.ex
  refine ⟨_, rfl, ⟨h.ident, h.nul, h.pid, h.perror, h.mask, ?_, ?_, ?_, h.err⟩, rfl, rfl⟩
  · intro v hv
    cases hv
    exact ⟨l1, c1⟩
  · dsimp only
    rw [p.answer]
    exact h.answer
  · have ho := h.out
    unfold pending at ho ⊢
    rw [hw] at ho
    dsimp only at ho ⊢
    rw [p.log, List.append_assoc, ← q, ← List.append_assoc, List.filter_append, ho]

theorem put_inv {e : Env} {prog : List UInt8} {s : St} {c : Conf} {out err : List UInt8} (ho : ∀ n, e.opens n = true) (h : Inv prog s c out err)
    (b : List UInt8) : Inv prog (put e s b) c (out ++ b.filter (· ≠ 0)) err ∧ (put e s b).ident = s.ident ∧ (put e s b).opt = s.opt := by
  unfold put
  cases hw : s.writer with
  | some w =>
    obtain ⟨s', e1, i1, d1, o1⟩ := attempt_spec h w hw b
    simp only [Option.isNone_some, Bool.false_eq_true, if_false, if_true]
    rw [e1]
    exact ⟨i1, d1, o1⟩
  | none =>
    have hp : pending s = [] := by
      unfold pending
      rw [hw]
    obtain ⟨s', e1, i1, d1, o1⟩ := attempt_spec (h.renewed hp (s.opened + 1)) ⟨[], 8192⟩ rfl b
    simp only [Option.isNone_none, if_true]
    unfold openLogger
    rw [if_pos (ho _)]
    dsimp only
    rw [if_pos rfl, e1]
    exact ⟨i1, d1, o1⟩

/-- A small word is a number that is not negative. -/
theorem prio_toInt (p : UInt32) (h : p.toNat < 1024) : p.toInt32.toInt = (p.toNat : Int) := by
  have h1 : p.toInt32.toBitVec.toNat = p.toNat := rfl
  show p.toInt32.toBitVec.toInt = _
  rw [BitVec.toInt_eq_toNat_of_lt (by rw [h1]; omega), h1]

theorem record_filter {s : St} {c : Conf} {x : Call} (hi : s.ident = c.ident ++ [0]) (hn : 0 ∉ c.ident) (hp : s.opt &&& 1 = 1 ↔ c.pid = true)
    (h1 : x.prio.toNat < 1024) (h2 : 0 ∉ x.text) (h3 : 0 ∉ x.stamp) : (record s x).filter (· ≠ 0) = c.line x := by
  have hv := prio_toInt x.prio h1
  have hs : signedString x.prio.toInt32.toInt = numeral 10 false x.prio.toNat := by
    rw [hv, Stdio.signedString_nonneg (by omega), Int.natAbs_natCast]
  have hd : ∀ n, digitsOf 10 false n = numeral 10 false n := fun n => digitsOf_eq (by decide) (by decide) _ _
  have hz : ∀ n, 0 ∉ numeral 10 false n := by
    intro n
    rw [← hd]
    exact Time.digits_nonzero n
  have hpid : (if s.opt &&& 1 = 1 then digitsOf 10 false x.pid else []) = if c.pid then numeral 10 false x.pid else [] := by
    by_cases hc : c.pid = true
    · rw [if_pos (hp.2 hc), if_pos hc, hd]
    · rw [if_neg (fun h => hc (hp.1 h)), if_neg hc]
  unfold record Conf.line
  rw [hs, hi, hpid]
  have hz2 : 0 ∉ (if c.pid then numeral 10 false x.pid else []) := by
    split
    · exact hz _
    · simp
  simp only [List.filter_append, keeps _ (hz _), keeps _ h3, keeps _ hn, keeps _ hz2, keeps _ h2]
  have e1 : ([0x3C] : List UInt8).filter (· ≠ 0) = [0x3C] := by decide
  have e2 : ([0x3E] : List UInt8).filter (· ≠ 0) = [0x3E] := by decide
  have e3 : ([0x20] : List UInt8).filter (· ≠ 0) = [0x20] := by decide
  have e4 : ([0] : List UInt8).filter (· ≠ 0) = [] := by decide
  have e5 : ([0x3A, 0x20] : List UInt8).filter (· ≠ 0) = [0x3A, 0x20] := by decide
  have e6 : ([0x0A, 0] : List UInt8).filter (· ≠ 0) = [0x0A] := by decide
  rw [e1, e2, e3, e4, e5, e6, List.append_nil]

theorem writeLog_inv {e : Env} {prog : List UInt8} {s : St} {c : Conf} {out err : List UInt8} (ho : ∀ n, e.opens n = true) (h1 : e.prog = some prog)
    (h2 : Text e prog) (h : Inv prog s c out err) (x : Call) (hx : Plain e (.syslog x)) :
    Inv prog (writeLog e s x) c (out ++ c.line x) (err ++ if c.perror then c.ident ++ [0x3A, 0x20] ++ x.text ++ [0x0A] else []) := by
  obtain ⟨x1, x2, x3, x4, x5⟩ := hx
  unfold writeLog
  rw [if_neg (by rw [x3]; decide)]
  dsimp only
  generalize ht : (if s.ident = [] then { s with ident := identity e none } else s) = t
  have hinv : Inv prog t c out err ∧ t.ident = c.ident ++ [0] := by
    rw [← ht]
    split
    · rename_i hz
      have hid : c.ident = prog := by
        rcases h.ident with q | q
        · exact q.2
        · rw [hz] at q
          simp at q
      have : identity e none = c.ident ++ [0] := by rw [hid]; exact identity_none h1 h2
      exact ⟨{ h with ident := .inr this }, this⟩
    · rename_i hz
      rcases h.ident with q | q
      · exact absurd q.1 hz
      · exact ⟨h, q⟩
  obtain ⟨i1, i2⟩ := hinv
  obtain ⟨j1, j2, j3⟩ := put_inv ho i1 (record t x)
  rw [record_filter i2 i1.nul i1.pid x1 x4 x5] at j1
  generalize put e t (record t x) = u at j1 j2 j3
  by_cases hp : c.perror = true
  · rw [if_pos (j1.perror.2 hp), if_pos hp]
    have e1 : cstr u.ident = c.ident := by
      rw [j2, i2]
      exact cstr_nul _ _ i1.nul
    have e2 : cstr (x.text ++ [0x0A, 0]) = x.text ++ [0x0A] := by
      have := cstr_nul (x.text ++ [0x0A]) [] (by simp [x4])
      rwa [List.append_assoc] at this
    refine { j1 with err := ?_ }
    dsimp only
    rw [e1, e2, j1.err]
    simp [List.append_assoc]
  · rw [if_neg (fun q => hp (j1.perror.1 q)), if_neg hp, List.append_nil]
    exact j1

theorem step_plain {e : Env} {prog : List UInt8} {s : St} {c : Conf} {out err : List UInt8} (ho : ∀ n, e.opens n = true) (h1 : e.prog = some prog)
    (h2 : Text e prog) (h : Inv prog s c out err) (o : Op) (hx : Plain e o) :
    Inv prog (step e s o) (c.after prog o) (out ++ c.adds o) (err ++ c.prints o) := by
  cases o with
  | openlog i opt f =>
    simp only [step, Conf.adds, Conf.prints, List.append_nil]
    unfold openlog
    dsimp only
    rw [if_neg]
    · exact h.opened h1 h2 i opt f hx.1
    · rw [opt_bit opt 3 (by decide) 8 rfl, hx.2]
      decide
  | setlogmask m =>
    simp only [step, Conf.adds, Conf.prints, List.append_nil]
    exact h.masked m
  | closelog => exact hx.elim
  | syslog x =>
    have hsame : x.prio.toNat % 32 = x.prio.toNat % 8 := by
      have := hx.2.1
      omega
    have hlog : shouldLog s.mask x.prio = c.wants x := by
      rw [shouldLog_iff, hsame, h.mask _ (Nat.mod_lt _ (by decide))]
      have : x.prio.toNat % 8 < 10 := by omega
      simp [this, Conf.wants]
    simp only [step, Conf.adds, Conf.prints, Conf.after]
    rw [hlog]
    by_cases hw : c.wants x = true
    · rw [if_pos hw, if_pos hw]
      have := writeLog_inv ho h1 h2 h x hx
      simpa [hw] using this
    · rw [if_neg hw, if_neg hw]
      simpa [hw] using h

theorem step_prepare {e : Env} {prog : List UInt8} {s : St} {c : Conf} {out err : List UInt8} (ho : ∀ n, e.opens n = true) (h1 : e.prog = some prog)
    (h2 : Text e prog) (h : Inv prog s c out err) (hp : pending s = []) (o : Op) (hx : Prepares e o) :
    Inv prog (step e s o) (c.after prog o) (out ++ c.adds o) (err ++ c.prints o) ∧ pending (step e s o) = [] := by
  cases o with
  | openlog i opt f =>
    simp only [step, Conf.adds, Conf.prints, List.append_nil]
    unfold openlog
    dsimp only
    split
    · unfold openLogger
      rw [if_pos (ho _)]
      exact ⟨(h.opened h1 h2 i opt f hx).renewed hp _, rfl⟩
    · exact ⟨h.opened h1 h2 i opt f hx, hp⟩
  | setlogmask m =>
    simp only [step, Conf.adds, Conf.prints, List.append_nil]
    refine ⟨h.masked m, ?_⟩
    unfold setlogmask
    dsimp only
    split <;> exact hp
  | closelog =>
    simp only [step, Conf.adds, Conf.prints, List.append_nil, Conf.after]
    refine ⟨{ h with writer := by simp, out := ?_ }, rfl⟩
    have := h.out
    rw [hp] at this
    exact this
  | syslog x => exact hx.elim

theorem run_append (e : Env) (s : St) (a b : List Op) : run e s (a ++ b) = run e (run e s a) b := by
  induction a generalizing s with
  | nil => rfl
  | cons o a ih => exact ih (step e s o)

theorem run_plain {e : Env} {prog : List UInt8} (ho : ∀ n, e.opens n = true) (h1 : e.prog = some prog) (h2 : Text e prog) (ops : List Op)
    (hx : ∀ o ∈ ops, Plain e o) (s : St) (c : Conf) (out err : List UInt8) (h : Inv prog s c out err) :
    ∃ c', Inv prog (run e s ops) c' (out ++ logged prog c ops) (err ++ printed prog c ops) := by
  induction ops generalizing s c out err with
  | nil => exact ⟨c, by simpa [run, logged, printed] using h⟩
  | cons o l ih =>
    obtain ⟨c', r⟩ := ih (fun o ho => hx o (List.mem_cons_of_mem _ ho)) _ _ _ _ (step_plain ho h1 h2 h o (hx o List.mem_cons_self))
    exact ⟨c', by simpa [run, logged, printed, List.append_assoc] using r⟩

theorem run_prepare {e : Env} {prog : List UInt8} (ho : ∀ n, e.opens n = true) (h1 : e.prog = some prog) (h2 : Text e prog) (ops : List Op)
    (hx : ∀ o ∈ ops, Prepares e o) (more : List Op) (s : St) (c : Conf) (out err : List UInt8) (h : Inv prog s c out err) (hp : pending s = []) :
    ∃ c' out' err', Inv prog (run e s ops) c' out' err' ∧ out' ++ logged prog c' more = out ++ logged prog c (ops ++ more)
      ∧ err' ++ printed prog c' more = err ++ printed prog c (ops ++ more) := by
  induction ops generalizing s c out err with
  | nil => exact ⟨c, out, err, h, rfl, rfl⟩
  | cons o l ih =>
    obtain ⟨i, p⟩ := step_prepare ho h1 h2 h hp o (hx o List.mem_cons_self)
    obtain ⟨c', out', err', r1, r2, r3⟩ := ih (fun o ho => hx o (List.mem_cons_of_mem _ ho)) _ _ _ _ i p
    refine ⟨c', out', err', r1, ?_, ?_⟩
    · rw [r2]
      simp [logged, List.append_assoc]
    · rw [r3]
      simp [printed, List.append_assoc]

/-! ## The theorems -/

/-- **C137, partial.** A program sets up logging (`openlog`, `setlogmask`, `closelog`, in any order) and then makes messages, without closing or reopening
the log, while the log can be opened and accepts what is written. Then the log has received exactly the records of those messages whose severity is
in the mask, in order, each with the identity set last — except for at most 8192 bytes at the end, which are still held back (`C137_lost_violation`), and apart from
NUL bytes. With `LOG_PERROR` the messages are printed on standard error too, all of them. Missing: messages of facilities that are not multiples of 32
(`C137_facility_violation`), closing (`C137_lost_violation`), an empty format (`C137_empty_violation`). -/
theorem C137_syslog_partial (e : Env) (prog : List UInt8) (h1 : e.prog = some prog) (h2 : Text e prog) (ho : ∀ n, e.opens n = true) (k : Kernel)
    (hk : k.log = []) (ha : ∀ t, k.answer t ≠ .err ∧ k.answer t ≠ .upTo 0) (setup msgs : List Op) (hs : ∀ o ∈ setup, Prepares e o)
    (hm : ∀ o ∈ msgs, Plain e o) :
    ∃ held, held.length ≤ 8192 ∧
      ((run e (St.init k) (setup ++ msgs)).k.log ++ held).filter (· ≠ 0) = logged prog (.start prog) (setup ++ msgs) ∧
      (run e (St.init k) (setup ++ msgs)).err = printed prog (.start prog) (setup ++ msgs) := by
  have h0 : Inv prog (St.init k) (.start prog) [] [] :=
    ⟨.inl ⟨rfl, rfl⟩, h2.2, by dsimp only [St.init, Conf.start]; decide, by dsimp only [St.init, Conf.start]; decide, by dsimp only [St.init, Conf.start]; decide +kernel, by simp [St.init], ha, by simp [St.init, pending, hk], rfl⟩
  obtain ⟨c1, o1, e1, i1, r1, r2⟩ := run_prepare ho h1 h2 setup hs msgs _ _ _ _ h0 rfl
  obtain ⟨c2, i2⟩ := run_plain ho h1 h2 msgs hm _ _ _ _ i1
  rw [r1, r2, List.nil_append, List.nil_append] at i2
  rw [run_append]
  refine ⟨pending (run e (run e (St.init k) setup) msgs), ?_, i2.out, i2.err⟩
  unfold pending
  split
  · rename_i w hw
    have := i2.writer w hw
    omega
  · simp

/-- **C137.** `setlogmask` gives the mask set before (that of the last call with a mask other than 0, at first all severities), whatever else has been called. -/
theorem C137_setlogmask (e : Env) (k : Kernel) (ops : List Op) (m : UInt32) :
    (setlogmask (run e (St.init k) ops) m).1.toNat % 256 = (lastMask 0xFF ops).toNat % 256 := by
  have key : ∀ (ops : List Op) (s : St) (n : UInt32), (∀ i, i < 8 → s.mask.toNat.testBit i = n.toNat.testBit i) →
      ∀ i, i < 8 → (run e s ops).mask.toNat.testBit i = (lastMask n ops).toNat.testBit i := by
    intro ops
    induction ops with
    | nil => intro s n h; exact h
    | cons o l ih =>
      intro s n h
      cases o with
      | openlog id opt f =>
        refine ih _ _ fun i hi => ?_
        have : (step e s (.openlog id opt f)).mask = (s.mask &&& 0x3FF) ||| (f &&& ~~~0x3FF) := by
          simp only [step, openlog, openLogger]
          split
          · split <;> rfl
          · rfl
        rw [this, keep_bit _ _ _ (by omega), h i hi]
      | setlogmask m =>
        refine ih _ _ fun i hi => ?_
        simp only [step, setlogmask]
        by_cases hm : m = 0
        · simp [hm, h i hi]
        · simp only [ne_eq, hm, not_false_eq_true, if_true, if_false]
          exact keep_bit _ _ _ (by omega)
      | closelog => exact ih _ _ h
      | syslog x =>
        refine ih _ _ fun i hi => ?_
        have ha : ∀ (s : St) b, (attempt s b).2.mask = s.mask := by
          intro s b
          unfold attempt
          split <;> rfl
        have hop : ∀ s : St, (openLogger e s).2.mask = s.mask := by
          intro s
          unfold openLogger
          split <;> rfl
        have hput : ∀ (s : St) b, (put e s b).mask = s.mask := by
          intro s b
          have hm : (if s.writer.isNone then openLogger e s else (true, s)).2.mask = s.mask := by
            split
            · exact hop s
            · rfl
          unfold put
          dsimp only
          generalize (if s.writer.isNone then openLogger e s else (true, s)) = q at hm ⊢
          by_cases c1 : q.1 = true
          · rw [if_pos c1]
            by_cases c2 : (attempt q.2 b).1 = true
            · rw [if_pos c2, ha, hm]
            · rw [if_neg c2]
              by_cases c3 : (openLogger e (attempt q.2 b).2).1 = true
              · rw [if_pos c3, ha, hop, ha, hm]
              · rw [if_neg c3, hop, ha, hm]
          · rw [if_neg c1, hm]
        have hw : (step e s (.syslog x)).mask = s.mask := by
          simp only [step]
          split
          · unfold writeLog
            split
            · rfl
            · dsimp only
              have ht : (if s.ident = [] then { s with ident := identity e none } else s).mask = s.mask := by split <;> rfl
              generalize (if s.ident = [] then { s with ident := identity e none } else s) = t at ht
              split
              · exact (hput _ _).trans ht
              · exact (hput _ _).trans ht
          · rfl
        rw [hw, h i hi]
  show (run e (St.init k) ops).mask.toNat % 2 ^ 8 = _ % 2 ^ 8
  apply Nat.eq_of_testBit_eq
  intro i
  rw [Nat.testBit_mod_two_pow, Nat.testBit_mod_two_pow]
  by_cases hi : i < 8
  · rw [key ops (St.init k) 0xFF (by dsimp only [St.init]; decide +kernel) i hi]
  · simp [hi]

/-- A small record goes into the buffer only. -/
theorem writeAll_small (k : Kernel) (b : List UInt8) (hb : b ≠ []) (hl : b.length < 8192) : writeAll ⟨[], 8192⟩ k b = (true, ⟨b, 8192⟩, k) := by
  obtain ⟨n, hn⟩ : ∃ n, b.length = n + 1 := ⟨b.length - 1, by have := List.length_pos_iff.2 hb; omega⟩
  have hw : BufWriter.write ⟨[], 8192⟩ k b = (some (n + 1), ⟨b, 8192⟩, k) := by
    unfold BufWriter.write BufWriter.put
    have h0 : ¬ (8192 = 0) := by decide
    simp only [if_neg h0, List.length_nil, Nat.zero_add]
    rw [if_neg (by omega), if_neg (by omega), hn, List.nil_append]
  rw [writeAll, if_neg hb, hw]
  dsimp only
  rw [writeAll, if_pos]
  exact List.drop_eq_nil_of_le (by omega)

/-- **C137, violated.** A message that is logged does not arrive: a record of less than 8192 bytes stays in the buffer of the library, `closelog` throws the
buffer away (as does the end of the process), and the log has received nothing, although it would accept everything. -/
theorem C137_lost_violation (e : Env) (prog : List UInt8) (h1 : e.prog = some prog) (h2 : Text e prog) (ho : ∀ n, e.opens n = true) (k : Kernel)
    (x : Call) (hx : Plain e (.syslog x)) (hl : prog.length + x.stamp.length + x.text.length < 8000) :
    (run e (St.init k) [.syslog x]).k = k ∧ (run e (St.init k) [.syslog x, .closelog]).k = k ∧ (run e (St.init k) [.syslog x, .closelog]).writer = none ∧
      logged prog (.start prog) [.syslog x, .closelog] ≠ [] := by
  obtain ⟨x1, x2, x3, x4, x5⟩ := hx
  have hlog : shouldLog (St.init k).mask x.prio = true := by
    rw [shouldLog_iff]
    have : ∀ i, i < 8 → (8 ||| 0xFF : UInt32).toNat.testBit i = true := by decide +kernel
    rw [show (St.init k).mask = (8 ||| 0xFF : UInt32) from rfl, this _ x2, Bool.and_true, decide_eq_true_iff]
    omega
  have hd : (signedString x.prio.toInt32.toInt).length ≤ 11 := by
    have hv : 0 ≤ x.prio.toInt32.toInt ∧ x.prio.toInt32.toInt.toNat < 10 ^ 10 := by
      have := Int32.toInt_lt x.prio.toInt32
      refine ⟨?_, by omega⟩
      have hv := prio_toInt x.prio x1
      omega
    rw [Time.signedString_nonneg hv.1]
    have := Time.digits_length (k := 9) hv.2
    omega
  have key : (step e (St.init k) (.syslog x)).k = k := by
    have hid := identity_none h1 h2
    refine (congrArg St.k (if_pos hlog)).trans ?_
    unfold writeLog St.init
    rw [if_neg (by rw [x3]; decide)]
    simp only [if_true]
    unfold put
    simp only [Option.isNone_none, if_true, openLogger, ho, attempt]
    rw [writeAll_small]
    · rw [if_pos rfl, if_neg (show ¬ ((4 : UInt32) &&& 32 = 32) by decide)]
    · simp [record]
    · simp only [record, hid]
      simp only [List.length_append, List.length_cons, List.length_nil]
      have h41 : ¬ ((4 : UInt32) &&& 1 = 1) := by decide
      rw [if_neg h41]
      simp only [List.length_nil]
      omega
  refine ⟨key, key, rfl, ?_⟩
  have hw : (Conf.start prog).wants x = true := by
    unfold Conf.wants Conf.start
    have : ∀ i, i < 8 → (0xFF : Nat).testBit i = true := by decide +kernel
    exact this _ (Nat.mod_lt _ (by decide))
  simp [logged, Conf.adds, hw, Conf.line]

/-- **C137, violated.** Messages of 15 of the 20 facilities are never logged: with masks of severities only (as `LOG_MASK` and `LOG_UPTO` give), a call of `syslog` with
a facility that is not a multiple of 32 (`LOG_USER` is 8) does nothing, whatever the severity. -/
theorem C137_facility_violation (e : Env) (s : St) (x : Call) (f sev : Nat) (_hf : f < 24) (hm : f % 4 ≠ 0) (hv : sev < 8) (hp : x.prio.toNat = 8 * f + sev)
    (hs : ∀ i, 8 ≤ i → i < 10 → s.mask.toNat.testBit i = false) : step e s (.syslog x) = s := by
  simp only [step]
  rw [shouldLog_iff, if_neg]
  rw [Bool.and_eq_true, decide_eq_true_iff]
  rintro ⟨h1, h2⟩
  rw [hs _ (by omega) h1] at h2
  cases h2

/-- **C137, violated.** The facility given to `openlog`, meant for messages that name none, has no effect. -/
theorem C137_default_facility_violation (e : Env) (s : St) (ident : Option (List UInt8)) (opt f1 f2 : UInt32) (h1 : f1.toNat < 1024) (h2 : f2.toNat < 1024) :
    step e s (.openlog ident opt f1) = step e s (.openlog ident opt f2) := by
  have key : ∀ f : UInt32, f.toNat < 1024 → f &&& ~~~0x3FF = 0 := by
    intro f hf
    apply UInt32.toNat_inj.1
    apply Nat.eq_of_testBit_eq
    intro i
    rw [UInt32.toNat_and, Nat.testBit_and]
    by_cases hi : i < 10
    · have : ∀ j, j < 10 → (~~~ (0x3FF : UInt32)).toNat.testBit j = false := by decide +kernel
      rw [this i hi, Bool.and_false]
      exact (Nat.zero_testBit i).symm
    · have : f.toNat.testBit i = false := Nat.testBit_lt_two_pow (Nat.lt_of_lt_of_le hf (Nat.pow_le_pow_right (n := 2) (by decide) (show 10 ≤ i by omega)))
      rw [this, Bool.false_and]
      exact (Nat.zero_testBit i).symm
  simp only [step, openlog, key f1 h1, key f2 h2]

/-- **C137, violated.** A message with an empty format is not logged, not even printed. -/
theorem C137_empty_violation (e : Env) (s : St) (x : Call) (hx : x.emptyFormat = true) : step e s (.syslog x) = s := by
  simp only [step]
  split
  · unfold writeLog
    rw [if_pos hx]
  · rfl

/-! ## Examples -/

/-- A log that takes everything. -/
def exKernel : Kernel := ⟨[], 0, false, [], 0, fun _ => .upTo 100000⟩

/-- A program "p", everything works. -/
def exEnv : Env := ⟨fun _ => true, some [0x70], fun _ => true⟩

/-- Message "hi" of `LOG_AUTH | sev` at time "T". -/
def exCall (sev : UInt32) : Call := ⟨32 ||| sev, false, [0x68, 0x69], [0x54], 7⟩

/-- Identity "d" with `LOG_PID` and `LOG_PERROR`, mask up to `LOG_ERR`; of an error and a warning only the first is to be logged: `<35>T d7: hi`. -/
example : logged [0x70] (.start [0x70]) [.openlog (some [0x64]) 0x21 8, .setlogmask 0xF, .syslog (exCall 3), .syslog (exCall 4)]
    = [0x3C, 0x33, 0x35, 0x3E, 0x54, 0x20, 0x64, 0x37, 0x3A, 0x20, 0x68, 0x69, 0x0A] ∧
    printed [0x70] (.start [0x70]) [.openlog (some [0x64]) 0x21 8, .setlogmask 0xF, .syslog (exCall 3), .syslog (exCall 4)]
    = [0x64, 0x3A, 0x20, 0x68, 0x69, 0x0A] := by decide +kernel

/-- The conditions are met by these calls. -/
example : (∀ o ∈ [Op.openlog (some [0x64]) 0x29 8, .setlogmask 0xF], Prepares exEnv o) ∧ (∀ o ∈ [Op.syslog (exCall 3), .syslog (exCall 4)], Plain exEnv o) ∧
    Text exEnv [0x70] ∧ ∀ t, exKernel.answer t ≠ .err ∧ exKernel.answer t ≠ .upTo 0 := by
  refine ⟨?_, ?_, ⟨rfl, by decide⟩, fun t => ⟨by simp [exKernel], by simp [exKernel]⟩⟩
  · intro o ho
    simp only [List.mem_cons, List.not_mem_nil, or_false] at ho
    rcases ho with rfl | rfl
    · intro s hs
      cases hs
      exact ⟨rfl, by decide⟩
    · trivial
  · intro o ho
    simp only [List.mem_cons, List.not_mem_nil, or_false] at ho
    rcases ho with rfl | rfl <;> exact ⟨by decide, by decide, rfl, by decide, by decide⟩

/-- The bytes of the first of the two are all in the buffer, with NULs behind the identity and at the end. -/
example : ((run exEnv (St.init exKernel) [.openlog (some [0x64]) 0x21 8, .setlogmask 0xF, .syslog (exCall 3), .syslog (exCall 4)]).writer.map (·.buf))
    = some [0x3C, 0x33, 0x35, 0x3E, 0x54, 0x20, 0x64, 0, 0x37, 0x3A, 0x20, 0x68, 0x69, 0x0A, 0] := by decide +kernel

end Verif.Syslog
