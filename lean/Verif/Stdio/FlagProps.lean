import Verif.Stdio.SeekProps
/-!
# End-of-file and error indicators of a stream (C68)
-/

namespace Verif.Stdio
open Verif.Mem Verif.Stdlib

/-- C68, `getc`: a byte returned leaves the flags alone. With `EOF`, exactly the end-of-file flag is set and there is
nothing left to read, or exactly the error flag is set and the kernel reported an error. -/
theorem C68_getc {f f' : FILE} {r : Int} (h : f.ReadOk) (e : getc f = some (r, f')) :
    r ≠ -1 ∧ f'.flags = f.flags
      ∨ r = -1 ∧ f.rest = [] ∧ f'.flags = f.flags ||| F_EOF
      ∨ r = -1 ∧ KernelError f f' ∧ f'.flags = f.flags ||| F_ERR := by
  unfold getc FILE.read at e
  by_cases hu : min 1 f.unget.length ≠ 0
  · simp only [if_pos hu, Option.bind_eq_bind, Option.bind_some] at e
    have hne : f.unget.take (min 1 f.unget.length) ≠ [] := by
      rw [← List.length_pos_iff, List.length_take]
      omega
    cases ht : f.unget.take (min 1 f.unget.length) with
    | nil => exact absurd ht hne
    | cons b l =>
      rw [ht] at e
      simp only [Option.some.injEq, Prod.mk.injEq] at e
      obtain ⟨rfl, rfl⟩ := e
      exact .inl ⟨by omega, rfl⟩
  · simp only [if_neg hu] at e
    have hu0 : f.unget = [] := by
      rw [← List.length_eq_zero_iff]
      omega
    obtain ⟨x, g, e1, hf, ok, hug, hw⟩ := fillBuf_spec h
    simp only [e1, Option.bind_eq_bind, Option.bind_some] at e
    match x, hf with
    | none, hf =>
      simp only [Option.bind_some, Option.some.injEq, Prod.mk.injEq] at e
      obtain ⟨rfl, rfl⟩ := e
      refine .inr (.inr ⟨rfl, (stop_err hf).1, ?_⟩)
      cases hf with
      | err h1 h2 h3 h4 h5 => exact h5
    | some [], hf =>
      simp only [List.take_nil, List.length_nil, Option.bind_some, Option.some.injEq, Prod.mk.injEq] at e
      obtain ⟨rfl, rfl⟩ := e
      refine .inr (.inl ⟨rfl, (stop_eof hf hug hu0).2, ?_⟩)
      generalize hr : some ([] : List UInt8) = r at hf
      cases hf with
      | «have» h1 =>
        injection hr with hr
        exact absurd hr.symm h1
      | err => cases hr
      | eof h1 h2 h3 h4 h5 => exact h5
      | read l h1 h2 h3 =>
        injection hr with hr
        exact absurd hr.symm h3
    | some (b :: l), hf =>
      simp only [List.take_succ_cons, List.take_zero, Option.bind_some, Option.some.injEq, Prod.mk.injEq] at e
      obtain ⟨rfl, rfl⟩ := e
      exact .inl ⟨by omega, (filled_flags hf (List.cons_ne_nil _ _) : g.flags = f.flags)⟩

theorem and_not_and {b c : UInt32} (hb : b &&& c = 0) : ~~~ c &&& b = b := by
  have hb := congrArg UInt32.toBitVec hb
  apply UInt32.toBitVec_inj.1
  apply BitVec.eq_of_getLsbD_eq
  intro i hi
  have hb := congrArg (fun v => BitVec.getLsbD v i) hb
  simp only [UInt32.toBitVec_and, BitVec.getLsbD_and, UInt32.toBitVec_not, BitVec.getLsbD_not, UInt32.toBitVec_zero,
    BitVec.getLsbD_zero] at hb ⊢
  cases h1 : b.toBitVec.getLsbD i
  · rw [Bool.and_false]
  · rw [h1, Bool.true_and] at hb
    rw [hb]
    simp [hi]

theorem and_or_distrib (a b c : UInt32) : a &&& (b ||| c) = (a &&& b) ||| (a &&& c) := by
  apply UInt32.toBitVec_inj.1
  apply BitVec.eq_of_getLsbD_eq
  intro i hi
  simp only [UInt32.toBitVec_and, BitVec.getLsbD_and, UInt32.toBitVec_or, BitVec.getLsbD_or]
  exact Bool.and_or_distrib_left ..

theorem clear_flags (x : UInt32) :
    (x &&& ~~~ (F_EOF ||| F_ERR)) &&& F_EOF = 0 ∧ (x &&& ~~~ (F_EOF ||| F_ERR)) &&& F_ERR = 0
      ∧ ∀ b, b &&& (F_EOF ||| F_ERR) = 0 → (x &&& ~~~ (F_EOF ||| F_ERR)) &&& b = x &&& b := by
  refine ⟨?_, ?_, fun b hb => ?_⟩
  · rw [UInt32.and_assoc]
    have : ~~~ (F_EOF ||| F_ERR) &&& F_EOF = 0 := by decide
    rw [this, UInt32.and_zero]
  · rw [UInt32.and_assoc]
    have : ~~~ (F_EOF ||| F_ERR) &&& F_ERR = 0 := by decide
    rw [this, UInt32.and_zero]
  · rw [UInt32.and_assoc, and_not_and hb]

/-- C68: `clearerr` clears the two flags and no other. -/
theorem C68_clearerr (f : FILE) :
    feof (clearerr f) = 0 ∧ ferror (clearerr f) = 0
      ∧ (∀ b, b &&& (F_EOF ||| F_ERR) = 0 → (clearerr f).flags &&& b = f.flags &&& b)
      ∧ { clearerr f with flags := f.flags } = f :=
  ⟨(clear_flags f.flags).1, (clear_flags f.flags).2.1, (clear_flags f.flags).2.2, rfl⟩

/-- C68: a successful `fseek` clears the end-of-file flag. -/
theorem C68_fseek (f : FILE) (off whence : Int) (h : (fseek f off whence).1 = 0) : feof (fseek f off whence).2 = 0 := by
  unfold fseek at h ⊢
  simp only at h ⊢
  generalize f.flush = r at h ⊢
  obtain ⟨ok, g⟩ := r
  cases ok with
  | false => simp at h
  | true =>
    simp only at h ⊢
    generalize g.k.lseek _ whence = r at h ⊢
    obtain ⟨o, k⟩ := r
    cases o with
    | none => simp at h
    | some p => exact (clear_flags g.flags).1

/-- C68, output: a successful `putc` leaves the flags alone. -/
theorem C68_putc {f f' : FILE} (hw : f.writer.Ok) {b : UInt8}
    (e : putc f (Int32.ofNat b.toNat) = (Int32.ofNat b.toNat, f')) : f'.flags = f.flags := (putc_wrote hw e).1

theorem flushLoop_answer (n : Nat) (k : Kernel) (b : List UInt8) (h : b.length ≤ n) :
    (flushLoop k b).2.2.answer = k.answer := by
  induction n generalizing k b with
  | zero =>
    have : b = [] := List.length_eq_zero_iff.1 (by omega)
    subst this
    unfold flushLoop
    rfl
  | succ n ih =>
    unfold flushLoop
    by_cases hb : b = []
    · rw [dif_pos hb]
    · rw [dif_neg hb]
      obtain ⟨r, k', e, p, l, _⟩ := kwrite_spec k b
      rw [e]
      match r with
      | none => exact p.answer
      | some 0 => exact p.answer
      | some (j + 1) =>
        have := List.length_pos_iff.2 hb
        exact (ih k' _ (by rw [List.length_drop]; omega)).trans p.answer

theorem kwrite_zero {k : Kernel} {b : List UInt8} (hb : b ≠ []) (h : (k.write b).1 = some 0) : ∃ t, k.answer t = .upTo 0 := by
  unfold Kernel.write at h
  cases ha : k.answer k.time with
  | err => simp [ha] at h
  | upTo n =>
    simp only [ha, Option.some.injEq, List.length_take] at h
    have := List.length_pos_iff.2 hb
    have hn : n = 0 := by omega
    exact ⟨k.time, by rw [ha, hn]⟩

theorem put_zero {w : BufWriter} {k : Kernel} {b : List UInt8} (hb : b ≠ []) (h : (w.put k b).1 = some 0) :
    ∃ t, k.answer t = .upTo 0 := by
  unfold BufWriter.put at h
  have := List.length_pos_iff.2 hb
  split at h
  · exact kwrite_zero hb h
  · simp only [Option.some.injEq] at h
    omega

theorem bufWrite_zero {w : BufWriter} {k : Kernel} {b : List UInt8} (hb : b ≠ []) (h : (w.write k b).1 = some 0) :
    ∃ t, k.answer t = .upTo 0 := by
  unfold BufWriter.write at h
  simp only at h
  generalize (if w.cap = 0 then (⟨[], 8192⟩ : BufWriter) else w) = w at h
  split at h
  · have ha := flushLoop_answer _ k w.buf (Nat.le_refl _)
    unfold BufWriter.flush at h
    generalize flushLoop k w.buf = r at h ha
    obtain ⟨ok, buf, k1⟩ := r
    cases ok with
    | false => cases h
    | true =>
      obtain ⟨t, ht⟩ := put_zero hb h
      exact ⟨t, by rw [← ht]; exact congrFun ha.symm t⟩
  · exact put_zero hb h

theorem take_lastLine {b : List UInt8} (h : lastLine b ≠ 0) : b.take (lastLine b) ≠ [] := by
  intro z
  have := congrArg List.length z
  rw [List.length_take, List.length_nil] at this
  have : lastLine b ≤ b.length := Nat.sub_le _ _
  omega

theorem linePut_zero {w : LineWriter} {k : Kernel} {b : List UInt8} (hb : b ≠ []) (h : (w.put k b).1 = some 0) :
    ∃ t, k.answer t = .upTo 0 := by
  unfold LineWriter.put at h
  simp only at h
  by_cases hi : lastLine b = 0
  · rw [if_pos hi] at h
    exact bufWrite_zero hb h
  · rw [if_neg hi] at h
    apply bufWrite_zero (w := w.inner) (take_lastLine hi)
    generalize w.inner.write k (b.take (lastLine b)) = r at h ⊢
    obtain ⟨r, inner, k1⟩ := r
    match r with
    | none => cases h
    | some n =>
      simp only at h ⊢
      generalize LineWriter.flush ⟨inner, true⟩ k1 = r at h
      obtain ⟨ok, w2, k2⟩ := r
      simp only at h
      by_cases hz : ok = false ∨ n ≠ lastLine b
      · rw [if_pos hz] at h
        exact h
      · rw [if_neg hz] at h
        generalize w2.inner.write k2 (b.drop (lastLine b)) = r at h
        obtain ⟨r, _, _⟩ := r
        match r with
        | none => exact h
        | some j =>
          simp only [Option.some.injEq] at h ⊢
          omega

/-- A write that neither fails nor accepts anything: the kernel accepted nothing. -/
theorem fileWrite_zero {f : FILE} {b : List UInt8} (hb : b ≠ []) (h : (f.write b).1 = some 0) :
    ∃ t, f.k.answer t = .upTo 0 := by
  unfold FILE.write at h
  have h2 : (f.writer.write f.k b).1 = some 0 := by
    generalize f.writer.write f.k b = r at h ⊢
    obtain ⟨r, _, _⟩ := r
    cases r with
    | none => exact h
    | some n => exact h
  clear h
  cases hw : f.writer with
  | buf w =>
    rw [hw] at h2
    exact bufWrite_zero hb h2
  | line w =>
    rw [hw] at h2
    unfold Writer.write LineWriter.write at h2
    simp only at h2
    split at h2
    · have ha := flushLoop_answer _ f.k w.inner.buf (Nat.le_refl _)
      unfold LineWriter.flush BufWriter.flush at h2
      generalize flushLoop f.k w.inner.buf = r at h2 ha
      obtain ⟨ok, buf, k1⟩ := r
      cases ok with
      | false => cases h2
      | true =>
        obtain ⟨t, ht⟩ := linePut_zero hb h2
        exact ⟨t, by rw [← ht]; exact congrFun ha.symm t⟩
    · exact linePut_zero hb h2
  | unbuffered =>
    rw [hw] at h2
    exact kwrite_zero hb h2

/-- C68, output: if the kernel never accepts "nothing", a `putc` that returns `EOF` for a character sets the error flag
and no other. -/
theorem C68_putc_error {f f' : FILE} {b : UInt8} (hk : ∀ t, f.k.answer t ≠ .upTo 0)
    (e : putc f (Int32.ofNat b.toNat) = (-1, f')) : f'.flags = f.flags ||| F_ERR := by
  have hne : Int32.ofNat b.toNat ≠ -1 := by
    intro h
    have h2 := putc_char b
    rw [h] at h2
    have h3 : (-1 : Int32).toInt = -1 := by decide
    omega
  have hz : (f.write [(Int32.ofNat b.toNat).toUInt32.toUInt8]).1 ≠ some 0 := fun h => by
    obtain ⟨t, ht⟩ := fileWrite_zero (List.cons_ne_nil _ _) h
    exact hk t ht
  unfold putc FILE.write at e
  unfold FILE.write at hz
  generalize f.writer.write f.k [(Int32.ofNat b.toNat).toUInt32.toUInt8] = r at e hz
  obtain ⟨r, w, k⟩ := r
  match r with
  | none =>
    simp only [Prod.mk.injEq, true_and] at e
    rw [← e]
  | some 0 => exact absurd rfl hz
  | some (j + 1) =>
    simp only [Prod.mk.injEq] at e
    exact absurd e.1 hne

/-- C68: `fflush` returns `EOF` exactly if it sets the error flag, and then the kernel refused bytes; it changes no
other flag. -/
theorem C68_fflush {f : FILE} (hw : f.writer.Ok) :
    (fflush f).1 = 0 ∧ (fflush f).2.flags = f.flags
      ∨ (fflush f).1 = -1 ∧ (fflush f).2.flags = f.flags ||| F_ERR ∧ Refused f.k (fflush f).2.k := by
  obtain ⟨ok, g, e, w, o, rf, fl⟩ := file_flush f hw
  unfold fflush
  rw [e]
  cases ok with
  | true => exact .inl ⟨rfl, fl⟩
  | false => exact .inr ⟨rfl, fl, rf rfl⟩

/-- C68 fails for line buffering: when the kernel refuses a completed line, the character is reported as written and no
flag is set. -/
theorem C68_line_violation (k : Kernel) (flags : UInt32) (hk : k.answer k.time = .err) :
    ∃ f', putc (standard k flags) 10 = (10, f') ∧ f'.flags = F_PERM ||| flags ∧ f'.k.log = k.log
      ∧ Refused k f'.k := by
  have e1 : flushLoop k [0x0A] = (false, [0x0A], { k with time := k.time + 1 }) := by
    unfold flushLoop
    simp [Kernel.write, hk]
  have e2 : (standard k flags).write [(10 : Int32).toUInt32.toUInt8]
      = (some 1, { standard k flags with writer := .line ⟨⟨[0x0A], 8192⟩, true⟩, k := { k with time := k.time + 1 } }) := by
    have hb : (10 : Int32).toUInt32.toUInt8 = 0x0A := by decide
    have hl : lastLine [0x0A] = 1 := by decide
    have e3 : BufWriter.write ⟨[], 0⟩ k [0x0A] = (some 1, ⟨[0x0A], 8192⟩, k) := by
      unfold BufWriter.write BufWriter.put
      simp
    unfold FILE.write Writer.write standard
    simp only [LineWriter.write, Bool.false_eq_true, if_false, LineWriter.put, hb, hl, List.take_succ_cons, List.take_nil, e3,
      LineWriter.flush, BufWriter.flush, e1, if_true, true_or, Nat.one_ne_zero]
  unfold putc
  rw [e2]
  exact ⟨_, rfl, rfl, rfl, k.time, Nat.le_refl _, Nat.lt_succ_self _, .inl hk⟩

/-- C68 fails for `ungetc`, which must clear the end-of-file flag. -/
theorem C68_ungetc_violation (f : FILE) (c : Int32) : feof (ungetc f c).2 = feof f := rfl

/-- C68 fails for `getdelim` and `getline`: after reading a line all flags but the end-of-file flag are cleared. If
the stream was `stdin`, it is no longer known to be a static object, and `fclose` releases its storage. -/
theorem C68_getdelim_violation {al : Allocator} (hal : al.Sound) {h : Heap} {line : Nat} (hl : h.live 0 = none)
    (hline : line = 0 ∨ ∃ old, h.live line = some old) (n : Nat) (d : UInt8) (k : Kernel)
    (hk : ∀ t, k.answer t ≠ .err) (hd : d ∈ k.data.drop k.pos) :
    (standard k F_NOWR).flags &&& F_PERM ≠ 0 ∧ ∃ res, getdelim al h line n d (standard k F_NOWR) = some res
      ∧ res.f.flags &&& F_PERM = 0 ∧ ∀ closeOk, (fclose res.f closeOk).2.1 = true := by
  refine ⟨by change (F_PERM ||| F_NOWR) &&& F_PERM ≠ 0; decide, ?_⟩
  have hs := (C36_new k F_NOWR).2
  unfold getdelim
  rw [if_neg (by change ¬((F_PERM ||| F_NOWR) &&& F_EOF ≠ 0 ∨ (F_PERM ||| F_NOWR) &&& F_ERR ≠ 0); decide)]
  obtain ⟨out, r, g, e, t, x⟩ := readUntil_spec ((standard k F_NOWR).rest.length + 1) (d := d) (acc := []) (standard_ok k F_NOWR) rfl
    (by omega)
  simp only [e, Option.bind_eq_bind, Option.bind_some]
  rcases x with ⟨_, ⟨t, _, _, ht⟩, _⟩ | ⟨q1, q2, q3, q4⟩
  · exact absurd ht (hk t)
  · subst q1
    simp only [List.nil_append]
    have hr := t.rest
    rw [hs] at hr
    have hlast : out.getLast? = some d := by
      rcases q3 with q3 | q3
      · exact q3
      · rw [q3.1, List.append_nil] at hr
        rw [hr] at hd
        rcases List.eq_nil_or_concat out with z | ⟨o, b, z⟩
        · rw [z] at hd
          cases hd
        · rw [List.concat_eq_append] at z
          rw [z, List.dropLast_concat] at q2
          rw [z] at hd
          rcases List.mem_append.1 hd with w | w
          · exact absurd w q2
          · rw [List.mem_singleton] at w
            rw [z, w]
            simp
    rw [if_neg (by intro z; rw [z] at hlast; cases hlast), if_pos hlast]
    obtain ⟨res, e1, e2, e3⟩ := storeLine_spec hal hl hline out { g with flags := g.flags &&& F_EOF }
    have hfl : res.f.flags = F_EOF &&& g.flags := by
      rw [e2]
      exact UInt32.and_comm ..
    refine ⟨res, e1, ?_, fun closeOk => ?_⟩
    · rw [hfl, UInt32.and_comm, ← UInt32.and_assoc]
      have : F_PERM &&& F_EOF = 0 := by decide
      rw [this, UInt32.zero_and]
    · have hw : res.f.writer.Ok := by
        rw [e2]
        simp only
        rw [t.writer]
        exact standard_writer k F_NOWR
      obtain ⟨ok, g', e4, w, o, rf, fl⟩ := file_flush res.f hw
      unfold fclose
      rw [e4]
      simp only [decide_eq_true_eq]
      have hz : ∀ x : UInt32, x = F_EOF &&& g.flags ∨ x = (F_EOF &&& g.flags) ||| F_ERR → x &&& F_PERM = 0 := by
        rintro x (rfl | rfl)
        · rw [UInt32.and_comm, ← UInt32.and_assoc]
          have : F_PERM &&& F_EOF = 0 := by decide
          rw [this, UInt32.zero_and]
        · rw [UInt32.and_comm, and_or_distrib, ← UInt32.and_assoc]
          have h1 : F_PERM &&& F_EOF = 0 := by decide
          have h2 : F_PERM &&& F_ERR = 0 := by decide
          rw [h1, h2, UInt32.zero_and, UInt32.or_zero]
      apply hz
      rw [fl, hfl]
      cases ok
      · exact .inr rfl
      · exact .inl rfl

/-- The end of a file: `feof` is set by the read that met it, and not before. -/
example : ∃ f1 f2, getc (smallStream [7]) = some (7, f1) ∧ feof f1 = 0 ∧ getc f1 = some (-1, f2) ∧ feof f2 ≠ 0
    ∧ feof (clearerr f2) = 0 := by
  refine ⟨_, _, rfl, ?_, rfl, ?_, ?_⟩ <;> decide +kernel

end Verif.Stdio
