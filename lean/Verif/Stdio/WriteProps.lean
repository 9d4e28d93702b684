import Verif.Stdio.WriteLemmas
import Verif.Stdio.ReadProps
/-!
# Writing to a stream (C37, C66)
-/

namespace Verif.Stdio
open Verif.Mem Verif.Stdlib

/-! ## C37 -/

theorem Sent.sent {f f' : FILE} {acc : List UInt8} (h : Sent f.writer.pending f.k acc f'.writer.pending f'.k) :
    f'.sent = f.sent ++ acc := by
  obtain ⟨a, p, e⟩ := h.ex
  unfold FILE.sent
  rw [p.log, List.append_assoc, List.append_assoc, e]

/-- Nothing the descriptor accepted is taken back. -/
theorem Sent.log {p0 p1 acc : List UInt8} {k k' : Kernel} (h : Sent p0 k acc p1 k') : k.log <+: k'.log := by
  obtain ⟨a, p, e⟩ := h.ex
  exact ⟨a, p.log.symm⟩

/-- C37: a call accepted the bytes `acc`. The bytes delivered to the descriptor followed by those in the buffer are those
before followed by `acc`; what was delivered stays; input is not affected. -/
structure Accepted (f : FILE) (acc : List UInt8) (f' : FILE) : Prop where
  sent : f'.sent = f.sent ++ acc
  log : f.k.log <+: f'.k.log
  ok : f'.writer.Ok
  unget : f'.unget = f.unget
  slice : f'.slice = f.slice

theorem Wrote.accepted {f f' : FILE} {acc : List UInt8} (h : Wrote f acc f') : Accepted f acc f' :=
  ⟨h.sent.sent, h.sent.log, h.ok, h.unget, by unfold FILE.slice; rw [h.buffer, h.readPos, h.readSize]⟩

theorem fdopen_writer (k : Kernel) (flags : UInt32) : (fdopen k flags).writer.Ok := Nat.zero_le _

theorem standard_writer (k : Kernel) (flags : UInt32) : (standard k flags).writer.Ok :=
  ⟨Nat.zero_le _, fun _ => by simp⟩

/-- C37, `fwrite`: a front part of the data is accepted, and the number of complete items in it is returned. If not all
of it is accepted the kernel reported an error or accepted no byte at all. -/
theorem C37_fwrite {f : FILE} (hw : f.writer.Ok) {m : Mem UInt8} {ptr : Nat} (size nitems : UInt64) {data : List UInt8}
    (hm : Bytes m ptr data) (hn : data.length = size.toNat * nitems.toNat) (h64 : data.length < 2 ^ 64) :
    ∃ acc f', fwrite m ptr size nitems f = some (acc.length / size.toNat, f') ∧ acc <+: data ∧ Accepted f acc f'
      ∧ (acc ≠ data → Refused f.k f'.k) := by
  unfold fwrite
  by_cases hz : size = 0 ∨ nitems = 0
  · rw [if_pos hz]
    have : data = [] := by
      apply List.length_eq_zero_iff.1
      rw [hn]
      rcases hz with e | e <;> rw [e] <;> simp
    subst this
    exact ⟨[], f, by simp, List.prefix_rfl, (Wrote.refl hw).accepted, fun e => absurd rfl e⟩
  · rw [if_neg hz]
    have e : (size * nitems).toNat = data.length := by rw [UInt64.toNat_mul, ← hn, Nat.mod_eq_of_lt h64]
    rw [e, hm.readN]
    obtain ⟨acc, left, f', e1, s1, w1, r1, _⟩ := writeLoop_spec _ data hw (Nat.le_refl _)
    simp only [Option.bind_eq_bind, Option.bind_some, e1]
    refine ⟨acc, f', ?_, ⟨left, s1.symm⟩, w1.accepted, fun h => r1 fun z => h ?_⟩
    · rw [s1, List.length_append, Nat.add_sub_cancel]
    · rw [s1, z, List.append_nil]

/-- C37, `fputc`, `putc` of a character: it is accepted and returned, or `EOF` is returned and nothing is accepted. -/
theorem C37_putc {f : FILE} (hw : f.writer.Ok) (c : Int32) (b : UInt8) (hc : c.toInt = b.toNat) :
    ∃ r f', putc f c = (r, f') ∧
      (r = c ∧ Accepted f [b] f' ∨ r = -1 ∧ Accepted f [] f' ∧ Refused f.k f'.k) := by
  have hb : c.toUInt32.toUInt8 = b := by
    have := (C36_ungetc (f := fdopen (file []) 0) (fdopen_ok _ _) c b hc).2.1
    simp only [FILE.rest, ungetc, fdopen, List.cons_append, List.cons.injEq] at this
    exact this.1
  unfold putc
  rw [hb]
  obtain ⟨r, g, e, w, l, rf, nf, fl⟩ := file_write f [b] hw
  rw [e]
  match r, w, l, rf with
  | none, w, l, rf => exact ⟨-1, g, rfl, .inr ⟨rfl, w.accepted, rf rfl (List.cons_ne_nil _ _)⟩⟩
  | some 0, w, l, rf => exact ⟨-1, g, rfl, .inr ⟨rfl, w.accepted, rf rfl (List.cons_ne_nil _ _)⟩⟩
  | some (j + 1), w, l, rf =>
    simp only [Option.getD_some, List.length_cons, List.length_nil] at l w
    have : j = 0 := by omega
    subst this
    exact ⟨c, g, rfl, .inl ⟨rfl, w.accepted⟩⟩

/-- C37, `fputs`: 0 is returned if the string is accepted. Otherwise -1 is returned, a front part is accepted, and the
kernel refused something. -/
theorem C37_fputs {f : FILE} (hw : f.writer.Ok) (s : List UInt8) :
    ∃ r acc f', fputs f s = (r, f') ∧ Accepted f acc f'
      ∧ (r = 0 ∧ acc = s ∨ r = -1 ∧ acc <+: s ∧ acc ≠ s ∧ Refused f.k f'.k) := by
  unfold fputs
  obtain ⟨acc, left, f', e1, s1, w1, r1, _⟩ := writeLoop_spec _ s hw (Nat.le_refl _)
  rw [e1]
  simp only
  refine ⟨_, acc, f', rfl, w1.accepted, ?_⟩
  by_cases hl : left = []
  · rw [if_pos hl]
    exact .inl ⟨rfl, by rw [s1, hl, List.append_nil]⟩
  · rw [if_neg hl]
    refine .inr ⟨rfl, ⟨left, s1.symm⟩, fun h => hl ?_, r1 hl⟩
    rw [h] at s1
    exact List.self_eq_append_right.1 s1

/-- C37, `puts`: 0 is returned if the string and a newline are accepted. Otherwise -1 is returned and a front part is
accepted. Missing: a kernel that accepts no byte of a newline without an error (`C37_puts_violation`). -/
theorem C37_puts_partial {f : FILE} (hw : f.writer.Ok) (s : List UInt8) (hk : ∀ t, f.k.answer t ≠ .upTo 0) :
    ∃ r acc f', puts f s = (r, f') ∧ Accepted f acc f'
      ∧ (r = 0 ∧ acc = s ++ [0x0A] ∨ r = -1 ∧ acc <+: s ++ [0x0A] ∧ acc ≠ s ++ [0x0A] ∧ Refused f.k f'.k) := by
  unfold puts
  obtain ⟨acc, left, f1, e1, s1, w1, r1, _⟩ := writeLoop_spec _ s hw (Nat.le_refl _)
  rw [e1]
  simp only
  by_cases hl : left = []
  · rw [if_neg (by simp [hl])]
    have hacc : acc = s := by rw [s1, hl, List.append_nil]
    subst hacc
    obtain ⟨r, g, e, w, l, rf, nf, fl⟩ := file_write f1 [0x0A] w1.ok
    rw [e]
    cases r with
    | none =>
      refine ⟨-1, acc, g, rfl, by simpa using (w1.trans w).accepted, .inr ⟨rfl, ⟨_, rfl⟩, by simp, ?_⟩⟩
      exact (rf rfl (List.cons_ne_nil _ _)).afterS w1.sent
    | some n =>
      simp only [Option.getD_some, List.length_cons, List.length_nil] at l w rf
      refine ⟨0, _, g, rfl, (w1.trans w).accepted, .inl ⟨rfl, ?_⟩⟩
      by_cases h0 : n = 0
      · have h1 := file_write_ne f1 w1.ok (by rw [w1.sent.answer]; exact hk) (List.cons_ne_nil 0x0A [])
        rw [e, h0] at h1
        exact absurd rfl h1
      · have : n = 1 := by omega
        rw [this]
        rfl
  · rw [if_pos hl]
    refine ⟨-1, acc, f1, rfl, w1.accepted, .inr ⟨rfl, ⟨left ++ [0x0A], by rw [← List.append_assoc, ← s1]⟩, fun h => hl ?_, r1 hl⟩⟩
    have := congrArg List.length s1
    rw [h] at this
    simp at this

/-- C37, `fflush`: 0 is returned exactly if everything accepted so far has been delivered to the descriptor. Otherwise
-1 is returned, the kernel refused something, and nothing is lost. -/
theorem C37_fflush {f : FILE} (hw : f.writer.Ok) :
    ∃ r f', fflush f = (r, f') ∧ Accepted f [] f'
      ∧ (r = 0 ∧ f'.k.log = f.sent ∧ f'.writer.pending = [] ∨ r = -1 ∧ f'.k.log ≠ f.sent ∧ Refused f.k f'.k) := by
  unfold fflush
  obtain ⟨ok, f', e, w, o, rf, _⟩ := file_flush f hw
  rw [e]
  have hs := w.accepted.sent
  rw [List.append_nil] at hs
  cases ok with
  | true =>
    refine ⟨0, f', rfl, w.accepted, .inl ⟨rfl, ?_, o.1 rfl⟩⟩
    rw [← hs, FILE.sent, o.1 rfl, List.append_nil]
  | false =>
    refine ⟨-1, f', rfl, w.accepted, .inr ⟨rfl, fun h => ?_, rf rfl⟩⟩
    rw [← hs, FILE.sent] at h
    exact absurd (o.2 (List.self_eq_append_right.1 h)) (by simp)

/-- C37, `fclose`: 0 is returned only if everything accepted has been delivered. -/
theorem C37_fclose {f : FILE} (hw : f.writer.Ok) (closeOk : Bool) (h : (fclose f closeOk).1 = 0) :
    closeOk = true ∧ (fclose f closeOk).2.2.k.log = f.sent := by
  unfold fclose at h ⊢
  obtain ⟨ok, f', e, w, o, rf, _⟩ := file_flush f hw
  rw [e] at h ⊢
  have hs := w.accepted.sent
  rw [List.append_nil] at hs
  cases ok with
  | false => simp at h
  | true =>
    cases closeOk with
    | false => simp at h
    | true =>
      refine ⟨rfl, ?_⟩
      rw [← hs, FILE.sent, o.1 rfl, List.append_nil]

/-- C37, line buffering: after a call that wrote something to a line-buffered stream, if the kernel refused nothing, no
complete line is left in the buffer. -/
theorem C37_line_buffered {f : FILE} (hw : f.writer.Ok) (hl : f.writer.isLine = true) (s : List UInt8) (hs : s ≠ [])
    {r : Int} {f' : FILE} (e : fputs f s = (r, f')) (hr : ¬ Refused f.k f'.k) : 0x0A ∉ f'.writer.pending := by
  unfold fputs at e
  obtain ⟨acc, left, f1, e1, s1, w1, r1, n1⟩ := writeLoop_spec _ s hw (Nat.le_refl _)
  rw [e1] at e
  cases e
  exact n1 hs hl hr

/-! ## Histories -/

/-- A call on an output stream: `fwrite` and `fputs` with the bytes they are given. -/
inductive OutCall where
  | putc (b : UInt8)
  | fputs (s : List UInt8)
  | fwrite (ptr : Nat) (size nitems : UInt64)
  | fflush

/-- Performs the call; the bytes the program takes as accepted are those the result tells: the character if it is
returned, the string if 0 is returned, as many items as are returned. `none` = a fault, or the result tells only that
a part of the data may have been accepted. -/
def OutCall.run (m : Mem UInt8) (f : FILE) : OutCall → Option (List UInt8 × FILE)
  | .putc b =>
    match Stdio.putc f (Int32.ofNat b.toNat) with
    | (r, f) => some (if r = -1 then [] else [b], f)
  | .fputs s =>
    match Stdio.fputs f s with
    | (r, f) => if r = 0 then some (s, f) else none
  | .fwrite ptr size nitems =>
    match Stdio.fwrite m ptr size nitems f with
    | some (r, f) => if r = nitems.toNat then (readN m ptr (size.toNat * nitems.toNat)).map (·, f) else none
    | none => none
  | .fflush => some ([], (Stdio.fflush f).2)

def runOut (m : Mem UInt8) (f : FILE) : List OutCall → Option (List (List UInt8) × FILE)
  | [] => some ([], f)
  | c :: cs => do
    let (l, f) ← c.run m f
    let (ls, f) ← runOut m f cs
    some (l :: ls, f)

theorem readN_some {m : Mem UInt8} {p n : Nat} {l : List UInt8} (h : readN m p n = some l) : Bytes m p l ∧ l.length = n := by
  induction n generalizing p l with
  | zero =>
    simp only [readN, Option.some.injEq] at h
    subst h
    exact ⟨trivial, rfl⟩
  | succ n ih =>
    unfold readN at h
    cases h1 : m p with
    | none => simp [h1] at h
    | some b =>
      cases h2 : readN m (p + 1) n with
      | none => simp [h1, h2] at h
      | some t =>
        simp only [h1, h2, Option.bind_eq_bind, Option.bind_some, Option.some.injEq] at h
        subst h
        obtain ⟨i1, i2⟩ := ih h2
        exact ⟨⟨h1, i1⟩, by rw [List.length_cons, i2]⟩

theorem putc_char (b : UInt8) : (Int32.ofNat b.toNat).toInt = b.toNat := by
  have := b.toNat_lt
  rw [Int32.toInt_ofNat_of_lt (by omega)]

theorem out_run {m : Mem UInt8} {f : FILE} (hw : f.writer.Ok) (c : OutCall)
    (hc : ∀ ptr size nitems, c = .fwrite ptr size nitems → size ≠ 0 ∧ size.toNat * nitems.toNat < 2 ^ 64)
    {l : List UInt8} {f' : FILE} (e : c.run m f = some (l, f')) : Accepted f l f' := by
  cases c with
  | putc b =>
    obtain ⟨r, g, e1, x⟩ := C37_putc hw (Int32.ofNat b.toNat) b (putc_char b)
    simp only [OutCall.run, e1, Option.some.injEq, Prod.mk.injEq] at e
    obtain ⟨rfl, rfl⟩ := e
    have hne : Int32.ofNat b.toNat ≠ -1 := by
      intro h
      have h2 := putc_char b
      rw [h] at h2
      have h3 : (-1 : Int32).toInt = -1 := by decide
      omega
    rcases x with x | x
    · rw [x.1, if_neg hne]
      exact x.2
    · rw [x.1, if_pos rfl]
      exact x.2.1
  | fputs s =>
    obtain ⟨r, acc, g, e1, a, x⟩ := C37_fputs hw s
    simp only [OutCall.run, e1] at e
    rcases x with ⟨x1, x2⟩ | ⟨x1, _⟩
    · rw [x1, if_pos rfl] at e
      cases e
      rw [← x2]
      exact a
    · rw [x1, if_neg (by decide)] at e
      cases e
  | fwrite ptr size nitems =>
    obtain ⟨hs, h64⟩ := hc ptr size nitems rfl
    simp only [OutCall.run] at e
    have hs0 : 0 < size.toNat := by
      rcases Nat.eq_zero_or_pos size.toNat with z | z
      · exact absurd (UInt64.toNat_inj.1 z) hs
      · exact z
    cases hw1 : Stdio.fwrite m ptr size nitems f with
    | none =>
      rw [hw1] at e
      cases e
    | some r =>
      obtain ⟨n, g⟩ := r
      rw [hw1] at e
      simp only at e
      by_cases hn : n = nitems.toNat
      · rw [if_pos hn] at e
        cases hrd : readN m ptr (size.toNat * nitems.toNat) with
        | none =>
          rw [hrd] at e
          cases e
        | some d =>
          rw [hrd] at e
          cases e
          obtain ⟨b1, b2⟩ := readN_some hrd
          obtain ⟨acc, f1, e1, p1, a1, _⟩ := C37_fwrite hw size nitems b1 b2 (by omega)
          rw [hw1] at e1
          simp only [Option.some.injEq, Prod.mk.injEq] at e1
          obtain ⟨e1, rfl⟩ := e1
          have hfull : acc = l := by
            obtain ⟨t, ht⟩ := p1
            have hle : size.toNat * nitems.toNat ≤ acc.length := by
              rw [← hn, e1, Nat.mul_comm]
              exact Nat.div_mul_le_self _ _
            have := congrArg List.length ht
            rw [List.length_append] at this
            have : t = [] := List.length_eq_zero_iff.1 (by omega)
            rw [← ht, this, List.append_nil]
          rw [← hfull]
          exact a1
      · rw [if_neg hn] at e
        cases e
  | fflush =>
    obtain ⟨r, g, e1, a, x⟩ := C37_fflush hw
    simp only [OutCall.run, e1, Option.some.injEq, Prod.mk.injEq] at e
    obtain ⟨rfl, rfl⟩ := e
    exact a

/-- C37, for every sequence of `putc`, `fputs`, `fwrite` and `fflush` calls on a new stream in which no `fputs` or
`fwrite` reports a partial failure, and all answers of the kernel: the bytes delivered to the descriptor followed by
those still buffered are exactly the bytes of the calls reported as accepted, in order. -/
theorem C37_history {m : Mem UInt8} (cs : List OutCall) (k : Kernel) (flags : UInt32)
    (hc : ∀ ptr size nitems, .fwrite ptr size nitems ∈ cs → size ≠ 0 ∧ size.toNat * nitems.toNat < 2 ^ 64)
    {ls : List (List UInt8)} {f' : FILE} (e : runOut m (fdopen k flags) cs = some (ls, f')) :
    f'.k.log ++ f'.writer.pending = k.log ++ ls.flatten := by
  have main : ∀ {f : FILE} {ls : List (List UInt8)}, f.writer.Ok → runOut m f cs = some (ls, f') →
      f'.sent = f.sent ++ ls.flatten := by
    clear e
    induction cs with
    | nil =>
      intro f ls _ e
      cases e
      simp
    | cons c cs ih =>
      intro f ls hw e
      unfold runOut at e
      cases h1 : c.run m f with
      | none => simp [h1] at e
      | some r =>
        obtain ⟨l, f1⟩ := r
        have a := out_run hw c (fun p s n h => hc p s n (by rw [h]; exact List.mem_cons_self)) h1
        cases h2 : runOut m f1 cs with
        | none => simp [h1, h2] at e
        | some r2 =>
          obtain ⟨ls2, f2⟩ := r2
          simp only [h1, h2, Option.bind_eq_bind, Option.bind_some, Option.some.injEq, Prod.mk.injEq] at e
          obtain ⟨rfl, rfl⟩ := e
          rw [ih (fun p s n h => hc p s n (List.mem_cons_of_mem _ h)) a.ok h2, a.sent, List.flatten_cons, List.append_assoc]
  have := main (fdopen_writer k flags) e
  simpa [FILE.sent, fdopen, Writer.pending] using this

/-! ## What does not hold -/

/-- C37 fails for the result of `fclose`: POSIX promises `EOF` (-1) if the buffered output could not be written; 1 is
returned, and the bytes are gone with the stream. -/
theorem C37_fclose_violation {f : FILE} (hw : f.writer.Ok) (closeOk : Bool)
    (h : (fclose f closeOk).2.2.k.log ≠ f.sent) : (fclose f closeOk).1 = 1 := by
  have := C37_fclose hw closeOk
  unfold fclose at h this ⊢
  obtain ⟨ok, f', e, w, o, rf, _⟩ := file_flush f hw
  rw [e] at h this ⊢
  simp only at h this ⊢
  by_cases hc : (ok && closeOk) = true
  · rw [if_pos hc] at this
    exact absurd (this rfl).2 h
  · rw [if_neg hc]

/-- C37 fails for `fputc(c)` with `c` = -1, a char 0xFF on a platform where `char` is signed: the byte 0xFF is accepted
and `EOF` is returned as for an error. -/
theorem C37_putc_violation (k : Kernel) (flags : UInt32) :
    (putc (fdopen k flags) (-1)).1 = -1 ∧ (putc (fdopen k flags) (-1)).2.sent = k.log ++ [0xFF] := by
  have e : FILE.write (fdopen k flags) [0xFF] = (some 1, { fdopen k flags with writer := .buf ⟨[0xFF], 8192⟩ }) := rfl
  have e2 : putc (fdopen k flags) (-1) = (-1, { fdopen k flags with writer := .buf ⟨[0xFF], 8192⟩ }) := by
    unfold putc
    have h1 : (-1 : Int32).toUInt32.toUInt8 = 0xFF := by decide
    rw [h1, e]
  rw [e2]
  exact ⟨rfl, rfl⟩

/-- C37 fails for `puts` on an unbuffered stream if the kernel accepts no byte of the newline: success is reported. -/
theorem C37_puts_violation (k : Kernel) (flags : UInt32) (h : k.answer k.time = .upTo 0) :
    ∃ f', puts { fdopen k flags with writer := .unbuffered } [] = (0, f') ∧ f'.sent = k.log := by
  unfold puts writeLoop
  simp only [↓reduceDIte, ne_eq, not_true_eq_false, ↓reduceIte]
  have e : FILE.write { fdopen k flags with writer := .unbuffered } [0x0A]
      = (some 0, { fdopen k flags with writer := .unbuffered, k := tick k }) := by
    simp [FILE.write, Writer.write, Kernel.write, fdopen, h, tick, overwrite]
  rw [e]
  exact ⟨_, rfl, by simp [FILE.sent, tick, Writer.pending]⟩

/-! ## C66 -/

/-- C66, full statement: afterwards everything every stream accepted has been delivered. -/
def AllDelivered (s s' : Streams) : Prop :=
  s'.stdout.k.log = s.stdout.sent ∧ s'.stderr.k.log = s.stderr.sent
    ∧ s'.others.map (·.k.log) = s.others.map FILE.sent

theorem flush_delivers {f : FILE} (hw : f.writer.Ok) (hk : ∀ t, f.k.answer t ≠ .err ∧ f.k.answer t ≠ .upTo 0) :
    f.flush.2.k.log = f.sent := by
  obtain ⟨ok, f', e, w, o, rf, _⟩ := file_flush f hw
  have hs := w.accepted.sent
  rw [List.append_nil] at hs
  rw [e]
  cases ok with
  | true =>
    rw [← hs, FILE.sent, o.1 rfl, List.append_nil]
  | false =>
    obtain ⟨t, _, _, ht⟩ := rf rfl
    exact absurd ht (by have := hk t; simp [this])

/-- C66 holds for the standard streams: if the kernel refuses nothing, `exit` delivers what was written to `stdout` and
`stderr`. Missing: all other streams (`C66_exit_violation`). -/
theorem C66_exit_partial {s : Streams} (h1 : s.stdout.writer.Ok) (h2 : s.stderr.writer.Ok)
    (k1 : ∀ t, s.stdout.k.answer t ≠ .err ∧ s.stdout.k.answer t ≠ .upTo 0)
    (k2 : ∀ t, s.stderr.k.answer t ≠ .err ∧ s.stderr.k.answer t ≠ .upTo 0) :
    (flushIoStreams s).stdout.k.log = s.stdout.sent ∧ (flushIoStreams s).stderr.k.log = s.stderr.sent :=
  ⟨flush_delivers h1 k1, flush_delivers h2 k2⟩

/-- C66 fails for `exit`: what is in the buffer of another stream is never delivered. -/
theorem C66_exit_violation (s : Streams) {f : FILE} (hf : f ∈ s.others) (hp : f.writer.pending ≠ []) :
    ¬ AllDelivered s (flushIoStreams s) := by
  rintro ⟨_, _, h⟩
  have h := (List.map_inj_left.1 h) f hf
  exact hp (List.self_eq_append_right.1 h)

/-- C66 fails for `fflush(NULL)`, which returns 0 nevertheless. -/
theorem C66_fflush_violation (s : Streams) {f : FILE} (hf : f ∈ s.others) (hp : f.writer.pending ≠ []) :
    ¬ AllDelivered s (fflushAll s).2
      ∧ (s.stdout.writer.pending = [] → s.stderr.writer.pending = [] → s.stdout.writer.Ok → s.stderr.writer.Ok →
          (fflushAll s).1 = 0) := by
  have ho : (fflushAll s).2.others = s.others := by
    unfold fflushAll
    simp only
    split <;> rfl
  refine ⟨?_, ?_⟩
  · rintro ⟨_, _, h⟩
    rw [ho] at h
    have h := (List.map_inj_left.1 h) f hf
    exact hp (List.self_eq_append_right.1 h)
  · intro p1 p2 w1 w2
    have zero : ∀ {g : FILE}, g.writer.Ok → g.writer.pending = [] → (fflush g).1 = 0 := by
      intro g hw hp
      obtain ⟨ok, g', e, w, o, _⟩ := file_flush g hw
      obtain ⟨a, _, ha⟩ := w.sent.ex
      rw [hp] at ha
      have : g'.writer.pending = [] := (List.append_eq_nil_iff.1 ha.symm).2
      have := o.2 this
      subst this
      unfold fflush
      rw [e]
    unfold fflushAll
    simp only [zero w1 p1, zero w2 p2, ne_eq, not_true_eq_false, ↓reduceIte]

/-! ## Examples -/

/-- A stream with a buffer of four bytes on a descriptor that takes one byte at a time. -/
def smallOut : FILE := { fdopen (file []) 0 with writer := .buf ⟨[], 4⟩ }

/-- Three bytes fit; with two more, the buffer is flushed first. -/
example : (fputs (fputs smallOut [1, 2, 3]).2 [4, 5]).1 = 0
    ∧ (fputs (fputs smallOut [1, 2, 3]).2 [4, 5]).2.k.log = [1, 2, 3]
    ∧ (fputs (fputs smallOut [1, 2, 3]).2 [4, 5]).2.writer.pending = [4, 5] := by decide +kernel

/-- A standard stream: the line is delivered, the rest is not. -/
example : (fputs (standard (file []) 0) [1, 10, 2]).2.k.log = [1, 10]
    ∧ (fputs (standard (file []) 0) [1, 10, 2]).2.writer.pending = [2] := by decide +kernel

/-- The descriptor fails after two bytes: they are delivered, the rest stays in the buffer, and `fflush` tells. -/
example :
    let f : FILE := { fdopen ⟨[], 0, true, [], 0, fun t => if t < 2 then .upTo 1 else .err⟩ 0 with writer := .buf ⟨[1, 2, 3, 4], 4⟩ }
    (fflush f).1 = -1 ∧ (fflush f).2.k.log = [1, 2] ∧ (fflush f).2.writer.pending = [3, 4] := by decide +kernel

example : runOut (fun _ => none) smallOut [.fputs [1, 2, 3], .putc 4, .putc 5, .fflush]
    |>.map (fun r => (r.1, r.2.k.log)) |> (· = some ([[1, 2, 3], [4], [5], []], [1, 2, 3, 4, 5])) := by decide +kernel

end Verif.Stdio
