import Verif.Stdio.ReadLemmas
/-!
# Writing to a stream: specification and lemmas (C37, C39)
-/

namespace Verif.Stdio
open Verif.Mem Verif.Stdlib

/-! ## Specification -/

/-- All bytes accepted so far: those the descriptor accepted, then those still in the buffer. -/
def FILE.sent (f : FILE) : List UInt8 := f.k.log ++ f.writer.pending

/-- The buffer is no longer than its capacity; a line writer remembers that a line in it is to be flushed. -/
def Writer.Ok : Writer → Prop
  | .buf w => w.buf.length ≤ w.cap
  | .line w => w.inner.buf.length ≤ w.inner.cap ∧ (w.needFlush = false → 0x0A ∉ w.inner.buf)
  | .unbuffered => True

/-- The stream is line buffered. -/
def Writer.isLine : Writer → Bool
  | .line _ => true
  | _ => false

/-- The contents the file has when the buffer is written out. -/
def FILE.content (f : FILE) : List UInt8 := overwrite f.k.data f.k.pos f.writer.pending

/-! ## Lemmas -/

/-- Between the two states of the descriptor the bytes `l` were written at its offset, and nothing else happened. -/
structure Put (k : Kernel) (l : List UInt8) (k' : Kernel) : Prop where
  log : k'.log = k.log ++ l
  data : k'.data = overwrite k.data k.pos l
  pos : k'.pos = k.pos + l.length
  answer : k'.answer = k.answer
  seekable : k'.seekable = k.seekable
  time : k.time ≤ k'.time

theorem overwrite_nil (d : List UInt8) (p : Nat) : overwrite d p [] = d := rfl

theorem overwrite_append (d : List UInt8) (p : Nat) (a b : List UInt8) :
    overwrite (overwrite d p a) (p + a.length) b = overwrite d p (a ++ b) := by
  unfold overwrite
  by_cases ha : a = []
  · subst ha
    simp
  by_cases hb : b = []
  · subst hb
    simp [ha]
  rw [if_neg hb, if_neg ha, if_neg (by simp [ha])]
  have hl : (d.take p ++ List.replicate (p - d.length) 0 ++ a).length = p + a.length := by
    simp only [List.length_append, List.length_take, List.length_replicate]
    omega
  have h1 : (d.take p ++ List.replicate (p - d.length) 0 ++ a ++ d.drop (p + a.length)).take (p + a.length)
      = d.take p ++ List.replicate (p - d.length) 0 ++ a := by
    rw [← hl, List.take_left]
  have h2 : p + a.length - (d.take p ++ List.replicate (p - d.length) 0 ++ a ++ d.drop (p + a.length)).length = 0 := by
    rw [List.length_append, hl]
    omega
  have h3 : (d.take p ++ List.replicate (p - d.length) 0 ++ a ++ d.drop (p + a.length)).drop (p + a.length + b.length)
      = d.drop (p + (a ++ b).length) := by
    rw [← List.drop_drop, ← hl, List.drop_left, hl, List.drop_drop, List.length_append, Nat.add_assoc]
  rw [h1, h2, h3]
  simp [List.append_assoc]

theorem Put.refl (k : Kernel) : Put k [] k := ⟨by simp, rfl, rfl, rfl, rfl, Nat.le_refl _⟩

theorem Put.trans {k k1 k2 : Kernel} {a b : List UInt8} (x : Put k a k1) (y : Put k1 b k2) : Put k (a ++ b) k2 :=
  ⟨by rw [y.log, x.log, List.append_assoc], by rw [y.data, x.data, x.pos, overwrite_append],
    by rw [y.pos, x.pos, List.length_append, Nat.add_assoc], y.answer.trans x.answer, y.seekable.trans x.seekable,
    Nat.le_trans x.time y.time⟩

/-- The kernel reported an error, or accepted no byte, between the two states. -/
def Refused (k k' : Kernel) : Prop :=
  ∃ t, k.time ≤ t ∧ t < k'.time ∧ (k.answer t = .err ∨ k.answer t = .upTo 0)

theorem Refused.after {k k1 k2 : Kernel} {a : List UInt8} (x : Put k a k1) (y : Refused k1 k2) : Refused k k2 := by
  obtain ⟨t, t1, t2, t3⟩ := y
  exact ⟨t, Nat.le_trans x.time t1, t2, by rw [← x.answer]; exact t3⟩

theorem Refused.before {k k1 k2 : Kernel} {a : List UInt8} (y : Refused k k1) (x : Put k1 a k2) : Refused k k2 := by
  obtain ⟨t, t1, t2, t3⟩ := y
  exact ⟨t, t1, Nat.lt_of_lt_of_le t2 x.time, t3⟩

theorem kwrite_spec (k : Kernel) (b : List UInt8) :
    ∃ r k', k.write b = (r, k') ∧ Put k (b.take (r.getD 0)) k' ∧ r.getD 0 ≤ b.length
      ∧ (r.getD 0 = 0 → b ≠ [] → Refused k k') := by
  unfold Kernel.write
  cases ha : k.answer k.time with
  | err =>
    refine ⟨none, _, rfl, ⟨by simp, rfl, rfl, rfl, rfl, Nat.le_succ _⟩, Nat.zero_le _, fun _ _ => ?_⟩
    exact ⟨k.time, Nat.le_refl _, Nat.lt_succ_self _, .inl ha⟩
  | upTo n =>
    simp only
    refine ⟨some (b.take n).length, _, rfl, ?_, by simp only [Option.getD_some, List.length_take]; omega, fun h0 hb => ?_⟩
    · have e : b.take (b.take n).length = b.take n := by
        rw [List.length_take, List.take_eq_take_iff]
        omega
      simp only [Option.getD_some]
      rw [e]
      exact ⟨rfl, rfl, rfl, rfl, rfl, Nat.le_succ _⟩
    · simp only [Option.getD_some, List.length_take] at h0
      have := List.length_pos_iff.2 hb
      have hn : n = 0 := by omega
      exact ⟨k.time, Nat.le_refl _, Nat.lt_succ_self _, .inr (by rw [ha, hn])⟩

theorem flushLoop_spec (n : Nat) (k : Kernel) (b : List UInt8) (hn : b.length ≤ n) :
    ∃ ok a left k', flushLoop k b = (ok, left, k') ∧ b = a ++ left ∧ Put k a k' ∧ (ok = true ↔ left = [])
      ∧ (ok = false → Refused k k') := by
  induction n generalizing k b with
  | zero =>
    have : b = [] := List.length_eq_zero_iff.1 (by omega)
    subst this
    unfold flushLoop
    exact ⟨true, [], [], k, by simp, rfl, .refl k, by simp, by simp⟩
  | succ n ih =>
    unfold flushLoop
    by_cases hb : b = []
    · subst hb
      exact ⟨true, [], [], k, by simp, rfl, .refl k, by simp, by simp⟩
    · rw [dif_neg hb]
      obtain ⟨r, k1, e, p, hl, hr⟩ := kwrite_spec k b
      rw [e]
      match r, p, hl, hr with
      | none, p, _, hr => exact ⟨false, [], b, k1, rfl, rfl, p, by simp [hb], fun _ => hr rfl hb⟩
      | some 0, p, _, hr => exact ⟨false, [], b, k1, rfl, rfl, p, by simp [hb], fun _ => hr rfl hb⟩
      | some (j + 1), p, hl, _ =>
        simp only [Option.getD_some] at p hl
        obtain ⟨ok, a, left, k', e1, s1, p1, o1, f1⟩ := ih k1 (b.drop (j + 1)) (by rw [List.length_drop]; omega)
        exact ⟨ok, b.take (j + 1) ++ a, left, k', e1, by rw [List.append_assoc, ← s1, List.take_append_drop], p.trans p1, o1,
          fun z => (f1 z).after p⟩

/-- What a call of a writer does: the bytes `acc` are accepted after those pending, and of all these some are written
to the descriptor. -/
structure Sent (pend : List UInt8) (k : Kernel) (acc pend' : List UInt8) (k' : Kernel) : Prop where
  ex : ∃ a, Put k a k' ∧ pend ++ acc = a ++ pend'

theorem Sent.trans {p0 p1 p2 a b : List UInt8} {k0 k1 k2 : Kernel} (x : Sent p0 k0 a p1 k1) (y : Sent p1 k1 b p2 k2) :
    Sent p0 k0 (a ++ b) p2 k2 := by
  obtain ⟨x1, x2, x3⟩ := x.ex
  obtain ⟨y1, y2, y3⟩ := y.ex
  exact ⟨x1 ++ y1, x2.trans y2, by rw [← List.append_assoc, x3, List.append_assoc, y3, List.append_assoc]⟩

theorem Sent.refl (p : List UInt8) (k : Kernel) : Sent p k [] p k := ⟨[], .refl k, by simp⟩

theorem Refused.afterS {p0 a p1 : List UInt8} {k k1 k2 : Kernel} (x : Sent p0 k a p1 k1) (y : Refused k1 k2) : Refused k k2 := by
  obtain ⟨x1, x2, _⟩ := x.ex
  exact y.after x2

theorem Refused.beforeS {p0 a p1 : List UInt8} {k k1 k2 : Kernel} (y : Refused k k1) (x : Sent p0 k1 a p1 k2) : Refused k k2 := by
  obtain ⟨x1, x2, _⟩ := x.ex
  exact y.before x2

theorem flush_spec (w : BufWriter) (k : Kernel) :
    ∃ ok w' k', w.flush k = (ok, w', k') ∧ Sent w.buf k [] w'.buf k' ∧ w'.cap = w.cap ∧ w'.buf.length ≤ w.buf.length
      ∧ (ok = true ↔ w'.buf = []) ∧ (ok = false → Refused k k') := by
  unfold BufWriter.flush
  obtain ⟨ok, a, left, k', e, s, p, o, f⟩ := flushLoop_spec _ k w.buf (Nat.le_refl _)
  rw [e]
  refine ⟨ok, _, k', rfl, ⟨a, p, by rw [List.append_nil]; exact s⟩, rfl, ?_, o, f⟩
  rw [s, List.length_append]
  simp only
  omega

theorem put_spec (w : BufWriter) (k : Kernel) (b : List UInt8) (h : w.buf = [] ∨ w.buf.length + b.length ≤ w.cap)
    (hc : w.buf.length ≤ w.cap) :
    ∃ r w' k', w.put k b = (r, w', k') ∧ Sent w.buf k (b.take (r.getD 0)) w'.buf k' ∧ w'.buf.length ≤ w'.cap
      ∧ r.getD 0 ≤ b.length ∧ (r.getD 0 = 0 → b ≠ [] → Refused k k') := by
  unfold BufWriter.put
  by_cases hb : b.length ≥ w.cap
  · rw [if_pos hb]
    have hw : w.buf = [] := h.elim id fun h => List.length_eq_zero_iff.1 (by omega)
    obtain ⟨r, k', e, p, hl, hr⟩ := kwrite_spec k b
    rw [e]
    exact ⟨r, w, k', rfl, ⟨_, p, by rw [hw]; simp⟩, hc, hl, hr⟩
  · rw [if_neg hb]
    refine ⟨some b.length, _, k, rfl, ⟨[], .refl k, by simp⟩, ?_, Nat.le_refl _, fun e hb => ?_⟩
    · simp only [List.length_append]
      rcases h with h | h
      · rw [h]
        simp only [List.length_nil]
        omega
      · exact h
    · simp only [Option.getD_some] at e
      exact absurd (List.length_eq_zero_iff.1 e) hb

theorem write_spec (w : BufWriter) (k : Kernel) (b : List UInt8) (hc : w.buf.length ≤ w.cap) :
    ∃ r w' k', w.write k b = (r, w', k') ∧ Sent w.buf k (b.take (r.getD 0)) w'.buf k' ∧ w'.buf.length ≤ w'.cap
      ∧ r.getD 0 ≤ b.length ∧ (r.getD 0 = 0 → b ≠ [] → Refused k k') := by
  unfold BufWriter.write
  simp only
  generalize hw : (if w.cap = 0 then (⟨[], 8192⟩ : BufWriter) else w) = v
  have hv : v.buf = w.buf ∧ 0 < v.cap ∧ v.buf.length ≤ v.cap := by
    rw [← hw]
    by_cases h0 : w.cap = 0
    · rw [if_pos h0]
      have : w.buf = [] := List.length_eq_zero_iff.1 (by omega)
      exact ⟨this.symm, by decide, by decide⟩
    · rw [if_neg h0]
      exact ⟨rfl, by omega, hc⟩
  obtain ⟨v1, v2, v3⟩ := hv
  rw [← v1]
  by_cases hf : v.buf.length + b.length > v.cap
  · rw [if_pos hf]
    obtain ⟨ok, w1, k1, e, s, c1, c2, o, f⟩ := flush_spec v k
    rw [e]
    simp only
    cases ok with
    | true =>
      rw [if_pos rfl]
      have hz := o.1 rfl
      obtain ⟨r, w', k', e1, s1, l1, l2, r1⟩ := put_spec w1 k1 b (.inl hz) (by omega)
      exact ⟨r, w', k', e1, s.trans s1, l1, l2, fun x y => (r1 x y).afterS s⟩
    | false =>
      rw [if_neg (by simp)]
      exact ⟨none, w1, k1, rfl, s, by omega, Nat.zero_le _, fun _ _ => f rfl⟩
  · rw [if_neg hf]
    exact put_spec v k b (.inr (by omega)) v3

theorem lastLine_spec (b : List UInt8) :
    lastLine b ≤ b.length ∧ 0x0A ∉ b.drop (lastLine b) := by
  have hle : (b.reverse.takeWhile (· != 0x0A)).length ≤ b.length := by
    rw [← List.length_reverse (as := b)]
    exact (List.takeWhile_prefix _).length_le
  refine ⟨by unfold lastLine; omega, ?_⟩
  have e : b.drop (lastLine b) = (b.reverse.takeWhile (· != 0x0A)).reverse := by
    have h := List.takeWhile_append_dropWhile (p := (· != 0x0A)) (l := b.reverse)
    have h2 := congrArg List.reverse h
    rw [List.reverse_append, List.reverse_reverse] at h2
    have hl : lastLine b = (b.reverse.dropWhile (· != 0x0A)).reverse.length := by
      have := congrArg List.length h
      rw [List.length_append, List.length_reverse] at this
      rw [List.length_reverse]
      unfold lastLine
      omega
    rw [hl]
    exact (congrArg (List.drop _) h2.symm).trans List.drop_left
  rw [e, List.mem_reverse]
  intro hm
  have hall : (b.reverse.takeWhile (· != 0x0A)).all (· != 0x0A) = true := List.all_takeWhile
  have := List.all_eq_true.1 hall _ hm
  simp at this

theorem sent_buf {p0 acc p1 : List UInt8} {k k1 : Kernel} (x : Sent p0 k acc p1 k1) {d : UInt8} (h0 : d ∉ p0) (h1 : d ∉ acc) :
    d ∉ p1 := by
  obtain ⟨a, _, e⟩ := x.ex
  intro hm
  have : d ∈ p0 ++ acc := by
    rw [e]
    exact List.mem_append_right _ hm
  rcases List.mem_append.1 this with q | q
  · exact h0 q
  · exact h1 q

theorem lflush_spec (w : LineWriter) (k : Kernel) (hw : (Writer.line w).Ok) :
    ∃ ok w' k', w.flush k = (ok, w', k') ∧ Sent w.inner.buf k [] w'.inner.buf k' ∧ (Writer.line w').Ok
      ∧ (ok = true ↔ w'.inner.buf = []) ∧ (ok = false → Refused k k') ∧ (ok = true → w'.needFlush = false) := by
  obtain ⟨hw1, hw2⟩ := hw
  unfold LineWriter.flush
  obtain ⟨ok, v, k', e, s, c1, c2, o, f⟩ := flush_spec w.inner k
  rw [e]
  refine ⟨ok, _, k', rfl, s, ⟨by simp only; omega, fun hn => ?_⟩, o, f, fun hk => by simp only [hk]; rfl⟩
  cases ok with
  | true =>
    simp only
    rw [o.1 rfl]
    simp
  | false => exact sent_buf s (hw2 hn) (by simp)

theorem lput_spec (w : LineWriter) (k : Kernel) (b : List UInt8) (hw : (Writer.line w).Ok) :
    ∃ r w' k', w.put k b = (r, w', k') ∧ Sent w.inner.buf k (b.take (r.getD 0)) w'.inner.buf k' ∧ (Writer.line w').Ok
      ∧ r.getD 0 ≤ b.length ∧ (r.getD 0 = 0 → b ≠ [] → Refused k k')
      ∧ (w.needFlush = false → ¬ Refused k k' → w'.needFlush = false) := by
  obtain ⟨hw1, hw2⟩ := hw
  obtain ⟨ll, ln⟩ := lastLine_spec b
  unfold LineWriter.put
  generalize lastLine b = i at ll ln ⊢
  simp only
  by_cases hi : i = 0
  · rw [if_pos hi]
    subst hi
    obtain ⟨r, v, k', e, s, l, l2, rf⟩ := write_spec w.inner k b hw1
    rw [e]
    exact ⟨r, _, k', rfl, s, ⟨l, fun hn => sent_buf s (hw2 hn) fun hm => ln (List.mem_of_mem_take hm)⟩, l2, rf,
      fun hn _ => hn⟩
  · rw [if_neg hi]
    obtain ⟨r, v, k1, e, s, l, l2, rf⟩ := write_spec w.inner k (b.take i) hw1
    rw [e]
    have hti : (b.take i).length = i := by
      rw [List.length_take]
      omega
    have hne : b.take i ≠ [] := by
      rw [← List.length_pos_iff]
      omega
    cases r with
    | none =>
      refine ⟨none, _, k1, rfl, s, ⟨l, fun hn => sent_buf s (hw2 hn) (by simp)⟩, Nat.zero_le _, fun _ _ => rf rfl hne,
        fun hn _ => hn⟩
    | some n =>
      simp only [Option.getD_some] at s l2 rf ⊢
      have hn : (b.take i).take n = b.take n := by
        rw [List.take_take, Nat.min_eq_left (by omega)]
      rw [hn] at s
      obtain ⟨ok, w2, k2, e2, s2, o2, ob, of, on⟩ := lflush_spec ⟨v, true⟩ k1 ⟨l, fun h => by cases h⟩
      rw [e2]
      simp only
      have s3 := s.trans s2
      rw [List.append_nil] at s3
      by_cases hc : ok = false ∨ n ≠ i
      · rw [if_pos hc]
        refine ⟨some n, w2, k2, rfl, s3, o2, by simp only [Option.getD_some]; omega,
          fun h0 _ => (rf h0 hne).beforeS s2, fun _ hr => ?_⟩
        cases hok : ok with
        | false => exact absurd ((of hok).afterS s) hr
        | true => exact on hok
      · rw [if_neg hc]
        have hok : ok = true := by
          cases ok with
          | true => rfl
          | false => exact absurd (.inl rfl) hc
        have hni : n = i := Classical.byContradiction fun z => hc (.inr z)
        subst hni
        obtain ⟨j, v3, k3, e3, s4, l4, l5, rf5⟩ := write_spec w2.inner k2 (b.drop n) o2.1
        rw [e3]
        have s5 := s3.trans s4
        have hok3 : (Writer.line { w2 with inner := v3 }).Ok := by
          refine ⟨l4, fun _ => sent_buf s4 (by rw [ob.1 hok]; simp) fun hm => ln (List.mem_of_mem_take hm)⟩
        cases j with
        | none =>
          simp only [Option.getD_none, List.take_zero, List.append_nil] at s5
          refine ⟨some n, _, k3, rfl, s5, hok3, by simp only [Option.getD_some]; omega, fun h0 => ?_, fun _ _ => on hok⟩
          simp only [Option.getD_some] at h0
          omega
        | some j =>
          simp only [Option.getD_some] at s5 l5
          have ht : b.take n ++ (b.drop n).take j = b.take (n + j) := List.take_add.symm
          rw [ht] at s5
          rw [List.length_drop] at l5
          refine ⟨some (n + j), _, k3, rfl, s5, hok3, by simp only [Option.getD_some]; omega, fun h0 => ?_, fun _ _ => on hok⟩
          simp only [Option.getD_some] at h0
          omega

theorem lwrite_spec (w : LineWriter) (k : Kernel) (b : List UInt8) (hw : (Writer.line w).Ok) :
    ∃ r w' k', w.write k b = (r, w', k') ∧ Sent w.inner.buf k (b.take (r.getD 0)) w'.inner.buf k' ∧ (Writer.line w').Ok
      ∧ r.getD 0 ≤ b.length ∧ (r.getD 0 = 0 → b ≠ [] → Refused k k') ∧ (¬ Refused k k' → w'.needFlush = false) := by
  unfold LineWriter.write
  by_cases hn : w.needFlush = true
  · rw [if_pos hn]
    obtain ⟨ok, w2, k2, e2, s2, o2, ob, of, on⟩ := lflush_spec w k hw
    rw [e2]
    simp only
    cases ok with
    | false =>
      rw [if_neg (by simp)]
      exact ⟨none, w2, k2, rfl, s2, o2, Nat.zero_le _, fun _ _ => of rfl, fun hr => absurd (of rfl) hr⟩
    | true =>
      rw [if_pos rfl]
      obtain ⟨r, w', k', e, s, o, l, rf, nf⟩ := lput_spec w2 k2 b o2
      exact ⟨r, w', k', e, s2.trans s, o, l, fun x y => (rf x y).afterS s2, fun hr => nf (on rfl) fun z => hr (z.afterS s2)⟩
  · rw [if_neg hn]
    obtain ⟨r, w', k', e, s, o, l, rf, nf⟩ := lput_spec w k b hw
    exact ⟨r, w', k', e, s, o, l, rf, nf (by simpa using hn)⟩

/-- `FileInnerWriter::write`. -/
theorem writer_write (w : Writer) (k : Kernel) (b : List UInt8) (hw : w.Ok) :
    ∃ r w' k', w.write k b = (r, w', k') ∧ Sent w.pending k (b.take (r.getD 0)) w'.pending k' ∧ w'.Ok
      ∧ r.getD 0 ≤ b.length ∧ (r.getD 0 = 0 → b ≠ [] → Refused k k')
      ∧ w'.isLine = w.isLine ∧ (w.isLine = true → ¬ Refused k k' → 0x0A ∉ w'.pending) := by
  unfold Writer.write
  cases w with
  | buf w =>
    obtain ⟨r, w', k', e, s, o, l, rf⟩ := write_spec w k b hw
    simp only [e]
    exact ⟨r, _, k', rfl, s, o, l, rf, rfl, fun h => by cases h⟩
  | line w =>
    obtain ⟨r, w', k', e, s, o, l, rf, nf⟩ := lwrite_spec w k b hw
    simp only [e]
    exact ⟨r, _, k', rfl, s, o, l, rf, rfl, fun _ hr => o.2 (nf hr)⟩
  | unbuffered =>
    obtain ⟨r, k', e, p, hl, hr⟩ := kwrite_spec k b
    simp only [e]
    exact ⟨r, _, k', rfl, ⟨_, p, by simp [Writer.pending]⟩, trivial, hl, hr, rfl, fun h => by cases h⟩

/-- `FileInnerWriter::flush`. -/
theorem writer_flush (w : Writer) (k : Kernel) (hw : w.Ok) :
    ∃ ok w' k', w.flush k = (ok, w', k') ∧ Sent w.pending k [] w'.pending k' ∧ w'.Ok ∧ (ok = true ↔ w'.pending = [])
      ∧ (ok = false → Refused k k') ∧ w'.isLine = w.isLine := by
  unfold Writer.flush
  cases w with
  | buf w =>
    obtain ⟨ok, w', k', e, s, c1, c2, o, f⟩ := flush_spec w k
    simp only [e]
    have hw : w.buf.length ≤ w.cap := hw
    exact ⟨ok, _, k', rfl, s, (by omega : w'.buf.length ≤ w'.cap), o, f, rfl⟩
  | line w =>
    obtain ⟨ok, w', k', e, s, o, l, rf, nf⟩ := lflush_spec w k hw
    simp only [e]
    exact ⟨ok, _, k', rfl, s, o, l, rf, rfl⟩
  | unbuffered => exact ⟨true, _, k, rfl, .refl [] k, trivial, by simp [Writer.pending], by simp, rfl⟩

/-- From `f` to `f'` the stream accepted the bytes `acc`, and nothing else happened to it. -/
structure Wrote (f : FILE) (acc : List UInt8) (f' : FILE) : Prop where
  sent : Sent f.writer.pending f.k acc f'.writer.pending f'.k
  ok : f'.writer.Ok
  buffer : f'.buffer = f.buffer
  readPos : f'.readPos = f.readPos
  readSize : f'.readSize = f.readSize
  unget : f'.unget = f.unget
  line : f'.writer.isLine = f.writer.isLine

theorem Wrote.refl {f : FILE} (h : f.writer.Ok) : Wrote f [] f := ⟨.refl _ _, h, rfl, rfl, rfl, rfl, rfl⟩

theorem Wrote.trans {f g h : FILE} {a b : List UInt8} (x : Wrote f a g) (y : Wrote g b h) : Wrote f (a ++ b) h :=
  ⟨x.sent.trans y.sent, y.ok, y.buffer.trans x.buffer, y.readPos.trans x.readPos, y.readSize.trans x.readSize,
    y.unget.trans x.unget, y.line.trans x.line⟩

theorem file_write (f : FILE) (b : List UInt8) (hw : f.writer.Ok) :
    ∃ r f', f.write b = (r, f') ∧ Wrote f (b.take (r.getD 0)) f' ∧ r.getD 0 ≤ b.length
      ∧ (r.getD 0 = 0 → b ≠ [] → Refused f.k f'.k)
      ∧ (f.writer.isLine = true → ¬ Refused f.k f'.k → 0x0A ∉ f'.writer.pending)
      ∧ f'.flags = (if r.isNone then f.flags ||| F_ERR else f.flags) := by
  unfold FILE.write
  obtain ⟨r, w', k', e, s, o, l, rf, il, nf⟩ := writer_write f.writer f.k b hw
  rw [e]
  cases r with
  | none => exact ⟨none, _, rfl, ⟨s, o, rfl, rfl, rfl, rfl, il⟩, l, rf, nf, rfl⟩
  | some n => exact ⟨some n, _, rfl, ⟨s, o, rfl, rfl, rfl, rfl, il⟩, l, rf, nf, rfl⟩

theorem file_flush (f : FILE) (hw : f.writer.Ok) :
    ∃ ok f', f.flush = (ok, f') ∧ Wrote f [] f' ∧ (ok = true ↔ f'.writer.pending = [])
      ∧ (ok = false → Refused f.k f'.k) ∧ f'.flags = (if ok then f.flags else f.flags ||| F_ERR) := by
  unfold FILE.flush
  obtain ⟨ok, w', k', e, s, o, l, rf, il⟩ := writer_flush f.writer f.k hw
  rw [e]
  cases ok with
  | true => exact ⟨true, _, rfl, ⟨s, o, rfl, rfl, rfl, rfl, il⟩, l, rf, rfl⟩
  | false => exact ⟨false, _, rfl, ⟨s, o, rfl, rfl, rfl, rfl, il⟩, l, rf, rfl⟩

theorem writeLoop_spec (n : Nat) {f : FILE} (b : List UInt8) (hw : f.writer.Ok) (hn : b.length ≤ n) :
    ∃ acc left f', writeLoop f b = (left, f') ∧ b = acc ++ left ∧ Wrote f acc f' ∧ (left ≠ [] → Refused f.k f'.k)
      ∧ (b ≠ [] → f.writer.isLine = true → ¬ Refused f.k f'.k → 0x0A ∉ f'.writer.pending) := by
  induction n generalizing f b with
  | zero =>
    have : b = [] := List.length_eq_zero_iff.1 (by omega)
    subst this
    unfold writeLoop
    exact ⟨[], [], f, by simp, rfl, .refl hw, by simp, by simp⟩
  | succ n ih =>
    unfold writeLoop
    by_cases hb : b = []
    · subst hb
      exact ⟨[], [], f, by simp, rfl, .refl hw, by simp, by simp⟩
    · rw [dif_neg hb]
      obtain ⟨r, g, e, w, l, rf, nf, fl⟩ := file_write f b hw
      rw [e]
      match r, w, l, rf with
      | none, w, l, rf => exact ⟨[], b, g, rfl, rfl, w, fun _ => rf rfl hb, fun _ => nf⟩
      | some 0, w, l, rf => exact ⟨[], b, g, rfl, rfl, w, fun _ => rf rfl hb, fun _ => nf⟩
      | some (j + 1), w, l, _ =>
        simp only [Option.getD_some] at w l
        obtain ⟨acc, left, f', e1, s1, w1, r1, n1⟩ := ih (f := g) (b.drop (j + 1)) w.ok (by rw [List.length_drop]; omega)
        refine ⟨b.take (j + 1) ++ acc, left, f', e1, by rw [List.append_assoc, ← s1, List.take_append_drop], w.trans w1,
          fun z => (r1 z).afterS w.sent, fun _ hl hr => ?_⟩
        by_cases hd : b.drop (j + 1) = []
        · unfold writeLoop at e1
          rw [dif_pos hd] at e1
          cases e1
          exact nf hl hr
        · exact n1 hd (w.line.trans hl) fun z => hr (z.afterS w.sent)

/-! ## A kernel that never accepts nothing -/

theorem Sent.answer {p0 p1 acc : List UInt8} {k k' : Kernel} (h : Sent p0 k acc p1 k') : k'.answer = k.answer := by
  obtain ⟨a, p, e⟩ := h.ex
  exact p.answer

theorem kwrite_ne {k : Kernel} (hk : ∀ t, k.answer t ≠ .upTo 0) {b : List UInt8} (hb : b ≠ []) : (k.write b).1 ≠ some 0 := by
  unfold Kernel.write
  cases ha : k.answer k.time with
  | err => simp
  | upTo n =>
    have hn : n ≠ 0 := fun e => hk k.time (by rw [ha, e])
    have := List.length_pos_iff.2 hb
    simp only [ne_eq, Option.some.injEq, List.length_take]
    omega

theorem bput_ne (w : BufWriter) {k : Kernel} (hk : ∀ t, k.answer t ≠ .upTo 0) {b : List UInt8} (hb : b ≠ []) :
    (w.put k b).1 ≠ some 0 := by
  unfold BufWriter.put
  by_cases h : b.length ≥ w.cap
  · rw [if_pos h]
    exact kwrite_ne hk hb
  · rw [if_neg h]
    have := List.length_pos_iff.2 hb
    simp only [ne_eq, Option.some.injEq]
    omega

theorem bwrite_ne (w : BufWriter) {k : Kernel} (hk : ∀ t, k.answer t ≠ .upTo 0) {b : List UInt8} (hb : b ≠ []) :
    (w.write k b).1 ≠ some 0 := by
  unfold BufWriter.write
  simp only
  generalize (if w.cap = 0 then (⟨[], 8192⟩ : BufWriter) else w) = v
  by_cases h : v.buf.length + b.length > v.cap
  · rw [if_pos h]
    obtain ⟨ok, w1, k1, e, s, _⟩ := flush_spec v k
    rw [e]
    simp only
    cases ok with
    | true =>
      rw [if_pos rfl]
      exact bput_ne w1 (by rw [s.answer]; exact hk) hb
    | false => simp
  · rw [if_neg h]
    exact bput_ne v hk hb

theorem lput_ne (w : LineWriter) {k : Kernel} (hk : ∀ t, k.answer t ≠ .upTo 0) {b : List UInt8} (hb : b ≠ []) :
    (w.put k b).1 ≠ some 0 := by
  have ll := (lastLine_spec b).1
  unfold LineWriter.put
  generalize lastLine b = i at ll ⊢
  simp only
  by_cases hi : i = 0
  · rw [if_pos hi]
    exact bwrite_ne w.inner hk hb
  · rw [if_neg hi]
    have hne : b.take i ≠ [] := by
      rw [← List.length_pos_iff, List.length_take]
      have := List.length_pos_iff.2 hb
      omega
    have h1 := bwrite_ne w.inner hk hne
    generalize w.inner.write k (b.take i) = r at h1 ⊢
    obtain ⟨r, v, k1⟩ := r
    cases r with
    | none => simp
    | some n =>
      have h1 : n ≠ 0 := fun e => h1 (by rw [e])
      simp only
      generalize LineWriter.flush ⟨v, true⟩ k1 = r
      obtain ⟨ok, w2, k2⟩ := r
      simp only
      by_cases hc : ok = false ∨ n ≠ i
      · rw [if_pos hc]
        simpa using h1
      · rw [if_neg hc]
        generalize w2.inner.write k2 (b.drop i) = r
        obtain ⟨r, v2, k3⟩ := r
        cases r with
        | none => simpa using h1
        | some j =>
          simp only [ne_eq, Option.some.injEq]
          omega

theorem file_write_ne (f : FILE) (hw : f.writer.Ok) (hk : ∀ t, f.k.answer t ≠ .upTo 0) {b : List UInt8} (hb : b ≠ []) :
    (f.write b).1 ≠ some 0 := by
  have h : (f.writer.write f.k b).1 ≠ some 0 := by
    unfold Writer.write
    cases hf : f.writer with
    | buf w => exact bwrite_ne w hk hb
    | unbuffered => exact kwrite_ne hk hb
    | line w =>
      rw [hf] at hw
      simp only
      unfold LineWriter.write
      by_cases hn : w.needFlush = true
      · rw [if_pos hn]
        obtain ⟨ok, w2, k2, e2, s2, _⟩ := lflush_spec w f.k hw
        rw [e2]
        simp only
        cases ok with
        | false => simp
        | true =>
          rw [if_pos rfl]
          exact lput_ne w2 (by rw [s2.answer]; exact hk) hb
      · rw [if_neg hn]
        exact lput_ne w hk hb
  unfold FILE.write
  generalize f.writer.write f.k b = r at h
  obtain ⟨r, w, k⟩ := r
  cases r with
  | none => simp
  | some n => simpa using h

end Verif.Stdio
