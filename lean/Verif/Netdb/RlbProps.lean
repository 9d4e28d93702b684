import Verif.Netdb.RlbModel
/-!
# The line reader yields the lines of the file (C46)
-/

namespace Verif.Netdb
open Verif.Stdio

/-! ## Specification -/

/-- What the reader has buffered beyond the line it returned last. -/
def RLB.ahead (r : RLB) : List UInt8 :=
  match r.newline with
  | some i => r.buf.drop (i + 1)
  | none => r.buf

/-- What the reader has still to give. -/
def RLB.unread (r : RLB) : List UInt8 := r.ahead ++ r.k.data.drop r.k.pos

/-- The buffer holds the bytes of the file just before the offset of the descriptor. -/
structure RLB.Ok (r : RLB) : Prop where
  newline : ∀ i, r.newline = some i → i < r.buf.length
  cap : r.buf.length ≤ r.cap
  read : r.read = r.k.pos
  before : r.buf.length ≤ r.k.pos
  same : r.k.data.drop (r.k.pos - r.buf.length) = r.buf ++ r.k.data.drop r.k.pos

/-- The offset in the file of the next byte to give. -/
def RLB.offset (r : RLB) : Nat := r.k.pos - r.ahead.length

/-- The kernel reported an error between the two states. -/
def Failed (k k' : Kernel) : Prop := ∃ t, k.time ≤ t ∧ t < k'.time ∧ k.answer t = .err

/-- One call of `next`, going from `r` to `r'`, returned `x`. -/
inductive Next (r r' : RLB) : Line → Prop
  /-- An error of the kernel; nothing is lost. -/
  | error : Failed r.k r'.k → r'.unread = r.unread → r'.offset = r.offset → Next r r' .error
  /-- A line `l` that a newline ends. -/
  | line (l : List UInt8) : 0x0A ∉ l → r.unread = l ++ 0x0A :: r'.unread → r'.linePos = r.offset →
      r'.offset = r.offset + l.length + 1 → Next r r' (.some l)
  /-- The end of the file. -/
  | eof : r.unread = [] → r'.unread = [] → r'.linePos = r.offset → r'.offset = r.offset → Next r r' .eof
  /-- A last line without newline; it stays. -/
  | last : r.unread ≠ [] → 0x0A ∉ r.unread → r'.unread = r.unread → r'.linePos = r.offset → r'.offset = r.offset →
      Next r r' (.some r.unread)

/-! ## Lemmas -/

/-- The kernel only moved on, by reading. -/
structure Moved (k k' : Kernel) : Prop where
  data : k'.data = k.data
  answer : k'.answer = k.answer
  time : k.time ≤ k'.time
  seekable : k'.seekable = k.seekable

theorem Moved.refl (k : Kernel) : Moved k k := ⟨rfl, rfl, Nat.le_refl _, rfl⟩

theorem Moved.trans {a b c : Kernel} (h : Moved a b) (g : Moved b c) : Moved a c :=
  ⟨g.data.trans h.data, g.answer.trans h.answer, Nat.le_trans h.time g.time, g.seekable.trans h.seekable⟩

theorem loop_spec (n : Nat) {r : RLB} (h : r.Ok) (hn : r.newline = none) (hl : (r.k.data.drop r.k.pos).length < n) :
    ∃ x r', r.loop = some (x, r') ∧ r'.Ok ∧ Next r r' x ∧ Moved r.k r'.k := by
  induction n generalizing r with
  | zero => omega
  | succ n ih =>
    have hah : r.ahead = r.buf := by simp [RLB.ahead, hn]
    have hun : r.unread = r.buf ++ r.k.data.drop r.k.pos := by rw [RLB.unread, hah]
    have hoff : r.offset = r.k.pos - r.buf.length := by rw [RLB.offset, hah]
    unfold RLB.loop
    cases hi : r.buf.findIdx? (· == 0x0A) with
    | some i =>
      rw [List.findIdx?_eq_some_iff_getElem] at hi
      obtain ⟨hlt, hnl, hbefore⟩ := hi
      have hsplit : r.buf = r.buf.take i ++ 0x0A :: r.buf.drop (i + 1) := by
        have h1 : r.buf.drop i = 0x0A :: r.buf.drop (i + 1) := by
          rw [List.drop_eq_getElem_cons hlt, eq_of_beq hnl]
        rw [← h1, List.take_append_drop]
      have hno : (0x0A : UInt8) ∉ r.buf.take i := by
        intro hm
        obtain ⟨j, hj, e⟩ := List.getElem_of_mem hm
        rw [List.length_take] at hj
        rw [List.getElem_take] at e
        have := hbefore j (by omega)
        rw [e] at this
        simp at this
      refine ⟨_, _, rfl, ⟨fun j hj => ?_, h.cap, h.read, h.before, h.same⟩, ?_, .refl _⟩
      · simp only [Option.some.injEq] at hj
        subst hj
        exact hlt
      · refine .line _ hno ?_ ?_ ?_
        · rw [hun]
          conv => lhs; rw [hsplit]
          simp [RLB.unread, RLB.ahead]
        · rw [hoff, RLB.linePos, ← h.read]
        · rw [hoff]
          have := h.before
          simp only [RLB.offset, RLB.ahead, List.length_drop, List.length_take]
          omega
    | none =>
      have hno : (0x0A : UInt8) ∉ r.buf := by
        rw [List.findIdx?_eq_none_iff] at hi
        intro hm
        have := hi _ hm
        simp at this
      have e0 : ({ r with newline := none } : RLB) = r := by
        cases r
        simp only at hn
        subst hn
        rfl
      simp only [e0]
      obtain ⟨r2, e2, hk, hb, hnl, hrd, hcap⟩ : ∃ r2, r.reserve = r2 ∧ r2.k = r.k ∧ r2.buf = r.buf ∧ r2.newline = none
          ∧ r2.read = r.read ∧ r2.buf.length < r2.cap := by
        refine ⟨_, rfl, ?_⟩
        unfold RLB.reserve
        split
        · exact ⟨rfl, rfl, hn, rfl, by simp only; omega⟩
        · exact ⟨rfl, rfl, hn, rfl, by omega⟩
      rw [e2, hk]
      have hok2 : r2.Ok := ⟨fun i hi => (by rw [hnl] at hi; cases hi), by omega, by rw [hrd, hk]; exact h.read,
        by rw [hb, hk]; exact h.before, by rw [hb, hk]; exact h.same⟩
      unfold Kernel.read
      cases ha : r.k.answer r.k.time with
      | err =>
        simp only
        refine ⟨_, _, rfl, ⟨fun i hi => (by rw [hnl] at hi; cases hi), by simp only; omega, by rw [hrd]; exact h.read,
          by rw [hb]; exact h.before, by simp only; rw [hb]; exact h.same⟩,
          .error ⟨r.k.time, Nat.le_refl _, Nat.lt_succ_self _, ha⟩ ?_ ?_, ⟨rfl, rfl, Nat.le_succ _, rfl⟩⟩
        · rw [hun]
          simp [RLB.unread, RLB.ahead, hnl, hb]
        · rw [hoff]
          simp [RLB.offset, RLB.ahead, hnl, hb]
      | upTo j =>
        simp only
        generalize hl' : (r.k.data.drop r.k.pos).take (min (r2.cap - r2.buf.length) (j + 1)) = l
        match l, hl' with
        | [], hl' =>
          have hnil : r.k.data.drop r.k.pos = [] := by
            rcases List.take_eq_nil_iff.1 hl' with z | z
            · omega
            · exact z
          simp only [List.length_nil, Nat.add_zero]
          rw [hnil, List.append_nil] at hun
          refine ⟨_, _, rfl, ⟨fun i hi => (by rw [hnl] at hi; cases hi), by simp only; omega, by rw [hrd]; exact h.read,
            by rw [hb]; exact h.before, by simp only; rw [hb]; exact h.same⟩, ?_, ⟨rfl, rfl, Nat.le_succ _, rfl⟩⟩
          have e5 : r.k.pos - r.buf.length = r.offset := hoff.symm
          rw [hb]
          by_cases hz : r.buf = []
          · rw [if_pos hz]
            refine .eof (by rw [hun, hz]) ?_ ?_ ?_
            · simp only [RLB.unread, RLB.ahead, hnl, hz, hnil, List.append_nil]
            · simp only [RLB.linePos, hrd, h.read, e5]
            · simp only [RLB.offset, RLB.ahead, hnl]
              exact e5
          · rw [if_neg hz, show Line.some r.buf = Line.some r.unread by rw [hun]]
            refine .last (by rw [hun]; exact hz) (by rw [hun]; exact hno) ?_ ?_ ?_
            · rw [hun]
              simp only [RLB.unread, RLB.ahead, hnl, hnil, List.append_nil]
            · simp only [RLB.linePos, hrd, h.read, e5]
            · simp only [RLB.offset, RLB.ahead, hnl]
              exact e5
        | b :: l, hl' =>
          simp only
          have hsplit : r.k.data.drop r.k.pos = (b :: l) ++ r.k.data.drop (r.k.pos + (b :: l).length) := by
            have h1 := List.take_append_drop (min (r2.cap - r2.buf.length) (j + 1)) (r.k.data.drop r.k.pos)
            rw [hl'] at h1
            have h2 : (b :: l).length ≤ min (r2.cap - r2.buf.length) (j + 1) := by
              rw [← hl', List.length_take]
              omega
            have h3 : (b :: l).length = min (min (r2.cap - r2.buf.length) (j + 1)) (r.k.data.drop r.k.pos).length := by
              rw [← hl', List.length_take]
            conv => lhs; rw [← h1]
            congr 1
            rw [List.drop_drop]
            rcases Nat.le_total (min (r2.cap - r2.buf.length) (j + 1)) (r.k.data.drop r.k.pos).length with z | z
            · rw [h3, Nat.min_eq_left z]
            · rw [h3, Nat.min_eq_right z]
              rw [List.length_drop] at z ⊢
              rw [List.drop_eq_nil_iff.2 (by omega), List.drop_eq_nil_iff.2 (by omega)]
          have hlen : (b :: l).length ≤ r2.cap - r2.buf.length := by
            rw [← hl', List.length_take]
            omega
          generalize hr3 : ({ r2 with
              k := { r.k with pos := r.k.pos + (b :: l).length, time := r.k.time + 1 }
              buf := r2.buf ++ b :: l
              read := r2.read + (b :: l).length } : RLB) = r3
          have hdl := congrArg List.length hsplit
          rw [List.length_append] at hdl
          have f1 : r3.k = { r.k with pos := r.k.pos + (b :: l).length, time := r.k.time + 1 } := by rw [← hr3]
          have f2 : r3.buf = r.buf ++ b :: l := by rw [← hr3, hb]
          have f3 : r3.newline = none := by rw [← hr3]; exact hnl
          have f4 : r3.read = r.read + (b :: l).length := by rw [← hr3, hrd]
          have f5 : r3.cap = r2.cap := by rw [← hr3]
          have ok3 : r3.Ok := by
            refine ⟨fun i hi => (by rw [f3] at hi; cases hi), ?_, ?_, ?_, ?_⟩
            · rw [f2, f5, ← hb, List.length_append]
              omega
            · rw [f4, f1, h.read]
            · rw [f2, f1, List.length_append]
              have := h.before
              simp only
              omega
            · rw [f2, f1]
              simp only [List.length_append]
              rw [Nat.add_sub_add_right, h.same, hsplit, List.append_assoc]
          obtain ⟨x, r', e, ok', nx, mv⟩ := ih ok3 f3 (by
            rw [f1]
            simp only [List.length_cons] at hdl ⊢
            omega)
          refine ⟨x, r', e, ok', ?_, ⟨by rw [mv.data, f1], by rw [mv.answer, f1], ?_, by rw [mv.seekable, f1]⟩⟩
          · have hu3 : r3.unread = r.unread := by
              rw [hun, RLB.unread]
              simp only [RLB.ahead, f3, f2, f1]
              rw [hsplit, List.append_assoc]
            have ho3 : r3.offset = r.offset := by
              rw [hoff, RLB.offset]
              simp only [RLB.ahead, f3, f2, f1, List.length_append]
              omega
            cases nx with
            | error q1 q2 q3 =>
              obtain ⟨t, t1, t2, t3⟩ := q1
              rw [f1] at t1 t3
              simp only at t1 t3
              exact .error ⟨t, by omega, t2, t3⟩ (q2.trans hu3) (q3.trans ho3)
            | line l q1 q2 q3 q4 => exact .line l q1 (hu3 ▸ q2) (q3.trans ho3) (ho3 ▸ q4)
            | eof q1 q2 q3 q4 => exact .eof (hu3 ▸ q1) q2 (q3.trans ho3) (q4.trans ho3)
            | last q1 q2 q3 q4 q5 =>
              rw [hu3] at q1 q2 q3 ⊢
              exact .last q1 q2 q3 (q4.trans ho3) (q5.trans ho3)
          · have := mv.time
            rw [f1] at this
            simp only at this
            omega

/-! ## C46 -/

/-- A new reader, put at any position of a file. -/
theorem C46_seek (k : Kernel) (hs : k.seekable = true) (pos : Nat) (hp : pos < 2 ^ 63) :
    ∃ r, (RLB.new k).seek pos = ((pos : Int), r) ∧ r.Ok ∧ r.unread = k.data.drop pos ∧ r.offset = pos ∧ Moved k r.k := by
  have e : k.lseek pos 0 = (some (pos : Int), { k with pos := pos }) := by
    unfold Kernel.lseek
    simp only [if_true, Int.zero_add]
    rw [if_pos ⟨hs, by omega, by omega, by omega, by omega⟩]
    simp
  unfold RLB.seek RLB.new
  simp only [e]
  exact ⟨_, rfl, ⟨fun i hi => (by cases hi), Nat.le_refl _, rfl, Nat.zero_le _, by simp⟩, by simp [RLB.unread, RLB.ahead],
    by simp [RLB.offset, RLB.ahead], ⟨rfl, rfl, Nat.le_refl _, rfl⟩⟩

/-- C46, one call: whatever parts the kernel delivers the file in, `next` returns the next line, and `line_pos` is the
offset of its first byte. -/
theorem C46_next {r : RLB} (h : r.Ok) : ∃ x r', r.next = some (x, r') ∧ r'.Ok ∧ Next r r' x ∧ Moved r.k r'.k := by
  unfold RLB.next
  cases hn : r.newline with
  | none => exact loop_spec _ h hn (Nat.lt_succ_self _)
  | some i =>
    have hi := h.newline i hn
    simp only [if_pos hi]
    generalize hg : ({ r with buf := r.buf.drop (i + 1), newline := some i } : RLB) = g
    -- the loop overwrites `newline` before it is looked at
    have hloop : g.loop = ({ g with newline := none } : RLB).loop := by
      unfold RLB.loop
      simp only
    rw [hloop]
    generalize hg2 : ({ g with newline := none } : RLB) = g2
    have f1 : g2.k = r.k := by rw [← hg2, ← hg]
    have f2 : g2.buf = r.buf.drop (i + 1) := by rw [← hg2, ← hg]
    have f3 : g2.newline = none := by rw [← hg2]
    have f4 : g2.read = r.read := by rw [← hg2, ← hg]
    have f5 : g2.cap = r.cap := by rw [← hg2, ← hg]
    have hb := h.before
    have hc := h.cap
    have ok2 : g2.Ok := by
      refine ⟨fun j hj => (by rw [f3] at hj; cases hj), ?_, by rw [f4, f1]; exact h.read, ?_, ?_⟩
      · rw [f2, f5, List.length_drop]
        omega
      · rw [f2, f1, List.length_drop]
        omega
      · rw [f2, f1, List.length_drop]
        have h1 := congrArg (List.drop (i + 1)) h.same
        rw [List.drop_drop, List.drop_append_of_le_length (by omega)] at h1
        rw [← h1]
        congr 1
        omega
    have hu : g2.unread = r.unread := by
      unfold RLB.unread RLB.ahead
      simp only [f3, f2, f1, hn]
    have ho : g2.offset = r.offset := by
      unfold RLB.offset RLB.ahead
      simp only [f3, f2, f1, hn]
    obtain ⟨x, r', e, ok', nx, mv⟩ := loop_spec _ ok2 f3 (Nat.lt_succ_self _)
    rw [f1] at mv
    refine ⟨x, r', e, ok', ?_, mv⟩
    cases nx with
    | error q1 q2 q3 => exact .error (f1 ▸ q1) (q2.trans hu) (q3.trans ho)
    | line l q1 q2 q3 q4 => exact .line l q1 (hu ▸ q2) (q3.trans ho) (ho ▸ q4)
    | eof q1 q2 q3 q4 => exact .eof (hu ▸ q1) q2 (q3.trans ho) (q4.trans ho)
    | last q1 q2 q3 q4 q5 =>
      rw [hu] at q1 q2 q3 ⊢
      exact .last q1 q2 q3 (q4.trans ho) (q5.trans ho)

/-- `n` calls of `next` with the line position after each. -/
def nexts (r : RLB) : Nat → Option (List (Line × Nat) × RLB)
  | 0 => some ([], r)
  | n + 1 => do
    let (x, r) ← r.next
    let (xs, r') ← nexts r n
    some ((x, r.linePos) :: xs, r')

/-- The lines of a text with their offsets, the first one at `pos`, as a reader should return them in `n` calls: each
without its newline, and then `EOF`. A last line need not be terminated. -/
def answers : Nat → Nat → List UInt8 → List (Line × Nat)
  | 0, _, _ => []
  | _ + 1, _, [] => []
  | n + 1, pos, b :: t =>
    let l := (b :: t).takeWhile (· != 0x0A)
    (.some l, pos) :: answers n (pos + l.length + 1) ((b :: t).drop (l.length + 1))

theorem takeWhile_line {l t : List UInt8} (h : 0x0A ∉ l) : (l ++ 0x0A :: t).takeWhile (· != 0x0A) = l := by
  induction l with
  | nil => rfl
  | cons a l ih =>
    rw [List.cons_append, List.takeWhile_cons]
    have : (a != 0x0A) = true := by
      rw [bne_iff_ne]
      exact fun e => h (by rw [e]; exact List.mem_cons_self)
    rw [if_pos this, ih fun e => h (List.mem_cons_of_mem _ e)]

theorem takeWhile_last {l : List UInt8} (h : 0x0A ∉ l) : l.takeWhile (· != 0x0A) = l := by
  induction l with
  | nil => rfl
  | cons a l ih =>
    rw [List.takeWhile_cons]
    have : (a != 0x0A) = true := by
      rw [bne_iff_ne]
      exact fun e => h (by rw [e]; exact List.mem_cons_self)
    rw [if_pos this, ih fun e => h (List.mem_cons_of_mem _ e)]

/-- C46, the whole file, if its last line is terminated: without errors of the kernel any number of calls returns the
lines in order, each once and with its offset, and then `EOF`. Missing: files that do not end in a newline
(`C46_last_violation`). -/
theorem C46_lines_partial (n : Nat) {r : RLB} (h : r.Ok) (hk : ∀ t, r.k.answer t ≠ .err)
    (hlast : r.unread = [] ∨ r.unread.getLast? = some 0x0A) :
    ∃ xs r', nexts r n = some (xs, r')
      ∧ xs = answers n r.offset r.unread
          ++ List.replicate (n - (answers n r.offset r.unread).length) (.eof, r.offset + r.unread.length) := by
  induction n generalizing r with
  | zero => exact ⟨[], r, rfl, rfl⟩
  | succ n ih =>
    obtain ⟨x, r', e, ok', nx, mv⟩ := C46_next h
    have hk' : ∀ t, r'.k.answer t ≠ .err := by rw [mv.answer]; exact hk
    unfold nexts
    simp only [e, Option.bind_eq_bind, Option.bind_some]
    cases nx with
    | error q1 q2 q3 =>
      obtain ⟨t, _, _, ht⟩ := q1
      exact absurd ht (hk t)
    | line l q1 q2 q3 q4 =>
      have hlast' : r'.unread = [] ∨ r'.unread.getLast? = some 0x0A := by
        by_cases hz : r'.unread = []
        · exact .inl hz
        · rcases hlast with z | z
          · rw [q2] at z
            simp at z
          · obtain ⟨a, t, ht⟩ := List.exists_cons_of_ne_nil hz
            rw [q2, ht] at z
            rw [ht]
            exact .inr (by simpa using z)
      obtain ⟨xs, r2, e2, hx⟩ := ih ok' hk' hlast'
      have ha : answers (n + 1) r.offset r.unread = (.some l, r.offset) :: answers n r'.offset r'.unread := by
        rw [q2, q4]
        have : ∃ b t, l ++ 0x0A :: r'.unread = b :: t := by
          cases l with
          | nil => exact ⟨_, _, rfl⟩
          | cons a l => exact ⟨_, _, rfl⟩
        obtain ⟨b, t, hbt⟩ := this
        have htw := takeWhile_line (t := r'.unread) q1
        rw [hbt] at htw ⊢
        simp only [answers, htw]
        rw [← hbt, List.drop_append, List.drop_eq_nil_iff.2 (by omega), List.nil_append,
          show l.length + 1 - l.length = 1 by omega]
        rfl
      refine ⟨_, r2, by rw [e2]; rfl, ?_⟩
      rw [ha, hx, q3, List.cons_append, List.length_cons, Nat.add_sub_add_right]
      have hlen := congrArg List.length q2
      rw [List.length_append, List.length_cons] at hlen
      have : r'.offset + r'.unread.length = r.offset + r.unread.length := by omega
      rw [this]
    | eof q1 q2 q3 q4 =>
      obtain ⟨xs, r2, e2, hx⟩ := ih ok' hk' (.inl q2)
      refine ⟨_, r2, by rw [e2]; rfl, ?_⟩
      have hz : ∀ m p, answers m p [] = [] := by
        intro m p
        cases m <;> rfl
      rw [q1, hz, hx, q2, hz, q3, q4]
      simp [List.replicate_succ]
    | last q1 q2 q3 q4 q5 =>
      exfalso
      rcases hlast with z | z
      · exact q1 z
      · exact q2 (List.mem_of_getLast? z)

/-- C46 with errors: a call that reports an error loses nothing, so the next one returns what it should have. -/
theorem C46_error {r r' : RLB} (h : r.Ok) (e : r.next = some (.error, r')) :
    Failed r.k r'.k ∧ r'.unread = r.unread ∧ r'.offset = r.offset := by
  obtain ⟨x, r2, e2, _, nx, _⟩ := C46_next h
  rw [e] at e2
  simp only [Option.some.injEq, Prod.mk.injEq] at e2
  obtain ⟨rfl, rfl⟩ := e2
  cases nx with
  | error q1 q2 q3 => exact ⟨q1, q2, q3⟩

/-- C46 fails if the last line has no newline: it is returned again and again, `EOF` never. -/
theorem C46_last_violation (n : Nat) {r : RLB} (h : r.Ok) (hk : ∀ t, r.k.answer t ≠ .err) (hne : r.unread ≠ [])
    (hl : 0x0A ∉ r.unread) :
    ∃ r', nexts r n = some (List.replicate n (.some r.unread, r.offset), r') := by
  induction n generalizing r with
  | zero => exact ⟨r, rfl⟩
  | succ n ih =>
    obtain ⟨x, r', e, ok', nx, mv⟩ := C46_next h
    unfold nexts
    simp only [e, Option.bind_eq_bind, Option.bind_some]
    cases nx with
    | error q1 q2 q3 =>
      obtain ⟨t, _, _, ht⟩ := q1
      exact absurd ht (hk t)
    | line l q1 q2 q3 q4 => exact absurd (by rw [q2]; simp) hl
    | eof q1 q2 q3 q4 => exact absurd q1 hne
    | last q1 q2 q3 q4 q5 =>
      obtain ⟨r2, e2⟩ := ih ok' (by rw [mv.answer]; exact hk) (q3 ▸ hne) (q3 ▸ hl)
      refine ⟨r2, ?_⟩
      rw [e2, q4, q3, q5]
      rfl

/-! ## Examples -/

/-- "a\n\nbc\n" from a kernel that delivers at most two bytes at a time. -/
def exampleFile (l : List UInt8) : Kernel := ⟨l, 0, true, [], 0, fun _ => .upTo 1⟩

example : ((RLB.new (exampleFile [97, 10, 10, 98, 99, 10])).seek 0).1 = 0 := by decide +kernel

example : answers 5 0 [97, 10, 10, 98, 99, 10] = [(.some [97], 0), (.some [], 2), (.some [98, 99], 3)] := by decide +kernel

/-- The file "a\n\nbc\n", delivered one byte at a time, read by four calls. -/
example : ∃ r', nexts ((RLB.new (exampleFile [97, 10, 10, 98, 99, 10])).seek 0).2 4
    = some ([(.some [97], 0), (.some [], 2), (.some [98, 99], 3), (.eof, 6)], r') := by
  obtain ⟨r, e, ok, un, off, mv⟩ := C46_seek (exampleFile [97, 10, 10, 98, 99, 10]) rfl 0 (by decide)
  obtain ⟨xs, r', e1, e2⟩ := C46_lines_partial 4 ok (by rw [mv.answer]; exact fun _ => nofun) (.inr (by rw [un]; rfl))
  refine ⟨r', ?_⟩
  rw [e]
  rw [e1, e2, un, off]
  have : ∀ x y : List (Line × Nat), x = y → some (x, r') = some (y, r') := by
    rintro x _ rfl
    rfl
  exact this _ _ (by decide +kernel)

/-- A file that ends without newline. -/
example : answers 5 0 [97, 10, 98] = [(.some [97], 0), (.some [98], 2)] := by decide +kernel

end Verif.Netdb
