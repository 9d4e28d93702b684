import Verif.Stdio.StreamModel
import Verif.Stdlib.SortProps
import Verif.Stdlib.AllocProps
/-!
# Reading from a stream: specification and lemmas (C36, C38, C39)
-/

namespace Verif.Stdio
open Verif.Mem Verif.Stdlib

/-! ## Specification -/

/-- The bytes in the read buffer that were not consumed. -/
def FILE.slice (f : FILE) : List UInt8 := (f.buffer.bytes.take f.readSize).drop f.readPos

/-- The bytes still to come from a stream: those pushed back, last one first, those in the buffer, and those the
descriptor has not yet given out. -/
def FILE.rest (f : FILE) : List UInt8 := f.unget ++ f.slice ++ f.k.data.drop f.k.pos

/-- The stream has a buffer, or will have one, and its indices are in range. True of a new stream, and kept by all
functions; `setvbuf` with `_IONBF` breaks it (`C36_unbuffered_violation`). -/
structure FILE.ReadOk (f : FILE) : Prop where
  order : f.readPos ≤ f.readSize
  bound : f.readSize ≤ f.buffer.bytes.length
  room : f.buffer = .uninit ∨ f.buffer.bytes ≠ []

/-- The kernel reported an error between the two states. -/
def KernelError (f f' : FILE) : Prop := ∃ t, f.k.time ≤ t ∧ t < f'.k.time ∧ f.k.answer t = .err

/-- The position in the file of the next byte to come. -/
def FILE.offset (f : FILE) : Int := f.k.pos - f.slice.length - f.unget.length

/-- The buffer holds the bytes of the file just before the offset of the descriptor. -/
structure FILE.Synced (f : FILE) : Prop where
  before : f.slice.length ≤ f.k.pos
  same : f.k.data.drop (f.k.pos - f.slice.length) = f.slice ++ f.k.data.drop f.k.pos

/-- From `f` to `f'` the bytes `out` were taken from the front of what the stream has to give, and nothing else
happened to its contents. -/
structure Took (f : FILE) (out : List UInt8) (f' : FILE) : Prop where
  ok : f'.ReadOk
  rest : f.rest = out ++ f'.rest
  writer : f'.writer = f.writer
  data : f'.k.data = f.k.data
  log : f'.k.log = f.k.log
  answer : f'.k.answer = f.k.answer
  seekable : f'.k.seekable = f.k.seekable
  time : f.k.time ≤ f'.k.time
  offset : f'.offset = f.offset + out.length
  synced : f.Synced → f'.Synced
  unget : f'.unget <:+ f.unget

/-- The stream stopped giving bytes for a reason: it is at its end, or the kernel reported an error; `feof` or `ferror`
tells. -/
def Stopped (f f' : FILE) : Prop := f'.rest = [] ∧ feof f' ≠ 0 ∨ KernelError f f' ∧ ferror f' ≠ 0

/-! ## Lemmas -/

theorem flag_or (x b : UInt32) : (x ||| b) &&& b = b := by
  apply UInt32.toBitVec_inj.1
  apply BitVec.eq_of_getLsbD_eq
  intro i hi
  simp only [UInt32.toBitVec_and, UInt32.toBitVec_or, BitVec.getLsbD_and, BitVec.getLsbD_or]
  cases x.toBitVec.getLsbD i <;> cases b.toBitVec.getLsbD i <;> rfl

/-- The kernel after a call that transferred nothing. -/
def tick (k : Kernel) : Kernel := { k with time := k.time + 1 }

/-- What `fill_buf` may do. -/
inductive Filled (f f' : FILE) : Option (List UInt8) → Prop
  | have : f.slice ≠ [] → f'.slice = f.slice → f'.k = f.k → f'.flags = f.flags → Filled f f' (some f.slice)
  | err : f.slice = [] → f'.slice = [] → f.k.answer f.k.time = .err → f'.k = tick f.k → f'.flags = f.flags ||| F_ERR →
      Filled f f' none
  | eof : f.slice = [] → f'.slice = [] → f.k.data.drop f.k.pos = [] → f'.k = tick f.k → f'.flags = f.flags ||| F_EOF →
      Filled f f' (some [])
  | read (l : List UInt8) : f.slice = [] → f'.slice = l → l ≠ [] →
      f.k.data.drop f.k.pos = l ++ f.k.data.drop (f.k.pos + l.length) →
      f'.k = { f.k with pos := f.k.pos + l.length, time := f.k.time + 1 } → f'.flags = f.flags → Filled f f' (some l)

theorem ReadOk.slice_nil {f : FILE} (h : f.ReadOk) : f.slice = [] ↔ f.readPos = f.readSize := by
  have h1 := h.order
  have h2 := h.bound
  unfold FILE.slice
  rw [← List.length_eq_zero_iff, List.length_drop, List.length_take]
  omega

theorem ReadOk.length {f : FILE} (h : f.ReadOk) : f.slice.length = f.readSize - f.readPos := by
  have h1 := h.order
  have h2 := h.bound
  unfold FILE.slice
  rw [List.length_drop, List.length_take]
  omega

theorem initBuffer_ok {f : FILE} (h : f.ReadOk) :
    f.initBuffer.ReadOk ∧ f.initBuffer.slice = f.slice ∧ f.initBuffer.k = f.k ∧ f.initBuffer.flags = f.flags
      ∧ f.initBuffer.unget = f.unget ∧ f.initBuffer.writer = f.writer ∧ f.initBuffer.buffer.bytes ≠ []
      ∧ ∃ l, f.initBuffer.buffer = .mem l := by
  obtain ⟨h1, h2, h3⟩ := h
  unfold FILE.initBuffer FILE.slice
  cases hb : f.buffer with
  | uninit =>
    rw [hb] at h2
    simp only [Buffer.bytes, List.length_nil, Nat.le_zero_eq] at h2
    have h1' : f.readPos = 0 := by omega
    simp only [Buffer.bytes]
    refine ⟨⟨h1, by simp only [Buffer.bytes]; omega, Or.inr (by simp only [Buffer.bytes]; exact List.replicate_succ ▸ List.cons_ne_nil _ _)⟩,
      ?_, trivial, trivial, trivial, trivial, List.replicate_succ ▸ List.cons_ne_nil _ _, ⟨_, rfl⟩⟩
    rw [h2, h1']
    rfl
  | mem l =>
    rw [hb] at h3
    simp only [Buffer.bytes, reduceCtorEq, false_or] at h3
    simp only [hb, Buffer.bytes]
    exact ⟨⟨h1, h2, Or.inr (by rw [hb]; exact h3)⟩, trivial, trivial, trivial, trivial, trivial, h3, ⟨l, rfl⟩⟩
  | unbuffered =>
    rw [hb] at h3
    simp [Buffer.bytes] at h3

theorem fillBuf_spec {f : FILE} (h : f.ReadOk) :
    ∃ r f', f.fillBuf = some (r, f') ∧ Filled f f' r ∧ f'.ReadOk ∧ f'.unget = f.unget ∧ f'.writer = f.writer := by
  obtain ⟨i1, i2, i3, i4, i5, i6, i7, l0, i8⟩ := initBuffer_ok h
  unfold FILE.fillBuf
  generalize f.initBuffer = g at *
  unfold FILE.refill
  by_cases hp : g.readPos = g.readSize
  · rw [if_pos hp]
    have hs : f.slice = [] := by rw [← i2]; exact (ReadOk.slice_nil i1).2 hp
    unfold Kernel.read
    rw [i3]
    cases ha : f.k.answer f.k.time with
    | err =>
      refine ⟨none, _, rfl, .err hs ?_ ha rfl (by rw [i4]), ⟨i1.order, i1.bound, i1.room⟩, i5, i6⟩
      rw [← hs, ← i2]
      rfl
    | upTo n =>
      simp only
      cases hl : List.take (min g.buffer.bytes.length (n + 1)) (List.drop f.k.pos f.k.data) with
      | nil =>
        have hd : List.drop f.k.pos f.k.data = [] := by
          rw [List.take_eq_nil_iff] at hl
          rcases hl with hl | hl
          · have := List.length_pos_iff.2 i7
            omega
          · exact hl
        simp only
        rw [if_pos ⟨Nat.le_refl _, Nat.zero_le _⟩]
        refine ⟨some [], _, rfl, .eof hs ?_ hd ?_ (by rw [i4]), ⟨Nat.le_refl _, Nat.zero_le _, i1.room⟩, i5, i6⟩
        · rfl
        · rfl
      | cons b l =>
        have hlen : (b :: l).length ≤ g.buffer.bytes.length := by
          rw [← hl, List.length_take]
          omega
        rw [i8] at hlen ⊢
        simp only [Buffer.fill, Buffer.bytes] at hlen ⊢
        have hsl : List.drop 0 (List.take (b :: l).length ((b :: l) ++ List.drop (b :: l).length l0)) = b :: l := by
          rw [List.drop_zero, List.take_append_of_le_length (Nat.le_refl _), List.take_length]
        generalize hg : ({ g with
          k := { f.k with pos := f.k.pos + (b :: l).length, time := f.k.time + 1 },
          buffer := Buffer.mem (b :: l ++ List.drop (b :: l).length l0), readPos := 0,
          readSize := (b :: l).length } : FILE) = g'
        refine ⟨some (b :: l), g', (if_pos ⟨Nat.zero_le _, by rw [List.length_append]; omega⟩).trans (by rw [hsl]), .read (b :: l) hs (hg ▸ hsl) (List.cons_ne_nil _ _) ?_ (hg ▸ rfl)
          (hg ▸ i4), hg ▸ ⟨Nat.zero_le _, ?_, Or.inr ?_⟩, hg ▸ i5, hg ▸ i6⟩
        · rw [← List.drop_drop, ← hl]
          conv => lhs; rw [← List.take_append_drop (min g.buffer.bytes.length (n + 1)) (List.drop f.k.pos f.k.data)]
          rw [hl]
          congr 1
          rw [← hl, List.length_take, List.drop_eq_drop_iff, i8]
          simp only [Buffer.bytes]
          omega
        · simp only [Buffer.bytes, List.length_append]
          omega
        · simp [Buffer.bytes]
  · rw [if_neg hp]
    simp only
    rw [if_pos ⟨i1.order, i1.bound⟩]
    have hs : f.slice ≠ [] := by rw [← i2]; exact fun e => hp ((ReadOk.slice_nil i1).1 e)
    have e : List.drop g.readPos (List.take g.readSize g.buffer.bytes) = f.slice := i2
    rw [e]
    exact ⟨some f.slice, g, rfl, .have hs i2 i3 i4, i1, i5, i6⟩

theorem consume_ok {f : FILE} (h : f.ReadOk) (i : Nat) (hi : i ≤ f.slice.length) :
    (f.consume i).ReadOk ∧ (f.consume i).slice = f.slice.drop i := by
  have hl := ReadOk.length h
  have ho := h.order
  unfold FILE.consume FILE.slice
  rw [Nat.min_eq_left (by omega)]
  refine ⟨⟨by simp only; omega, h.bound, h.room⟩, ?_⟩
  rw [List.drop_drop]

theorem Took.refl {f : FILE} (h : f.ReadOk) : Took f [] f :=
  ⟨h, rfl, rfl, rfl, rfl, rfl, rfl, Nat.le_refl _, by simp, id, List.suffix_rfl⟩

theorem Took.trans {f g h : FILE} {a b : List UInt8} (x : Took f a g) (y : Took g b h) : Took f (a ++ b) h :=
  ⟨y.ok, by rw [x.rest, y.rest, List.append_assoc], y.writer.trans x.writer, y.data.trans x.data, y.log.trans x.log,
    y.answer.trans x.answer, y.seekable.trans x.seekable, Nat.le_trans x.time y.time,
    by rw [y.offset, x.offset, List.length_append]; omega, fun e => y.synced (x.synced e),
    y.unget.trans x.unget⟩

theorem KernelError.after {f g h : FILE} {a : List UInt8} (x : Took f a g) (y : KernelError g h) : KernelError f h := by
  obtain ⟨t, t1, t2, t3⟩ := y
  exact ⟨t, Nat.le_trans x.time t1, t2, by rw [← x.answer]; exact t3⟩

theorem Stopped.after {f g h : FILE} {a : List UInt8} (x : Took f a g) (y : Stopped g h) : Stopped f h :=
  y.imp id (And.imp_left (KernelError.after x))

/-- `fill_buf` takes nothing. -/
theorem Filled.took {f f' : FILE} {r : Option (List UInt8)} (h : Filled f f' r) (ok : f'.ReadOk)
    (hu : f'.unget = f.unget) (hw : f'.writer = f.writer) : Took f [] f' := by
  cases h with
  | «have» h1 h2 h3 h4 =>
    refine ⟨ok, ?_, hw, by rw [h3], by rw [h3], by rw [h3], by rw [h3], by rw [h3]; omega, ?_, ?_, hu ▸ List.suffix_rfl⟩
    · simp [FILE.rest, h2, h3, hu]
    · simp [FILE.offset, h2, h3, hu]
    · exact fun s => ⟨by rw [h2, h3]; exact s.before, by rw [h2, h3]; exact s.same⟩
  | err h1 h2 h3 h4 h5 =>
    refine ⟨ok, ?_, hw, by rw [h4, tick], by rw [h4, tick], by rw [h4, tick], by rw [h4, tick], by rw [h4, tick]; simp only; omega, ?_, ?_, hu ▸ List.suffix_rfl⟩
    · simp [FILE.rest, h1, h2, h4, hu, tick]
    · simp [FILE.offset, h1, h2, h4, hu, tick]
    · exact fun s => ⟨by rw [h2]; exact Nat.zero_le _, by rw [h2]; simp⟩
  | eof h1 h2 h3 h4 h5 =>
    refine ⟨ok, ?_, hw, by rw [h4, tick], by rw [h4, tick], by rw [h4, tick], by rw [h4, tick], by rw [h4, tick]; simp only; omega, ?_, ?_, hu ▸ List.suffix_rfl⟩
    · simp [FILE.rest, h1, h2, h4, hu, tick]
    · simp [FILE.offset, h1, h2, h4, hu, tick]
    · exact fun s => ⟨by rw [h2]; exact Nat.zero_le _, by rw [h2]; simp⟩
  | read l h1 h2 h3 h4 h5 h6 =>
    refine ⟨ok, ?_, hw, by rw [h5], by rw [h5], by rw [h5], by rw [h5], by rw [h5]; simp only; omega, ?_, ?_, hu ▸ List.suffix_rfl⟩
    · simp only [FILE.rest, h1, h2, h5, hu]
      rw [h4]
      simp
    · simp only [FILE.offset, h1, h2, h5, hu, List.length_nil]
      omega
    · intro s
      refine ⟨by rw [h2, h5]; simp only; omega, ?_⟩
      rw [h2, h5]
      simp only [Nat.add_sub_cancel]
      exact h4

theorem consume_took {f : FILE} (h : f.ReadOk) (hu : f.unget = []) (i : Nat) (hi : i ≤ f.slice.length) :
    Took f (f.slice.take i) (f.consume i) := by
  obtain ⟨c1, c2⟩ := consume_ok h i hi
  have hk : (f.consume i).k = f.k := rfl
  have hv : (f.consume i).unget = f.unget := rfl
  refine ⟨c1, ?_, rfl, rfl, rfl, rfl, rfl, Nat.le_refl _, ?_, ?_, List.suffix_rfl⟩
  · rw [FILE.rest, FILE.rest, hv, hu, c2, hk]
    simp only [List.nil_append]
    rw [← List.append_assoc, List.take_append_drop]
  · rw [FILE.offset, FILE.offset, hv, hu, c2, hk, List.length_drop, List.length_take]
    omega
  · intro s
    have s1 := s.before
    refine ⟨by rw [c2, hk, List.length_drop]; omega, ?_⟩
    rw [c2, hk, List.length_drop]
    have e : f.k.pos - (f.slice.length - i) = f.k.pos - f.slice.length + i := by omega
    rw [e, ← List.drop_drop, s.same, List.drop_append_of_le_length hi]

theorem stop_eof {f f' : FILE} (h : Filled f f' (some [])) (hu : f'.unget = f.unget) (hn : f.unget = []) :
    (f'.rest = [] ∧ feof f' ≠ 0) ∧ f.rest = [] := by
  generalize hr : some ([] : List UInt8) = r at h
  cases h with
  | «have» h1 =>
    injection hr with hr
    exact absurd hr.symm h1
  | err => cases hr
  | eof h1 h2 h3 h4 h5 =>
    refine ⟨⟨?_, ?_⟩, ?_⟩
    · simp [FILE.rest, h2, h4, tick, h3, hu, hn]
    · rw [feof, h5, flag_or]
      decide
    · simp [FILE.rest, h1, h3, hn]
  | read l h1 h2 h3 =>
    injection hr with hr
    exact absurd hr.symm h3

theorem stop_err {f f' : FILE} (h : Filled f f' none) : KernelError f f' ∧ ferror f' ≠ 0 := by
  cases h with
  | err h1 h2 h3 h4 h5 =>
    refine ⟨⟨f.k.time, Nat.le_refl _, ?_, h3⟩, ?_⟩
    · rw [h4]
      exact Nat.lt_succ_self _
    · rw [ferror, h5, flag_or]
      decide

theorem filled_slice {f f' : FILE} {l : List UInt8} (h : Filled f f' (some l)) : f'.slice = l := by
  cases h with
  | «have» h1 h2 => exact h2
  | eof h1 h2 => exact h2
  | read l h1 h2 => exact h2

theorem filled_flags {f f' : FILE} {l : List UInt8} (h : Filled f f' (some l)) (hl : l ≠ []) : f'.flags = f.flags := by
  cases h with
  | «have» h1 h2 h3 h4 => exact h4
  | eof h1 h2 => exact absurd rfl hl
  | read l h1 h2 h3 h4 h5 h6 => exact h6

theorem read_spec {f : FILE} (h : f.ReadOk) {n : Nat} (hn : 0 < n) :
    ∃ r f', f.read n = some (r, f') ∧ Took f (r.getD []) f' ∧ (r.getD []).length ≤ n
      ∧ (r.getD [] = [] → Stopped f f') ∧ (r.getD [] ≠ [] → f'.flags = f.flags) := by
  unfold FILE.read
  by_cases hu : min n f.unget.length ≠ 0
  · simp only [if_pos hu]
    have hne : f.unget.take (min n f.unget.length) ≠ [] := by
      rw [← List.length_pos_iff, List.length_take]
      omega
    refine ⟨_, _, rfl, ⟨⟨h.order, h.bound, h.room⟩, ?_, rfl, rfl, rfl, rfl, rfl, Nat.le_refl _, ?_, fun s => ⟨s.before, s.same⟩,
      List.drop_suffix _ _⟩, ?_,
      fun e => absurd e hne, fun _ => rfl⟩
    · change f.unget ++ f.slice ++ _ = f.unget.take _ ++ (f.unget.drop _ ++ f.slice ++ _)
      rw [← List.append_assoc, ← List.append_assoc, List.take_append_drop]
    · change (f.k.pos : Int) - f.slice.length - (f.unget.drop _).length = (f.k.pos : Int) - f.slice.length - f.unget.length + (f.unget.take _).length
      rw [List.length_drop, List.length_take]
      omega
    · change (f.unget.take _).length ≤ n
      rw [List.length_take]
      omega
  · simp only [if_neg hu]
    have hu0 : f.unget = [] := by
      rw [← List.length_eq_zero_iff]
      omega
    obtain ⟨r, g, e, hf, ok, hug, hw⟩ := fillBuf_spec h
    simp only [e, Option.bind_eq_bind, Option.bind_some]
    have t := hf.took ok hug hw
    cases r with
    | none => exact ⟨none, g, rfl, t, Nat.zero_le _, fun _ => .inr (stop_err hf), fun e => absurd rfl e⟩
    | some l =>
      have hs := filled_slice hf
      have hlen : (l.take n).length ≤ g.slice.length := by
        rw [hs, List.length_take]
        omega
      have c := consume_took ok (hug.trans hu0) _ hlen
      have e2 : g.slice.take (l.take n).length = l.take n := by
        rw [hs, List.length_take, List.take_eq_take_iff]
        omega
      rw [e2] at c
      refine ⟨some (l.take n), _, rfl, t.trans c, ?_, ?_, ?_⟩
      · change (l.take n).length ≤ n
        rw [List.length_take]
        omega
      · intro hz
        have hl : l = [] := by
          rcases List.take_eq_nil_iff.1 hz with hz | hz
          · omega
          · exact hz
        subst hl
        have st := (stop_eof hf hug hu0).1
        refine .inl ⟨?_, st.2⟩
        have := c.rest
        rw [st.1] at this
        simpa using this.symm
      · intro hz
        have hl : l ≠ [] := fun hl => hz (by simp [hl])
        exact (filled_flags hf hl : g.flags = f.flags)

theorem _root_.Verif.Mem.Mapped.part {α : Type} {m : Mem α} {p n k j : Nat} (h : Mapped m p n) (e : k + j ≤ n) :
    Mapped m (p + k) j := by
  intro i hi
  have := h (k + i) (by omega)
  rwa [← Nat.add_assoc] at this

theorem patch_step {m : Mem UInt8} {p : Nat} {a b : List UInt8} :
    patch (patch m p a) (p + a.length) b = patch m p (a ++ b) := patch_append ..

theorem freadLoop_spec (k : Nat) {m : Mem UInt8} {ptr len read : Nat} {f : FILE} (h : f.ReadOk) (hk : len - read ≤ k)
    (hr : read ≤ len) (hm : Mapped m ptr len) :
    ∃ out f', freadLoop m ptr len read f = some (read + out.length, patch m (ptr + read) out, f') ∧ Took f out f'
      ∧ read + out.length ≤ len ∧ (read + out.length < len → Stopped f f') := by
  induction k generalizing m read f with
  | zero =>
    unfold freadLoop
    rw [if_neg (by omega)]
    exact ⟨[], f, by simp, .refl h, by simpa using hr, fun e => by simp at e; omega⟩
  | succ k ih =>
    unfold freadLoop
    by_cases hlt : read < len
    · rw [if_pos hlt]
      obtain ⟨r, g, e, t, hl, hs, hfl⟩ := read_spec h (n := len - read) (by omega)
      simp only [e, Option.bind_eq_bind, Option.bind_some]
      match r, t, hl, hs with
      | none, t, _, hs => exact ⟨[], g, by simp, t, by simpa using hr, fun _ => hs rfl⟩
      | some [], t, _, hs => exact ⟨[], g, by simp, t, by simpa using hr, fun _ => hs rfl⟩
      | some (b :: l), t, hl, _ =>
        simp only [Option.getD_some] at t hl
        have hw : writeN m (ptr + read) (b :: l) = some (patch m (ptr + read) (b :: l)) :=
          writeN_eq (hm.part (by omega))
        simp only [hw, Option.bind_some]
        obtain ⟨out, f', e1, t1, l1, s1⟩ := ih (m := patch m (ptr + read) (b :: l)) (read := read + (b :: l).length) t.ok
          (by simp only [List.length_cons]; omega) (by omega) (mapped_patch hm)
        refine ⟨(b :: l) ++ out, f', ?_, t.trans t1, ?_, ?_⟩
        · rw [e1, ← Nat.add_assoc ptr, patch_step, List.length_append, Nat.add_assoc]
        · rw [List.length_append]; omega
        · intro q
          rw [List.length_append] at q
          exact (s1 (by omega)).after t
    · rw [if_neg hlt]
      exact ⟨[], f, by simp, .refl h, by simpa using hr, fun e => by simp at e; omega⟩

/-! ## Lines -/

/-- `out` is what a line reader with room for `n` bytes has to deliver from `l`: the bytes up to and including the first
newline, at most `n`, or all of them. -/
structure LineOf (n : Nat) (l out : List UInt8) : Prop where
  front : out <+: l
  room : out.length ≤ n
  newline : 0x0A ∉ out.dropLast
  most : out.length = n ∨ out.getLast? = some 0x0A ∨ out = l

theorem findIdx?_newline {l : List UInt8} {d : UInt8} {i : Nat} (h : l.findIdx? (· == d) = some i) :
    i < l.length ∧ (l.take (i + 1)).getLast? = some d ∧ d ∉ (l.take (i + 1)).dropLast := by
  rw [List.findIdx?_eq_some_iff_getElem] at h
  obtain ⟨h1, h2, h3⟩ := h
  have e : l.take (i + 1) = l.take i ++ [d] := by
    rw [List.take_add_one, List.getElem?_eq_getElem h1]
    simp only [beq_iff_eq] at h2
    rw [h2]
    rfl
  refine ⟨h1, by simp [e], ?_⟩
  rw [e, List.dropLast_concat]
  intro hm
  obtain ⟨j, hj, ej⟩ := List.getElem_of_mem hm
  rw [List.length_take] at hj
  have := h3 j (by omega)
  rw [List.getElem_take] at ej
  simp [ej] at this

theorem findIdx?_none {l : List UInt8} {d : UInt8} (h : l.findIdx? (· == d) = none) : d ∉ l := by
  rw [List.findIdx?_eq_none_iff] at h
  intro hm
  simpa using h d hm

theorem not_mem_dropLast_append {d : UInt8} {a b : List UInt8} (ha : d ∉ a) (hb : d ∉ b.dropLast) :
    d ∉ (a ++ b).dropLast := by
  cases b with
  | nil =>
    rw [List.append_nil]
    exact fun h => ha (List.dropLast_subset _ h)
  | cons x b =>
    rw [List.dropLast_append_of_ne_nil (List.cons_ne_nil _ _)]
    intro h
    rcases List.mem_append.1 h with h | h
    · exact ha h
    · exact hb h

theorem getLast?_append' {a b : List UInt8} (hb : b ≠ []) : (a ++ b).getLast? = b.getLast? := by
  rw [List.getLast?_append]
  cases h : b.getLast? with
  | none => exact absurd (List.getLast?_eq_none_iff.1 h) hb
  | some x => rfl

theorem fgetsLoop_spec (k : Nat) {m : Mem UInt8} {o left : Nat} {w : Bool} {f : FILE} (h : f.ReadOk)
    (hu : left = 0 ∨ f.unget = []) (hk : left ≤ k) (hm : Mapped m o left) :
    ∃ out r f', fgetsLoop m o left w f = some (r, patch m o out, f') ∧ Took f out f' ∧ out.length ≤ left
      ∧ 0x0A ∉ out.dropLast
      ∧ (r = none ∧ KernelError f f' ∧ ferror f' ≠ 0
        ∨ r = some (o + out.length, w || !out.isEmpty)
          ∧ (out.length = left ∨ out.getLast? = some 0x0A ∨ f'.rest = [] ∧ feof f' ≠ 0)) := by
  induction k generalizing m o left w f with
  | zero =>
    unfold fgetsLoop
    rw [if_pos (by omega)]
    refine ⟨[], _, f, by rw [patch_nil], .refl h, Nat.zero_le _, by simp, .inr ⟨by simp, .inl ?_⟩⟩
    simp only [List.length_nil]
    omega
  | succ k ih =>
    unfold fgetsLoop
    by_cases h0 : left = 0
    · rw [if_pos h0]
      exact ⟨[], _, f, by rw [patch_nil], .refl h, Nat.zero_le _, by simp, .inr ⟨by simp, .inl (by simp [h0])⟩⟩
    · rw [if_neg h0]
      have hu := hu.resolve_left h0
      obtain ⟨r, g, e, hf, ok, hug, hw⟩ := fillBuf_spec h
      simp only [e, Option.bind_eq_bind, Option.bind_some]
      have t := hf.took ok hug hw
      match r, hf with
      | none, hf =>
        exact ⟨[], none, g, by rw [patch_nil], t, Nat.zero_le _, by simp, .inl ⟨rfl, stop_err hf⟩⟩
      | some [], hf =>
        exact ⟨[], some (o, w), g, by rw [patch_nil], t, Nat.zero_le _, by simp,
          .inr ⟨by simp, .inr (.inr (stop_eof hf hug hu).1)⟩⟩
      | some (b :: l), hf =>
        have hs := filled_slice hf
        simp only
        generalize hseg : List.take (min (b :: l).length left) (b :: l) = seg
        have hlen : seg.length = min (b :: l).length left := by
          rw [← hseg, List.length_take]
          omega
        have hpos : 0 < seg.length := by
          rw [hlen]
          simp only [List.length_cons]
          omega
        have c : ∀ i, i ≤ seg.length → Took g (seg.take i) (g.consume i) := by
          intro i hi
          have c := consume_took ok (hug.trans hu) i (by rw [hs]; omega)
          have e2 : g.slice.take i = seg.take i := by
            rw [hs, ← hseg, List.take_take, List.take_eq_take_iff]
            omega
          rwa [e2] at c
        cases hi : seg.findIdx? (· == 0x0A) with
        | some i =>
          obtain ⟨i1, i2, i3⟩ := findIdx?_newline hi
          have hl1 : (seg.take (i + 1)).length = i + 1 := by
            rw [List.length_take]
            omega
          have hwr := writeN_eq (m := m) (p := o) (l := seg.take (i + 1)) (hm.mono (by omega))
          simp only [hwr, Option.bind_some]
          refine ⟨seg.take (i + 1), _, _, rfl, t.trans (c (i + 1) (by omega)), by omega, i3, .inr ⟨?_, .inr (.inl i2)⟩⟩
          rw [hl1]
          have : (seg.take (i + 1)).isEmpty = false := by
            rw [List.isEmpty_eq_false_iff, ← List.length_pos_iff]
            omega
          rw [this]
          simp
        | none =>
          have hn := findIdx?_none hi
          have hwr := writeN_eq (m := m) (p := o) (l := seg) (hm.mono (by omega))
          simp only [hwr, Option.bind_some]
          have cs := c seg.length (Nat.le_refl _)
          rw [List.take_length] at cs
          have t2 := t.trans cs
          rw [List.nil_append] at t2
          obtain ⟨out, r, f', e1, t1, l1, n1, x1⟩ := ih (m := patch m o seg) (o := o + seg.length)
            (left := left - seg.length) (w := true) cs.ok (.inr (hug.trans hu)) (by omega)
            (mapped_patch (hm.part (by omega)))
          refine ⟨seg ++ out, r, f', ?_, t2.trans t1, by rw [List.length_append]; omega, not_mem_dropLast_append hn n1, ?_⟩
          · rw [e1, patch_step]
          · rcases x1 with ⟨q1, q2, q3⟩ | ⟨q1, q2⟩
            · exact .inl ⟨q1, q2.after t2, q3⟩
            · refine .inr ⟨?_, ?_⟩
              · rw [q1, List.length_append, Nat.add_assoc]
                have : (seg ++ out).isEmpty = false := by
                  rw [List.isEmpty_eq_false_iff, ← List.length_pos_iff, List.length_append]
                  omega
                rw [this]
                simp
              · rcases q2 with q2 | q2 | q2
                · left
                  rw [List.length_append]
                  omega
                · right
                  left
                  rw [getLast?_append' (by intro z; rw [z] at q2; cases q2), q2]
                · exact .inr (.inr q2)

theorem readUntil_spec (k : Nat) {d : UInt8} {acc : List UInt8} {f : FILE} (h : f.ReadOk) (hu : f.unget = [])
    (hk : f.rest.length < k) :
    ∃ out r f', readUntil d acc f = some (r, f') ∧ Took f out f'
      ∧ (r = none ∧ KernelError f f' ∧ ferror f' ≠ 0
        ∨ r = some (acc ++ out) ∧ d ∉ out.dropLast ∧ (out.getLast? = some d ∨ f'.rest = [] ∧ feof f' ≠ 0)
          ∧ (out.getLast? = some d → f'.flags = f.flags)) := by
  induction k generalizing acc f with
  | zero => omega
  | succ k ih =>
    unfold readUntil
    obtain ⟨r, g, e, hf, ok, hug, hw⟩ := fillBuf_spec h
    simp only [e, Option.bind_eq_bind, Option.bind_some]
    have t := hf.took ok hug hw
    cases r with
    | none => exact ⟨[], none, g, rfl, t, .inl ⟨rfl, stop_err hf⟩⟩
    | some l =>
      have hs := filled_slice hf
      have c : ∀ i, i ≤ l.length → Took g (l.take i) (g.consume i) := by
        intro i hi
        have c := consume_took ok (hug.trans hu) i (by rw [hs]; omega)
        rwa [hs] at c
      simp only
      cases hi : l.findIdx? (· == d) with
      | some i =>
        obtain ⟨i1, i2, i3⟩ := findIdx?_newline hi
        refine ⟨l.take (i + 1), _, _, rfl, t.trans (c (i + 1) (by omega)), .inr ⟨rfl, i3, .inl i2, fun _ => ?_⟩⟩
        exact (filled_flags hf (by rw [← List.length_pos_iff]; omega) : g.flags = f.flags)
      | none =>
        have hn := findIdx?_none hi
        have cs := c l.length (Nat.le_refl _)
        rw [List.take_length] at cs
        have t2 := t.trans cs
        rw [List.nil_append] at t2
        simp only
        by_cases hl : l.length = 0
        · rw [if_pos hl]
          have hl : l = [] := List.length_eq_zero_iff.1 hl
          subst hl
          have st := (stop_eof hf hug hu).1
          refine ⟨[], _, _, rfl, t2, .inr ⟨rfl, by simp, .inr ⟨?_, st.2⟩, fun e => by cases e⟩⟩
          have := cs.rest
          rw [st.1] at this
          simpa using this.symm
        · rw [if_neg hl]
          have hr := t2.rest
          have hr2 := congrArg List.length hr
          rw [List.length_append] at hr2
          obtain ⟨out, r, f', e1, t1, x1⟩ := ih (acc := acc ++ l) cs.ok (hug.trans hu) (by omega)
          refine ⟨l ++ out, r, f', e1, t2.trans t1, ?_⟩
          rcases x1 with ⟨q1, q2, q3⟩ | ⟨q1, q2, q3, q4⟩
          · exact .inl ⟨q1, q2.after t2, q3⟩
          · have hfl : (g.consume l.length).flags = f.flags :=
              (filled_flags hf (by rw [← List.length_pos_iff]; omega) : g.flags = f.flags)
            have hlast : (l ++ out).getLast? = some d → out.getLast? = some d := by
              intro z
              by_cases ho : out = []
              · rw [ho, List.append_nil] at z
                exact absurd (List.mem_of_getLast? z) hn
              · rwa [getLast?_append' ho] at z
            refine .inr ⟨by rw [q1, List.append_assoc], not_mem_dropLast_append hn q2, ?_,
              fun z => (q4 (hlast z)).trans hfl⟩
            rcases q3 with q3 | q3
            · left
              rw [getLast?_append' (by intro z; rw [z] at q3; cases q3), q3]
            · exact .inr q3

end Verif.Stdio
