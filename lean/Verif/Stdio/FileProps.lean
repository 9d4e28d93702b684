import Verif.Stdio.SeekProps
/-!
# A stream on a seekable file behaves like a file with a position (C67)
-/

namespace Verif.Stdio
open Verif.Mem Verif.Stdlib

/-- What the program did last: C allows output to follow input, and input to follow output, only after a change of
position or a flush; output may also follow input that met the end of the file. -/
inductive Mode where
  | neutral
  | reading
  | writing
deriving DecidableEq

/-- A file with a position. -/
structure PlainFile where
  data : List UInt8
  pos : Nat
  mode : Mode

/-- Calls on a stream open for reading and writing. -/
inductive FCall where
  | getc
  | putc (b : UInt8)
  | fread (ptr : Nat) (size nitems : UInt64)
  | fwrite (ptr : Nat) (size nitems : UInt64)
  | fputs (s : List UInt8)
  | fseek (off whence : Int)
  | ftell
  | fflush

/-- The bytes `l` put into the file. -/
def PlainFile.put (s : PlainFile) (l : List UInt8) : PlainFile :=
  ⟨overwrite s.data s.pos l, s.pos + l.length, .writing⟩

/-- The result of the call, the program's memory and the file after it; `none` = the program may not make this call
(order of reading and writing, memory it does not own), or the file would be larger than `2^63 - 1` bytes. -/
def PlainFile.call (m : Mem UInt8) (s : PlainFile) : FCall → Option (Int × Mem UInt8 × PlainFile)
  | .getc =>
    if s.mode = .writing then none
    else
      match s.data[s.pos]? with
      | some b => some (b.toNat, m, { s with pos := s.pos + 1, mode := .reading })
      | none => some (-1, m, { s with mode := .neutral })
  | .putc b =>
    if s.mode = .reading ∨ 2 ^ 63 ≤ s.pos + 1 then none else some (b.toNat, m, s.put [b])
  | .fread ptr size nitems =>
    let len := size.toNat * nitems.toNat
    if s.mode = .writing ∨ 2 ^ 64 ≤ len ∨ (readN m ptr len).isNone then none
    else if len = 0 then some (0, m, s)
    else
      let got := (s.data.drop s.pos).take len
      some ((got.length / size.toNat : Nat), patch m ptr got,
        { s with pos := s.pos + got.length, mode := if got.length < len then .neutral else .reading })
  | .fwrite ptr size nitems =>
    let len := size.toNat * nitems.toNat
    if s.mode = .reading ∨ 2 ^ 63 ≤ s.pos + len then none
    else
      match readN m ptr len with
      | some l => some (if size = 0 then 0 else nitems.toNat, m, s.put l)
      | none => none
  | .fputs l => if s.mode = .reading ∨ 2 ^ 63 ≤ s.pos + l.length then none else some (0, m, s.put l)
  | .fseek off whence =>
    if 0 ≤ whence ∧ whence ≤ 2 then
      let to := (if whence = 0 then 0 else if whence = 1 then (s.pos : Int) else s.data.length) + off
      if 0 ≤ to ∧ to < 2 ^ 63 then some (0, m, { s with pos := to.toNat, mode := .neutral })
      else some (-1, m, { s with mode := if s.mode = .writing then .neutral else s.mode })
    else none
  | .ftell => some (s.pos, m, s)
  | .fflush => some (0, m, { s with mode := if s.mode = .writing then .neutral else s.mode })

def PlainFile.run (m : Mem UInt8) (s : PlainFile) : List FCall → Option (List Int × Mem UInt8 × PlainFile)
  | [] => some ([], m, s)
  | c :: cs => do
    let (r, m, s) ← s.call m c
    let (rs, m, s) ← s.run m cs
    some (r :: rs, m, s)

/-- The call on a stream. -/
def FCall.run (m : Mem UInt8) (f : FILE) : FCall → Option (Int × Mem UInt8 × FILE)
  | .getc => do
    let (r, f) ← Stdio.getc f
    some (r, m, f)
  | .putc b => some ((Stdio.putc f (Int32.ofNat b.toNat)).1.toInt, m, (Stdio.putc f (Int32.ofNat b.toNat)).2)
  | .fread ptr size nitems => do
    let (r, m, f) ← Stdio.fread m ptr size nitems f
    some (r, m, f)
  | .fwrite ptr size nitems => do
    let (r, f) ← Stdio.fwrite m ptr size nitems f
    some (r, m, f)
  | .fputs l => some ((Stdio.fputs f l).1, m, (Stdio.fputs f l).2)
  | .fseek off whence => some ((Stdio.fseek f off whence).1, m, (Stdio.fseek f off whence).2)
  | .ftell => some ((Stdio.ftell f).1, m, (Stdio.ftell f).2)
  | .fflush => some ((Stdio.fflush f).1, m, (Stdio.fflush f).2)

def runCalls (m : Mem UInt8) (f : FILE) : List FCall → Option (List Int × Mem UInt8 × FILE)
  | [] => some ([], m, f)
  | c :: cs => do
    let (r, m, f) ← c.run m f
    let (rs, m, f) ← runCalls m f cs
    some (r :: rs, m, f)

/-- The stream stands for the file. -/
structure Stands (f : FILE) (s : PlainFile) : Prop where
  ok : f.ReadOk
  synced : f.Synced
  writer : f.writer.Ok
  unget : f.unget = []
  seekable : f.k.seekable = true
  kernel : ∀ t, f.k.answer t ≠ .err ∧ f.k.answer t ≠ .upTo 0
  data : f.content = s.data
  pos : f.offset + f.writer.pending.length = s.pos
  reading : s.mode ≠ .reading → f.slice = []
  writing : s.mode ≠ .writing → f.writer.pending = []
  small : s.data.length < 2 ^ 63
  near : s.pos < 2 ^ 63

theorem Stands.kpos {f : FILE} {s : PlainFile} (h : Stands f s) : f.k.pos < 2 ^ 63 := by
  have h1 := h.pos
  have h2 := h.small
  have h3 := h.near
  have h4 := h.data
  have hb := h.synced.before
  unfold FILE.offset at h1
  rw [h.unget] at h1
  simp only [List.length_nil] at h1
  by_cases hs : f.slice = []
  · rw [hs] at h1
    simp only [List.length_nil] at h1
    omega
  · have hp : f.writer.pending = [] := h.writing fun e => hs (h.reading (by rw [e]; decide))
    have hc : f.k.data = s.data := by rw [← h4, FILE.content, hp, overwrite_nil]
    have hd := congrArg List.length h.synced.same
    rw [List.length_drop, List.length_append, List.length_drop] at hd
    have := List.length_pos_iff.2 hs
    rw [hc] at hd
    omega

theorem overwrite_length (d : List UInt8) (p : Nat) (l : List UInt8) :
    (overwrite d p l).length ≤ max d.length (p + l.length) := by
  unfold overwrite
  split
  · omega
  · simp only [List.length_append, List.length_take, List.length_replicate, List.length_drop]
    omega

theorem stands_flushed {f g : FILE} {s : PlainFile} (h : Stands f s) (w : Wrote f [] g) (hp : g.writer.pending = []) :
    Stands g { s with mode := if s.mode = .writing then .neutral else s.mode } := by
  have hc := w.sent.content
  rw [overwrite_nil] at hc
  have hsl : g.slice = f.slice := w.accepted.slice
  have hun : g.unget = f.unget := w.unget
  have hpos := h.pos
  obtain ⟨a, pa, ea⟩ := w.sent.ex
  have hsame : f.slice ≠ [] → f.writer.pending = [] := fun hs => h.writing fun e => hs (h.reading (by rw [e]; decide))
  refine ⟨⟨by rw [w.readPos, w.readSize]; exact h.ok.order, by rw [w.buffer, w.readSize]; exact h.ok.bound,
      by rw [w.buffer]; exact h.ok.room⟩, ?_, w.ok, hun.trans h.unget, by rw [pa.seekable]; exact h.seekable,
    by rw [pa.answer]; exact h.kernel, hc.1.trans h.data, ?_, ?_, fun _ => hp, h.small, h.near⟩
  · by_cases hs : f.slice = []
    · exact ⟨by rw [hsl, hs]; exact Nat.zero_le _, by rw [hsl, hs]; simp⟩
    · have hq := hsame hs
      rw [hq] at ea
      have ha : a = [] := (List.append_eq_nil_iff.1 ea.symm).1
      subst ha
      have h1 : g.k.pos = f.k.pos := pa.pos
      have h2 : g.k.data = f.k.data := pa.data
      exact ⟨by rw [hsl, h1]; exact h.synced.before, by rw [hsl, h1, h2]; exact h.synced.same⟩
  · have := hc.2
    unfold FILE.offset at hpos ⊢
    rw [hsl, hun]
    simp only [List.length_nil] at this ⊢
    omega
  · intro hm
    rw [hsl]
    apply h.reading
    intro hr
    simp [hr] at hm

theorem stands_rest {f : FILE} {s : PlainFile} (h : Stands f s) (hm : s.mode ≠ .writing) :
    f.rest = s.data.drop s.pos := by
  have hp := h.writing hm
  have hpos := h.pos
  have hb := h.synced.before
  have hoff : f.offset = f.k.pos - f.slice.length := by
    unfold FILE.offset
    rw [h.unget]
    simp
  have hdata : f.k.data = s.data := by rw [← h.data, FILE.content, hp, overwrite_nil]
  have := h.synced.drop.1
  rw [h.unget] at this
  rw [FILE.rest, h.unget, List.nil_append, this, hdata]
  congr 1
  rw [hp] at hpos
  simp only [List.length_nil] at hpos ⊢
  omega

/-- At the end of the file nothing is buffered. -/
theorem slice_of_rest {f : FILE} (h : f.rest = []) : f.slice = [] := by
  unfold FILE.rest at h
  exact (List.append_eq_nil_iff.1 (List.append_eq_nil_iff.1 h).1).2

/-- Reading. -/
theorem stands_took {f f' : FILE} {s : PlainFile} (h : Stands f s) (hm : s.mode ≠ .writing) {out : List UInt8}
    (t : Took f out f') (mode : Mode) (hr : mode ≠ .reading → f'.slice = []) :
    Stands f' { s with pos := s.pos + out.length, mode := mode } := by
  have hp := h.writing hm
  have hdata : f.k.data = s.data := by rw [← h.data, FILE.content, hp, overwrite_nil]
  have hp' : f'.writer.pending = [] := by rw [t.writer, hp]
  have hpos := h.pos
  rw [hp] at hpos
  refine ⟨t.ok, t.synced h.synced, by rw [t.writer]; exact h.writer, ?_, by rw [t.seekable]; exact h.seekable,
    by rw [t.answer]; exact h.kernel, by rw [FILE.content, hp', overwrite_nil, t.data, hdata], ?_, hr, fun _ => hp', h.small, ?_⟩
  · have := t.unget
    rw [h.unget] at this
    exact List.suffix_nil.1 this
  · rw [t.offset, hp']
    simp only [List.length_nil] at hpos ⊢
    omega
  · have hl := congrArg List.length (t.rest.symm.trans (stands_rest h hm))
    rw [List.length_append, List.length_drop] at hl
    have := h.small
    have := h.near
    simp only
    omega

/-- Writing. -/
theorem stands_wrote {f f' : FILE} {s : PlainFile} (h : Stands f s) (hm : s.mode ≠ .reading) {l : List UInt8}
    (w : Wrote f l f') (hl : s.pos + l.length < 2 ^ 63) : Stands f' (s.put l) := by
  have hsl := h.reading hm
  have hpos := h.pos
  have hoff : f.offset = f.k.pos := by
    unfold FILE.offset
    rw [h.unget, hsl]
    simp
  have hc := w.sent.content
  have hp2 : f.k.pos + f.writer.pending.length = s.pos := by omega
  rw [hp2] at hc
  rw [h.data] at hc
  have hsl' : f'.slice = [] := by rw [w.accepted.slice, hsl]
  have hun' : f'.unget = [] := by rw [w.unget, h.unget]
  refine ⟨?_, ?_, w.ok, hun', ?_, ?_, hc.1, ?_, fun _ => hsl', fun z => absurd rfl z, ?_, hl⟩
  · have := h.ok
    exact ⟨by rw [w.readPos, w.readSize]; exact this.order, by rw [w.buffer, w.readSize]; exact this.bound,
      by rw [w.buffer]; exact this.room⟩
  · exact ⟨by rw [hsl']; exact Nat.zero_le _, by rw [hsl']; simp⟩
  · obtain ⟨a, p, _⟩ := w.sent.ex
    rw [p.seekable]
    exact h.seekable
  · rw [w.sent.answer]
    exact h.kernel
  · unfold FILE.offset PlainFile.put
    rw [hsl', hun']
    simp only [List.length_nil]
    have := hc.2
    omega
  · have := overwrite_length s.data s.pos l
    have := h.small
    simp only [PlainFile.put]
    omega

theorem fwrite_wrote {f : FILE} (hw : f.writer.Ok) {m : Mem UInt8} {ptr : Nat} {l : List UInt8} (hb : Bytes m ptr l)
    (size nitems : UInt64) (hn : l.length = size.toNat * nitems.toNat) (h64 : l.length < 2 ^ 64)
    (hr : ∀ k, ¬ Refused f.k k) :
    ∃ f', fwrite m ptr size nitems f = some (if size = 0 then 0 else nitems.toNat, f') ∧ Wrote f l f' := by
  unfold fwrite
  by_cases hz : size = 0 ∨ nitems = 0
  · rw [if_pos hz]
    have : l = [] := by
      apply List.length_eq_zero_iff.1
      rw [hn]
      rcases hz with e | e <;> rw [e] <;> simp
    subst this
    refine ⟨f, ?_, .refl hw⟩
    rcases hz with e | e
    · rw [if_pos e]
    · rw [e]
      split <;> rfl
  · rw [if_neg hz]
    have e : (size * nitems).toNat = l.length := by rw [UInt64.toNat_mul, ← hn, Nat.mod_eq_of_lt h64]
    rw [e, hb.readN]
    obtain ⟨acc, left, f', e1, s1, w1, r1, _⟩ := writeLoop_spec _ l hw (Nat.le_refl _)
    have hl : left = [] := Classical.byContradiction fun z => hr _ (r1 z)
    subst hl
    rw [List.append_nil] at s1
    subst s1
    simp only [Option.bind_eq_bind, Option.bind_some, e1]
    refine ⟨f', ?_, w1⟩
    have h0 : size ≠ 0 := fun z => hz (.inl z)
    have h1 : 0 < size.toNat := by
      apply Nat.pos_of_ne_zero
      intro z
      exact h0 (UInt64.toNat_inj.1 z)
    rw [if_neg h0, List.length_nil, Nat.sub_zero, hn, Nat.mul_div_cancel_left _ h1]

theorem stands_step {f : FILE} {s : PlainFile} (h : Stands f s) (c : FCall) {m m' : Mem UInt8} {r : Int} {s' : PlainFile}
    (e : s.call m c = some (r, m', s')) :
    ∃ f', c.run m f = some (r, m', f') ∧ Stands f' s' := by
  have hrefuse : ∀ {k : Kernel}, ¬ Refused f.k k := by
    rintro k ⟨t, _, _, ht⟩
    have := h.kernel t
    simp [this] at ht
  have hpos := h.pos
  have hoff : f.offset = f.k.pos - f.slice.length := by
    unfold FILE.offset
    rw [h.unget]
    simp
  have hb := h.synced.before
  cases c with
  | getc =>
    unfold PlainFile.call at e
    by_cases hm : s.mode = .writing
    · simp [hm] at e
    · simp only [if_neg hm] at e
      have hrest := stands_rest h hm
      obtain ⟨r1, f', e1, x⟩ := C36_getc h.ok
      refine ⟨f', ?_⟩
      rw [FCall.run, e1]
      cases hd : s.data[s.pos]? with
      | some b =>
        rw [hd] at e
        simp only [Option.some.injEq, Prod.mk.injEq] at e
        obtain ⟨rfl, rfl, rfl⟩ := e
        obtain ⟨hlt, hge⟩ := List.getElem?_eq_some_iff.1 hd
        have hcons : s.data.drop s.pos = b :: s.data.drop (s.pos + 1) := by
          rw [List.drop_eq_getElem_cons hlt, hge]
        rcases x with ⟨b', q1, q2, _⟩ | ⟨q1, q2, q3⟩
        · have hr := q2.rest
          rw [hrest, hcons] at hr
          injection hr with hbb _
          exact ⟨by rw [q1, hbb]; rfl, stands_took h hm q2 .reading fun z => absurd rfl z⟩
        · exfalso
          rcases q3 with q3 | q3
          · have := q2.rest
            rw [q3.1, hrest, hcons] at this
            cases this
          · obtain ⟨t, _, _, ht⟩ := q3.1
            exact (h.kernel t).1 ht
      | none =>
        rw [hd] at e
        simp only [Option.some.injEq, Prod.mk.injEq] at e
        obtain ⟨rfl, rfl, rfl⟩ := e
        have hnil : s.data.drop s.pos = [] := List.drop_eq_nil_iff.2 (List.getElem?_eq_none_iff.1 hd)
        rcases x with ⟨b', q1, q2, _⟩ | ⟨q1, q2, q3⟩
        · have hr := q2.rest
          rw [hrest, hnil] at hr
          cases hr
        · have hr := q2.rest
          rw [hrest, hnil, List.nil_append] at hr
          exact ⟨by rw [q1]; rfl, stands_took h hm q2 .neutral fun _ => slice_of_rest hr.symm⟩
  | putc b =>
    unfold PlainFile.call at e
    by_cases hm : s.mode = .reading ∨ 2 ^ 63 ≤ s.pos + 1
    · simp only [if_pos hm] at e
      cases e
    · simp only [if_neg hm, Option.some.injEq, Prod.mk.injEq] at e
      obtain ⟨rfl, rfl, rfl⟩ := e
      obtain ⟨r, f', e1, x⟩ := C37_putc h.writer (Int32.ofNat b.toNat) b (putc_char b)
      rcases x with x | x
      · have hr : r = Int32.ofNat b.toNat := x.1
        subst hr
        refine ⟨f', by rw [FCall.run, e1, putc_char], ?_⟩
        exact stands_wrote h (fun z => hm (.inl z)) (putc_wrote h.writer e1).2 (by simp only [List.length_cons, List.length_nil]; omega)
      · exact absurd x.2.2 hrefuse
  | fread ptr size nitems =>
    simp only [PlainFile.call] at e
    by_cases hm : s.mode = .writing ∨ 2 ^ 64 ≤ size.toNat * nitems.toNat ∨ (readN m ptr (size.toNat * nitems.toNat)).isNone
    · rw [if_pos hm] at e
      cases e
    · rw [if_neg hm] at e
      have hm1 : s.mode ≠ .writing := fun z => hm (.inl z)
      have hm2 : size.toNat * nitems.toNat < 2 ^ 64 := Nat.lt_of_not_le fun z => hm (.inr (.inl z))
      by_cases hz : size.toNat * nitems.toNat = 0
      · rw [if_pos hz] at e
        simp only [Option.some.injEq, Prod.mk.injEq] at e
        obtain ⟨rfl, rfl, rfl⟩ := e
        refine ⟨f, ?_, h⟩
        have : size = 0 ∨ nitems = 0 := by
          rcases Nat.mul_eq_zero.1 hz with z | z
          · exact .inl (UInt64.toNat_inj.1 z)
          · exact .inr (UInt64.toNat_inj.1 z)
        rw [FCall.run, fread, if_pos this]
        rfl
      · rw [if_neg hz] at e
        simp only [Option.some.injEq, Prod.mk.injEq] at e
        obtain ⟨rfl, rfl, rfl⟩ := e
        have hmap : Mapped m ptr (size.toNat * nitems.toNat) := by
          cases hr : readN m ptr (size.toNat * nitems.toNat) with
          | none => exact absurd (.inr (.inr (by rw [hr]; rfl))) hm
          | some l =>
            have := readN_some hr
            rw [← this.2]
            exact this.1.mapped
        obtain ⟨out, f', e1, t, l1, s1⟩ := C36_fread h.ok size nitems hm2 hmap
        have hrest := (stands_rest h hm1).symm.trans t.rest
        have hout : (s.data.drop s.pos).take (size.toNat * nitems.toNat) = out := by
          rw [hrest]
          by_cases hl : out.length < size.toNat * nitems.toNat
          · rcases s1 hl with q | q
            · rw [q.1, List.append_nil, List.take_of_length_le (by omega)]
            · obtain ⟨t, _, _, ht⟩ := q.1
              exact absurd ht (h.kernel t).1
          · rw [List.take_append_of_le_length (by omega), List.take_of_length_le (by omega)]
        rw [hout]
        refine ⟨f', by rw [FCall.run, e1]; rfl, stands_took h hm1 t _ fun z => ?_⟩
        by_cases hl : out.length < size.toNat * nitems.toNat
        · rcases s1 hl with q | q
          · exact slice_of_rest q.1
          · obtain ⟨t, _, _, ht⟩ := q.1
            exact absurd ht (h.kernel t).1
        · rw [if_neg hl] at z
          exact absurd rfl z
  | fwrite ptr size nitems =>
    simp only [PlainFile.call] at e
    by_cases hm : s.mode = .reading ∨ 2 ^ 63 ≤ s.pos + size.toNat * nitems.toNat
    · rw [if_pos hm] at e
      cases e
    · rw [if_neg hm] at e
      cases hr : readN m ptr (size.toNat * nitems.toNat) with
      | none =>
        rw [hr] at e
        cases e
      | some l =>
        rw [hr] at e
        simp only [Option.some.injEq, Prod.mk.injEq] at e
        obtain ⟨rfl, rfl, rfl⟩ := e
        have hb := readN_some hr
        have hlen : l.length = size.toNat * nitems.toNat := hb.2
        obtain ⟨f', e1, w⟩ := fwrite_wrote h.writer hb.1 size nitems hlen (by omega) fun _ => hrefuse
        refine ⟨f', by rw [FCall.run, e1]; simp only [Option.bind_eq_bind, Option.bind_some]; split <;> rfl,
          stands_wrote h (fun z => hm (.inl z)) w (by omega)⟩
  | fputs l =>
    unfold PlainFile.call at e
    by_cases hm : s.mode = .reading ∨ 2 ^ 63 ≤ s.pos + l.length
    · simp only [if_pos hm] at e
      cases e
    · simp only [if_neg hm, Option.some.injEq, Prod.mk.injEq] at e
      obtain ⟨rfl, rfl, rfl⟩ := e
      obtain ⟨acc, left, f', e1, s1, w1, r1, _⟩ := writeLoop_spec _ l h.writer (Nat.le_refl _)
      have hl : left = [] := Classical.byContradiction fun z => hrefuse (r1 z)
      subst hl
      rw [List.append_nil] at s1
      subst s1
      refine ⟨f', ?_, stands_wrote h (fun z => hm (.inl z)) w1 (by omega)⟩
      simp only [FCall.run, fputs, e1, ↓reduceIte]
  | fseek off whence =>
    unfold PlainFile.call at e
    by_cases hwh : 0 ≤ whence ∧ whence ≤ 2
    · simp only [if_pos hwh] at e
      have ht : target f off whence = (if whence = 0 then 0 else if whence = 1 then (s.pos : Int) else s.data.length) + off := by
        unfold target
        rw [ftell_eq h.ok h.seekable h.kpos, h.data, hpos]
      rw [← ht] at e
      have hkeep : ∀ {g : FILE}, Wrote f [] g → g.writer.pending = [] →
          Stands g { s with mode := if s.mode = .writing then .neutral else s.mode } := by
        intro g w hp
        exact stands_flushed h w hp
      rcases fseek_spec h.ok h.writer h.seekable h.kpos off whence (fun _ => h.unget) hwh with x | x | x
      · exact absurd x.2.2 hrefuse
      · rw [if_pos ⟨x.2.1, x.2.2.1⟩] at e
        simp only [Option.some.injEq, Prod.mk.injEq] at e
        obtain ⟨rfl, rfl, rfl⟩ := e
        have y := x.2.2.2
        refine ⟨(fseek f off whence).2, by rw [FCall.run, x.1], ⟨y.ok, y.synced, y.writer, y.unget, by rw [y.seekable]; exact h.seekable,
          by rw [y.answer]; exact h.kernel, ?_, ?_, fun _ => y.slice, fun _ => y.pending, h.small, ?_⟩⟩
        · rw [FILE.content, y.pending, overwrite_nil, y.data, h.data]
        · unfold FILE.offset
          rw [y.slice, y.unget, y.pending, y.pos]
          simp
        · simp only
          omega
      · rw [if_neg x.2.1] at e
        simp only [Option.some.injEq, Prod.mk.injEq] at e
        obtain ⟨rfl, rfl, rfl⟩ := e
        exact ⟨(fseek f off whence).2, by rw [FCall.run, x.1], hkeep x.2.2.1 x.2.2.2⟩
    · simp only [if_neg hwh] at e
      cases e
  | ftell =>
    simp only [PlainFile.call, Option.some.injEq, Prod.mk.injEq] at e
    obtain ⟨rfl, rfl, rfl⟩ := e
    refine ⟨f, ?_, h⟩
    rw [FCall.run, ftell_eq h.ok h.seekable h.kpos, hpos]
  | fflush =>
    simp only [PlainFile.call, Option.some.injEq, Prod.mk.injEq] at e
    obtain ⟨rfl, rfl, rfl⟩ := e
    obtain ⟨ok, g, e1, w, o, rf, _⟩ := file_flush f h.writer
    cases ok with
    | false => exact absurd (rf rfl) hrefuse
    | true =>
      refine ⟨g, ?_, stands_flushed h w (o.1 rfl)⟩
      rw [FCall.run, fflush, e1]

/-- C67: on a seekable file and a kernel that does not fail, every sequence of calls that C allows gives the results it
would give on a plain file with a position, and leaves the same memory: no buffering is visible. At the end the file,
with what is still buffered written out, has the contents of the plain file. -/
theorem C67_file (cs : List FCall) (m : Mem UInt8) (k : Kernel) (flags : UInt32) (hs : k.seekable = true)
    (hk : ∀ t, k.answer t ≠ .err ∧ k.answer t ≠ .upTo 0) (hl : k.data.length < 2 ^ 63) (hp : k.pos < 2 ^ 63)
    {rs : List Int} {m' : Mem UInt8} {s' : PlainFile}
    (e : PlainFile.run m ⟨k.data, k.pos, .neutral⟩ cs = some (rs, m', s')) :
    ∃ f', runCalls m (fdopen k flags) cs = some (rs, m', f') ∧ (fflush f').1 = 0 ∧ (fflush f').2.k.data = s'.data := by
  have main : ∀ {f : FILE} {m : Mem UInt8} {s : PlainFile} {rs : List Int}, Stands f s → s.run m cs = some (rs, m', s') →
      ∃ f', runCalls m f cs = some (rs, m', f') ∧ Stands f' s' := by
    clear e
    induction cs with
    | nil =>
      intro f m s rs h e
      cases e
      exact ⟨f, rfl, h⟩
    | cons c cs ih =>
      intro f m s rs h e
      unfold PlainFile.run at e
      cases h1 : s.call m c with
      | none => simp [h1] at e
      | some x =>
        obtain ⟨r, m1, s1⟩ := x
        cases h2 : s1.run m1 cs with
        | none => simp [h1, h2] at e
        | some y =>
          obtain ⟨rs2, m2, s2⟩ := y
          simp only [h1, h2, Option.bind_eq_bind, Option.bind_some, Option.some.injEq, Prod.mk.injEq] at e
          obtain ⟨rfl, rfl, rfl⟩ := e
          obtain ⟨f1, e1, st1⟩ := stands_step h c h1
          obtain ⟨f2, e2, st2⟩ := ih st1 h2
          exact ⟨f2, by simp [runCalls, e1, e2], st2⟩
  have h0 : Stands (fdopen k flags) ⟨k.data, k.pos, .neutral⟩ :=
    ⟨fdopen_ok k flags, fdopen_synced k flags, fdopen_writer k flags, rfl, hs, hk, rfl,
      by simp [FILE.offset, fdopen, FILE.slice, Buffer.bytes, Writer.pending],
      fun _ => by simp [fdopen, FILE.slice], fun _ => rfl, hl, hp⟩
  obtain ⟨f', e1, st⟩ := main h0 e
  refine ⟨f', e1, ?_⟩
  obtain ⟨ok, g, e2, w, o, rf, _⟩ := file_flush f' st.writer
  cases ok with
  | false =>
    obtain ⟨t, _, _, ht⟩ := rf rfl
    have := st.kernel t
    simp [this] at ht
  | true =>
    unfold fflush
    rw [e2]
    refine ⟨rfl, ?_⟩
    have := w.sent.content.1
    rw [FILE.content, o.1 rfl, overwrite_nil] at this
    rw [this, st.data]
    rfl

/-! ## Examples -/

/-- Reading, seeking back, overwriting across the end, and reading again. -/
def exampleCalls : List FCall :=
  [.getc, .getc, .ftell, .fseek (-1) 1, .putc 7, .fwrite 100 1 2, .ftell, .fseek 0 0, .getc, .fread 100 2 3, .getc]

example : PlainFile.run (ofList 100 [8, 9, 0, 0, 0, 0]) ⟨[1, 2, 3], 0, .neutral⟩ exampleCalls
    |>.map (fun r => (r.1, readN r.2.1 100 6, r.2.2.data))
    |> (· = some ([1, 2, 2, 0, 7, 2, 4, 0, 1, 1, -1], some [7, 8, 9, 0, 0, 0], [1, 7, 8, 9])) := by
  decide +kernel

/-- The program may not write right after reading. -/
example : PlainFile.run (fun _ => none) ⟨[1, 2, 3], 0, .neutral⟩ [.getc, .putc 5] |>.isNone := by decide +kernel

end Verif.Stdio
