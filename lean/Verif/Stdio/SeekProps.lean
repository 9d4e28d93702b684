import Verif.Stdio.WriteProps
/-!
# Position of a stream (C39), and streams as files with a position (C67)
-/

namespace Verif.Stdio
open Verif.Mem Verif.Stdlib

/-! ## Lemmas -/

theorem fdopen_synced (k : Kernel) (flags : UInt32) : (fdopen k flags).Synced :=
  ⟨Nat.zero_le _, by simp [fdopen, FILE.slice, Buffer.bytes]⟩

theorem FILE.Synced.drop {f : FILE} (h : f.Synced) :
    f.slice ++ f.k.data.drop f.k.pos = f.k.data.drop (f.offset + f.unget.length).toNat ∧ 0 ≤ f.offset + f.unget.length := by
  have h1 := h.before
  have e : (f.offset + f.unget.length).toNat = f.k.pos - f.slice.length := by
    unfold FILE.offset
    omega
  refine ⟨by rw [e, h.same], ?_⟩
  unfold FILE.offset
  omega

/-- Writing more changes the contents at the position after what is pending. -/
theorem Sent.content {f f' : FILE} {acc : List UInt8} (h : Sent f.writer.pending f.k acc f'.writer.pending f'.k) :
    f'.content = overwrite f.content (f.k.pos + f.writer.pending.length) acc
      ∧ f'.k.pos + f'.writer.pending.length = f.k.pos + f.writer.pending.length + acc.length := by
  obtain ⟨a, p, e⟩ := h.ex
  unfold FILE.content
  refine ⟨?_, ?_⟩
  · rw [overwrite_append, e, p.data, p.pos, overwrite_append]
  · have := congrArg List.length e
    rw [List.length_append, List.length_append] at this
    rw [p.pos]
    omega

theorem lseek_eq (k : Kernel) (off whence : Int) :
    k.lseek off whence =
      if k.seekable = true ∧ 0 ≤ whence ∧ whence ≤ 2
        ∧ 0 ≤ (if whence = 0 then (0 : Int) else if whence = 1 then (k.pos : Int) else k.data.length) + off
        ∧ (if whence = 0 then (0 : Int) else if whence = 1 then (k.pos : Int) else k.data.length) + off < 2 ^ 63
      then (some ((if whence = 0 then (0 : Int) else if whence = 1 then (k.pos : Int) else k.data.length) + off),
        { k with pos := ((if whence = 0 then (0 : Int) else if whence = 1 then (k.pos : Int) else k.data.length) + off).toNat })
      else (none, k) := rfl

theorem ftell_eq {f : FILE} (h : f.ReadOk) (hs : f.k.seekable = true) (hp : f.k.pos < 2 ^ 63) :
    ftell f = (f.offset + f.writer.pending.length, f) := by
  unfold ftell Kernel.lseek
  simp only [Int.add_zero]
  rw [if_pos ⟨hs, by decide, by decide, by simp, by simp; omega⟩]
  simp only [show ¬ (1 : Int) = 0 by decide, ↓reduceIte, Int.toNat_natCast]
  unfold FILE.offset
  rw [← ReadOk.length h]

theorem putc_wrote {f f' : FILE} (hw : f.writer.Ok) {b : UInt8}
    (e : putc f (Int32.ofNat b.toNat) = (Int32.ofNat b.toNat, f')) : f'.flags = f.flags ∧ Wrote f [b] f' := by
  have hb : (Int32.ofNat b.toNat).toUInt32.toUInt8 = b := by
    have := (C36_ungetc (f := fdopen (file []) 0) (fdopen_ok _ _) (Int32.ofNat b.toNat) b (putc_char b)).2.1
    simp only [FILE.rest, ungetc, fdopen, List.cons_append, List.cons.injEq] at this
    exact this.1
  have hne : Int32.ofNat b.toNat ≠ -1 := by
    intro h
    have h2 := putc_char b
    rw [h] at h2
    have h3 : (-1 : Int32).toInt = -1 := by decide
    omega
  unfold putc at e
  rw [hb] at e
  obtain ⟨r, g, e1, w, l, _, _, fl⟩ := file_write f [b] hw
  rw [e1] at e
  match r, w, l, fl with
  | none, w, l, _ =>
    simp only [Prod.mk.injEq] at e
    exact absurd e.1.symm hne
  | some 0, w, l, _ =>
    simp only [Prod.mk.injEq] at e
    exact absurd e.1.symm hne
  | some (j + 1), w, l, fl =>
    simp only [Option.getD_some, List.length_cons, List.length_nil] at l w
    have : j = 0 := by omega
    subst this
    simp only [Prod.mk.injEq] at e
    obtain ⟨_, rfl⟩ := e
    exact ⟨fl, w⟩

/-! ## C39 -/

/-- C39, `ftell` of a stream that is being read: the offset of the next byte a read returns. If bytes were pushed back it
is that many less. -/
theorem C39_ftell_read {f : FILE} (h : f.ReadOk) (hy : f.Synced) (hs : f.k.seekable = true) (hp : f.k.pos < 2 ^ 63)
    (hw : f.writer.pending = []) :
    ∃ p : Int, ftell f = (p, f) ∧ 0 ≤ p + f.unget.length
      ∧ f.rest = f.unget ++ f.k.data.drop (p + f.unget.length).toNat := by
  refine ⟨f.offset, by rw [ftell_eq h hs hp, hw]; simp, hy.drop.2, ?_⟩
  rw [← hy.drop.1, ← List.append_assoc]
  rfl

/-- C39, `ftell` of a stream that is being written: the offset at which the next byte written is put. -/
theorem C39_ftell_write {f : FILE} (h : f.ReadOk) (hs : f.k.seekable = true) (hp : f.k.pos < 2 ^ 63)
    (hr : f.slice = []) (hu : f.unget = []) :
    ∃ p : Nat, ftell f = ((p : Int), f) ∧ ∀ b : UInt8, ∀ f' : FILE, f.writer.Ok → putc f (Int32.ofNat b.toNat) = (Int32.ofNat b.toNat, f') →
      f'.content = overwrite f.content p [b] := by
  refine ⟨f.k.pos + f.writer.pending.length, ?_, ?_⟩
  · rw [ftell_eq h hs hp]
    unfold FILE.offset
    rw [hr, hu]
    simp
  · intro b f' hw e
    exact (putc_wrote hw e).2.sent.content.1

/-- Where `fseek` has to go: from the start, from the position `ftell` reports, or from the end of the file. -/
def target (f : FILE) (off whence : Int) : Int :=
  (if whence = 0 then 0 else if whence = 1 then (ftell f).1 else f.content.length) + off

/-- `fseek` went to the position `p`: buffered output has been written, the contents are unchanged, `ftell` reports
`p`, and the next byte read is the one at `p`. -/
structure Sought (f : FILE) (p : Nat) (f' : FILE) : Prop where
  ok : f'.ReadOk
  synced : f'.Synced
  writer : f'.writer.Ok
  pending : f'.writer.pending = []
  seekable : f'.k.seekable = f.k.seekable
  answer : f'.k.answer = f.k.answer
  pos : f'.k.pos = p
  data : f'.k.data = f.content
  rest : f'.rest = f.content.drop p
  slice : f'.slice = []
  unget : f'.unget = []
  tell : f.k.seekable = true → (ftell f').1 = p

theorem fseek_spec {f : FILE} (h : f.ReadOk) (hw : f.writer.Ok) (hs : f.k.seekable = true) (hp : f.k.pos < 2 ^ 63)
    (off whence : Int) (hu : whence = 1 → f.unget = []) (hwh : 0 ≤ whence ∧ whence ≤ 2) :
    (fseek f off whence).1 = -1 ∧ Wrote f [] (fseek f off whence).2 ∧ Refused f.k (fseek f off whence).2.k
    ∨ (fseek f off whence).1 = 0 ∧ 0 ≤ target f off whence ∧ target f off whence < 2 ^ 63
      ∧ Sought f (target f off whence).toNat (fseek f off whence).2
    ∨ (fseek f off whence).1 = -1 ∧ ¬ (0 ≤ target f off whence ∧ target f off whence < 2 ^ 63)
      ∧ Wrote f [] (fseek f off whence).2 ∧ (fseek f off whence).2.writer.pending = [] := by
  obtain ⟨ok, g, e, w, o, rf, _⟩ := file_flush f hw
  unfold fseek
  simp only
  rw [e]
  cases ok with
  | false => exact .inl ⟨rfl, w, rf rfl⟩
  | true =>
    right
    simp only
    have hpend := o.1 rfl
    obtain ⟨a, pa, ea⟩ := w.sent.ex
    rw [hpend, List.append_nil, List.append_nil] at ea
    subst ea
    have hdata : g.k.data = f.content := pa.data
    have hpos : g.k.pos = f.k.pos + f.writer.pending.length := pa.pos
    have htgt : (if whence = 0 then (0 : Int) else if whence = 1 then (g.k.pos : Int) else g.k.data.length)
        + (if whence = 1 then off - (f.readSize - f.readPos : Nat) else off) = target f off whence := by
      unfold target
      rw [ftell_eq h hs hp, hdata, hpos]
      unfold FILE.offset
      rw [ReadOk.length h]
      split
      · rename_i hh
        simp [hh]
      · split
        · rename_i hh
          rw [hu hh]
          simp only [List.length_nil]
          omega
        · rfl
    rw [lseek_eq, htgt]
    by_cases hc : 0 ≤ target f off whence ∧ target f off whence < 2 ^ 63
    · rw [if_pos ⟨pa.seekable.trans hs, hwh.1, hwh.2, hc.1, hc.2⟩]
      left
      simp only
      generalize hg : ({ g with
        k := { g.k with pos := (target f off whence).toNat }, flags := g.flags &&& ~~~ (F_EOF ||| F_ERR), readPos := 0,
        readSize := 0, unget := [] } : FILE) = g'
      have hok : g'.ReadOk := by
        subst hg
        refine ⟨Nat.le_refl _, Nat.zero_le _, ?_⟩
        simp only
        rw [w.buffer]
        exact h.room
      have hsl : g'.slice = [] := by
        subst hg
        simp [FILE.slice]
      have hk : g'.k.pos = (target f off whence).toNat ∧ g'.k.data = f.content ∧ g'.k.seekable = f.k.seekable
          ∧ g'.k.answer = f.k.answer := by
        subst hg
        exact ⟨rfl, hdata, pa.seekable, pa.answer⟩
      have hrest : g'.unget = [] ∧ g'.writer = g.writer := by
        subst hg
        exact ⟨rfl, rfl⟩
      refine ⟨trivial, hc.1, hc.2, ⟨hok, ⟨by rw [hsl]; exact Nat.zero_le _, by rw [hsl]; simp⟩, by rw [hrest.2]; exact w.ok,
        by rw [hrest.2]; exact hpend, hk.2.2.1, hk.2.2.2, hk.1, hk.2.1, ?_, hsl, hrest.1, fun _ => ?_⟩⟩
      · simp [FILE.rest, hrest.1, hsl, hk.1, hk.2.1]
      · rw [ftell_eq hok (by rw [hk.2.2.1]; exact hs) (by rw [hk.1]; omega)]
        simp only [FILE.offset, hsl, hrest.1, hrest.2, hpend, hk.1, List.length_nil]
        omega
    · rw [if_neg (fun hh => hc ⟨hh.2.2.2.1, hh.2.2.2.2⟩)]
      exact .inr ⟨rfl, hc, w, hpend⟩

/-- C39, `fseek`, with `SEEK_CUR` only when nothing is pushed back: the new position is the one asked for, counted from the start, from what
`ftell` reports, or from the end; afterwards `ftell` reports it, and it is where the next byte is read. -1 is returned
if there is no such position, or the kernel refused the buffered output. Missing: pushed-back bytes
(`C39_fseek_violation`). -/
theorem C39_fseek_partial {f : FILE} (h : f.ReadOk) (hw : f.writer.Ok) (hs : f.k.seekable = true) (hp : f.k.pos < 2 ^ 63)
    (off whence : Int) (hu : whence = 1 → f.unget = []) (hwh : 0 ≤ whence ∧ whence ≤ 2) :
    (fseek f off whence).1 = 0 ∧ 0 ≤ target f off whence
        ∧ Sought f (target f off whence).toNat (fseek f off whence).2
      ∨ (fseek f off whence).1 = -1 ∧ (fseek f off whence).2.content = f.content
        ∧ (Refused f.k (fseek f off whence).2.k ∨ target f off whence < 0 ∨ 2 ^ 63 ≤ target f off whence) := by
  rcases fseek_spec h hw hs hp off whence hu hwh with x | x | x
  · refine .inr ⟨x.1, ?_, .inl x.2.2⟩
    rw [x.2.1.sent.content.1]
    rfl
  · exact .inl ⟨x.1, x.2.1, x.2.2.2⟩
  · refine .inr ⟨x.1, ?_, .inr (by omega)⟩
    rw [x.2.2.1.sent.content.1]
    rfl

/-- C39: `fseek(f, 0, SEEK_CUR)` does not change the position, if nothing is pushed back. -/
theorem C39_seek_cur_partial {f : FILE} (h : f.ReadOk) (hy : f.Synced) (hw : f.writer.Ok) (hs : f.k.seekable = true)
    (hp : f.k.pos + f.writer.pending.length < 2 ^ 63) (hu : f.unget = []) (hr : ¬ Refused f.k (fseek f 0 1).2.k) :
    (fseek f 0 1).1 = 0 ∧ (ftell (fseek f 0 1).2).1 = (ftell f).1 := by
  have ht : target f 0 1 = (ftell f).1 := by simp [target]
  have hb := hy.drop.2
  rw [hu] at hb
  simp only [List.length_nil] at hb
  have htv : (ftell f).1 = f.offset + f.writer.pending.length := by rw [ftell_eq h hs (by omega)]
  have hle : f.offset ≤ f.k.pos := by
    unfold FILE.offset
    omega
  rcases C39_fseek_partial h hw hs (by omega) 0 1 (fun _ => hu) (by decide) with x | x
  · refine ⟨x.1, ?_⟩
    rw [x.2.2.tell hs, ht]
    omega
  · rcases x.2.2 with y | y
    · exact absurd y hr
    · rw [ht, htv] at y
      omega

/-- C39: `fseek(f, p, SEEK_SET)` makes `ftell` report `p`, whatever was pushed back. -/
theorem C39_seek_set {f : FILE} (h : f.ReadOk) (hw : f.writer.Ok) (hs : f.k.seekable = true) (hk : f.k.pos < 2 ^ 63)
    (p : Nat) (hp : p < 2 ^ 63) (hr : ¬ Refused f.k (fseek f p 0).2.k) :
    (fseek f p 0).1 = 0 ∧ (ftell (fseek f p 0).2).1 = p ∧ (fseek f p 0).2.rest = f.content.drop p := by
  have ht : target f p 0 = p := by simp [target]
  rcases C39_fseek_partial h hw hs hk p 0 (fun e => by simp at e) (by decide) with x | x
  · rw [ht, Int.toNat_natCast] at x
    exact ⟨x.1, x.2.2.tell hs, x.2.2.rest⟩
  · rcases x.2.2 with y | y
    · exact absurd y hr
    · rw [ht] at y
      omega

/-- C39 fails if a byte was pushed back: `fseek(f, 0, SEEK_CUR)` moves the position `ftell` reports. -/
theorem C39_fseek_violation {f : FILE} (h : f.ReadOk) (hw : f.writer.Ok) (hs : f.k.seekable = true)
    (hp : f.k.pos < 2 ^ 63) (hy : f.Synced) (_hu : f.unget ≠ []) (hpend : f.writer.pending = []) :
    (fseek f 0 1).1 = 0 ∧ (ftell (fseek f 0 1).2).1 = (ftell f).1 + f.unget.length := by
  obtain ⟨ok, g, e, w, o, rf, _⟩ := file_flush f hw
  have hg : g.writer.pending = [] ∧ Put f.k [] g.k := by
    obtain ⟨a, pa, ea⟩ := w.sent.ex
    rw [hpend] at ea
    obtain ⟨e1, e2⟩ := List.append_eq_nil_iff.1 ea.symm
    exact ⟨e2, e1 ▸ pa⟩
  have hok : ok = true := o.2 hg.1
  subst hok
  have hlen := ReadOk.length h
  have hb := hy.before
  have hgp : g.k.pos = f.k.pos := hg.2.pos
  have e2 : fseek f 0 1 = (0, { g with
        k := { g.k with pos := f.k.pos - f.slice.length }, flags := g.flags &&& ~~~ (F_EOF ||| F_ERR), readPos := 0,
        readSize := 0, unget := [] }) := by
    unfold fseek
    simp only [↓reduceIte]
    rw [e]
    simp only
    rw [lseek_eq]
    simp only [show ¬ (1 : Int) = 0 by decide, ↓reduceIte]
    rw [hgp, ← hlen]
    rw [if_pos ⟨hg.2.seekable.trans hs, by decide, by decide, by omega, by omega⟩]
    simp only
    have : ((f.k.pos : Int) + (0 - (f.slice.length : Int))).toNat = f.k.pos - f.slice.length := by omega
    rw [this]
  rw [e2, ftell_eq h hs hp]
  refine ⟨rfl, ?_⟩
  simp only
  generalize hg' : ({ g with
        k := { g.k with pos := f.k.pos - f.slice.length }, flags := g.flags &&& ~~~ (F_EOF ||| F_ERR), readPos := 0,
        readSize := 0, unget := [] } : FILE) = g'
  have hok : g'.ReadOk := by
    subst hg'
    exact ⟨Nat.le_refl _, Nat.zero_le _, by simp only; rw [w.buffer]; exact h.room⟩
  have hf : g'.k.pos = f.k.pos - f.slice.length ∧ g'.k.seekable = true ∧ g'.slice = [] ∧ g'.unget = []
      ∧ g'.writer.pending = [] := by
    subst hg'
    exact ⟨rfl, hg.2.seekable.trans hs, by simp [FILE.slice], rfl, hg.1⟩
  obtain ⟨f1, f2, f3, f4, f5⟩ := hf
  rw [ftell_eq hok f2 (by omega)]
  simp only [FILE.offset, f1, f3, f4, f5, hpend, List.length_nil]
  omega

end Verif.Stdio
