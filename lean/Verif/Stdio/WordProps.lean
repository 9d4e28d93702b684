import Verif.Stdio.WordModel
import Verif.Stdio.SeekProps
import Verif.Cwd.Props
/-!
# Words and stored positions of a stream (C174)
-/

namespace Verif.Stdio
open Verif.Mem Verif.Stdlib

/-- The number that four bytes stand for, lowest first. -/
def fourBytes (l : List UInt8) : Nat := l.foldr (fun b n => b.toNat + 256 * n) 0

theorem intBytes_length (w : UInt32) : (intBytes w).length = 4 := rfl

theorem intBytes_four (w : UInt32) : fourBytes (intBytes w) = w.toNat := by
  have h := w.toNat_lt
  simp only [intBytes, fourBytes, List.foldr, UInt32.toNat_toUInt8, UInt32.toNat_shiftRight, Nat.shiftRight_eq_div_pow,
    show (8 : UInt32).toNat = 8 from rfl, show (16 : UInt32).toNat = 16 from rfl, show (24 : UInt32).toNat = 24 from rfl]
  simp only [show 8 % 32 = 8 from rfl, show 16 % 32 = 16 from rfl, show 24 % 32 = 24 from rfl]
  omega

theorem bytesInt_four {l : List UInt8} (h : l.length = 4) : (bytesInt l).toNat = fourBytes l := by
  match l, h with
  | [a, b, c, d], _ =>
    have ha := a.toNat_lt
    have hb := b.toNat_lt
    have hc := c.toNat_lt
    have hd := d.toNat_lt
    simp only [bytesInt, fourBytes, List.foldr, UInt32.toNat_ofNat']
    omega

theorem local4_bytes (l : List UInt8) : Bytes (local4 l) 16 l := by
  rw [bytes_iff]
  intro i _
  unfold local4
  rw [if_pos (by omega), Nat.add_sub_cancel_left]

theorem word_inj {a b : Int32} (h : a.toUInt32 = b.toUInt32) : a = b := by
  cases a
  cases b
  cases h
  rfl

/-- **C174**, `putw`: 0 exactly if all four bytes of the word were accepted, lowest first; otherwise −1, and the kernel refused something. -/
theorem C174_putw {f : FILE} (hw : f.writer.Ok) (w : Int32) :
    ∃ r acc f', putw f w = some (r, f') ∧ Accepted f acc f' ∧
      (r = 0 ∧ acc.length = 4 ∧ fourBytes acc = w.toUInt32.toNat ∨ r = -1 ∧ acc.length < 4 ∧ Refused f.k f'.k) := by
  obtain ⟨acc, f', e, hp, ha, hr⟩ := C37_fwrite hw (m := local4 (intBytes w.toUInt32)) (ptr := 16) 4 1 (local4_bytes _) rfl (by rw [intBytes_length]; decide)
  unfold putw
  rw [e]
  refine ⟨_, acc, f', rfl, ha, ?_⟩
  have hl : acc.length ≤ 4 := hp.length_le
  by_cases h4 : acc.length = 4
  · have : acc = intBytes w.toUInt32 := hp.eq_of_length h4
    left
    refine ⟨?_, h4, by rw [this, intBytes_four]⟩
    rw [h4]
    rfl
  · right
    refine ⟨?_, by omega, hr (fun h => h4 (by rw [h]; rfl))⟩
    have : acc.length / (4 : UInt64).toNat = 0 := Nat.div_eq_of_lt (by show acc.length < 4; omega)
    rw [this]
    rfl

/-- **C174**, `getw`: the next four bytes as a word, lowest first; otherwise −1, and then the stream is at its end or has an error, which `feof` or
`ferror` tells. -/
theorem C174_getw {f : FILE} (h : f.ReadOk) :
    ∃ r out f', getw f = some (r, f') ∧ Took f out f' ∧
      (out.length = 4 ∧ r.toUInt32.toNat = fourBytes out ∨ out.length < 4 ∧ r = -1 ∧ Stopped f f') := by
  obtain ⟨out, f', e, ht, hl, hs⟩ := C36_fread h (m := local4 [0, 0, 0, 0]) (ptr := 16) 4 1 (by decide) (local4_bytes _).mapped
  have hl : out.length ≤ 4 := hl
  unfold getw
  rw [e]
  by_cases h4 : out.length = 4
  · refine ⟨(bytesInt out).toInt32, out, f', ?_, ht, .inl ⟨h4, ?_⟩⟩
    · have : readN (patch (local4 [0, 0, 0, 0]) 16 out) 16 4 = some out := by rw [← h4]; exact Cwd.readN_patch
      simp only [Option.bind_eq_bind, Option.bind_some, this]
      rw [h4]
      rfl
    · exact bytesInt_four h4
  · have : out.length / (4 : UInt64).toNat = 0 := Nat.div_eq_of_lt (by show out.length < 4; omega)
    refine ⟨-1, out, f', ?_, ht, .inr ⟨by omega, rfl, hs (by show out.length < 4; omega)⟩⟩
    simp only [Option.bind_eq_bind, Option.bind_some, this]
    rfl

theorem fourBytes_inj : ∀ {a b : List UInt8}, a.length = b.length → fourBytes a = fourBytes b → a = b
  | [], [], _, _ => rfl
  | x :: a, y :: b, hl, h => by
    have hx := x.toNat_lt
    have hy := y.toNat_lt
    have h : x.toNat + 256 * fourBytes a = y.toNat + 256 * fourBytes b := h
    have e1 : x = y := UInt8.toNat_inj.1 (by omega)
    have e2 : a = b := fourBytes_inj (by simpa using hl) (by omega)
    rw [e1, e2]

/-- **C174**: a word that `putw` accepted is read back by `getw` from a stream that has these bytes next, every word, and the bytes after it are
next then. -/
theorem C174_round_trip {f g : FILE} {w : Int32} {f' : FILE} (hw : f.writer.Ok) (hp : putw f w = some (0, f')) (hg : g.ReadOk)
    (hk : ∀ t, g.k.answer t ≠ .err) {tail : List UInt8} (hr : f.sent ++ g.rest = f'.sent ++ tail) :
    ∃ g', getw g = some (w, g') ∧ g'.rest = tail := by
  obtain ⟨r, acc, f2, e, ha, hc⟩ := C174_putw hw w
  rw [hp] at e
  cases e
  rcases hc with ⟨_, h4, hv⟩ | ⟨h0, _⟩
  · rw [ha.sent, List.append_assoc] at hr
    have hr := List.append_cancel_left hr
    obtain ⟨r, out, g', e, ht, hc⟩ := C174_getw hg
    have h2 := ht.rest
    rw [hr] at h2
    rcases hc with ⟨ho, hv2⟩ | ⟨ho, _, hst⟩
    · obtain ⟨ea, et⟩ := List.append_inj h2 (by omega)
      refine ⟨g', ?_, et.symm⟩
      have : r = w := word_inj (UInt32.toNat_inj.1 (by rw [hv2, ← ea, hv]))
      rw [e, this]
    · exfalso
      rcases hst with ⟨he, _⟩ | ⟨⟨t, _, _, he⟩, _⟩
      · rw [he, List.append_nil] at h2
        have := congrArg List.length h2
        rw [List.length_append] at this
        omega
      · exact hk t he
  · exact absurd h0 (by decide)

/-- **C174**: −1 from `getw` may be a word: it is what the bytes `FF FF FF FF` are. -/
theorem C174_minus_one {f : FILE} (h : f.ReadOk) (hk : ∀ t, f.k.answer t ≠ .err) {tail : List UInt8} (hr : f.rest = [0xFF, 0xFF, 0xFF, 0xFF] ++ tail) :
    ∃ f', getw f = some (-1, f') ∧ f'.rest = tail := by
  obtain ⟨r, out, f', e, ht, hc⟩ := C174_getw h
  have h2 := ht.rest
  rw [hr] at h2
  rcases hc with ⟨ho, hv⟩ | ⟨ho, _, hst⟩
  · obtain ⟨ea, et⟩ := List.append_inj h2 (by rw [ho]; rfl)
    refine ⟨f', ?_, et.symm⟩
    have : r = -1 := word_inj (UInt32.toNat_inj.1 (by rw [hv, ← ea]; decide))
    rw [e, this]
  · exfalso
    rcases hst with ⟨he, _⟩ | ⟨⟨t, _, _, he⟩, _⟩
    · rw [he, List.append_nil] at h2
      have := congrArg List.length h2
      rw [List.length_append] at this
      have h3 : ([0xFF, 0xFF, 0xFF, 0xFF] : List UInt8).length = 4 := rfl
      omega
    · exact hk t he

/-- **C174**, `fgetpos`: it stores what `ftell` gives and changes nothing, or −1 if that is negative. -/
theorem C174_fgetpos {f : FILE} (h : f.ReadOk) (hs : f.k.seekable = true) (hp : f.k.pos < 2 ^ 63) :
    (0 ≤ (ftell f).1 → fgetpos f = (0, some (ftell f).1, f)) ∧ ((ftell f).1 < 0 → fgetpos f = (-1, none, f)) := by
  have e := ftell_eq h hs hp
  unfold fgetpos
  rw [e]
  exact ⟨fun h => if_neg (by simpa using h), fun h => if_pos h⟩

/-- **C174**, `fsetpos` with a position `fgetpos` stored, of the same stream later or of another: unless the kernel refuses buffered output, it
succeeds, the position is the stored one, and the next bytes are those of the contents from there. -/
theorem C174_fsetpos {f g f' : FILE} {p : Int} (hf : fgetpos f = (0, some p, f')) (hp : p < 2 ^ 63) (h : g.ReadOk) (hw : g.writer.Ok)
    (hs : g.k.seekable = true) (hk : g.k.pos < 2 ^ 63) (hr : ¬ Refused g.k (fsetpos g p).2.k) :
    (fsetpos g p).1 = 0 ∧ (ftell (fsetpos g p).2).1 = p ∧ (fsetpos g p).2.rest = g.content.drop p.toNat := by
  have h0 : 0 ≤ p := by
    unfold fgetpos at hf
    dsimp only at hf
    split at hf
    · exact absurd (Prod.mk.inj hf).1 (by decide)
    · rename_i hn
      have := (Prod.mk.inj (Prod.mk.inj hf).2).1
      rw [Option.some.inj this] at hn
      omega
  obtain ⟨n, rfl⟩ := Int.eq_ofNat_of_zero_le h0
  exact C39_seek_set h hw hs hk n (by omega) hr

/-- **C174**: after `fgetpos`, whatever is read from the stream or sought, as long as the contents stay, `fsetpos` brings back what there was to
read. -/
theorem C174_restore {f g : FILE} (h : f.ReadOk) (hy : f.Synced) (hs : f.k.seekable = true) (hp : f.k.pos < 2 ^ 63)
    (hpe : f.writer.pending = []) (hu : f.unget = [])
    (hg : g.ReadOk) (hw : g.writer.Ok) (hgs : g.k.seekable = true) (hgk : g.k.pos < 2 ^ 63) (hc : g.content = f.k.data) :
    ∃ p, fgetpos f = (0, some p, f) ∧ (¬ Refused g.k (fsetpos g p).2.k → (fsetpos g p).1 = 0 ∧ (fsetpos g p).2.rest = f.rest) := by
  obtain ⟨p, e, h0, hr⟩ := C39_ftell_read h hy hs hp hpe
  rw [hu] at h0 hr
  simp only [List.length_nil, Int.natCast_zero, Int.add_zero, List.nil_append] at h0 hr
  have e1 : (ftell f).1 = p := by rw [e]
  have hpg := (C174_fgetpos h hs hp).1 (by rw [e1]; exact h0)
  rw [e1] at hpg
  have hlt : p < 2 ^ 63 := by
    rw [ftell_eq h hs hp, hpe] at e1
    simp only [FILE.offset, List.length_nil] at e1
    omega
  refine ⟨p, hpg, fun hn => ?_⟩
  have := C174_fsetpos hpg hlt hg hw hgs hgk hn
  exact ⟨this.1, by rw [this.2.2, hc, hr]⟩

/-- **C174**: at the start of the file, after `ungetc`, there is no position to store. -/
theorem C174_pushed_back {f : FILE} (h : f.ReadOk) (hs : f.k.seekable = true) (hp : f.k.pos < 2 ^ 63)
    (hpe : f.writer.pending = []) (ho : f.offset = 0) (c : Int32) : (fgetpos (ungetc f c).2).1 = -1 := by
  have hok : (ungetc f c).2.ReadOk := ⟨h.order, h.bound, h.room⟩
  have e := ftell_eq hok hs hp
  have h1 : (ftell (ungetc f c).2).1 = -1 := by
    rw [e]
    show (f.k.pos : Int) - f.slice.length - (_ :: f.unget).length + f.writer.pending.length = -1
    rw [hpe]
    unfold FILE.offset at ho
    simp only [List.length_cons, List.length_nil]
    omega
  rw [(C174_fgetpos hok hs hp).2 (by rw [h1]; decide)]

example : (putw (fdopen (file []) 0) 258).map (fun x => (x.1, x.2.sent)) = some (0, [2, 1, 0, 0]) := by decide +kernel
example : ∃ f', getw (fdopen (file [0xFF, 0xFF, 0xFF, 0xFF, 9]) 0) = some (-1, f') ∧ f'.rest = [9] :=
  C174_minus_one (fdopen_ok _ _) (fun t => by simp [fdopen, file]) (C36_new _ _).1
example : ∃ g', getw (fdopen (file [2, 1, 0, 0, 9]) 0) = some (258, g') ∧ g'.rest = [9] := by
  have hs : ∃ f', putw (fdopen (file []) 0) 258 = some (0, f') ∧ f'.sent = [2, 1, 0, 0] := by
    have h1 : ((putw (fdopen (file []) 0) 258).map (fun x => (x.1, x.2.sent))) = some (0, [2, 1, 0, 0]) := by decide +kernel
    match hp : putw (fdopen (file []) 0) 258, h1 with
    | some (r, f'), h1 =>
      simp only [Option.map_some, Option.some.injEq, Prod.mk.injEq] at h1
      exact ⟨f', by rw [h1.1], h1.2⟩
    | none, h1 => exact absurd h1 (by simp)
  obtain ⟨f', e, hs⟩ := hs
  exact C174_round_trip (fdopen_writer _ _) e (fdopen_ok _ _) (fun t => by simp [fdopen, file]) (by rw [hs]; decide +kernel)

end Verif.Stdio
