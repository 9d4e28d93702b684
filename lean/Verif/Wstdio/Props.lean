import Verif.Wstdio.Model
import Verif.Stdio.FlagProps
import Verif.Wchar.MbsProps
/-!
# Wide characters on streams (C140)
-/

namespace Verif.Wstdio
open Verif.Mem Verif.Stdio Verif.Wchar

/-! ## Specification -/

/-- What `fgetws` should take of a text: at most so many characters, and none after a newline. -/
def line : Nat → List Nat → List Nat
  | 0, _ => []
  | _ + 1, [] => []
  | n + 1, c :: cs => if c = 10 then [c] else c :: line n cs

/-! ## Orientation -/

theorem tryByte_le {s : S} (h : s.orientation ≤ 0) : tryByte s = (true, { s with orientation := if s.orientation = 0 then -1 else s.orientation }) := by
  unfold tryByte tryOrient
  by_cases h0 : s.orientation = 0
  · simp [h0]
  · simp only [h0, if_false]
    have : s.orientation ≤ -1 := by
      rw [Int32.le_iff_toInt_le] at h ⊢
      rw [← Int32.toInt_inj] at h0
      have e0 : (0 : Int32).toInt = 0 := rfl
      have e1 : (-1 : Int32).toInt = -1 := rfl
      rw [e0] at h h0
      rw [e1]
      omega
    simp [this]

theorem tryByte_gt {s : S} (h : 0 < s.orientation) : tryByte s = (false, s) := by
  have hi := Int32.lt_iff_toInt_lt.1 h
  have e0 : (0 : Int32).toInt = 0 := rfl
  have e1 : (-1 : Int32).toInt = -1 := rfl
  have h0 : s.orientation ≠ 0 := by
    intro q
    rw [q] at hi
    omega
  have h1 : ¬ s.orientation ≤ -1 := by
    rw [Int32.le_iff_toInt_le, e1]
    omega
  unfold tryByte tryOrient
  simp [h0, h1]

/-- The stream is, or becomes, byte-oriented. -/
theorem byte_neg {o : Int32} (h : o ≤ 0) : (if o = 0 then -1 else o) < 0 := by
  split
  · decide
  · rename_i h0
    rw [Int32.le_iff_toInt_le] at h
    rw [Int32.lt_iff_toInt_lt]
    rw [← Int32.toInt_inj] at h0
    have e0 : (0 : Int32).toInt = 0 := rfl
    rw [e0] at h h0 ⊢
    omega

theorem lt_le {o : Int32} (h : o < 0) : o ≤ 0 := by
  rw [Int32.lt_iff_toInt_lt] at h
  rw [Int32.le_iff_toInt_le]
  omega

theorem getcU_eq {s : S} (h : s.orientation ≤ 0) : getcU s = (getc s.file).map fun x => (x.1, ⟨x.2, if s.orientation = 0 then -1 else s.orientation⟩) := by
  unfold getcU
  rw [tryByte_le h]
  dsimp only
  cases getc s.file <;> rfl

theorem fputc_eq {s : S} (h : s.orientation ≤ 0) (c : Int32) :
    fputc s c = ((putc s.file c).1, ⟨(putc s.file c).2, if s.orientation = 0 then -1 else s.orientation⟩) := by
  unfold fputc
  rw [tryByte_le h]

theorem ungetcU_eq {s : S} (h : s.orientation ≤ 0) (c : Int32) :
    ungetcU s c = ((ungetc s.file c).1, ⟨(ungetc s.file c).2, if s.orientation = 0 then -1 else s.orientation⟩) := by
  unfold ungetcU
  rw [tryByte_le h]

/-! ## Bytes -/

theorem charInt_byte (b : UInt8) : (charInt b).toUInt32.toUInt8 = b := by
  revert b
  exact byte_table (by decide +kernel)

theorem encodedLength (b : UInt8) (h : charWidth b ≠ 0) : charEncodedLength b = some (charWidth b) := by
  revert b
  refine byte_table (P := fun b => charWidth b ≠ 0 → charEncodedLength b = some (charWidth b)) (by decide +kernel)

theorem encodedLength_inv (b : UInt8) (n : Nat) (h : charEncodedLength b = some n) : (charWidth b = 0 ∨ charWidth b = n) ∧ 1 ≤ n ∧ n ≤ 4 := by
  have := byte_table (P := fun b => charEncodedLength b = none ∨ charEncodedLength b = some 1 ∧ (charWidth b = 0 ∨ charWidth b = 1) ∨
    charEncodedLength b = some 2 ∧ (charWidth b = 0 ∨ charWidth b = 2) ∨ charEncodedLength b = some 3 ∧ (charWidth b = 0 ∨ charWidth b = 3) ∨
    charEncodedLength b = some 4 ∧ (charWidth b = 0 ∨ charWidth b = 4)) (by decide +kernel) b
  rw [h] at this
  rcases this with q | ⟨q, w⟩ | ⟨q, w⟩ | ⟨q, w⟩ | ⟨q, w⟩
  · cases q
  all_goals
    cases q
    exact ⟨w, by omega, by omega⟩

theorem int_byte (b : UInt8) : UInt8.ofNat ((b.toNat : Int)).toNat = b := by simp

theorem byte_ne (b : UInt8) : ¬ ((b.toNat : Int)) = -1 := by omega

/-! ## Reading -/

/-- One byte of a stream that has one. -/
theorem getcU_byte {s : S} (ho : s.orientation ≤ 0) (h : s.file.ReadOk) {b : UInt8} {r : List UInt8} (hr : s.file.rest = b :: r) :
    ∃ v f', getcU s = some (v, ⟨f', if s.orientation = 0 then -1 else s.orientation⟩) ∧
      (v = b.toNat ∧ Took s.file [b] f' ∧ f'.flags = s.file.flags ∨ v = -1 ∧ Took s.file [] f' ∧ KernelError s.file f' ∧ ferror f' ≠ 0) := by
  obtain ⟨v, f', e, hv⟩ := C36_getc h
  refine ⟨v, f', ?_, ?_⟩
  · rw [getcU_eq ho, e]
    rfl
  · rcases hv with ⟨b', h1, h2, h3⟩ | ⟨h1, h2, h3⟩
    · have := h2.rest
      rw [hr] at this
      simp only [List.cons_append, List.nil_append, List.cons.injEq] at this
      rw [this.1]
      exact .inl ⟨h1, h2, h3⟩
    · refine .inr ⟨h1, h2, ?_⟩
      rcases h3 with ⟨h3, _⟩ | h3
      · have := h2.rest
        rw [hr, h3] at this
        cases this
      · exact h3

theorem more_bytes (l : List UInt8) {s : S} (ho : s.orientation < 0) (h : s.file.ReadOk) {r : List UInt8} (hr : s.file.rest = l ++ r) (buf : List UInt8) :
    ∃ o f', more l.length s buf = some (o, ⟨f', s.orientation⟩) ∧
      (o = some (buf ++ l) ∧ Took s.file l f' ∧ f'.flags = s.file.flags ∨ o = none ∧ KernelError s.file f' ∧ ferror f' ≠ 0) := by
  induction l generalizing s buf with
  | nil => exact ⟨some buf, s.file, rfl, .inl ⟨by simp, Took.refl h, rfl⟩⟩
  | cons b l ih =>
    obtain ⟨v, f', e, hv⟩ := getcU_byte (lt_le ho) h (b := b) (r := l ++ r) hr
    have hne : s.orientation ≠ 0 := by
      intro q
      rw [q] at ho
      revert ho
      decide
    rw [if_neg hne] at e
    rw [List.length_cons, more, e]
    dsimp only
    rcases hv with ⟨h1, h2, h3⟩ | ⟨h1, h2, h3⟩
    · rw [h1, if_neg (byte_ne b), int_byte]
      have hr' : f'.rest = l ++ r := by
        have := h2.rest
        rw [hr] at this
        simpa using this.symm
      obtain ⟨o, f'', e', hv'⟩ := ih (s := ⟨f', s.orientation⟩) ho h2.ok hr' (buf ++ [b])
      refine ⟨o, f'', e', ?_⟩
      rcases hv' with ⟨q1, q2, q3⟩ | ⟨q1, q2⟩
      · refine .inl ⟨by rw [q1]; simp, h2.trans q2, q3.trans h3⟩
      · exact .inr ⟨q1, q2.1.after h2, q2.2⟩
    · rw [h1, if_pos rfl]
      exact ⟨none, f', rfl, .inr ⟨rfl, h3⟩⟩

theorem buffer_bytes (l : List UInt8) : Bytes (buffer l) 0 l := by
  have := bytes_ofList 0 (l ++ List.replicate (4 - l.length) 0)
  exact (bytes_append.1 this).1

theorem buffer_mapped (l : List UInt8) (h : l.length ≤ 4) : Mapped (buffer l) 0 4 := by
  have := (bytes_ofList 0 (l ++ List.replicate (4 - l.length) 0)).mapped
  rw [List.length_append, List.length_replicate] at this
  exact this.mono (by omega)

theorem len64 {n : Nat} (h : n ≤ 4) : (UInt64.ofNat n).toNat = n := UInt64.toNat_ofNat_of_lt' (by unfold UInt64.size; omega)

theorem wc32 {w : Int32} {c : Nat} (hc : Scalar c) (hw : w.toInt = c) : w.toUInt32 = UInt32.ofNat c := by
  rw [eq_wide hc hw]
  rfl

theorem scalar_weof {c : Nat} (hc : Scalar c) : UInt32.ofNat c ≠ WEOF := by
  intro h
  have := congrArg UInt32.toNat h
  have hl := hc.lt
  rw [UInt32.toNat_ofNat_of_lt' (by unfold UInt32.size; omega)] at this
  have e : WEOF.toNat = 0xFFFFFFFF := rfl
  omega

/-- **C140, partial.** `fgetwc` on a stream whose next bytes encode a character takes exactly those bytes and returns the character; or the kernel reports an error, and `WEOF` is
returned with the error indicator set. Missing: streams of wide orientation (`C140_wide_violation`), other bytes (`C140_illegal_violation`, `C140_truncated_violation`). -/
theorem C140_fgetwc_partial {s : S} (ho : s.orientation ≤ 0) (h : s.file.ReadOk) {c : Nat} (hc : Scalar c) {r : List UInt8} (hr : s.file.rest = utf8 c ++ r) :
    ∃ g s', fgetwc s = some (g, s') ∧ s'.orientation < 0 ∧
      (g = ⟨UInt32.ofNat c, false⟩ ∧ Took s.file (utf8 c) s'.file ∧ s'.file.flags = s.file.flags ∨
        g = ⟨WEOF, false⟩ ∧ KernelError s.file s'.file ∧ ferror s'.file ≠ 0) := by
  obtain ⟨b, t, hu, hw⟩ := utf8_head hc
  have hl := length_utf8 (c := c)
  rw [hu] at hr
  obtain ⟨v, f', e, hv⟩ := getcU_byte ho h (b := b) (r := t ++ r) (by rw [hr]; rfl)
  unfold fgetwc
  rw [e]
  dsimp only
  rcases hv with ⟨h1, h2, h3⟩ | ⟨h1, h2, h3⟩
  · rw [h1, if_neg (byte_ne b), int_byte, encodedLength b (by omega), hw]
    dsimp only
    have hr' : f'.rest = t ++ r := by
      have := h2.rest
      rw [hr] at this
      simpa using this.symm
    have hlt : (utf8 c).length - 1 = t.length := by
      rw [hu]
      simp
    obtain ⟨o, f'', e', hv'⟩ := more_bytes t (s := ⟨f', if s.orientation = 0 then -1 else s.orientation⟩) (byte_neg ho) h2.ok hr' [b]
    rw [hlt, e']
    rcases hv' with ⟨q1, q2, q3⟩ | ⟨q1, q2⟩
    · rw [q1]
      dsimp only
      have hbuf : [b] ++ t = utf8 c := by rw [hu]; rfl
      rw [hbuf]
      obtain ⟨r', w, m1, m2, m3⟩ := C31_mbrtowc (n := UInt64.ofNat (utf8 c).length) hc (buffer_bytes (utf8 c)) (by rw [len64 hl.2]; exact Nat.le_refl _)
      rw [m1]
      dsimp only
      refine ⟨_, _, rfl, byte_neg ho, .inl ⟨by rw [wc32 hc m2], ?_, q3.trans h3⟩⟩
      have := h2.trans q2
      rwa [hbuf] at this
    · rw [q1]
      exact ⟨_, _, rfl, byte_neg ho, .inr ⟨rfl, q2.1.after h2, q2.2⟩⟩
  · rw [h1, if_pos rfl]
    exact ⟨_, _, rfl, byte_neg ho, .inr ⟨rfl, h3.1, h3.2⟩⟩

/-- **C140.** At the end of the stream `fgetwc` returns `WEOF` and `feof` tells, or the kernel reported an error and `ferror` tells. -/
theorem C140_end {s : S} (ho : s.orientation ≤ 0) (h : s.file.ReadOk) (hr : s.file.rest = []) :
    ∃ s', fgetwc s = some (⟨WEOF, false⟩, s') ∧ Stopped s.file s'.file := by
  obtain ⟨v, f', e, hv⟩ := C36_getc h
  unfold fgetwc
  rw [getcU_eq ho, e]
  dsimp only [Option.map]
  rcases hv with ⟨b', h1, h2, h3⟩ | ⟨h1, h2, h3⟩
  · have := h2.rest
    rw [hr] at this
    cases this
  · rw [h1, if_pos rfl]
    exact ⟨_, rfl, h3⟩

/-- **C140.** A byte that begins no character: `WEOF`, `EILSEQ`, and the error indicator is set. -/
theorem C140_first_byte {s : S} (ho : s.orientation ≤ 0) (h : s.file.ReadOk) (hk : ∀ t, s.file.k.answer t ≠ .err) {b : UInt8} {r : List UInt8} (hr : s.file.rest = b :: r)
    (hb : b.toNat &&& 0xC0 = 0x80 ∨ 0xF8 ≤ b.toNat) : ∃ s', fgetwc s = some (⟨WEOF, true⟩, s') ∧ ferror s'.file ≠ 0 := by
  have hn : charEncodedLength b = none := by
    revert hb
    exact byte_table (P := fun b => b.toNat &&& 0xC0 = 0x80 ∨ 0xF8 ≤ b.toNat → charEncodedLength b = none) (by decide +kernel) b
  obtain ⟨v, f', e, hv⟩ := getcU_byte ho h hr
  unfold fgetwc
  rw [e]
  dsimp only
  rcases hv with ⟨h1, h2, h3⟩ | ⟨h1, h2, h3⟩
  · rw [h1, if_neg (byte_ne b), int_byte, hn]
    refine ⟨_, rfl, ?_⟩
    show (f'.flags ||| F_ERR) &&& F_ERR ≠ 0
    rw [flag_or]
    decide
  · obtain ⟨⟨t, _, _, q⟩, _⟩ := h3
    exact absurd q (hk t)

/-- **C140, violated.** A first byte followed by bytes that do not belong to it: all of them are taken, and a null character is returned, with no indicator set. -/
theorem C140_illegal_violation {s : S} (ho : s.orientation ≤ 0) (h : s.file.ReadOk) (hk : ∀ t, s.file.k.answer t ≠ .err) {b : UInt8} {t r : List UInt8}
    (hr : s.file.rest = (b :: t) ++ r) (hn : charEncodedLength b = some (t.length + 1)) (hno : ∀ c, Scalar c → utf8 c ≠ b :: t) :
    ∃ s', fgetwc s = some (⟨0, true⟩, s') ∧ s'.file.flags = s.file.flags ∧ s'.file.rest = r := by
  obtain ⟨hw, _, h4⟩ := encodedLength_inv _ _ hn
  obtain ⟨v, f', e, hv⟩ := getcU_byte ho h (b := b) (r := t ++ r) (by rw [hr]; rfl)
  unfold fgetwc
  rw [e]
  dsimp only
  rcases hv with ⟨h1, h2, h3⟩ | ⟨h1, h2, h3⟩
  · rw [h1, if_neg (byte_ne b), int_byte, hn]
    dsimp only
    have hr' : f'.rest = t ++ r := by
      have := h2.rest
      rw [hr] at this
      simpa using this.symm
    obtain ⟨o, f'', e', hv'⟩ := more_bytes t (s := ⟨f', if s.orientation = 0 then -1 else s.orientation⟩) (byte_neg ho) h2.ok hr' [b]
    rw [Nat.add_sub_cancel, e']
    rcases hv' with ⟨q1, q2, q3⟩ | ⟨q1, q2⟩
    · rw [q1]
      dsimp only
      have hbm := buffer_bytes ([b] ++ t)
      have hmm : Mapped (buffer ([b] ++ t)) 0 4 := buffer_mapped _ (by simp; omega)
      have hl : (UInt64.ofNat (t.length + 1)).toNat = t.length + 1 := len64 h4
      obtain ⟨r', w, m1, m2⟩ := C32_mbrtowc (m := buffer ([b] ++ t)) (s := 0) (n := UInt64.ofNat (t.length + 1)) (hmm.mono (by rw [hl]; omega))
      rw [m1]
      have hne : UInt64.ofNat (t.length + 1) ≠ 0 := by
        intro q
        rw [q] at hl
        simp at hl
      have hw0 : w = none := by
        cases m2 hne with
        | char c w' hc enc fits hw' val ret =>
          exfalso
          obtain ⟨b', t', hu, hw''⟩ := utf8_head hc
          have : b' = b := by
            rw [hu] at enc
            have q1 := enc.1
            have q2 := hbm.1
            rw [q1] at q2
            exact Option.some.inj q2
          subst this
          have hlu := length_utf8 (c := c)
          refine hno c hc ?_
          refine Bytes.unique enc hbm ?_
          rw [← hw'']
          simp only [List.length_cons]
          omega
        | invalid _ hw' _ => exact hw'
        | incomplete _ hw' _ => exact hw'
      rw [hw0]
      refine ⟨_, rfl, q3.trans h3, ?_⟩
      have := q2.rest
      dsimp only at this
      rw [hr'] at this
      exact (List.append_cancel_left this).symm
    · obtain ⟨⟨t', _, _, q⟩, _⟩ := q2
      refine absurd q ?_
      dsimp only
      rw [h2.answer]
      exact hk t'
  · obtain ⟨⟨t', _, _, q⟩, _⟩ := h3
    exact absurd q (hk t')

/-- The rest of a character is missing. -/
theorem more_end (l : List UInt8) (n : Nat) (hn : l.length < n) {s : S} (ho : s.orientation < 0) (h : s.file.ReadOk) (hk : ∀ t, s.file.k.answer t ≠ .err)
    (hr : s.file.rest = l) (buf : List UInt8) : ∃ s', more n s buf = some (none, s') ∧ s'.file.flags = s.file.flags ||| F_EOF ∧ s'.file.rest = [] := by
  induction l generalizing s n buf with
  | nil =>
    obtain ⟨n, rfl⟩ : ∃ m, n = m + 1 := ⟨n - 1, by simp at hn; omega⟩
    obtain ⟨v, f', e, hv⟩ := C36_getc h
    have hflags := C68_getc h e
    rcases hv with ⟨b', h1, h2, h3⟩ | ⟨h1, h2, h3⟩
    · have := h2.rest
      rw [hr] at this
      cases this
    · rw [more, getcU_eq (lt_le ho), e]
      dsimp only [Option.map]
      rw [h1, if_pos rfl]
      refine ⟨_, rfl, ?_, ?_⟩
      · show f'.flags = _
        rcases hflags with ⟨q, _⟩ | ⟨_, _, q⟩ | ⟨_, ⟨t, _, _, q⟩, _⟩
        · exact absurd h1 q
        · exact q
        · exact absurd q (hk t)
      · have := h2.rest
        rw [hr] at this
        simpa using this.symm
  | cons b l ih =>
    obtain ⟨n, rfl⟩ : ∃ m, n = m + 1 := ⟨n - 1, by simp at hn; omega⟩
    obtain ⟨v, f', e, hv⟩ := getcU_byte (lt_le ho) h hr
    rw [more, e]
    dsimp only
    rcases hv with ⟨h1, h2, h3⟩ | ⟨_, _, ⟨⟨t, _, _, q⟩, _⟩⟩
    · rw [h1, if_neg (byte_ne b)]
      have hr' : f'.rest = l := by
        have := h2.rest
        rw [hr] at this
        simpa using this.symm
      obtain ⟨s', e', q1, q2⟩ := ih n (by simp at hn; omega) (s := ⟨f', if s.orientation = 0 then -1 else s.orientation⟩) (byte_neg (lt_le ho)) h2.ok
        (by dsimp only; rw [h2.answer]; exact hk) hr' (buf ++ [UInt8.ofNat ((b.toNat : Int)).toNat])
      refine ⟨s', e', ?_, q2⟩
      rw [q1]
      dsimp only
      rw [h3]
    · exact absurd q (hk t)

/-- **C140, violated.** A stream that ends within a character: just an end of file, as though the beginning of the character were not there; no `EILSEQ`, and no error indicator. -/
theorem C140_truncated_violation {s : S} (ho : s.orientation ≤ 0) (h : s.file.ReadOk) (hk : ∀ t, s.file.k.answer t ≠ .err) {b : UInt8} {t : List UInt8}
    (hr : s.file.rest = b :: t) {n : Nat} (hn : charEncodedLength b = some n) (hlt : t.length + 1 < n) :
    ∃ s', fgetwc s = some (⟨WEOF, false⟩, s') ∧ s'.file.flags = s.file.flags ||| F_EOF ∧ s'.file.rest = [] := by
  obtain ⟨v, f', e, hv⟩ := getcU_byte ho h hr
  unfold fgetwc
  rw [e]
  dsimp only
  rcases hv with ⟨h1, h2, h3⟩ | ⟨_, _, ⟨⟨t, _, _, q⟩, _⟩⟩
  · rw [h1, if_neg (byte_ne b), int_byte, hn]
    dsimp only
    have hr' : f'.rest = t := by
      have := h2.rest
      rw [hr] at this
      simpa using this.symm
    obtain ⟨s', e', q1, q2⟩ := more_end t (n - 1) (by omega) (s := ⟨f', if s.orientation = 0 then -1 else s.orientation⟩) (byte_neg ho) h2.ok
      (by dsimp only; rw [h2.answer]; exact hk) hr' [b]
    rw [e']
    refine ⟨s', rfl, ?_, q2⟩
    rw [q1]
    dsimp only
    rw [h3]
  · exact absurd q (hk t)

/-- **C140, violated.** Once a stream is wide-oriented (`fwide(stream, 1)`, or output by `fwprintf`), wide characters can neither be read nor written: `fgetwc` returns `WEOF` forever,
with neither indicator set; `fputwc` writes nothing and returns the character as if it had. -/
theorem C140_wide_violation {s : S} (h : 0 < s.orientation) (wc : Int32) :
    fgetwc s = some (⟨WEOF, false⟩, s) ∧ fputwc s wc = some (wc.toUInt32, s) ∧ (fwide ⟨s.file, 0⟩ 1).2.orientation = 1 := by
  have hp : ∀ l, putAll s l = s := by
    intro l
    induction l with
    | nil => rfl
    | cons b l ih =>
      rw [putAll]
      unfold fputc
      rw [tryByte_gt h]
      exact ih
  refine ⟨?_, ?_, rfl⟩
  · unfold fgetwc getcU
    rw [tryByte_gt h]
    rfl
  · unfold fputwc
    by_cases hc : ∃ c : Nat, Scalar c ∧ wc.toInt = c
    · obtain ⟨c, hc, hwc⟩ := hc
      have hl := length_utf8 (c := c)
      obtain ⟨r, e1, e2⟩ := C31_wcrtomb (m := buffer []) (s := 0) hc hwc ((buffer_mapped [] (by simp)).mono hl.2)
      rw [e1]
      dsimp only
      obtain ⟨l, hl4, hb⟩ := (mapped_patch (p := 0) (l := utf8 c) (buffer_mapped [] (by simp))).exists_bytes
      have := hb.readN
      rw [hl4] at this
      rw [this]
      dsimp only
      rw [hp]
    · rw [C31_wcrtomb_invalid _ _ hc]
      dsimp only
      obtain ⟨l, hl4, hb⟩ := (buffer_mapped [] (by simp)).exists_bytes
      have := hb.readN
      rw [hl4] at this
      rw [this]
      dsimp only
      rw [hp]

/-- **C140, violated.** Reading or writing a wide character makes the stream byte-oriented. -/
theorem C140_orientation_violation {s : S} (h0 : s.orientation = 0) (h : s.file.ReadOk) {c : Nat} (hc : Scalar c) {r : List UInt8} (hr : s.file.rest = utf8 c ++ r) :
    ∃ g s', fgetwc s = some (g, s') ∧ (fwide s' 0).1 < 0 := by
  obtain ⟨g, s', e, ho, _⟩ := C140_fgetwc_partial (by rw [h0]; decide) h hc hr
  refine ⟨g, s', e, ?_⟩
  unfold fwide tryOrient
  dsimp only
  split
  · rename_i q
    rw [q] at ho
    exact absurd ho (by decide)
  · exact ho

/-! ## Lines -/

theorem line_scalar {n : Nat} {cs : List Nat} (h : ∀ c ∈ cs, Scalar c) : ∀ c ∈ line n cs, Scalar c := by
  induction cs generalizing n with
  | nil =>
    cases n <;> simp [line]
  | cons c cs ih =>
    cases n with
    | zero => simp [line]
    | succ n =>
      unfold line
      split
      · intro x hx
        simp at hx
        exact hx ▸ h c (by simp)
      · intro x hx
        rw [List.mem_cons] at hx
        rcases hx with rfl | hx
        · exact h x (by simp)
        · exact ih (fun y hy => h y (by simp [hy])) x hx

theorem line_length (n : Nat) (cs : List Nat) : (line n cs).length ≤ n := by
  induction cs generalizing n with
  | nil => cases n <;> simp [line]
  | cons c cs ih =>
    cases n with
    | zero => simp [line]
    | succ n =>
      unfold line
      split
      · simp
      · have := ih n
        simp
        omega

theorem utf8s_cons' (c : Nat) (cs : List Nat) : utf8s (c :: cs) = utf8 c ++ utf8s cs := by simp [utf8s]

theorem newline_iff {c : Nat} (hc : Scalar c) : (UInt32.ofNat c).toInt32 = 0x0A ↔ c = 10 := by
  rw [← Int32.toInt_inj, wide_toInt hc, show (0x0A : Int32).toInt = 10 from rfl]
  omega

theorem loop_line (cs : List Nat) (hcs : ∀ c ∈ cs, Scalar c) (left ws i : Nat) {wm : Mem Int32} {s : S} (ho : s.orientation ≤ 0) (h : s.file.ReadOk)
    (hk : ∀ t, s.file.k.answer t ≠ .err) (hr : s.file.rest = utf8s cs) (hm : Mapped wm (ws + i) left) :
    ∃ s', fgetwsLoop left ws i wm s = some (i + (line left cs).length, patch wm (ws + i) (wide (line left cs)), s') ∧ Took s.file (utf8s (line left cs)) s'.file ∧
      ferror s'.file = ferror s.file := by
  induction left generalizing cs i wm s with
  | zero =>
    refine ⟨s, ?_, ?_, rfl⟩
    · simp [fgetwsLoop, line, wide]
    · exact Took.refl h
  | succ left ih =>
    cases cs with
    | nil =>
      obtain ⟨v, f', e, hv⟩ := C36_getc h
      have hrest : s.file.rest = [] := hr
      have hflags := C68_getc h e
      rcases hv with ⟨b', h1, h2, h3⟩ | ⟨h1, h2, h3⟩
      · have := h2.rest
        rw [hrest] at this
        cases this
      · have hg : fgetwc s = some (⟨WEOF, false⟩, ⟨f', if s.orientation = 0 then -1 else s.orientation⟩) := by
          unfold fgetwc
          rw [getcU_eq ho, e]
          dsimp only [Option.map]
          rw [h1, if_pos rfl]
        refine ⟨⟨f', if s.orientation = 0 then -1 else s.orientation⟩, ?_, by simpa [line, utf8s] using h2, ?_⟩
        · rw [fgetwsLoop, hg]
          dsimp only
          rw [if_pos rfl]
          simp [line, wide]
        · show ferror f' = ferror s.file
          rcases hflags with ⟨q, _⟩ | ⟨_, _, q⟩ | ⟨_, ⟨t, _, _, q⟩, _⟩
          · exact absurd h1 q
          · unfold ferror
            rw [q]
            have : ∀ x : UInt32, (x ||| F_EOF) &&& F_ERR = x &&& F_ERR := by
              intro x
              apply UInt32.toBitVec_inj.1
              simp only [UInt32.toBitVec_and, UInt32.toBitVec_or]
              rw [BitVec.and_comm, BitVec.and_or_distrib_left, BitVec.and_comm, BitVec.and_comm F_ERR.toBitVec F_EOF.toBitVec]
              have : F_EOF.toBitVec &&& F_ERR.toBitVec = 0#32 := by decide
              rw [this, BitVec.or_zero]
            exact this _
          · exact absurd q (hk t)
    | cons c cs =>
      have hc := hcs c (by simp)
      rw [utf8s_cons'] at hr
      obtain ⟨g, s', e, ho', hv⟩ := C140_fgetwc_partial ho h hc hr
      rcases hv with ⟨h1, h2, h3⟩ | ⟨_, ⟨t, _, _, q⟩, _⟩
      · rw [fgetwsLoop, e]
        dsimp only
        rw [h1]
        dsimp only
        rw [if_neg (scalar_weof hc), store_patch hm.head]
        dsimp only
        have hr' : s'.file.rest = utf8s cs := by
          have := h2.rest
          rw [hr] at this
          exact (List.append_cancel_left this).symm
        by_cases hnl : c = 10
        · rw [if_pos ((newline_iff hc).2 hnl)]
          refine ⟨s', ?_, ?_, by unfold ferror; rw [h3]⟩
          · simp [line, hnl, wide]
          · simp only [line, if_pos hnl]
            rw [utf8s_cons']
            simpa [utf8s] using h2
        · rw [if_neg (fun q => hnl ((newline_iff hc).1 q))]
          obtain ⟨s'', e', t', q'⟩ := ih cs (fun x hx => hcs x (by simp [hx])) (i + 1) (wm := patch wm (ws + i) [(UInt32.ofNat c).toInt32]) (lt_le ho') h2.ok
            (by rw [h2.answer]; exact hk) hr' (mapped_patch (by rw [← Nat.add_assoc]; exact hm.shift))
          refine ⟨s'', ?_, ?_, ?_⟩
          · rw [e']
            simp only [line, if_neg hnl]
            have hp := patch_append wm (ws + i) [(UInt32.ofNat c).toInt32] (wide (line left cs))
            simp only [List.length_cons, List.length_nil] at hp
            have e1 : ws + (i + 1) = ws + i + (0 + 1) := by omega
            rw [e1, hp]
            simp only [List.length_cons, wide, List.map_cons, List.cons_append, List.nil_append]
            congr 2
            omega
          · simp only [line, if_neg hnl]
            rw [utf8s_cons']
            exact h2.trans t'
          · rw [q']
            unfold ferror
            rw [h3]
      · exact absurd q (hk t)

/-- **C140, partial.** `fgetws` on a stream that holds the encoding of characters stores those of the next line, at most `n` − 1, and a null character, and takes just their bytes; it returns the
null pointer only if there are none. Nothing else in memory changes. Missing: an error indicator set before the call (`C140_sticky_violation`); bytes that encode nothing. -/
theorem C140_fgetws_partial {s : S} (ho : s.orientation ≤ 0) (h : s.file.ReadOk) (hk : ∀ t, s.file.k.answer t ≠ .err) {cs : List Nat} (hcs : ∀ c ∈ cs, Scalar c)
    (hr : s.file.rest = utf8s cs) (he : ferror s.file = 0) {wm : Mem Int32} {ws : Nat} {n : Int32} (hn : 0 < n.toInt) (hm : Mapped wm ws n.toInt.toNat) :
    ∃ s', fgetws wm ws n s = some (decide (line (n.toInt.toNat - 1) cs ≠ []), patch wm ws (wide (line (n.toInt.toNat - 1) cs) ++ [0]), s') ∧
      Took s.file (utf8s (line (n.toInt.toNat - 1) cs)) s'.file := by
  have hle : (n.toInt - 1).toNat = n.toInt.toNat - 1 := by omega
  obtain ⟨s', e, t, q⟩ := loop_line cs hcs (n.toInt.toNat - 1) ws 0 (wm := wm) ho h hk hr (hm.mono (by omega))
  have hll := line_length (n.toInt.toNat - 1) cs
  refine ⟨s', ?_, t⟩
  unfold fgetws
  rw [hle, e]
  dsimp only
  rw [Nat.zero_add, Nat.add_zero]
  have hsome : (patch wm ws (wide (line (n.toInt.toNat - 1) cs)) (ws + (line (n.toInt.toNat - 1) cs).length)).isSome := by
    exact isSome_patch (hm _ (by omega))
  rw [store_patch hsome]
  dsimp only
  have hp := patch_append wm ws (wide (line (n.toInt.toNat - 1) cs)) [0]
  have hwl : (wide (line (n.toInt.toNat - 1) cs)).length = (line (n.toInt.toNat - 1) cs).length := by simp [wide]
  rw [hwl] at hp
  rw [hp, q, he]
  congr 2
  rw [Bool.eq_iff_iff]
  simp [List.length_eq_zero_iff]

/-- **C140, violated.** If the error indicator was set before, `fgetws` returns the null pointer although it has read a line. -/
theorem C140_sticky_violation {s : S} (ho : s.orientation ≤ 0) (h : s.file.ReadOk) (hk : ∀ t, s.file.k.answer t ≠ .err) {cs : List Nat} (hcs : ∀ c ∈ cs, Scalar c)
    (hr : s.file.rest = utf8s cs) (he : ferror s.file ≠ 0) {wm : Mem Int32} {ws : Nat} {n : Int32} (hn : 0 < n.toInt) (hm : Mapped wm ws n.toInt.toNat) :
    ∃ wm' s', fgetws wm ws n s = some (false, wm', s') ∧ Took s.file (utf8s (line (n.toInt.toNat - 1) cs)) s'.file := by
  have hle : (n.toInt - 1).toNat = n.toInt.toNat - 1 := by omega
  obtain ⟨s', e, t, q⟩ := loop_line cs hcs (n.toInt.toNat - 1) ws 0 (wm := wm) ho h hk hr (hm.mono (by omega))
  have hll := line_length (n.toInt.toNat - 1) cs
  unfold fgetws
  rw [hle, e]
  dsimp only
  rw [Nat.zero_add, Nat.add_zero]
  have hsome : (patch wm ws (wide (line (n.toInt.toNat - 1) cs)) (ws + (line (n.toInt.toNat - 1) cs).length)).isSome := by
    exact isSome_patch (hm _ (by omega))
  rw [store_patch hsome]
  dsimp only
  rw [q]
  refine ⟨patch (patch wm ws (wide (line (n.toInt.toNat - 1) cs))) (ws + (line (n.toInt.toNat - 1) cs).length) [0], s', ?_, t⟩
  simp [he]

/-- **C140, violated.** A buffer of no elements is written to: `fgetws(ws, 0, stream)` stores a null character at `ws`. -/
theorem C140_empty_violation {s : S} {wm : Mem Int32} {ws : Nat} {n : Int32} (hn : n.toInt ≤ 0) (hm : (wm ws).isSome) :
    fgetws wm ws n s = some (false, patch wm ws [0], s) := by
  unfold fgetws
  have : (n.toInt - 1).toNat = 0 := by omega
  rw [this]
  simp only [fgetwsLoop, Nat.add_zero]
  rw [store_patch hm]
  simp

/-! ## Writing -/

theorem putAll_wrote (l : List UInt8) {s : S} (ho : s.orientation ≤ 0) (hw : s.file.writer.Ok) :
    Wrote s.file l (putAll s l).file ∧ (putAll s l).orientation ≤ 0 ∨
      (∃ acc, Wrote s.file acc (putAll s l).file) ∧ Refused s.file.k (putAll s l).file.k ∧ (putAll s l).orientation ≤ 0 := by
  induction l generalizing s with
  | nil => exact .inl ⟨Wrote.refl hw, ho⟩
  | cons b l ih =>
    rw [putAll, fputc_eq ho]
    dsimp only
    have hs : (putc s.file (charInt b)).2 = (s.file.write [b]).2 := by
      unfold putc
      rw [charInt_byte]
      split <;> rename_i q <;> rw [q]
    obtain ⟨r, f', e, w, hl, hrf, _⟩ := file_write s.file [b] hw
    rw [hs, e]
    dsimp only
    have hih := ih (s := ⟨f', if s.orientation = 0 then -1 else s.orientation⟩) (lt_le (byte_neg ho)) w.ok
    dsimp only at hih
    by_cases h0 : r.getD 0 = 0
    · have hR := hrf h0 (by simp)
      have w' : Wrote s.file [] f' := by
        rw [h0] at w
        exact w
      refine .inr ?_
      rcases hih with ⟨q1, q2⟩ | ⟨⟨acc, q1⟩, _, q2⟩
      · refine ⟨⟨_, w'.trans q1⟩, ?_, q2⟩
        obtain ⟨a, hput, _⟩ := q1.sent.ex
        exact hR.before hput
      · refine ⟨⟨_, w'.trans q1⟩, ?_, q2⟩
        obtain ⟨a, hput, _⟩ := q1.sent.ex
        exact hR.before hput
    · have w' : Wrote s.file [b] f' := by
        have h1 : r.getD 0 = 1 := by
          simp only [List.length_cons, List.length_nil] at hl
          omega
        rw [h1] at w
        exact w
      rcases hih with ⟨q1, q2⟩ | ⟨⟨acc, q1⟩, q2, q3⟩
      · exact .inl ⟨w'.trans q1, q2⟩
      · exact .inr ⟨⟨_, w'.trans q1⟩, q2.afterS w'.sent, q3⟩

theorem fputwc_char {s : S} {c : Nat} {wc : Int32} (hc : Scalar c) (hwc : wc.toInt = c) : fputwc s wc = some (wc.toUInt32, putAll s (utf8 c)) := by
  have hl := length_utf8 (c := c)
  unfold fputwc
  obtain ⟨r, e1, e2⟩ := C31_wcrtomb (m := buffer []) (s := 0) hc hwc ((buffer_mapped [] (by simp)).mono hl.2)
  rw [e1]
  dsimp only
  obtain ⟨l, hl4, hb⟩ := (mapped_patch (p := 0) (l := utf8 c) (buffer_mapped [] (by simp))).exists_bytes
  have := hb.readN
  rw [hl4] at this
  rw [this]
  dsimp only
  have : l.take r.toNat = utf8 c := by
    have h1 : l = l.take (utf8 c).length ++ l.drop (utf8 c).length := (List.take_append_drop _ _).symm
    rw [h1] at hb
    have h2 := (bytes_append.1 hb).1
    rw [e2]
    refine Bytes.unique h2 (bytes_patch _ _ _) ?_
    rw [List.length_take]
    omega
  rw [this]

/-- **C140, partial.** `fputwc` of a character: its encoding is accepted by the stream, after everything before, and the character is returned; or the kernel refused something.
Missing: that `WEOF` is returned then (`C140_error_violation`); streams of wide orientation; other values (`C140_invalid_violation`). -/
theorem C140_fputwc_partial {s : S} (ho : s.orientation ≤ 0) (hw : s.file.writer.Ok) {c : Nat} {wc : Int32} (hc : Scalar c) (hwc : wc.toInt = c) :
    ∃ s', fputwc s wc = some (UInt32.ofNat c, s') ∧ (Accepted s.file (utf8 c) s'.file ∨ Refused s.file.k s'.file.k) := by
  refine ⟨putAll s (utf8 c), ?_, ?_⟩
  · rw [fputwc_char hc hwc, wc32 hc hwc]
  · rcases putAll_wrote (utf8 c) ho hw with ⟨q, _⟩ | ⟨_, q, _⟩
    · exact .inl q.accepted
    · exact .inr q

/-- **C140, violated.** `fputwc` never tells: whatever happens to the stream, it returns its argument. -/
theorem C140_error_violation (s : S) (wc : Int32) {r : UInt32} {s' : S} (h : fputwc s wc = some (r, s')) : r = wc.toUInt32 := by
  unfold fputwc at h
  split at h
  · cases h
  · split at h
    · cases h
    · cases h
      rfl

/-- **C140, violated.** A value that is no character is not refused: four null bytes are written, and the value is returned. -/
theorem C140_invalid_violation {s : S} (ho : s.orientation ≤ 0) (hw : s.file.writer.Ok) {wc : Int32} (hc : ¬ ∃ c : Nat, Scalar c ∧ wc.toInt = c) :
    ∃ s', fputwc s wc = some (wc.toUInt32, s') ∧ (Accepted s.file [0, 0, 0, 0] s'.file ∨ Refused s.file.k s'.file.k) := by
  have : fputwc s wc = some (wc.toUInt32, putAll s [0, 0, 0, 0]) := by
    unfold fputwc
    rw [C31_wcrtomb_invalid _ _ hc]
    rfl
  refine ⟨_, this, ?_⟩
  rcases putAll_wrote [0, 0, 0, 0] ho hw with ⟨q, _⟩ | ⟨_, q, _⟩
  · exact .inl q.accepted
  · exact .inr q

theorem fputws_wrote (cs : List Nat) (hcs : ∀ c ∈ cs, Scalar c) {s : S} (ho : s.orientation ≤ 0) (hw : s.file.writer.Ok) :
    ∃ s', fputws s (wide cs) = some (0, s') ∧ s'.orientation ≤ 0 ∧
      (Wrote s.file (utf8s cs) s'.file ∨ (∃ acc, Wrote s.file acc s'.file) ∧ Refused s.file.k s'.file.k) := by
  induction cs generalizing s with
  | nil => exact ⟨s, rfl, ho, .inl (Wrote.refl hw)⟩
  | cons c cs ih =>
    have hc := hcs c (by simp)
    have hcs' : ∀ x ∈ cs, Scalar x := fun x hx => hcs x (by simp [hx])
    have hwc : ((UInt32.ofNat c).toInt32).toInt = c := wide_toInt hc
    have e := fputwc_char (s := s) hc hwc
    have hx : fputws s (wide (c :: cs)) = fputws (putAll s (utf8 c)) (wide cs) := by
      show (match fputwc s (UInt32.ofNat c).toInt32 with
        | none => none
        | some (r, s) => if r = WEOF then some (-1, s) else fputws s (wide cs)) = _
      rw [e]
      dsimp only
      rw [wc32 hc hwc, if_neg (scalar_weof hc)]
    rw [hx, utf8s_cons']
    rcases putAll_wrote (utf8 c) ho hw with ⟨q1, q2⟩ | ⟨⟨acc, q1⟩, q3, q2⟩
    · obtain ⟨s', e', o', v⟩ := ih hcs' q2 q1.ok
      refine ⟨s', e', o', ?_⟩
      rcases v with v | ⟨⟨acc, v⟩, v'⟩
      · exact .inl (q1.trans v)
      · exact .inr ⟨⟨_, q1.trans v⟩, v'.afterS q1.sent⟩
    · obtain ⟨s', e', o', v⟩ := ih hcs' q2 q1.ok
      refine ⟨s', e', o', .inr ?_⟩
      rcases v with v | ⟨⟨acc', v⟩, v'⟩
      · obtain ⟨a, hput, _⟩ := v.sent.ex
        exact ⟨⟨_, q1.trans v⟩, q3.before hput⟩
      · exact ⟨⟨_, q1.trans v⟩, v'.afterS q1.sent⟩

/-- **C140, partial.** `fputws` of a text: its encoding is accepted, or the kernel refused something. Missing: as for `fputwc`. -/
theorem C140_fputws_partial {s : S} (ho : s.orientation ≤ 0) (hw : s.file.writer.Ok) {cs : List Nat} (hcs : ∀ c ∈ cs, Scalar c) :
    ∃ s', fputws s (wide cs) = some (0, s') ∧ (Accepted s.file (utf8s cs) s'.file ∨ Refused s.file.k s'.file.k) := by
  obtain ⟨s', e, _, v⟩ := fputws_wrote cs hcs ho hw
  refine ⟨s', e, ?_⟩
  rcases v with v | ⟨_, v⟩
  · exact .inl v.accepted
  · exact .inr v

/-! ## Giving back -/

theorem ungetAll_spec (l : List UInt8) {s : S} (ho : s.orientation ≤ 0) (h : s.file.ReadOk) :
    (ungetAll s l).orientation ≤ 0 ∧ (ungetAll s l).file.ReadOk ∧ (ungetAll s l).file.rest = l ++ s.file.rest ∧ (ungetAll s l).file.k = s.file.k ∧
      (ungetAll s l).file.flags = s.file.flags := by
  induction l with
  | nil => exact ⟨ho, h, rfl, rfl, rfl⟩
  | cons b l ih =>
    obtain ⟨i1, i2, i3, i4, i5⟩ := ih
    rw [ungetAll, ungetcU_eq i1]
    refine ⟨lt_le (byte_neg i1), ⟨i2.order, i2.bound, i2.room⟩, ?_, i4, i5⟩
    have : (ungetc (ungetAll s l).file (charInt b)).2.rest = b :: (ungetAll s l).file.rest := by
      unfold ungetc FILE.rest
      rw [charInt_byte]
      rfl
    dsimp only
    rw [this, i3]
    rfl

/-- **C140.** What `ungetwc` gives back, `fgetwc` reads next, and everything else follows: for every character, whatever was read before. -/
theorem C140_ungetwc {s : S} (ho : s.orientation ≤ 0) (h : s.file.ReadOk) {c : Nat} (hc : Scalar c) :
    ∃ s1, ungetwc s (UInt32.ofNat c) = some (UInt32.ofNat c, s1) ∧ s1.orientation ≤ 0 ∧ s1.file.ReadOk ∧ s1.file.rest = utf8 c ++ s.file.rest ∧ s1.file.k = s.file.k ∧
      s1.file.flags = s.file.flags := by
  have hl := length_utf8 (c := c)
  unfold ungetwc
  rw [if_neg (scalar_weof hc)]
  obtain ⟨r, e1, e2⟩ := C31_wcrtomb (m := buffer []) (s := 0) hc (wide_toInt hc) ((buffer_mapped [] (by simp)).mono hl.2)
  rw [e1]
  dsimp only
  have hmax : r ≠ sizeMax := by
    intro q
    rw [q] at e2
    have : sizeMax.toNat = 2 ^ 64 - 1 := rfl
    omega
  rw [if_neg hmax]
  obtain ⟨l, hl4, hb⟩ := (mapped_patch (p := 0) (l := utf8 c) (buffer_mapped [] (by simp))).exists_bytes
  have := hb.readN
  rw [hl4] at this
  rw [this]
  dsimp only
  have : l.take r.toNat = utf8 c := by
    have h1 : l = l.take (utf8 c).length ++ l.drop (utf8 c).length := (List.take_append_drop _ _).symm
    rw [h1] at hb
    have h2 := (bytes_append.1 hb).1
    rw [e2]
    refine Bytes.unique h2 (bytes_patch _ _ _) ?_
    rw [List.length_take]
    omega
  rw [this]
  obtain ⟨i1, i2, i3, i4, i5⟩ := ungetAll_spec (utf8 c) ho h
  exact ⟨_, rfl, i1, i2, i3, i4, i5⟩

/-- **C140, violated.** `ungetwc` does not clear the end-of-file indicator (it should). -/
theorem C140_unget_eof_violation {s : S} (ho : s.orientation ≤ 0) (h : s.file.ReadOk) {c : Nat} (hc : Scalar c) (he : feof s.file ≠ 0) :
    ∃ s1, ungetwc s (UInt32.ofNat c) = some (UInt32.ofNat c, s1) ∧ feof s1.file ≠ 0 := by
  obtain ⟨s1, e, _, _, _, _, q⟩ := C140_ungetwc ho h hc
  refine ⟨s1, e, ?_⟩
  unfold feof
  rw [q]
  exact he

/-! ## A new stream -/

/-- **C140.** A new stream on a file that holds the encoding of a text gives its first line. -/
theorem C140_new_stream {cs : List Nat} (hcs : ∀ c ∈ cs, Scalar c) (k : Kernel) (flags : UInt32) (hk : k.data = utf8s cs) (hp : k.pos = 0) (he : ∀ t, k.answer t ≠ .err)
    (hf : flags &&& F_ERR = 0) {wm : Mem Int32} {ws : Nat} {n : Int32} (hn : 0 < n.toInt) (hm : Mapped wm ws n.toInt.toNat) :
    ∃ s', fgetws wm ws n ⟨fdopen k flags, 0⟩ = some (decide (line (n.toInt.toNat - 1) cs ≠ []), patch wm ws (wide (line (n.toInt.toNat - 1) cs) ++ [0]), s') := by
  obtain ⟨s', e, _⟩ := C140_fgetws_partial (s := ⟨fdopen k flags, 0⟩) (by show (0 : Int32) ≤ 0; decide) (fdopen_ok k flags) he hcs
    (by rw [(C36_new k flags).1, hk, hp]; rfl) hf hn hm
  exact ⟨s', e⟩

/-! ## Examples -/

/-- "é\n€": the first line, then the second, then the end. -/
example : ∃ s1 s2 s3 s4, fgetwc ⟨smallStream [0xC3, 0xA9, 0x0A, 0xE2, 0x82, 0xAC], 0⟩ = some (⟨0xE9, false⟩, s1) ∧ fgetwc s1 = some (⟨0x0A, false⟩, s2) ∧
    fgetwc s2 = some (⟨0x20AC, false⟩, s3) ∧ fgetwc s3 = some (⟨WEOF, false⟩, s4) ∧ feof s4.file ≠ 0 := by
  refine ⟨_, _, _, _, rfl, rfl, rfl, rfl, ?_⟩
  decide +kernel

example : line 5 [0xE9, 10, 0x20AC] = [0xE9, 10] ∧ line 1 [0xE9, 10] = [0xE9] := by decide

/-- The two bytes C3 28 are no character; what comes back is a null character. -/
example : ∃ s1, fgetwc ⟨smallStream [0xC3, 0x28], 0⟩ = some (⟨0, true⟩, s1) ∧ ferror s1.file = 0 ∧ feof s1.file = 0 := by
  refine ⟨_, rfl, ?_, ?_⟩ <;> decide +kernel

example : charEncodedLength 0xC3 = some 2 := by decide

/-- A stream that ends after C3. -/
example : ∃ s1, fgetwc ⟨smallStream [0xC3], 0⟩ = some (⟨WEOF, false⟩, s1) ∧ ferror s1.file = 0 ∧ feof s1.file ≠ 0 := by
  refine ⟨_, rfl, ?_, ?_⟩ <;> decide +kernel

/-- `fwide(stream, 1)`, then `fgetwc`. -/
example : ∃ s1, fgetwc (fwide ⟨smallStream [0x41], 0⟩ 1).2 = some (⟨WEOF, false⟩, s1) ∧ s1.file.rest = [0x41] := by
  exact ⟨_, rfl, by decide +kernel⟩

end Verif.Wstdio
