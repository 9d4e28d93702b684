import Verif.Stdio.PrintfRun
import Verif.Stdio.SnprintfProps
import Verif.Stdlib.RandomProps
import Verif.Wchar.MbsProps
/-!
# `printf`: C35, C62

`Format.Out` (in `PrintfSpec.lean`) says what a format prints according to ISO C. `Call.SignedOk` and
`Call.UnsignedOk` (in `PrintfConv.lean`) single out the integer conversions for which the code agrees; the theorems with
`_violation` in their names show what happens outside.
-/

namespace Verif.Stdio
open Verif.Mem Verif.Stdlib Verif.Wchar

/-- A text in ASCII. -/
def ascii (s : String) : List UInt8 := s.toList.map (fun c => UInt8.ofNat c.toNat)

theorem toInt_ofNat32 {n : Nat} (h : n < 2 ^ 31) : (Int32.ofNat n).toInt = n := by
  rw [Int32.toInt_ofNat']
  exact Int.bmod_eq_of_le (by simp) (by have e : ((2 ^ 32 : Nat) : Int) = 4294967296 := rfl; rw [e]; omega)

/-- C35: a format with any sequence of text and conversions, in which the integer conversions are within the limits of
`Call.Good`, prints what ISO C says, performs the stores of `%n`, and returns the number of bytes. Arguments beyond
those the format asks for do no harm.

Missing: integer conversions outside of `Call.Good`, for which the code is wrong (below). -/
theorem C35_printf_partial {m : Mem UInt8} {f : Format} {o : List UInt8} {so : List Count.Store} (hf : f.Ok)
    (hg : ∀ x ∈ f.dirs, x.2.Good) (hout : Format.Out m 0 f o so) (ho : o.length < 2 ^ 31) (e : List UInt8)
    (more : VaList) :
    ∃ cs r, printf m e f.text (f.words ++ more) = some (cs, so.map Count.Store.toN, r) ∧ cs.flatten = o
      ∧ r.toInt = o.length := by
  obtain ⟨cs, h1, h2⟩ := printf_eq hf hg hout e more
  exact ⟨cs, _, h1, h2, toInt_ofNat32 ho⟩

/-- C35, the most used part: no flag but `-`, any literal or `*` width, no precision. -/
theorem C35_plain_signed {m : Mem UInt8} {c : Call} (hd : c.dir.Ok) (hc : c.dir.cv = .d ∨ c.dir.cv = .i)
    (hf : ∀ x ∈ c.dir.flags, x = .left) (hp : c.dir.prec = .none) (e : List UInt8) :
    ∃ cs, printf m e c.dir.text c.words
        = some (cs, [], Int32.ofNat (c.justify ((if sval c.dir.len.bits c.vWord < 0 then [0x2D] else [])
            ++ numeral 10 false (sval c.dir.len.bits c.vWord).natAbs)).length)
      ∧ cs.flatten = c.justify ((if sval c.dir.len.bits c.vWord < 0 then [0x2D] else [])
            ++ numeral 10 false (sval c.dir.len.bits c.vWord).natAbs) := by
  have hno : ∀ x, x ≠ .left → c.has x = false := by
    intro x hx
    unfold Call.has
    simp only [decide_eq_false_iff_not]
    exact fun h => hx (hf x h)
  have hpn : c.prec = none := by unfold Call.prec; rw [hp]
  have hgood : c.Good := by
    refine ⟨fun _ => ⟨fun _ h => ?_, fun _ p h => ?_, fun h => ?_, fun _ h => ?_⟩, fun h => ?_⟩
    · rw [hno .plus (by simp)] at h; simp at h
    · rw [hpn] at h; simp at h
    · rw [hno .zero (by simp)] at h; simp at h
    · rw [hpn] at h; simp at h
    · rcases hc with hc | hc <;> rw [hc] at h <;> simp at h
  have key : c.signed (sval c.dir.len.bits c.vWord)
      = c.justify ((if sval c.dir.len.bits c.vWord < 0 then [0x2D] else [])
            ++ numeral 10 false (sval c.dir.len.bits c.vWord).natAbs) := by
    unfold Call.signed Call.field Call.sign Call.justify withPrec
    rw [hpn, hno .plus (by simp), hno .space (by simp), hno .zero (by simp)]
    simp only [Bool.false_eq_true, if_false, false_and, List.length_append]
    split <;> simp
  have hF : (⟨[([], c)], []⟩ : Format).Ok :=
    ⟨fun x hx => by simp at hx; subst hx; intro b hb; simp at hb, fun x hx => by simp at hx; subst hx; exact hd,
      fun b hb => by simp at hb⟩
  have hout : Format.Out m 0 ⟨[([], c)], []⟩ (c.signed (sval c.dir.len.bits c.vWord)) [] :=
    .step (.signed hc) .done (by simp) rfl
  obtain ⟨cs, h1, h2⟩ := printf_eq hF (by intro x hx; simp at hx; subst hx; exact hgood) hout e []
  refine ⟨cs, ?_, by rw [h2, key]⟩
  rw [← key]
  simpa [Format.text, Format.words] using h1

/-- `x = %5d|%-*hu|%#.4lx!` -/
def demo : Format where
  dirs := [(ascii "x = ", ⟨⟨[], .lit [5], .none, .none, .d⟩, 0, 0, 0xFFFFFFFE⟩),
    (ascii "|", ⟨⟨[.left], .star, .none, .h, .u⟩, 4, 0, 0x10007⟩),
    (ascii "|", ⟨⟨[.alt], .none, .lit [4], .l, .x⟩, 0, 0, 0xABC⟩)]
  tail := ascii "!"

/-- `printf("x = %5d|%-*hu|%#.4lx!", -2, 4, 0x10007, 0xABC)` prints `x =    -2|7   |0x0abc!`. -/
example (m : Mem UInt8) : ∃ cs r, printf m [] (ascii "x = %5d|%-*hu|%#.4lx!") [0xFFFFFFFE, 4, 0x10007, 0xABC]
    = some (cs, [], r) ∧ cs.flatten = ascii "x =    -2|7   |0x0abc!" ∧ r.toInt = 22 := by
  have hok : demo.Ok := by
    refine ⟨?_, ?_, by decide⟩
    · intro x hx
      simp only [demo, List.mem_cons, List.not_mem_nil, or_false] at hx
      rcases hx with rfl | rfl | rfl <;> decide
    · intro x hx
      simp only [demo, List.mem_cons, List.not_mem_nil, or_false] at hx
      rcases hx with rfl | rfl | rfl <;> refine ⟨?_, ?_, by simp, by simp⟩ <;> simp <;> decide
  have hg : ∀ x ∈ demo.dirs, x.2.Good := by
    intro x hx
    simp only [demo, List.mem_cons, List.not_mem_nil, or_false] at hx
    rcases hx with rfl | rfl | rfl <;>
      simp [Call.Good, Call.SignedOk, Call.UnsignedOk, Call.prec, Call.has, uval, Len.bits, numeral, litVal]
  have hout : Format.Out m 0 demo (ascii "x =    -2|7   |0x0abc!") [] := by
    refine .step (.signed (.inl rfl)) (.step (.unsigned (by simp)) (.step (.unsigned (by simp)) .done rfl rfl) rfl rfl) ?_ rfl
    decide +kernel
  exact C35_printf_partial hok hg hout (by decide) [] []

/-! ## Where the code departs from ISO C -/

/-- `text`, called with the words of `c`, prints `actual` where ISO C says `expected`. -/
structure Violation (c : Call) (text actual expected : String) : Prop where
  ok : c.dir.Ok
  spelled : c.dir.text = ascii text
  prints : ∀ m e, ∃ cs, printf m e (ascii text) c.words = some (cs, [], Int32.ofNat actual.length) ∧ cs.flatten = ascii actual
  should : ∀ m, Prints m c 0 (ascii expected) []
  differs : ascii actual ≠ ascii expected

theorem signed_violation {c : Call} {text actual expected : String} (ok : c.dir.Ok) (h : c.dir.cv = .d)
    (spelled : c.dir.text = ascii text)
    (ha : (signedChunks (layoutOf c.dir.arg c.rawWidth c.rawPrec) (sval c.dir.len.bits c.vWord)).flatten = ascii actual)
    (hl : (ascii actual).length = actual.length)
    (he : c.signed (sval c.dir.len.bits c.vWord) = ascii expected) (hd : ascii actual ≠ ascii expected) :
    Violation c text actual expected := by
  refine ⟨ok, spelled, fun m e => ?_, fun m => he ▸ .signed (.inl h), hd⟩
  refine ⟨_, ?_, ha⟩
  rw [← spelled, ← hl, ← ha]
  apply printf_single ok (by rw [h]; simp)
  have hk : c.dir.arg.fmtkind = .signed := by simp [Dir.arg, h, Cv.kind]
  unfold convert
  rw [hk]
  simp [signedVal_va (.inl h)]

theorem unsigned_violation {c : Call} {text actual expected : String} (ok : c.dir.Ok)
    (h : c.dir.cv ∈ [Cv.o, .u, .x, .X, .b, .B]) (spelled : c.dir.text = ascii text)
    (ha : (unsignedChunks (layoutOf c.dir.arg c.rawWidth c.rawPrec) c.dir.cv.byte (uval c.dir.len.bits c.vWord)).map List.flatten
      = some (ascii actual))
    (hl : (ascii actual).length = actual.length)
    (he : c.unsigned (uval c.dir.len.bits c.vWord) = ascii expected) (hd : ascii actual ≠ ascii expected) :
    Violation c text actual expected := by
  refine ⟨ok, spelled, fun m e => ?_, fun m => he ▸ .unsigned h, hd⟩
  rw [Option.map_eq_some_iff] at ha
  obtain ⟨cs, h1, h2⟩ := ha
  refine ⟨cs, ?_, h2⟩
  rw [← spelled, ← hl, ← h2]
  apply printf_single ok (by intro h'; rw [h'] at h; simp at h)
  have hk : c.dir.arg.fmtkind = .unsigned := by
    simp only [List.mem_cons, List.not_mem_nil, or_false] at h
    rcases h with h | h | h | h | h | h <;> simp [Dir.arg, h, Cv.kind]
  have hf : c.dir.arg.fmt = c.dir.cv.byte := rfl
  unfold convert
  rw [hk, hf]
  simp [unsignedVal_va h, h1]

/-- With both flags ` ` and `+`, the space wins. -/
theorem C35_space_plus_violation : Violation ⟨⟨[.space, .plus], .none, .none, .none, .d⟩, 0, 0, 5⟩ "% +d" " 5" "+5" :=
  signed_violation ⟨by simp, by simp, by simp, by simp⟩ rfl rfl (by decide +kernel) rfl (by decide +kernel) (by decide)

/-- The sign counts as a digit for the precision. -/
theorem C35_precision_sign_violation :
    Violation ⟨⟨[], .none, .lit [3], .none, .d⟩, 0, 0, 0xFFFFFFFB⟩ "%.3d" "-05" "-005" :=
  signed_violation ⟨by simp, by intro ds h; cases h; decide, by simp, by simp⟩ rfl rfl (by decide +kernel) rfl (by decide +kernel) (by decide)

/-- Zero padding does not leave room for `+`. -/
theorem C35_zero_plus_violation :
    Violation ⟨⟨[.plus, .zero], .lit [5], .none, .none, .d⟩, 0, 0, 7⟩ "%+05d" "+00007" "+0007" :=
  signed_violation ⟨by intro ds h; cases h; decide, by simp, by simp, by simp⟩ rfl rfl (by decide +kernel) rfl (by decide +kernel) (by decide)

/-- The flag `-` does not switch off zero padding. -/
theorem C35_zero_left_violation :
    Violation ⟨⟨[.left, .zero], .lit [5], .none, .none, .d⟩, 0, 0, 7⟩ "%-05d" "00007" "7    " :=
  signed_violation ⟨by intro ds h; cases h; decide, by simp, by simp, by simp⟩ rfl rfl (by decide +kernel) rfl (by decide +kernel) (by decide)

/-- A lone sign (0 with precision 0) is not counted in the width. -/
theorem C35_zero_precision_plus_violation :
    Violation ⟨⟨[.plus], .lit [5], .lit [0], .none, .d⟩, 0, 0, 0⟩ "%+5.0d" "     +" "    +" :=
  signed_violation ⟨by intro ds h; cases h; decide, by intro ds h; cases h; decide, by simp, by simp⟩ rfl rfl (by decide +kernel) rfl (by decide +kernel) (by decide)

/-- A negative precision argument does not bring back zero padding. -/
theorem C35_zero_star_precision_violation :
    Violation ⟨⟨[.zero], .lit [5], .star, .none, .d⟩, 0, 0xFFFFFFFF, 7⟩ "%05.*d" "    7" "00007" :=
  signed_violation ⟨by intro ds h; cases h; decide, by simp, by simp, by simp⟩ rfl rfl (by decide +kernel) rfl (by decide +kernel) (by decide)

/-- `%#.0o` of 0 prints nothing. -/
theorem C35_octal_zero_violation :
    Violation ⟨⟨[.alt], .none, .lit [0], .none, .o⟩, 0, 0, 0⟩ "%#.0o" "" "0" :=
  unsigned_violation ⟨by simp, by intro ds h; cases h; decide, by simp, by simp⟩ (by decide) rfl (by decide +kernel) rfl (by decide +kernel) (by decide)

/-- `%#o` with as many digits as the precision has no leading 0. -/
theorem C35_octal_precision_violation :
    Violation ⟨⟨[.alt], .none, .lit [3], .none, .o⟩, 0, 0, 83⟩ "%#.3o" "123" "0123" :=
  unsigned_violation ⟨by simp, by intro ds h; cases h; decide, by simp, by simp⟩ (by decide) rfl (by decide +kernel) rfl (by decide +kernel) (by decide)

/-- Zero padding does not leave room for `0x`. -/
theorem C35_zero_hex_violation :
    Violation ⟨⟨[.alt, .zero], .lit [6], .none, .none, .x⟩, 0, 0, 0xAB⟩ "%#06x" "0x0000ab" "0x00ab" :=
  unsigned_violation ⟨by intro ds h; cases h; decide, by simp, by simp, by simp⟩ (by decide) rfl (by decide +kernel) rfl (by decide +kernel) (by decide)

/-- Zero padding adds a 0 to zeros. -/
theorem C35_zero_octal_violation :
    Violation ⟨⟨[.alt, .zero], .lit [5], .none, .none, .o⟩, 0, 0, 8⟩ "%#05o" "000010" "00010" :=
  unsigned_violation ⟨by intro ds h; cases h; decide, by simp, by simp, by simp⟩ (by decide) rfl (by decide +kernel) rfl (by decide +kernel) (by decide)

/-- A precision without digits (`%.d`) counts as an error; ISO C says it is 0. -/
theorem C35_empty_precision_violation (m : Mem UInt8) (e : List UInt8) (ap : VaList) :
    printf m e (ascii "%.d") ap = some ([], [], -1) := by
  have h : items e (ascii "%.d") = some [.err] := by
    rw [items]
    rfl
  unfold printf
  rw [h]
  rfl

theorem zero_width_length (N : Nat) :
    (signedChunks ⟨false, false, false, false, 0, N, none⟩ 7).flatten.length = N - 1 + 1 := by
  have hs : signedString 7 = [0x37] := by decide +kernel
  simp only [signedChunks, hs]
  simp [pad]

/-- A negative width argument together with the flag `0`: the code takes the width for a number near 2^64 and asks for
that many zeros. -/
theorem C35_zero_negative_width_violation (m : Mem UInt8) (e : List UInt8) :
    ∃ cs r, printf m e (ascii "%0*d") [0xFFFFFFFB, 7] = some (cs, [], r) ∧ cs.flatten.length = 2 ^ 64 - 5 := by
  let c : Call := ⟨⟨[.zero], .star, .none, .none, .d⟩, 0xFFFFFFFB, 0, 7⟩
  have ok : c.dir.Ok := ⟨by simp [c], by simp [c], by simp [c], by simp [c]⟩
  have hw : c.rawWidth = 2 ^ 64 - 5 := by decide +kernel
  have hc : ∀ N, 0 < N → convert m c.dir.arg (layoutOf c.dir.arg N c.rawPrec) 0 c.va
      = some (.text (signedChunks ⟨false, false, false, false, 0, N, none⟩ 7)) := by
    intro N hN
    have hl : layoutOf c.dir.arg N c.rawPrec = ⟨false, false, false, false, 0, N, none⟩ := by
      have hz : c.dir.arg.zero = true := rfl
      have hp : c.rawPrec = none := rfl
      unfold layoutOf
      rw [hz, hp]
      simp only [if_true, Option.filter_none]
      rw [if_neg (show ¬ N = 0 by omega), if_pos (by decide)]
      rfl
    rw [hl]
    rfl
  have h1 := printf_single ok (by simp [c]) e (hc c.rawWidth (by rw [hw]; decide))
  have ht : c.dir.text = ascii "%0*d" := rfl
  have hws : c.words = [0xFFFFFFFB, 7] := rfl
  rw [ht, hws] at h1
  refine ⟨_, _, h1, ?_⟩
  rw [zero_width_length, hw]

/-! ## Text -/

/-- C62: formats with ordinary text, `%%`, `%c`, `%s` and `%n`, with any width, precision and `-`. -/
theorem C62_printf_text {m : Mem UInt8} {f : Format} {o : List UInt8} {so : List Count.Store} (hf : f.Ok)
    (ht : ∀ x ∈ f.dirs, x.2.dir.cv ∈ [Cv.percent, .c, .s, .n]) (hout : Format.Out m 0 f o so) (ho : o.length < 2 ^ 31)
    (e : List UInt8) (more : VaList) :
    ∃ cs r, printf m e f.text (f.words ++ more) = some (cs, so.map Count.Store.toN, r) ∧ cs.flatten = o
      ∧ r.toInt = o.length := by
  refine C35_printf_partial hf (fun x hx => ?_) hout ho e more
  have := ht x hx
  simp only [List.mem_cons, List.not_mem_nil, or_false] at this
  constructor <;> intro h <;> rcases this with h' | h' | h' | h' <;> rw [h'] at h <;> simp at h

/-- C62, together with `snprintf`: the buffer holds what fits of the text, and a NUL. -/
theorem C62_snprintf {m : Mem UInt8} {f : Format} {o : List UInt8} {so : List Count.Store} (hf : f.Ok)
    (ht : ∀ x ∈ f.dirs, x.2.dir.cv ∈ [Cv.percent, .c, .s]) (hout : Format.Out m 0 f o so) (ho : o.length < 2 ^ 31)
    (h0 : o ≠ []) (e : List UInt8) (more : VaList) {s n : Nat} (hm : Mapped m s n) (hn : 2 ≤ n) :
    ∃ r, snprintf m e s n f.text (f.words ++ more) = some (r, patch m s (o.take (n - 1) ++ [0])) ∧ r.toInt = o.length := by
  obtain ⟨cs, r, h1, h2, h3⟩ := C62_printf_text hf (fun x hx => by
    have := ht x hx
    simp only [List.mem_cons, List.not_mem_nil, or_false] at this ⊢
    rcases this with h | h | h <;> simp [h]) hout ho e more
  exact ⟨r, by rw [C34_snprintf_partial h1 hm hn (by rw [h2]; exact h0), h2], h3⟩

/-- `printf("<%-4s%%%c%n>", "ab", 'Z', p)`: prints `<ab  %Z>` and stores 7 at `p`. -/
example : ∃ cs r, printf (ofList 0x1000 [0x61, 0x62, 0]) [] (ascii "<%-4s%%%c%n>") [0x1000, 0x5A, 0x2000]
    = some (cs, [⟨0x2000, 4, 7⟩], r) ∧ cs.flatten = ascii "<ab  %Z>" ∧ r.toInt = 8 := by
  let f : Format := ⟨[(ascii "<", ⟨⟨[.left], .lit [4], .none, .none, .s⟩, 0, 0, 0x1000⟩),
    ([], ⟨⟨[], .none, .none, .none, .percent⟩, 0, 0, 0⟩), ([], ⟨⟨[], .none, .none, .none, .c⟩, 0, 0, 0x5A⟩),
    ([], ⟨⟨[], .none, .none, .none, .n⟩, 0, 0, 0x2000⟩)], ascii ">"⟩
  have hok : f.Ok := by
    refine ⟨?_, ?_, by decide⟩
    · intro x hx
      simp only [f, List.mem_cons, List.not_mem_nil, or_false] at hx
      rcases hx with rfl | rfl | rfl | rfl <;> decide
    · intro x hx
      simp only [f, List.mem_cons, List.not_mem_nil, or_false] at hx
      rcases hx with rfl | rfl | rfl | rfl <;> refine ⟨?_, by simp, by simp, by simp⟩ <;> simp <;> decide
  have hs : CStr (ofList 0x1000 [0x61, 0x62, 0]) 0x1000 ([0x61, 0x62] : List UInt8) :=
    cstr_iff.2 ⟨bytes_ofList .., by decide⟩
  have hout : Format.Out (ofList 0x1000 [0x61, 0x62, 0]) 0 f (ascii "<ab  %Z>") [⟨0x2000, 4, 7⟩] := by
    refine .step (.string rfl rfl (by decide) hs (by decide)) (.step (.percent rfl) (.step (.char rfl rfl)
      (.step (.written rfl) .done rfl rfl) rfl rfl) rfl rfl) ?_ ?_
    · decide +kernel
    · decide +kernel
  exact C62_printf_text hok (by intro x hx; simp only [f, List.mem_cons, List.not_mem_nil, or_false] at hx
                                rcases hx with rfl | rfl | rfl | rfl <;> decide) hout (by decide) [] []

/-! ## Wide characters -/

theorem words_tail {m : Mem UInt8} {p : Nat} {x : UInt32} {xs : List UInt32} (h : Words m p (x :: xs)) :
    Word m p x ∧ Words m (p + 4) xs := by
  refine ⟨by simpa using h 0 x rfl, fun k v hk => ?_⟩
  have := h (k + 1) v (by simpa using hk)
  rwa [show p + 4 * (k + 1) = p + 4 + 4 * k by omega] at this

theorem wideLoop_eq {m : Mem UInt8} {cs : List Nat} (hcs : Text cs) {p max : Nat} {s : List UInt8}
    (hw : Words m p (cs.map UInt32.ofNat ++ [0])) (hm : s.length + (utf8s cs).length < max) :
    wideLoop m p max s = some (some (s ++ utf8s cs)) := by
  induction cs generalizing p s with
  | nil =>
    have := rd32_eq (words_tail hw).1
    rw [wideLoop, this]
    simp [utf8s]
  | cons c cs ih =>
    obtain ⟨h1, h2⟩ := words_tail hw
    have hc := hcs c (by simp)
    have hlt := hc.1.lt
    have hn : (UInt32.ofNat c).toNat = c := UInt32.toNat_ofNat_of_lt' (by have e : UInt32.size = 4294967296 := rfl; omega)
    have h0 : UInt32.ofNat c ≠ 0 := by intro h; rw [← UInt32.toNat_inj, hn] at h; exact hc.2 h
    have he : encode (UInt32.ofNat c) = utf8 c := by rw [encode_eq _ (by rw [hn]; exact hlt), hn]
    rw [utf8s_cons, List.length_append] at hm
    rw [wideLoop, rd32_eq h1]
    simp only [Option.bind_eq_bind, Option.bind_some]
    rw [if_neg h0, if_pos ((isChar_iff _).2 (by rw [hn]; exact hc.1)), he, if_neg (by omega),
      ih (fun x hx => hcs x (by simp [hx])) h2 (by rw [List.length_append]; omega), utf8s_cons, List.append_assoc]

/-- C62: `%ls` without precision prints the wide string in UTF-8.

Missing: a precision (below). -/
theorem C62_wide_partial {m : Mem UInt8} {cs : List Nat} (hcs : Text cs) {p : UInt64} (hp : p ≠ 0)
    (hw : Words m p.toNat (cs.map UInt32.ofNat ++ [0])) (hl : (utf8s cs).length < 2 ^ 31) (e : List UInt8) :
    ∃ out r, printf m e (ascii "%ls") [p] = some (out, [], r) ∧ out.flatten = utf8s cs ∧ r.toInt = (utf8s cs).length := by
  have ok : (⟨[], .none, .none, .l, .s⟩ : Dir).Ok := ⟨by simp, by simp, by simp, by simp⟩
  have hloop := wideLoop_eq hcs (s := []) (max := 2 ^ 64 - 1) hw (by simp; omega)
  have hp0 : p.toNat ≠ 0 := fun h => hp (UInt64.toNat_inj.1 h)
  have hc : convert m (⟨[], .none, .none, .l, .s⟩ : Dir).arg (layoutOf (⟨[], .none, .none, .l, .s⟩ : Dir).arg 0 none) 0
      (.pointer p) = some (.text [utf8s cs]) := by
    have hL : layoutOf (⟨[], .none, .none, .l, .s⟩ : Dir).arg 0 none = ⟨false, false, false, false, 0, 0, none⟩ := rfl
    have hk : (⟨[], .none, .none, .l, .s⟩ : Dir).arg.fmtkind = .string := rfl
    have hi : (⟨[], .none, .none, .l, .s⟩ : Dir).arg.intkind = .long := rfl
    unfold convert
    rw [hk, hL, hi]
    dsimp only
    unfold stringChunks
    rw [if_neg hp0]
    simp [hloop, padded, pad]
  have := printf_single (c := ⟨⟨[], .none, .none, .l, .s⟩, 0, 0, p⟩) ok (by simp) e hc
  refine ⟨_, _, this, by simp, ?_⟩
  simpa using toInt_ofNat32 hl

theorem wideLoop_stop {m : Mem UInt8} {cs : List Nat} (hcs : Text cs) {c : Nat} (hc : Scalar c ∧ c ≠ 0) {p max : Nat}
    {s : List UInt8} {rest : List UInt32}
    (hw : Words m p (cs.map UInt32.ofNat ++ (UInt32.ofNat c :: rest))) (hm : s.length + (utf8s cs).length < max)
    (hc' : max ≤ s.length + (utf8s cs).length + (utf8 c).length) :
    wideLoop m p max s = some (some (s ++ utf8s cs)) := by
  induction cs generalizing p s with
  | nil =>
    have hlt := hc.1.lt
    have hn : (UInt32.ofNat c).toNat = c := UInt32.toNat_ofNat_of_lt' (by have e : UInt32.size = 4294967296 := rfl; omega)
    have h0 : UInt32.ofNat c ≠ 0 := by intro h; rw [← UInt32.toNat_inj, hn] at h; exact hc.2 h
    have he : encode (UInt32.ofNat c) = utf8 c := by rw [encode_eq _ (by rw [hn]; exact hlt), hn]
    have hu : utf8s [] = [] := rfl
    rw [hu, List.length_nil] at hc'
    rw [wideLoop, rd32_eq (words_tail hw).1]
    simp only [Option.bind_eq_bind, Option.bind_some]
    rw [if_neg h0, if_pos ((isChar_iff _).2 (by rw [hn]; exact hc.1)), he, if_pos (by omega), hu, List.append_nil]
  | cons a cs ih =>
    obtain ⟨h1, h2⟩ := words_tail hw
    have ha := hcs a (by simp)
    have hlt := ha.1.lt
    have hn : (UInt32.ofNat a).toNat = a := UInt32.toNat_ofNat_of_lt' (by have e : UInt32.size = 4294967296 := rfl; omega)
    have h0 : UInt32.ofNat a ≠ 0 := by intro h; rw [← UInt32.toNat_inj, hn] at h; exact ha.2 h
    have he : encode (UInt32.ofNat a) = utf8 a := by rw [encode_eq _ (by rw [hn]; exact hlt), hn]
    rw [utf8s_cons, List.length_append] at hm hc'
    rw [wideLoop, rd32_eq h1]
    simp only [Option.bind_eq_bind, Option.bind_some]
    rw [if_neg h0, if_pos ((isChar_iff _).2 (by rw [hn]; exact ha.1)), he, if_neg (by omega),
      ih (fun x hx => hcs x (by simp [hx])) h2 (by rw [List.length_append]; omega) (by rw [List.length_append]; omega),
      utf8s_cons, List.append_assoc]

/-- A precision that a character would reach exactly cuts that character off: for any wide text `cs` followed by `c`,
with a precision equal to the length of `cs` and `c` together, ISO C says both are printed, and the code leaves out
`c`. -/
theorem C62_wide_precision_violation {m : Mem UInt8} {cs : List Nat} (hcs : Text cs) {c : Nat} (hc : Scalar c ∧ c ≠ 0)
    {p q : UInt64} (hp : p ≠ 0) (hw : Words m p.toNat ((cs ++ [c]).map UInt32.ofNat ++ [0]))
    (hq : q.toNat = (utf8s (cs ++ [c])).length) (hl : q.toNat < 2 ^ 31) (e : List UInt8) :
    ∃ out r, printf m e (ascii "%.*ls") [q, p] = some (out, [], r) ∧ out.flatten = utf8s cs := by
  have ok : (⟨[], .none, .star, .l, .s⟩ : Dir).Ok := ⟨by simp, by simp, by simp, by simp⟩
  let k : Call := ⟨⟨[], .none, .star, .l, .s⟩, 0, q, p⟩
  have hpos : 1 ≤ (utf8 c).length := by unfold utf8; split <;> (try split) <;> (try split) <;> simp
  have hsum : (utf8s (cs ++ [c])).length = (utf8s cs).length + (utf8 c).length := by simp [utf8s]
  have hloop := wideLoop_stop hcs hc (s := []) (max := q.toNat) (rest := [0]) (by simpa using hw)
    (by simp; omega) (by simp; omega)
  have hp0 : p.toNat ≠ 0 := fun h => hp (UInt64.toNat_inj.1 h)
  have hprec : k.prec = some q.toNat := by
    have hs : sval 32 q = q.toNat := by
      unfold sval
      rw [if_pos (by omega)]
      omega
    have : k.prec = if 0 ≤ sval 32 q then some (sval 32 q).toNat else none := rfl
    rw [this, hs, if_pos (by omega)]
    simp
  have hL := layoutOf_eq (c := k) ok (by intro h; simp [k, Dir.arg] at h)
  have hcv : convert m k.dir.arg (layoutOf k.dir.arg k.rawWidth k.rawPrec) 0 k.va = some (.text [utf8s cs]) := by
    have hk : k.dir.arg.fmtkind = .string := rfl
    have hi : k.dir.arg.intkind = .long := rfl
    have hva : k.va = .pointer p := rfl
    have hlp : (k.layout k.dir.arg.zero).precision = some q.toNat := hprec
    have hpad : ∀ t, padded (k.layout k.dir.arg.zero) t.length t = [t] := by
      intro t
      have : k.layout k.dir.arg.zero = ⟨false, false, false, false, 0, 0, k.prec⟩ := rfl
      rw [this]
      simp [padded, pad]
    unfold convert
    rw [hk, hL, hi, hva]
    dsimp only
    unfold stringChunks
    rw [if_neg hp0, hlp]
    simp [hloop, hpad]
  exact ⟨_, _, printf_single ok (by simp) e hcv, by simp⟩

/-- C62 fails for an argument of `%s` that is not a string: ISO C allows an array without a NUL if the precision keeps
within it, but the code reads the byte after the last one it prints. Here there is no such byte: a fault. -/
theorem C62_unterminated_violation (p : UInt64) (hp : p ≠ 0) (e : List UInt8) :
    printf (ofList p.toNat [0x61, 0x62, 0x63]) e (ascii "%.3s") [p] = none := by
  let k : Call := ⟨⟨[], .none, .lit [3], .none, .s⟩, 0, 0, p⟩
  have ok : k.dir.Ok := ⟨by simp [k], by intro ds h; cases h; decide, by simp [k], by simp [k]⟩
  have hp0 : p.toNat ≠ 0 := fun h => hp (UInt64.toNat_inj.1 h)
  have hb := bytes_ofList p.toNat ([0x61, 0x62, 0x63] : List UInt8)
  have h0 := hb.get 0 (by decide)
  have h1 := hb.get 1 (by decide)
  have h2 := hb.get 2 (by decide)
  have h3 : ofList p.toNat ([0x61, 0x62, 0x63] : List UInt8) (p.toNat + 3) = none := by
    unfold ofList; simp
  have hl : strLenLoop (ofList p.toNat [0x61, 0x62, 0x63]) p.toNat 3 0 = none := by
    rw [strLenLoop, h0]
    simp only [List.getElem?_cons_zero, Option.bind_eq_bind, Option.bind_some]
    rw [if_pos (by decide), strLenLoop, h1]
    simp only [List.getElem?_cons_succ, List.getElem?_cons_zero, Option.bind_eq_bind, Option.bind_some]
    rw [if_pos (by decide), strLenLoop, h2]
    simp only [List.getElem?_cons_succ, List.getElem?_cons_zero, Option.bind_eq_bind, Option.bind_some]
    rw [if_pos (by decide), strLenLoop, h3]
    rfl
  have hc : convert (ofList p.toNat [0x61, 0x62, 0x63]) k.dir.arg (layoutOf k.dir.arg k.rawWidth k.rawPrec) 0 k.va = none := by
    have hk : k.dir.arg.fmtkind = .string := rfl
    have hi : k.dir.arg.intkind = .int := rfl
    have hva : k.va = .pointer p := rfl
    have hL : layoutOf k.dir.arg k.rawWidth k.rawPrec = ⟨false, false, false, false, 0, 0, some 3⟩ := rfl
    unfold convert
    rw [hk, hi, hva, hL]
    dsimp only
    unfold stringChunks
    rw [if_neg hp0]
    simp [hl]
  have := printf_one (c := k) ok (by simp [k]) e (m := ofList p.toNat [0x61, 0x62, 0x63])
  rw [hc] at this
  exact this

/-- C62, a null pointer for `%s` (undefined in ISO C) prints `(null)`, whatever the width. -/
theorem C62_null (m : Mem UInt8) (e : List UInt8) :
    printf m e (ascii "%s") [0] = some ([ascii "(null)"], [], 6) :=
  printf_single (c := ⟨⟨[], .none, .none, .none, .s⟩, 0, 0, 0⟩) ⟨by simp, by simp, by simp, by simp⟩ (by simp) e rfl

end Verif.Stdio
