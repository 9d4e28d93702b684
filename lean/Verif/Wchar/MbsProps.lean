import Verif.Wchar.Utf8Props
/-!
# Strings of multibyte characters (C59), restarting (C60), single characters (C61)
-/

namespace Verif.Wchar
open Verif.Mem Verif.Stdlib

/-! ## Specification -/

/-- The encoding of a string. -/
def utf8s (cs : List Nat) : List UInt8 := cs.flatMap utf8

/-- A string as wide characters. -/
def wide (cs : List Nat) : List Int32 := cs.map fun c => (UInt32.ofNat c).toInt32

/-- A string of characters other than the null character. -/
def Text (cs : List Nat) : Prop := ∀ c ∈ cs, Scalar c ∧ c ≠ 0

/-! ## Lemmas -/

theorem wide_toInt {c : Nat} (h : Scalar c) : ((UInt32.ofNat c).toInt32).toInt = c := by
  have e : (UInt32.ofNat c).toNat = c := UInt32.toNat_ofNat_of_lt' (by have := h.lt; unfold UInt32.size; omega)
  rw [toInt32_toInt _ (by rw [e]; have := h.lt; omega), e]

theorem eq_wide {w : Int32} {c : Nat} (h : Scalar c) (hw : w.toInt = c) : w = (UInt32.ofNat c).toInt32 :=
  Int32.toInt_inj.1 (by rw [hw, wide_toInt h])

theorem wide_ne_zero {c : Nat} (h : Scalar c) (h0 : c ≠ 0) : (UInt32.ofNat c).toInt32 ≠ 0 := by
  intro e
  have := wide_toInt h
  rw [e] at this
  exact h0 (by simpa using this.symm)

theorem utf8s_cons (c : Nat) (cs : List Nat) : utf8s (c :: cs) = utf8 c ++ utf8s cs := by simp [utf8s]

theorem utf8_zero : utf8 0 = [0] := rfl

theorem scalar_zero : Scalar 0 := .inl (by decide)

theorem ofNat_ne_max {k : Nat} (h : k ≤ 4) : UInt64.ofNat k ≠ sizeMax ∧ UInt64.ofNat k ≠ sizeMax1 := by
  have e : (UInt64.ofNat k).toNat = k := UInt64.toNat_ofNat_of_lt' (by unfold UInt64.size; omega)
  constructor
  · intro hc
    have := congrArg UInt64.toNat hc
    rw [e] at this
    have h2 : sizeMax.toNat = 18446744073709551615 := rfl
    omega
  · intro hc
    have := congrArg UInt64.toNat hc
    rw [e] at this
    have h2 : sizeMax1.toNat = 18446744073709551614 := rfl
    omega

theorem eq_ofNat64 {r : UInt64} {k : Nat} (h : r.toNat = k) : r = UInt64.ofNat k := by rw [← h]; simp

/-- One turn of the loop on a character. -/
theorem mb_char {m : Mem UInt8} {dst : Option Nat} {src : Nat} {srcLen dstLen : UInt64} {wm : Mem Int32} {i j c : Nat}
    (hc : Scalar c) (h0 : c ≠ 0) (hb : Bytes m (src + j) (utf8 c)) (hj : j + (utf8 c).length ≤ srcLen.toNat)
    (hi : dst = none ∨ i < dstLen.toNat) (hm : ∀ d, dst = some d → (wm (d + i)).isSome) :
    mbsnrtowcsLoop m dst src srcLen dstLen wm i j
      = mbsnrtowcsLoop m dst src srcLen dstLen
          (match dst with
            | some d => patch wm (d + i) [(UInt32.ofNat c).toInt32]
            | none => wm) (i + 1) (j + (utf8 c).length) := by
  have hl := length_utf8 (c := c)
  have hs := srcLen.toNat_lt
  obtain ⟨r, w, e1, e2, e3⟩ := C31_mbrtowc (n := UInt64.ofNat (srcLen.toNat - j)) hc hb
    (by rw [UInt64.toNat_ofNat_of_lt' (by unfold UInt64.size; omega)]; omega)
  rw [if_neg h0] at e3
  have e3' := eq_ofNat64 e3
  have hne := ofNat_ne_max hl.2
  have ew := eq_wide hc e2
  rw [mbsnrtowcsLoop]
  rw [if_pos]
  · rw [e1]
    simp only [Option.bind_eq_bind, Option.bind_some]
    rw [e3', if_neg hne.1, if_neg hne.2]
    simp only [Option.getD_some, ew]
    rw [UInt64.toNat_ofNat_of_lt' (by unfold UInt64.size; omega)]
    cases dst with
    | none =>
      rw [if_neg (wide_ne_zero hc h0)]
    | some d =>
      simp only [store_patch (hm d rfl), Option.bind_some]
      rw [if_neg (wide_ne_zero hc h0)]
  · rcases hi with hi | hi
    · simp [hi]; omega
    · simp [hi]; omega

/-- The last turn, on a null character. -/
theorem mb_nul {m : Mem UInt8} {dst : Option Nat} {src : Nat} {srcLen dstLen : UInt64} {wm : Mem Int32} {i j : Nat}
    (hb : Bytes m (src + j) [0]) (hj : j < srcLen.toNat) (hi : dst = none ∨ i < dstLen.toNat)
    (hm : ∀ d, dst = some d → (wm (d + i)).isSome) :
    mbsnrtowcsLoop m dst src srcLen dstLen wm i j
      = some ⟨UInt64.ofNat i, none, match dst with
            | some d => patch wm (d + i) [0]
            | none => wm⟩ := by
  have hs := srcLen.toNat_lt
  obtain ⟨r, w, e1, e2, e3⟩ := C31_mbrtowc (n := UInt64.ofNat (srcLen.toNat - j)) scalar_zero hb
    (by rw [UInt64.toNat_ofNat_of_lt' (by unfold UInt64.size; omega), utf8_zero]; simp; omega)
  rw [if_pos rfl] at e3
  have e3' := eq_ofNat64 e3
  have ew : w = 0 := Int32.toInt_inj.1 e2
  rw [mbsnrtowcsLoop]
  rw [if_pos]
  · rw [e1]
    simp only [Option.bind_eq_bind, Option.bind_some]
    rw [e3', if_neg (by decide), if_neg (by decide)]
    simp only [Option.getD_some, ew]
    cases dst with
    | none => simp
    | some d => simp only [store_patch (hm d rfl), Option.bind_some, if_true]
  · rcases hi with hi | hi
    · simp [hi]; omega
    · simp [hi]; omega

/-- The loop stops for lack of room or input. -/
theorem mb_stop {m : Mem UInt8} {dst : Option Nat} {src : Nat} {srcLen dstLen : UInt64} {wm : Mem Int32} {i j : Nat}
    (h : (dst ≠ none ∧ dstLen.toNat ≤ i) ∨ srcLen.toNat ≤ j) :
    mbsnrtowcsLoop m dst src srcLen dstLen wm i j = some ⟨UInt64.ofNat i, some (src + j), wm⟩ := by
  rw [mbsnrtowcsLoop, if_neg]
  rcases h with ⟨h1, h2⟩ | h
  · cases dst with
    | none => exact absurd rfl h1
    | some d => simp; omega
  · simp; omega

/-- The loop on text, as far as there is room. -/
theorem mb_text {m : Mem UInt8} {d src : Nat} {srcLen dstLen : UInt64} (cs : List Nat) {wm : Mem Int32} {i j : Nat}
    (hcs : Text cs) (hb : Bytes m (src + j) (utf8s cs)) (hj : j + (utf8s cs).length ≤ srcLen.toNat)
    (hi : i + cs.length ≤ dstLen.toNat) (hm : Mapped wm (d + i) cs.length) :
    mbsnrtowcsLoop m (some d) src srcLen dstLen wm i j
      = mbsnrtowcsLoop m (some d) src srcLen dstLen (patch wm (d + i) (wide cs)) (i + cs.length)
          (j + (utf8s cs).length) := by
  induction cs generalizing wm i j with
  | nil => simp [utf8s, wide]
  | cons c cs ih =>
    rw [utf8s_cons] at hb hj
    rw [bytes_append] at hb
    rw [List.length_append] at hj
    rw [List.length_cons] at hi hm
    have hc := hcs c (by simp)
    rw [mb_char hc.1 hc.2 hb.1 (by omega) (.inr (by omega)) (fun d' e => by
      obtain rfl := Option.some.inj e; exact hm.head)]
    simp only []
    rw [ih (fun x hx => hcs x (by simp [hx])) (by rw [← Nat.add_assoc]; exact hb.2) (by omega) (by omega)
      (mapped_patch (by rw [← Nat.add_assoc]; exact hm.shift))]
    rw [utf8s_cons, List.length_append, List.length_cons]
    have hp := patch_append wm (d + i) [(UInt32.ofNat c).toInt32] (wide cs)
    simp only [List.length_cons, List.length_nil] at hp
    have e1 : d + (i + 1) = d + i + (0 + 1) := by omega
    rw [e1, hp]
    congr 1
    · omega
    · omega

theorem mb_count {m : Mem UInt8} {src : Nat} {srcLen dstLen : UInt64} (cs : List Nat) {wm : Mem Int32} {i j : Nat}
    (hcs : Text cs) (hb : Bytes m (src + j) (utf8s cs)) (hj : j + (utf8s cs).length ≤ srcLen.toNat) :
    mbsnrtowcsLoop m none src srcLen dstLen wm i j
      = mbsnrtowcsLoop m none src srcLen dstLen wm (i + cs.length) (j + (utf8s cs).length) := by
  induction cs generalizing wm i j with
  | nil => simp [utf8s]
  | cons c cs ih =>
    rw [utf8s_cons] at hb hj
    rw [bytes_append] at hb
    rw [List.length_append] at hj
    have hc := hcs c (by simp)
    rw [mb_char hc.1 hc.2 hb.1 (by omega) (.inl rfl) (fun d' e => by simp at e)]
    simp only []
    rw [ih (fun x hx => hcs x (by simp [hx])) (by rw [← Nat.add_assoc]; exact hb.2) (by omega)]
    rw [utf8s_cons, List.length_append, List.length_cons]
    congr 1 <;> omega

/-! ## C59, from multibyte to wide -/

theorem Text.take {cs : List Nat} (h : Text cs) (n : Nat) : Text (cs.take n) := fun c hc => h c (List.mem_of_mem_take hc)

/-- C59, `mbsnrtowcs` with room for everything: a text with its null character is converted completely; the result is
the number of characters, `*src` becomes null. -/
theorem C59_mbsnrtowcs {m : Mem UInt8} {wm : Mem Int32} {src d : Nat} {srcLen len : UInt64} {cs : List Nat} (hcs : Text cs)
    (hb : Bytes m src (utf8s cs ++ [0])) (hsrc : (utf8s cs).length < srcLen.toNat) (hlen : cs.length < len.toNat)
    (hm : Mapped wm d (cs.length + 1)) :
    mbsnrtowcs m (some d) src srcLen len wm = some ⟨UInt64.ofNat cs.length, none, patch wm d (wide cs ++ [0])⟩ := by
  rw [bytes_append] at hb
  unfold mbsnrtowcs
  rw [mb_text cs hcs hb.1 (by omega) (by omega) (by simpa using hm.mono (by omega))]
  simp only [Nat.zero_add, Nat.add_zero]
  rw [mb_nul hb.2 hsrc (.inr hlen) (fun d' e => by
    obtain rfl := Option.some.inj e; exact isSome_patch (hm cs.length (by omega)))]
  simp only []
  have hp := patch_append wm d (wide cs) [0]
  rw [show (wide cs).length = cs.length by simp [wide]] at hp
  rw [hp]

/-- C59, `mbsnrtowcs` without room for everything: the first `len` characters are converted, no null character is
stored, `*src` points behind the last character converted. -/
theorem C59_mbsnrtowcs_truncated {m : Mem UInt8} {wm : Mem Int32} {src d : Nat} {srcLen len : UInt64} {cs : List Nat}
    (hcs : Text cs) (hb : Bytes m src (utf8s cs)) (hsrc : (utf8s cs).length ≤ srcLen.toNat) (hlen : len.toNat ≤ cs.length)
    (hm : Mapped wm d len.toNat) :
    mbsnrtowcs m (some d) src srcLen len wm
      = some ⟨len, some (src + (utf8s (cs.take len.toNat)).length), patch wm d (wide (cs.take len.toNat))⟩ := by
  have hsplit : utf8s cs = utf8s (cs.take len.toNat) ++ utf8s (cs.drop len.toNat) := by
    unfold utf8s; rw [← List.flatMap_append, List.take_append_drop]
  rw [hsplit, bytes_append] at hb
  rw [hsplit, List.length_append] at hsrc
  have hl : (cs.take len.toNat).length = len.toNat := by rw [List.length_take]; omega
  unfold mbsnrtowcs
  rw [mb_text (cs.take len.toNat) (hcs.take _) hb.1 (by omega) (by omega) (by rw [hl]; exact hm)]
  rw [mb_stop (.inl ⟨by simp, by omega⟩), hl]
  simp

/-- C59, `mbsnrtowcs` when the bytes are used up: everything is converted, `*src` points behind the last byte. -/
theorem C59_mbsnrtowcs_bytes {m : Mem UInt8} {wm : Mem Int32} {src d : Nat} {srcLen len : UInt64} {cs : List Nat}
    (hcs : Text cs) (hb : Bytes m src (utf8s cs)) (hsrc : srcLen.toNat = (utf8s cs).length) (hlen : cs.length ≤ len.toNat)
    (hm : Mapped wm d cs.length) :
    mbsnrtowcs m (some d) src srcLen len wm
      = some ⟨UInt64.ofNat cs.length, some (src + srcLen.toNat), patch wm d (wide cs)⟩ := by
  unfold mbsnrtowcs
  rw [mb_text cs hcs hb (by omega) (by omega) (by simpa using hm), mb_stop (.inr (by omega)), hsrc]
  simp

/-- C59, counting with a null destination: the result is the number of characters, nothing is stored. -/
theorem C59_mbsnrtowcs_count_partial {m : Mem UInt8} {wm : Mem Int32} {src : Nat} {srcLen len : UInt64} {cs : List Nat}
    (hcs : Text cs) (hb : Bytes m src (utf8s cs ++ [0])) (hsrc : (utf8s cs).length < srcLen.toNat) :
    ∃ r, mbsnrtowcs m none src srcLen len wm = some r ∧ r.ret = UInt64.ofNat cs.length ∧ r.dst = wm := by
  rw [bytes_append] at hb
  unfold mbsnrtowcs
  rw [mb_count cs hcs hb.1 (by omega)]
  simp only [Nat.zero_add]
  rw [mb_nul hb.2 hsrc (.inl rfl) (fun d' e => by simp at e)]
  exact ⟨_, rfl, rfl, rfl⟩

/-- C59 fails: with a null destination `*src` must stay as it is; instead it becomes null. So the usual sequence, count
first, then convert, does not work. -/
theorem C59_mbsrtowcs_src_violation {m : Mem UInt8} {wm : Mem Int32} {src : Nat} {len : UInt64} {cs : List Nat}
    (hcs : Text cs) (hb : Bytes m src (utf8s cs ++ [0])) (hsrc : (utf8s cs).length < 2 ^ 64 - 1) :
    ∃ r, mbsrtowcs m none src len wm = some r ∧ r.src = none ∧ r.src ≠ some src := by
  rw [bytes_append] at hb
  unfold mbsrtowcs mbsnrtowcs
  have e : sizeMax.toNat = 2 ^ 64 - 1 := rfl
  rw [mb_count cs hcs hb.1 (by omega)]
  simp only [Nat.zero_add]
  rw [mb_nul hb.2 (by omega) (.inl rfl) (fun d' e => by simp at e)]
  exact ⟨_, rfl, rfl, by simp⟩

/-- C59 fails: for an invalid sequence the result must be `(size_t)-1`; instead it is 1, which looks like one character
converted. For every text followed by bytes that begin no character. -/
theorem C59_mbsrtowcs_error_violation {m : Mem UInt8} {wm : Mem Int32} {src d : Nat} {len : UInt64} {cs : List Nat}
    (hcs : Text cs) (hb : Bytes m src (utf8s cs)) {b : UInt8} (hbad : m (src + (utf8s cs).length) = some b)
    (hw : charWidth b = 0) (hsrc : (utf8s cs).length < 2 ^ 64 - 1) (hlen : cs.length < len.toNat)
    (hm : Mapped wm d cs.length) :
    ∃ r, mbsrtowcs m (some d) src len wm = some r ∧ r.ret = 1 ∧ r.ret ≠ sizeMax := by
  unfold mbsrtowcs mbsnrtowcs
  have e : sizeMax.toNat = 2 ^ 64 - 1 := rfl
  rw [mb_text cs hcs hb (by omega) (by omega) (by simpa using hm)]
  simp only [Nat.zero_add, Nat.add_zero]
  rw [mbsnrtowcsLoop, if_pos (by simp [hlen]; omega)]
  have hmb : mbrtowc m (src + (utf8s cs).length) (UInt64.ofNat (sizeMax.toNat - (utf8s cs).length)) = some (sizeMax, none) := by
    unfold mbrtowc
    rw [hbad]
    simp only [Option.bind_eq_bind, Option.bind_some, hw]
    simp
  rw [hmb]
  simp only [Option.bind_eq_bind, Option.bind_some, if_true]
  exact ⟨_, rfl, rfl, by show (1 : UInt64) ≠ sizeMax; decide⟩

/-! ## C59, from wide to multibyte -/

theorem wc_step {wm : Mem Int32} {nwc len : UInt64} {m : Mem UInt8} {d src read written c : Nat} (hc : Scalar c) (h0 : c ≠ 0)
    (hw : wm src = some (UInt32.ofNat c).toInt32) (hr : read < nwc.toNat) (hfit : written + (utf8 c).length ≤ len.toNat)
    (hm : Mapped m d (utf8 c).length) :
    wcsnrtombsLoop wm nwc len m (some d) src read written
      = wcsnrtombsLoop wm nwc len (patch m d (utf8 c)) (some (d + (utf8 c).length)) (src + 1) (read + 1)
          (written + (utf8 c).length) := by
  have e := toInt_toUInt32 (wide_toInt hc)
  have he : encode ((UInt32.ofNat c).toInt32).toUInt32 = utf8 c := by rw [encode_eq _ (by rw [e]; exact hc.lt), e]
  rw [wcsnrtombsLoop]
  rw [if_pos hr, hw]
  simp only [Option.bind_eq_bind, Option.bind_some]
  rw [if_pos ((isChar_iff _).2 (by rw [e]; exact hc)), he, if_neg (by omega), writeN_eq hm]
  simp only [Option.bind_some]
  rw [if_neg (wide_ne_zero hc h0)]

/-- The loop on text that fits. -/
theorem wc_text {wm : Mem Int32} {nwc len : UInt64} (cs : List Nat) {m : Mem UInt8} {d src read written : Nat} (hcs : Text cs)
    (hw : Bytes wm src (wide cs)) (hr : read + cs.length ≤ nwc.toNat) (hfit : written + (utf8s cs).length ≤ len.toNat)
    (hm : Mapped m d (utf8s cs).length) :
    wcsnrtombsLoop wm nwc len m (some d) src read written
      = wcsnrtombsLoop wm nwc len (patch m d (utf8s cs)) (some (d + (utf8s cs).length)) (src + cs.length)
          (read + cs.length) (written + (utf8s cs).length) := by
  induction cs generalizing m d src read written with
  | nil => simp [utf8s]
  | cons c cs ih =>
    rw [utf8s_cons, List.length_append] at hfit hm
    rw [List.length_cons] at hr
    have hc := hcs c (by simp)
    have hw' : wm src = some (UInt32.ofNat c).toInt32 ∧ Bytes wm (src + 1) (wide cs) := hw
    rw [wc_step hc.1 hc.2 hw'.1 (by omega) (by omega) (hm.mono (by omega))]
    rw [ih (fun x hx => hcs x (by simp [hx])) hw'.2 (by omega) (by omega)
      (mapped_patch (by
        intro i hi
        have := hm ((utf8 c).length + i) (by omega)
        rwa [← Nat.add_assoc] at this))]
    rw [patch_append, utf8s_cons, List.length_append, List.length_cons]
    congr 1
    · rw [Nat.add_assoc]
    · omega
    · omega
    · omega

theorem wc_count {wm : Mem Int32} {nwc len : UInt64} (cs : List Nat) {m : Mem UInt8} {src read written : Nat} (hcs : Text cs)
    (hw : Bytes wm src (wide cs)) (hr : read + cs.length ≤ nwc.toNat) :
    wcsnrtombsLoop wm nwc len m none src read written
      = wcsnrtombsLoop wm nwc len m none (src + cs.length) (read + cs.length) (written + (utf8s cs).length) := by
  induction cs generalizing src read written with
  | nil => simp [utf8s]
  | cons c cs ih =>
    rw [List.length_cons] at hr
    have hc := hcs c (by simp)
    have hw' : wm src = some (UInt32.ofNat c).toInt32 ∧ Bytes wm (src + 1) (wide cs) := hw
    have e := toInt_toUInt32 (wide_toInt hc.1)
    have he : encode ((UInt32.ofNat c).toInt32).toUInt32 = utf8 c := by rw [encode_eq _ (by rw [e]; exact hc.1.lt), e]
    rw [wcsnrtombsLoop]
    rw [if_pos (by omega), hw'.1]
    simp only [Option.bind_eq_bind, Option.bind_some]
    rw [if_pos ((isChar_iff _).2 (by rw [e]; exact hc.1)), he, if_neg (wide_ne_zero hc.1 hc.2)]
    rw [ih (fun x hx => hcs x (by simp [hx])) hw'.2 (by omega), utf8s_cons, List.length_append, List.length_cons]
    congr 1 <;> omega

/-- C59, `wcsnrtombs` with room for everything: the encoding of the text and a null byte are stored, nothing else; the
result is the number of bytes without it, `*src` becomes null. -/
theorem C59_wcsnrtombs {wm : Mem Int32} {m : Mem UInt8} {src d : Nat} {nwc len : UInt64} {cs : List Nat} (hcs : Text cs)
    (hw : Bytes wm src (wide cs ++ [0])) (hn : cs.length < nwc.toNat) (hlen : (utf8s cs).length < len.toNat)
    (hm : Mapped m d ((utf8s cs).length + 1)) :
    wcsnrtombs wm nwc len m (some d) src
      = some ⟨UInt64.ofNat (utf8s cs).length, none, patch m d (utf8s cs ++ [0])⟩ := by
  rw [bytes_append] at hw
  unfold wcsnrtombs
  rw [wc_text cs hcs hw.1 (by omega) (by omega) (hm.mono (by omega))]
  have hz : wm (src + cs.length) = some 0 := by
    have := hw.2.1
    rwa [show (wide cs).length = cs.length by simp [wide]] at this
  rw [wcsnrtombsLoop]
  rw [if_pos (by omega), hz]
  simp only [Option.bind_eq_bind, Option.bind_some]
  have hi : isChar (0 : Int32).toUInt32 = true := by decide
  have he : encode (0 : Int32).toUInt32 = [0] := by decide
  rw [if_pos hi, he, if_neg (by simp; omega), writeN_eq (by
    intro i hi
    have : i = 0 := by simpa using hi
    subst this
    exact isSome_patch (hm (utf8s cs).length (by omega)))]
  simp only [Option.bind_some, if_true, Nat.zero_add]
  rw [patch_append]

/-- C59, `wcsnrtombs` without room for everything: as many whole characters as fit are stored, no null byte; `*src`
points to the first character not converted. -/
theorem C59_wcsnrtombs_truncated {wm : Mem Int32} {m : Mem UInt8} {src d : Nat} {nwc len : UInt64} {cs : List Nat} {c : Nat}
    (hcs : Text cs) (hc : Scalar c) (hw : Bytes wm src (wide (cs ++ [c]))) (hn : cs.length < nwc.toNat)
    (hlen : (utf8s cs).length ≤ len.toNat) (hno : len.toNat < (utf8s (cs ++ [c])).length) (hm : Mapped m d len.toNat) :
    wcsnrtombs wm nwc len m (some d) src
      = some ⟨UInt64.ofNat (utf8s cs).length, some (src + cs.length), patch m d (utf8s cs)⟩ := by
  have ewide : wide (cs ++ [c]) = wide cs ++ [(UInt32.ofNat c).toInt32] := by simp [wide]
  have eu : utf8s (cs ++ [c]) = utf8s cs ++ utf8 c := by simp [utf8s]
  rw [ewide, bytes_append] at hw
  rw [eu, List.length_append] at hno
  unfold wcsnrtombs
  rw [wc_text cs hcs hw.1 (by omega) (by omega) (hm.mono (by omega))]
  have hz : wm (src + cs.length) = some (UInt32.ofNat c).toInt32 := by
    have := hw.2.1
    rwa [show (wide cs).length = cs.length by simp [wide]] at this
  have e := toInt_toUInt32 (wide_toInt hc)
  have he : encode ((UInt32.ofNat c).toInt32).toUInt32 = utf8 c := by rw [encode_eq _ (by rw [e]; exact hc.lt), e]
  rw [wcsnrtombsLoop]
  rw [if_pos (by omega), hz]
  simp only [Option.bind_eq_bind, Option.bind_some]
  rw [if_pos ((isChar_iff _).2 (by rw [e]; exact hc)), he, if_pos (by omega)]
  simp

/-- C59, `wcsnrtombs` at an invalid wide character: `(size_t)-1`, and `*src` points to it. -/
theorem C59_wcsnrtombs_invalid {wm : Mem Int32} {m : Mem UInt8} {src d : Nat} {nwc len : UInt64} {cs : List Nat} {w : Int32}
    (hcs : Text cs) (hbad : ¬ ∃ c : Nat, Scalar c ∧ w.toInt = c) (hw : Bytes wm src (wide cs ++ [w]))
    (hn : cs.length < nwc.toNat) (hlen : (utf8s cs).length ≤ len.toNat) (hm : Mapped m d len.toNat) :
    ∃ m', wcsnrtombs wm nwc len m (some d) src = some ⟨sizeMax, some (src + cs.length), m'⟩ := by
  rw [bytes_append] at hw
  unfold wcsnrtombs
  rw [wc_text cs hcs hw.1 (by omega) (by omega) (hm.mono (by omega))]
  have hz : wm (src + cs.length) = some w := by
    have := hw.2.1
    rwa [show (wide cs).length = cs.length by simp [wide]] at this
  rw [wcsnrtombsLoop]
  rw [if_pos (by omega), hz]
  simp only [Option.bind_eq_bind, Option.bind_some]
  rw [if_neg]
  · exact ⟨_, rfl⟩
  · intro hc
    rw [isChar_iff] at hc
    exact hbad ⟨_, hc, toUInt32_toInt (by have := hc.lt; omega)⟩

/-- C59, `wcsnrtombs` with a null destination counts the bytes and stores nothing. -/
theorem C59_wcsnrtombs_count_partial {wm : Mem Int32} {m : Mem UInt8} {src : Nat} {nwc len : UInt64} {cs : List Nat}
    (hcs : Text cs) (hw : Bytes wm src (wide cs ++ [0])) (hn : cs.length < nwc.toNat) :
    ∃ r, wcsnrtombs wm nwc len m none src = some r ∧ r.ret = UInt64.ofNat (utf8s cs).length ∧ r.mem = m := by
  rw [bytes_append] at hw
  unfold wcsnrtombs
  rw [wc_count cs hcs hw.1 (by omega)]
  have hz : wm (src + cs.length) = some 0 := by
    have := hw.2.1
    rwa [show (wide cs).length = cs.length by simp [wide]] at this
  rw [wcsnrtombsLoop]
  rw [if_pos (by omega), hz]
  simp only [Option.bind_eq_bind, Option.bind_some]
  have hi : isChar (0 : Int32).toUInt32 = true := by decide
  rw [if_pos hi]
  simp only [if_true]
  exact ⟨_, rfl, by simp, rfl⟩

/-- C59 fails: with a null destination `*src` must stay as it is; instead it becomes null. -/
theorem C59_wcsrtombs_src_violation {wm : Mem Int32} {m : Mem UInt8} {src : Nat} {len : UInt64} {cs : List Nat}
    (hcs : Text cs) (hw : Bytes wm src (wide cs ++ [0])) (hn : cs.length < 2 ^ 64 - 1) :
    ∃ r, wcsrtombs wm len m none src = some r ∧ r.src = none ∧ r.src ≠ some src := by
  rw [bytes_append] at hw
  have e : sizeMax.toNat = 2 ^ 64 - 1 := rfl
  unfold wcsrtombs wcsnrtombs
  rw [wc_count cs hcs hw.1 (by omega)]
  have hz : wm (src + cs.length) = some 0 := by
    have := hw.2.1
    rwa [show (wide cs).length = cs.length by simp [wide]] at this
  rw [wcsnrtombsLoop]
  rw [if_pos (by omega), hz]
  simp only [Option.bind_eq_bind, Option.bind_some]
  have hi : isChar (0 : Int32).toUInt32 = true := by decide
  rw [if_pos hi]
  simp only [if_true]
  exact ⟨_, rfl, rfl, by simp⟩

-- "a€" with its null character
example : mbsrtowcs (ofList 10 [0x61, 0xE2, 0x82, 0xAC, 0]) (some 100) 10 9 (ofList 100 [7, 7, 7, 7])
    = some ⟨2, none, patch (ofList 100 [7, 7, 7, 7]) 100 [0x61, 0x20AC, 0]⟩ :=
  C59_mbsnrtowcs (cs := [0x61, 0x20AC]) (srcLen := sizeMax) (by intro c hc; simp at hc; rcases hc with rfl | rfl <;> simp [Scalar])
    (bytes_ofList 10 _) (by decide) (by decide) (by intro i hi; have : i = 0 ∨ i = 1 ∨ i = 2 := by simp at hi; omega
                                                    rcases this with rfl | rfl | rfl <;> rfl)
-- room for one character only
example : wcsrtombs (ofList 10 [0x61, 0x20AC, 0]) 3 (ofList 100 [7, 7, 7]) (some 100) 10
    = some ⟨1, some 11, patch (ofList 100 [7, 7, 7]) 100 [0x61]⟩ :=
  C59_wcsnrtombs_truncated (cs := [0x61]) (c := 0x20AC) (nwc := sizeMax) (by intro c hc; simp at hc; subst hc; simp [Scalar])
    (.inl (by decide)) ((bytes_append (l := wide [0x61, 0x20AC]) (k := [0])).1 (bytes_ofList 10 [0x61, 0x20AC, 0])).1 (by decide) (by decide) (by decide)
    (by intro i hi; have : i = 0 ∨ i = 1 ∨ i = 2 := by simp at hi; omega
        rcases this with rfl | rfl | rfl <;> rfl)

/-! ## C60: a character in pieces -/

theorem take_head {c k : Nat} (hc : Scalar c) (hk : 1 ≤ k) {m : Mem UInt8} {s : Nat} (hb : Bytes m s ((utf8 c).take k)) :
    ∃ b, m s = some b ∧ charWidth b = (utf8 c).length := by
  obtain ⟨b, t, e1, e2⟩ := utf8_head hc
  rw [e1] at hb
  obtain ⟨j, rfl⟩ : ∃ j, k = j + 1 := ⟨k - 1, by omega⟩
  rw [List.take_succ_cons] at hb
  exact ⟨b, hb.1, e2⟩

/-- C60: on a proper part of an encoding `mbrtowc` reports `(size_t)-2`. -/
theorem C60_restart_partial {m : Mem UInt8} {s c : Nat} {n : UInt64} (hc : Scalar c) (h1 : 1 ≤ n.toNat)
    (h2 : n.toNat < (utf8 c).length) (hb : Bytes m s ((utf8 c).take n.toNat)) : mbrtowc m s n = some (sizeMax1, none) := by
  obtain ⟨b, e1, e2⟩ := take_head hc h1 hb
  unfold mbrtowc
  rw [e1]
  simp only [Option.bind_eq_bind, Option.bind_some]
  rw [if_pos (by omega)]

theorem tail_cont {c : Nat} (hc : Scalar c) {k : Nat} (h1 : 1 ≤ k) {b : UInt8} (hb : (utf8 c)[k]? = some b) : charWidth b = 0 := by
  obtain ⟨l, hf, e⟩ := utf8_form hc
  rw [e, List.getElem?_map] at hb
  have hw : ∀ x, 0x80 ≤ x → x < 0xC0 → charWidth (UInt8.ofNat x) = 0 := by
    intro x h1 h2
    rw [width_cases, ofNat_toNat (by omega), if_neg (by omega), if_pos (by omega)]
  have hr : ∀ x, l[k]? = some x → charWidth (UInt8.ofNat x) = 0 := by
    intro x hx
    cases hf with
    | one _ =>
      obtain ⟨j, rfl⟩ : ∃ j, k = j + 1 := ⟨k - 1, by omega⟩
      simp at hx
    | two h1 h2 hx' hy =>
      match k, hx with
      | 1, hx => simp at hx; subst hx; exact hw _ (by omega) (by omega)
      | j + 2, hx => simp at hx
    | three h1 h2 hx' hy hz =>
      match k, hx with
      | 1, hx => simp at hx; subst hx; exact hw _ (by omega) (by omega)
      | 2, hx => simp at hx; subst hx; exact hw _ (by omega) (by omega)
      | j + 3, hx => simp at hx
    | four h1 h2 hx' hy hz hw' =>
      match k, hx with
      | 1, hx => simp at hx; subst hx; exact hw _ (by omega) (by omega)
      | 2, hx => simp at hx; subst hx; exact hw _ (by omega) (by omega)
      | 3, hx => simp at hx; subst hx; exact hw _ (by omega) (by omega)
      | j + 4, hx => simp at hx
  cases hl : l[k]? with
  | none => rw [hl] at hb; simp at hb
  | some x =>
    rw [hl] at hb
    simp only [Option.map_some, Option.some.injEq] at hb
    rw [← hb]
    exact hr x hl

/-- C60 fails: the conversion state does not remember the first part. For every character and every way of splitting its
encoding in two, the call on the second part reports an error. -/
theorem C60_restart_violation {m : Mem UInt8} {s c : Nat} {k n : UInt64} (hc : Scalar c) (h1 : 1 ≤ k.toNat)
    (h2 : k.toNat < (utf8 c).length) (hb : Bytes m s (utf8 c)) :
    mbrtowc m s k = some (sizeMax1, none) ∧ mbrtowc m (s + k.toNat) n = some (sizeMax, none) := by
  constructor
  · apply C60_restart_partial hc h1 h2
    have := hb
    rw [← List.take_append_drop k.toNat (utf8 c), bytes_append] at this
    exact this.1
  · have hg := hb.get k.toNat h2
    rw [List.getElem?_eq_getElem h2] at hg
    have hw := tail_cont hc h1 (List.getElem?_eq_getElem h2)
    unfold mbrtowc
    rw [hg]
    simp [hw]

-- the euro sign, one byte at a time
example : mbrtowc (ofList 5 [0xE2, 0x82, 0xAC]) 5 1 = some (sizeMax1, none)
    ∧ mbrtowc (ofList 5 [0xE2, 0x82, 0xAC]) 6 2 = some (sizeMax, none) :=
  C60_restart_violation (c := 0x20AC) (.inl (by decide)) (by decide) (by decide) (bytes_ofList 5 _)

/-! ## C61: single characters -/

theorem small_toInt {r : UInt64} (h : r.toNat ≤ 4) : (r.toInt64.toInt32).toInt = r.toNat := by
  have e := eq_ofNat64 (r := r) rfl
  have : r.toNat = 0 ∨ r.toNat = 1 ∨ r.toNat = 2 ∨ r.toNat = 3 ∨ r.toNat = 4 := by omega
  rcases this with h | h | h | h | h <;> rw [h] at e ⊢ <;> rw [e] <;> rfl

/-- C61, `mblen`: the length of the character (0 for the null character) or -1 if there is no complete one. -/
theorem C61_mblen {m : Mem UInt8} {s : Nat} {n : UInt64} (hn : n ≠ 0) (hm : Mapped m s n.toNat) :
    ∃ r, mblen m s n = some r
      ∧ ((∃ c, Scalar c ∧ Bytes m s (utf8 c) ∧ (utf8 c).length ≤ n.toNat
          ∧ r.toInt = if c = 0 then 0 else ((utf8 c).length : Int))
        ∨ (r = -1 ∧ ¬ ∃ c, Scalar c ∧ Bytes m s (utf8 c) ∧ (utf8 c).length ≤ n.toNat)) := by
  have hn' : 1 ≤ n.toNat := by
    have : n.toNat ≠ 0 := fun h => hn (UInt64.toNat.inj h)
    omega
  obtain ⟨r, wc, e1, e2⟩ := C32_mbrtowc (n := n) (m := m) (s := s) (by rwa [Nat.max_eq_left hn'])
  unfold mblen
  rw [e1]
  simp only [Option.bind_eq_bind, Option.bind_some]
  cases e2 hn with
  | char c w hc enc fits hw val ret =>
    have hl := length_utf8 (c := c)
    have hr4 : r.toNat ≤ 4 := by rw [ret]; split <;> omega
    have hne := ofNat_ne_max hr4
    rw [← eq_ofNat64 (r := r) rfl] at hne
    rw [if_neg hne.1, if_neg hne.2]
    refine ⟨_, rfl, .inl ⟨c, hc, enc, fits, ?_⟩⟩
    rw [small_toInt hr4, ret]
    split <;> rfl
  | invalid hr hw no =>
    rw [if_pos hr]
    refine ⟨_, rfl, .inr ⟨rfl, ?_⟩⟩
    rintro ⟨c, h1, h2, h3⟩
    exact no c ⟨h1, by rw [List.take_of_length_le h3]; exact h2⟩
  | incomplete hr hw no =>
    rw [hr, if_neg (by decide), if_pos rfl]
    refine ⟨_, rfl, .inr ⟨rfl, ?_⟩⟩
    rintro ⟨c, h1, h2, h3⟩
    have := no c h1 h2
    omega

/-- C61, `mbtowc`: on a complete character stores it and returns its length; on bytes that begin no character returns
-1. Missing: incomplete characters. -/
theorem C61_mbtowc_partial {m : Mem UInt8} {s : Nat} {n : UInt64} (hn : n ≠ 0) (hm : Mapped m s n.toNat) :
    ∃ r wc, mbtowc m s n = some (r, wc)
      ∧ ((∃ c w, Scalar c ∧ Bytes m s (utf8 c) ∧ (utf8 c).length ≤ n.toNat ∧ wc = some w ∧ w.toInt = c
          ∧ r.toInt = if c = 0 then 0 else ((utf8 c).length : Int))
        ∨ (r = -1 ∧ wc = none ∧ ∀ c, ¬ Possible m s n.toNat c)
        ∨ (r = -2 ∧ wc = none ∧ ∀ c, Scalar c → Bytes m s (utf8 c) → n.toNat < (utf8 c).length)) := by
  have hn' : 1 ≤ n.toNat := by
    have : n.toNat ≠ 0 := fun h => hn (UInt64.toNat.inj h)
    omega
  obtain ⟨r, wc, e1, e2⟩ := C32_mbrtowc (n := n) (m := m) (s := s) (by rwa [Nat.max_eq_left hn'])
  unfold mbtowc
  rw [e1]
  simp only [Option.bind_eq_bind, Option.bind_some]
  refine ⟨_, _, rfl, ?_⟩
  cases e2 hn with
  | char c w hc enc fits hw val ret =>
    have hl := length_utf8 (c := c)
    have hr4 : r.toNat ≤ 4 := by rw [ret]; split <;> omega
    refine .inl ⟨c, w, hc, enc, fits, hw, val, ?_⟩
    rw [small_toInt hr4, ret]
    split <;> rfl
  | invalid hr hw no =>
    subst hr
    exact .inr (.inl ⟨by decide, hw, no⟩)
  | incomplete hr hw no =>
    subst hr
    exact .inr (.inr ⟨by decide, hw, no⟩)

/-- C61 fails: on an incomplete character `mbtowc` must return -1; it returns -2. -/
theorem C61_mbtowc_violation {m : Mem UInt8} {s c : Nat} {n : UInt64} (hc : Scalar c) (h1 : 1 ≤ n.toNat)
    (h2 : n.toNat < (utf8 c).length) (hb : Bytes m s ((utf8 c).take n.toNat)) : mbtowc m s n = some (-2, none) := by
  unfold mbtowc
  rw [C60_restart_partial hc h1 h2 hb]
  decide

/-- C61, `wctomb`: the encoding and its length for a character, -1 and nothing written otherwise. -/
theorem C61_wctomb {m : Mem UInt8} {s : Nat} (wc : Int32) (hm : Mapped m s 4) :
    (∀ c : Nat, Scalar c → wc.toInt = c → ∃ r, wctomb m s wc = some (r, patch m s (utf8 c)) ∧ r.toInt = (utf8 c).length)
    ∧ ((¬ ∃ c : Nat, Scalar c ∧ wc.toInt = c) → wctomb m s wc = some (-1, m)) := by
  constructor
  · intro c hc hw
    have hl := length_utf8 (c := c)
    obtain ⟨r, e1, e2⟩ := C31_wcrtomb (m := m) (s := s) hc hw (hm.mono (by omega))
    have hne := ofNat_ne_max (k := r.toNat) (by omega)
    rw [← eq_ofNat64 (r := r) rfl] at hne
    unfold wctomb
    rw [e1]
    simp only [Option.bind_eq_bind, Option.bind_some]
    rw [if_neg hne.1, if_neg hne.2]
    exact ⟨_, rfl, by rw [small_toInt (by omega), e2]⟩
  · intro h
    unfold wctomb
    rw [C31_wcrtomb_invalid m s h]
    rfl

/-- C61, `btowc` and `wctob`: exactly the values 0 to 127 are characters of one byte, and the functions are inverse to
each other there. -/
theorem C61_btowc : (∀ c : Int32, 0 ≤ c.toInt → c.toInt < 256 →
      btowc c = if c.toInt < 128 then some (UInt32.ofNat c.toInt.toNat) else none)
    ∧ btowc (-1) = none
    ∧ (∀ w : UInt32, wctob w = if w.toNat < 128 then some w else none) := by
  refine ⟨?_, rfl, ?_⟩
  · intro c h1 h2
    have key : ∀ i : Fin 256, btowc (Int32.ofNat i) = if (i : Nat) < 128 then some (UInt32.ofNat i) else none := by
      decide +kernel
    have hc : c = Int32.ofNat c.toInt.toNat := by
      apply Int32.toInt_inj.1
      rw [Int32.toInt_ofNat_of_lt (by omega)]
      omega
    have := key ⟨c.toInt.toNat, by omega⟩
    simp only [← hc] at this
    rw [this]
    by_cases h : c.toInt < 128
    · rw [if_pos h, if_pos (by omega)]
    · rw [if_neg h, if_neg (by omega)]
  · intro w
    unfold wctob
    have : w ≤ 0x7F ↔ w.toNat < 128 := by
      rw [UInt32.le_iff_toNat_le, show (0x7F : UInt32).toNat = 127 from rfl]; omega
    by_cases h : w.toNat < 128
    · rw [if_pos h, if_pos (this.2 h)]
    · rw [if_neg h, if_neg (fun h' => h (this.1 h'))]

example : mbtowc (ofList 5 [0xE2, 0x82]) 5 2 = some (-2, none) := by decide +kernel
example : mblen (ofList 5 [0xE2, 0x82]) 5 2 = some (-1) := by decide +kernel
example : btowc 0x41 = some 0x41 ∧ btowc 0xE4 = none := by decide +kernel

end Verif.Wchar
