import Verif.Messages.Model
import Verif.Messages.Spec
import Verif.Time.AsctimeProps
import Verif.Stdio.PrintfConv
/-!
# C149: messages for errors; C150: messages for signals; C151: `err.h`
-/

namespace Verif.Messages
open Verif.Stdio

/-! ## The buffer -/

theorem put_at (a b s : List UInt8) (_ : s.length ≤ b.length) : put (a ++ b) a.length s = a ++ s ++ b.drop s.length := by
  unfold put
  rw [List.take_left, List.drop_append]
  rw [List.drop_eq_nil_of_le (by omega), List.nil_append]
  congr 2
  omega

theorem write_at (s t rest : List UInt8) (h : t.length < rest.length) (hr : rest.length > 1) :
    Writer.write ⟨s ++ rest, s.length, rest.length⟩ t = ⟨(s ++ t) ++ (0 :: rest.drop (t.length + 1)), (s ++ t).length, (0 :: rest.drop (t.length + 1)).length⟩ := by
  unfold Writer.write
  dsimp only
  rw [if_pos hr]
  have hm : min t.length (rest.length - 1) = t.length := by omega
  rw [hm, List.take_length, put_at _ _ _ (by omega)]
  have := put_at (s ++ t) (rest.drop t.length) [0] (by simp; omega)
  rw [List.length_append] at this
  rw [this, List.drop_drop, List.append_assoc (s ++ t)]
  simp only [List.length_append, List.length_cons, List.length_drop, Writer.mk.injEq, List.length_nil, List.singleton_append, true_and]
  omega

theorem max_eq : strerrorMax = 48 := by decide +kernel

theorem strError_length : strError.length = 132 := by decide +kernel

theorem entries : ∀ e ∈ strError, e.length ≤ 47 ∧ 0 ∉ e := by decide +kernel

theorem cstr_eq (s r : List UInt8) (h : 0 ∉ s) : cstr (s ++ 0 :: r) = s := by
  induction s with
  | nil => rfl
  | cons b s ih =>
    simp only [List.mem_cons, not_or] at h
    unfold cstr at ih ⊢
    rw [List.cons_append, List.takeWhile_cons_of_pos (by simpa using Ne.symm h.1), ih h.2]

theorem signed_length (n : Int32) : (signedString n.toInt).length ≤ 11 := by
  have h1 := n.toInt_lt
  have h2 := n.le_toInt
  have := Time.digits_length (k := 9) (n := n.toInt.natAbs) (by omega)
  unfold signedString
  split
  · rw [List.length_cons]; omega
  · omega

theorem strerror_shape (buf : List UInt8) (n : Int32) (hb : buf.length = 48) :
    ∃ s r, strerror buf n = s ++ 0 :: r ∧ 0 ∉ s ∧ (strerror buf n).length = 48 ∧
      s = (match strError[index n]? with
        | some e => e
        | none => unknownError ++ [0x20] ++ signedString n.toInt) := by
  unfold strerror
  rw [max_eq, ← hb]
  cases he : strError[index n]? with
  | some e =>
    have h := entries e (List.mem_of_getElem? he)
    have := write_at [] e buf (by omega) (by omega)
    rw [List.nil_append, List.length_nil] at this
    refine ⟨e, buf.drop (e.length + 1), ?_, h.2, ?_, rfl⟩
    · dsimp only
      rw [this]
      rfl
    · dsimp only
      rw [this]
      simp only [List.nil_append, List.length_append, List.length_cons, List.length_drop]
      omega
  | none =>
    have hu : (unknownError ++ [0x20] : List UInt8).length = 14 := by decide
    have hl := signed_length n
    have h1 := write_at [] (unknownError ++ [0x20]) buf (by omega) (by omega)
    rw [List.nil_append, List.length_nil, List.nil_append] at h1
    have h2 := write_at (unknownError ++ [0x20]) (signedString n.toInt) (0 :: buf.drop ((unknownError ++ [0x20] : List UInt8).length + 1)) (by simp only [List.length_cons, List.length_drop]; omega) (by simp only [List.length_cons, List.length_drop]; omega)
    refine ⟨unknownError ++ [0x20] ++ signedString n.toInt, (0 :: buf.drop ((unknownError ++ [0x20] : List UInt8).length + 1)).drop ((signedString n.toInt).length + 1), ?_, ?_, ?_, rfl⟩
    · dsimp only
      rw [h1, h2]
    · rw [List.mem_append, not_or]
      exact ⟨by decide, Time.signedString_nonzero _⟩
    · dsimp only
      rw [h1, h2]
      simp only [List.length_append, List.length_cons, List.length_drop] at hu ⊢
      omega

/-- The text for a number. -/
def decimal (n : Int) : List UInt8 := if n < 0 then 0x2D :: numeral 10 false n.natAbs else numeral 10 false n.natAbs

theorem signed_decimal (n : Int) : signedString n = decimal n := by
  unfold decimal
  split
  · exact signedString_neg (by assumption)
  · exact signedString_nonneg (by omega)

theorem index_out {n : Int32} (h : n < 0 ∨ 131 < n) : strError[index n]? = none := by
  apply List.getElem?_eq_none
  rw [strError_length]
  have h1 := n.toInt_lt
  have h2 := n.le_toInt
  unfold index
  rcases h with h | h
  · have : n.toInt < 0 := Int32.lt_iff_toInt_lt.1 h
    rw [if_pos this]
    omega
  · have : (131 : Int) < n.toInt := Int32.lt_iff_toInt_lt.1 h
    rw [if_neg (by omega)]
    omega

/-! ## C149 -/

/-- **C149.** `strerror` gives the message for every error number there is, whole, whatever was in its buffer before. -/
theorem C149_strerror (buf : List UInt8) (hb : buf.length = 48) : (∀ m ∈ meanings, cstr (strerror buf m.1) = m.2) ∧ cstr (strerror buf 0) = [0x53, 0x75, 0x63, 0x63, 0x65, 0x73, 0x73] := by
  have key : ∀ n e, strError[index n]? = some e → cstr (strerror buf n) = e := by
    intro n e he
    obtain ⟨s, r, h1, h2, _, h4⟩ := strerror_shape buf n hb
    rw [he] at h4
    rw [h1, cstr_eq s r h2, h4]
  have table : ∀ m ∈ meanings, strError[index m.1]? = some m.2 := by decide +kernel
  exact ⟨fun m hm => key _ _ (table m hm), key _ _ (by decide +kernel)⟩

/-- **C149.** For any other number it gives "Unknown error" with the number, whole. -/
theorem C149_unknown (buf : List UInt8) (hb : buf.length = 48) (n : Int32) (h : n < 0 ∨ 131 < n) : cstr (strerror buf n) = [0x55, 0x6E, 0x6B, 0x6E, 0x6F, 0x77, 0x6E, 0x20, 0x65, 0x72, 0x72, 0x6F, 0x72, 0x20] ++ decimal n.toInt := by
  obtain ⟨s, r, h1, h2, _, h4⟩ := strerror_shape buf n hb
  rw [index_out h] at h4
  rw [h1, cstr_eq s r h2, h4, signed_decimal]
  rfl

/-- **C149.** The buffer of 48 bytes is never overrun, and has a zero. -/
theorem C149_buffer (buf : List UInt8) (hb : buf.length = 48) (n : Int32) : (strerror buf n).length = 48 ∧ 0 ∈ strerror buf n := by
  obtain ⟨s, r, h1, _, h3, _⟩ := strerror_shape buf n hb
  exact ⟨h3, by rw [h1]; simp⟩

/-- **C149.** `strerror_r` gives the same message with its end, or as much of it as has room with an end and `ERANGE`; nothing is written behind either. -/
theorem C149_strerror_r (static buf : List UInt8) (hs : static.length = 48) (n : Int32) :
    ((cstr (strerror static n)).length < buf.length → strerrorR static n buf = (0, cstr (strerror static n) ++ 0 :: buf.drop ((cstr (strerror static n)).length + 1)))
    ∧ (buf.length ≤ (cstr (strerror static n)).length → buf ≠ [] → strerrorR static n buf = (34, (cstr (strerror static n)).take (buf.length - 1) ++ [0]))
    ∧ (buf = [] → strerrorR static n buf = (34, [])) := by
  obtain ⟨s, r, h1, h2, h3, _⟩ := strerror_shape static n hs
  have hc : cstr (strerror static n) = s := by rw [h1, cstr_eq s r h2]
  rw [hc]
  refine ⟨fun h => ?_, fun h hn => ?_, fun h => ?_⟩
  · unfold strerrorR
    dsimp only
    rw [hc, if_neg (by omega), h1]
    have ht : (s ++ 0 :: r).take (s.length + 1) = s ++ [0] := by
      rw [List.take_append, List.take_of_length_le (by omega), show s.length + 1 - s.length = 1 by omega]
      rfl
    rw [ht]
    have := put_at [] buf (s ++ [0]) (by simp; omega)
    rw [List.nil_append, List.length_nil, List.nil_append] at this
    rw [this]
    simp
  · unfold strerrorR
    dsimp only
    have hp : 0 < buf.length := List.length_pos_iff.2 hn
    rw [hc, if_pos (by omega), if_pos (by omega), h1]
    have ht : (s ++ 0 :: r).take (buf.length - 1) = s.take (buf.length - 1) := by
      rw [List.take_append_of_le_length (by omega)]
    rw [ht]
    have hl : (s.take (buf.length - 1)).length = buf.length - 1 := by rw [List.length_take]; omega
    have a := put_at [] buf (s.take (buf.length - 1)) (by omega)
    rw [List.nil_append, List.length_nil, List.nil_append, hl] at a
    rw [a]
    have b := put_at (s.take (buf.length - 1)) (buf.drop (buf.length - 1)) [0] (by simp; omega)
    rw [hl] at b
    rw [b, List.drop_drop, List.drop_eq_nil_of_le (by simp; omega), List.append_nil]
  · subst h
    unfold strerrorR
    dsimp only
    rw [if_pos (by simp), if_neg (by simp)]

theorem writes_all (takes : Nat → Nat) (l : List (List UInt8)) (i : Nat) (h : ∀ j (s : List UInt8), s ∈ l → s.length ≤ takes j) : writes takes i l = l.flatten := by
  induction l generalizing i with
  | nil => rfl
  | cons s l ih =>
    unfold writes
    rw [List.take_of_length_le (h i s (by simp)), ih _ fun j s hs => h j s (by simp [hs])]
    rfl

/-- **C149**, part: `perror`, with a descriptor that takes every write whole and a prefix that is UTF-8: the prefix, a colon, a blank, and what `strerror` says. Missing: other prefixes, unknown numbers, and writes that are not whole (below). -/
theorem C149_perror_partial (takes : Nat → Nat) (buf : List UInt8) (hb : buf.length = 48) (n : Int32) (s : List UInt8) (ht : ∀ j, 47 ≤ takes j ∧ s.length ≤ takes j) (hn : 0 ≤ n ∧ n ≤ 131) (hu : Locale.isUtf8 s = true) (hs : s ≠ []) :
    perror takes n (some s) = s ++ [0x3A, 0x20] ++ cstr (strerror buf n) ++ [0x0A]
    ∧ perror takes n (some []) = cstr (strerror buf n) ++ [0x0A] ∧ perror takes n none = cstr (strerror buf n) ++ [0x0A] := by
  have h0 : (0 : Int) ≤ n.toInt := Int32.le_iff_toInt_le.1 hn.1
  have h1 : n.toInt ≤ 131 := Int32.le_iff_toInt_le.1 hn.2
  have hi : index n = n.toInt.toNat := by unfold index; rw [if_neg (by omega)]
  have hlt : n.toInt.toNat < strError.length := by rw [strError_length]; omega
  have he : strError[index n]? = some (strError.getD n.toInt.toNat []) := by
    rw [hi, List.getD_eq_getElem?_getD, List.getElem?_eq_getElem hlt]
    rfl
  have hm : cstr (strerror buf n) = strError.getD n.toInt.toNat [] := by
    obtain ⟨t, r, a, b, _, d⟩ := strerror_shape buf n hb
    rw [he] at d
    rw [a, cstr_eq t r b, d]
  have hle := (entries _ (List.mem_of_getElem? he)).1
  have hc : 0 ≤ n.toInt ∧ n.toInt < (strError.length : Int) := ⟨h0, by rw [strError_length]; omega⟩
  rw [hm]
  unfold perror perrorPieces
  rw [if_pos hc]
  dsimp only
  rw [if_pos hu, if_pos hs, if_pos (by unfold Locale.isUtf8; rfl), if_neg (by simp)]
  have two : writes takes 0 [strError.getD n.toInt.toNat [], [0x0A]] = strError.getD n.toInt.toNat [] ++ [0x0A] := by
    rw [writes_all _ _ _ (by
      intro j t hj
      have := ht j
      rcases List.mem_cons.1 hj with rfl | hj
      · omega
      · rw [List.mem_singleton.1 hj]; simp; omega)]
    simp
  refine ⟨?_, two, two⟩
  rw [writes_all _ _ _ (by
    intro j t hj
    have := ht j
    simp only [List.mem_cons, List.not_mem_nil, or_false] at hj
    rcases hj with rfl | rfl | rfl | rfl
    · omega
    · simp; omega
    · omega
    · simp; omega)]
  simp

/-- **C149**, violated by the code: for an **unknown number** `perror` does not say what `strerror` says. -/
theorem C149_perror_unknown_violation (takes : Nat → Nat) (buf : List UInt8) (hb : buf.length = 48) (ht : ∀ j, 47 ≤ takes j) (n : Int32) (h : n < 0 ∨ 131 < n) :
    perror takes n none = [0x55, 0x6E, 0x6B, 0x6E, 0x6F, 0x77, 0x6E, 0x20, 0x65, 0x72, 0x72, 0x6F, 0x72, 0x0A] ∧ perror takes n none ≠ cstr (strerror buf n) ++ [0x0A] := by
  have hp : perror takes n none = unknownError ++ [0x0A] := by
    unfold perror perrorPieces
    have : ¬ (0 ≤ n.toInt ∧ n.toInt < (strError.length : Int)) := by
      rw [strError_length]
      rcases h with h | h
      · have : n.toInt < 0 := Int32.lt_iff_toInt_lt.1 h
        omega
      · have : (131 : Int) < n.toInt := Int32.lt_iff_toInt_lt.1 h
        omega
    rw [if_neg this]
    dsimp only
    rw [writes_all]
    · simp
    · intro j t hj
      have := ht j
      simp only [List.mem_cons, List.not_mem_nil, or_false] at hj
      rcases hj with rfl | rfl
      · have : unknownError.length = 13 := by decide
        omega
      · simp; omega
  refine ⟨hp, fun heq => ?_⟩
  rw [C149_unknown buf hb n h, hp] at heq
  have h14 := congrArg (fun l : List UInt8 => l[13]?) heq
  simp [unknownError] at h14

/-- **C149**, violated by the code: a prefix that is **not UTF-8** is left out. -/
theorem C149_perror_utf8_violation (takes : Nat → Nat) (n : Int32) (s : List UInt8) (h : Locale.isUtf8 s = false) : perror takes n (some s) = perror takes n none := by
  unfold perror perrorPieces
  dsimp only
  rw [if_neg (by simp [h])]

/-- **C149**, violated by the code: what a **short write** does not take is lost: here the first write takes one byte. -/
theorem C149_perror_short_violation (takes : Nat → Nat) (h0 : takes 0 = 1) (h1 : ∀ j, 47 ≤ takes (j + 1)) : perror takes 2 none = [0x4E, 0x0A] := by
  have : perrorPieces 2 none = [[0x4E, 0x6F, 0x20, 0x73, 0x75, 0x63, 0x68, 0x20, 0x66, 0x69, 0x6C, 0x65, 0x20, 0x6F, 0x72, 0x20, 0x64, 0x69, 0x72, 0x65, 0x63, 0x74, 0x6F, 0x72, 0x79], [0x0A]] := by decide +kernel
  unfold perror
  rw [this]
  have h2 := h1 0
  have e : ([0x0A] : List UInt8).take (takes (0 + 1)) = [0x0A] := List.take_of_length_le (by rw [List.length_singleton]; omega)
  unfold writes writes writes
  rw [h0, e]
  rfl

/-! ## C150 -/

theorem sig_length : signalStrings.length = 32 := by decide +kernel

theorem sig_index {n : Int32} : (0 ≤ n.toInt → index n = n.toInt.toNat) ∧ (n.toInt < 0 → 32 ≤ index n) := by
  have h2 := n.le_toInt
  unfold index
  constructor
  · intro h; rw [if_neg (by omega)]
  · intro h; rw [if_pos h]; omega

/-- "Unknown signal" -/
def unknownSignal : List UInt8 := [0x55, 0x6E, 0x6B, 0x6E, 0x6F, 0x77, 0x6E, 0x20, 0x73, 0x69, 0x67, 0x6E, 0x61, 0x6C]

theorem strsignal_table (n : Int32) (h : 1 ≤ n ∧ n ≤ 31) : ∃ k : Fin 31, n.toInt = k.val + 1 ∧ strsignal n = signalStrings.getD (k.val + 1) [] := by
  have h0 : (1 : Int) ≤ n.toInt := Int32.le_iff_toInt_le.1 h.1
  have h1 : n.toInt ≤ 31 := Int32.le_iff_toInt_le.1 h.2
  refine ⟨⟨n.toInt.toNat - 1, by omega⟩, by dsimp only; omega, ?_⟩
  unfold strsignal
  rw [sig_index.1 (by omega), show n.toInt.toNat - 1 + 1 = n.toInt.toNat by omega, List.getD_eq_getElem?_getD, List.getElem?_eq_getElem (by rw [sig_length]; omega)]
  rfl

/-- **C150.** `strsignal` describes each of the signals 1 to 31, with different words for different signals; every other number is an unknown signal. -/
theorem C150_strsignal (n m : Int32) :
    (1 ≤ n ∧ n ≤ 31 → strsignal n ≠ [] ∧ strsignal n ≠ unknownSignal ∧ 0 ∉ strsignal n)
    ∧ (1 ≤ n ∧ n ≤ 31 → 1 ≤ m ∧ m ≤ 31 → strsignal n = strsignal m → n = m)
    ∧ (n < 1 ∨ 31 < n → strsignal n = unknownSignal) := by
  have t1 : ∀ k : Fin 31, signalStrings.getD (k.val + 1) [] ≠ [] ∧ signalStrings.getD (k.val + 1) [] ≠ unknownSignal ∧ (0 : UInt8) ∉ signalStrings.getD (k.val + 1) [] := by decide +kernel
  have t2 : ∀ k l : Fin 31, signalStrings.getD (k.val + 1) [] = signalStrings.getD (l.val + 1) [] → k = l := by decide +kernel
  refine ⟨fun h => ?_, fun h h' e => ?_, fun h => ?_⟩
  · obtain ⟨k, _, hk⟩ := strsignal_table n h
    rw [hk]
    exact t1 k
  · obtain ⟨k, a, hk⟩ := strsignal_table n h
    obtain ⟨l, b, hl⟩ := strsignal_table m h'
    rw [hk, hl] at e
    have := t2 k l e
    subst this
    exact Int32.toInt_inj.1 (by rw [a, b])
  · have hz : signalStrings.headD [] = unknownSignal := by decide +kernel
    have hz' : (signalStrings[0]?).getD [] = unknownSignal := by decide +kernel
    unfold strsignal
    by_cases h0 : n.toInt = 0
    · have : index n = 0 := by rw [sig_index.1 (by omega), h0]; rfl
      rw [this, hz]
      have hs : signalStrings[0]? = some unknownSignal := by decide +kernel
      rw [hs]
      rfl
    · have hi : 32 ≤ index n := by
        rcases h with h | h
        · have : n.toInt < 1 := Int32.lt_iff_toInt_lt.1 h
          exact sig_index.2 (by omega)
        · have : (31 : Int) < n.toInt := Int32.lt_iff_toInt_lt.1 h
          rw [sig_index.1 (by omega)]
          omega
      rw [List.getElem?_eq_none (by rw [sig_length]; exact hi), hz]
      rfl

/-- **C150**, part: `psignal` prints the prefix and what `strsignal` says, and leaves `errno` alone. Missing: an empty prefix is to be left out (below). -/
theorem C150_psignal_partial (errno after sig : Int32) (p : List UInt8) : psignal errno after sig (some p) = (p ++ [0x3A, 0x20] ++ strsignal sig ++ [0x0A], errno) ∧ psignal errno after sig none = (strsignal sig ++ [0x0A], errno) := by
  have : (if 0 ≤ sig.toInt then (signalStrings[sig.toInt.toNat]?).getD (signalStrings.headD []) else signalStrings.headD []) = strsignal sig := by
    unfold strsignal
    split
    · rw [sig_index.1 (by assumption)]
    · rw [List.getElem?_eq_none (by rw [sig_length]; exact sig_index.2 (by omega))]
      rfl
  unfold psignal
  rw [this]
  exact ⟨rfl, rfl⟩

/-- **C150**, violated by the code: with an **empty prefix** the colon and the blank are printed nonetheless. -/
theorem C150_empty_violation (errno after sig : Int32) : (psignal errno after sig (some [])).1 = [0x3A, 0x20] ++ strsignal sig ++ [0x0A] ∧ (psignal errno after sig (some [])).1 ≠ (psignal errno after sig none).1 := by
  rw [(C150_psignal_partial errno after sig []).1, (C150_psignal_partial errno after sig []).2]
  refine ⟨rfl, fun h => ?_⟩
  have := congrArg List.length h
  simp at this
  omega

/-! ## C151 -/

/-- The stream messages go to: standard error, if none was set. -/
def St.stream (st : St) : Nat := st.sink.getD 0

/-- A line was added to a stream, and nothing to the others. -/
def Added (st st' : St) (line : List UInt8) : Prop := st'.out st.stream = st.out st.stream ++ line ∧ ∀ f, f ≠ st.stream → st'.out f = st.out f

/-- The line: the program, the message, and the error. -/
def line (prog : List UInt8) (msg : Option (List UInt8)) (error : Option (List UInt8)) : List UInt8 :=
  prog ++ (match msg with
    | some m => [0x3A, 0x20] ++ m
    | none => []) ++ (match error with
    | some e => [0x3A, 0x20] ++ e
    | none => []) ++ [0x0A]

theorem display (prog : List UInt8) (st : St) (code : Option Int32) (msg : Option (List UInt8)) :
    Added st (displayMessage prog st code msg) (line prog msg (code.map fun c => cstr (strerror st.static c)))
    ∧ (displayMessage prog st code msg).onExit = st.onExit ∧ (displayMessage prog st code msg).called = st.called ∧ (displayMessage prog st code msg).stream = st.stream := by
  have hs : (if st.sink = none then { st with sink := some 0 } else st).sink.getD 0 = st.stream := by
    unfold St.stream
    cases h : st.sink with
    | none => rfl
    | some f => simp [h]
  have ho : (if st.sink = none then { st with sink := some 0 } else st).out = st.out := by split <;> rfl
  have ht : (if st.sink = none then { st with sink := some 0 } else st).static = st.static := by split <;> rfl
  have he : (if st.sink = none then { st with sink := some 0 } else st).onExit = st.onExit := by split <;> rfl
  have hc : (if st.sink = none then { st with sink := some 0 } else st).called = st.called := by split <;> rfl
  unfold displayMessage Added
  dsimp only
  rw [hs]
  generalize (if st.sink = none then { st with sink := some 0 } else st) = s0 at hs ho ht he hc
  rw [← ho, ← ht, ← he, ← hc]
  have hs' : ∀ s : St, s.sink = s0.sink → s.stream = st.stream := fun s h => by unfold St.stream at hs ⊢; rw [h]; exact hs
  cases msg with
  | none =>
    cases code with
    | none => exact ⟨⟨by simp [St.print, line], fun f hf => by simp [St.print, hf]⟩, rfl, rfl, hs' _ rfl⟩
    | some c => exact ⟨⟨by simp [St.print, line], fun f hf => by simp [St.print, hf]⟩, rfl, rfl, hs' _ rfl⟩
  | some m =>
    cases code with
    | none => exact ⟨⟨by simp [St.print, line], fun f hf => by simp [St.print, hf]⟩, rfl, rfl, hs' _ rfl⟩
    | some c => exact ⟨⟨by simp [St.print, line], fun f hf => by simp [St.print, hf]⟩, rfl, rfl, hs' _ rfl⟩

/-- **C151.** `warn`, `warnc` and `warnx` add one line to the stream that was set: the program's name, the message if there is one, and the error of `errno`, of the code, or none. -/
theorem C151_warn (prog : List UInt8) (st : St) (errno code : Int32) (msg : Option (List UInt8)) :
    Added st (warn prog st errno msg) (line prog msg (some (cstr (strerror st.static errno)))) ∧ Added st (warnc prog st code msg) (line prog msg (some (cstr (strerror st.static code)))) ∧ Added st (warnx prog st msg) (line prog msg none) :=
  ⟨(display prog st (some errno) msg).1, (display prog st (some code) msg).1, (display prog st none msg).1⟩

/-- **C151**, part: `err`, `errc` and `errx` add the same line, and end the process with the status given; without a callback nothing is called. Missing: the callback gets the error number and not the status (below). -/
theorem C151_err_partial (prog : List UInt8) (st : St) (errno after eval code : Int32) (msg : Option (List UInt8)) :
    (Added st (err prog st errno after eval msg).2 (line prog msg (some (cstr (strerror st.static errno)))) ∧ (err prog st errno after eval msg).1 = eval)
    ∧ (Added st (errc prog st after eval code msg).2 (line prog msg (some (cstr (strerror st.static code)))) ∧ (errc prog st after eval code msg).1 = eval)
    ∧ (Added st (errx prog st after eval msg).2 (line prog msg none) ∧ (errx prog st after eval msg).1 = eval)
    ∧ (st.onExit = none → (err prog st errno after eval msg).2.called = st.called ∧ (errc prog st after eval code msg).2.called = st.called ∧ (errx prog st after eval msg).2.called = st.called) := by
  have key : ∀ c, Added st (errExit prog st eval c after msg).2 (line prog msg (c.map fun c => cstr (strerror st.static c))) ∧ (st.onExit = none → (errExit prog st eval c after msg).2.called = st.called) := by
    intro c
    have d := display prog st c msg
    unfold errExit
    dsimp only
    rw [d.2.1]
    cases h : st.onExit with
    | none => exact ⟨d.1, fun _ => d.2.2.1⟩
    | some f => exact ⟨d.1, fun h => by cases h⟩
  exact ⟨⟨(key (some errno)).1, rfl⟩, ⟨(key (some code)).1, rfl⟩, ⟨(key none).1, rfl⟩, fun h => ⟨(key (some errno)).2 h, (key (some code)).2 h, (key none).2 h⟩⟩

/-- **C151**, violated by the code: the **callback** is to be called with the status of the process; it is called with the error number. -/
theorem C151_callback_violation (prog : List UInt8) (st : St) (errno after eval code : Int32) (msg : Option (List UInt8)) (f : Nat) :
    (err prog (errSetExit st (some f)) errno after eval msg).2.called = st.called ++ [(f, errno)] ∧ (errc prog (errSetExit st (some f)) after eval code msg).2.called = st.called ++ [(f, code)] ∧ (errx prog (errSetExit st (some f)) after eval msg).2.called = st.called ++ [(f, after)] := by
  have key : ∀ c, (errExit prog (errSetExit st (some f)) eval c after msg).2.called = st.called ++ [(f, c.getD after)] := by
    intro c
    have d := display prog (errSetExit st (some f)) c msg
    unfold errExit
    dsimp only
    rw [d.2.1]
    show (displayMessage _ _ _ _).called ++ [(f, c.getD after)] = _
    rw [d.2.2.1]
    rfl
  exact ⟨key (some errno), key (some code), key none⟩

/-- **C151.** `err_set_file` chooses the stream, a null pointer standard error; messages do not change the choice, nor the callback. -/
theorem C151_set_file (prog : List UInt8) (st : St) (f : Nat) (code : Int32) (msg : Option (List UInt8)) :
    (errSetFile st (some f)).stream = f ∧ (errSetFile st none).stream = 0 ∧ (errSetFile st (some f)).out = st.out ∧ (errSetFile st none).out = st.out ∧ (warnc prog st code msg).stream = st.stream ∧ (warnc prog st code msg).onExit = st.onExit :=
  ⟨rfl, rfl, rfl, rfl, (display prog st (some code) msg).2.2.2, (display prog st (some code) msg).2.1⟩

/-! ## Examples -/

example : cstr (strerror (List.replicate 48 0x41) 13) = [0x50, 0x65, 0x72, 0x6D, 0x69, 0x73, 0x73, 0x69, 0x6F, 0x6E, 0x20, 0x64, 0x65, 0x6E, 0x69, 0x65, 0x64] := by decide +kernel

example : (cstr (strerror (List.replicate 48 0x41) (-17))).drop 14 = [0x2D, 0x31, 0x37] ∧ strerrorR (List.replicate 48 0) 13 [1, 2, 3, 4] = (34, [0x50, 0x65, 0x72, 0]) := by decide +kernel

example : (psignal 5 9 11 (some [0x78])).1 = [0x78, 0x3A, 0x20, 0x53, 0x65, 0x67, 0x6D, 0x65, 0x6E, 0x74, 0x61, 0x74, 0x69, 0x6F, 0x6E, 0x20, 0x66, 0x61, 0x75, 0x6C, 0x74, 0x0A] := by decide +kernel

example : (warnx [0x70] ⟨none, none, fun _ => [], [], []⟩ (some [0x68, 0x69])).out 0 = [0x70, 0x3A, 0x20, 0x68, 0x69, 0x0A] := by decide +kernel

end Verif.Messages
