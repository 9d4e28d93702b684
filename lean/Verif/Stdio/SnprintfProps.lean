import Verif.Stdio.PrintfModel
import Verif.Stdlib.SortProps
/-!
# `snprintf` and `sprintf` (C34)
-/

namespace Verif.Stdio
open Verif.Mem Verif.Stdlib

/-! ## Lemmas -/

theorem patch_over {m : Mem UInt8} {q : Nat} {l k : List UInt8} (h : l.length ≤ k.length) :
    patch (patch m q l) q k = patch m q k := by
  funext x
  unfold patch
  split
  · rfl
  · rw [if_neg (by omega)]

/-- Rewriting the terminator and what follows. -/
theorem patch_term {m : Mem UInt8} {p : Nat} {a b : List UInt8} :
    patch (patch m p (a ++ [0])) (p + a.length) (b ++ [0]) = patch m p (a ++ b ++ [0]) := by
  rw [← patch_append m p a [0], patch_over (by simp), patch_append, List.append_assoc]

/-- The invariant of `StringWriter`: `a` was accepted so far, out of a buffer of `n` bytes at `p`. -/
theorem writeAll_inv {m : Mem UInt8} {p n : Nat} (hm : Mapped m p n) :
    ∀ (cs : Chunks) (a : List UInt8), a.length + 1 ≤ n →
      ∃ w, (⟨p + a.length, n - a.length⟩ : StringWriter).writeAll (patch m p (a ++ [0])) cs
        = some (w, patch m p ((a ++ cs.flatten).take (n - 1) ++ [0])) := by
  intro cs
  induction cs with
  | nil =>
    intro a ha
    refine ⟨⟨p + a.length, n - a.length⟩, ?_⟩
    rw [StringWriter.writeAll, List.flatten_nil, List.append_nil, List.take_of_length_le (by omega)]
  | cons b cs ih =>
    intro a ha
    unfold StringWriter.writeAll
    by_cases hb : b = []
    · obtain ⟨w, e⟩ := ih a ha
      exact ⟨w, by rw [if_pos hb, e, hb]; simp⟩
    · rw [if_neg hb]
      unfold StringWriter.write
      by_cases hc : n - a.length > 1
      · have hmp : Mapped (patch m p (a ++ [0])) (p + a.length) (min b.length (n - a.length - 1) + 1) := by
          intro i hi
          have := hm (a.length + i) (by omega)
          rw [← Nat.add_assoc] at this
          exact isSome_patch this
        have hlen : (b.take (min b.length (n - a.length - 1))).length = min b.length (n - a.length - 1) := by
          simp
        have e1 := writeN_eq (m := patch m p (a ++ [0])) (p := p + a.length)
          (l := b.take (min b.length (n - a.length - 1))) (by rw [hlen]; exact hmp.mono (by omega))
        have e2 : Mem.store (patch (patch m p (a ++ [0])) (p + a.length) (b.take (min b.length (n - a.length - 1))))
            (p + a.length + min b.length (n - a.length - 1)) 0
            = some (patch m p ((a ++ b.take (min b.length (n - a.length - 1))) ++ [0])) := by
          rw [store_patch (isSome_patch (hmp _ (by omega))), ← patch_term]
          have := patch_append (patch m p (a ++ [0])) (p + a.length) (b.take (min b.length (n - a.length - 1))) [0]
          rw [hlen] at this
          rw [this]
        simp only [if_pos hc, e1, e2, Option.bind_eq_bind, Option.bind_some]
        have hl2 : (a ++ b.take (min b.length (n - a.length - 1))).length = a.length + min b.length (n - a.length - 1) := by
          rw [List.length_append, hlen]
        obtain ⟨w, e⟩ := ih (a ++ b.take (min b.length (n - a.length - 1))) (by omega)
        refine ⟨w, ?_⟩
        rw [hl2] at e
        rw [show p + a.length + min b.length (n - a.length - 1) = p + (a.length + min b.length (n - a.length - 1)) by omega,
          show n - a.length - min b.length (n - a.length - 1) = n - (a.length + min b.length (n - a.length - 1)) by omega, e]
        congr 3
        by_cases hk : b.length ≤ n - a.length - 1
        · rw [Nat.min_eq_left hk, List.take_length]; simp
        · rw [List.take_append_of_le_length (by rw [hl2]; omega), List.take_of_length_le (by rw [hl2]; omega)]
          rw [List.flatten_cons, List.take_append, List.take_of_length_le (l := a) (by omega),
            List.take_append_of_le_length (l₁ := b) (by omega)]
          rw [show min b.length (n - a.length - 1) = n - 1 - a.length by omega]
      · simp only [if_neg hc, Option.bind_eq_bind, Option.bind_some]
        obtain ⟨w, e⟩ := ih a ha
        refine ⟨w, ?_⟩
        rw [e]
        congr 3
        rw [List.take_append_of_le_length (by omega), List.take_append_of_le_length (by omega)]

theorem writeAll_small {m : Mem UInt8} {w : StringWriter} (h : w.cap ≤ 1) : ∀ cs : Chunks, w.writeAll m cs = some (w, m)
  | [] => rfl
  | b :: cs => by
    unfold StringWriter.writeAll
    split
    · exact writeAll_small h cs
    · simp only [StringWriter.write, if_neg (show ¬ w.cap > 1 by omega), Option.bind_eq_bind, Option.bind_some,
        writeAll_small h cs]

theorem writeAll_empty {m : Mem UInt8} {w : StringWriter} : ∀ cs : Chunks, cs.flatten = [] → w.writeAll m cs = some (w, m)
  | [], _ => rfl
  | b :: cs, h => by
    simp only [List.flatten_cons, List.append_eq_nil_iff] at h
    unfold StringWriter.writeAll
    rw [if_pos h.1]
    exact writeAll_empty cs h.2

theorem writeAll_eq {m : Mem UInt8} {p n : Nat} (hm : Mapped m p n) (hn : 2 ≤ n) :
    ∀ cs : Chunks, cs.flatten ≠ [] →
      ∃ w, (⟨p, n⟩ : StringWriter).writeAll m cs = some (w, patch m p (cs.flatten.take (n - 1) ++ [0]))
  | [], h => absurd rfl h
  | b :: cs, h => by
    unfold StringWriter.writeAll
    by_cases hb : b = []
    · rw [if_pos hb]
      obtain ⟨w, e⟩ := writeAll_eq hm hn cs (by simpa [hb] using h)
      exact ⟨w, by rw [e, hb]; rfl⟩
    · rw [if_neg hb]
      unfold StringWriter.write
      have hlen : (b.take (min b.length (n - 1))).length = min b.length (n - 1) := by simp
      have e1 := writeN_eq (m := m) (p := p) (l := b.take (min b.length (n - 1)))
        (by rw [hlen]; exact hm.mono (by omega))
      have e2 : Mem.store (patch m p (b.take (min b.length (n - 1)))) (p + min b.length (n - 1)) 0
          = some (patch m p (b.take (min b.length (n - 1)) ++ [0])) := by
        rw [store_patch (isSome_patch (hm _ (by omega)))]
        have := patch_append m p (b.take (min b.length (n - 1))) [0]
        rw [hlen] at this
        rw [this]
      simp only [if_pos (show n > 1 by omega), e1, e2, Option.bind_eq_bind, Option.bind_some]
      obtain ⟨w, e⟩ := writeAll_inv hm cs (b.take (min b.length (n - 1))) (by omega)
      refine ⟨w, ?_⟩
      rw [hlen] at e
      rw [e]
      congr 3
      by_cases hk : b.length ≤ n - 1
      · rw [Nat.min_eq_left hk, List.take_length]; rfl
      · rw [List.take_append_of_le_length (by omega), List.take_of_length_le (by omega),
          List.flatten_cons, List.take_append_of_le_length (l₁ := b) (by omega),
          show min b.length (n - 1) = n - 1 by omega]

theorem unsafeWriteAll_inv : ∀ (cs : Chunks) (m : Mem UInt8) (p : Nat), Mapped m p (cs.flatten.length + 1) →
    cs.flatten ≠ [] → unsafeWriteAll p m cs = some (p + cs.flatten.length, patch m p (cs.flatten ++ [0]))
  | [], _, _, _, h => absurd rfl h
  | b :: cs, m, p, hm, h => by
    unfold unsafeWriteAll
    by_cases hb : b = []
    · rw [if_pos hb]
      subst hb
      exact unsafeWriteAll_inv cs m p hm h
    · rw [if_neg hb]
      rw [List.flatten_cons, List.length_append] at hm
      have e1 := writeN_eq (m := m) (p := p) (l := b) (hm.mono (by omega))
      have e2 : Mem.store (patch m p b) (p + b.length) 0 = some (patch m p (b ++ [0])) := by
        rw [store_patch (isSome_patch (hm _ (by omega))), patch_append]
      simp only [unsafeWrite, e1, e2, Option.bind_eq_bind, Option.bind_some]
      by_cases hc : cs.flatten = []
      · have : unsafeWriteAll (p + b.length) (patch m p (b ++ [0])) cs = some (p + b.length, patch m p (b ++ [0])) := by
          clear e1 e2 hm h
          induction cs with
          | nil => rfl
          | cons d cs ih =>
            simp only [List.flatten_cons, List.append_eq_nil_iff] at hc
            unfold unsafeWriteAll
            rw [if_pos hc.1]
            exact ih hc.2
        rw [this, List.flatten_cons, hc, List.append_nil]
      · have hmap : Mapped (patch m p (b ++ [0])) (p + b.length) (cs.flatten.length + 1) := by
          intro i hi
          have := hm (b.length + i) (by omega)
          rw [← Nat.add_assoc] at this
          exact isSome_patch this
        rw [unsafeWriteAll_inv cs _ _ hmap hc, patch_term, List.flatten_cons, List.length_append, Nat.add_assoc]

theorem mainLoop_ret {m : Mem UInt8} : ∀ (its : List Item) (s : St) {out : Chunks} {st : List NStore} {r : Int32},
    mainLoop m s its = some (out, st, r) → r = -1 ∨ r = Int32.ofNat out.flatten.length
  | [], s, out, st, r, h => by
    simp only [mainLoop, Option.some.injEq, Prod.mk.injEq] at h
    obtain ⟨rfl, _, rfl⟩ := h
    exact .inr rfl
  | .plain _ :: l, s, out, st, r, h => mainLoop_ret l _ h
  | .err :: _, s, out, st, r, h => by
    simp only [mainLoop, Option.some.injEq, Prod.mk.injEq] at h
    exact .inl h.2.2.symm
  | .arg a :: l, s, out, st, r, h => by
    unfold mainLoop at h
    cases e : s.conv m a with
    | none => simp [e] at h
    | some x =>
      cases x with
      | none =>
        simp only [e, Option.bind_eq_bind, Option.bind_some, Option.some.injEq, Prod.mk.injEq] at h
        exact .inl h.2.2.symm
      | some s' =>
        simp only [e, Option.bind_eq_bind, Option.bind_some] at h
        exact mainLoop_ret l _ h

/-! ## C34

`printf m e f ap = some (out, _, r)` below says that the conversions of the format produce the text `out.flatten`, in
whatever pieces; what that text is, is the subject of C35 and C62. -/

/-- C34, `snprintf` with room for at least one character and a non-empty output: the buffer holds the longest prefix of
the output that leaves room for the terminator, then the terminator; no other byte changes. Missing: `n = 1`, and empty
output. -/
theorem C34_snprintf_partial {m : Mem UInt8} {e f : List UInt8} {ap : VaList} {s n : Nat} {out : Chunks}
    {st : List NStore} {r : Int32} (h : printf m e f ap = some (out, st, r)) (hm : Mapped m s n) (hn : 2 ≤ n)
    (ho : out.flatten ≠ []) :
    snprintf m e s n f ap = some (r, patch m s (out.flatten.take (n - 1) ++ [0])) := by
  obtain ⟨w, hw⟩ := writeAll_eq hm hn out ho
  simp only [snprintf, h, hw, Option.bind_eq_bind, Option.bind_some]

/-- C34, `n = 0`: nothing is written. -/
theorem C34_snprintf_zero {m : Mem UInt8} {e f : List UInt8} {ap : VaList} {s : Nat} {out : Chunks}
    {st : List NStore} {r : Int32} (h : printf m e f ap = some (out, st, r)) :
    snprintf m e s 0 f ap = some (r, m) := by
  simp only [snprintf, h, writeAll_small (w := ⟨s, 0⟩) (by simp), Option.bind_eq_bind, Option.bind_some]

/-- C34, the value returned is the length of the complete output, whatever the size of the buffer (or -1 for an error). -/
theorem C34_return {m : Mem UInt8} {e f : List UInt8} {ap : VaList} {out : Chunks}
    {st : List NStore} {r : Int32} (h : printf m e f ap = some (out, st, r)) (hl : out.flatten.length < 2 ^ 31) :
    r = -1 ∨ r.toInt = out.flatten.length := by
  have key : r = -1 ∨ r = Int32.ofNat out.flatten.length := by
    unfold printf at h
    cases e1 : items e f with
    | none => simp [e1] at h
    | some its =>
      simp only [e1, Option.bind_eq_bind, Option.bind_some] at h
      cases e2 : prefetch ⟨[], [], ap⟩ its with
      | none => simp [e2] at h
      | some x =>
        cases x with
        | none =>
          simp only [e2, Option.bind_some, Option.some.injEq, Prod.mk.injEq] at h
          exact .inl h.2.2.symm
        | some pre =>
          simp only [e2, Option.bind_some] at h
          cases e3 : fetchPositional ⟨pre.args, 0⟩ pre.ap pre.positional with
          | none => simp [e3] at h
          | some y =>
            simp only [e3, Option.bind_some] at h
            exact mainLoop_ret _ _ h
  rcases key with h | h
  · exact .inl h
  · refine .inr ?_
    rw [h, Int32.toInt_ofNat', Int.bmod_eq_of_le (by simp) (by have e : ((2 ^ 32 : Nat) : Int) = 4294967296 := rfl; rw [e]; omega)]

/-- C34 fails for a buffer of one byte: nothing is written, so the buffer is not terminated. -/
theorem C34_one_violation {m : Mem UInt8} {e f : List UInt8} {ap : VaList} {s : Nat} {out : Chunks}
    {st : List NStore} {r : Int32} (h : printf m e f ap = some (out, st, r)) :
    snprintf m e s 1 f ap = some (r, m) := by
  simp only [snprintf, h, writeAll_small (w := ⟨s, 1⟩) (by simp), Option.bind_eq_bind, Option.bind_some]

/-- C34 fails for empty output: nothing is written, so the buffer is not terminated. -/
theorem C34_empty_violation {m : Mem UInt8} {e f : List UInt8} {ap : VaList} {s n : Nat} {out : Chunks}
    {st : List NStore} {r : Int32} (h : printf m e f ap = some (out, st, r)) (ho : out.flatten = []) :
    snprintf m e s n f ap = some (r, m) := by
  simp only [snprintf, h, writeAll_empty out ho, Option.bind_eq_bind, Option.bind_some]

/-- C34, `sprintf` with non-empty output: the output and the terminator are stored, no other byte changes. -/
theorem C34_sprintf_partial {m : Mem UInt8} {e f : List UInt8} {ap : VaList} {s : Nat} {out : Chunks}
    {st : List NStore} {r : Int32} (h : printf m e f ap = some (out, st, r)) (hm : Mapped m s (out.flatten.length + 1))
    (ho : out.flatten ≠ []) :
    sprintf m e s f ap = some (r, patch m s (out.flatten ++ [0])) := by
  simp only [sprintf, h, unsafeWriteAll_inv out m s hm ho, Option.bind_eq_bind, Option.bind_some]

/-- Formats without conversions. -/
theorem printf_plain (m : Mem UInt8) (e : List UInt8) (ap : VaList) (b : UInt8) (h : b ≠ 0x25) :
    printf m e [b] ap = some ([[b]], [], 1) := by
  have h1 : items e [b] = some [.plain [b]] := by
    rw [items]
    simp only [nextItem, List.takeWhile, List.dropWhile, bne_iff_ne.2 h]
    rw [items]
    rfl
  simp only [printf, h1, Option.bind_eq_bind, Option.bind_some, prefetch, fetchPositional, mainLoop]
  rfl

theorem printf_empty (m : Mem UInt8) (e : List UInt8) (ap : VaList) : printf m e [] ap = some ([], [], 0) := by
  have h1 : items e [] = some [] := by
    rw [items]
    rfl
  simp only [printf, h1, Option.bind_eq_bind, Option.bind_some, prefetch, fetchPositional, mainLoop]
  rfl

-- the witnesses: a buffer that is not terminated afterwards
example : snprintf (ofList 8 [0xFF]) [] 8 1 [0x61] [] = some (1, ofList 8 [0xFF]) :=
  C34_one_violation (printf_plain _ _ _ _ (by decide))
example : snprintf (ofList 8 [0xFF, 0xFF]) [] 8 2 [] [] = some (0, ofList 8 [0xFF, 0xFF]) :=
  C34_empty_violation (printf_empty _ _ _) rfl
-- and one where it is
example : snprintf (ofList 8 [0xFF, 0xFF]) [] 8 2 [0x61] [] = some (1, patch (ofList 8 [0xFF, 0xFF]) 8 [0x61, 0]) :=
  C34_snprintf_partial (printf_plain _ _ _ _ (by decide)) (by intro i hi; rcases i with _ | _ | i <;> simp_all [ofList])
    (by decide) (by decide)

end Verif.Stdio
