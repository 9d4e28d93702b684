import Verif.Dir.GetdentsModel
import Verif.Dir.DirProps
/-!
# C156: `posix_getdents`
-/

namespace Verif.Dir
open Verif.Net

/-! ## Specification -/

/-- The answers of calls with buffers, from the entry `i` on: at the end 0; `EINVAL` if the next entry does not fit; otherwise one
or more whole entries, from which the next call goes on. The bytes of a buffer behind them stay. -/
def Delivers (recs : List (List UInt8)) : Nat → List (List UInt8) → List (Except Int32 Nat × List UInt8) → Prop
  | _, [], [] => True
  | i, b :: bs, (r, b') :: rs =>
    match recs[i]? with
    | none => r = .ok 0 ∧ b' = b ∧ Delivers recs i bs rs
    | some e =>
      if b.length < e.length then r = .error 22 ∧ b' = b ∧ Delivers recs i bs rs
      else ∃ c, 0 < c ∧ i + c ≤ recs.length ∧ ((recs.drop i).take c).flatten.length ≤ b.length ∧
        r = .ok ((recs.drop i).take c).flatten.length ∧
        b' = ((recs.drop i).take c).flatten ++ b.drop ((recs.drop i).take c).flatten.length ∧ Delivers recs (i + c) bs rs
  | _, _, _ => False

/-- Calls of `posix_getdents` with one buffer after the other. -/
def getdentsRun (k : Kern) (pos : UInt64) : List (List UInt8) → List (Except Int32 Nat × List UInt8)
  | [] => []
  | b :: bs =>
    let r := posixGetdents k pos b
    (r.1, r.2.1) :: getdentsRun r.2.2.1 r.2.2.2 bs

/-! ## Lemmas -/

theorem reclen_record {k0 : Kern} (hg : k0.Good) {i : Nat} {r : List UInt8} (hr : k0.recs[i]? = some r) (rest : List UInt8) :
    reclenOffset .redox (r ++ rest) = some (r.length, k0.cookie (i + 1)) := by
  have hm := List.mem_of_getElem? hr
  have hs := hg.size r hm
  have h1 : ((r ++ rest).drop 16).take 2 = (r.drop 16).take 2 := by
    rw [List.drop_append_of_le_length (by omega), List.take_append_of_le_length (by rw [List.length_drop]; omega)]
  have h2 : ((r ++ rest).drop 8).take 8 = (r.drop 8).take 8 := by
    rw [List.drop_append_of_le_length (by omega), List.take_append_of_le_length (by rw [List.length_drop]; omega)]
  have h3 : (r ++ rest)[r.length - 1]? = some 0 := by
    rw [List.getElem?_append_left (by omega), ← List.getLast?_eq_getElem?]
    exact hg.nul r hm
  unfold reclenOffset
  dsimp only
  rw [h1, h2, hg.len r hm, hg.next i r hr, if_neg (by rw [List.length_append]; omega), h3, if_neg (by simp; intro e; subst e; simp at hs),
    UInt64.ofNat_toNat]

theorem walk_records {k0 : Kern} (hg : k0.Good) : ∀ (c i : Nat) (pre rest : List UInt8), i + c ≤ k0.recs.length →
    walk (pre ++ ((k0.recs.drop i).take c).flatten ++ rest) (pre.length + ((k0.recs.drop i).take c).flatten.length) pre.length (k0.cookie i) =
      some (k0.cookie (i + c)) := by
  intro c
  induction c with
  | zero =>
    intro i pre rest _
    rw [walk]
    simp
  | succ c ih =>
    intro i pre rest hi
    have hlt : i < k0.recs.length := by omega
    have hget : k0.recs[i]? = some k0.recs[i] := List.getElem?_eq_getElem hlt
    have hs := hg.size _ (List.mem_of_getElem? hget)
    have hd : k0.recs.drop i = k0.recs[i] :: k0.recs.drop (i + 1) := List.drop_eq_getElem_cons hlt
    rw [hd, List.take_succ_cons, List.flatten_cons]
    generalize hR : k0.recs[i] = r at *
    have ih' := ih (i + 1) (pre ++ r) rest (by omega)
    rw [walk, dif_pos (by rw [List.length_append]; omega), List.append_assoc, List.append_assoc, List.drop_left, reclen_record hg hget]
    dsimp only
    rw [dif_neg (by omega)]
    rw [List.append_assoc, List.append_assoc, List.length_append] at ih'
    rw [List.length_append, ← Nat.add_assoc, ih']
    rw [show i + 1 + c = i + (c + 1) from by omega]

/-- One call, at the place `i`. -/
theorem call_at {k0 : Kern} (hg : k0.Good) {k : Kern} (h1 : k.recs = k0.recs) (h3 : k.index = k0.index) (h4 : k.fail = k0.fail)
    {i : Nat} (hi : i ≤ k0.recs.length) (b : List UInt8) :
    (k0.recs[i]? = none → ∃ k', posixGetdents k (k0.cookie i) b = (.ok 0, b, k', k0.cookie i) ∧
      k'.recs = k0.recs ∧ k'.index = k0.index ∧ k'.fail = k0.fail) ∧
    (∀ e, k0.recs[i]? = some e → b.length < e.length → ∃ k', posixGetdents k (k0.cookie i) b = (.error 22, b, k', k0.cookie i) ∧
      k'.recs = k0.recs ∧ k'.index = k0.index ∧ k'.fail = k0.fail) ∧
    (∀ e, k0.recs[i]? = some e → ¬ b.length < e.length → ∃ c k', 0 < c ∧ i + c ≤ k0.recs.length ∧
      ((k0.recs.drop i).take c).flatten.length ≤ b.length ∧
      posixGetdents k (k0.cookie i) b = (.ok ((k0.recs.drop i).take c).flatten.length,
        ((k0.recs.drop i).take c).flatten ++ b.drop ((k0.recs.drop i).take c).flatten.length, k', k0.cookie (i + c)) ∧
      k'.recs = k0.recs ∧ k'.index = k0.index ∧ k'.fail = k0.fail) := by
  have hd := getdents_at (pl := .redox) hg h1 h3 h4 hi (by intro e; cases e) b.length
  refine ⟨?_, ?_, ?_⟩
  · intro hn
    have : k0.recs.drop i = [] := List.drop_eq_nil_of_le (by simpa using hn)
    rw [this] at hd
    refine ⟨{ k with calls := k.calls + 1 }, ?_, h1, h3, h4⟩
    unfold posixGetdents
    rw [hd]
    simp
  · intro e he hlt
    have hil : i < k0.recs.length := by
      rcases Nat.lt_or_ge i k0.recs.length with h | h
      · exact h
      · rw [List.getElem?_eq_none h] at he; cases he
    have hdr : k0.recs.drop i = e :: k0.recs.drop (i + 1) := by
      rw [List.drop_eq_getElem_cons hil]
      rw [List.getElem?_eq_getElem hil] at he
      rw [Option.some.inj he]
    rw [hdr] at hd
    dsimp only at hd
    rw [if_pos hlt] at hd
    refine ⟨{ k with calls := k.calls + 1 }, ?_, h1, h3, h4⟩
    unfold posixGetdents
    rw [hd]
    rfl
  · intro e he hlt
    have hil : i < k0.recs.length := by
      rcases Nat.lt_or_ge i k0.recs.length with h | h
      · exact h
      · rw [List.getElem?_eq_none h] at he; cases he
    have hdr : k0.recs.drop i = e :: k0.recs.drop (i + 1) := by
      rw [List.drop_eq_getElem_cons hil]
      rw [List.getElem?_eq_getElem hil] at he
      rw [Option.some.inj he]
    have hs := hg.size e (List.mem_of_getElem? he)
    rw [hdr] at hd
    dsimp only at hd
    rw [if_neg hlt, ← hdr] at hd
    generalize hF : fit (k0.recs.drop i) b.length (k.choice k.calls + 1) = F at hd
    have hFt : F = (k0.recs.drop i).take F.length := by rw [← hF]; exact fit_take _ _ _
    have hFl := fit_length (k0.recs.drop i) b.length (k.choice k.calls + 1)
    rw [hF, List.length_drop] at hFl
    have hpos : 0 < F.length := by
      rw [← hF, hdr]
      unfold fit
      rw [if_pos (by omega)]
      simp
    refine ⟨F.length, { k with calls := k.calls + 1, pos := i + F.length }, hpos, by omega, by rw [← hFt]; exact hFl.2, ?_, h1, h3, h4⟩
    have hne : ¬ F.flatten.length = 0 := by
      rw [hFt, hdr]
      cases hn : F.length with
      | zero => omega
      | succ n =>
        rw [List.take_succ_cons, List.flatten_cons, List.length_append]
        omega
    have hw := walk_records hg F.length i [] (b.drop F.flatten.length) (by omega)
    rw [← hFt] at hw ⊢
    simp only [List.nil_append, List.length_nil, Nat.zero_add] at hw
    unfold posixGetdents
    rw [hd]
    dsimp only
    rw [if_neg hne, hw]

/-! ## The claim -/

/-- Calls of `posix_getdents` with any buffers deliver every entry once, in the order of the directory, then 0. -/
theorem C156_getdents (k : Kern) (hg : k.Good) (bufs : List (List UInt8)) : Delivers k.recs 0 bufs (getdentsRun k 0 bufs) := by
  have key : ∀ (bufs : List (List UInt8)) (k' : Kern) (i : Nat), k'.recs = k.recs → k'.index = k.index → k'.fail = k.fail →
      i ≤ k.recs.length → Delivers k.recs i bufs (getdentsRun k' (k.cookie i) bufs) := by
    intro bufs
    induction bufs with
    | nil => intro _ _ _ _ _ _; exact trivial
    | cons b bs ih =>
      intro k' i h1 h3 h4 hi
      obtain ⟨c1, c2, c3⟩ := call_at hg h1 h3 h4 hi b
      unfold getdentsRun Delivers
      cases hr : k.recs[i]? with
      | none =>
        obtain ⟨k2, e, g1, g3, g4⟩ := c1 hr
        rw [e]
        exact ⟨rfl, rfl, ih k2 i g1 g3 g4 hi⟩
      | some r =>
        dsimp only
        by_cases hlt : b.length < r.length
        · rw [if_pos hlt]
          obtain ⟨k2, e, g1, g3, g4⟩ := c2 r hr hlt
          rw [e]
          exact ⟨rfl, rfl, ih k2 i g1 g3 g4 hi⟩
        · rw [if_neg hlt]
          obtain ⟨c, k2, p1, p2, p3, e, g1, g3, g4⟩ := c3 r hr hlt
          rw [e]
          exact ⟨c, p1, p2, p3, rfl, rfl, ih k2 (i + c) g1 g3 g4 p2⟩
  have := key bufs k 0 rfl rfl rfl (Nat.zero_le _)
  rwa [hg.zero] at this

/-- Whatever the kernel answers, a call that fails leaves the position of the descriptor. -/
theorem C156_failure (k : Kern) (pos : UInt64) (buf : List UInt8) (e : Int32) (h : (posixGetdents k pos buf).1 = .error e) :
    (posixGetdents k pos buf).2.2.2 = pos := by
  unfold posixGetdents at h ⊢
  split
  · rfl
  · rename_i l k' heq
    rw [heq] at h
    dsimp only at h ⊢
    split
    · rfl
    · rename_i hl
      rw [if_neg hl] at h
      split
      · rfl
      · rename_i next hw
        rw [hw] at h
        cases h

/-- Bytes that are not records — the first with a length of zero — are an error, whatever follows them. -/
theorem C156_bad_records (k : Kern) (pos : UInt64) (buf l : List UInt8) (h : (k.getdents .redox buf.length pos).1 = .ok l)
    (h16 : l[16]? = some 0) (h17 : l[17]? = some 0) : (posixGetdents k pos buf).1 = .error 5 := by
  have hlen : 18 ≤ l.length := by have := (List.getElem?_eq_some_iff.1 h17).1; omega
  have hd : (l.drop 16).take 2 = [0, 0] := by
    apply List.ext_getElem?
    intro i
    rw [List.getElem?_take]
    split
    · rw [List.getElem?_drop]
      match i with
      | 0 => exact h16
      | 1 => exact h17
      | i + 2 => omega
    · rw [List.getElem?_eq_none]; simp only [List.length_cons, List.length_nil]; omega
  have hr : reclenOffset .redox (l ++ buf.drop l.length) = none := by
    unfold reclenOffset
    dsimp only
    rw [List.drop_append_of_le_length (by omega), List.take_append_of_le_length (by rw [List.length_drop]; omega), hd]
    split
    · rfl
    · rw [if_pos (Or.inl (by decide))]
  unfold posixGetdents
  split
  · rename_i heq; rw [heq] at h; cases h
  · rename_i l' k' heq
    rw [heq] at h
    cases h
    have h0 : 0 < l.length := by omega
    dsimp only
    rw [if_neg (by omega), walk.eq_def, dif_pos h0, List.drop_zero, hr]
    rfl

/-- A directory of one entry, a buffer too small for it, then a larger one twice. -/
example : ∃ k : Kern, k.Good ∧ ∃ r, k.recs = [r] ∧ r.length = 24 :=
  ⟨{ recs := [[1, 0, 0, 0, 0, 0, 0, 0, 7, 0, 0, 0, 0, 0, 0, 0, 24, 0, 8, 0x61, 0, 0, 0, 0]], cookie := fun i => if i = 0 then 0 else 7,
     index := fun c => if c = 0 then 0 else 1, pos := 0, calls := 0, choice := fun _ => 0, fail := fun _ => none },
   { size := by decide, len := by decide
     next := by
      intro i r h
      match i with
      | 0 => simp at h; subst h; decide
      | i + 1 => simp at h
     nul := by decide, zero := rfl
     index := by
      intro i h
      match i with
      | 0 => rfl
      | 1 => rfl
      | i + 2 => simp at h
     small := by intro i; dsimp only; split <;> decide
     fine := fun _ => rfl }, _, rfl, rfl⟩

end Verif.Dir
