import Verif.Regex.Model
/-!
# `regcomp`, `regexec`, `regerror`: the theorems
-/

namespace Verif.Regex

/-- A bit of the flags. -/
def Has (flags : UInt32) (bit : UInt32) : Prop := flags &&& bit = bit

instance (flags bit : UInt32) : Decidable (Has flags bit) := inferInstanceAs (Decidable (_ = _))

/-- What the user is told of group `i` of a match: the place, or -1 twice. -/
def offsets (groups : List (Option (Nat × Nat))) (i : Nat) : UInt64 × UInt64 :=
  match groups[i]? with
  | some (some (a, b)) => (UInt64.ofNat a, UInt64.ofNat b)
  | _ => (-1, -1)

theorem fill_spec (g : List (Option (Nat × Nat))) (n i : Nat) (mem : List (UInt64 × UInt64)) (h : n ≤ mem.length) :
    ∃ m, fill g n i mem = some m ∧ m.length = mem.length ∧ ∀ j, j < mem.length → m[j]? = if i ≤ j ∧ j < n then some (offsets g j) else mem[j]? := by
  induction i, mem using fill.induct (first := g) (nmatch := n) with
  | case1 i mem hi hm a b hab ih =>
    obtain ⟨m, h1, h2, h3⟩ := ih (by simpa using h)
    have hab' : offsets g i = (a, b) := by
      unfold offsets
      rw [show (-1 : UInt64) = ~~~0 from rfl]
      exact hab
    refine ⟨m, ?_, by simpa using h2, fun j hj => ?_⟩
    · rw [fill, if_pos hi, if_pos hm]
      rw [hab]
      exact h1
    · rw [h3 j (by simpa using hj)]
      by_cases hj1 : i + 1 ≤ j ∧ j < n
      · rw [if_pos hj1, if_pos (by omega)]
      · rw [if_neg hj1]
        by_cases hji : j = i
        · subst hji
          rw [if_pos (by omega), List.getElem?_set_self (by omega), hab']
        · rw [List.getElem?_set_ne (by omega), if_neg (by omega)]
  | case2 i mem hi hm => omega
  | case3 i mem hi => exact ⟨mem, by rw [fill, if_neg hi], rfl, fun j hj => by rw [if_neg (by omega)]⟩

variable {T : Type}

/-- **C172**: `regexec` tells whether the string matches, with the flags of `regcomp` and its own; then every one of the `nmatch` entries of the
array is the place of its group in the string, or -1, and the others are left. The flag `REG_NOSUB` is not among those of `regcomp`. -/
theorem C172_exec_partial (E : Engine T) (pat input : Bytes) (cflags eflags : UInt32) (r : Regex T) (hc : regcomp E pat cflags = (0, some r))
    (nmatch : Nat) (mem : List (UInt64 × UInt64)) (hm : nmatch ≤ mem.length) (he : ¬ Has eflags 4) :
    ∃ t, E.compile pat (decide (Has cflags 1)) = .ok t ∧ r.nsub = E.groups t ∧
      ∃ mode : Mode, (mode.icase = true ↔ Has (cflags ||| eflags) 2) ∧ (mode.newline = true ↔ Has (cflags ||| eflags) 8) ∧
        (mode.noStart = true ↔ Has (cflags ||| eflags) 16) ∧ (mode.noEnd = true ↔ Has (cflags ||| eflags) 32) ∧
        (E.matches' t mode input = none → regexec E r input nmatch (some mem) eflags = some (1, some mem)) ∧
        ∀ groups, E.matches' t mode input = some groups → ∃ m, regexec E r input nmatch (some mem) eflags = some (0, some m) ∧
          m.length = mem.length ∧ ∀ j, j < mem.length → m[j]? = if j < nmatch then some (offsets groups j) else mem[j]? := by
  unfold regcomp at hc
  have hb : (cflags &&& 1 == 1) = decide (Has cflags 1) := by unfold Has; rfl
  rw [hb] at hc
  split at hc
  · rename_i t ht
    cases hc
    refine ⟨t, ht, rfl, ⟨(cflags ||| eflags) &&& 2 == 2, (cflags ||| eflags) &&& 8 == 8, (cflags ||| eflags) &&& 16 == 16, (cflags ||| eflags) &&& 32 == 32⟩,
      by simp [Has], by simp [Has], by simp [Has], by simp [Has], fun hn => ?_, fun g hg => ?_⟩
    · unfold regexec
      dsimp only
      rw [hn]
    · unfold regexec
      dsimp only
      rw [hg]
      dsimp only
      have he' : (eflags &&& 4 != 4) = true := by unfold Has at he; simpa using he
      by_cases hn : nmatch > 0
      · rw [if_pos ⟨he', hn⟩]
        obtain ⟨m, h1, h2, h3⟩ := fill_spec g nmatch 0 mem hm
        refine ⟨m, by rw [h1]; rfl, h2, fun j hj => ?_⟩
        rw [h3 j hj]
        simp
      · rw [if_neg fun h => hn h.2]
        exact ⟨mem, rfl, rfl, fun j hj => by rw [if_neg (by omega)]⟩
  · rename_i e _
    have : (codeOf e) = 0 := (Prod.mk.inj hc).1
    cases e <;> exact absurd this (by decide)

/-- The expression matches the whole of every string, with one group that takes no part. -/
def all : Engine Unit := ⟨fun _ _ => .ok (), fun _ => 1, fun _ _ s => some [some (0, s.length), none]⟩

example : regexec all ⟨(), 0, 1⟩ [0x61, 0x62] 3 (some [(7, 7), (7, 7), (7, 7), (7, 7)]) 0 = some (0, some [(0, 2), (-1, -1), (-1, -1), (7, 7)]) := by decide +kernel

/-- **C172 violation**: an expression compiled with `REG_NOSUB` reports the groups all the same: for every match the first entry of the array
that should be ignored is overwritten, and with an array that is not there the program fails. -/
theorem C172_nosub_violation (E : Engine T) (pat input : Bytes) (cflags : UInt32) (_ : Has cflags 4) (r : Regex T) (hc : regcomp E pat cflags = (0, some r))
    (groups : List (Option (Nat × Nat))) (hg : ∀ t mode, E.matches' t mode input = some groups) :
    (∀ e, ∃ m, regexec E r input 1 (some [e]) 0 = some (0, some [m]) ∧ m = offsets groups 0) ∧ regexec E r input 1 (some []) 0 = none := by
  constructor
  · intro e
    obtain ⟨t, -, -, mode, -, -, -, -, -, h⟩ := C172_exec_partial E pat input cflags 0 r hc 1 [e] (by simp) (by decide)
    obtain ⟨m, h1, h2, h3⟩ := h groups (hg _ _)
    match m, h2 with
    | [m], _ => exact ⟨m, h1, by simpa using h3 0 (by simp)⟩
  · unfold regexec
    dsimp only
    rw [hg]
    dsimp only
    rw [if_pos (by decide), fill, if_pos (by decide), if_neg (by simp)]
    rfl

example : Has 4 4 ∧ regcomp all [] 4 = (0, some ⟨(), 4, 1⟩) := ⟨by decide, rfl⟩

/-- **C172**: a pattern is compiled or refused with a code other than zero, and then nothing is stored. -/
theorem C172_comp (E : Engine T) (pat : Bytes) (cflags : UInt32) : ((regcomp E pat cflags).1 = 0 ↔ (regcomp E pat cflags).2.isSome) ∧
    0 ≤ (regcomp E pat cflags).1 ∧ (regcomp E pat cflags).1 ≤ 14 := by
  unfold regcomp
  split
  · exact ⟨by simp, show (0 : Int32) ≤ 0 by decide, show (0 : Int32) ≤ 14 by decide⟩
  · rename_i e _
    have : codeOf e ≠ 0 ∧ 0 ≤ codeOf e ∧ codeOf e ≤ 14 := by cases e <;> decide
    exact ⟨by simpa using this.1, this.2⟩

def Shape (t : Bytes) : Prop := t = t.dropLast ++ [0] ∧ 0 ∉ t.dropLast ∧ t.dropLast ≠ []

theorem shape_ite {c : Prop} [Decidable c] {a b : Bytes} (ha : Shape a) (hb : Shape b) : Shape (if c then a else b) := by
  split
  · exact ha
  · exact hb

theorem text_shape (code : Int32) : ∃ s, text code = s ++ [0] ∧ 0 ∉ s ∧ s ≠ [] := by
  refine ⟨(text code).dropLast, ?_⟩
  show Shape (text code)
  unfold text
  repeat' apply shape_ite
  all_goals (unfold Shape; decide)

/-- **C172**: `regerror` returns the size that the text needs, and a buffer of that size receives the text and its NUL; every code has a text. -/
theorem C172_error (code : Int32) (max : Nat) : ∃ s : Bytes, s ≠ [] ∧ 0 ∉ s ∧ (regerror code max).2 = s.length + 1 ∧
    (s.length + 1 ≤ max → (regerror code max).1 = s ++ [0]) ∧ (regerror code max).1.length ≤ max := by
  obtain ⟨s, h1, h2, h3⟩ := text_shape code
  unfold regerror
  rw [h1]
  refine ⟨s, h3, h2, by simp, fun h => ?_, by simp; omega⟩
  rw [List.take_of_length_le (by simp; omega)]

/-- The texts of two codes differ, if both are of `regex.h`. -/
theorem C172_error_differs (a b : Int32) (ha : 0 ≤ a ∧ a ≤ 14) (hb : 0 ≤ b ∧ b ≤ 14) (h : (regerror a 64).1 = (regerror b 64).1) : a = b := by
  have all : ∀ x : Int32, 0 ≤ x ∧ x ≤ 14 → x ∈ ([0, 1, 2, 3, 4, 5, 6, 7, 8, 9, 10, 11, 12, 13, 14] : List Int32) := by
    intro x hx
    have h1 : 0 ≤ x.toInt := by simpa [Int32.le_iff_toInt_le] using hx.1
    have h2 : x.toInt ≤ 14 := by simpa [Int32.le_iff_toInt_le] using hx.2
    have e : x = Int32.ofInt x.toInt := by simp
    have : x.toInt = 0 ∨ x.toInt = 1 ∨ x.toInt = 2 ∨ x.toInt = 3 ∨ x.toInt = 4 ∨ x.toInt = 5 ∨ x.toInt = 6 ∨ x.toInt = 7 ∨ x.toInt = 8 ∨ x.toInt = 9 ∨
      x.toInt = 10 ∨ x.toInt = 11 ∨ x.toInt = 12 ∨ x.toInt = 13 ∨ x.toInt = 14 := by omega
    rcases this with h | h | h | h | h | h | h | h | h | h | h | h | h | h | h <;> (rw [e, h]; decide)
  have table : ∀ a ∈ ([0, 1, 2, 3, 4, 5, 6, 7, 8, 9, 10, 11, 12, 13, 14] : List Int32), ∀ b ∈ ([0, 1, 2, 3, 4, 5, 6, 7, 8, 9, 10, 11, 12, 13, 14] : List Int32),
      (regerror a 64).1 = (regerror b 64).1 → a = b := by decide +kernel
  exact table a (all a ha) b (all b hb) h

/-- **C172 violation**: a smaller buffer is filled to its end, and there is no NUL in it. -/
theorem C172_error_violation (code : Int32) (max : Nat) (h : max < (regerror code max).2) : 0 ∉ (regerror code max).1 := by
  obtain ⟨s, h1, h2, h3⟩ := text_shape code
  unfold regerror at h ⊢
  rw [h1] at h ⊢
  dsimp only at h ⊢
  rw [List.length_append] at h ⊢
  rw [Nat.min_eq_right (by omega), List.take_append_of_le_length (by simp at h; omega)]
  exact fun hm => h2 (List.mem_of_mem_take hm)

example : regerror 1 4 = ([0x4E, 0x6F, 0x20, 0x6D], 9) := by decide

end Verif.Regex
