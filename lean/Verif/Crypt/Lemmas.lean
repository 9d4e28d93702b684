import Verif.Crypt.Model
/-!
# `crypt`: lemmas
-/

namespace Verif.Crypt

/-- Text: ASCII characters without NUL. -/
def Text (s : Bytes) : Prop := ∀ c ∈ s, c ≠ 0 ∧ c < 0x80

theorem utf8_text (s : Bytes) (h : Text s) : Locale.isUtf8 s = true := by
  induction s with
  | nil => rw [Locale.isUtf8.eq_def]
  | cons b s ih =>
    rw [Locale.isUtf8.eq_def]
    dsimp only
    rw [if_pos (h b (List.mem_cons_self)).2]
    exact ih fun c hc => h c (List.mem_cons_of_mem _ hc)

theorem digit_range (n : Nat) (h : n < 10) : Stdio.digitByte false n = UInt8.ofNat (0x30 + n) := by
  unfold Stdio.digitByte; rw [if_pos h]

theorem digit_facts : ∀ n : Fin 10, toDigit 10 (UInt8.ofNat (0x30 + n.val)) = some n.val ∧ UInt8.ofNat (0x30 + n.val) ≠ 0x2B ∧
    UInt8.ofNat (0x30 + n.val) ≠ 0x24 ∧ UInt8.ofNat (0x30 + n.val) ≠ 0 ∧ UInt8.ofNat (0x30 + n.val) < 0x80 := by decide +kernel

theorem digits_lt (n : Nat) (h : n < 10) : Stdio.digitsOf 10 false n = [UInt8.ofNat (0x30 + n)] := by
  rw [Stdio.digitsOf, dif_pos (Or.inl h), digit_range n h]

theorem digits_ge (n : Nat) (h : ¬ n < 10) : Stdio.digitsOf 10 false n = Stdio.digitsOf 10 false (n / 10) ++ [UInt8.ofNat (0x30 + n % 10)] := by
  rw [Stdio.digitsOf, dif_neg (by omega), digit_range _ (by omega)]

theorem digits_mem (n : Nat) : ∀ c ∈ Stdio.digitsOf 10 false n, c ≠ 0x2B ∧ c ≠ 0x24 ∧ c ≠ 0 ∧ c < 0x80 := by
  induction n using Nat.strongRecOn with
  | ind n ih =>
    intro c hc
    by_cases h : n < 10
    · rw [digits_lt n h, List.mem_singleton] at hc
      subst hc; exact (digit_facts ⟨n, h⟩).2
    · rw [digits_ge n h, List.mem_append, List.mem_singleton] at hc
      rcases hc with hc | hc
      · exact ih (n / 10) (by omega) c hc
      · subst hc; exact (digit_facts ⟨n % 10, by omega⟩).2

theorem digits_ne (n : Nat) : Stdio.digitsOf 10 false n ≠ [] := by
  by_cases h : n < 10
  · rw [digits_lt n h]; simp
  · rw [digits_ge n h]; simp

theorem fold_digits (max n : Nat) (hn : n ≤ max) : (Stdio.digitsOf 10 false n).foldl (step 10 max) (some 0) = some n := by
  induction n using Nat.strongRecOn with
  | ind n ih =>
    by_cases h : n < 10
    · rw [digits_lt n h]
      show step 10 max (some 0) _ = _
      have := (digit_facts ⟨n, h⟩).1
      dsimp only at this
      show (toDigit 10 _).bind _ = _
      rw [this]
      show (if 0 * 10 + n ≤ max then _ else _) = _
      rw [if_pos (by omega)]; congr 1; omega
    · rw [digits_ge n h, List.foldl_append, ih (n / 10) (by omega) (by omega)]
      have := (digit_facts ⟨n % 10, by omega⟩).1
      dsimp only at this
      show (toDigit 10 _).bind _ = _
      rw [this]
      show (if n / 10 * 10 + n % 10 ≤ max then _ else _) = _
      rw [if_pos (by omega)]; congr 1; omega

theorem parse_digits (max n : Nat) (hn : n ≤ max) : parse 10 max (Stdio.digitsOf 10 false n) = some n := by
  unfold parse
  have hh : ¬ (Stdio.digitsOf 10 false n).head? = some 0x2B := by
    intro h
    exact (digits_mem n 0x2B (List.mem_of_head? h)).1 rfl
  dsimp only
  rw [if_neg hh, if_neg (digits_ne n), fold_digits max n hn]

theorem takeWhile_stop (s e : Bytes) (h : ∀ c ∈ s, c ≠ 0x24) : (s ++ 0x24 :: e).takeWhile (· ≠ 0x24) = s := by
  induction s with
  | nil => simp
  | cons c s ih =>
    rw [List.cons_append, List.takeWhile_cons, if_pos (by simpa using h c List.mem_cons_self), ih fun d hd => h d (List.mem_cons_of_mem _ hd)]

theorem takeWhile_all (s : Bytes) (h : ∀ c ∈ s, c ≠ 0x24) : s.takeWhile (· ≠ 0x24) = s := by
  induction s with
  | nil => rfl
  | cons c s ih =>
    rw [List.takeWhile_cons, if_pos (by simpa using h c List.mem_cons_self), ih fun d hd => h d (List.mem_cons_of_mem _ hd)]

theorem takeWhile_take (s e : Bytes) (n : Nat) (hn : s.length ≤ n) (h : ∀ c ∈ s, c ≠ 0x24) : ((s ++ 0x24 :: e).take n).takeWhile (· ≠ 0x24) = s := by
  rw [List.take_append, List.take_of_length_le hn]
  rcases Nat.lt_or_ge s.length n with h2 | h2
  · rw [show n - s.length = (n - s.length - 1) + 1 by omega, List.take_succ_cons]
    exact takeWhile_stop s _ h
  · rw [show n - s.length = 0 by omega, List.take_zero, List.append_nil, takeWhile_all s h]

theorem takeWhile_mem (s : Bytes) : ∀ c ∈ s.takeWhile (· ≠ 0x24), c ≠ 0x24 ∧ c ∈ s := by
  induction s with
  | nil => simp
  | cons d s ih =>
    intro c hc
    rw [List.takeWhile_cons] at hc
    split at hc
    · rename_i hd
      rcases List.mem_cons.1 hc with rfl | hc
      · exact ⟨by simpa using hd, List.mem_cons_self⟩
      · exact ⟨(ih c hc).1, List.mem_cons_of_mem _ (ih c hc).2⟩
    · exact absurd hc (by simp)

theorem scan_again (n : Nat) (rest salt e : Bytes) (h : scanSalt n rest = some salt) : scanSalt n (salt ++ 0x24 :: e) = some salt := by
  induction n generalizing rest salt with
  | zero => exact h
  | succ n ih =>
    cases rest with
    | nil => cases (Option.some.inj h); rfl
    | cons c s =>
      rw [scanSalt] at h
      split at h
      · cases (Option.some.inj h); rfl
      · split at h
        · exact absurd h (by simp)
        · rename_i h1 h2
          obtain ⟨t, ht, rfl⟩ := Option.map_eq_some_iff.1 h
          rw [List.cons_append, scanSalt, if_neg h1, if_neg h2, ih s t ht]; rfl

theorem scan_prefix (n : Nat) (rest salt : Bytes) (h : scanSalt n rest = some salt) : salt <+: rest ∧ ∀ c ∈ salt, c ≠ 0x24 := by
  induction n generalizing rest salt with
  | zero => cases (Option.some.inj h); exact ⟨List.nil_prefix, by simp⟩
  | succ n ih =>
    cases rest with
    | nil => cases (Option.some.inj h); exact ⟨List.nil_prefix, by simp⟩
    | cons c s =>
      rw [scanSalt] at h
      split at h
      · cases (Option.some.inj h); exact ⟨List.nil_prefix, by simp⟩
      · split at h
        · exact absurd h (by simp)
        · rename_i h1 h2
          obtain ⟨t, ht, rfl⟩ := Option.map_eq_some_iff.1 h
          refine ⟨(List.cons_prefix_cons).2 ⟨rfl, (ih s t ht).1⟩, ?_⟩
          intro d hd
          rcases List.mem_cons.1 hd with rfl | hd
          · exact h1
          · exact (ih s t ht).2 d hd

theorem rounds_again (r0 rest salt e : Bytes) (has : Bool) (n : Nat) (h : rounds r0 = some (has, n, rest)) (hs : scanSalt 16 rest = some salt) :
    rounds ((if has then rstring ++ Stdio.digitsOf 10 false n ++ [0x24] else []) ++ salt ++ [0x24] ++ e) = some (has, n, salt ++ 0x24 :: e) := by
  unfold rounds at h
  split at h
  · dsimp only at h
    split at h
    · exact absurd h (by simp)
    · split at h
      · exact absurd h (by simp)
      · rename_i u hu
        simp only [Option.some.injEq, Prod.mk.injEq] at h
        obtain ⟨rfl, rfl, -⟩ := h
        generalize hn : max (min u 999999999) 1000 = n
        have e1 : (if true = true then rstring ++ Stdio.digitsOf 10 false n ++ [0x24] else []) ++ salt ++ [0x24] ++ e =
            rstring ++ (Stdio.digitsOf 10 false n ++ 0x24 :: (salt ++ 0x24 :: e)) := by simp
        rw [e1]
        unfold rounds
        have e2 : (rstring ++ (Stdio.digitsOf 10 false n ++ 0x24 :: (salt ++ 0x24 :: e))).take 7 = rstring := rfl
        have e3 : (rstring ++ (Stdio.digitsOf 10 false n ++ 0x24 :: (salt ++ 0x24 :: e))).drop 7 = Stdio.digitsOf 10 false n ++ 0x24 :: (salt ++ 0x24 :: e) := rfl
        rw [if_pos e2]
        dsimp only
        rw [e3, takeWhile_stop _ _ fun c hc => (digits_mem n c hc).2.1, if_neg (by rw [List.length_append, List.length_cons]; omega),
          parse_digits _ _ (by omega)]
        dsimp only
        rw [show (Stdio.digitsOf 10 false n).length + 1 = (Stdio.digitsOf 10 false n ++ [0x24]).length by simp,
          show Stdio.digitsOf 10 false n ++ 0x24 :: (salt ++ 0x24 :: e) = (Stdio.digitsOf 10 false n ++ [0x24]) ++ (salt ++ 0x24 :: e) by simp, List.drop_left,
          show max (min n 999999999) 1000 = n by omega]
  · rename_i h7
    simp only [Option.some.injEq, Prod.mk.injEq] at h
    obtain ⟨rfl, rfl, rfl⟩ := h
    have e1 : (if false = true then rstring ++ Stdio.digitsOf 10 false 5000 ++ [0x24] else []) ++ salt ++ [0x24] ++ e = salt ++ 0x24 :: e := by simp
    rw [e1]
    unfold rounds
    rw [if_neg]
    intro h
    obtain ⟨⟨t, ht⟩, -⟩ := scan_prefix _ _ _ hs
    rcases Nat.lt_or_ge salt.length 7 with hl | hl
    · have a : ((salt ++ 0x24 :: e).take 7)[salt.length]? = some 0x24 := by
        rw [List.getElem?_take, if_pos hl, List.getElem?_append_right (Nat.le_refl _)]; simp
      rw [h] at a
      exact absurd (List.mem_of_getElem? a) (by decide)
    · apply h7
      rw [← ht, ← h, List.take_append_of_le_length hl, List.take_append_of_le_length hl]

theorem split_ne (s : Bytes) : split s ≠ [] := by
  cases s with
  | nil => simp [split]
  | cons c s =>
    rw [split]; split
    · simp
    · split <;> simp

theorem split_cons (a b : Bytes) (h : ∀ c ∈ a, c ≠ 0x24) : split (a ++ 0x24 :: b) = a :: split b := by
  induction a with
  | nil => rw [List.nil_append, split, if_pos rfl]
  | cons c a ih =>
    rw [List.cons_append, split, if_neg (h c List.mem_cons_self), ih fun d hd => h d (List.mem_cons_of_mem _ hd)]

theorem split_one (a : Bytes) (h : ∀ c ∈ a, c ≠ 0x24) : split a = [a] := by
  induction a with
  | nil => rfl
  | cons c a ih => rw [split, if_neg (h c List.mem_cons_self), ih fun d hd => h d (List.mem_cons_of_mem _ hd)]

end Verif.Crypt
