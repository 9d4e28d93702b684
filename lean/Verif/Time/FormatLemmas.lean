import Verif.Time.FormatModel
import Verif.Stdio.SnprintfProps
import Verif.Stdio.PrintfConv
/-!
# Broken-down times as text: lemmas
-/

namespace Verif.Time
open Verif.Mem Verif.Stdlib Verif.Stdio

/-! ## Writers -/

theorem write_step {m : Mem UInt8} {p n : Nat} (hm : Mapped m p n) (hn : 2 ≤ n) (b : List UInt8) :
    (⟨p, n⟩ : StringWriter).write m b
      = some (⟨p + min b.length (n - 1), n - min b.length (n - 1)⟩, patch m p (b.take (n - 1) ++ [0])) := by
  have hlen : (b.take (min b.length (n - 1))).length = min b.length (n - 1) := by simp
  have ht : b.take (min b.length (n - 1)) = b.take (n - 1) := by
    by_cases h : b.length ≤ n - 1
    · rw [Nat.min_eq_left h, List.take_length, List.take_of_length_le h]
    · rw [Nat.min_eq_right (by omega)]
  have e1 := writeN_eq (m := m) (p := p) (l := b.take (min b.length (n - 1))) (by rw [hlen]; exact hm.mono (by omega))
  have e2 : Mem.store (patch m p (b.take (min b.length (n - 1)))) (p + min b.length (n - 1)) 0
      = some (patch m p (b.take (min b.length (n - 1)) ++ [0])) := by
    rw [store_patch (isSome_patch (hm _ (by omega)))]
    have := patch_append m p (b.take (min b.length (n - 1))) [0]
    rw [hlen] at this
    rw [this]
  unfold StringWriter.write
  simp only [if_pos (show n > 1 by omega), e1, e2, Option.bind_eq_bind, Option.bind_some]
  rw [ht]

theorem writeEach_small {m : Mem UInt8} {w : StringWriter} (h : w.cap ≤ 1) : ∀ cs : Chunks, writeEach w m cs = some (w, m)
  | [] => rfl
  | b :: cs => by
    rw [writeEach, StringWriter.write, if_neg (by omega)]
    exact writeEach_small h cs

theorem writeEach_inv {m : Mem UInt8} {p n : Nat} (hm : Mapped m p n) :
    ∀ (cs : Chunks) (a : List UInt8), a.length + 1 ≤ n →
      ∃ w, writeEach ⟨p + a.length, n - a.length⟩ (patch m p (a ++ [0])) cs
        = some (w, patch m p ((a ++ cs.flatten).take (n - 1) ++ [0]))
  | [], a, ha => ⟨_, by rw [writeEach, List.flatten_nil, List.append_nil, List.take_of_length_le (by omega)]⟩
  | b :: cs, a, ha => by
    by_cases hc : 2 ≤ n - a.length
    · have hmp : Mapped (patch m p (a ++ [0])) (p + a.length) (n - a.length) := by
        intro i hi
        have := hm (a.length + i) (by omega)
        rw [← Nat.add_assoc] at this
        exact isSome_patch this
      rw [writeEach, write_step hmp hc b]
      dsimp only [Option.bind_eq_bind, Option.bind_some]
      rw [patch_term]
      have hlen : (a ++ b.take (n - a.length - 1)).length = a.length + min b.length (n - a.length - 1) := by
        rw [List.length_append, List.length_take, Nat.min_comm]
      obtain ⟨w, e⟩ := writeEach_inv hm cs (a ++ b.take (n - a.length - 1)) (by omega)
      refine ⟨w, ?_⟩
      rw [hlen, ← Nat.add_assoc, ← Nat.sub_sub] at e
      rw [e]
      congr 3
      by_cases hk : b.length ≤ n - a.length - 1
      · rw [List.take_of_length_le hk, List.flatten_cons, List.append_assoc]
      · rw [List.take_append_of_le_length (by omega), List.take_of_length_le (by omega), List.flatten_cons, List.take_append,
          List.take_of_length_le (l := a) (by omega), List.take_append_of_le_length (l₁ := b) (by omega),
          show n - a.length - 1 = n - 1 - a.length by omega]
    · have hsm := writeEach_small (m := patch m p (a ++ [0])) (w := ⟨p + a.length, n - a.length⟩)
        (show n - a.length ≤ 1 by omega) (b :: cs)
      refine ⟨⟨p + a.length, n - a.length⟩, hsm.trans ?_⟩
      rw [List.take_append_of_le_length (by omega), List.take_of_length_le (by omega)]

theorem writeEach_eq {m : Mem UInt8} {p n : Nat} (hm : Mapped m p n) (hn : 2 ≤ n) {cs : Chunks} (hc : cs ≠ []) :
    ∃ w, writeEach ⟨p, n⟩ m cs = some (w, patch m p (cs.flatten.take (n - 1) ++ [0])) := by
  cases cs with
  | nil => exact absurd rfl hc
  | cons b cs =>
    rw [writeEach, write_step hm hn b]
    dsimp only [Option.bind_eq_bind, Option.bind_some]
    obtain ⟨w, e⟩ := writeEach_inv hm cs (b.take (n - 1)) (by rw [List.length_take]; omega)
    refine ⟨w, ?_⟩
    rw [List.length_take, Nat.min_comm] at e
    rw [e]
    congr 3
    by_cases hk : b.length ≤ n - 1
    · rw [List.take_of_length_le hk, List.flatten_cons]
    · rw [List.take_append_of_le_length (by rw [List.length_take]; omega), List.take_take, List.flatten_cons,
        List.take_append_of_le_length (by omega)]
      simp

theorem unsafeWriteEach_eq : ∀ (cs : Chunks) (m : Mem UInt8) (p : Nat), Mapped m p (cs.flatten.length + 1) → cs ≠ [] →
    unsafeWriteEach p m cs = some (p + cs.flatten.length, patch m p (cs.flatten ++ [0]))
  | [], _, _, _, h => absurd rfl h
  | b :: cs, m, p, hm, _ => by
    rw [List.flatten_cons, List.length_append] at hm
    have e1 := writeN_eq (m := m) (p := p) (l := b) (hm.mono (by omega))
    have e2 : Mem.store (patch m p b) (p + b.length) 0 = some (patch m p (b ++ [0])) := by
      rw [store_patch (isSome_patch (hm _ (by omega))), patch_append]
    rw [unsafeWriteEach]
    simp only [unsafeWrite, e1, e2, Option.bind_eq_bind, Option.bind_some]
    cases cs with
    | nil => simp [unsafeWriteEach]
    | cons c cs =>
      have hmap : Mapped (patch m p (b ++ [0])) (p + b.length) ((c :: cs).flatten.length + 1) := by
        intro i hi
        have := hm (b.length + i) (by omega)
        rw [← Nat.add_assoc] at this
        exact isSome_patch this
      rw [unsafeWriteEach_eq (c :: cs) _ _ hmap (by simp), patch_term]
      simp only [List.flatten_cons, List.length_append, Nat.add_assoc]

/-! ## Numbers -/

theorem digits_lt10 {n : Nat} (h : n < 10) : digitsOf 10 false n = [UInt8.ofNat (48 + n)] := by
  unfold digitsOf digitByte
  rw [dif_pos (.inl h), if_pos h]

theorem digits_lt100 {n : Nat} (h1 : 10 ≤ n) (h2 : n < 100) :
    digitsOf 10 false n = [UInt8.ofNat (48 + n / 10), UInt8.ofNat (48 + n % 10)] := by
  unfold digitsOf digitByte
  rw [dif_neg (by omega), digits_lt10 (by omega), if_pos (by omega)]
  rfl

theorem digits_lt1000 {n : Nat} (h1 : 100 ≤ n) (h2 : n < 1000) :
    digitsOf 10 false n = [UInt8.ofNat (48 + n / 100), UInt8.ofNat (48 + n / 10 % 10), UInt8.ofNat (48 + n % 10)] := by
  unfold digitsOf digitByte
  rw [dif_neg (by omega), digits_lt100 (by omega) (by omega), if_pos (by omega), Nat.div_div_eq_div_mul]
  rfl

theorem digits_lt10000 {n : Nat} (h1 : 1000 ≤ n) (h2 : n < 10000) :
    digitsOf 10 false n = [UInt8.ofNat (48 + n / 1000), UInt8.ofNat (48 + n / 100 % 10), UInt8.ofNat (48 + n / 10 % 10),
      UInt8.ofNat (48 + n % 10)] := by
  unfold digitsOf digitByte
  rw [dif_neg (by omega), digits_lt1000 (by omega) (by omega), if_pos (by omega), Nat.div_div_eq_div_mul,
    Nat.div_div_eq_div_mul]
  rfl

/-- A number of at most `k` digits. -/
theorem digits_length {k n : Nat} (h : n < 10 ^ (k + 1)) : (digitsOf 10 false n).length ≤ k + 1 := by
  induction k generalizing n with
  | zero => rw [digits_lt10 (by omega)]; simp
  | succ k ih =>
    unfold digitsOf
    split
    · simp
    · have : n / 10 < 10 ^ (k + 1) := by
        rw [Nat.pow_succ] at h
        exact Nat.div_lt_of_lt_mul (by omega)
      have := ih this
      simp only [List.length_append, List.length_singleton]
      omega

theorem digits_pos (n : Nat) : 1 ≤ (digitsOf 10 false n).length := by
  unfold digitsOf
  split <;> simp

end Verif.Time
