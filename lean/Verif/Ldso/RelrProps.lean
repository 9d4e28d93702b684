import Verif.Ldso.MapModel
/-!
# C84: relative relocations
-/

namespace Verif.Ldso

open Verif.Mem

/-- By the definition of `DT_RELR`, the entry `i` names the word at the offset `a`: it is even and the offset itself (`j` = 0), or
it is odd and its bit `j` is set; the words of odd entries follow the word of the last even entry, 63 for each. -/
def Names (relr : List Nat) (i j a : Nat) : Prop :=
  (∃ e, relr[i]? = some e ∧ e % 2 = 0 ∧ j = 0 ∧ a = e) ∨
  (∃ k o e, k < i ∧ relr[k]? = some e ∧ e % 2 = 0 ∧ (∀ n x, k < n → n ≤ i → relr[n]? = some x → x % 2 = 1) ∧
    relr[i]? = some o ∧ 1 ≤ j ∧ j < 64 ∧ o.testBit j = true ∧ a = e + 8 * (63 * (i - k - 1) + j))

/-- Two ways of naming a word are the same. -/
def Once (relr : List Nat) : Prop := ∀ i j i' j' a, Names relr i j a → Names relr i' j' a → i = i' ∧ j = j'

/-- The bits: which words are changed. -/
theorem relrBits_spec (base addr : Nat) : ∀ (entry i : Nat) (mem mem' : Mem UInt64), relrBits base addr entry i mem = some mem' →
    (∀ x, (∀ j, entry.testBit j = true → x ≠ addr + 8 * (i + j)) → mem' x = mem x) ∧
    (∀ j, entry.testBit j = true → ∃ w, mem (addr + 8 * (i + j)) = some w ∧
      mem' (addr + 8 * (i + j)) = some (w + .ofNat base)) := by
  intro entry
  induction entry using Nat.strongRecOn with
  | _ entry ih =>
    intro i mem mem' h
    unfold relrBits at h
    split at h
    · rename_i h0
      subst h0
      cases h
      exact ⟨fun _ _ => rfl, by simp⟩
    · rename_i h0
      have hstep : ∀ j, entry.testBit (j + 1) = (entry / 2).testBit j := fun j => by rw [Nat.testBit_succ]
      split at h
      · exact absurd h (by simp)
      · rename_i mem1 h1
        obtain ⟨g1, g2⟩ := ih (entry / 2) (by omega) (i + 1) mem1 mem' h
        have hzero : entry.testBit 0 = decide (entry % 2 = 1) := Nat.testBit_zero entry
        split at h1
        · rename_i hodd
          split at h1
          · rename_i w hw
            simp only [store, hw, Option.some.injEq] at h1
            subst h1
            refine ⟨?_, ?_⟩
            · intro x hx
              rw [g1 x (by
                intro j hj
                have := hx (j + 1) (by rw [hstep]; exact hj)
                rwa [show i + 1 + j = i + (j + 1) by omega])]
              have := hx 0 (by rw [hzero]; simpa using hodd)
              simp only
              rw [if_neg (by simpa using this)]
            · intro j hj
              cases j with
              | zero =>
                refine ⟨w, hw, ?_⟩
                rw [g1 _ (by intro k _; omega)]
                simp
              | succ j =>
                obtain ⟨w', e1, e2⟩ := g2 j (by rw [← hstep]; exact hj)
                rw [show i + 1 + j = i + (j + 1) by omega] at e1 e2
                refine ⟨w', ?_, e2⟩
                simp only at e1
                rwa [if_neg (by omega)] at e1
          · exact absurd h1 (by simp)
        · rename_i heven
          cases h1
          refine ⟨?_, ?_⟩
          · intro x hx
            refine g1 x ?_
            intro j hj
            have := hx (j + 1) (by rw [hstep]; exact hj)
            rwa [show i + 1 + j = i + (j + 1) by omega]
          · intro j hj
            cases j with
            | zero => rw [hzero] at hj; exact absurd (by simpa using hj) heven
            | succ j =>
              obtain ⟨w', e1, e2⟩ := g2 j (by rw [← hstep]; exact hj)
              rw [show i + 1 + j = i + (j + 1) by omega] at e1 e2
              exact ⟨w', e1, e2⟩

/-- The entries from position `n` on, when the last even entry was at `k`. -/
theorem applyRelr_spec (base : Nat) (relr : List Nat) (hsz : ∀ e ∈ relr, e < 2 ^ 64) (ho : Once relr) :
    ∀ (rest pre : List Nat) (addr : Option Nat) (mem mem' : Mem UInt64), relr = pre ++ rest →
    (∀ a, addr = some a → ∃ k e, k < pre.length ∧ relr[k]? = some e ∧ e % 2 = 0 ∧
      (∀ n x, k < n → n < pre.length → relr[n]? = some x → x % 2 = 1) ∧ a = base + e + 8 * (63 * (pre.length - k - 1) + 1)) →
    applyRelr base rest addr mem = some mem' →
    (∀ x, (∀ i j a, pre.length ≤ i → Names relr i j a → x ≠ base + a) → mem' x = mem x) ∧
    (∀ i j a, pre.length ≤ i → Names relr i j a → ∃ w, mem (base + a) = some w ∧ mem' (base + a) = some (w + .ofNat base)) := by
  intro rest
  induction rest with
  | nil =>
    intro pre addr mem mem' hr _ h
    cases h
    refine ⟨fun _ _ => rfl, ?_⟩
    intro i j a hi hn
    exfalso
    have : relr[i]? = none := List.getElem?_eq_none (by rw [hr]; simpa using hi)
    rcases hn with ⟨e, h1, _⟩ | ⟨k, o, e, _, _, _, _, h1, _⟩ <;> rw [this] at h1 <;> exact absurd h1 (by simp)
  | cons e es ih =>
    intro pre addr mem mem' hr ha h
    have hr' : relr = (pre ++ [e]) ++ es := by rw [hr]; simp
    have hat : relr[pre.length]? = some e := by rw [hr]; simp
    have hlen : (pre ++ [e]).length = pre.length + 1 := by simp
    unfold applyRelr at h
    split at h
    · rename_i heven
      have hname : Names relr pre.length 0 e := .inl ⟨e, hat, heven, rfl, rfl⟩
      split at h
      · rename_i w hw
        simp only [store, hw] at h
        obtain ⟨g1, g2⟩ := ih (pre ++ [e]) (some (base + e + 8)) _ mem' hr' (by
          intro a hea
          refine ⟨pre.length, e, by omega, hat, heven, ?_, ?_⟩
          · intro n x h1 h2; omega
          · rw [hlen]; simp at hea; omega) h
        rw [hlen] at g1 g2
        -- which names stay
        have same : ∀ i j a, pre.length ≤ i → Names relr i j a → i = pre.length → j = 0 ∧ a = e := by
          intro i j a _ hn hi
          subst hi
          rcases hn with ⟨e', h1, _, h3, h4⟩ | ⟨k, o, e', h1, h2, h3, h4, h5, _⟩
          · rw [hat] at h1; cases h1; exact ⟨h3, h4⟩
          · have := h4 pre.length e (by omega) (Nat.le_refl _) hat
            omega
        refine ⟨?_, ?_⟩
        · intro x hx
          rw [g1 x (fun i j a hi hn => hx i j a (by omega) hn)]
          have := hx pre.length 0 e (Nat.le_refl _) hname
          rw [if_neg this]
        · intro i j a hi hn
          by_cases hip : i = pre.length
          · obtain ⟨rfl, rfl⟩ := same i j a hi hn hip
            refine ⟨w, hw, ?_⟩
            rw [g1 _ (by
              intro i' j' a' hi' hn' he
              have : a = a' := by omega
              subst this
              have := (ho _ _ _ _ _ hname hn').1
              omega)]
            simp
          · obtain ⟨w', e1, e2⟩ := g2 i j a (by omega) hn
            refine ⟨w', ?_, e2⟩
            rw [if_neg] at e1
            · exact e1
            · intro he
              have : a = e := by omega
              subst this
              exact hip (ho _ _ _ _ _ hname hn).1.symm
      · exact absurd h (by simp)
    · rename_i hodd
      have hodd : e % 2 = 1 := by omega
      split at h
      · exact absurd h (by simp)
      · rename_i a0
        split at h
        · rename_i mem1 h1
          obtain ⟨k, ek, k1, k2, k3, k4, k5⟩ := ha a0 rfl
          obtain ⟨b1, b2⟩ := relrBits_spec base a0 (e / 2) 0 mem mem1 h1
          have hbit : ∀ j, (e / 2).testBit j = e.testBit (j + 1) := fun j => by rw [Nat.testBit_succ]
          have hes : e < 2 ^ 64 := hsz e (by rw [hr]; simp)
          have hname : ∀ j, (e / 2).testBit j = true → Names relr pre.length (j + 1) (ek + 8 * (63 * (pre.length - k - 1) + (j + 1))) := by
            intro j hj
            rw [hbit] at hj
            have hj64 : j + 1 < 64 := by
              rcases Nat.lt_or_ge (j + 1) 64 with h | h
              · exact h
              · have : e < 2 ^ (j + 1) := Nat.lt_of_lt_of_le hes (Nat.pow_le_pow_right (by omega) h)
                rw [Nat.testBit_lt_two_pow this] at hj
                exact absurd hj (by simp)
            refine .inr ⟨k, e, ek, k1, k2, k3, ?_, hat, by omega, hj64, hj, rfl⟩
            intro n x h1 h2 h3
            rcases Nat.lt_or_ge n pre.length with h4 | h4
            · exact k4 n x h1 h4 h3
            · have : n = pre.length := by omega
              subst this
              rw [hat] at h3; cases h3; exact hodd
          have only : ∀ j a, Names relr pre.length j a → 1 ≤ j ∧ (e / 2).testBit (j - 1) = true ∧
              a = ek + 8 * (63 * (pre.length - k - 1) + j) := by
            intro j a hn
            rcases hn with ⟨e', h1, h2, _⟩ | ⟨k', o, e', h1, h2, h3, h4, h5, h6, h7, h8, h9⟩
            · rw [hat] at h1; cases h1; omega
            · rw [hat] at h5; cases h5
              have hk : k' = k := by
                rcases Nat.lt_trichotomy k' k with h | h | h
                · have := h4 k ek h (by omega) k2; omega
                · exact h
                · have := k4 k' e' h (by omega) h2; omega
              subst hk
              rw [k2] at h2; cases h2
              refine ⟨h6, ?_, h9⟩
              rw [hbit, show j - 1 + 1 = j by omega]; exact h8
          obtain ⟨g1, g2⟩ := ih (pre ++ [e]) (some (a0 + 8 * 63)) _ mem' hr' (by
            intro a hea
            refine ⟨k, ek, by omega, k2, k3, ?_, ?_⟩
            · intro n x h1 h2 h3
              rcases Nat.lt_or_ge n pre.length with h4 | h4
              · exact k4 n x h1 h4 h3
              · have : n = pre.length := by omega
                subst this
                rw [hat] at h3; cases h3; exact hodd
            · rw [hlen]; simp at hea; omega) h
          rw [hlen] at g1 g2
          have place : ∀ j, a0 + 8 * (0 + j) = base + (ek + 8 * (63 * (pre.length - k - 1) + (j + 1))) := by
            intro j; omega
          refine ⟨?_, ?_⟩
          · intro x hx
            rw [g1 x (fun i j a hi hn => hx i j a (by omega) hn)]
            refine b1 x ?_
            intro j hj
            rw [place]
            exact hx _ _ _ (Nat.le_refl _) (hname j hj)
          · intro i j a hi hn
            by_cases hip : i = pre.length
            · subst hip
              obtain ⟨j1, j2, j3⟩ := only j a hn
              obtain ⟨w, e1, e2⟩ := b2 (j - 1) j2
              rw [place, show j - 1 + 1 = j by omega, ← j3] at e1 e2
              refine ⟨w, e1, ?_⟩
              rw [g1 _ (by
                intro i' j' a' hi' hn' he
                have : a = a' := by omega
                subst this
                have := (ho _ _ _ _ _ hn hn').1
                omega)]
              exact e2
            · obtain ⟨w', e1, e2⟩ := g2 i j a (by omega) hn
              refine ⟨w', ?_, e2⟩
              rw [← e1]
              symm
              refine b1 _ ?_
              intro j' hj' he
              rw [place] at he
              have : a = ek + 8 * (63 * (pre.length - k - 1) + (j' + 1)) := by omega
              rw [this] at hn
              exact hip (ho _ _ _ _ _ (hname j' hj') hn).1.symm
        · exact absurd h (by simp)

/-- Relative relocations: the words the table names, each once, have the address of the object added; no other word changes. -/
theorem C84_relr (base : Nat) (relr : List Nat) (hsz : ∀ e ∈ relr, e < 2 ^ 64) (ho : Once relr) (mem mem' : Mem UInt64)
    (h : applyRelr base relr none mem = some mem') :
    (∀ i j a, Names relr i j a → ∃ w, mem (base + a) = some w ∧ mem' (base + a) = some (w + .ofNat base)) ∧
    (∀ x, (∀ i j a, Names relr i j a → x ≠ base + a) → mem' x = mem x) := by
  obtain ⟨g1, g2⟩ := applyRelr_spec base relr hsz ho relr [] none mem mem' rfl (by simp) h
  exact ⟨fun i j a hn => g2 i j a (Nat.zero_le _) hn, fun x hx => g1 x fun i j a _ hn => hx i j a hn⟩

theorem relrBits_ok (base addr : Nat) : ∀ (entry i : Nat) (mem : Mem UInt64),
    (∀ j, entry.testBit j = true → (mem (addr + 8 * (i + j))).isSome) → ∃ mem', relrBits base addr entry i mem = some mem' ∧
      ∀ x, (mem' x).isSome = (mem x).isSome := by
  intro entry
  induction entry using Nat.strongRecOn with
  | _ entry ih =>
    intro i mem h
    unfold relrBits
    split
    · exact ⟨mem, rfl, fun _ => rfl⟩
    · rename_i h0
      have hstep : ∀ j, entry.testBit (j + 1) = (entry / 2).testBit j := fun j => by rw [Nat.testBit_succ]
      by_cases hodd : entry % 2 = 1
      · have hs := h 0 (by rw [Nat.testBit_zero]; simpa using hodd)
        obtain ⟨w, hw⟩ := Option.isSome_iff_exists.1 hs
        simp only [Nat.add_zero] at hw
        obtain ⟨mem', h1, h2⟩ := ih (entry / 2) (by omega) (i + 1)
          (fun a => if a = addr + 8 * i then some (w + .ofNat base) else mem a) (by
            intro j hj
            have := h (j + 1) (by rw [hstep]; exact hj)
            rw [if_neg (by omega), show i + 1 + j = i + (j + 1) by omega]
            exact this)
        refine ⟨mem', ?_, ?_⟩
        · rw [if_pos hodd, hw]
          simp only [store, hw]
          exact h1
        · intro x
          rw [h2]
          split
          · rename_i hx; rw [hx, hw]; rfl
          · rfl
      · rw [if_neg hodd]
        refine ih (entry / 2) (by omega) (i + 1) mem ?_
        intro j hj
        have := h (j + 1) (by rw [hstep]; exact hj)
        rwa [show i + 1 + j = i + (j + 1) by omega]

theorem applyRelr_ok (base : Nat) (relr : List Nat) (hsz : ∀ e ∈ relr, e < 2 ^ 64) (h0 : ∀ e, relr[0]? = some e → e % 2 = 0) :
    ∀ (rest pre : List Nat) (addr : Option Nat) (mem : Mem UInt64), relr = pre ++ rest →
    (addr = none → pre = []) →
    (∀ a, addr = some a → ∃ k e, k < pre.length ∧ relr[k]? = some e ∧ e % 2 = 0 ∧
      (∀ n x, k < n → n < pre.length → relr[n]? = some x → x % 2 = 1) ∧ a = base + e + 8 * (63 * (pre.length - k - 1) + 1)) →
    (∀ i j a, Names relr i j a → (mem (base + a)).isSome) → ∃ mem', applyRelr base rest addr mem = some mem' := by
  intro rest
  induction rest with
  | nil => intro pre addr mem _ _ _ _; exact ⟨mem, rfl⟩
  | cons e es ih =>
    intro pre addr mem hr hn ha hm
    have hr' : relr = (pre ++ [e]) ++ es := by rw [hr]; simp
    have hat : relr[pre.length]? = some e := by rw [hr]; simp
    have hlen : (pre ++ [e]).length = pre.length + 1 := by simp
    unfold applyRelr
    by_cases heven : e % 2 = 0
    · rw [if_pos heven]
      obtain ⟨w, hw⟩ := Option.isSome_iff_exists.1 (hm pre.length 0 e (.inl ⟨e, hat, heven, rfl, rfl⟩))
      simp only [hw, store]
      refine ih (pre ++ [e]) _ _ hr' (by simp) ?_ ?_
      · intro a hea
        refine ⟨pre.length, e, by omega, hat, heven, ?_, ?_⟩
        · intro n x h1 h2; omega
        · rw [hlen]; simp at hea; omega
      · intro i j a h
        split
        · rfl
        · exact hm i j a h
    · have hodd : e % 2 = 1 := by omega
      rw [if_neg heven]
      cases addr with
      | none =>
        have hp := hn rfl
        subst hp
        exact absurd (h0 e hat) heven
      | some a0 =>
        dsimp only
        obtain ⟨k, ek, k1, k2, k3, k4, k5⟩ := ha a0 rfl
        have hes : e < 2 ^ 64 := hsz e (by rw [hr]; simp)
        have k4' : ∀ n x, k < n → n ≤ pre.length → relr[n]? = some x → x % 2 = 1 := by
          intro n x h1 h2 h3
          rcases Nat.lt_or_ge n pre.length with h4 | h4
          · exact k4 n x h1 h4 h3
          · have : n = pre.length := by omega
            subst this
            rw [hat] at h3; cases h3; exact hodd
        obtain ⟨mem1, h1, h2⟩ := relrBits_ok base a0 (e / 2) 0 mem (by
          intro j hj
          have hj' : e.testBit (j + 1) = true := by rw [Nat.testBit_succ]; exact hj
          have hj64 : j + 1 < 64 := by
            rcases Nat.lt_or_ge (j + 1) 64 with h | h
            · exact h
            · have : e < 2 ^ (j + 1) := Nat.lt_of_lt_of_le hes (Nat.pow_le_pow_right (by omega) h)
              rw [Nat.testBit_lt_two_pow this] at hj'
              exact absurd hj' (by simp)
          have := hm pre.length (j + 1) _ (.inr ⟨k, e, ek, k1, k2, k3, k4', hat, by omega, hj64, hj', rfl⟩)
          rwa [show base + (ek + 8 * (63 * (pre.length - k - 1) + (j + 1))) = a0 + 8 * (0 + j) by omega] at this)
        rw [h1]
        refine ih (pre ++ [e]) _ _ hr' (by simp) ?_ ?_
        · intro a hea
          refine ⟨k, ek, by omega, k2, k3, ?_, ?_⟩
          · intro n x h1 h2 h3; exact k4' n x h1 (by omega) h3
          · rw [hlen]; simp at hea; omega
        · intro i j a h
          rw [h2]; exact hm i j a h

/-- The relocation does not fail if the words the table names are there, for a table that begins with an address. -/
theorem C84_ok (base : Nat) (relr : List Nat) (hsz : ∀ e ∈ relr, e < 2 ^ 64) (h0 : ∀ e, relr[0]? = some e → e % 2 = 0)
    (mem : Mem UInt64) (hm : ∀ i j a, Names relr i j a → (mem (base + a)).isSome) :
    ∃ mem', applyRelr base relr none mem = some mem' :=
  applyRelr_ok base relr hsz h0 relr [] none mem rfl (fun _ => rfl) (by simp) hm

/-- A word, two odd entries: bits 1 and 3 of the first name the words 1 and 3 after it, bit 1 of the second the word 64 after. -/
example : ((applyRelr 0x1000 [0x20, 0b1011, 0b11] none (fun a => if a < 0x2000 then some (.ofNat a) else none)).map fun m =>
      [m 0x1020, m 0x1028, m 0x1030, m 0x1038, m (0x1020 + 8 * 64), m (0x1020 + 8 * 65)]) =
    some [some 0x2020, some 0x2028, some 0x1030, some 0x2038, some 0x2220, some 0x1228] := by decide +kernel

example : Names [0x20, 0b1011, 0b11] 2 1 (0x20 + 8 * 64) :=
  .inr ⟨0, 3, 0x20, by omega, rfl, rfl, by
    intro n x h1 h2 h3
    have : n = 1 ∨ n = 2 := by omega
    rcases this with rfl | rfl <;> simp at h3 <;> omega, rfl, by omega, by omega, by decide, rfl⟩

end Verif.Ldso
