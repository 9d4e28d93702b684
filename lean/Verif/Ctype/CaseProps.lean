import Verif.Ctype.Model
import Verif.Str.StrSearchProps

/-!
# C50: comparison ignoring case
-/

namespace Verif.Ctype

open Verif.Mem Verif.Str

/-- What the code compares: the lower-cased byte, taken as a signed number. -/
def foldKey (b : UInt8) : Int := (lowerByte b).toInt8.toInt

/-- The sequence the code compares, terminator included. -/
def foldKeys (s : List UInt8) : List Int := s.map foldKey ++ [0]

/-- Lexicographic comparison of sequences of numbers. -/
def Agrees (r : Int) (l k : List Int) : Prop := (r < 0 ↔ l < k) ∧ (r = 0 ↔ l = k) ∧ (0 < r ↔ k < l)

theorem Agrees.cons {r : Int} {l k : List Int} (h : Agrees r l k) (b : Int) : Agrees r (b :: l) (b :: k) := by
  obtain ⟨h1, h2, h3⟩ := h
  refine ⟨?_, ?_, ?_⟩
  · rw [h1, List.cons_lt_cons_iff]; simp
  · rw [h2]; simp
  · rw [h3, List.cons_lt_cons_iff]; simp

theorem Agrees.ne {b c : Int} (h : b ≠ c) (l k : List Int) : Agrees (b - c) (b :: l) (c :: k) := by
  refine ⟨?_, ?_, ?_⟩
  · rw [List.cons_lt_cons_iff]
    constructor
    · intro h; left; omega
    · rintro (h' | h')
      · omega
      · exact absurd h'.1 h
  · constructor
    · intro h; omega
    · intro h'; simp at h'; exact absurd h'.1 h
  · rw [List.cons_lt_cons_iff]
    constructor
    · intro h; left; omega
    · rintro (h' | h')
      · omega
      · exact absurd h'.1.symm h

theorem tolower_key (b : UInt8) : (tolower (charToInt b)).toInt = foldKey b := by
  have : ∀ b : UInt8, (tolower (charToInt b)).toInt = foldKey b := byte_table (by decide +kernel)
  exact this b

theorem foldKey_range (b : UInt8) : -128 ≤ foldKey b ∧ foldKey b ≤ 127 := by
  have : ∀ b : UInt8, -128 ≤ foldKey b ∧ foldKey b ≤ 127 := byte_table (by decide +kernel)
  exact this b

theorem foldKey_zero {b : UInt8} : foldKey b = 0 ↔ b = 0 := by
  have : ∀ b : UInt8, foldKey b = 0 ↔ b = 0 := byte_table (by decide +kernel)
  exact this b

theorem cmp_key (a b : UInt8) :
    (tolower (charToInt a) - tolower (charToInt b)).toInt = foldKey a - foldKey b := by
  rw [Int32.toInt_sub, tolower_key, tolower_key]
  have h1 := foldKey_range a
  have h2 := foldKey_range b
  rw [Int.bmod_def]
  omega

theorem cmp_zero (a b : UInt8) :
    tolower (charToInt a) - tolower (charToInt b) = 0 ↔ foldKey a = foldKey b := by
  rw [← Int32.toInt_inj, cmp_key]
  have : (0 : Int32).toInt = 0 := rfl
  rw [this]
  omega

theorem strncasecmp_eq (m : Mem UInt8) (n : Nat) : ∀ (s t : List UInt8) p q, BStr m p n s → BStr m q n t →
    ∃ r, strncasecmp m p q n = some r ∧ Agrees r.toInt (foldKeys s) (foldKeys t) := by
  induction n with
  | zero =>
    intro s t p q hs ht
    rw [hs.zero, ht.zero]
    exact ⟨0, rfl, by simp [Agrees]⟩
  | succ n ih =>
    intro s t p q hs ht
    have one : ∀ a b s' t', foldKeys s = foldKey a :: s' → foldKeys t = foldKey b :: t' → m p = some a → m q = some b →
        foldKey a ≠ foldKey b → ∃ r, strncasecmp m p q (n + 1) = some r ∧ Agrees r.toInt (foldKeys s) (foldKeys t) := by
      intro a b s' t' h1 h2 h3 h4 h5
      refine ⟨tolower (charToInt a) - tolower (charToInt b), ?_, ?_⟩
      · unfold strncasecmp
        simp only [h3, h4, Option.bind_eq_bind, Option.bind_some]
        rw [if_pos (by rw [Ne, cmp_zero]; exact h5)]
      · rw [h1, h2, cmp_key]
        exact .ne h5 _ _
    have z : foldKey 0 = 0 := foldKey_zero.2 rfl
    cases s with
    | nil =>
      cases t with
      | nil =>
        refine ⟨0, ?_, by simp [Agrees]⟩
        simp [strncasecmp, hs.nul, ht.nul]
      | cons c t =>
        refine one 0 c [] (foldKeys t) (by simp [foldKeys, z]) (by simp [foldKeys]) hs.nul ht.head.1 ?_
        rw [z]; intro h; exact ht.head.2 (foldKey_zero.1 h.symm)
    | cons b s =>
      cases t with
      | nil =>
        refine one b 0 (foldKeys s) [] (by simp [foldKeys]) (by simp [foldKeys, z]) hs.head.1 ht.nul ?_
        rw [z]; intro h; exact hs.head.2 (foldKey_zero.1 h)
      | cons c t =>
        by_cases e : foldKey b = foldKey c
        · obtain ⟨r, h1, h2⟩ := ih s t (p + 1) (q + 1) hs.tail ht.tail
          refine ⟨r, ?_, ?_⟩
          · unfold strncasecmp
            simp only [hs.head.1, ht.head.1, Option.bind_eq_bind, Option.bind_some]
            rw [if_neg (by rw [Ne, cmp_zero]; exact fun h => h e), if_neg]
            · exact h1
            · rintro (h | h)
              · exact hs.head.2 h
              · exact ht.head.2 h
          · have := h2.cons (foldKey b)
            simp only [foldKeys, List.map_cons, List.cons_append] at this ⊢
            rw [← e]
            exact this
        · exact one b c (foldKeys s) (foldKeys t) (by simp [foldKeys]) (by simp [foldKeys]) hs.head.1 ht.head.1 e

theorem strcasecmp_n (m : Mem UInt8) (s : List UInt8) : ∀ p q n, CStr m p s → s.length < n →
    strcasecmp m p q = strncasecmp m p q n := by
  induction s with
  | nil =>
    intro p q n h hn
    obtain ⟨n, rfl⟩ : ∃ k, n = k + 1 := ⟨n - 1, by simp at hn; omega⟩
    rw [strcasecmp]
    unfold strncasecmp
    simp [h.nul]
  | cons b s ih =>
    intro p q n h hn
    obtain ⟨n, rfl⟩ : ∃ k, n = k + 1 := ⟨n - 1, by simp at hn; omega⟩
    rw [strcasecmp]
    unfold strncasecmp
    simp only [h.head.1, Option.bind_eq_bind, Option.bind_some]
    rw [ih (p + 1) (q + 1) n h.tail (by simpa using hn)]

theorem strcasecmp_eq (m : Mem UInt8) (p q : Nat) (s t : List UInt8) (hs : CStr m p s) (ht : CStr m q t) :
    ∃ r, strcasecmp m p q = some r ∧ Agrees r.toInt (foldKeys s) (foldKeys t) := by
  have h1 := hs.bstr (s.length + t.length + 1)
  have h2 := ht.bstr (s.length + t.length + 1)
  rw [List.take_of_length_le (by omega)] at h1 h2
  rw [strcasecmp_n m s p q (s.length + t.length + 1) hs (by omega)]
  exact strncasecmp_eq m _ s t p q h1 h2

/-! ## From the keys to the lower-cased strings -/

theorem foldKey_inj {a b : UInt8} : foldKey a = foldKey b ↔ lowerByte a = lowerByte b := by
  constructor
  · intro h
    have := congrArg Int8.toUInt8 (Int8.toInt_inj.1 h)
    simpa using this
  · intro h; unfold foldKey; rw [h]

theorem foldKeys_inj {s t : List UInt8} : foldKeys s = foldKeys t ↔ s.map lowerByte = t.map lowerByte := by
  unfold foldKeys
  rw [List.append_left_inj]
  induction s generalizing t with
  | nil => cases t <;> simp
  | cons a s ih => cases t <;> simp [foldKey_inj, ih]

theorem foldKey_ascii {a : UInt8} (h : a < 128) : foldKey a = ((lowerByte a).toNat : Int) := by
  have : ∀ a : UInt8, a < 128 → foldKey a = ((lowerByte a).toNat : Int) := byte_table (by decide +kernel)
  exact this a h

theorem foldKeys_lt {s t : List UInt8} (hs : ∀ x ∈ s, x ≠ 0 ∧ x < 128) (ht : ∀ x ∈ t, x ≠ 0 ∧ x < 128) :
    foldKeys s < foldKeys t ↔ s.map lowerByte < t.map lowerByte := by
  have pos : ∀ a : UInt8, a ≠ 0 ∧ a < 128 → 0 < foldKey a := by
    intro a h
    have h1 := foldKey_ascii h.2
    have h2 : foldKey a ≠ 0 := fun e => h.1 (foldKey_zero.1 e)
    omega
  unfold foldKeys
  induction s generalizing t with
  | nil =>
    cases t with
    | nil => simp
    | cons b t => simp [List.cons_lt_cons_iff, pos b (ht b (by simp))]
  | cons a s ih =>
    cases t with
    | nil =>
      have := pos a (hs a (by simp))
      simp only [List.map_cons, List.cons_append, List.map_nil, List.nil_append, List.cons_lt_cons_iff, List.not_lt_nil]
      simp
      omega
    | cons b t =>
      simp only [List.map_cons, List.cons_append, List.cons_lt_cons_iff]
      have ih' := ih (t := t) (fun x hx => hs x (by simp [hx])) (fun x hx => ht x (by simp [hx]))
      rw [foldKey_inj,
        foldKey_ascii (hs a (by simp)).2, foldKey_ascii (ht b (by simp)).2, UInt8.lt_iff_toNat_lt]
      simp only [Int.ofNat_lt]
      exact or_congr Iff.rfl (and_congr Iff.rfl ih')

/-! ## Theorems

The full property: the sign of the result orders the lower-cased strings as sequences of unsigned bytes,
`∀ s t, SignAgrees r (s.map lowerByte) (t.map lowerByte)`. It fails for bytes from 128 on. -/

/-- **C50** (partial, `strcasecmp`): for strings of ASCII characters. -/
theorem C50_strcasecmp_partial (m : Mem UInt8) (p q : Nat) (s t : List UInt8) (hs : CStr m p s) (ht : CStr m q t)
    (as : ∀ x ∈ s, x < 128) (at' : ∀ x ∈ t, x < 128) :
    ∃ r, strcasecmp m p q = some r ∧ SignAgrees r.toInt (s.map lowerByte) (t.map lowerByte) := by
  obtain ⟨r, h1, h2, h3, h4⟩ := strcasecmp_eq m p q s t hs ht
  have hs' : ∀ x ∈ s, x ≠ 0 ∧ x < 128 := fun x hx => ⟨fun e => hs.2.2 (e ▸ hx), as x hx⟩
  have ht' : ∀ x ∈ t, x ≠ 0 ∧ x < 128 := fun x hx => ⟨fun e => ht.2.2 (e ▸ hx), at' x hx⟩
  refine ⟨r, h1, ?_, ?_, ?_⟩
  · rw [h2, foldKeys_lt hs' ht']
  · rw [h3, foldKeys_inj]
  · rw [h4, foldKeys_lt ht' hs']

/-- **C50** (partial, `strncasecmp`): the same for the first `n` characters. -/
theorem C50_strncasecmp_partial (m : Mem UInt8) (p q n : Nat) (s t : List UInt8) (hs : BStr m p n s)
    (ht : BStr m q n t) (as : ∀ x ∈ s, x < 128) (at' : ∀ x ∈ t, x < 128) :
    ∃ r, strncasecmp m p q n = some r ∧ SignAgrees r.toInt (s.map lowerByte) (t.map lowerByte) := by
  obtain ⟨r, h1, h2, h3, h4⟩ := strncasecmp_eq m n s t p q hs ht
  have hs' : ∀ x ∈ s, x ≠ 0 ∧ x < 128 := fun x hx => ⟨fun e => hs.2.1 (e ▸ hx), as x hx⟩
  have ht' : ∀ x ∈ t, x ≠ 0 ∧ x < 128 := fun x hx => ⟨fun e => ht.2.1 (e ▸ hx), at' x hx⟩
  refine ⟨r, h1, ?_, ?_, ?_⟩
  · rw [h2, foldKeys_lt hs' ht']
  · rw [h3, foldKeys_inj]
  · rw [h4, foldKeys_lt ht' hs']

/-- **C50**: equality is right for all strings. -/
theorem C50_equal (m : Mem UInt8) (p q : Nat) (s t : List UInt8) (hs : CStr m p s) (ht : CStr m q t) :
    ∃ r, strcasecmp m p q = some r ∧ (r = 0 ↔ s.map lowerByte = t.map lowerByte) := by
  obtain ⟨r, h1, h2, h3, h4⟩ := strcasecmp_eq m p q s t hs ht
  refine ⟨r, h1, ?_⟩
  rw [← foldKeys_inj, ← h3, ← Int32.toInt_inj]
  exact Iff.rfl

theorem C50_equal_n (m : Mem UInt8) (p q n : Nat) (s t : List UInt8) (hs : BStr m p n s) (ht : BStr m q n t) :
    ∃ r, strncasecmp m p q n = some r ∧ (r = 0 ↔ s.map lowerByte = t.map lowerByte) := by
  obtain ⟨r, h1, h2, h3, h4⟩ := strncasecmp_eq m n s t p q hs ht
  refine ⟨r, h1, ?_⟩
  rw [← foldKeys_inj, ← h3, ← Int32.toInt_inj]
  exact Iff.rfl

/-- **C50**: a total order on all strings: swapping the arguments swaps the sign, and the order is transitive. -/
theorem C50_order (m : Mem UInt8) (p q o : Nat) (s t u : List UInt8) (hs : CStr m p s) (ht : CStr m q t)
    (hu : CStr m o u) :
    ∃ a b c d, strcasecmp m p q = some a ∧ strcasecmp m q p = some b ∧ strcasecmp m q o = some c ∧
      strcasecmp m p o = some d ∧ (a.toInt < 0 ↔ 0 < b.toInt) ∧ (a.toInt = 0 ↔ b.toInt = 0) ∧
      (a.toInt ≤ 0 → c.toInt ≤ 0 → d.toInt ≤ 0) := by
  obtain ⟨a, a1, a2, a3, a4⟩ := strcasecmp_eq m p q s t hs ht
  obtain ⟨b, b1, b2, b3, b4⟩ := strcasecmp_eq m q p t s ht hs
  obtain ⟨c, c1, c2, c3, c4⟩ := strcasecmp_eq m q o t u ht hu
  obtain ⟨d, d1, d2, d3, d4⟩ := strcasecmp_eq m p o s u hs hu
  refine ⟨a, b, c, d, a1, b1, c1, d1, by rw [a2, b4], by rw [a3, b3]; exact eq_comm, ?_⟩
  intro h1 h2
  have k1 : ¬ foldKeys t < foldKeys s := fun h => by have := a4.2 h; omega
  have k2 : ¬ foldKeys u < foldKeys t := fun h => by have := c4.2 h; omega
  apply Int.not_lt.1
  intro h
  have h3 := d4.1 h
  rcases Int.lt_trichotomy a.toInt 0 with h | h | h
  · exact k2 (List.lt_trans h3 (a2.1 h))
  · rw [a3.1 h] at h3; exact k2 h3
  · exact k1 (a4.1 h)

/-- **C50** (violation): "\x80" compares below "a", though as unsigned bytes it is greater. -/
theorem C50_order_violation :
    ∃ (m : Mem UInt8) (p q : Nat) (s t : List UInt8) (r : Int32), CStr m p s ∧ CStr m q t ∧
      strcasecmp m p q = some r ∧ ¬ SignAgrees r.toInt (s.map lowerByte) (t.map lowerByte) := by
  refine ⟨ofList 1 [128, 0, 97, 0], 1, 3, [128], [97], -225, by simp [CStr, Bytes, ofList],
    by simp [CStr, Bytes, ofList], ?_, ?_⟩
  · rw [strcasecmp]
    rfl
  · intro h
    have := h.1.1 (by decide)
    revert this
    decide

example : ∃ r, strcasecmp (ofList 1 [65, 98, 0, 97, 66, 0]) 1 4 = some r ∧ r = 0 := by
  obtain ⟨r, h1, h2⟩ := C50_equal (ofList 1 [65, 98, 0, 97, 66, 0]) 1 4 [65, 98] [97, 66]
    (by simp [CStr, Bytes, ofList]) (by simp [CStr, Bytes, ofList])
  exact ⟨r, h1, h2.2 (by decide)⟩

end Verif.Ctype
