import Verif.Str.MemProps
import Verif.Str.StrLemmas

/-!
# C18, C19, C20 for the `str*` functions
-/

namespace Verif.Str

open Verif.Mem

/-! ## C18: comparison -/

theorem SignAgrees.nil_cons {b : UInt8} (hb : b ≠ 0) (k : List UInt8) :
    SignAgrees ((0 : UInt8).toNat - (b.toNat : Int)) [] (b :: k) := by
  have : 0 < b.toNat := by
    rcases Nat.eq_zero_or_pos b.toNat with h | h
    · exact absurd (UInt8.toNat_inj.1 (by simpa using h)) hb
    · exact h
  refine ⟨?_, ?_, ?_⟩ <;> simp <;> omega

theorem SignAgrees.cons_nil {b : UInt8} (hb : b ≠ 0) (k : List UInt8) :
    SignAgrees ((b.toNat : Int) - (0 : UInt8).toNat) (b :: k) [] := by
  have : 0 < b.toNat := by
    rcases Nat.eq_zero_or_pos b.toNat with h | h
    · exact absurd (UInt8.toNat_inj.1 (by simpa using h)) hb
    · exact h
  refine ⟨?_, ?_, ?_⟩ <;> simp <;> omega

theorem strncmpLoop_eq (m : Mem UInt8) (n : Nat) : ∀ (s t : List UInt8) p q, BStr m p n s → BStr m q n t →
    ∃ r, strncmpLoop m p q n = some r ∧ SignAgrees r s t := by
  induction n with
  | zero =>
    intro s t p q hs ht
    rw [hs.zero, ht.zero]
    exact ⟨0, rfl, .nil⟩
  | succ n ih =>
    intro s t p q hs ht
    cases s with
    | nil =>
      cases t with
      | nil =>
        refine ⟨0, ?_, .nil⟩
        simp [strncmpLoop, hs.nul, ht.nul]
      | cons c t =>
        refine ⟨_, ?_, .nil_cons ht.head.2 t⟩
        simp [strncmpLoop, hs.nul, ht.head.1]
    | cons b s =>
      cases t with
      | nil =>
        refine ⟨_, ?_, .cons_nil hs.head.2 s⟩
        simp [strncmpLoop, ht.nul, hs.head.1, hs.head.2]
      | cons c t =>
        simp only [strncmpLoop, hs.head.1, ht.head.1, Option.bind_eq_bind, Option.bind_some]
        by_cases e : b = c
        · subst e
          simp only [ne_eq, not_true_eq_false, false_or, if_neg hs.head.2]
          obtain ⟨r, h1, h2⟩ := ih s t (p + 1) (q + 1) hs.tail ht.tail
          exact ⟨r, h1, h2.cons b⟩
        · rw [if_pos (Or.inl e)]
          exact ⟨_, rfl, .ne e s t⟩

/-- **C18** (`strncmp`). The arrays need not be terminated within `n` bytes; the result orders the strings cut at `n`
bytes. No byte after a terminator and no byte beyond `n` is read. -/
theorem C18_strncmp (m : Mem UInt8) (p q n : Nat) (s t : List UInt8) (hs : BStr m p n s) (ht : BStr m q n t) :
    ∃ r, strncmp m p q n = some r ∧ SignAgrees r s t := strncmpLoop_eq m n s t p q hs ht

/-- **C18** (`strcmp`, `strcoll`). Strings shorter than the address space. -/
theorem C18_strcmp (m : Mem UInt8) (p q : Nat) (s t : List UInt8) (hs : CStr m p s) (ht : CStr m q t)
    (ls : s.length < 2 ^ 64) (lt : t.length < 2 ^ 64) :
    ∃ r, strcmp m p q = some r ∧ SignAgrees r s t := by
  have h1 := hs.bstr USIZE_MAX
  have h2 := ht.bstr USIZE_MAX
  rw [List.take_of_length_le (by unfold USIZE_MAX; omega)] at h1 h2
  exact C18_strncmp m p q _ s t h1 h2

/-! ## C19: single characters -/

theorem strchrLoop_eq {α : Type} [DecidableEq α] [OfNat α 0] (m : Mem α) (c : α) (s : List α) : ∀ p, CStr m p s →
    ∃ r, strchrLoop m p c = some r ∧ Finds p r (FirstAt (s ++ [0]) c) := by
  induction s with
  | nil =>
    intro p h
    rw [strchrLoop, h.nul]
    simp only [Option.bind_eq_bind, Option.bind_some]
    by_cases e : (0 : α) = c
    · subst e
      exact ⟨some p, by simp, Or.inr ⟨0, rfl, by simp [FirstAt]⟩⟩
    · refine ⟨none, by simp [e], Or.inl ⟨rfl, ?_⟩⟩
      intro i hi
      have := List.mem_of_getElem? hi.1
      simp at this
      exact e this.symm
  | cons b s ih =>
    intro p h
    rw [strchrLoop, h.head.1]
    simp only [Option.bind_eq_bind, Option.bind_some]
    by_cases e : b = c
    · exact ⟨some p, by simp [e], Or.inr ⟨0, rfl, by simp [FirstAt, e]⟩⟩
    · rw [if_neg e, if_neg h.head.2]
      obtain ⟨r, h1, h2⟩ := ih (p + 1) h.tail
      refine ⟨r, h1, ?_⟩
      rcases h2 with ⟨rfl, h2⟩ | ⟨i, rfl, h2⟩
      · left
        refine ⟨rfl, ?_⟩
        intro i hi
        cases i with
        | zero => have := hi.1; simp at this; exact e this
        | succ i =>
          refine h2 i ⟨by simpa using hi.1, fun j hj => ?_⟩
          simpa using hi.2 (j + 1) (by omega)
      · right
        refine ⟨i + 1, by congr 1; omega, by simpa using h2.1, ?_⟩
        intro j hj
        cases j with
        | zero => simpa using e
        | succ j => simpa using h2.2 j (by omega)

/-- **C19** (`strchr`). First occurrence in the string with its terminator, NULL exactly when there is none. -/
theorem C19_strchr (m : Mem UInt8) (p : Nat) (c : Int) (s : List UInt8) (h : CStr m p s) :
    ∃ r, strchr m p c = some r ∧ Finds p r (FirstAt (s ++ [0]) (uchar c)) := by
  unfold strchr; rw [toUChar_eq]; exact strchrLoop_eq m _ s p h

theorem strchrnulLoop_eq (m : Mem UInt8) (c : UInt8) (s : List UInt8) : ∀ p, CStr m p s →
    ∃ i, strchrnulLoop m p c = some (p + i) ∧ (FirstAt (s ++ [0]) c i ∨ c ∉ s ++ [0] ∧ i = s.length) := by
  induction s with
  | nil =>
    intro p h
    rw [strchrnulLoop, h.nul]
    refine ⟨0, by simp, ?_⟩
    by_cases e : (0 : UInt8) = c
    · left; simp [FirstAt, e]
    · right
      simp only [List.nil_append, List.mem_singleton, List.length_nil, and_true]
      exact fun h => e h.symm
  | cons b s ih =>
    intro p h
    rw [strchrnulLoop, h.head.1]
    simp only [Option.bind_eq_bind, Option.bind_some]
    by_cases e : b = c
    · exact ⟨0, by simp [e], Or.inl (by simp [FirstAt, e])⟩
    · rw [if_neg e, if_neg h.head.2]
      obtain ⟨i, h1, h2⟩ := ih (p + 1) h.tail
      refine ⟨i + 1, by rw [h1]; congr 1; omega, ?_⟩
      rcases h2 with h2 | ⟨h2, h3⟩
      · left
        refine ⟨by simpa using h2.1, ?_⟩
        intro j hj
        cases j with
        | zero => simpa using e
        | succ j => simpa using h2.2 j (by omega)
      · right
        refine ⟨?_, by simp [h3]⟩
        rw [List.cons_append, List.mem_cons, not_or]
        exact ⟨fun h => e h.symm, h2⟩

/-- **C19** (`strchrnul`). As `strchr`, with the address of the terminator when there is no occurrence. -/
theorem C19_strchrnul (m : Mem UInt8) (p : Nat) (c : Int) (s : List UInt8) (h : CStr m p s) :
    ∃ i, strchrnul m p c = some (p + i) ∧
      (FirstAt (s ++ [0]) (uchar c) i ∨ uchar c ∉ s ++ [0] ∧ i = s.length) := by
  unfold strchrnul; rw [toUChar_eq]; exact strchrnulLoop_eq m _ s p h

theorem strrchrLoop_eq {α : Type} [DecidableEq α] (m : Mem α) (p : Nat) (c : α) (n : Nat) : ∀ (l : List α),
    l.length = n → Bytes m p l →
    (strrchrLoop m p c n = some none ∧ c ∉ l) ∨ ∃ i, strrchrLoop m p c n = some (some (p + i)) ∧ LastAt l c i := by
  induction n with
  | zero =>
    intro l hl _
    left
    rw [List.length_eq_zero_iff.1 hl]
    exact ⟨rfl, by simp⟩
  | succ n ih =>
    intro l hl hb
    obtain ⟨l', b, rfl⟩ : ∃ l' b, l = l' ++ [b] := by
      have hne : l ≠ [] := by intro h; simp [h] at hl
      exact ⟨l.dropLast, l.getLast hne, (List.dropLast_concat_getLast hne).symm⟩
    simp only [List.length_append, List.length_singleton] at hl
    have hl' : l'.length = n := by omega
    obtain ⟨h1, h2, -⟩ := bytes_append.1 hb
    rw [hl'] at h2
    simp only [strrchrLoop, h2, Option.bind_eq_bind, Option.bind_some]
    by_cases e : b = c
    · rw [if_pos e]
      right
      refine ⟨n, rfl, ?_, ?_⟩
      · rw [List.getElem?_append_right (by omega), hl']; simp [e]
      · intro j hj
        rw [List.getElem?_eq_none (by simp; omega)]
        simp
    · rw [if_neg e]
      rcases ih l' hl' h1 with ⟨x, y⟩ | ⟨i, x, y⟩
      · left
        refine ⟨x, ?_⟩
        simp only [List.mem_append, List.mem_singleton, not_or]
        exact ⟨y, fun h => e h.symm⟩
      · right
        have hi : i < l'.length := by
          have := y.1
          rw [List.getElem?_eq_some_iff] at this
          exact this.1
        refine ⟨i, x, ?_, ?_⟩
        · rw [List.getElem?_append_left hi]; exact y.1
        · intro j hj
          by_cases hjl : j < l'.length
          · rw [List.getElem?_append_left hjl]; exact y.2 j hj
          · rw [List.getElem?_append_right (by omega)]
            cases hk : j - l'.length with
            | zero => simpa using e
            | succ k => simp

/-- **C19** (`strrchr`), for every byte except the terminator. Missing: `strrchr(s, 0)` must return the terminator,
see `C19_strrchr_nul_violation`. -/
theorem C19_strrchr_partial (m : Mem UInt8) (p : Nat) (c : Int) (s : List UInt8) (h : CStr m p s)
    (hc : uchar c ≠ 0) :
    ∃ r, strrchr m p c = some r ∧ Finds p r (LastAt (s ++ [0]) (uchar c)) := by
  unfold strrchr
  rw [strlen_eq h]
  simp only [Option.bind_eq_bind, Option.bind_some, toUChar_eq]
  rcases strrchrLoop_eq m p (uchar c) _ s rfl h.1 with ⟨x, y⟩ | ⟨i, x, y⟩
  · refine ⟨none, x, Or.inl ⟨rfl, ?_⟩⟩
    intro i hi
    have := List.mem_of_getElem? hi.1
    simp only [List.mem_append, List.mem_singleton] at this
    rcases this with h | h
    · exact y h
    · exact hc h
  · have hi : i < s.length := by
      have := y.1
      rw [List.getElem?_eq_some_iff] at this
      exact this.1
    refine ⟨_, x, Or.inr ⟨i, rfl, by rw [List.getElem?_append_left hi]; exact y.1, ?_⟩⟩
    intro j hj
    by_cases hjl : j < s.length
    · rw [List.getElem?_append_left hjl]; exact y.2 j hj
    · rw [List.getElem?_append_right (by omega)]
      cases hk : j - s.length with
      | zero => simpa using fun h : (0 : UInt8) = uchar c => hc h.symm
      | succ k => simp

/-- **C19** fails for `strrchr(s, '\0')`: NULL for every string, although the terminator is part of the string. -/
theorem C19_strrchr_nul_violation (m : Mem UInt8) (p : Nat) (s : List UInt8) (h : CStr m p s) :
    strrchr m p 0 = some none ∧ LastAt (s ++ [0]) (uchar 0) s.length := by
  have h0 : uchar 0 = 0 := rfl
  constructor
  · unfold strrchr
    rw [strlen_eq h, toUChar_eq, h0]
    simp only [Option.bind_eq_bind, Option.bind_some]
    rcases strrchrLoop_eq m p (0 : UInt8) _ s rfl h.1 with ⟨x, y⟩ | ⟨i, x, y⟩
    · exact x
    · exact absurd (List.mem_of_getElem? y.1) h.2.2
  · rw [h0]
    refine ⟨by simp, ?_⟩
    intro j hj
    rw [List.getElem?_eq_none (by simp; omega)]
    simp

/-! ## C20: substrings -/

theorem strstrMatch_eq (m : Mem UInt8) (mask : UInt8) (needle : List UInt8) : ∀ (hay : List UInt8) h n i,
    CStr m (h + i) hay → CStr m (n + i) needle → (∀ b ∈ needle, b &&& mask ≠ 0) →
    ∃ r, strstrMatch m h n mask i = some r ∧
      (r = true ↔ ∃ rest, hay.map (· &&& mask) = needle.map (· &&& mask) ++ rest) := by
  induction needle with
  | nil =>
    intro hay h n i _ hn _
    rw [strstrMatch, hn.nul]
    exact ⟨true, by simp, by simp⟩
  | cons b needle ih =>
    intro hay h n i hh hn hm
    rw [strstrMatch, hn.head.1]
    simp only [Option.bind_eq_bind, Option.bind_some, if_neg hn.head.2]
    cases hay with
    | nil =>
      rw [hh.nul]
      refine ⟨false, ?_, by simp⟩
      have h0 : (0 : UInt8) &&& mask = 0 := UInt8.zero_and
      have : (0 : UInt8) ≠ b &&& mask := fun h => hm b (by simp) h.symm
      simp [this, h0]
    | cons a hay =>
      rw [hh.head.1]
      simp only [Option.bind_some]
      by_cases e : a &&& mask = b &&& mask
      · simp only [e, ne_eq, not_true_eq_false, if_false]
        obtain ⟨r, h1, h2⟩ := ih hay h n (i + 1) hh.tail hn.tail (fun b hb => hm b (by simp [hb]))
        exact ⟨r, h1, by rw [h2]; simp [e]⟩
      · rw [if_pos e]
        exact ⟨false, rfl, by simp [e]⟩

theorem innerStrstr_eq (m : Mem UInt8) (mask : UInt8) (n : Nat) (needle : List UInt8) (hn : CStr m n needle)
    (hm : ∀ b ∈ needle, b &&& mask ≠ 0) (hay : List UInt8) :
    ∀ h, CStr m h hay →
    ∃ r, innerStrstr m h n mask = some r ∧
      Finds h r (fun i => i < hay.length ∧ LeftmostAt (hay.map (· &&& mask)) (needle.map (· &&& mask)) i) := by
  induction hay with
  | nil =>
    intro h hh
    rw [innerStrstr, hh.nul]
    exact ⟨none, by simp, Or.inl ⟨rfl, fun i hi => by simp at hi⟩⟩
  | cons a hay ih =>
    intro h hh
    rw [innerStrstr, hh.head.1]
    simp only [Option.bind_eq_bind, Option.bind_some, if_neg hh.head.2]
    obtain ⟨b, h1, h2⟩ := strstrMatch_eq m mask needle (a :: hay) h n 0 hh hn hm
    rw [h1]
    simp only [Option.bind_some]
    cases b with
    | true =>
      obtain ⟨rest, h3⟩ := h2.1 rfl
      refine ⟨_, rfl, Or.inr ⟨0, rfl, by simp, ⟨by omega, rest, h3⟩, fun j hj => by omega⟩⟩
    | false =>
      have h0 : ¬ OccursAt ((a :: hay).map (· &&& mask)) (needle.map (· &&& mask)) 0 := by
        rintro ⟨-, h3⟩
        exact absurd (h2.2 h3) (by simp)
      obtain ⟨r, x, y⟩ := ih (h + 1) hh.tail
      refine ⟨r, by simpa using x, ?_⟩
      have up : ∀ i, OccursAt ((a :: hay).map (· &&& mask)) (needle.map (· &&& mask)) (i + 1) ↔
          OccursAt (hay.map (· &&& mask)) (needle.map (· &&& mask)) i := by
        intro i; simp [OccursAt]
      rcases y with ⟨rfl, y⟩ | ⟨i, rfl, y0, y1, y2⟩
      · left
        refine ⟨rfl, ?_⟩
        rintro i ⟨i0, i1, i2⟩
        cases i with
        | zero => exact h0 i1
        | succ i =>
          refine y i ⟨by simpa using i0, (up i).1 i1, ?_⟩
          intro j hj hj'
          exact i2 (j + 1) (by omega) ((up j).2 hj')
      · right
        refine ⟨i + 1, by congr 1; omega, by simpa using y0, (up i).2 y1, ?_⟩
        intro j hj
        cases j with
        | zero => exact h0
        | succ j => exact fun hj' => y2 j (by omega) ((up j).1 hj')

/-- From matches before the end of the haystack to all matches. -/
theorem finds_of_before {hay needle : List UInt8} (hne : hay ≠ [] ∨ needle ≠ []) {h : Nat} {r : Option Nat}
    (y : Finds h r (fun i => i < hay.length ∧ LeftmostAt hay needle i)) : Finds h r (LeftmostAt hay needle) := by
  rcases y with ⟨rfl, y⟩ | ⟨i, rfl, y0, y1⟩
  · left
    refine ⟨rfl, ?_⟩
    intro i hi
    by_cases hlt : i < hay.length
    · exact y i ⟨hlt, hi⟩
    · obtain ⟨hle, rest, hr⟩ := hi.1
      have hi0 : i = hay.length := by omega
      rw [hi0, List.drop_length] at hr
      have hne' : needle = [] := by
        have := congrArg List.length hr
        simp only [List.length_nil, List.length_append] at this
        exact List.length_eq_zero_iff.1 (by omega)
      subst hne'
      have hpos : 0 < hay.length := by
        rcases hne with h | h
        · exact List.length_pos_iff.2 h
        · exact absurd rfl h
      exact hi.2 0 (by omega) ⟨by omega, hay, by simp⟩
  · exact Or.inr ⟨i, rfl, y1⟩

/-- **C20** (`strstr`), unless both strings are empty. Missing: `strstr("", "")`, see
`C20_strstr_empty_violation`. -/
theorem C20_strstr_partial (m : Mem UInt8) (h n : Nat) (hay needle : List UInt8) (hh : CStr m h hay)
    (hn : CStr m n needle) (hne : hay ≠ [] ∨ needle ≠ []) :
    ∃ r, strstr m h n = some r ∧ Finds h r (LeftmostAt hay needle) := by
  have mask : (fun x : UInt8 => x &&& 255) = id := by
    funext x
    exact (byte_table (by decide +kernel) : ∀ x : UInt8, x &&& 255 = x) x
  obtain ⟨r, x, y⟩ := innerStrstr_eq m 255 n needle hn (fun b hb h => hn.2.2 (by
    have : b = 0 := (congrFun mask b).symm.trans h
    rwa [this] at hb)) hay h hh
  rw [mask, List.map_id, List.map_id] at y
  exact ⟨r, x, finds_of_before hne y⟩

/-- Lower case of an ASCII letter. -/
def lowerByte (b : UInt8) : UInt8 := if 65 ≤ b ∧ b ≤ 90 then b + 32 else b

/-- `b` is an ASCII letter. -/
def IsLetter (b : UInt8) : Prop := (65 ≤ b ∧ b ≤ 90) ∨ (97 ≤ b ∧ b ≤ 122)

instance (b : UInt8) : Decidable (IsLetter b) := by unfold IsLetter; infer_instance

theorem letter_mask (a b : UInt8) (hb : IsLetter b) : a &&& 223 = b &&& 223 ↔ lowerByte a = lowerByte b := by
  have h : ∀ b : UInt8, IsLetter b →
      ∀ i : Fin 256, (UInt8.ofFin i) &&& 223 = b &&& 223 ↔ lowerByte (UInt8.ofFin i) = lowerByte b :=
    byte_table (by decide +kernel)
  exact byte_table (P := fun a => a &&& 223 = b &&& 223 ↔ lowerByte a = lowerByte b) (h b hb) a

theorem prefix_mask_iff (needle : List UInt8) (hl : ∀ b ∈ needle, IsLetter b) : ∀ hay : List UInt8,
    (∃ rest, hay.map (· &&& 223) = needle.map (· &&& 223) ++ rest) ↔
    ∃ rest, hay.map lowerByte = needle.map lowerByte ++ rest := by
  induction needle with
  | nil => intro hay; simp
  | cons b needle ih =>
    intro hay
    cases hay with
    | nil => simp
    | cons a hay =>
      have h1 := letter_mask a b (hl b (by simp))
      have h2 := ih (fun b hb => hl b (by simp [hb])) hay
      simp only [List.map_cons, List.cons_append, List.cons.injEq, exists_and_left, h1, h2]

/-- **C20** (`strcasestr`) for a needle of letters: leftmost occurrence ignoring the case of ASCII letters. Missing:
needles with other bytes, see `C20_strcasestr_violation`. -/
theorem C20_strcasestr_partial (m : Mem UInt8) (h n : Nat) (hay needle : List UInt8) (hh : CStr m h hay)
    (hn : CStr m n needle) (hne : needle ≠ []) (hl : ∀ b ∈ needle, IsLetter b) :
    ∃ r, strcasestr m h n = some r ∧ Finds h r (LeftmostAt (hay.map lowerByte) (needle.map lowerByte)) := by
  obtain ⟨r, x, y⟩ := innerStrstr_eq m 223 n needle hn (fun b hb =>
    (byte_table (by decide +kernel) : ∀ b : UInt8, IsLetter b → b &&& 223 ≠ 0) b (hl b hb)) hay h hh
  refine ⟨r, x, ?_⟩
  have hocc : OccursAt (hay.map (· &&& 223)) (needle.map (· &&& 223)) =
      OccursAt (hay.map lowerByte) (needle.map lowerByte) := by
    funext i
    simp only [OccursAt, List.length_map, ← List.map_drop, prefix_mask_iff needle hl]
  have hlm : LeftmostAt (hay.map (· &&& 223)) (needle.map (· &&& 223)) =
      LeftmostAt (hay.map lowerByte) (needle.map lowerByte) := by
    funext i
    simp only [LeftmostAt, hocc]
  rw [hlm] at y
  have := finds_of_before (hay := hay.map lowerByte) (needle := needle.map lowerByte)
    (Or.inr (by simpa using hne)) (h := h) (r := r) (by simpa using y)
  exact this

/-- **C20** fails for two empty strings: NULL instead of the start of the haystack. -/
theorem C20_strstr_empty_violation (m : Mem UInt8) (h n : Nat) (hh : CStr m h []) :
    strstr m h n = some none ∧ LeftmostAt ([] : List UInt8) [] 0 := by
  constructor
  · rw [strstr, innerStrstr, hh.nul]; simp
  · exact ⟨⟨by simp, [], rfl⟩, fun j hj => by omega⟩

/-- `strcasestr` ignores bit 5 of every byte, letter or not: it finds "[" in "{". -/
theorem C20_strcasestr_violation : ∃ (m : Mem UInt8) (h n : Nat),
    CStr m h [0x7b] ∧ CStr m n [0x5b] ∧ strcasestr m h n = some (some h) := by
  refine ⟨ofList 1 [0x7b, 0, 0x5b, 0], 1, 3, ?_, ?_, ?_⟩
  · simp [CStr, Bytes, ofList]
  · simp [CStr, Bytes, ofList]
  · have h2 : strstrMatch (ofList 1 [0x7b, 0, 0x5b, 0]) 1 3 223 1 = some true := by
      rw [strstrMatch]; simp [ofList]
    have h1 : strstrMatch (ofList 1 [0x7b, 0, 0x5b, 0]) 1 3 223 0 = some true := by
      rw [strstrMatch, h2]
      rfl
    rw [strcasestr, innerStrstr, h1]
    rfl

/-! ## Cases meeting the hypotheses -/

example : ∃ r, strcmp (ofList 1 [65, 66, 0, 65, 200, 0]) 1 4 = some r ∧ r < 0 := by
  obtain ⟨r, h1, h2⟩ := C18_strcmp (ofList 1 [65, 66, 0, 65, 200, 0]) 1 4 [65, 66] [65, 200]
    (by simp [CStr, Bytes, ofList]) (by simp [CStr, Bytes, ofList]) (by simp) (by simp)
  exact ⟨r, h1, h2.1.2 (by decide)⟩

example : ∃ r, strstr (ofList 1 [65, 65, 66, 0, 65, 66, 0]) 1 5 = some r ∧ Finds 1 r (LeftmostAt [(65 : UInt8), 65, 66] [65, 66]) := 
  C20_strstr_partial (ofList 1 [65, 65, 66, 0, 65, 66, 0]) 1 5 [65, 65, 66] [65, 66] (by simp [CStr, Bytes, ofList]) (by simp [CStr, Bytes, ofList]) (by simp)

example : LeftmostAt [(65 : UInt8), 65, 66] [65, 66] 1 := by
  refine ⟨⟨by simp, [], rfl⟩, ?_⟩
  rintro j hj ⟨-, rest, h⟩
  have : j = 0 := by omega
  subst this
  simp at h

end Verif.Str
