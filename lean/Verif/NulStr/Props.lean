import Verif.NulStr.Model
import Verif.Str.StrLemmas
import Verif.Str.StrSearchProps
/-!
# Strings ended by a NUL (C175)
-/

namespace Verif.NulStr
open Verif.Mem Verif.Str

variable {α : Type} [DecidableEq α] [OfNat α 0]

theorem readN_bytes {m : Mem α} : ∀ {l : List α} {p : Nat}, Bytes m p l → readN m p l.length = some l := by
  intro l
  induction l with
  | nil => intro p _; rfl
  | cons b l ih =>
    intro p h
    simp [readN, h.1, ih h.2]

theorem CStr.split {m : Mem α} {p : Nat} {a b : List α} (h : CStr m p (a ++ b)) : Bytes m p a ∧ CStr m (p + a.length) b := by
  have h1 := bytes_append.1 h.1
  refine ⟨h1.1, h1.2, ?_, fun hb => h.2.2 (List.mem_append_right _ hb)⟩
  have := h.2.1
  rwa [List.length_append, ← Nat.add_assoc] at this

theorem split_at (c : α) : ∀ s : List α, c ∈ s → ∃ a b, s = a ++ c :: b ∧ c ∉ a
  | [], h => absurd h (by simp)
  | x :: s, h => by
    by_cases e : x = c
    · exact ⟨[], s, by rw [e]; rfl, by simp⟩
    · obtain ⟨a, b, hs, ha⟩ := split_at c s (by
        rcases List.mem_cons.1 h with h | h
        · exact absurd h.symm e
        · exact h)
      exact ⟨x :: a, b, by rw [hs]; rfl, fun hc => by
        rcases List.mem_cons.1 hc with h | h
        · exact e h.symm
        · exact ha h⟩

theorem chrnul_eq (m : Mem α) (c : α) {b : List α} {x : α} (hx : x = c ∨ x = 0) : ∀ (a : List α) (p : Nat), Bytes m p a → (∀ y ∈ a, y ≠ c ∧ y ≠ 0) →
    m (p + a.length) = some x → chrnul m p c = some (p + a.length) := by
  intro a
  induction a with
  | nil =>
    intro p _ _ h
    rw [chrnul, show m p = some x from h]
    simp only [Option.bind_eq_bind, Option.bind_some]
    exact if_neg (fun h => hx.elim h.1 h.2)
  | cons y a ih =>
    intro p hb hn h
    rw [chrnul, hb.1]
    simp only [Option.bind_eq_bind, Option.bind_some]
    rw [if_pos (hn y (by simp)), ih (p + 1) hb.2 (fun z hz => hn z (by simp [hz])) (by rw [← h]; congr 1; simp only [List.length_cons]; omega)]
    congr 1
    simp only [List.length_cons]
    omega

/-- **C175**: the string is cut at the first occurrence of `c`: what is before has no `c`, what follows is again a string, and begins with `c`.
Without an occurrence, or for NUL, everything is before, and the empty string follows. -/
theorem C175_find_or_all {m : Mem α} {p : Nat} {s : List α} (h : CStr m p s) (c : α) :
    (c ∉ s → findOrAll m p c = some (false, s, p + s.length) ∧ CStr m (p + s.length) ([] : List α)) ∧
    (c ∈ s → ∃ a b, s = a ++ c :: b ∧ c ∉ a ∧ findOrAll m p c = some (true, a, p + a.length) ∧ CStr m (p + a.length) (c :: b)) := by
  refine ⟨fun hc => ?_, fun hc => ?_⟩
  · have e := chrnul_eq m c (b := []) (.inr rfl) s p h.1 (fun y hy => ⟨fun e => hc (e ▸ hy), fun e => h.2.2 (e ▸ hy)⟩) h.2.1
    refine ⟨?_, (CStr.split (a := s) (b := []) (by rwa [List.append_nil])).2⟩
    unfold findOrAll sliceUntil first
    simp only [e, Option.bind_eq_bind, Option.bind_some, Nat.add_sub_cancel_left, readN_bytes h.1, h.2.1]
    simp
  · obtain ⟨a, b, rfl, ha⟩ := split_at c s hc
    obtain ⟨h1, h2⟩ := CStr.split h
    have hc0 : c ≠ 0 := fun e => h.2.2 (by simp [e])
    have e := chrnul_eq m c (b := []) (.inl rfl) a p h1
      (fun y hy => ⟨fun e => ha (e ▸ hy), fun e => h.2.2 (by rw [← e]; exact List.mem_append_left _ hy)⟩) h2.1.1
    refine ⟨a, b, rfl, ha, ?_, h2⟩
    unfold findOrAll sliceUntil first
    simp only [e, Option.bind_eq_bind, Option.bind_some, Nat.add_sub_cancel_left, readN_bytes h1, h2.1.1]
    simp [hc0]

theorem strchr_none {m : Mem α} {c : α} : ∀ {s : List α} {p : Nat}, CStr m p s → c ∉ s → c ≠ 0 → find m p c = some none := by
  intro s
  induction s with
  | nil =>
    intro p h _ h0
    unfold find
    rw [strchrLoop, show m p = some 0 from h.2.1]
    simp [Ne.symm h0]
  | cons b s ih =>
    intro p h hc h0
    have hb : b ≠ c := fun e => hc (by simp [e])
    have hb0 : b ≠ 0 := fun e => h.2.2 (by simp [e])
    unfold find
    rw [strchrLoop, h.1.1]
    simp only [Option.bind_eq_bind, Option.bind_some, if_neg hb, if_neg hb0]
    exact ih (CStr.split (a := [b]) h).2 (fun hm => hc (by simp [hm])) h0

theorem strchr_some {m : Mem α} {c : α} : ∀ {a : List α} {p : Nat}, Bytes m p a → c ∉ a → 0 ∉ a → m (p + a.length) = some c →
    find m p c = some (some (p + a.length)) := by
  intro a
  induction a with
  | nil =>
    intro p _ _ _ h
    unfold find
    rw [strchrLoop, show m p = some c from h]
    simp
  | cons b a ih =>
    intro p hb hc h0 h
    have h1 : b ≠ c := fun e => hc (by simp [e])
    have h2 : b ≠ 0 := fun e => h0 (by simp [e])
    unfold find
    rw [strchrLoop, hb.1]
    simp only [Option.bind_eq_bind, Option.bind_some, if_neg h1, if_neg h2]
    have := ih (p := p + 1) hb.2 (fun hm => hc (by simp [hm])) (fun hm => h0 (by simp [hm])) (by rw [← h]; congr 1; simp only [List.length_cons]; omega)
    unfold find at this
    rw [this]
    simp only [List.length_cons, Option.some.injEq]
    omega

/-- **C175**: `find`, `find_get_subslice` and `contains` give the first occurrence, and nothing exactly if there is none; the NUL at the end counts
as an occurrence. -/
theorem C175_find {m : Mem α} {p : Nat} {s : List α} (h : CStr m p s) (c : α) :
    (c ∉ s → c ≠ 0 → find m p c = some none ∧ findGet m p c = some none ∧ contains m p c = some false) ∧
    (∀ a b, s ++ [0] = a ++ c :: b → c ∉ a →
      find m p c = some (some (p + a.length)) ∧ findGet m p c = some (some (a, p + a.length)) ∧ contains m p c = some true) := by
  refine ⟨fun hc h0 => ?_, fun a b hs ha => ?_⟩
  · have e := strchr_none h hc h0
    refine ⟨e, ?_, ?_⟩
    · unfold findGet; rw [e]; rfl
    · unfold contains; rw [e]; rfl
  · have hall : Bytes m p (a ++ c :: b) := by
      rw [← hs]
      exact bytes_append.2 ⟨h.1, h.2.1, trivial⟩
    obtain ⟨h1, h2⟩ := bytes_append.1 hall
    have h0 : 0 ∉ a := by
      intro hz
      have hl : a.length ≤ s.length := by
        have := congrArg List.length hs
        simp only [List.length_append, List.length_cons, List.length_nil] at this
        omega
      have ht : a = s.take a.length := by
        have := congrArg (List.take a.length) hs
        rw [List.take_left, List.take_append_of_le_length hl] at this
        exact this.symm
      rw [ht] at hz
      exact h.2.2 (List.mem_of_mem_take hz)
    have e := strchr_some h1 ha h0 h2.1
    refine ⟨e, ?_, ?_⟩
    · unfold findGet sliceUntil
      rw [e]
      simp only [Option.bind_eq_bind, Option.bind_some, Nat.add_sub_cancel_left, readN_bytes h1]
    · unfold contains; rw [e]; rfl

/-- **C175**: `split_first` takes the elements one by one: nothing exactly at the end, otherwise the first element and the string of the others. -/
theorem C175_split_first {m : Mem α} {p : Nat} {s : List α} (h : CStr m p s) :
    (s = [] → splitFirst m p = some none ∧ isEmpty m p = some true) ∧
    (∀ b t, s = b :: t → splitFirst m p = some (some (b, p + 1)) ∧ isEmpty m p = some false ∧ CStr m (p + 1) t) := by
  refine ⟨?_, ?_⟩
  · rintro rfl
    have : m p = some 0 := h.2.1
    unfold splitFirst isEmpty first
    rw [this]
    simp
  · rintro b t rfl
    have hb0 : b ≠ 0 := fun e => h.2.2 (by simp [e])
    have : m p = some b := h.1.1
    refine ⟨?_, ?_, (CStr.split (a := [b]) h).2⟩
    · unfold splitFirst first
      rw [this]
      simp [hb0]
    · unfold isEmpty first
      rw [this]
      simp [hb0]

/-- **C175**: the whole string, with and without its NUL, and its length. Nothing after the NUL is read. -/
theorem C175_to_chars {m : Mem α} {p : Nat} {s : List α} (h : CStr m p s) :
    toChars m p = some s ∧ toCharsWithNul m p = some (s ++ [0]) ∧ len m p = some s.length := by
  have e : toCharsWithNul m p = some (s ++ [0]) := by
    unfold toCharsWithNul
    rw [strlen_eq h]
    have := readN_bytes (m := m) (p := p) (l := s ++ [0]) (bytes_append.2 ⟨h.1, h.2.1, trivial⟩)
    simpa using this
  have e2 : toChars m p = some s := by
    unfold toChars
    rw [e]
    simp
  exact ⟨e2, e, by unfold len; rw [e2]; rfl⟩

/-- **C175**: `from_chars_with_nul` takes exactly the strings with one NUL, at the end; they are then the string before it. -/
theorem C175_from_with_nul (l : List α) :
    (fromWithNul l = true ↔ ∃ s, l = s ++ [0] ∧ 0 ∉ s) ∧
    (∀ m p s, Bytes m p l → l = s ++ [0] → fromWithNul l = true → CStr m p s) := by
  have key : fromWithNul l = true ↔ ∃ s, l = s ++ [0] ∧ 0 ∉ s := by
    unfold fromWithNul
    rcases List.eq_nil_or_concat l with rfl | ⟨s, x, rfl⟩
    · simp
    · simp only [List.concat_eq_append, List.getLast?_append, List.getLast?_singleton, Option.some_or, List.length_append, List.length_singleton, Nat.add_sub_cancel, List.take_left']
      constructor
      · intro h
        split at h
        · exact absurd h (by simp)
        · rename_i hn
          rw [not_or] at hn
          have hx : x = 0 := by simpa using hn.1
          exact ⟨s, by rw [hx], by simpa using hn.2⟩
      · rintro ⟨t, ht, h0⟩
        obtain ⟨rfl, hx⟩ := List.append_inj' ht rfl
        have hx : x = 0 := by simpa using hx
        rw [if_neg]
        rw [not_or]
        exact ⟨by simp [hx], by simpa using h0⟩
  refine ⟨key, ?_⟩
  rintro m p s hb rfl hf
  obtain ⟨t, ht, h0⟩ := key.1 hf
  have := (List.append_inj' ht rfl).1
  subst this
  obtain ⟨h1, h2⟩ := bytes_append.1 hb
  exact ⟨h1, h2.1, h0⟩

/-- **C175**: `from_chars_until_nul` takes exactly what has a NUL; it is then the string before the first one. -/
theorem C175_from_until_nul (l : List α) :
    (fromUntilNul l = true ↔ 0 ∈ l) ∧
    (fromUntilNul l = true → ∃ s t, l = s ++ 0 :: t ∧ ∀ m p, Bytes m p l → CStr m p s) := by
  have key : fromUntilNul l = true ↔ 0 ∈ l := by
    unfold fromUntilNul
    by_cases h : (0 : α) ∈ l <;> simp [h]
  refine ⟨key, fun h => ?_⟩
  obtain ⟨s, t, rfl, h0⟩ := split_at 0 l (key.1 h)
  refine ⟨s, t, rfl, fun m p hb => ?_⟩
  obtain ⟨h1, h2⟩ := bytes_append.1 hb
  exact ⟨h1, h2.1, h0⟩

/-- **C175**: of the bytes all are characters, so `split_first_char` is `split_first`; a wide string of which the next element is not a character
looks as if it ended. -/
theorem C175_split_first_char :
    (∀ (m : Mem UInt8) (p : Nat) (s : List UInt8), CStr m p s →
      (s = [] → splitFirstChar UInt8.toNat m p = some none) ∧ (∀ b t, s = b :: t → splitFirstChar UInt8.toNat m p = some (some (b.toNat, p + 1)))) ∧
    (∀ (m : Mem UInt32) (p : Nat) (b : UInt32) (t : List UInt32), CStr m p (b :: t) →
      (0xD800 ≤ b.toNat ∧ b.toNat ≤ 0xDFFF ∨ 0x110000 ≤ b.toNat → splitFirstChar UInt32.toNat m p = some none) ∧
      (b.toNat < 0xD800 ∨ 0xDFFF < b.toNat ∧ b.toNat < 0x110000 → splitFirstChar UInt32.toNat m p = some (some (b.toNat, p + 1)))) := by
  refine ⟨fun m p s h => ⟨fun hs => ?_, fun b t hs => ?_⟩, fun m p b t h => ⟨fun hb => ?_, fun hb => ?_⟩⟩
  · unfold splitFirstChar
    rw [((C175_split_first h).1 hs).1]
    rfl
  · unfold splitFirstChar
    rw [((C175_split_first h).2 b t hs).1]
    have := b.toNat_lt
    simp only [Option.bind_eq_bind, Option.bind_some, fromU32]
    rw [if_pos (.inl (by omega))]
    rfl
  · unfold splitFirstChar
    rw [((C175_split_first h).2 b t rfl).1]
    simp only [Option.bind_eq_bind, Option.bind_some, fromU32]
    rw [if_neg (by omega)]
    rfl
  · unfold splitFirstChar
    rw [((C175_split_first h).2 b t rfl).1]
    simp only [Option.bind_eq_bind, Option.bind_some, fromU32]
    rw [if_pos hb]
    rfl

/-- `a=b` and a NUL at the address 1; nothing else is mapped. -/
def sample : Mem UInt8 := fun a => if a = 0 then none else [0x61, 0x3D, 0x62, 0][a - 1]?

theorem sample_str : CStr sample 1 [0x61, 0x3D, 0x62] := ⟨⟨rfl, rfl, rfl, trivial⟩, rfl, by decide⟩

example : toChars sample 1 = some [0x61, 0x3D, 0x62] := (C175_to_chars sample_str).1
example : findGet sample 1 0x3D = some (some ([0x61], 2)) := ((C175_find sample_str 0x3D).2 [0x61] [0x62, 0] rfl (by decide)).2.1
example : findOrAll sample 1 0x25 = some (false, [0x61, 0x3D, 0x62], 4) := ((C175_find_or_all sample_str 0x25).1 (by decide)).1
example : fromWithNul ([] : List UInt8) = false ∧ fromWithNul ([0x61, 0, 0] : List UInt8) = false ∧ fromWithNul ([0x61, 0] : List UInt8) = true := by decide

end Verif.NulStr
