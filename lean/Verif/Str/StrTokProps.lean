import Verif.Str.StrLemmas

/-!
# C21: spans and tokens
-/

namespace Verif.Str

open Verif.Mem

/-! ## Specification -/

/-- `a` is the longest prefix of `s` whose elements satisfy `P`; `b` is the rest. -/
def LongestPrefix {α : Type} (P : α → Prop) (s a b : List α) : Prop :=
  s = a ++ b ∧ (∀ x ∈ a, P x) ∧ ∀ x, b.head? = some x → ¬ P x

/-- `ts` are the maximal non-empty runs of non-separators of `s`, in order: skip separators, then take a non-empty run
of non-separators that ends at the end of the string or before a separator, and so on. -/
inductive Tokens {α : Type} (sep : List α) : List α → List (List α) → Prop
  | done {s} : (∀ x ∈ s, x ∈ sep) → Tokens sep s []
  | token {d t r ts} : (∀ x ∈ d, x ∈ sep) → t ≠ [] → (∀ x ∈ t, x ∉ sep) → (∀ x, r.head? = some x → x ∈ sep) →
      Tokens sep r ts → Tokens sep (d ++ t ++ r) (t :: ts)

/-- `fs` are the pieces of `s` between separators, empty ones included. -/
inductive Fields (sep : List UInt8) : List UInt8 → List (List UInt8) → Prop
  | last {s} : (∀ x ∈ s, x ∉ sep) → Fields sep s [s]
  | field {f c r fs} : (∀ x ∈ f, x ∉ sep) → c ∈ sep → Fields sep r fs → Fields sep (f ++ c :: r) (f :: fs)

/-- A program that calls `strtok_r` first with `s` and then with NULL until it gets NULL; `ps` are the pointers it
gets, `m'` is memory at the end. -/
inductive StrtokRun (q : Nat) : Mem UInt8 → Option Nat → Option Nat → List Nat → Mem UInt8 → Prop
  | stop {m s lasts m' l} : strtokR m s q lasts = some (m', l, none) → StrtokRun q m s lasts [] m'
  | more {m s lasts m₁ l p ps m'} : strtokR m s q lasts = some (m₁, l, some p) → StrtokRun q m₁ none l ps m' →
      StrtokRun q m s lasts (p :: ps) m'

/-- A program that calls `strsep` until it gets NULL. -/
inductive StrsepRun (q : Nat) : Mem UInt8 → Option Nat → List Nat → Mem UInt8 → Prop
  | stop {m str m' str'} : strsep m str q = some (m', str', none) → StrsepRun q m str [] m'
  | more {m str m₁ str' p ps m'} : strsep m str q = some (m₁, str', some p) → StrsepRun q m₁ str' ps m' →
      StrsepRun q m str (p :: ps) m'

/-- Each pointer designates the corresponding string. -/
def AllStr {α : Type} [OfNat α 0] (m : Mem α) : List Nat → List (List α) → Prop
  | [], [] => True
  | p :: ps, t :: ts => CStr m p t ∧ AllStr m ps ts
  | _, _ => False

/-! ## Spans -/

theorem spanSet_eq (m : Mem UInt8) (sep : List UInt8) : ∀ q acc, CStr m q sep →
    ∃ set, spanSet m q acc = some set ∧ ∀ x, x ∈ set ↔ x ∈ sep ∨ x ∈ acc := by
  induction sep with
  | nil => intro q acc h; rw [spanSet, h.nul]; exact ⟨acc, by simp, by simp⟩
  | cons b sep ih =>
    intro q acc h
    rw [spanSet, h.head.1]
    simp only [Option.bind_eq_bind, Option.bind_some, if_neg h.head.2]
    obtain ⟨set, h1, h2⟩ := ih (q + 1) (b :: acc) h.tail
    refine ⟨set, h1, fun x => ?_⟩
    rw [h2]
    simp only [List.mem_cons]
    constructor
    · rintro (h | h | h) <;> simp [h]
    · rintro ((h | h) | h) <;> simp [h]

theorem spanLoop_eq (m : Mem UInt8) (set : List UInt8) (cmp : Bool) (s : List UInt8) : ∀ p i, CStr m p s →
    ∃ a b, LongestPrefix (fun x => set.contains x = cmp) s a b ∧ spanLoop m p set cmp i = some (i + a.length) := by
  induction s with
  | nil =>
    intro p i h
    rw [spanLoop, h.nul]
    exact ⟨[], [], by simp [LongestPrefix], by simp⟩
  | cons x s ih =>
    intro p i h
    rw [spanLoop, h.head.1]
    simp only [Option.bind_eq_bind, Option.bind_some, if_neg h.head.2]
    by_cases e : set.contains x = cmp
    · rw [if_neg (by simpa using e)]
      obtain ⟨a, b, ⟨h1, h2, h3⟩, h4⟩ := ih (p + 1) (i + 1) h.tail
      refine ⟨x :: a, b, ⟨by simp [h1], ?_, h3⟩, by rw [h4]; simp; omega⟩
      intro y hy
      rcases List.mem_cons.1 hy with rfl | hy
      · exact e
      · exact h2 y hy
    · rw [if_pos e]
      refine ⟨[], x :: s, ⟨rfl, by simp, ?_⟩, by simp⟩
      intro y hy
      simp at hy
      subst hy
      exact e

/-- **C21** (`strspn`). Length of the longest prefix made of bytes of the set. -/
theorem C21_strspn (m : Mem UInt8) (p q : Nat) (s sep : List UInt8) (hs : CStr m p s) (hq : CStr m q sep) :
    ∃ a b, LongestPrefix (· ∈ sep) s a b ∧ strspn m p q = some a.length := by
  obtain ⟨set, h1, h2⟩ := spanSet_eq m sep q [] hq
  obtain ⟨a, b, h3, h4⟩ := spanLoop_eq m set true s p 0 hs
  refine ⟨a, b, ?_, ?_⟩
  · obtain ⟨x, y, z⟩ := h3
    refine ⟨x, fun c hc => ?_, fun c hc => ?_⟩
    · have : set.contains c = true := y c hc
      rw [List.contains_iff_mem, h2] at this
      simpa using this
    · have : ¬ set.contains c = true := z c hc
      rw [List.contains_iff_mem, h2] at this
      simpa using this
  · simp [strspn, innerStrspn, h1, h4]

/-- **C21** (`strcspn`). Length of the longest prefix free of bytes of the set. -/
theorem C21_strcspn (m : Mem UInt8) (p q : Nat) (s sep : List UInt8) (hs : CStr m p s) (hq : CStr m q sep) :
    ∃ a b, LongestPrefix (· ∉ sep) s a b ∧ strcspn m p q = some a.length := by
  obtain ⟨set, h1, h2⟩ := spanSet_eq m sep q [] hq
  obtain ⟨a, b, h3, h4⟩ := spanLoop_eq m set false s p 0 hs
  refine ⟨a, b, ?_, ?_⟩
  · obtain ⟨x, y, z⟩ := h3
    have key : ∀ c, set.contains c = false ↔ c ∉ sep := by
      intro c
      rw [← Bool.not_eq_true, List.contains_iff_mem, h2]
      simp
    exact ⟨x, fun c hc => (key c).1 (y c hc), fun c hc => fun hn => z c hc ((key c).2 hn)⟩
  · simp [strcspn, innerStrspn, h1, h4]

/-- **C21** (`strpbrk`). Address of the first byte of the string that is in the set, NULL if there is none. -/
theorem C21_strpbrk (m : Mem UInt8) (p q : Nat) (s sep : List UInt8) (hs : CStr m p s) (hq : CStr m q sep) :
    (strpbrk m p q = some none ∧ ∀ x ∈ s, x ∉ sep) ∨
    ∃ a c b, s = a ++ c :: b ∧ (∀ x ∈ a, x ∉ sep) ∧ c ∈ sep ∧ strpbrk m p q = some (some (p + a.length)) := by
  obtain ⟨a, b, ⟨h1, h2, h3⟩, h4⟩ := C21_strcspn m p q s sep hs hq
  subst h1
  have hd := hs.drop
  unfold strpbrk
  rw [h4]
  simp only [Option.bind_eq_bind, Option.bind_some]
  cases b with
  | nil => left; rw [hd.nul]; exact ⟨by simp, by simpa using h2⟩
  | cons c b =>
    right
    refine ⟨a, c, b, rfl, h2, ?_, ?_⟩
    · exact Classical.not_not.1 (h3 c rfl)
    · rw [hd.head.1]; simp [hd.head.2]

/-! ## strtok_r -/

theorem Tokens.cons_sep {α : Type} {sep : List α} {c : α} {r : List α} {ts : List (List α)} (hc : c ∈ sep)
    (h : Tokens sep r ts) : Tokens sep (c :: r) ts := by
  cases h with
  | done h => exact .done (by simpa [hc] using h)
  | token h1 h2 h3 h4 h5 =>
    rename_i d t r ts
    have := Tokens.token (sep := sep) (d := c :: d) (by simpa [hc] using h1) h2 h3 h4 h5
    simpa using this

/-- One call of `strtok_r` on the rest `s` of the string. -/
theorem strtokFrom_eq (m : Mem UInt8) (h q : Nat) (s sep : List UInt8) (hs : CStr m h s) (hq : CStr m q sep) :
    ((∀ x ∈ s, x ∈ sep) ∧ ∃ l, strtokFrom m h q = some (m, l, none)) ∨
    ∃ d t r, s = d ++ t ++ r ∧ (∀ x ∈ d, x ∈ sep) ∧ t ≠ [] ∧ (∀ x ∈ t, x ∉ sep) ∧
      ((r = [] ∧ strtokFrom m h q = some (m, some (h + d.length + t.length), some (h + d.length))) ∨
       ∃ c r', r = c :: r' ∧ c ∈ sep ∧
        strtokFrom m h q = some (patch m (h + d.length + t.length) [0],
          some (h + d.length + t.length + 1), some (h + d.length))) := by
  obtain ⟨d, b, ⟨h1, h2, h3⟩, h4⟩ := C21_strspn m h q s sep hs hq
  subst h1
  have hd := hs.drop
  unfold strtokFrom
  rw [h4]
  simp only [Option.bind_eq_bind, Option.bind_some]
  cases b with
  | nil => left; rw [hd.nul]; exact ⟨by simpa using h2, some (h + d.length), by simp⟩
  | cons x b =>
    right
    rw [hd.head.1]
    simp only [Option.bind_some, if_neg hd.head.2]
    have hx : x ∉ sep := h3 x rfl
    rcases C21_strpbrk m (h + d.length) q (x :: b) sep hd hq with ⟨e1, e2⟩ | ⟨t, c, r, e1, e2, e3, e4⟩
    · refine ⟨d, x :: b, [], by simp, h2, by simp, e2, Or.inl ⟨rfl, ?_⟩⟩
      rw [e1]
      simp only [Option.bind_some]
      rw [strlen_eq hd]
      rfl
    · have ht : t ≠ [] := by
        rintro rfl
        simp only [List.nil_append, List.cons.injEq] at e1
        exact hx (e1.1 ▸ e3)
      refine ⟨d, t, c :: r, by rw [e1]; simp, h2, ht, e2, Or.inr ⟨c, r, rfl, e3, ?_⟩⟩
      rw [e4]
      simp only [Option.bind_some]
      have : (m (h + d.length + t.length)).isSome := by
        rw [e1] at hd
        rw [hd.drop.head.1]; rfl
      rw [store_patch this]
      rfl

theorem strtok_run (q : Nat) (sep : List UInt8) (n : Nat) : ∀ (m : Mem UInt8) (h : Nat) (s : List UInt8),
    s.length ≤ n → CStr m h s → CStr m q sep → Disjoint h s.length q (sep.length + 1) →
    ∀ a b, strtokR m a q b = strtokFrom m h q →
    ∃ ts ps m', Tokens sep s ts ∧ StrtokRun q m a b ps m' ∧ AllStr m' ps ts ∧
      ∀ x, (x < h ∨ h + s.length ≤ x) → m' x = m x := by
  induction n with
  | zero =>
    intro m h s hn hs hq hd a b hab
    have : s = [] := List.length_eq_zero_iff.1 (by omega)
    subst this
    rcases strtokFrom_eq m h q [] sep hs hq with ⟨-, l, h2⟩ | ⟨d, t, r, h1, -, h2, -⟩
    · exact ⟨[], [], m, .done (by simp), .stop (by rw [hab, h2]), trivial, fun _ _ => rfl⟩
    · simp at h1; exact absurd h1.2.1 h2
  | succ n ih =>
    intro m h s hn hs hq hd a b hab
    rcases strtokFrom_eq m h q s sep hs hq with ⟨h1, l, h2⟩ | ⟨d, t, r, h1, h2, h3, h4, h5⟩
    · exact ⟨[], [], m, .done h1, .stop (by rw [hab, h2]), trivial, fun _ _ => rfl⟩
    · have ht : 0 < t.length := List.length_pos_iff.2 h3
      subst h1
      simp only [List.length_append] at hn hd
      have hdt : CStr m (h + d.length) (t ++ r) := by rw [List.append_assoc] at hs; exact hs.drop
      rcases h5 with ⟨rfl, h5⟩ | ⟨c, r', rfl, hc, h5⟩
      · simp only [List.append_nil] at hdt
        have hend : CStr m (h + d.length + t.length) [] := by
          have := hdt; rw [← List.append_nil t] at this; exact this.drop
        obtain ⟨ts, ps, m', k1, k2, k3, k4⟩ := ih m (h + d.length + t.length) [] (by simp) hend hq
          (by unfold Disjoint at *; simp only [List.length_nil] at *; omega) none
          (some (h + d.length + t.length)) rfl
        refine ⟨t :: ts, (h + d.length) :: ps, m', ?_, .more (by rw [hab, h5]) k2, ?_, ?_⟩
        · exact .token h2 h3 h4 (by simp) k1
        · refine ⟨hdt.congr (fun a x y => k4 a ?_), k3⟩
          simp only [List.length_nil]
          omega
        · intro x hx
          apply k4
          simp only [List.length_nil]
          omega
      · simp only [List.length_cons] at hn hd
        have hdr := hdt.drop
        have hq' : CStr (patch m (h + d.length + t.length) [0]) q sep := by
          refine hq.congr (fun a x y => patch_out ?_)
          unfold Disjoint at hd
          simp only [List.length_singleton]
          omega
        have hr' : CStr (patch m (h + d.length + t.length) [0]) (h + d.length + t.length + 1) r' := by
          refine hdr.tail.congr (fun a x y => patch_out ?_)
          simp only [List.length_singleton]
          omega
        have htok : CStr (patch m (h + d.length + t.length) [0]) (h + d.length) t := by
          refine ⟨(bytes_append.1 hdt.1).1.congr (fun a x y => patch_out (by omega)), ?_, ?_⟩
          · simp [patch]
          · exact fun h0 => hdt.2.2 (List.mem_append_left _ h0)
        obtain ⟨ts, ps, m', k1, k2, k3, k4⟩ := ih _ (h + d.length + t.length + 1) r' (by omega) hr' hq'
          (by unfold Disjoint at *; omega) none (some (h + d.length + t.length + 1)) rfl
        refine ⟨t :: ts, (h + d.length) :: ps, m', ?_, .more (by rw [hab, h5]) k2, ?_, ?_⟩
        · refine .token h2 h3 h4 ?_ (k1.cons_sep hc)
          intro x hx
          simp at hx
          subst hx
          exact hc
        · refine ⟨htok.congr (fun a x y => k4 a ?_), k3⟩
          omega
        · intro x hx
          simp only [List.length_append, List.length_cons] at hx
          rw [k4 x (by omega)]
          apply patch_out
          simp only [List.length_singleton]
          omega

/-- **C21** (`strtok_r`, `strtok`). Calling it repeatedly yields exactly the tokens of the string, in order, each
NUL-terminated; the memory outside the string is unchanged. -/
theorem C21_strtok (m : Mem UInt8) (p q : Nat) (s sep : List UInt8) (lasts : Option Nat) (hs : CStr m p s)
    (hq : CStr m q sep) (hd : Disjoint p s.length q (sep.length + 1)) :
    ∃ ts ps m', Tokens sep s ts ∧ StrtokRun q m (some p) lasts ps m' ∧ AllStr m' ps ts ∧
      ∀ x, (x < p ∨ p + s.length ≤ x) → m' x = m x :=
  strtok_run q sep s.length m p s (by omega) hs hq hd (some p) lasts rfl

/-- **C21**: a run is determined by its start, so the run above is the only one. -/
theorem C21_strtok_run_unique (q : Nat) {m : Mem UInt8} {a b : Option Nat} {ps ps' : List Nat} {m₁ m₂ : Mem UInt8}
    (h : StrtokRun q m a b ps m₁) (h' : StrtokRun q m a b ps' m₂) : ps = ps' ∧ m₁ = m₂ := by
  induction h generalizing ps' m₂ with
  | stop e =>
    cases h' with
    | stop e' => rw [e] at e'; simp at e'; exact ⟨rfl, e'.1⟩
    | more e' _ => rw [e] at e'; simp at e'
  | more e _ ih =>
    cases h' with
    | stop e' => rw [e] at e'; simp at e'
    | more e' r =>
      rw [e] at e'
      simp only [Option.some.injEq, Prod.mk.injEq] at e'
      obtain ⟨rfl, rfl, rfl⟩ := e'
      obtain ⟨x, y⟩ := ih r
      exact ⟨by rw [x], y⟩

/-! ## strsep -/

theorem strsep_run (q : Nat) (sep : List UInt8) (n : Nat) : ∀ (m : Mem UInt8) (h : Nat) (s : List UInt8),
    s.length ≤ n → CStr m h s → CStr m q sep → Disjoint h s.length q (sep.length + 1) →
    ∃ fs ps m', Fields sep s fs ∧ StrsepRun q m (some h) ps m' ∧ AllStr m' ps fs ∧
      ∀ x, (x < h ∨ h + s.length ≤ x) → m' x = m x := by
  induction n with
  | zero =>
    intro m h s hn hs hq hd
    have : s = [] := List.length_eq_zero_iff.1 (by omega)
    subst this
    obtain ⟨a, b, ⟨h1, -, -⟩, h4⟩ := C21_strcspn m h q [] sep hs hq
    have ha : a = [] := by simp at h1; exact h1.1
    subst ha
    have e : strsep m (some h) q = some (m, none, some h) := by
      simp [strsep, h4, hs.nul]
    exact ⟨[[]], [h], m, .last (by simp), .more e (.stop (str' := none) (by simp [strsep])), ⟨hs, trivial⟩, fun _ _ => rfl⟩
  | succ n ih =>
    intro m h s hn hs hq hd
    obtain ⟨f, b, ⟨h1, h2, h3⟩, h4⟩ := C21_strcspn m h q s sep hs hq
    subst h1
    have hdr := hs.drop
    cases b with
    | nil =>
      have e : strsep m (some h) q = some (m, none, some h) := by
        simp [strsep, h4, hdr.nul]
      simp only [List.append_nil] at *
      exact ⟨[f], [h], m, .last h2, .more e (.stop (str' := none) (by simp [strsep])), ⟨hs, trivial⟩, fun _ _ => rfl⟩
    | cons c r =>
      simp only [List.length_append, List.length_cons] at hn hd
      have hc : c ∈ sep := Classical.not_not.1 (h3 c rfl)
      have e : strsep m (some h) q = some (patch m (h + f.length) [0], some (h + f.length + 1), some h) := by
        simp only [strsep, h4, Option.bind_eq_bind, Option.bind_some, hdr.head.1]
        rw [if_pos hdr.head.2, store_patch (by rw [hdr.head.1]; rfl)]
        rfl
      have hq' : CStr (patch m (h + f.length) [0]) q sep := by
        refine hq.congr (fun a x y => patch_out ?_)
        unfold Disjoint at hd
        simp only [List.length_singleton]
        omega
      have hr' : CStr (patch m (h + f.length) [0]) (h + f.length + 1) r := by
        refine hdr.tail.congr (fun a x y => patch_out ?_)
        simp only [List.length_singleton]
        omega
      have htok : CStr (patch m (h + f.length) [0]) h f := by
        refine ⟨(bytes_append.1 hs.1).1.congr (fun a x y => patch_out (by omega)), ?_, ?_⟩
        · simp [patch]
        · exact fun h0 => hs.2.2 (List.mem_append_left _ h0)
      obtain ⟨fs, ps, m', k1, k2, k3, k4⟩ := ih _ (h + f.length + 1) r (by omega) hr' hq'
        (by unfold Disjoint at *; omega)
      refine ⟨f :: fs, h :: ps, m', .field h2 hc k1, .more e k2, ⟨htok.congr (fun a x y => k4 a ?_), k3⟩, ?_⟩
      · omega
      · intro x hx
        simp only [List.length_append, List.length_cons] at hx
        rw [k4 x (by omega)]
        apply patch_out
        simp only [List.length_singleton]
        omega

/-- **C21** (`strsep`). Calling it until `*str` is NULL yields all fields, empty ones included. -/
theorem C21_strsep (m : Mem UInt8) (p q : Nat) (s sep : List UInt8) (hs : CStr m p s)
    (hq : CStr m q sep) (hd : Disjoint p s.length q (sep.length + 1)) :
    ∃ fs ps m', Fields sep s fs ∧ StrsepRun q m (some p) ps m' ∧ AllStr m' ps fs ∧
      ∀ x, (x < p ∨ p + s.length ≤ x) → m' x = m x :=
  strsep_run q sep s.length m p s (by omega) hs hq hd

/-! ## The specifications determine the tokens -/

theorem append_split_unique {α : Type} {P : α → Prop} : ∀ {a b a' b' : List α}, a ++ b = a' ++ b' → (∀ x ∈ a, P x) →
    (∀ x ∈ a', P x) → (∀ x, b.head? = some x → ¬ P x) → (∀ x, b'.head? = some x → ¬ P x) → a = a' ∧ b = b'
  | [], b, [], b', h, _, _, _, _ => ⟨rfl, by simpa using h⟩
  | [], b, x :: a', b', h, _, h2, h3, _ => by
    simp at h
    exact absurd (h2 x (by simp)) (h3 x (by rw [h]; rfl))
  | x :: a, b, [], b', h, h1, _, _, h4 => by
    simp at h
    exact absurd (h1 x (by simp)) (h4 x (by rw [← h]; rfl))
  | x :: a, b, y :: a', b', h, h1, h2, h3, h4 => by
    simp only [List.cons_append, List.cons.injEq] at h
    obtain ⟨i, j⟩ := append_split_unique h.2 (fun z hz => h1 z (by simp [hz])) (fun z hz => h2 z (by simp [hz])) h3 h4
    exact ⟨by rw [h.1, i], j⟩

/-- **C21**: a string has only one list of tokens. -/
theorem C21_tokens_unique {α : Type} (sep : List α) {s : List α} {ts ts' : List (List α)} (h : Tokens sep s ts)
    (h' : Tokens sep s ts') : ts = ts' := by
  induction h generalizing ts' with
  | done h =>
    cases h' with
    | done => rfl
    | @token d t r ts k1 k2 k3 k4 k5 =>
      obtain ⟨x, hx⟩ := List.exists_mem_of_ne_nil t k2
      exact absurd (h x (by simp [hx])) (k3 x hx)
  | @token d t r ts h1 h2 h3 h4 h5 ih =>
    generalize e : d ++ t ++ r = s at h'
    cases h' with
    | done k =>
      subst e
      obtain ⟨x, hx⟩ := List.exists_mem_of_ne_nil t h2
      exact absurd (k x (by simp [hx])) (h3 x hx)
    | @token d' t' r' ts' k1 k2 k3 k4 k5 =>
      have hh : ∀ (t r : List α), t ≠ [] → (∀ x ∈ t, x ∉ sep) → ∀ x, (t ++ r).head? = some x → ¬ x ∈ sep := by
        intro t r ht h x hx
        cases t with
        | nil => exact absurd rfl ht
        | cons y t => simp at hx; subst hx; exact h y (by simp)
      rw [List.append_assoc, List.append_assoc] at e
      obtain ⟨-, e2⟩ := append_split_unique (P := (· ∈ sep)) e h1 k1 (hh t r h2 h3) (hh t' r' k2 k3)
      obtain ⟨e3, e4⟩ := append_split_unique (P := (· ∉ sep)) e2 h3 k3 (fun x hx hn => hn (h4 x hx))
        (fun x hx hn => hn (k4 x hx))
      subst e3 e4
      rw [ih k5]

/-- **C21**: a string has only one list of fields. -/
theorem C21_fields_unique (sep : List UInt8) {s : List UInt8} {fs fs' : List (List UInt8)} (h : Fields sep s fs)
    (h' : Fields sep s fs') : fs = fs' := by
  induction h generalizing fs' with
  | last h =>
    cases h' with
    | last => rfl
    | field k1 k2 => exact absurd k2 (h _ (by simp))
  | @field f c r fs h1 h2 h3 ih =>
    generalize e : f ++ c :: r = s at h'
    cases h' with
    | last k => subst e; exact absurd h2 (k _ (by simp))
    | @field f' c' r' fs' k1 k2 k3 =>
      obtain ⟨e1, e2⟩ := append_split_unique (P := (· ∉ sep)) e h1 k1
        (by intro x hx; simp at hx; subst hx; exact fun hn => hn h2)
        (by intro x hx; simp at hx; subst hx; exact fun hn => hn k2)
      simp only [List.cons.injEq] at e2
      obtain ⟨-, rfl⟩ := e2
      rw [e1, ih k3]

/-! ## Cases meeting the hypotheses -/

/-- ",a,,b" with separators ",": tokens "a","b"; fields "","a","","b". -/
example : Tokens [44] [44, 97, 44, 44, 98] [[97], [98]] ∧ Fields [44] [44, 97, 44, 44, 98] [[], [97], [], [98]] := by
  constructor
  · exact .token (d := [44]) (t := [97]) (r := [44, 44, 98]) (by simp) (by simp) (by simp) (by simp)
      (.token (d := [44, 44]) (t := [98]) (r := []) (by simp) (by simp) (by simp) (by simp) (.done (by simp)))
  · exact .field (f := []) (by simp) (by simp) (.field (f := [97]) (by simp) (by simp)
      (.field (f := []) (by simp) (by simp) (.last (by simp))))

example : ∃ m : Mem UInt8, CStr m 1 [44, 97, 44, 44, 98] ∧ CStr m 7 [44] ∧ Disjoint 1 5 7 2 :=
  ⟨ofList 1 [44, 97, 44, 44, 98, 0, 44, 0], by simp [CStr, Bytes, ofList], by simp [CStr, Bytes, ofList],
    by simp [Disjoint]⟩

end Verif.Str
