import Verif.Stdlib.EnvModel
import Verif.Stdlib.SortProps
import Verif.Str.StrCopyProps
/-!
# The environment is a map from names to values (C27)
-/

namespace Verif.Stdlib
open Verif.Mem Verif.Str

/-! ## Specification -/

/-- An entry of the environment: its address and its text. -/
abbrev Entry := Nat × List UInt8

/-- The value in a text `name=value`. -/
def valueOf : List UInt8 → List UInt8 → Option (List UInt8)
  | [], 61 :: v => some v
  | a :: n, b :: s => if a = b then valueOf n s else none
  | _, _ => none

/-- `valueOf` in words. -/
theorem valueOf_iff {n s v : List UInt8} : valueOf n s = some v ↔ s = n ++ 61 :: v := by
  induction n generalizing s with
  | nil =>
    unfold valueOf
    split
    · simp
    · rename_i h
      simp at h
    · rename_i h1 _
      simp only [List.nil_append, reduceCtorEq, false_iff]
      rintro rfl
      exact h1 v rfl rfl
  | cons a n ih =>
    cases s with
    | nil => simp [valueOf]
    | cons b s =>
      simp only [valueOf]
      split
      · rename_i h; subst h; simp [ih]
      · rename_i h
        simp only [reduceCtorEq, List.cons_append, List.cons.injEq, false_iff]
        exact fun x => h x.1.symm

/-- The value of a name: that of its first entry. -/
def lookup : List Entry → List UInt8 → Option (List UInt8)
  | [], _ => none
  | e :: es, n => (valueOf n e.2).or (lookup es n)

/-- The environment consists of the entries `es`: a NULL-terminated table of pointers to strings that do not overlap. -/
structure EnvOk (σ : EnvSt) (es : List Entry) : Prop where
  table : match σ.environ with
    | .null => es = []
    | .ours => σ.vec = es.map (·.1) ++ [0]
    | .other c => ∃ rest, c = es.map (·.1) ++ 0 :: rest
  nonnull : ∀ e ∈ es, e.1 ≠ 0
  str : ∀ e ∈ es, CStr σ.mem e.1 e.2
  sep : es.Pairwise fun a b => Disjoint a.1 (a.2.length + 1) b.1 (b.2.length + 1)

/-- No name has two entries. -/
def Unique (es : List Entry) : Prop :=
  es.Pairwise fun a b => ∀ n, 61 ∉ n → valueOf n a.2 = none ∨ valueOf n b.2 = none

/-- The block of `k` bytes at `p` overlaps no string of the environment. -/
def Apart (σ : EnvSt) (p k : Nat) : Prop :=
  ∀ q ∈ environIter σ, ∀ s, CStr σ.mem q s → Disjoint p k q (s.length + 1)

/-! ## Lemmas -/

theorem lookup_cases (es : List Entry) (n : List UInt8) :
    (lookup es n = none ∧ ∀ e ∈ es, valueOf n e.2 = none)
    ∨ ∃ pre e post v, es = pre ++ e :: post ∧ (∀ a ∈ pre, valueOf n a.2 = none) ∧ valueOf n e.2 = some v
        ∧ lookup es n = some v := by
  induction es with
  | nil => exact .inl ⟨rfl, by simp⟩
  | cons e es ih =>
    cases h : valueOf n e.2 with
    | some v => exact .inr ⟨[], e, es, v, rfl, by simp, h, by simp [lookup, h]⟩
    | none =>
      rcases ih with ⟨h1, h2⟩ | ⟨pre, e', post, v, rfl, h2, h3, h4⟩
      · exact .inl ⟨by simp [lookup, h, h1], by simpa [h] using h2⟩
      · exact .inr ⟨e :: pre, e', post, v, rfl, by simpa [h] using h2, h3, by simp [lookup, h, h4]⟩

theorem lookup_append (es fs : List Entry) (n : List UInt8) :
    lookup (es ++ fs) n = (lookup es n).or (lookup fs n) := by
  induction es with
  | nil => simp [lookup]
  | cons e es ih => simp [lookup, ih, Option.or_assoc]

theorem lookup_none {es : List Entry} {n : List UInt8} (h : ∀ e ∈ es, valueOf n e.2 = none) : lookup es n = none := by
  induction es with
  | nil => rfl
  | cons e es ih => simp [lookup, h e (by simp), ih fun a ha => h a (by simp [ha])]

theorem valueOf_same {n n' v : List UInt8} (h : 61 ∉ n) (h' : 61 ∉ n') (hne : n' ≠ n) :
    valueOf n' (n ++ 61 :: v) = none := by
  cases hv : valueOf n' (n ++ 61 :: v) with
  | none => rfl
  | some w =>
    exfalso
    have e := valueOf_iff.1 hv
    apply hne
    clear hv hne
    induction n generalizing n' with
    | nil =>
      cases n' with
      | nil => rfl
      | cons a n' => simp at e; exact absurd e.1 (by rintro rfl; simp at h')
    | cons a n ih =>
      cases n' with
      | nil => simp at e; exact absurd e.1 (by rintro rfl; simp at h)
      | cons b n' =>
        simp only [List.cons_append, List.cons.injEq] at e
        simp only [List.mem_cons, not_or] at h h'
        rw [e.1, ih h.2 h'.2 e.2]

theorem environIter_eq {σ : EnvSt} {es : List Entry} (h : EnvOk σ es) : environIter σ = es.map (·.1) := by
  have key : ∀ rest : List Nat, (es.map (·.1) ++ 0 :: rest).takeWhile (· ≠ 0) = es.map (·.1) := by
    intro rest
    have nn := h.nonnull
    clear h
    induction es with
    | nil => simp
    | cons e es ih =>
      have := nn e (by simp)
      simp only [List.map_cons, List.cons_append]
      rw [List.takeWhile_cons_of_pos (by simpa using this), ih fun a ha => nn a (by simp [ha])]
  have t := h.table
  unfold environIter EnvSt.cells
  cases he : σ.environ with
  | null => rw [he] at t; simp only at t ⊢; subst t; simp
  | ours => rw [he] at t; simp only at t ⊢; rw [t]; exact key []
  | other c => rw [he] at t; obtain ⟨r, t⟩ := t; simp only at t ⊢; rw [t]; exact key r

theorem matchItem_eq {m : Mem UInt8} (n s : List UInt8) (item search : Nat) {c : UInt8} (hi : CStr m item s)
    (hs : Bytes m search (n ++ [c])) (hc : c = 0 ∨ c = 61) (h0 : 0 ∉ n) (h1 : 61 ∉ n) :
    matchItem m item search = some ((valueOf n s).map fun _ => item + n.length + 1) := by
  induction n generalizing s item search with
  | nil =>
    have e : (c = 0 || c = 61) = true := by rcases hc with rfl | rfl <;> rfl
    rw [matchItem, hs.1]
    simp only [Option.bind_eq_bind, Option.bind_some, e, Bool.or_true, Bool.and_true]
    cases s with
    | nil => simp [hi.nul, valueOf]
    | cons b s =>
      have := hi.head
      simp only [this.1, Option.bind_some, if_neg this.2, if_true]
      by_cases hb : b = 61
      · subst hb; simp [valueOf]
      · simp only [decide_eq_true_eq, if_neg hb]
        rw [show valueOf [] (b :: s) = none by
          cases hv : valueOf [] (b :: s) with
          | none => rfl
          | some w => have := valueOf_iff.1 hv; simp at this; exact absurd this.1 hb]
        rfl
  | cons a n ih =>
    simp only [List.mem_cons, not_or] at h0 h1
    have e : (a = 0 || a = 61) = false := by
      simp only [Bool.or_eq_false_iff, decide_eq_false_iff_not]
      exact ⟨fun h => h0.1 h.symm, fun h => h1.1 h.symm⟩
    rw [matchItem, hs.1]
    simp only [Option.bind_eq_bind, Option.bind_some, e, Bool.or_false, Bool.and_false, Bool.false_eq_true, if_false]
    cases s with
    | nil => simp [hi.nul, valueOf]
    | cons b s =>
      have := hi.head
      simp only [this.1, Option.bind_some, if_neg this.2]
      by_cases hb : b = 61
      · subst hb
        have : a ≠ 61 := fun h => h1.1 h.symm
        simp [valueOf, this]
      · simp only [decide_eq_true_eq, if_neg hb, valueOf]
        by_cases hab : a = b
        · subst hab
          simp only [ne_eq, not_true_eq_false, if_false, if_true]
          rw [ih s (item + 1) (search + 1) hi.tail hs.2 h0.2 h1.2]
          simp only [List.length_cons, show item + 1 + n.length + 1 = item + (n.length + 1) + 1 by omega]
        · rw [if_pos (fun h => hab h.symm), if_neg hab]
          rfl

/-- A string searched for: a name, ended by NUL or by `=`. -/
def Query (m : Mem UInt8) (p : Nat) (n : List UInt8) : Prop :=
  ∃ c, Bytes m p (n ++ [c]) ∧ (c = 0 ∨ c = 61) ∧ 0 ∉ n ∧ 61 ∉ n

theorem findLoop_none {m : Mem UInt8} {p : Nat} {n : List UInt8} (hq : Query m p n) (es : List Entry) (i : Nat)
    (hs : ∀ e ∈ es, CStr m e.1 e.2) (h : ∀ e ∈ es, valueOf n e.2 = none) :
    findLoop m p (es.map (·.1)) i = some none := by
  obtain ⟨c, h1, h2, h3, h4⟩ := hq
  induction es generalizing i with
  | nil => rfl
  | cons e es ih =>
    simp only [List.map_cons, findLoop]
    rw [matchItem_eq n e.2 e.1 p (hs e (by simp)) h1 h2 h3 h4, h e (by simp)]
    simp only [Option.map_none, Option.bind_eq_bind, Option.bind_some]
    exact ih (i + 1) (fun a ha => hs a (by simp [ha])) (fun a ha => h a (by simp [ha]))

theorem findLoop_some {m : Mem UInt8} {p : Nat} {n : List UInt8} (hq : Query m p n) (pre post : List Entry) (e : Entry)
    (i : Nat) (hs : ∀ a ∈ pre ++ e :: post, CStr m a.1 a.2) (h : ∀ a ∈ pre, valueOf n a.2 = none) {v : List UInt8}
    (hv : valueOf n e.2 = some v) :
    findLoop m p ((pre ++ e :: post).map (·.1)) i = some (some (i + pre.length, e.1 + n.length + 1)) := by
  obtain ⟨c, h1, h2, h3, h4⟩ := hq
  induction pre generalizing i with
  | nil =>
    simp only [List.nil_append, List.map_cons, findLoop]
    rw [matchItem_eq n e.2 e.1 p (hs e (by simp)) h1 h2 h3 h4, hv]
    rfl
  | cons a pre ih =>
    simp only [List.cons_append, List.map_cons, findLoop]
    rw [matchItem_eq n a.2 a.1 p (hs a (by simp)) h1 h2 h3 h4, h a (by simp)]
    simp only [Option.map_none, Option.bind_eq_bind, Option.bind_some]
    rw [ih (i + 1) (fun a ha => hs a (by simp at ha ⊢; grind)) (fun a ha => h a (by simp [ha]))]
    simp only [List.length_cons, show i + 1 + pre.length = i + (pre.length + 1) by omega]

/-- What `find_env` finds. -/
theorem findEnv_cases {σ : EnvSt} {es : List Entry} (h : EnvOk σ es) {p : Nat} {n : List UInt8} (hq : Query σ.mem p n) :
    (findEnv σ p = some none ∧ lookup es n = none ∧ ∀ e ∈ es, valueOf n e.2 = none)
    ∨ ∃ pre e post v, es = pre ++ e :: post ∧ (∀ a ∈ pre, valueOf n a.2 = none) ∧ valueOf n e.2 = some v
        ∧ lookup es n = some v ∧ findEnv σ p = some (some (pre.length, e.1 + n.length + 1)) := by
  unfold findEnv
  rw [environIter_eq h]
  rcases lookup_cases es n with ⟨h1, h2⟩ | ⟨pre, e, post, v, rfl, h2, h3, h4⟩
  · exact .inl ⟨findLoop_none hq es 0 h.str h2, h1, h2⟩
  · refine .inr ⟨pre, e, post, v, rfl, h2, h3, h4, ?_⟩
    rw [findLoop_some hq pre post e 0 h.str h2 h3, Nat.zero_add]

theorem query_of_cstr {m : Mem UInt8} {p : Nat} {n : List UInt8} (h : CStr m p n) (hn : 61 ∉ n) : Query m p n :=
  ⟨0, h.bytes0, .inl rfl, (cstr_iff.1 h).2, hn⟩

theorem query_of_put {m : Mem UInt8} {p : Nat} {n v : List UInt8} (h : CStr m p (n ++ 61 :: v)) (hn : 61 ∉ n) :
    Query m p n := by
  refine ⟨61, ?_, .inr rfl, ?_, hn⟩
  · have := h.1
    rw [show n ++ 61 :: v = (n ++ [61]) ++ v by simp] at this
    exact (bytes_append.1 this).1
  · have := (cstr_iff.1 h).2
    simp only [List.mem_append, not_or] at this
    exact this.1

/-- Changing memory outside the entries. -/
theorem cstr_outside {m m' : Mem UInt8} {p k : Nat} {q : Nat} {s : List UInt8} (hs : CStr m q s)
    (d : Disjoint p k q (s.length + 1)) (h : ∀ a, ¬ (p ≤ a ∧ a < p + k) → m' a = m a) : CStr m' q s := by
  refine hs.congr ?_
  intro i hi hi'
  apply h
  unfold Disjoint at d
  omega

/-- Replacing one entry. -/
theorem envOk_replace {σ : EnvSt} {pre post : List Entry} {e e' : Entry} (h : EnvOk σ (pre ++ e :: post))
    (hn : e'.1 ≠ 0) {m' : Mem UInt8} (hs : ∀ a ∈ pre ++ e' :: post, CStr m' a.1 a.2)
    (hd : ∀ a ∈ pre ++ post, Disjoint e'.1 (e'.2.length + 1) a.1 (a.2.length + 1)) :
    EnvOk ({ σ with mem := m' }.setCell pre.length e'.1) (pre ++ e' :: post) := by
  have hset : ∀ rest : List Nat, (((pre ++ e :: post).map (·.1)) ++ rest).set pre.length e'.1
      = ((pre ++ e' :: post).map (·.1)) ++ rest := by
    intro rest
    simp
  refine ⟨?_, ?_, ?_, ?_⟩
  · have t := h.table
    unfold EnvSt.setCell
    cases he : σ.environ with
    | null => rw [he] at t; simp at t
    | ours => rw [he] at t; simp only at t ⊢; rw [t, hset]
    | other c =>
      rw [he] at t; obtain ⟨r, t⟩ := t
      exact ⟨r, by rw [t, hset]⟩
  · have := h.nonnull
    simp only [List.mem_append, List.mem_cons] at this ⊢
    rintro a (ha | rfl | ha)
    · exact this a (.inl ha)
    · exact hn
    · exact this a (.inr (.inr ha))
  · have hmem : ({ σ with mem := m' }.setCell pre.length e'.1).mem = m' := by
      unfold EnvSt.setCell
      cases σ.environ <;> rfl
    rw [hmem]
    exact hs
  · have := h.sep
    rw [List.pairwise_append, List.pairwise_cons] at this ⊢
    refine ⟨this.1, ⟨fun a ha => hd a (by simp [ha]), this.2.1.2⟩, ?_⟩
    intro a ha b hb
    simp only [List.mem_cons] at hb
    rcases hb with rfl | hb
    · have := hd a (by simp [ha])
      unfold Disjoint at this ⊢
      omega
    · exact this.2.2 a ha b (by simp [hb])

/-- Adding an entry. -/
theorem envOk_put {σ : EnvSt} {es : List Entry} {e : Entry} (h : EnvOk σ es) (hn : e.1 ≠ 0) {m' : Mem UInt8}
    (hs : ∀ a ∈ es ++ [e], CStr m' a.1 a.2) (hd : ∀ a ∈ es, Disjoint e.1 (e.2.length + 1) a.1 (a.2.length + 1)) :
    ∃ σ', putNewEnv { σ with mem := m' } e.1 = some σ' ∧ σ'.mem = m' ∧ EnvOk σ' (es ++ [e]) := by
  have t := h.table
  have nn : ∀ a ∈ es ++ [e], a.1 ≠ 0 := by
    simp only [List.mem_append, List.mem_cons, List.not_mem_nil, or_false]
    rintro a (ha | rfl)
    · exact h.nonnull a ha
    · exact hn
  have sep : (es ++ [e]).Pairwise fun a b => Disjoint a.1 (a.2.length + 1) b.1 (b.2.length + 1) := by
    rw [List.pairwise_append]
    refine ⟨h.sep, by simp, ?_⟩
    intro a ha b hb
    simp only [List.mem_cons, List.not_mem_nil, or_false] at hb
    subst hb
    have := hd a ha
    unfold Disjoint at this ⊢
    omega
  have other : σ.environ ≠ .ours → ∃ σ', putNewEnv { σ with mem := m' } e.1 = some σ' ∧ σ'.mem = m'
      ∧ EnvOk σ' (es ++ [e]) := by
    intro hne
    have it : environIter { σ with mem := m' } = es.map (·.1) := (environIter_eq h : environIter σ = _)
    refine ⟨{ mem := m', environ := .ours, vec := es.map (·.1) ++ [e.1] ++ [0] }, ?_, rfl, ?_, nn, hs, sep⟩
    · unfold putNewEnv
      rw [it]
      cases he : σ.environ with
      | null => rfl
      | ours => exact absurd he hne
      | other c => rfl
    · simp
  cases he : σ.environ with
  | null => rw [← he]; exact other (by simp [he])
  | other c => rw [← he]; exact other (by simp [he])
  | ours =>
    rw [he] at t
    simp only at t
    refine ⟨{ mem := m', environ := .ours, vec := es.map (·.1) ++ [e.1] ++ [0] }, ?_, rfl, ?_, nn, hs, sep⟩
    · unfold putNewEnv
      simp only [t]
      simp
    · simp

theorem copyKv_eq {m : Mem UInt8} {p key value : Nat} {n v : List UInt8} (hk : CStr m key n) (hv : CStr m value v)
    (hm : Mapped m p (n.length + 1 + v.length + 1))
    (dv : Disjoint p (n.length + 1 + v.length + 1) value (v.length + 1)) :
    copyKv m p key value n.length v.length = some (patch m p (n ++ 61 :: v ++ [0])) := by
  have w1 : writeN m p n = some (patch m p n) := writeN_eq (hm.mono (by omega))
  have s1 : store (patch m p n) (p + n.length) 61 = some (patch (patch m p n) (p + n.length) [61]) :=
    store_patch (isSome_patch (hm n.length (by omega))) 61
  rw [patch_append m p n [61]] at s1
  have r2 : readN (patch m p (n ++ [61])) value v.length = some v := by
    refine readN_of ?_ rfl
    refine hv.1.patch_disjoint ?_
    unfold Disjoint at dv ⊢
    simp only [List.length_append, List.length_singleton]
    omega
  have w2 : writeN (patch m p (n ++ [61])) (p + n.length + 1) v = some (patch m p (n ++ [61] ++ v)) := by
    rw [writeN_eq]
    · have := patch_append m p (n ++ [61]) v
      rw [List.length_append, List.length_singleton, ← Nat.add_assoc] at this
      rw [this]
    · apply mapped_patch
      intro i hi
      have := hm (n.length + 1 + i) (by omega)
      rw [show p + n.length + 1 + i = p + (n.length + 1 + i) by omega]
      exact this
  have s2 : store (patch m p (n ++ [61] ++ v)) (p + n.length + 1 + v.length) 0
      = some (patch m p (n ++ [61] ++ v ++ [0])) := by
    rw [store_patch]
    · have := patch_append m p (n ++ [61] ++ v) [0]
      rw [List.length_append, List.length_append, List.length_singleton, ← Nat.add_assoc, ← Nat.add_assoc] at this
      rw [this]
    · apply isSome_patch
      have := hm (n.length + 1 + v.length) (by omega)
      rw [show p + n.length + 1 + v.length = p + (n.length + 1 + v.length) by omega]
      exact this
  unfold copyKv
  simp only [hk.1.readN, Option.bind_eq_bind, Option.bind_some, w1, s1, r2, w2, s2]
  simp

theorem cstr_patch (m : Mem UInt8) (p : Nat) (s : List UInt8) (h : (0 : UInt8) ∉ s) : CStr (patch m p (s ++ [0])) p s :=
  cstr_iff.2 ⟨bytes_patch m p (s ++ [0]), h⟩

theorem zero_notMem {m : Mem UInt8} {p : Nat} {s : List UInt8} (h : CStr m p s) : (0 : UInt8) ∉ s := (cstr_iff.1 h).2

theorem zero_notMem_kv {n v : List UInt8} (h : (0 : UInt8) ∉ n) (h' : (0 : UInt8) ∉ v) :
    (0 : UInt8) ∉ n ++ 61 :: v := by
  simp only [List.mem_append, List.mem_cons, not_or]
  exact ⟨h, by decide, h'⟩

theorem lookup_replace {pre post : List Entry} {e e' : Entry} {n v w : List UInt8} (hn : 61 ∉ n)
    (hpre : ∀ a ∈ pre, valueOf n a.2 = none) (he : valueOf n e.2 = some w) (he' : e'.2 = n ++ 61 :: v) (k : List UInt8)
    (hk : 61 ∉ k) :
    lookup (pre ++ e' :: post) k = if k = n then some v else lookup (pre ++ e :: post) k := by
  rw [lookup_append, lookup_append]
  split
  · rename_i h
    subst h
    rw [lookup_none hpre]
    simp only [lookup, Option.none_or, valueOf_iff.2 he', Option.some_or]
  · rename_i h
    rw [valueOf_iff] at he
    simp only [lookup, he, he', valueOf_same hn hk h, Option.none_or]

theorem lookup_add {es : List Entry} {e' : Entry} {n v : List UInt8} (hn : 61 ∉ n)
    (hes : ∀ a ∈ es, valueOf n a.2 = none) (he' : e'.2 = n ++ 61 :: v) (k : List UInt8) (hk : 61 ∉ k) :
    lookup (es ++ [e']) k = if k = n then some v else lookup es k := by
  rw [lookup_append]
  split
  · rename_i h
    subst h
    rw [lookup_none hes]
    simp only [lookup, Option.none_or, valueOf_iff.2 he', Option.some_or]
  · rename_i h
    simp only [lookup, he', valueOf_same hn hk h, Option.or_none]

theorem unique_add {es : List Entry} {e' : Entry} {n v : List UInt8} (hu : Unique es) (hn : 61 ∉ n)
    (hes : ∀ a ∈ es, valueOf n a.2 = none) (he' : e'.2 = n ++ 61 :: v) : Unique (es ++ [e']) := by
  unfold Unique at hu ⊢
  rw [List.pairwise_append]
  refine ⟨hu, by simp, ?_⟩
  intro a ha b hb k hk
  simp only [List.mem_cons, List.not_mem_nil, or_false] at hb
  subst hb
  by_cases h : k = n
  · subst h; exact .inl (hes a ha)
  · exact .inr (by rw [he']; exact valueOf_same hn hk h)

theorem unique_replace {pre post : List Entry} {e e' : Entry} {n v w : List UInt8} (hu : Unique (pre ++ e :: post))
    (hn : 61 ∉ n) (he : valueOf n e.2 = some w) (he' : e'.2 = n ++ 61 :: v) : Unique (pre ++ e' :: post) := by
  unfold Unique at hu ⊢
  rw [List.pairwise_append, List.pairwise_cons] at hu ⊢
  obtain ⟨h1, ⟨h2, h3⟩, h4⟩ := hu
  have key : ∀ k, 61 ∉ k → valueOf k e'.2 = none ∨ valueOf k e'.2 ≠ none ∧ k = n := by
    intro k hk
    by_cases h : k = n
    · subst h; exact .inr ⟨by rw [valueOf_iff.2 he']; simp, rfl⟩
    · exact .inl (by rw [he']; exact valueOf_same hn hk h)
  refine ⟨h1, ⟨?_, h3⟩, ?_⟩
  · intro b hb k hk
    rcases key k hk with h | ⟨_, rfl⟩
    · exact .inl h
    · rcases h2 b hb k hk with h | h
      · rw [he] at h; simp at h
      · exact .inr h
  · intro a ha b hb k hk
    simp only [List.mem_cons] at hb
    rcases hb with rfl | hb
    · rcases key k hk with h | ⟨_, rfl⟩
      · exact .inr h
      · rcases h4 a ha e (by simp) k hk with h | h
        · exact .inl h
        · rw [he] at h; simp at h
    · exact h4 a ha b (by simp [hb]) k hk

theorem lookup_unset {pre post : List Entry} {e : Entry} {n w : List UInt8} (hn : 61 ∉ n)
    (he : valueOf n e.2 = some w) (k : List UInt8) (hk : 61 ∉ k) (hne : k ≠ n) : lookup (pre ++ post) k = lookup (pre ++ e :: post) k := by
  rw [lookup_append, lookup_append]
  rw [valueOf_iff] at he
  simp only [lookup, he, valueOf_same hn hk hne, Option.none_or]

theorem apart_mem {σ : EnvSt} {es : List Entry} (h : EnvOk σ es) {p k : Nat} (ha : Apart σ p k) :
    ∀ e ∈ es, Disjoint p k e.1 (e.2.length + 1) := by
  intro e he
  refine ha e.1 ?_ e.2 (h.str e he)
  rw [environIter_eq h]
  exact List.mem_map_of_mem he

/-! ## C27 -/

/-- C27, `getenv`: the value of the name, or NULL. -/
theorem C27_getenv {σ : EnvSt} {es : List Entry} (h : EnvOk σ es) {p : Nat} {n : List UInt8} (hp : CStr σ.mem p n)
    (hn : 61 ∉ n) :
    match lookup es n with
    | some v => ∃ q, getenv σ p = some q ∧ q ≠ 0 ∧ CStr σ.mem q v
    | none => getenv σ p = some 0 := by
  rcases findEnv_cases h (query_of_cstr hp hn) with ⟨h1, h2, -⟩ | ⟨pre, e, post, v, rfl, -, h3, h4, h5⟩
  · rw [h2]; simp [getenv, h1]
  · rw [h4]
    refine ⟨e.1 + n.length + 1, by simp [getenv, h5], by omega, ?_⟩
    have := h.str e (by simp)
    rw [valueOf_iff.1 h3, show n ++ 61 :: v = (n ++ [61]) ++ v by simp] at this
    simpa [Nat.add_assoc] using this.drop

/-- C27, `setenv`: given a fresh block from the allocator, the call succeeds, and afterwards the environment has
exactly the one name changed: to the value, unless the name was set and `overwrite` is 0. Memory outside the
environment and the new block is unchanged. -/
theorem C27_setenv {σ : EnvSt} {es : List Entry} (h : EnvOk σ es) {new key value : Nat} {n v : List UInt8}
    {overwrite : Int32} (hk : CStr σ.mem key n) (hv : CStr σ.mem value v) (hn : 61 ∉ n)
    -- the allocator's block
    (hnew : new ≠ 0) (hm : Mapped σ.mem new (n.length + 1 + v.length + 1))
    (hf : Apart σ new (n.length + 1 + v.length + 1))
    (hfv : Disjoint new (n.length + 1 + v.length + 1) value (v.length + 1))
    -- the value is not part of the entry it overwrites
    (hva : Apart σ value (v.length + 1)) :
    ∃ σ' es', setenv σ new key value overwrite = some (σ', 0) ∧ EnvOk σ' es' ∧ (Unique es → Unique es')
      ∧ (∀ k, 61 ∉ k → lookup es' k =
          if k = n then (if overwrite = 0 then (lookup es n).or (some v) else some v) else lookup es k)
      ∧ ∀ a, (∀ e ∈ es, ¬ (e.1 ≤ a ∧ a < e.1 + e.2.length + 1)) →
          ¬ (new ≤ a ∧ a < new + (n.length + 1 + v.length + 1)) → σ'.mem a = σ.mem a := by
  have z := zero_notMem_kv (zero_notMem hk) (zero_notMem hv)
  have hlen : (n ++ 61 :: v ++ [0]).length = n.length + 1 + v.length + 1 := by simp; omega
  have hckv := copyKv_eq hk hv hm hfv
  have fr := apart_mem h hf
  have hout : ∀ a, ¬ (new ≤ a ∧ a < new + (n.length + 1 + v.length + 1)) →
      patch σ.mem new (n ++ 61 :: v ++ [0]) a = σ.mem a := fun a ha => patch_out (by omega)
  have hframe : ∀ e ∈ es, CStr (patch σ.mem new (n ++ 61 :: v ++ [0])) e.1 e.2 := fun e he =>
    cstr_outside (h.str e he) (fr e he) hout
  have hnewstr : CStr (patch σ.mem new (n ++ 61 :: v ++ [0])) new (n ++ 61 :: v) := cstr_patch _ _ _ z
  have hd' : ∀ a ∈ es, Disjoint new ((n ++ 61 :: v).length + 1) a.1 (a.2.length + 1) := by
    intro a ha
    rw [show (n ++ 61 :: v).length + 1 = n.length + 1 + v.length + 1 by simp; omega]
    exact fr a ha
  unfold setenv
  simp only [strlen_eq hk, strlen_eq hv, Option.bind_eq_bind, Option.bind_some]
  rcases findEnv_cases h (query_of_cstr hk hn) with ⟨h1, h2, h3⟩ | ⟨pre, e, post, w, rfl, h2, h3, h4, h5⟩
  · -- a new name
    obtain ⟨σ', e1, e2, e3⟩ := envOk_put (e := (new, n ++ 61 :: v)) h hnew (m' := patch σ.mem new (n ++ 61 :: v ++ [0]))
      (by
        simp only [List.mem_append, List.mem_cons, List.not_mem_nil, or_false]
        rintro a (ha | rfl)
        · exact hframe a ha
        · exact hnewstr) hd'
    refine ⟨σ', es ++ [(new, n ++ 61 :: v)], ?_, e3, fun hu => unique_add hu hn h3 rfl, ?_, ?_⟩
    · simp only [h1, Option.bind_some, hckv, e1]
    · intro k hk'
      rw [lookup_add hn h3 rfl k hk', h2]
      simp
    · intro a _ ha
      rw [e2]; exact hout a ha
  · have hes := h.str e (by simp)
    have hw := valueOf_iff.1 h3
    simp only [h5, Option.bind_some]
    by_cases ho : overwrite = 0
    · rw [if_pos ho]
      refine ⟨σ, pre ++ e :: post, rfl, h, fun hu => hu, ?_, fun _ _ _ => rfl⟩
      intro k hk'
      split
      · rename_i hkn; subst hkn; simp [h4]
      · rfl
    · simp only [if_neg ho]
      have hex : CStr σ.mem (e.1 + n.length + 1) w := by
        have := hes
        rw [hw, show n ++ 61 :: w = (n ++ [61]) ++ w by simp] at this
        simpa [Nat.add_assoc] using this.drop
      simp only [strlen_eq hex, Option.bind_some]
      have hlk : ∀ e' : Entry, e'.2 = n ++ 61 :: v → ∀ k, 61 ∉ k → lookup (pre ++ e' :: post) k
          = if k = n then some v else lookup (pre ++ e :: post) k := fun e' he' k hk' =>
        lookup_replace hn h2 h3 he' k hk'
      by_cases hl : w.length ≥ v.length
      · -- in place
        rw [if_pos hl]
        have dv := apart_mem h hva e (by simp)
        have hel : e.2.length = n.length + 1 + w.length := by rw [hw]; simp; omega
        have hmap := hex.bytes0.mapped
        simp only [List.length_append, List.length_singleton] at hmap
        have w1 : writeN σ.mem (e.1 + n.length + 1) v = some (patch σ.mem (e.1 + n.length + 1) v) :=
          writeN_eq (hmap.mono (by omega))
        have s1 : store (patch σ.mem (e.1 + n.length + 1) v) (e.1 + n.length + 1 + v.length) 0
            = some (patch σ.mem (e.1 + n.length + 1) (v ++ [0])) := by
          rw [store_patch (isSome_patch (hmap v.length (by omega))) 0, patch_append]
        simp only [hv.1.readN, Option.bind_some, w1, s1]
        have hout' : ∀ a, ¬ (e.1 ≤ a ∧ a < e.1 + (e.2.length + 1)) →
            patch σ.mem (e.1 + n.length + 1) (v ++ [0]) a = σ.mem a := by
          intro a ha
          apply patch_out
          simp only [List.length_append, List.length_singleton]
          omega
        have hsep := h.sep
        rw [List.pairwise_append, List.pairwise_cons] at hsep
        have hdis : ∀ a ∈ pre ++ post, Disjoint e.1 (e.2.length + 1) a.1 (a.2.length + 1) := by
          intro a ha
          simp only [List.mem_append] at ha
          rcases ha with ha | ha
          · have := hsep.2.2 a ha e (by simp); unfold Disjoint at this ⊢; omega
          · exact hsep.2.1.1 a ha
        have hnw : CStr (patch σ.mem (e.1 + n.length + 1) (v ++ [0])) e.1 (n ++ 61 :: v) := by
          rw [cstr_iff]
          refine ⟨?_, z⟩
          rw [show n ++ 61 :: v ++ [0] = (n ++ [61]) ++ (v ++ [0]) by simp, bytes_append]
          constructor
          · have b := hes.1
            rw [hw, show n ++ 61 :: w = (n ++ [61]) ++ w by simp] at b
            refine (bytes_append.1 b).1.patch_disjoint ?_
            unfold Disjoint
            simp only [List.length_append, List.length_singleton]
            omega
          · have := bytes_patch σ.mem (e.1 + n.length + 1) (v ++ [0])
            simpa [Nat.add_assoc] using this
        have hstr : ∀ a ∈ pre ++ (e.1, n ++ 61 :: v) :: post,
            CStr (patch σ.mem (e.1 + n.length + 1) (v ++ [0])) a.1 a.2 := by
          intro a ha
          simp only [List.mem_append, List.mem_cons] at ha
          rcases ha with ha | rfl | ha
          · exact cstr_outside (h.str a (by simp [ha])) (hdis a (by simp [ha])) hout'
          · exact hnw
          · exact cstr_outside (h.str a (by simp [ha])) (hdis a (by simp [ha])) hout'
        have ok := envOk_replace (e' := (e.1, n ++ 61 :: v)) h (h.nonnull e (by simp)) hstr (by
          intro a ha
          have := hdis a ha
          unfold Disjoint at this ⊢
          simp only [List.length_append, List.length_cons]
          omega)
        have same : ({ σ with mem := patch σ.mem (e.1 + n.length + 1) (v ++ [0]) } : EnvSt).setCell pre.length e.1
            = { σ with mem := patch σ.mem (e.1 + n.length + 1) (v ++ [0]) } := by
          have t := h.table
          unfold EnvSt.setCell
          cases he : σ.environ with
          | null => rfl
          | ours =>
            rw [he] at t; simp only at t ⊢
            simp [t]
          | other c =>
            rw [he] at t; obtain ⟨r, t⟩ := t; simp only at t ⊢
            simp [t]
        rw [same] at ok
        refine ⟨_, _, rfl, ok, fun hu => unique_replace hu hn h3 rfl, ?_, ?_⟩
        · intro k hk'
          rw [hlk _ rfl k hk']
        · intro a ha _
          exact hout' a (by have := ha e (by simp); omega)
      · -- a new block
        rw [if_neg hl]
        simp only [hckv, Option.bind_some]
        have ok := envOk_replace (e' := (new, n ++ 61 :: v)) h hnew (m' := patch σ.mem new (n ++ 61 :: v ++ [0])) (by
            intro a ha
            simp only [List.mem_append, List.mem_cons] at ha
            rcases ha with ha | rfl | ha
            · exact hframe a (by simp [ha])
            · exact hnewstr
            · exact hframe a (by simp [ha])) (by
          intro a ha
          apply hd'
          simp only [List.mem_append, List.mem_cons] at ha ⊢
          grind)
        refine ⟨_, _, rfl, ok, fun hu => unique_replace hu hn h3 rfl, ?_, ?_⟩
        · intro k hk'
          rw [hlk _ rfl k hk']
        · intro a _ ha
          have : (({ σ with mem := patch σ.mem new (n ++ 61 :: v ++ [0]) } : EnvSt).setCell pre.length new).mem
              = patch σ.mem new (n ++ 61 :: v ++ [0]) := by
            unfold EnvSt.setCell
            cases σ.environ <;> rfl
          rw [this]; exact hout a ha

/-- C27, `putenv` of a text `name=value`: exactly the one name changes. No string is written. -/
theorem C27_putenv {σ : EnvSt} {es : List Entry} (h : EnvOk σ es) {p : Nat} {n v : List UInt8}
    (hp : CStr σ.mem p (n ++ 61 :: v)) (hn : 61 ∉ n) (hp0 : p ≠ 0)
    (hf : Apart σ p (n.length + 1 + v.length + 1)) :
    ∃ σ' es', putenv σ p = some (σ', 0) ∧ EnvOk σ' es' ∧ (Unique es → Unique es') ∧ σ'.mem = σ.mem
      ∧ ∀ k, 61 ∉ k → lookup es' k = if k = n then some v else lookup es k := by
  have hlen : (n ++ 61 :: v).length + 1 = n.length + 1 + v.length + 1 := by simp; omega
  have fr : ∀ a ∈ es, Disjoint p ((n ++ 61 :: v).length + 1) a.1 (a.2.length + 1) := by
    rw [hlen]; exact apart_mem h hf
  unfold putenv
  rw [if_neg hp0]
  rcases findEnv_cases h (query_of_put hp hn) with ⟨h1, h2, h3⟩ | ⟨pre, e, post, w, rfl, h2, h3, h4, h5⟩
  · obtain ⟨σ', e1, e2, e3⟩ := envOk_put (e := (p, n ++ 61 :: v)) h hp0 (m' := σ.mem) (by
      simp only [List.mem_append, List.mem_cons, List.not_mem_nil, or_false]
      rintro a (ha | rfl)
      · exact h.str a ha
      · exact hp) fr
    refine ⟨σ', es ++ [(p, n ++ 61 :: v)], ?_, e3, fun hu => unique_add hu hn h3 rfl, e2, ?_⟩
    · have e1 : putNewEnv σ p = some σ' := e1
      simp only [h1, Option.bind_eq_bind, Option.bind_some, e1]
    · intro k hk; exact lookup_add hn h3 rfl k hk
  · have ok := envOk_replace (e' := (p, n ++ 61 :: v)) h hp0 (m' := σ.mem) (by
        intro a ha
        simp only [List.mem_append, List.mem_cons] at ha
        rcases ha with ha | rfl | ha
        · exact h.str a (by simp [ha])
        · exact hp
        · exact h.str a (by simp [ha])) (by
      intro a ha
      apply fr
      simp only [List.mem_append, List.mem_cons] at ha ⊢
      grind)
    have ok : EnvOk (σ.setCell pre.length p) (pre ++ (p, n ++ 61 :: v) :: post) := ok
    refine ⟨σ.setCell pre.length p, _, ?_, ok, fun hu => unique_replace hu hn h3 rfl, ?_, ?_⟩
    · simp only [h5, Option.bind_eq_bind, Option.bind_some]
    · unfold EnvSt.setCell; cases σ.environ <;> rfl
    · intro k hk; exact lookup_replace hn h2 h3 rfl k hk

/-- C27, `unsetenv`: exactly the one name changes; it is unset, provided no name has two entries. No string is
written. -/
theorem C27_unsetenv {σ : EnvSt} {es : List Entry} (h : EnvOk σ es) {p : Nat} {n : List UInt8}
    (hp : CStr σ.mem p n) (hn : 61 ∉ n) :
    ∃ σ' es', unsetenv σ p = some (σ', 0) ∧ EnvOk σ' es' ∧ (Unique es → Unique es') ∧ σ'.mem = σ.mem
      ∧ (∀ k, 61 ∉ k → k ≠ n → lookup es' k = lookup es k) ∧ (Unique es → lookup es' n = none) := by
  unfold unsetenv
  rcases findEnv_cases h (query_of_cstr hp hn) with ⟨h1, h2, h3⟩ | ⟨pre, e, post, w, rfl, h2, h3, h4, h5⟩
  · exact ⟨σ, es, by simp [h1], h, fun hu => hu, rfl, fun _ _ _ => rfl, fun _ => h2⟩
  · have er : ∀ rest : List Nat, (((pre ++ e :: post).map (·.1)) ++ rest).eraseIdx pre.length
        = (pre ++ post).map (·.1) ++ rest := by
      intro rest
      simp only [List.map_append, List.map_cons, List.append_assoc, List.cons_append]
      rw [List.eraseIdx_append_of_length_le (by simp)]
      simp
    have er0 := er []
    simp only [List.append_nil] at er0
    have nn : ∀ a ∈ pre ++ post, a.1 ≠ 0 := fun a ha => h.nonnull a (by
      simp only [List.mem_append, List.mem_cons] at ha ⊢; grind)
    have hs : ∀ a ∈ pre ++ post, CStr σ.mem a.1 a.2 := fun a ha => h.str a (by
      simp only [List.mem_append, List.mem_cons] at ha ⊢; grind)
    have sub : List.Sublist (pre ++ post) (pre ++ e :: post) := (List.Sublist.refl pre).append (List.sublist_cons_self e post)
    have sep := h.sep.sublist sub
    have un : Unique (pre ++ e :: post) → Unique (pre ++ post) := fun hu => List.Pairwise.sublist sub hu
    have gone : Unique (pre ++ e :: post) → lookup (pre ++ post) n = none := by
      intro hu
      unfold Unique at hu
      rw [List.pairwise_append, List.pairwise_cons] at hu
      apply lookup_none
      intro a ha
      simp only [List.mem_append] at ha
      rcases ha with ha | ha
      · exact h2 a ha
      · rcases hu.2.1.1 a ha n hn with h | h
        · rw [h3] at h; simp at h
        · exact h
    simp only [h5, Option.bind_eq_bind, Option.bind_some]
    cases he : σ.environ with
    | ours =>
      have t := h.table
      rw [he] at t
      simp only at t
      refine ⟨_, pre ++ post, rfl, ⟨?_, nn, hs, sep⟩, un, rfl, fun k hk hne => lookup_unset hn h3 k hk hne, gone⟩
      simp only [t]
      exact er [0]
    | null =>
      have t := h.table
      rw [he] at t
      simp at t
    | other c =>
      refine ⟨_, pre ++ post, rfl, ⟨?_, nn, hs, sep⟩, un, rfl, fun k hk hne => lookup_unset hn h3 k hk hne, gone⟩
      simp only
      rw [environIter_eq h, er0]

/-! ### Histories -/

/-- An operation of the program. -/
inductive EnvOp where
  | set (name value : List UInt8) (overwrite : Bool)
  | put (name value : List UInt8)
  | unset (name : List UInt8)

/-- What an operation does to a map. -/
def EnvOp.apply (f : List UInt8 → Option (List UInt8)) : EnvOp → List UInt8 → Option (List UInt8)
  | .set n v o, k => if k = n then (if o then some v else (f n).or (some v)) else f k
  | .put n v, k => if k = n then some v else f k
  | .unset n, k => if k = n then none else f k

/-- A call of one of the three functions, with valid arguments. -/
inductive EnvStep (σ σ' : EnvSt) : EnvOp → Prop where
  | set {new key value : Nat} {n v : List UInt8} {o : Int32} (hk : CStr σ.mem key n) (hv : CStr σ.mem value v)
      (hn : 61 ∉ n) (hnew : new ≠ 0) (hm : Mapped σ.mem new (n.length + 1 + v.length + 1))
      (hf : Apart σ new (n.length + 1 + v.length + 1))
        (hfv : Disjoint new (n.length + 1 + v.length + 1) value (v.length + 1))
      (hva : Apart σ value (v.length + 1)) (hc : ∃ r, setenv σ new key value o = some (σ', r)) :
      EnvStep σ σ' (.set n v (o ≠ 0))
  | put {p : Nat} {n v : List UInt8} (hp : CStr σ.mem p (n ++ 61 :: v)) (hn : 61 ∉ n) (hp0 : p ≠ 0)
      (hf : Apart σ p (n.length + 1 + v.length + 1)) (hc : ∃ r, putenv σ p = some (σ', r)) : EnvStep σ σ' (.put n v)
  | unset {p : Nat} {n : List UInt8} (hp : CStr σ.mem p n) (hn : 61 ∉ n) (hc : ∃ r, unsetenv σ p = some (σ', r)) :
      EnvStep σ σ' (.unset n)

/-- A history of calls. Between calls the program may do anything to memory outside the environment's strings. -/
inductive EnvHist (σ : EnvSt) : List EnvOp → EnvSt → Prop where
  | nil : EnvHist σ [] σ
  | call {ops σ₁ σ₂ op} : EnvHist σ ops σ₁ → EnvStep σ₁ σ₂ op → EnvHist σ (ops ++ [op]) σ₂
  | other {ops σ₁ m} : EnvHist σ ops σ₁ → (∀ q ∈ environIter σ₁, ∀ s, CStr σ₁.mem q s → CStr m q s) →
      EnvHist σ ops { σ₁ with mem := m }

/-- C27: after every history of calls, `getenv` yields for every name the value that the history assigned to it,
starting from any initial environment in which no name has two entries. -/
theorem C27_history {σ₀ : EnvSt} {es₀ : List Entry} (h₀ : EnvOk σ₀ es₀) (hu : Unique es₀) {ops : List EnvOp} {σ : EnvSt}
    (hh : EnvHist σ₀ ops σ) {p : Nat} {n : List UInt8} (hp : CStr σ.mem p n) (hn : 61 ∉ n) :
    match ops.foldl EnvOp.apply (lookup es₀) n with
    | some v => ∃ q, getenv σ p = some q ∧ q ≠ 0 ∧ CStr σ.mem q v
    | none => getenv σ p = some 0 := by
  have main : ∃ es, EnvOk σ es ∧ Unique es ∧ ∀ k, 61 ∉ k → lookup es k = ops.foldl EnvOp.apply (lookup es₀) k := by
    clear hp hn n p
    induction hh with
    | nil => exact ⟨es₀, h₀, hu, fun _ _ => rfl⟩
    | call _ st ih =>
      obtain ⟨es, h1, h2, h3⟩ := ih
      cases st with
      | @set new key value n v o hk hv hn hnew hm hf hfv hva hc =>
        obtain ⟨σ', es', e1, e2, e3, e4, -⟩ := C27_setenv (overwrite := o) h1 hk hv hn hnew hm hf hfv hva
        obtain ⟨r, hc⟩ := hc
        rw [e1] at hc
        obtain ⟨rfl, -⟩ : σ' = _ ∧ (0 : Int) = r := by simpa using hc
        refine ⟨es', e2, e3 h2, fun k hk' => ?_⟩
        rw [e4 k hk', List.foldl_append, List.foldl_cons, List.foldl_nil]
        simp only [EnvOp.apply, ← h3 k hk', ← h3 n hn]
        by_cases ho : o = 0 <;> simp [ho]
      | @put p n v hp hn hp0 hf hc =>
        obtain ⟨σ', es', e1, e2, e3, -, e4⟩ := C27_putenv h1 hp hn hp0 hf
        obtain ⟨r, hc⟩ := hc
        rw [e1] at hc
        obtain ⟨rfl, -⟩ : σ' = _ ∧ (0 : Int) = r := by simpa using hc
        refine ⟨es', e2, e3 h2, fun k hk' => ?_⟩
        rw [e4 k hk', List.foldl_append, List.foldl_cons, List.foldl_nil]
        simp only [EnvOp.apply, ← h3 k hk']
      | @unset p n hp hn hc =>
        obtain ⟨σ', es', e1, e2, e3, -, e4, e5⟩ := C27_unsetenv h1 hp hn
        obtain ⟨r, hc⟩ := hc
        rw [e1] at hc
        obtain ⟨rfl, -⟩ : σ' = _ ∧ (0 : Int) = r := by simpa using hc
        refine ⟨es', e2, e3 h2, fun k hk' => ?_⟩
        rw [List.foldl_append, List.foldl_cons, List.foldl_nil]
        simp only [EnvOp.apply, ← h3 k hk']
        split
        · rename_i h; subst h; exact e5 h2
        · rename_i h; exact e4 k hk' h
    | other _ hm ih =>
      obtain ⟨es, h1, h2, h3⟩ := ih
      refine ⟨es, ⟨h1.table, h1.nonnull, ?_, h1.sep⟩, h2, h3⟩
      intro e he
      refine hm e.1 ?_ e.2 (h1.str e he)
      rw [environIter_eq h1]
      exact List.mem_map_of_mem he
  obtain ⟨es, h1, -, h3⟩ := main
  rw [← h3 n hn]
  exact C27_getenv h1 hp hn

/-! ### Examples and counterexamples -/

/-- `A=1` at 10, `A=2` at 20, the name `A` at 30. -/
def dupEnv : EnvSt where
  mem := fun a => if a = 10 then some 65 else if a = 11 then some 61 else if a = 12 then some 49 else if a = 13 then some 0
    else if a = 20 then some 65 else if a = 21 then some 61 else if a = 22 then some 50 else if a = 23 then some 0
    else if a = 30 then some 65 else if a = 31 then some 0 else none
  environ := .other [10, 20, 0]
  vec := []

theorem dupEnv_ok : EnvOk dupEnv [(10, [65, 61, 49]), (20, [65, 61, 50])] :=
  ⟨⟨[], rfl⟩, by decide, by
    intro e he
    simp only [List.mem_cons, List.not_mem_nil, or_false] at he
    rcases he with rfl | rfl
    · exact cstr_iff.2 ⟨⟨rfl, rfl, rfl, rfl, trivial⟩, by decide⟩
    · exact cstr_iff.2 ⟨⟨rfl, rfl, rfl, rfl, trivial⟩, by decide⟩, by simp [Disjoint]⟩

-- `getenv("A")` in this environment
example : ∃ q, getenv dupEnv 30 = some q ∧ q ≠ 0 ∧ CStr dupEnv.mem q [49] :=
  C27_getenv dupEnv_ok (n := [65]) (cstr_iff.2 ⟨⟨rfl, rfl, trivial⟩, by decide⟩) (by decide)

/-- No environment; the name `A` at 1, the value `x` at 3, a free block at 5. -/
def freshEnv : EnvSt := ⟨ofList 1 [65, 0, 120, 0, 7, 7, 7, 7], .null, []⟩

-- `setenv("A", "x", 1); getenv("A")`
example : ∃ σ', setenv freshEnv 5 1 3 1 = some (σ', 0) ∧ EnvHist freshEnv [.set [65] [120] true] σ'
    ∧ ∃ q, getenv σ' 1 = some q ∧ q ≠ 0 ∧ CStr σ'.mem q [120] := by
  have ok : EnvOk freshEnv [] := ⟨rfl, by simp, by simp, List.Pairwise.nil⟩
  have hk : CStr freshEnv.mem 1 [65] := cstr_iff.2 ⟨⟨rfl, rfl, trivial⟩, by decide⟩
  have hv : CStr freshEnv.mem 3 [120] := cstr_iff.2 ⟨⟨rfl, rfl, trivial⟩, by decide⟩
  have hm : Mapped freshEnv.mem 5 4 := by
    have h : Bytes freshEnv.mem 5 [7, 7, 7, 7] := ⟨rfl, rfl, rfl, rfl, trivial⟩
    exact h.mapped
  have ap : ∀ p k, Apart freshEnv p k := fun p k q hq => by simp [environIter_eq ok] at hq
  have dv : Disjoint 5 4 3 2 := by unfold Disjoint; omega
  obtain ⟨σ', es', h1, h2, h3, h4, h5⟩ := C27_setenv (overwrite := 1) ok hk hv (by decide) (by decide) hm (ap _ _) dv
    (ap _ _)
  have st : EnvHist freshEnv ([] ++ [.set [65] [120] true]) σ' :=
    .call .nil (.set (o := 1) hk hv (by decide) (by decide) hm (ap _ _) dv (ap _ _) ⟨0, h1⟩)
  have hk' : CStr σ'.mem 1 [65] := hk.congr fun i hi hi' => h5 i (by simp) (by simp at hi'; omega)
  exact ⟨σ', h1, st, C27_history ok List.Pairwise.nil st hk' (by decide)⟩

/-- C27 fails when the initial environment has a name twice: after `unsetenv("A")`, `getenv("A")` still finds a
value. -/
theorem C27_unsetenv_violation :
    ∃ σ', unsetenv dupEnv 30 = some (σ', 0) ∧ ∃ q, getenv σ' 30 = some q ∧ q ≠ 0 ∧ CStr σ'.mem q [50] := by
  have hp : CStr dupEnv.mem 30 [65] := cstr_iff.2 ⟨⟨rfl, rfl, trivial⟩, by decide⟩
  have hf : findEnv dupEnv 30 = some (some (0, 12)) := by
    have := findLoop_some (query_of_cstr hp (by decide)) [] [(20, [65, 61, 50])] (10, [65, 61, 49]) 0 dupEnv_ok.str
      (by simp) (v := [49]) (by decide)
    unfold findEnv
    rw [environIter_eq dupEnv_ok]
    exact this
  have ok : EnvOk { dupEnv with vec := [20, 0], environ := .ours } [(20, [65, 61, 50])] :=
    ⟨rfl, by decide, fun e he => dupEnv_ok.str e (by simp at he ⊢; exact .inr he), by simp⟩
  refine ⟨{ dupEnv with vec := [20, 0], environ := .ours }, ?_, C27_getenv ok (n := [65]) hp (by decide)⟩
  unfold unsetenv
  rw [hf]
  rfl

/-- `A=1` at 10, the key `A=B` at 20, the value `x` at 30, the name `A` at 40. -/
def eqEnv : EnvSt where
  mem := fun a => if a = 10 then some 65 else if a = 11 then some 61 else if a = 12 then some 49 else if a = 13 then some 0
    else if a = 20 then some 65 else if a = 21 then some 61 else if a = 22 then some 66 else if a = 23 then some 0
    else if a = 30 then some 120 else if a = 31 then some 0
    else if a = 40 then some 65 else if a = 41 then some 0 else none
  environ := .other [10, 0]
  vec := []

/-- `setenv` accepts a name with `=` in it (POSIX: `EINVAL`): `setenv("A=B", "x", 1)` succeeds, and changes `A`. -/
theorem C27_setenv_equals_violation :
    ∃ σ', setenv eqEnv 50 20 30 1 = some (σ', 0) ∧ ∃ q, getenv σ' 40 = some q ∧ q ≠ 0 ∧ CStr σ'.mem q [120] := by
  have hk : CStr eqEnv.mem 20 ([65] ++ 61 :: [66]) := cstr_iff.2 ⟨⟨rfl, rfl, rfl, rfl, trivial⟩, by decide⟩
  have hv : CStr eqEnv.mem 30 [120] := cstr_iff.2 ⟨⟨rfl, rfl, trivial⟩, by decide⟩
  have he : CStr eqEnv.mem 12 [49] := cstr_iff.2 ⟨⟨rfl, rfl, trivial⟩, by decide⟩
  have ok : EnvOk eqEnv [(10, [65, 61, 49])] :=
    ⟨⟨[], rfl⟩, by decide, by
      intro e he
      simp only [List.mem_cons, List.not_mem_nil, or_false] at he
      subst he
      exact cstr_iff.2 ⟨⟨rfl, rfl, rfl, rfl, trivial⟩, by decide⟩, by simp⟩
  have hf : findEnv eqEnv 20 = some (some (0, 12)) := by
    have := findLoop_some (query_of_put hk (by decide)) [] [] (10, [65, 61, 49]) 0 ok.str
      (by simp) (v := [49]) (by decide)
    unfold findEnv
    rw [environIter_eq ok]
    exact this
  have w1 : writeN eqEnv.mem 12 [120] = some (patch eqEnv.mem 12 [120]) :=
    writeN_eq (m := eqEnv.mem) (p := 12) (l := [120]) fun i hi => by
      obtain rfl : i = 0 := by simp at hi; omega
      rfl
  have s1 : store (patch eqEnv.mem 12 [120]) (12 + 1) 0 = some (patch eqEnv.mem 12 [120, 0]) := by
    rw [store_patch (isSome_patch rfl)]
    exact congrArg some (patch_append eqEnv.mem 12 [120] [0])
  have ok' : EnvOk { eqEnv with mem := patch eqEnv.mem 12 [120, 0] } [(10, [65, 61, 120])] :=
    ⟨⟨[], rfl⟩, by decide, by
      intro e he
      simp only [List.mem_cons, List.not_mem_nil, or_false] at he
      subst he
      exact cstr_iff.2 ⟨⟨rfl, rfl, rfl, rfl, trivial⟩, by decide⟩, by simp⟩
  refine ⟨{ eqEnv with mem := patch eqEnv.mem 12 [120, 0] }, ?_,
    C27_getenv ok' (n := [65]) (cstr_iff.2 ⟨⟨rfl, rfl, trivial⟩, by decide⟩) (by decide)⟩
  unfold setenv
  simp only [strlen_eq hk, strlen_eq hv, strlen_eq he, hf, Option.bind_eq_bind, Option.bind_some]
  rw [if_neg (by decide), if_pos (by decide)]
  have r1 : readN eqEnv.mem 30 ([120] : List UInt8).length = some [120] := hv.1.readN
  rw [r1]
  simp only [Option.bind_some, w1, List.length_singleton, s1]

end Verif.Stdlib
