import Verif.Path.LibgenModel
import Verif.Str.StrLemmas
import Verif.Stdlib.StrtolProps
/-!
# `basename` and `dirname` (C43)
-/

namespace Verif.Path
open Verif.Mem Verif.Str

/-! ## Specification -/

/-- Only slashes. -/
def Slashes (l : List UInt8) : Prop := ∀ c ∈ l, c = 0x2F

/-- The path `s` is made of a directory part `d`, the slashes that separate it from the last component, the last
component `base`, and trailing slashes. -/
structure Split (s d seps base trail : List UInt8) : Prop where
  eq : s = d ++ seps ++ base ++ trail
  component : base ≠ [] ∧ 0x2F ∉ base
  seps_slash : Slashes seps
  trail_slash : Slashes trail
  dir : d ≠ [] → seps ≠ []
  dir_end : d.getLast? ≠ some 0x2F

/-- POSIX `basename`: `"."` for the empty string, `"/"` for a string of slashes, otherwise the last component. -/
def IsBasename (s b : List UInt8) : Prop :=
  (s = [] ∧ b = [0x2E]) ∨ (s ≠ [] ∧ Slashes s ∧ b = [0x2F]) ∨ ∃ d seps trail, Split s d seps b trail

/-- POSIX `dirname`: `"."` for the empty string or a path without a slash before its last component, `"/"` for a string
of slashes or a component directly under the root, otherwise everything before the slashes that precede the last
component. -/
def IsDirname (s r : List UInt8) : Prop :=
  (s = [] ∧ r = [0x2E]) ∨ (s ≠ [] ∧ Slashes s ∧ r = [0x2F])
  ∨ ∃ d seps base trail, Split s d seps base trail
      ∧ r = if seps = [] then [0x2E] else if d = [] then [0x2F] else d

/-- The returned pointer points to the string `b`. -/
def PointsTo (m : Mem UInt8) (r : Ret) (b : List UInt8) : Prop :=
  match r with
  | .static t => t = b
  | .ptr q => CStr m q b

/-- At most one byte of the argument was changed, into a NUL. -/
def AtMostOneNul (m m' : Mem UInt8) (path n : Nat) : Prop :=
  m' = m ∨ ∃ k, 0 < k ∧ k ≤ n ∧ m' = patch m (path + k) [0]

/-! ## Lemmas -/

/-- Induction on a list from the right. -/
theorem snocRec {α : Type} {P : List α → Prop} (nil : P []) (append : ∀ l c, P l → P (l ++ [c])) (l : List α) : P l := by
  have : ∀ r : List α, P r.reverse := by
    intro r
    induction r with
    | nil => exact nil
    | cons c r ih => rw [List.reverse_cons]; exact append _ _ ih
  simpa using this l.reverse

theorem bytes_snoc {m : Mem UInt8} {p : Nat} {l : List UInt8} {c : UInt8} (h : Bytes m p (l ++ [c])) :
    Bytes m p l ∧ m (p + l.length) = some c := ⟨(bytes_append.mp h).1, (bytes_append.mp h).2.1⟩

theorem last_append {a l : List UInt8} (h : l ≠ []) : (a ++ l).getLast? = l.getLast? := by
  rw [List.getLast?_append]
  cases e : l.getLast? with
  | none => exact absurd (List.getLast?_eq_none_iff.mp e) h
  | some c => rfl

theorem backWhile_eq {m : Mem UInt8} {path : Nat} {test : UInt8 → Bool} (a t : List UInt8)
    (hb : Bytes m path (a ++ t)) (ht : ∀ c ∈ t, test c = true) (ha : ∀ c, a.getLast? = some c → test c = false) :
    backWhile m path test (a.length + t.length) = some a.length := by
  induction t using snocRec with
  | nil =>
    rw [List.append_nil] at hb
    rw [List.length_nil, Nat.add_zero]
    rcases List.eq_nil_or_concat a with rfl | ⟨a', c, rfl⟩
    · rfl
    · have hc := ha c (by simp)
      rw [List.concat_eq_append] at hb ⊢
      rw [List.length_append, List.length_singleton, backWhile, (bytes_snoc hb).2]
      simp [hc]
  | append t c ih =>
    rw [← List.append_assoc] at hb
    have h := bytes_snoc hb
    rw [List.length_append] at h
    rw [List.length_append, List.length_singleton, ← Nat.add_assoc, backWhile, h.2]
    simp only [Option.bind_eq_bind, Option.bind_some, ht c (by simp), if_true]
    exact ih h.1 (fun c hc => ht c (by simp [hc]))

theorem backWhilePos_eq {m : Mem UInt8} {path : Nat} {test : UInt8 → Bool} (a t : List UInt8) (ha0 : a ≠ [])
    (hb : Bytes m path (a ++ t)) (ht : ∀ c ∈ t, test c = true) (ha : ∀ c, a.getLast? = some c → test c = false) :
    backWhilePos m path test (a.length + t.length) = some a.length := by
  induction t using snocRec with
  | nil =>
    rw [List.append_nil] at hb
    rw [List.length_nil, Nat.add_zero]
    rcases List.eq_nil_or_concat a with rfl | ⟨a', c, rfl⟩
    · exact absurd rfl ha0
    · have hc := ha c (by simp)
      rw [List.concat_eq_append] at hb ⊢
      have h := (bytes_snoc hb).2
      rw [List.length_append, List.length_singleton]
      cases e : a'.length with
      | zero => rfl
      | succ k =>
        rw [e] at h
        rw [backWhilePos, h]
        simp [hc]
  | append t c ih =>
    rw [← List.append_assoc] at hb
    have h := bytes_snoc hb
    have ih := ih h.1 (fun c hc => ht c (by simp [hc]))
    rw [List.length_append] at h
    obtain ⟨k, hk⟩ : ∃ k, a.length + t.length = k + 1 := by
      cases a with
      | nil => exact absurd rfl ha0
      | cons x a => exact ⟨a.length + t.length, by simp; omega⟩
    rw [List.length_append, List.length_singleton, ← Nat.add_assoc]
    rw [hk] at h ih ⊢
    rw [backWhilePos, h.2]
    simp only [Option.bind_eq_bind, Option.bind_some, ht c (by simp), if_true]
    exact ih

theorem backWhilePos_all {m : Mem UInt8} {path : Nat} {test : UInt8 → Bool} (t : List UInt8) (ht0 : t ≠ [])
    (hb : Bytes m path t) (ht : ∀ c ∈ t, test c = true) : backWhilePos m path test t.length = some 1 := by
  cases t with
  | nil => exact absurd rfl ht0
  | cons x t =>
    clear ht0
    induction t using snocRec with
    | nil => rfl
    | append t c ih =>
      rw [← List.cons_append] at hb
      have h := bytes_snoc hb
      have ih := ih h.1 (fun c hc => ht c (by grind))
      rw [List.length_cons] at h ih
      rw [← List.cons_append, List.length_append, List.length_singleton, List.length_cons, backWhilePos, h.2]
      simp only [Option.bind_eq_bind, Option.bind_some, ht c (by simp), if_true]
      exact ih

theorem dropEnd (test : UInt8 → Bool) (s : List UInt8) : ∃ a t, s = a ++ t ∧ (∀ c ∈ t, test c = true)
    ∧ ∀ c, a.getLast? = some c → test c = false := by
  induction s using snocRec with
  | nil => exact ⟨[], [], rfl, by simp, by simp⟩
  | append s c ih =>
    by_cases hc : test c = true
    · obtain ⟨a, t, rfl, ht, ha⟩ := ih
      exact ⟨a, t ++ [c], by simp, by simpa [or_imp, forall_and, hc] using ht, ha⟩
    · exact ⟨s ++ [c], [], by simp, by simp, by simpa using hc⟩

/-- Every path is empty, a string of slashes, or has a last component. -/
theorem split_cases (s : List UInt8) : s = [] ∨ (s ≠ [] ∧ Slashes s) ∨ ∃ d seps base trail, Split s d seps base trail := by
  obtain ⟨a, trail, hs, ht, ha⟩ := dropEnd (· == 0x2F) s
  obtain ⟨b, base, hb, hbt, hbl⟩ := dropEnd (· != 0x2F) a
  obtain ⟨d, seps, hd, hds, hdl⟩ := dropEnd (· == 0x2F) b
  simp only [beq_iff_eq, bne_iff_ne, beq_eq_false_iff_ne, bne_eq_false_iff_eq] at *
  by_cases h0 : s = []
  · exact .inl h0
  · refine .inr ?_
    by_cases hb0 : base = []
    · subst hb0
      simp only [List.append_nil] at hb
      subst hb
      rcases List.eq_nil_or_concat a with rfl | ⟨a', c, rfl⟩
      · exact .inl ⟨h0, by rw [hs]; exact ht⟩
      · exact absurd (hbl c (by simp)) (ha c (by simp))
    · refine .inr ⟨d, seps, base, trail, by rw [hs, hb, hd], ⟨hb0, fun h => hbt _ h rfl⟩, hds, ht, ?_, fun h => hdl _ h rfl⟩
      rintro hd0 rfl
      rcases List.eq_nil_or_concat d with rfl | ⟨d', c, rfl⟩
      · exact hd0 rfl
      · simp only [List.append_nil] at hd
        subst hd
        exact hdl c (by simp) (hbl c (by simp))

theorem slashes_no_zero {l : List UInt8} (h : Slashes l) : (0 : UInt8) ∉ l := fun hm => by
  have := h _ hm; revert this; decide

/-! ## C43 -/

/-- C43, `basename`: for every path it returns a pointer to what POSIX prescribes and changes at most one byte of the
argument, into a NUL. -/
theorem C43_basename {m : Mem UInt8} {path : Nat} {s : List UInt8} (hp : path ≠ 0) (h : CStr m path s) :
    ∃ r m' b, basename m path = some (r, m') ∧ IsBasename s b ∧ PointsTo m' r b
      ∧ AtMostOneNul m m' path s.length := by
  unfold basename
  rw [if_neg hp, strlen_eq h]
  simp only [Option.bind_eq_bind, Option.bind_some, List.length_eq_zero_iff]
  rcases split_cases s with rfl | ⟨h0, hs⟩ | ⟨d, seps, base, trail, hsp⟩
  · exact ⟨_, _, _, if_pos rfl, .inl ⟨rfl, rfl⟩, rfl, .inl rfl⟩
  · rw [if_neg h0]
    have := backWhile_eq (test := (· == 0x2F)) [] s (by simpa using h.1) (fun c hc => by rw [hs c hc]; rfl) (by simp)
    simp only [List.length_nil, Nat.zero_add] at this
    rw [this]
    exact ⟨_, _, _, rfl, .inr (.inl ⟨h0, hs, rfl⟩), rfl, .inl rfl⟩
  · have hs0 : s ≠ [] := by
      intro h0
      have := hsp.eq
      rw [h0] at this
      have h2 := hsp.component.1
      simp at this
      exact h2 this.2.2.1
    rw [if_neg hs0]
    have hlast : ∀ c, (d ++ seps ++ base).getLast? = some c → c ≠ 0x2F := by
      rintro c hc rfl
      rw [last_append hsp.component.1] at hc
      exact hsp.component.2 (List.mem_of_getLast? hc)
    have hlen : s.length = (d ++ seps ++ base).length + trail.length := by rw [hsp.eq]; simp; omega
    have hb1 : Bytes m path ((d ++ seps ++ base) ++ trail) := by rw [← hsp.eq]; exact h.1
    have e1 := backWhile_eq (test := (· == 0x2F)) (d ++ seps ++ base) trail hb1
      (by simpa [Slashes] using hsp.trail_slash) (by simpa using hlast)
    rw [hlen, e1]
    have hne : ¬ (d ++ seps ++ base).length = 0 := by simp [hsp.component.1]
    simp only [Option.bind_some, hne, if_false]
    have hb2 := (bytes_append.mp hb1).1
    have hds : ∀ c, (d ++ seps).getLast? = some c → c = 0x2F := by
      intro c hc
      by_cases hse : seps = []
      · by_cases hd : d = []
        · simp [hse, hd] at hc
        · exact absurd hse (hsp.dir hd)
      · rw [last_append hse] at hc
        exact hsp.seps_slash c (List.mem_of_getLast? hc)
    have e2 := backWhile_eq (test := (· != 0x2F)) (d ++ seps) base hb2
      (by intro c hc; simp only [bne_iff_ne]; rintro rfl; exact hsp.component.2 hc) (by simpa using hds)
    rw [← List.length_append] at e2
    rw [e2]
    have hmap : (m (path + (d ++ seps ++ base).length)).isSome := by
      by_cases ht : trail = []
      · have := h.2.1
        rw [hlen, ht, List.length_nil, Nat.add_zero] at this
        rw [this]
        rfl
      · have := hb1.get (d ++ seps ++ base).length (by
          have : 0 < trail.length := List.length_pos_iff.mpr ht
          simp; omega)
        rw [this]
        simp [List.length_pos_iff.mpr ht]
    have hz : (0 : UInt8) ∉ base := fun hc => h.2.2 (by rw [hsp.eq]; simp [hc])
    rw [store_patch hmap]
    refine ⟨_, _, base, rfl, .inr (.inr ⟨d, seps, trail, hsp⟩), ?_, .inr ⟨(d ++ seps ++ base).length, Nat.pos_of_ne_zero hne, by omega, rfl⟩⟩
    have e3 : path + (d ++ seps ++ base).length = path + (d ++ seps).length + base.length := by simp; omega
    refine ⟨?_, ?_, hz⟩
    · rw [e3]
      exact ((bytes_append.mp hb2).2).patch_disjoint (.inr (Nat.le_refl _))
    · rw [← e3, patch]
      simp

theorem Split.ne_nil {s d seps base trail : List UInt8} (h : Split s d seps base trail) : s ≠ [] := by
  intro h0
  have e := h.eq
  rw [h0] at e
  simp only [List.nil_eq_append_iff, List.append_eq_nil_iff] at e
  exact h.component.1 e.1.2

/-- C43, `dirname`: for every path it returns a pointer to what POSIX prescribes and changes at most one byte of the
argument, into a NUL. -/
theorem C43_dirname {m : Mem UInt8} {path : Nat} {s : List UInt8} (hp : path ≠ 0) (h : CStr m path s) :
    ∃ r m' b, dirname m path = some (r, m') ∧ IsDirname s b ∧ PointsTo m' r b
      ∧ AtMostOneNul m m' path s.length := by
  have hfin : ∀ k, 0 < k → k ≤ s.length → ∀ b, b = s.take k → (0 : UInt8) ∉ b →
      ∃ m', store m (path + k) 0 = some m' ∧ PointsTo m' (.ptr path) b ∧ AtMostOneNul m m' path s.length := by
    intro k hk hks b hb hz
    have hmap : (m (path + k)).isSome := by
      by_cases he : k = s.length
      · rw [he, h.2.1]; rfl
      · rw [h.1.get k (by omega)]; simp; omega
    refine ⟨_, store_patch hmap 0, ⟨?_, ?_, hz⟩, .inr ⟨k, hk, hks, rfl⟩⟩
    · have : Bytes m path b := by
        have := h.1
        rw [← List.take_append_drop k s] at this
        rw [hb]
        exact (bytes_append.mp this).1
      refine this.patch_disjoint (.inr ?_)
      rw [hb, List.length_take]
      omega
    · have : b.length = k := by rw [hb, List.length_take]; omega
      rw [this, patch]
      simp
  have hz : ∀ k, (0 : UInt8) ∉ s.take k := fun k hk => h.2.2 (List.mem_of_mem_take hk)
  unfold dirname
  rw [if_neg hp, strlen_eq h]
  simp only [Option.bind_eq_bind, Option.bind_some, List.length_eq_zero_iff]
  rcases split_cases s with rfl | ⟨h0, hs⟩ | ⟨d, seps, base, trail, hsp⟩
  · exact ⟨_, _, _, if_pos rfl, .inl ⟨rfl, rfl⟩, rfl, .inl rfl⟩
  · rw [if_neg h0]
    have ht : ∀ c ∈ s, (c == 0x2F) = true := fun c hc => by rw [hs c hc]; rfl
    obtain ⟨s', rfl⟩ : ∃ s', s = 0x2F :: s' := by
      cases s with
      | nil => exact absurd rfl h0
      | cons x s' => exact ⟨s', by rw [hs x (by simp)]⟩
    rw [backWhilePos_all (test := (· == 0x2F)) _ h0 h.1 ht]
    have e2 := backWhile_eq (m := m) (path := path) (test := (· != 0x2F)) [0x2F] [] (by exact ⟨h.1.1, trivial⟩)
      (by simp) (by simp)
    simp only [List.length_singleton, List.length_nil, Nat.add_zero] at e2
    obtain ⟨m', h1, h2, h3⟩ := hfin 1 (by omega) (by simp) [0x2F] (by simp) (by simp)
    simp only [Option.bind_some, e2, backWhilePos, Nat.one_ne_zero, if_false, h1]
    exact ⟨_, _, _, rfl, .inr (.inl ⟨h0, hs, rfl⟩), h2, h3⟩
  · rw [if_neg hsp.ne_nil]
    have hlast : ∀ c, (d ++ seps ++ base).getLast? = some c → c ≠ 0x2F := by
      rintro c hc rfl
      rw [last_append hsp.component.1] at hc
      exact hsp.component.2 (List.mem_of_getLast? hc)
    have hlen : s.length = (d ++ seps ++ base).length + trail.length := by rw [hsp.eq]; simp; omega
    have hb1 : Bytes m path ((d ++ seps ++ base) ++ trail) := by rw [← hsp.eq]; exact h.1
    have e1 := backWhilePos_eq (test := (· == 0x2F)) (d ++ seps ++ base) trail (by simp [hsp.component.1]) hb1
      (by simpa [Slashes] using hsp.trail_slash) (by simpa using hlast)
    have e1' : backWhilePos m path (· == 0x2F) s.length = some (d ++ seps ++ base).length := by rw [hlen, e1]
    rw [e1']
    have hb2 := (bytes_append.mp hb1).1
    have hb3 := (bytes_append.mp hb2).1
    have hds : ∀ c, (d ++ seps).getLast? = some c → c = 0x2F := by
      intro c hc
      by_cases hse : seps = []
      · by_cases hd : d = []
        · simp [hse, hd] at hc
        · exact absurd hse (hsp.dir hd)
      · rw [last_append hse] at hc
        exact hsp.seps_slash c (List.mem_of_getLast? hc)
    have e2 := backWhile_eq (test := (· != 0x2F)) (d ++ seps) base hb2
      (by intro c hc; simp only [bne_iff_ne]; rintro rfl; exact hsp.component.2 hc) (by simpa using hds)
    rw [← List.length_append] at e2
    simp only [Option.bind_some, e2]
    by_cases hse : seps = []
    · have hd : d = [] := Classical.byContradiction fun hd => hsp.dir hd hse
      subst hse hd
      simp only [List.append_nil, List.length_nil, backWhilePos, Option.bind_some, if_true]
      exact ⟨_, _, _, rfl, .inr (.inr ⟨[], [], base, trail, hsp, rfl⟩), rfl, .inl rfl⟩
    · have hss : ∀ c ∈ seps, (c == 0x2F) = true := fun c hc => by rw [hsp.seps_slash c hc]; rfl
      by_cases hd : d = []
      · subst hd
        rw [List.nil_append] at hb3 ⊢
        rw [backWhilePos_all (test := (· == 0x2F)) seps hse hb3 hss]
        obtain ⟨x, seps', rfl⟩ := List.exists_cons_of_ne_nil hse
        have hx := hsp.seps_slash x (by simp)
        subst hx
        obtain ⟨m', h1, h2, h3⟩ := hfin 1 (by omega) (by rw [hsp.eq]; simp) [0x2F] (by rw [hsp.eq]; simp) (by simp)
        simp only [Option.bind_some, Nat.one_ne_zero, if_false, h1]
        exact ⟨_, _, _, rfl, .inr (.inr ⟨[], _, base, trail, hsp, by simp⟩), h2, h3⟩
      · have e3 := backWhilePos_eq (test := (· == 0x2F)) d seps hd hb3 hss (by
          intro c hc
          simp only [beq_eq_false_iff_ne]
          rintro rfl
          exact hsp.dir_end hc)
        rw [List.length_append, e3]
        have hdt : d = s.take d.length := by rw [hsp.eq]; simp
        have hd0 : 0 < d.length := List.length_pos_iff.mpr hd
        obtain ⟨m', h1, h2, h3⟩ := hfin d.length hd0 (by rw [hsp.eq]; simp) d hdt (hdt ▸ hz _)
        have hd0' : ¬ d.length = 0 := by omega
        simp only [Option.bind_some, hd0', if_false, h1]
        exact ⟨_, _, _, rfl, .inr (.inr ⟨d, seps, base, trail, hsp, by simp [hse, hd]⟩), h2, h3⟩

/-- C43, the null pointer: both return `"."`. -/
theorem C43_null (m : Mem UInt8) :
    basename m 0 = some (.static [0x2E], m) ∧ dirname m 0 = some (.static [0x2E], m) := ⟨rfl, rfl⟩

theorem split_unique_aux {a b t u : List UInt8} {P : UInt8 → Prop} (h : a ++ t = b ++ u) (ht : ∀ c ∈ t, P c)
    (hu : ∀ c ∈ u, P c) (ha : ∀ c, a.getLast? = some c → ¬ P c) (hb : ∀ c, b.getLast? = some c → ¬ P c) :
    a = b ∧ t = u := by
  rcases List.append_eq_append_iff.mp h with ⟨x, rfl, rfl⟩ | ⟨x, rfl, rfl⟩
  · by_cases hx : x = []
    · subst hx; simp
    · obtain ⟨c, hc⟩ : ∃ c, x.getLast? = some c := by
        cases e : x.getLast? with
        | none => exact absurd (List.getLast?_eq_none_iff.mp e) hx
        | some c => exact ⟨c, rfl⟩
      exact absurd (ht c (by simp [List.mem_of_getLast? hc])) (hb c (by rw [last_append hx]; exact hc))
  · by_cases hx : x = []
    · subst hx; simp
    · obtain ⟨c, hc⟩ : ∃ c, x.getLast? = some c := by
        cases e : x.getLast? with
        | none => exact absurd (List.getLast?_eq_none_iff.mp e) hx
        | some c => exact ⟨c, rfl⟩
      exact absurd (hu c (by simp [List.mem_of_getLast? hc])) (ha c (by rw [last_append hx]; exact hc))

/-- C43, the specification determines the answer: a path can be split in one way only. -/
theorem C43_split_unique {s d e seps seps' b b' t t' : List UInt8} (h : Split s d seps b t) (h' : Split s e seps' b' t') :
    d = e ∧ seps = seps' ∧ b = b' ∧ t = t' := by
  have last : ∀ {s d seps b t : List UInt8}, Split s d seps b t → ∀ c, (d ++ seps ++ b).getLast? = some c → ¬ c = 0x2F := by
    rintro s d seps b t h c hc rfl
    rw [last_append h.component.1] at hc
    exact h.component.2 (List.mem_of_getLast? hc)
  have last2 : ∀ {s d seps b t : List UInt8}, Split s d seps b t → ∀ c, (d ++ seps).getLast? = some c → ¬ c ≠ 0x2F := by
    intro s d seps b t h c hc
    by_cases hse : seps = []
    · by_cases hd : d = []
      · simp [hse, hd] at hc
      · exact absurd hse (h.dir hd)
    · rw [last_append hse] at hc
      exact fun hn => hn (h.seps_slash c (List.mem_of_getLast? hc))
  obtain ⟨e1, e2⟩ := split_unique_aux (P := (· = 0x2F)) (h.eq.symm.trans h'.eq) h.trail_slash h'.trail_slash (last h) (last h')
  obtain ⟨e3, e4⟩ := split_unique_aux (P := (· ≠ 0x2F)) e1 (fun c hc he => h.component.2 (he ▸ hc))
    (fun c hc he => h'.component.2 (he ▸ hc)) (last2 h) (last2 h')
  obtain ⟨e5, e6⟩ := split_unique_aux (P := (· = 0x2F)) e3 h.seps_slash h'.seps_slash
    (fun c hc he => h.dir_end (he ▸ hc)) (fun c hc he => h'.dir_end (he ▸ hc))
  exact ⟨e5, e6, e4, e2⟩

/-! ## Examples -/

/-- "/usr//lib/" splits into "/usr", "//", "lib", "/". -/
example : Split [0x2F, 0x75, 0x73, 0x72, 0x2F, 0x2F, 0x6C, 0x69, 0x62, 0x2F] [0x2F, 0x75, 0x73, 0x72] [0x2F, 0x2F]
    [0x6C, 0x69, 0x62] [0x2F] :=
  ⟨rfl, by decide, by unfold Slashes; decide, by unfold Slashes; decide, by decide, by decide⟩

/-- `basename("a/b//")`. -/
example : ∃ r m' b, basename (ofList 8 [0x61, 0x2F, 0x62, 0x2F, 0x2F, 0]) 8 = some (r, m')
    ∧ IsBasename [0x61, 0x2F, 0x62, 0x2F, 0x2F] b ∧ PointsTo m' r b
    ∧ AtMostOneNul (ofList 8 [0x61, 0x2F, 0x62, 0x2F, 0x2F, 0]) m' 8 5 :=
  C43_basename (by decide) (Stdlib.cstr_ofList 8 [0x61, 0x2F, 0x62, 0x2F, 0x2F] (by decide))

end Verif.Path
