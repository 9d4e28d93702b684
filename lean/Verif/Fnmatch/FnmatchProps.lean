import Verif.Fnmatch.FnmatchModel
import Verif.Str.StrLemmas
/-!
# C71: `fnmatch`
-/

namespace Verif.Fnmatch
open Verif.Mem Verif.Str

/-! ## Specification -/

/-- An element of a bracket expression: a character or a range. -/
inductive Elem where
  | one (a : UInt8)
  | range (a b : UInt8)

/-- The parts of a pattern. -/
inductive Part where
  | lit (c : UInt8)
  | any
  | star
  | set (neg : Bool) (es : List Elem)

/-- The text of an element. -/
def Elem.text : Elem → List UInt8
  | .one a => [a]
  | .range a b => [a, 0x2D, b]

/-- The text of a pattern: `c`, `?`, `*`, `[…]` or `[!…]`. -/
def Part.text : Part → List UInt8
  | .lit c => [c]
  | .any => [0x3F]
  | .star => [0x2A]
  | .set neg es => [0x5B] ++ (if neg then [0x21] else []) ++ es.flatMap Elem.text ++ [0x5D]

/-- A character of a bracket expression without special meaning: not NUL, `]`, `\`, `-` or `[`. -/
def Simple (c : UInt8) : Prop := c ≠ 0 ∧ c ≠ 0x5D ∧ c ≠ 0x5C ∧ c ≠ 0x2D ∧ c ≠ 0x5B

/-- Elements without special characters. -/
def Elem.Good : Elem → Prop
  | .one a => Simple a
  | .range a b => Simple a ∧ Simple b

/-- Parts whose text means what it should: literals are not `*`, `?`, `[` or `\`, bracket expressions are not empty, and do not
begin with `!` or `^`. -/
def Part.Good : Part → Prop
  | .lit c => c ≠ 0 ∧ c ≠ 0x2A ∧ c ≠ 0x3F ∧ c ≠ 0x5B ∧ c ≠ 0x5C
  | .any | .star => True
  | .set neg es => es ≠ [] ∧ (∀ e ∈ es, e.Good) ∧ (neg = false → ∀ a, (es.flatMap Elem.text).head? = some a → a ≠ 0x21 ∧ a ≠ 0x5E)

/-- Two characters are the same, if need be apart from their case. -/
def Same (fold : Bool) (c d : UInt8) : Prop :=
  c = d ∨ (fold = true ∧ ((0x41 ≤ c ∧ c ≤ 0x5A ∧ d = c + 32) ∨ (0x41 ≤ d ∧ d ≤ 0x5A ∧ c = d + 32)))

/-- The character is in the element. -/
def Elem.Has (c : UInt8) : Elem → Prop
  | .one a => c = a
  | .range a b => a ≤ c ∧ c ≤ b

/-- What POSIX says about matching. `lead` = a period at this place of the string is a leading one. With `FNM_PATHNAME` a slash
is only matched by a slash; with `FNM_PERIOD` a leading period only by a period. -/
inductive Fits (f : Flags) : Bool → List Part → List UInt8 → Prop
  | nil {lead : Bool} : Fits f lead [] []
  | lit {lead : Bool} {c d : UInt8} {ps : List Part} {s : List UInt8} : Same f.casefold c d →
      Fits f (f.pathname && d == 0x2F) ps s → Fits f lead (.lit c :: ps) (d :: s)
  | any {lead : Bool} {d : UInt8} {ps : List Part} {s : List UInt8} : (f.pathname → d ≠ 0x2F) → (f.period → lead → d ≠ 0x2E) →
      Fits f false ps s → Fits f lead (.any :: ps) (d :: s)
  | star {lead : Bool} {l : List UInt8} {ps : List Part} {s : List UInt8} : (f.pathname → 0x2F ∉ l) →
      (f.period → lead → (l ++ s).head? ≠ some 0x2E) → Fits f false ps s → Fits f lead (.star :: ps) (l ++ s)
  | set {lead neg : Bool} {es : List Elem} {d : UInt8} {ps : List Part} {s : List UInt8} : (f.pathname → d ≠ 0x2F) →
      (f.period → lead → d ≠ 0x2E) → (neg = true ↔ ¬ ∃ c, (∃ e ∈ es, e.Has c) ∧ Same f.casefold c d) →
      Fits f false ps s → Fits f lead (.set neg es :: ps) (d :: s)

/-- What is excluded: `[!…]` with `FNM_PATHNAME`, and `*` and `[!…]` at the beginning of a component with `FNM_PERIOD`. -/
def Supported (f : Flags) : Bool → List Part → Prop
  | _, [] => True
  | lead, p :: ps =>
    (match p with
      | .star => ¬ (f.period = true ∧ lead = true)
      | .set true _ => ¬ (f.period = true ∧ lead = true) ∧ f.pathname = false
      | _ => True) ∧
    Supported f (match p with | .lit c => f.pathname && c == 0x2F | _ => false) ps

/-! ## Lemmas -/

theorem same_iff {fold : Bool} {c d : UInt8} : same fold c d = true ↔ Same fold c d := by
  unfold same Same lower
  cases fold with
  | false => simp
  | true =>
    simp only [if_true, true_and, beq_iff_eq]
    simp only [UInt8.le_iff_toNat_le, ← UInt8.toNat_inj]
    have h1 := c.toNat_lt
    have h2 := d.toNat_lt
    split <;> split <;> simp at * <;> omega

theorem same_slash {fold : Bool} {c d : UInt8} (h : Same fold c d) : c = 0x2F ↔ d = 0x2F := by
  unfold Same at h
  simp only [UInt8.le_iff_toNat_le, ← UInt8.toNat_inj] at h ⊢
  have h1 := c.toNat_lt
  have h2 := d.toNat_lt
  simp at h ⊢
  omega

theorem same_dot {fold : Bool} {c d : UInt8} (h : Same fold c d) : c = 0x2E ↔ d = 0x2E := by
  unfold Same at h
  simp only [UInt8.le_iff_toNat_le, ← UInt8.toNat_inj] at h ⊢
  have h1 := c.toNat_lt
  have h2 := d.toNat_lt
  simp at h ⊢
  omega

/-- The characters of an element. -/
def Elem.chars : Elem → List UInt8
  | .one a => [a]
  | .range a b => byteRange a b

theorem mem_chars {e : Elem} {c : UInt8} : c ∈ e.chars ↔ e.Has c := by
  cases e with
  | one a => simp [Elem.chars, Elem.Has]
  | range a b =>
    simp only [Elem.chars, Elem.Has, byteRange, List.mem_map, List.mem_range'_1, UInt8.le_iff_toNat_le]
    have hb := b.toNat_lt
    constructor
    · rintro ⟨n, hn, rfl⟩
      rw [UInt8.toNat_ofNat', Nat.mod_eq_of_lt (by omega)]
      omega
    · rintro ⟨h1, h2⟩
      exact ⟨c.toNat, by omega, UInt8.ofNat_toNat⟩

/-- The leaf of a part. -/
def leafOf (f : Flags) (lead : Bool) : Part → Leaf
  | .lit c => (.chr c, false)
  | .any => (anyTok f lead, false)
  | .star => (anyTok f lead, true)
  | .set neg es => (.oneOf neg ((es.flatMap Elem.chars).filter (canPush f lead)), false)

/-- Whether a part is followed by a leading place. -/
def nextLead (f : Flags) : Part → Bool
  | .lit c => f.pathname && c == 0x2F
  | _ => false

/-- Whether a part is a star. -/
def isStar : Part → Bool
  | .star => true
  | _ => false

/-- The leaves of a pattern. -/
def leaves (f : Flags) : Bool → Bool → List Part → List Leaf
  | _, _, [] => []
  | lead, collapse, p :: ps =>
    if isStar p && collapse then leaves f false true ps else leafOf f lead p :: leaves f (nextLead f p) (isStar p) ps

theorem bracket_eq {m : Mem UInt8} {f : Flags} {lead : Bool} {es : List Elem} (hg : ∀ e ∈ es, e.Good) {p : Nat}
    {rest list : List UInt8} (h : CStr m p (es.flatMap Elem.text ++ 0x5D :: rest)) :
    bracketLoop m f lead p list =
      some (list ++ (es.flatMap Elem.chars).filter (canPush f lead), p + (es.flatMap Elem.text).length + 1) := by
  induction es generalizing p list with
  | nil =>
    rw [bracketLoop, h.head.1]
    simp
  | cons e es ih =>
    have hg' : ∀ e ∈ es, e.Good := fun x hx => hg x (by simp [hx])
    have hnext : ∀ q, CStr m q (es.flatMap Elem.text ++ 0x5D :: rest) → ∃ d, m q = some d ∧ d ≠ 0x2D := by
      intro q hq
      cases es with
      | nil => exact ⟨_, hq.head.1, by decide⟩
      | cons e' es =>
        have hge := hg' e' (by simp)
        cases e' with
        | one a =>
          simp only [List.flatMap_cons, Elem.text, List.cons_append, List.nil_append] at hq
          exact ⟨_, hq.head.1, hge.2.2.2.1⟩
        | range a b =>
          simp only [List.flatMap_cons, Elem.text, List.cons_append, List.nil_append] at hq
          exact ⟨_, hq.head.1, hge.1.2.2.2.1⟩
    have hge := hg e (by simp)
    cases e with
    | one a =>
      simp only [List.flatMap_cons, Elem.text, List.cons_append, List.nil_append] at h
      obtain ⟨g1, g2, g3, g4, g5⟩ := hge
      obtain ⟨d, hd, hd2⟩ := hnext _ h.tail
      rw [bracketLoop, h.head.1]
      simp only [Option.bind_eq_bind, Option.bind_some, g1, g2, g3, if_false, element, hd, hd2]
      rw [ih hg' h.tail]
      simp only [List.flatMap_cons, Elem.chars, Elem.text, List.filter_append, List.append_assoc, List.length_append, List.length_cons, List.length_nil]
      congr 2
      omega
    | range a b =>
      simp only [List.flatMap_cons, Elem.text, List.cons_append, List.nil_append] at h
      obtain ⟨⟨g1, g2, g3, g4, g5⟩, k1, _⟩ := hge
      rw [bracketLoop, h.head.1]
      have e2 : m (p + 1 + 1) = some b := h.tail.tail.head.1
      simp only [Option.bind_eq_bind, Option.bind_some, g1, g2, g3, if_false, element, h.tail.head.1, if_true, e2, ne_eq, k1,
        not_false_eq_true]
      rw [ih hg' (p := p + 1 + 2) h.tail.tail.tail]
      simp [Elem.chars, Elem.text]
      omega

theorem tokenize_eq {m : Mem UInt8} {f : Flags} {ps : List Part} (hg : ∀ p ∈ ps, p.Good) {p : Nat} {lead collapse : Bool}
    (h : CStr m p (ps.flatMap Part.text)) : tokenize m f p lead collapse = some (leaves f lead collapse ps) := by
  induction ps generalizing p lead collapse with
  | nil =>
    rw [tokenize, tokStep, h.nul]
    rfl
  | cons x ps ih =>
    have hg' : ∀ p ∈ ps, p.Good := fun y hy => hg y (by simp [hy])
    have hx := hg x (by simp)
    rw [tokenize]
    cases x with
    | lit c =>
      simp only [List.flatMap_cons, Part.text, List.cons_append, List.nil_append] at h
      obtain ⟨g0, g1, g2, g3, g4⟩ := hx
      have e : tokStep m f p lead collapse = some (some (some (.chr c, false), p + 1, isLeading f c, false)) := by
        unfold tokStep
        rw [h.head.1]
        simp [g0, g1, g2, g3, g4]
      rw [e]
      simp only
      rw [ih hg' h.tail]
      simp [leaves, isStar, leafOf, nextLead, isLeading, Bool.and_comm]
    | any =>
      simp only [List.flatMap_cons, Part.text, List.cons_append, List.nil_append] at h
      have e : tokStep m f p lead collapse = some (some (some (anyTok f lead, false), p + 1, false, false)) := by
        unfold tokStep
        rw [h.head.1]
        simp
      rw [e]
      simp only
      rw [ih hg' h.tail]
      simp [leaves, isStar, leafOf, nextLead]
    | star =>
      simp only [List.flatMap_cons, Part.text, List.cons_append, List.nil_append] at h
      cases collapse with
      | true =>
        have e : tokStep m f p lead true = some (some (none, p + 1, false, true)) := by
          unfold tokStep
          rw [h.head.1]
          simp
        rw [e]
        simp only
        rw [ih hg' h.tail]
        simp [leaves, isStar]
      | false =>
        have e : tokStep m f p lead false = some (some (some (anyTok f lead, true), p + 1, false, true)) := by
          unfold tokStep
          rw [h.head.1]
          simp
        rw [e]
        simp only
        rw [ih hg' h.tail]
        simp [leaves, isStar, leafOf, nextLead]
    | set neg es =>
      obtain ⟨hne, hes, hfirst⟩ := hx
      have e : tokStep m f p lead collapse = some (some (some (leafOf f lead (.set neg es)), p + (Part.set neg es).text.length, false, false)) := by
        cases neg with
        | true =>
          simp only [List.flatMap_cons, Part.text, if_true, List.append_assoc, List.cons_append, List.nil_append] at h
          unfold tokStep
          rw [h.head.1]
          have hb := bracket_eq (f := f) (lead := lead) hes (p := p + 2) (list := []) (rest := ps.flatMap Part.text) h.tail.tail
          simp [h.tail.head.1, hb, leafOf, Part.text]
          omega
        | false =>
          simp only [List.flatMap_cons, Part.text, Bool.false_eq_true, if_false, List.append_assoc, List.cons_append, List.nil_append] at h
          unfold tokStep
          rw [h.head.1]
          have hb := bracket_eq (f := f) (lead := lead) hes (p := p + 1) (list := []) (rest := ps.flatMap Part.text) h.tail
          obtain ⟨a, l, hl⟩ : ∃ a l, es.flatMap Elem.text = a :: l := by
            cases es with
            | nil => exact absurd rfl hne
            | cons e es => cases e <;> exact ⟨_, _, rfl⟩
          have ha := (hfirst rfl a (by rw [hl]; rfl)).1
          have ht := h.tail
          rw [hl, List.cons_append] at ht
          simp [ht.head.1, ha, hb, leafOf, Part.text]
          omega
      rw [e]
      simp only
      rw [ih hg' (by rw [List.flatMap_cons] at h; exact h.drop)]
      simp [leaves, isStar, nextLead]

theorem any_ok {f : Flags} {fold lead : Bool} {d : UInt8} :
    (anyTok f lead).ok fold d = true ↔ (f.pathname → d ≠ 0x2F) ∧ (f.period → lead → d ≠ 0x2E) := by
  have h1 : same fold 0x2F d = true ↔ d = 0x2F := by
    rw [same_iff]
    exact ⟨fun h => (same_slash h).1 rfl, fun h => .inl h.symm⟩
  have h2 : same fold 0x2E d = true ↔ d = 0x2E := by
    rw [same_iff]
    exact ⟨fun h => (same_dot h).1 rfl, fun h => .inl h.symm⟩
  unfold anyTok Tok.ok
  have h3 : same fold 0x2F d = false ↔ d ≠ 0x2F := by rw [← Bool.not_eq_true, h1]
  have h4 : same fold 0x2E d = false ↔ d ≠ 0x2E := by rw [← Bool.not_eq_true, h2]
  cases f.pathname <;> cases f.period <;> cases lead <;> simp [h3, h4]

theorem starGo_iff {fold : Bool} {t : Tok} {k : List UInt8 → Bool} {s : List UInt8} :
    starGo fold t k s = true ↔ ∃ l r, s = l ++ r ∧ (∀ c ∈ l, t.ok fold c = true) ∧ k r = true := by
  induction s with
  | nil =>
    simp only [starGo]
    constructor
    · exact fun h => ⟨[], [], rfl, by simp, h⟩
    · rintro ⟨l, r, e, _, h⟩
      rw [List.nil_eq_append_iff] at e
      rwa [e.2] at h
  | cons c s ih =>
    simp only [starGo, Bool.or_eq_true, Bool.and_eq_true, ih]
    constructor
    · rintro (h | ⟨h, l, r, e, hl, hk⟩)
      · exact ⟨[], _, rfl, by simp, h⟩
      · exact ⟨c :: l, r, by rw [e]; rfl, by simpa using ⟨h, hl⟩, hk⟩
    · rintro ⟨l, r, e, hl, hk⟩
      cases l with
      | nil => exact .inl (by rw [e]; exact hk)
      | cons a l =>
        simp only [List.cons_append, List.cons.injEq] at e
        obtain ⟨rfl, e⟩ := e
        exact .inr ⟨hl _ (by simp), l, r, e, fun x hx => hl x (by simp [hx]), hk⟩

theorem fits_lead {f : Flags} {lead : Bool} (h : ¬ (f.period = true ∧ lead = true)) {ps : List Part} {s : List UInt8} :
    Fits f lead ps s ↔ Fits f false ps s := by
  constructor
  · intro h1
    cases h1 with
    | nil => exact .nil
    | lit a b => exact .lit a b
    | any a b c => exact .any a (by simp) c
    | star a b c => exact .star a (by simp) c
    | set a b c d => exact .set a (by simp) c d
  · intro h1
    cases h1 with
    | nil => exact .nil
    | lit a b => exact .lit a b
    | any a b c => exact .any a (fun x y => absurd ⟨x, y⟩ h) c
    | star a b c => exact .star a (fun x y => absurd ⟨x, y⟩ h) c
    | set a b c d => exact .set a (fun x y => absurd ⟨x, y⟩ h) c d

theorem fits_star_star {f : Flags} {ps : List Part} {s : List UInt8} :
    Fits f false (.star :: .star :: ps) s ↔ Fits f false (.star :: ps) s := by
  constructor
  · intro h
    cases h with
    | @star _ l _ s h1 h2 h3 =>
      generalize hr : (Part.star :: ps) = r at h3
      cases h3 with
      | @star _ l' _ s' h4 h5 h6 =>
        injection hr with _ hr
        subst hr
        rw [← List.append_assoc]
        refine .star ?_ (by simp) h6
        intro hp
        rw [List.mem_append]
        rintro (h | h)
        · exact h1 hp h
        · exact h4 hp h
      | _ => simp at hr
  · intro h
    exact .star (l := []) (by simp) (by simp) h

theorem star_iff {f : Flags} {ps : List Part} {k : List UInt8 → Bool} {lead : Bool} (hl : ¬ (f.period = true ∧ lead = true))
    (hk : ∀ s, k s = true ↔ Fits f false ps s) (s : List UInt8) :
    starGo f.casefold (anyTok f lead) k s = true ↔ Fits f lead (.star :: ps) s := by
  rw [starGo_iff, fits_lead hl]
  constructor
  · rintro ⟨l, r, rfl, h1, h2⟩
    refine .star ?_ (by simp) ((hk r).1 h2)
    intro hp hm
    exact (any_ok.1 (h1 _ hm)).1 hp rfl
  · intro h
    cases h with
    | @star _ l _ r h1 h2 h3 =>
      refine ⟨l, r, rfl, ?_, (hk r).2 h3⟩
      intro c hc
      refine any_ok.2 ⟨?_, fun a b => absurd ⟨a, b⟩ hl⟩
      rintro hp rfl
      exact h1 hp hc

theorem set_ok {f : Flags} {neg lead : Bool} {es : List Elem} (hs : neg = true → ¬ (f.period = true ∧ lead = true) ∧ f.pathname = false)
    {d : UInt8} :
    (leafOf f lead (.set neg es)).1.ok f.casefold d = true ↔ (f.pathname → d ≠ 0x2F) ∧ (f.period → lead → d ≠ 0x2E) ∧
      (neg = true ↔ ¬ ∃ c, (∃ e ∈ es, e.Has c) ∧ Same f.casefold c d) := by
  have hany : ((es.flatMap Elem.chars).filter (canPush f lead)).any (same f.casefold · d) = true ↔
      (f.pathname → d ≠ 0x2F) ∧ (f.period → lead → d ≠ 0x2E) ∧ ∃ c, (∃ e ∈ es, e.Has c) ∧ Same f.casefold c d := by
    rw [List.any_eq_true]
    simp only [List.mem_filter, List.mem_flatMap, mem_chars, same_iff]
    constructor
    · rintro ⟨c, ⟨he, hp⟩, hc⟩
      simp only [canPush, Bool.and_eq_true, Bool.or_eq_true, bne_iff_ne, ne_eq, Bool.not_eq_true'] at hp
      refine ⟨?_, ?_, c, he, hc⟩
      · intro h1 h2
        have := (same_slash hc).2 h2
        rcases hp.1 with h | h
        · exact h this
        · rw [h] at h1
          exact absurd h1 (by simp)
      · intro h1 h2 h3
        have := (same_dot hc).2 h3
        rcases hp.2 with (h | h) | h
        · exact h this
        · rw [h] at h2
          exact absurd h2 (by simp)
        · rw [h] at h1
          exact absurd h1 (by simp)
    · rintro ⟨h1, h2, c, he, hc⟩
      refine ⟨c, ⟨he, ?_⟩, hc⟩
      simp only [canPush, Bool.and_eq_true, Bool.or_eq_true, bne_iff_ne, ne_eq, Bool.not_eq_true']
      rw [same_slash hc, same_dot hc]
      constructor
      · cases hp : f.pathname with
        | false => exact .inr rfl
        | true => exact .inl (h1 hp)
      · cases hp : f.period with
        | false => exact .inr rfl
        | true =>
          cases hl : lead with
          | false => exact .inl (.inr rfl)
          | true => exact .inl (.inl (h2 hp hl))
  unfold leafOf Tok.ok
  simp only
  cases neg with
  | false =>
    simp only [bne_iff_ne, ne_eq, Bool.not_eq_false, hany, Bool.false_eq_true, false_iff, Classical.not_not]
  | true =>
    obtain ⟨h1, h2⟩ := hs rfl
    simp only [bne_iff_ne, ne_eq, hany, true_iff]
    have a : (f.pathname = true → ¬ d = 0x2F) := by simp [h2]
    have b : (f.period = true → lead = true → ¬ d = 0x2E) := fun x y => absurd ⟨x, y⟩ h1
    constructor
    · intro h
      exact ⟨a, b, fun x => h ⟨a, b, x⟩⟩
    · rintro ⟨_, _, h⟩ ⟨_, _, x⟩
      exact h x

theorem accepts_iff {f : Flags} (ps : List Part) :
    (∀ lead, Supported f lead ps → ∀ s, accepts f.casefold (leaves f lead false ps) s = true ↔ Fits f lead ps s) ∧
    (Supported f false ps → ∀ s, starGo f.casefold (anyTok f false) (accepts f.casefold (leaves f false true ps)) s = true ↔
      Fits f false (.star :: ps) s) := by
  induction ps with
  | nil =>
    have h : ∀ lead s, accepts f.casefold (leaves f lead false []) s = true ↔ Fits f lead [] s := by
      intro lead s
      constructor
      · intro h
        have : s = [] := by simpa [leaves, accepts] using h
        subst this
        exact .nil
      · intro h
        cases h
        rfl
    exact ⟨fun lead _ s => h lead s, fun _ s => star_iff (by simp) (h false) s⟩
  | cons x ps ih =>
    obtain ⟨ihA, ihB⟩ := ih
    have hA : ∀ lead, Supported f lead (x :: ps) → ∀ s, accepts f.casefold (leaves f lead false (x :: ps)) s = true ↔
        Fits f lead (x :: ps) s := by
      intro lead hs s
      obtain ⟨h1, h2⟩ := hs
      cases x with
      | lit c =>
        simp only [leaves, isStar, Bool.false_and, Bool.false_eq_true, if_false, leafOf, nextLead]
        cases s with
        | nil =>
          simp only [accepts, Bool.false_eq_true, false_iff]
          intro h
          cases h
        | cons d s =>
          simp only [accepts, Tok.ok, Bool.and_eq_true, same_iff]
          rw [ihA _ h2 s]
          constructor
          · rintro ⟨a, b⟩
            refine .lit a ?_
            have : (c == (0x2F : UInt8)) = (d == 0x2F) := by
              rw [Bool.eq_iff_iff, beq_iff_eq, beq_iff_eq]
              exact same_slash a
            simp only [this] at b
            exact b
          · intro h
            cases h with
            | lit a b =>
              refine ⟨a, ?_⟩
              have : (c == (0x2F : UInt8)) = (d == 0x2F) := by
                rw [Bool.eq_iff_iff, beq_iff_eq, beq_iff_eq]
                exact same_slash a
              simp only [this]
              exact b
      | any =>
        simp only [leaves, isStar, Bool.false_and, Bool.false_eq_true, if_false, leafOf, nextLead]
        cases s with
        | nil =>
          simp only [accepts, Bool.false_eq_true, false_iff]
          intro h
          cases h
        | cons d s =>
          simp only [accepts, Bool.and_eq_true, any_ok]
          rw [ihA _ h2 s]
          constructor
          · rintro ⟨⟨a, b⟩, c⟩
            exact .any a b c
          · intro h
            cases h with
            | any a b c => exact ⟨⟨a, b⟩, c⟩
      | star =>
        simp only [leaves, isStar, Bool.and_false, Bool.false_eq_true, if_false, leafOf, nextLead, accepts]
        have hl : (anyTok f lead) = anyTok f false := by
          unfold anyTok
          have : (lead && f.period) = (false && f.period) := by
            revert h1
            cases lead <;> cases f.period <;> simp
          rw [this]
        rw [hl, fits_lead h1]
        exact ihB h2 s
      | set neg es =>
        simp only [leaves, isStar, Bool.false_and, Bool.false_eq_true, if_false, nextLead]
        have hok := fun d => set_ok (f := f) (neg := neg) (lead := lead) (es := es) (d := d) (by
          rintro rfl
          exact h1)
        cases s with
        | nil =>
          simp only [accepts, leafOf, Bool.false_eq_true, false_iff]
          intro h
          cases h
        | cons d s =>
          have hok := hok d
          simp only [leafOf] at hok
          simp only [accepts, leafOf, Bool.and_eq_true]
          rw [hok, ihA _ h2 s]
          constructor
          · rintro ⟨⟨a, b, c⟩, e⟩
            exact .set a b c e
          · intro h
            cases h with
            | set a b c e => exact ⟨⟨a, b, c⟩, e⟩
    refine ⟨hA, fun hs s => ?_⟩
    by_cases hx : isStar x = true
    · have : x = .star := by
        cases x <;> simp [isStar] at hx ⊢
      subst this
      rw [fits_star_star, ← ihB hs.2 s]
      simp [leaves, isStar]
    · have : leaves f false true (x :: ps) = leaves f false false (x :: ps) := by
        simp only [leaves, Bool.and_true, Bool.and_false, if_neg hx, Bool.false_eq_true, if_false]
      rw [this]
      exact star_iff (by simp) (hA false hs) s

/-! ## C71 -/

/-- C71: `fnmatch` returns 0 when the string matches the pattern as POSIX says, and `FNM_NOMATCH` otherwise, reading nothing
outside of the two strings. Missing: backslashes (`C71_escape_violation`), the patterns excluded by `Supported`
(`C71_period_violation`, `C71_component_violation`, `C71_slash_violation`) and bracket expressions with special characters or
classes (`C71_bracket_violation`, `C71_class_violation`, `C71_overread_violation`). -/
theorem C71_fnmatch_partial {m : Mem UInt8} {f : Flags} {p q : Nat} {ps : List Part} {s : List UInt8}
    (hg : ∀ x ∈ ps, x.Good) (hs : Supported f true ps) (hp : CStr m p (ps.flatMap Part.text)) (hq : CStr m q s) :
    (Fits f true ps s → fnmatch m p q f = some 0) ∧ (¬ Fits f true ps s → fnmatch m p q f = some 1) := by
  have h := (accepts_iff (f := f) ps).1 true hs s
  unfold fnmatch
  rw [strlen_eq hq]
  simp only [Option.bind_eq_bind, Option.bind_some]
  rw [hq.1.readN, tokenize_eq hg hp]
  simp only [Option.bind_some]
  rw [← h]
  constructor
  · intro h
    rw [if_pos h]
  · intro h
    rw [if_neg h]

/-! ## What is wrong -/

theorem tok_step {m : Mem UInt8} {f : Flags} {p q : Nat} {lead c lead' c' : Bool} {leaf : Option Leaf} {r : List Leaf}
    (h : tokStep m f p lead c = some (some (leaf, q, lead', c'))) (hr : tokenize m f q lead' c' = some r) :
    tokenize m f p lead c = some (leaf.toList ++ r) := by
  rw [tokenize, h]
  simp [hr]

theorem tok_end {m : Mem UInt8} {f : Flags} {p : Nat} {lead c : Bool} (h : tokStep m f p lead c = some none) :
    tokenize m f p lead c = some [] := by
  rw [tokenize, h]

theorem br_step {m : Mem UInt8} {f : Flags} {lead : Bool} {p q : Nat} {list l : List UInt8} {r : List UInt8 × Nat} {c : UInt8}
    (h : m p = some c) (h0 : c ≠ 0 ∧ c ≠ 0x5D ∧ c ≠ 0x5C) (he : element m (p + 1) c = some (l, q))
    (hr : bracketLoop m f lead q (list ++ l.filter (canPush f lead)) = some r) : bracketLoop m f lead p list = some r := by
  rw [bracketLoop, h]
  simp [h0, he, hr]

theorem br_end {m : Mem UInt8} {f : Flags} {lead : Bool} {p : Nat} {list : List UInt8} (h : m p = some 0x5D) :
    bracketLoop m f lead p list = some (list, p + 1) := by
  rw [bracketLoop, h]
  simp

theorem tok_set {m : Mem UInt8} {f : Flags} {lead c : Bool} {p q : Nat} {list : List UInt8} {n : UInt8} (h : m p = some 0x5B)
    (hn : m (p + 1) = some n) (hn2 : n ≠ 0x21) (hb : bracketLoop m f lead (p + 1) [] = some (list, q)) :
    tokStep m f p lead c = some (some (some (.oneOf false list, false), q, false, false)) := by
  unfold tokStep
  rw [h]
  simp [hn, hn2, hb]

theorem run {m : Mem UInt8} {f : Flags} {p q : Nat} {ts : List Leaf} {s : List UInt8} (ht : tokenize m f p true false = some ts)
    (hq : CStr m q s) : fnmatch m p q f = some (if accepts f.casefold ts s then 0 else 1) := by
  unfold fnmatch
  rw [strlen_eq hq]
  simp only [Option.bind_eq_bind, Option.bind_some]
  rw [hq.1.readN, ht]
  rfl

/-- Two strings in memory, from address 0. -/
def two (a b : List UInt8) : Mem UInt8 := ofList 0 (a ++ [0] ++ b ++ [0])

/-- No flags. -/
def noFlags : Flags := ⟨false, false, false, false⟩

/-- C71 fails for backslashes: the flag is looked at the wrong way round. Without flags `\*` does not match the string `*`; with
`FNM_NOESCAPE`, where it should not, it does. -/
theorem C71_escape_violation :
    fnmatch (two [0x5C, 0x2A] [0x2A]) 0 3 noFlags = some 1 ∧
      fnmatch (two [0x5C, 0x2A] [0x2A]) 0 3 { noFlags with noescape := true } = some 0 := by
  have hq : CStr (two [0x5C, 0x2A] [0x2A]) 3 [0x2A] := ⟨⟨rfl, trivial⟩, rfl, by decide⟩
  constructor
  · rw [run (tok_step rfl (tok_step rfl (tok_end rfl))) hq]
    rfl
  · rw [run (tok_step rfl (tok_end rfl)) hq]
    rfl

/-- C71 fails with `FNM_PERIOD` for a star at the beginning: `*` does not match the string `a.b`. -/
theorem C71_period_violation :
    Fits { noFlags with period := true } true [.star] [0x61, 0x2E, 0x62] ∧
      fnmatch (two [0x2A] [0x61, 0x2E, 0x62]) 0 2 { noFlags with period := true } = some 1 := by
  constructor
  · exact .star (l := [0x61, 0x2E, 0x62]) (s := []) (by simp [noFlags]) (by simp) .nil
  · rw [run (s := [0x61, 0x2E, 0x62]) (tok_step rfl (tok_end rfl)) ⟨⟨rfl, rfl, rfl, trivial⟩, rfl, by decide⟩]
    rfl

/-- C71 fails with `FNM_PERIOD` for a star before a period: `*.c` matches the string `.c`. -/
theorem C71_component_violation :
    ¬ Fits { noFlags with period := true } true [.star, .lit 0x2E, .lit 0x63] [0x2E, 0x63] ∧
      fnmatch (two [0x2A, 0x2E, 0x63] [0x2E, 0x63]) 0 4 { noFlags with period := true } = some 0 := by
  constructor
  · intro h
    generalize hs : ([0x2E, 0x63] : List UInt8) = s at h
    cases h with
    | star h1 h2 h3 => exact h2 rfl rfl (by rw [← hs]; rfl)
  · rw [run (s := [0x2E, 0x63]) (tok_step rfl (tok_step rfl (tok_step rfl (tok_end rfl)))) ⟨⟨rfl, rfl, trivial⟩, rfl, by decide⟩]
    rfl

/-- C71 fails with `FNM_PATHNAME` for a negated bracket expression: `[!a]` matches the string `/`. -/
theorem C71_slash_violation :
    ¬ Fits { noFlags with pathname := true } true [.set true [.one 0x61]] [0x2F] ∧
      fnmatch (two [0x5B, 0x21, 0x61, 0x5D] [0x2F]) 0 5 { noFlags with pathname := true } = some 0 := by
  constructor
  · intro h
    cases h with
    | set h1 _ _ _ => exact h1 rfl rfl
  · have ht := tokenize_eq (m := two [0x5B, 0x21, 0x61, 0x5D] [0x2F]) (f := { noFlags with pathname := true })
      (ps := [.set true [.one 0x61]]) (p := 0) (lead := true) (collapse := false)
      (by
        intro p hp
        rw [List.mem_singleton] at hp
        subst hp
        refine ⟨by simp, ?_, by simp⟩
        intro e he
        rw [List.mem_singleton] at he
        subst he
        simp [Elem.Good, Simple]) ⟨⟨rfl, rfl, rfl, rfl, trivial⟩, rfl, by decide⟩
    rw [run (s := [0x2F]) ht ⟨⟨rfl, trivial⟩, rfl, by decide⟩]
    rfl

/-- C71 fails for a bracket that is the first character of a bracket expression: `[]a]` does not match the string `a`. -/
theorem C71_bracket_violation : fnmatch (two [0x5B, 0x5D, 0x61, 0x5D] [0x61]) 0 5 noFlags = some 1 := by
  rw [run (s := [0x61]) (tok_step (tok_set rfl rfl (by decide) (br_end rfl)) (tok_step rfl (tok_step rfl (tok_end rfl))))
    ⟨⟨rfl, trivial⟩, rfl, by decide⟩]
  rfl

/-- C71 fails for character classes: `[[:d:]]` (as `[[:digit:]]`) is read as a choice of `[`, `:` and `d`, followed by `]`. -/
theorem C71_class_violation : fnmatch (two [0x5B, 0x5B, 0x3A, 0x64, 0x3A, 0x5D, 0x5D] [0x64, 0x5D]) 0 8 noFlags = some 0 := by
  rw [run (s := [0x64, 0x5D]) (tok_step (tok_set rfl rfl (by decide) (br_step rfl (by decide) rfl (br_step rfl (by decide) rfl
    (br_step rfl (by decide) rfl (br_step rfl (by decide) rfl (br_end rfl)))))) (tok_step rfl (tok_end rfl)))
    ⟨⟨rfl, rfl, trivial⟩, rfl, by decide⟩]
  rfl

/-- C71 fails for the pattern `[\`: it is read beyond its end. -/
theorem C71_overread_violation (f : Flags) : fnmatch (two [0x61] [0x5B, 0x5C]) 2 0 f = none := by
  have hq : CStr (two [0x61] [0x5B, 0x5C]) 0 [0x61] := ⟨⟨rfl, trivial⟩, rfl, by decide⟩
  have hb : bracketLoop (two [0x61] [0x5B, 0x5C]) f true 3 [] = some ([], 5) := by
    rw [bracketLoop]
    rfl
  have ht : tokenize (two [0x61] [0x5B, 0x5C]) f 2 true false = none := by
    rw [tokenize, tok_set (n := 0x5C) rfl rfl (by decide) hb]
    simp only
    rw [tokenize]
    rfl
  unfold fnmatch
  rw [strlen_eq hq]
  simp only [Option.bind_eq_bind, Option.bind_some]
  rw [hq.1.readN, ht]
  rfl

/-! ## Example -/

/-- `a*[b-d]?` matches `axyzc/`. -/
example : fnmatch (two [0x61, 0x2A, 0x5B, 0x62, 0x2D, 0x64, 0x5D, 0x3F] [0x61, 0x78, 0x79, 0x7A, 0x63, 0x2F]) 0 9 noFlags = some 0 := by
  refine (C71_fnmatch_partial (ps := [.lit 0x61, .star, .set false [.range 0x62 0x64], .any])
    (s := [0x61, 0x78, 0x79, 0x7A, 0x63, 0x2F]) ?_ ?_ ⟨⟨rfl, rfl, rfl, rfl, rfl, rfl, rfl, rfl, trivial⟩, rfl, by decide⟩
    ⟨⟨rfl, rfl, rfl, rfl, rfl, rfl, trivial⟩, rfl, by decide⟩).1 ?_
  · simp [Part.Good, Elem.Good, Simple, Elem.text]
  · simp [Supported, noFlags]
  · refine .lit (.inl rfl) (.star (l := [0x78, 0x79, 0x7A]) (by simp [noFlags]) (by simp [noFlags]) ?_)
    refine .set (by simp [noFlags]) (by simp) ?_ (.any (by simp [noFlags]) (by simp) .nil)
    simp only [Bool.false_eq_true, false_iff, Classical.not_not]
    exact ⟨0x63, ⟨_, List.mem_singleton.2 rfl, by decide, by decide⟩, .inl rfl⟩

end Verif.Fnmatch
