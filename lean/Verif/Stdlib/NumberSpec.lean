/-!
# The subject sequence of the `strtol` and `wcstol` families

The grammar of the C standard: white space, an optional sign, an optional `0x` or `0X` (bases 16 and 0), digits.
It is stated over an arbitrary character type.
-/

namespace Verif.Stdlib

/-- The characters the grammar talks about. -/
structure Chars (α : Type) where
  /-- the value of a character as a digit, `a` to `z` and `A` to `Z` counting as 10 to 35 -/
  digit : α → Option Nat
  space : α → Prop
  plus : α
  minus : α
  zero : α
  x : α
  X : α

variable {α : Type} (A : Chars α)

/-- The number with the given digits, most significant first. -/
def ofDigits (b : Nat) (ds : List Nat) : Nat := ds.foldl (fun n d => n * b + d) 0

/-- `sgn` is a sign, standing for a negative number if `neg`. -/
inductive Sign : List α → Bool → Prop
  | none : Sign [] false
  | plus : Sign [A.plus] false
  | minus : Sign [A.minus] true

/-- In a conversion with base argument `base`, a body made of the prefix `pre` and the digits `ds` is in base `b`. -/
inductive BaseForm (base : Nat) : (pre ds : List α) → (b : Nat) → Prop
  | given {ds} (h : base ≠ 0) : BaseForm base [] ds base
  | hexLower {ds} (h : base = 16 ∨ base = 0) : BaseForm base [A.zero, A.x] ds 16
  | hexUpper {ds} (h : base = 16 ∨ base = 0) : BaseForm base [A.zero, A.X] ds 16
  | octal {ds} (h : base = 0) (hz : ds.head? = some A.zero) : BaseForm base [] ds 8
  | decimal {ds} (h : base = 0) (hz : ds.head? ≠ some A.zero) : BaseForm base [] ds 10

/-- `t` is a text of the expected form: what follows the blanks and the sign is `body`, the absolute value is `v`. -/
def Form (base : Nat) (t : List α) (neg : Bool) (body : List α) (v : Nat) : Prop :=
  ∃ ws sgn pre ds vs b, t = ws ++ (sgn ++ body) ∧ body = pre ++ ds ∧ (∀ c ∈ ws, A.space c) ∧ Sign A sgn neg
    ∧ ds ≠ [] ∧ ds.map A.digit = vs.map some ∧ (∀ d ∈ vs, d < b) ∧ BaseForm A base pre ds b ∧ v = ofDigits b vs

/-- The subject sequence of `s`: the longest initial part of it that is of the expected form. -/
def Subject (base : Nat) (s t : List α) (neg : Bool) (body : List α) (v : Nat) : Prop :=
  Form A base t neg body v ∧ t <+: s ∧ ∀ t' neg' body' v', Form A base t' neg' body' v' → t' <+: s → t'.length ≤ t.length

/-- No initial part of `s` is of the expected form. -/
def NoSubject (base : Nat) (s : List α) : Prop := ∀ t neg body v, Form A base t neg body v → ¬ t <+: s

/-- The text is `0x` without a digit after it: the subject sequence is `0` alone. -/
def DanglingX (base : Nat) (s t body : List α) : Prop :=
  (base = 16 ∨ base = 0) ∧ body = [A.zero] ∧ ((t ++ [A.x]) <+: s ∨ (t ++ [A.X]) <+: s)

variable {A}

theorem ofDigits_append (b : Nat) (ds : List Nat) (d : Nat) : ofDigits b (ds ++ [d]) = ofDigits b ds * b + d := by
  simp [ofDigits]

/-- After the subject sequence comes no digit of its base. -/
theorem Subject.rest {base : Nat} {s t : List α} {neg : Bool} {body : List α} {v : Nat}
    (h : Subject A base s t neg body v) :
    ∃ ws sgn pre ds vs b rest, s = ws ++ (sgn ++ (pre ++ (ds ++ rest))) ∧ t = ws ++ (sgn ++ (pre ++ ds))
      ∧ body = pre ++ ds ∧ (∀ c ∈ ws, A.space c) ∧ Sign A sgn neg ∧ ds ≠ []
      ∧ ds.map A.digit = vs.map some ∧ (∀ d ∈ vs, d < b) ∧ BaseForm A base pre ds b ∧ v = ofDigits b vs
      ∧ (∀ c k r, rest = c :: r → A.digit c = some k → b ≤ k) := by
  obtain ⟨⟨ws, sgn, pre, ds, vs, b, rfl, rfl, h1, h2, h3, h4, h5, h6, h7⟩, ⟨rest, rfl⟩, hl⟩ := h
  refine ⟨ws, sgn, pre, ds, vs, b, rest, by simp, rfl, rfl, h1, h2, h3, h4, h5, h6, h7, ?_⟩
  rintro c k r rfl hc
  rcases Nat.lt_or_ge k b with hk | hk
  · exfalso
    have h6' : BaseForm A base pre (ds ++ [c]) b := by
      cases ds with
      | nil => exact absurd rfl h3
      | cons a ds =>
        cases h6 with
        | given h => exact .given h
        | hexLower h => exact .hexLower h
        | hexUpper h => exact .hexUpper h
        | octal h hz => exact .octal h hz
        | decimal h hz => exact .decimal h hz
    have := hl (ws ++ (sgn ++ (pre ++ (ds ++ [c])))) neg (pre ++ (ds ++ [c])) (ofDigits b (vs ++ [k]))
      ⟨ws, sgn, pre, ds ++ [c], vs ++ [k], b, rfl, rfl, h1, h2, by simp, by simp [h4, hc], ?_, h6', rfl⟩
      ⟨r, by simp⟩
    · simp only [List.length_append, List.length_singleton] at this
      omega
    · intro d hd
      rcases List.mem_append.1 hd with hd | hd
      · exact h5 d hd
      · simp only [List.mem_singleton] at hd
        subst hd; exact hk
  · exact hk

end Verif.Stdlib
