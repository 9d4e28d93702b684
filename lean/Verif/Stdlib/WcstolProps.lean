import Verif.Stdlib.WcstolModel
import Verif.Stdlib.StrtolProps
import Verif.Ctype.Props
/-!
# Conversion of wide numerals (C54)
-/

namespace Verif.Stdlib
open Verif.Mem Verif.Ctype

/-! ## Specification -/

/-- Wide characters. -/
def wide : Chars Int32 where
  digit c :=
    if 48 ≤ c.toInt ∧ c.toInt ≤ 57 then some (c.toInt - 48).toNat
    else if 97 ≤ c.toInt ∧ c.toInt ≤ 122 then some (c.toInt - 97 + 10).toNat
    else if 65 ≤ c.toInt ∧ c.toInt ≤ 90 then some (c.toInt - 65 + 10).toNat
    else none
  space c := c ∈ ([32, 9, 10, 11, 12, 13] : List Int32)
  plus := 43
  minus := 45
  zero := 48
  x := 120
  X := 88

/-! ## Lemmas -/

theorem isspace_wide (c : Int32) : isspace c ≠ 0 ↔ wide.space c := by
  simp only [isspace, wide, List.mem_cons, List.not_mem_nil, or_false]
  unfold ofBool
  split
  · rename_i h
    simp only [Bool.or_eq_true, decide_eq_true_eq] at h
    refine iff_of_true (by decide) ?_
    grind
  · rename_i h
    simp only [Bool.or_eq_true, decide_eq_true_eq] at h
    refine iff_of_false (by simp) ?_
    grind

theorem wdigit_ne {c : Int32} (h : wide.digit c ≠ none) :
    ¬ wide.space c ∧ c ≠ 0 ∧ c ≠ 43 ∧ c ≠ 45 := by
  have hc : 48 ≤ c.toInt := by
    simp only [wide] at h
    split at h
    · omega
    · split at h
      · omega
      · split at h
        · omega
        · exact absurd rfl h
  have ne : ∀ d : Int32, d.toInt < 48 → c ≠ d := by rintro d hd rfl; omega
  refine ⟨?_, ne _ (by decide), ne _ (by decide), ne _ (by decide)⟩
  simp only [wide, List.mem_cons, List.not_mem_nil, or_false, not_or]
  exact ⟨ne _ (by decide), ne _ (by decide), ne _ (by decide), ne _ (by decide), ne _ (by decide), ne _ (by decide)⟩

theorem toDigit_eq (c : Int32) {b : Nat} (hb : 2 ≤ b ∧ b ≤ 36) :
    toDigit c b = some (match wide.digit c with | some k => if k < b then some k else none | none => none) := by
  unfold toDigit
  rw [if_pos (by omega)]
  have : (if 48 ≤ c.toInt ∧ c.toInt ≤ 57 then some (c.toInt - 48).toNat
      else if 97 ≤ c.toInt ∧ c.toInt ≤ 122 then some (c.toInt - 87).toNat
      else if 65 ≤ c.toInt ∧ c.toInt ≤ 90 then some (c.toInt - 55).toNat
      else none) = wide.digit c := by
    simp only [wide]
    split
    · rfl
    · split
      · congr 1; omega
      · split
        · congr 1; omega
        · rfl
  simp only [this]
  cases wide.digit c with
  | none => rfl
  | some k =>
    simp only
    by_cases h : k < b
    · rw [if_pos (by omega), if_pos h]
    · rw [if_neg (by omega), if_neg h]

/-- What ends a numeral. -/
def WStops (b : Nat) (c : Int32) : Prop := ∀ k, wide.digit c = some k → b ≤ k

/-- The digit loop, on a numeral whose value fits. -/
theorem wdigits_eq {lo hi : Int} {sub : Bool} {m : Mem Int32} {b : Nat} (hb : 2 ≤ b ∧ b ≤ 36)
    (hlo : lo ≤ 0) (hhi : 0 ≤ hi) (ds : List Int32) (vs : List Nat) (u p : Nat)
    (h : Bytes m p ds) (e : ds.map wide.digit = vs.map some) (hd : ∀ d ∈ vs, d < b)
    {c : Int32} (hc : m (p + ds.length) = some c) (hs : WStops b c)
    (hf : lo ≤ signedValue sub (vs.foldl (fun n d => n * b + d) u)
      ∧ signedValue sub (vs.foldl (fun n d => n * b + d) u) ≤ hi) :
    wdigits lo hi sub m b p (signedValue sub u)
      = some (some (signedValue sub (vs.foldl (fun n d => n * b + d) u), p + ds.length)) := by
  induction ds generalizing vs u p with
  | nil =>
    have : vs = [] := by cases vs <;> simp_all
    subst this
    simp only [List.length_nil, Nat.add_zero] at hc
    rw [wdigits, hc]
    simp only [Option.bind_eq_bind, Option.bind_some, toDigit_eq c hb]
    cases hk : wide.digit c with
    | none => simp
    | some k => have := hs k hk; simp [Nat.not_lt.2 this]
  | cons a ds ih =>
    cases vs with
    | nil => simp at e
    | cons d vs =>
      simp only [List.map_cons, List.cons.injEq] at e
      have hd0 := hd d (by simp)
      simp only [List.foldl_cons] at hf ⊢
      have mono := foldl_mono b (by omega) vs (u * b + d)
      have hc' : m (p + 1 + ds.length) = some c := by
        rw [← hc]; congr 1; simp only [List.length_cons]; omega
      have ih' := ih vs (u * b + d) (p + 1) h.2 e.2 (fun x hx => hd x (by simp [hx])) hc' hf
      rw [wdigits, h.1]
      simp only [Option.bind_eq_bind, Option.bind_some, toDigit_eq a hb, e.1]
      simp only [if_pos hd0]
      have hmul : signedValue sub u * (b : Int) = signedValue sub (u * b) := by
        cases sub <;> simp [signedValue, Int.neg_mul]
      have hnew : (if sub = true then signedValue sub u * (b : Int) - d else signedValue sub u * (b : Int) + d)
          = signedValue sub (u * b + d) := by
        rw [hmul]
        cases sub
        · simp [signedValue]
        · simp only [signedValue, if_true]; omega
      rw [hnew, hmul]
      rw [if_pos, ih']
      · simp only [List.length_cons]
        rw [show p + 1 + ds.length = p + (ds.length + 1) by omega]
      · cases sub <;> simp only [signedValue, if_true, if_false, Bool.false_eq_true] at * <;> omega

/-- The digit loop, on a numeral whose value does not fit. -/
theorem wdigits_over {lo hi : Int} {sub : Bool} {m : Mem Int32} {b : Nat} (hb : 2 ≤ b ∧ b ≤ 36)
    (ds : List Int32) (vs : List Nat) (u p : Nat)
    (h : Bytes m p ds) (e : ds.map wide.digit = vs.map some) (hd : ∀ d ∈ vs, d < b)
    (hu : lo ≤ signedValue sub u ∧ signedValue sub u ≤ hi)
    (hf : ¬ (lo ≤ signedValue sub (vs.foldl (fun n d => n * b + d) u)
      ∧ signedValue sub (vs.foldl (fun n d => n * b + d) u) ≤ hi)) :
    wdigits lo hi sub m b p (signedValue sub u) = some none := by
  induction ds generalizing vs u p with
  | nil =>
    have : vs = [] := by cases vs <;> simp_all
    subst this
    exact absurd hu hf
  | cons a ds ih =>
    cases vs with
    | nil => simp at e
    | cons d vs =>
      simp only [List.map_cons, List.cons.injEq] at e
      have hd0 := hd d (by simp)
      simp only [List.foldl_cons] at hf
      rw [wdigits, h.1]
      simp only [Option.bind_eq_bind, Option.bind_some, toDigit_eq a hb, e.1]
      simp only [if_pos hd0]
      have hmul : signedValue sub u * (b : Int) = signedValue sub (u * b) := by
        cases sub <;> simp [signedValue, Int.neg_mul]
      have hnew : (if sub = true then signedValue sub u * (b : Int) - d else signedValue sub u * (b : Int) + d)
          = signedValue sub (u * b + d) := by
        rw [hmul]
        cases sub
        · simp [signedValue]
        · simp only [signedValue, if_true]; omega
      rw [hnew, hmul]
      split
      · rename_i hfit
        exact ih vs (u * b + d) (p + 1) h.2 e.2 (fun x hx => hd x (by simp [hx])) hfit.2 hf
      · rfl

theorem wskip_eq {m : Mem Int32} (ws : List Int32) (p : Nat) (h : Bytes m p ws)
    (hw : ∀ c ∈ ws, wide.space c) {c : Int32} (hc : m (p + ws.length) = some c) (hn : ¬ wide.space c) :
    wskip m p = some (p + ws.length) := by
  induction ws generalizing p with
  | nil =>
    simp only [List.length_nil, Nat.add_zero] at hc
    rw [wskip, hc]
    simp only [Option.bind_eq_bind, Option.bind_some]
    rw [if_neg (by rw [isspace_wide]; exact hn)]
    rfl
  | cons a ws ih =>
    rw [wskip, h.1]
    simp only [Option.bind_eq_bind, Option.bind_some]
    rw [if_pos ((isspace_wide a).2 (hw a (by simp)))]
    rw [ih (p + 1) h.2 (fun c hc => hw c (by simp [hc]))]
    · simp only [List.length_cons]; congr 1; omega
    · rw [← hc]; congr 1; simp only [List.length_cons]; omega

theorem CStr.wnext {m : Mem Int32} {p : Nat} {a r : List Int32} (h : CStr m p (a ++ r)) :
    m (p + a.length) = some (r.headD 0) := by
  have := h.drop
  cases r with
  | nil => exact this.nul
  | cons c r => exact this.head.1

theorem whead_digit {ds : List Int32} {vs : List Nat} (h3 : ds ≠ []) (h4 : ds.map wide.digit = vs.map some) :
    ∃ a k r, ds = a :: r ∧ wide.digit a = some k := by
  cases ds with
  | nil => exact absurd rfl h3
  | cons a r =>
    cases vs with
    | nil => simp at h4
    | cons k vs => simp only [List.map_cons, List.cons.injEq] at h4; exact ⟨a, k, r, rfl, h4.1⟩

/-- The common part: up to the digit loop. `q` is where the digits start. -/
theorem wcsto_eq (lo hi : Int) {m : Mem Int32} {p base : Nat} {s t body : List Int32}
    {neg : Bool} {v : Nat} (hm : CStr m p s) (hb : base = 0 ∨ 2 ≤ base ∧ base ≤ 36)
    (hs : Subject wide base s t neg body v) (hx : ¬ DanglingX wide base s t body) :
    ∃ (q : Nat) (ds : List Int32) (vs : List Nat) (b : Nat) (c : Int32), (2 ≤ b ∧ b ≤ 36) ∧ Bytes m q ds ∧ ds.map wide.digit = vs.map some
      ∧ (∀ d ∈ vs, d < b) ∧ m (q + ds.length) = some c ∧ WStops b c ∧ q + ds.length = p + t.length ∧ v = ofDigits b vs
      ∧ wcsto lo hi m p base = (wdigits lo hi (neg && decide (lo ≠ 0)) m b q 0).bind fun r => some (wfinish hi neg (decide (lo ≠ 0)) r) := by
  obtain ⟨ws, sgn, pre, ds, vs, b, rest, rfl, rfl, rfl, h1, h2, h3, h4, h5, h6, h7, hr⟩ := hs.rest
  obtain ⟨a, k, r, hds, hk⟩ := whead_digit h3 h4
  have digit48 : wide.digit 48 = some 0 := by decide
  have hb2 : 2 ≤ b ∧ b ≤ 36 := by cases h6 <;> omega
  have hfirst : ∃ c rr, pre ++ (ds ++ rest) = c :: rr ∧ wide.digit c ≠ none := by
    cases h6 with
    | given => exact ⟨a, r ++ rest, by simp [hds], by simp [hk]⟩
    | octal => exact ⟨a, r ++ rest, by simp [hds], by simp [hk]⟩
    | decimal => exact ⟨a, r ++ rest, by simp [hds], by simp [hk]⟩
    | hexLower => exact ⟨48, _, rfl, by simp [digit48]⟩
    | hexUpper => exact ⟨48, _, rfl, by simp [digit48]⟩
  obtain ⟨c0, rr, hc0, hcd⟩ := hfirst
  have nc := wdigit_ne hcd
  have hm1 : CStr m (p + ws.length) (sgn ++ (pre ++ (ds ++ rest))) := hm.drop
  have hm2 : CStr m (p + ws.length + sgn.length) (pre ++ (ds ++ rest)) := hm1.drop
  have hm3 : CStr m (p + ws.length + sgn.length + pre.length) (ds ++ rest) := hm2.drop
  have hstop : WStops b (rest.headD 0) := by
    intro k hk
    cases rest with
    | nil => simp [wide] at hk
    | cons c r => exact hr c k r rfl hk
  refine ⟨p + ws.length + sgn.length + pre.length, ds, vs, b, rest.headD 0, hb2, (bytes_append.1 hm3.1).1, h4, h5,
    CStr.wnext hm3, hstop, by simp only [List.length_append]; omega, h7, ?_⟩
  have hw : wskip m p = some (p + ws.length) := by
    refine wskip_eq (m := m) ws p (bytes_append.1 hm.1).1 h1 (CStr.wnext hm) ?_
    cases h2 with
    | none => rw [List.nil_append, hc0]; exact nc.1
    | plus => simp only [wide, List.cons_append, List.headD_cons]; decide
    | minus => simp only [wide, List.cons_append, List.headD_cons]; decide
  have hch : m (p + ws.length) = some ((sgn ++ (pre ++ (ds ++ rest))).headD 0) := CStr.wnext hm
  have hsg : ((sgn ++ (pre ++ (ds ++ rest))).headD 0 = 45 ↔ neg = true)
      ∧ (if decide ((sgn ++ (pre ++ (ds ++ rest))).headD 0 = 45) || decide ((sgn ++ (pre ++ (ds ++ rest))).headD 0 = 43)
          then p + ws.length + 1 else p + ws.length) = p + ws.length + sgn.length := by
    cases h2 with
    | none => rw [List.nil_append, hc0]; simp [nc.2.2.1, nc.2.2.2]
    | plus => simp [wide]
    | minus => simp [wide]
  have hdec : decide ((sgn ++ (pre ++ (ds ++ rest))).headD 0 = 45) = neg := by
    cases neg
    · exact decide_eq_false fun h => by simpa using hsg.1.1 h
    · exact decide_eq_true (hsg.1.2 rfl)
  have hneg := hsg.2
  rw [hdec] at hneg
  have hc1 : m (p + ws.length + sgn.length) = some c0 := by
    have := CStr.wnext (a := []) (r := pre ++ (ds ++ rest)) hm2
    rw [hc0] at this; simpa using this
  unfold wcsto
  simp only [hw, hch, Option.bind_eq_bind, Option.bind_some, hdec, hneg]
  generalize hq : p + ws.length + sgn.length = q at *
  -- no `x` follows a lone `0`
  have nox : pre = [] → (base = 16 ∨ base = 0) → b ≤ 16 → c0 = 48 →
      (r ++ rest).headD 0 ≠ 120 ∧ (r ++ rest).headD 0 ≠ 88 := by
    rintro rfl h16 hb16 rfl
    have ha : a = 48 := by rw [hds] at hc0; simp at hc0; exact hc0.1
    subst hds; subst ha
    cases r with
    | nil =>
      cases rest with
      | nil => decide
      | cons c rest =>
        simp only [List.nil_append, List.headD_cons]
        refine ⟨?_, ?_⟩
        · rintro rfl
          exact hx ⟨h16, rfl, .inl ⟨rest, by simp [wide]⟩⟩
        · rintro rfl
          exact hx ⟨h16, rfl, .inr ⟨rest, by simp [wide]⟩⟩
    | cons c r =>
      simp only [List.cons_append, List.headD_cons]
      cases vs with
      | nil => simp at h4
      | cons v vs =>
        cases vs with
        | nil => simp at h4
        | cons v' vs =>
          simp only [List.map_cons, List.cons.injEq] at h4
          have := h5 v' (by simp)
          have x1 : wide.digit 120 = some 33 := by decide
          have x2 : wide.digit 88 = some 33 := by decide
          refine ⟨?_, ?_⟩
          · rintro rfl
            have h := h4.2.1
            rw [x1] at h
            have := Option.some.inj h
            omega
          · rintro rfl
            have h := h4.2.1
            rw [x2] at h
            have := Option.some.inj h
            omega
  have second : pre = [] → m (q + 1) = some ((r ++ rest).headD 0) := by
    rintro rfl
    exact CStr.wnext (a := [a]) (r := r ++ rest) (by simpa [hds] using hm2)
  -- the prefix
  cases h6 with
  | given hne =>
    have nx := nox rfl
    have hpre : wprefix m q (base : Int) = some false := by
      unfold wprefix
      by_cases e16 : base = 16
      · rw [if_pos (by omega), hc1, Option.bind_some]
        by_cases h48 : c0 = 48
        · have := nx (.inl e16) (by omega) h48
          rw [if_pos h48, second rfl, Option.bind_some]
          congr 1
          rw [decide_eq_false_iff_not]
          exact fun h => h.elim this.1 this.2
        · rw [if_neg h48]
      · rw [if_neg (by omega)]
    rw [hpre]
    simp only [Option.bind_some, Bool.false_eq_true, if_false, wbase]
    rw [if_neg (by omega)]
    simp only [List.length_nil, Nat.add_zero, Option.bind_some]
  | hexLower h =>
    have s2 := hm2.tail.head.1
    have hc48 : c0 = 48 := by have := hc0; simp [wide] at this; exact this.1.symm
    subst hc48
    have hpre : wprefix m q (base : Int) = some true := by
      unfold wprefix
      rw [if_pos (by omega), hc1, Option.bind_some, if_pos rfl, s2]
      rfl
    rw [hpre]
    simp only [Option.bind_some, if_true, wbase]
    rw [if_neg (by decide), Option.bind_some]
    rfl
  | hexUpper h =>
    have s2 := hm2.tail.head.1
    have hc48 : c0 = 48 := by have := hc0; simp [wide] at this; exact this.1.symm
    subst hc48
    have hpre : wprefix m q (base : Int) = some true := by
      unfold wprefix
      rw [if_pos (by omega), hc1, Option.bind_some, if_pos rfl, s2]
      rfl
    rw [hpre]
    simp only [Option.bind_some, if_true, wbase]
    rw [if_neg (by decide), Option.bind_some]
    rfl
  | octal h0 hz =>
    have hc48 : c0 = 48 := by
      subst hds
      simp [wide] at hz hc0
      rw [← hc0.1]; exact hz
    subst hc48; subst h0
    have nx := nox rfl (.inr rfl) (by omega) rfl
    have hpre : wprefix m q ((0 : Nat) : Int) = some false := by
      unfold wprefix
      rw [if_pos (by omega), hc1, Option.bind_some, if_pos rfl, second rfl, Option.bind_some]
      congr 1
      rw [decide_eq_false_iff_not]
      exact fun h => h.elim nx.1 nx.2
    rw [hpre]
    simp only [Option.bind_some, Bool.false_eq_true, if_false, wbase]
    rw [if_pos (by decide), hc1]
    simp only [Option.bind_some]
    rfl
  | decimal h0 hz =>
    have hc48 : c0 ≠ 48 := by
      subst hds
      simp [wide] at hz hc0
      rw [← hc0.1]; exact hz
    subst h0
    have hpre : wprefix m q ((0 : Nat) : Int) = some false := by
      unfold wprefix
      rw [if_pos (by omega), hc1, Option.bind_some, if_neg hc48]
    rw [hpre]
    simp only [Option.bind_some, Bool.false_eq_true, if_false, wbase]
    rw [if_pos (by decide), hc1]
    simp only [Option.bind_some]
    rw [if_neg hc48]
    rfl

/-! ## C54 -/

/-- C54, `wcstol`, `wcstoll`, `wcstoimax`: on a numeral whose value is representable, the value, the end pointer and
`errno` are right.

Not covered: values that do not fit (`C54_overflow_violation`), `0x` without digits (`C54_hex_violation`), texts
without a numeral (`C54_no_conversion_violation`). -/
theorem C54_wcstol_partial {m : Mem Int32} {p base : Nat} {s t body : List Int32} {neg : Bool} {v : Nat}
    (hm : CStr m p s) (hb : base = 0 ∨ 2 ≤ base ∧ base ≤ 36) (hs : Subject wide base s t neg body v)
    (hx : ¬ DanglingX wide base s t body) (hr : -2 ^ 63 ≤ signedValue neg v ∧ signedValue neg v ≤ 2 ^ 63 - 1) :
    wcstol m p base = some ⟨signedValue neg v, some (p + t.length), none⟩ := by
  obtain ⟨q, ds, vs, b, c, h1, h2, h3, h4, h5, h6, h7, h8, e⟩ := wcsto_eq (-2 ^ 63) (2 ^ 63 - 1) hm hb hs hx
  have d : decide ((-2 : Int) ^ 63 ≠ 0) = true := by decide
  have d' : decide (-2 ^ 63 ≠ (0 : Int)) = true := by decide
  have w := wdigits_eq (lo := -2 ^ 63) (hi := 2 ^ 63 - 1) (sub := neg) h1 (by decide) (by decide) ds vs 0 q h2 h3 h4 h5
    h6 (by rw [show vs.foldl (fun n d => n * b + d) 0 = v from h8.symm]; exact hr)
  have z : signedValue neg 0 = 0 := by cases neg <;> rfl
  rw [z, show vs.foldl (fun n d => n * b + d) 0 = v from h8.symm, h7] at w
  unfold wcstol
  rw [e]
  simp only [d', Bool.and_true, w, Option.bind_some, wfinish, Bool.not_true, Bool.and_false, Bool.false_eq_true,
    if_false]

/-- C54, `wcstoul`, `wcstoull`, `wcstoumax`: on a numeral whose absolute value is representable. -/
theorem C54_wcstoul_partial {m : Mem Int32} {p base : Nat} {s t body : List Int32} {neg : Bool} {v : Nat}
    (hm : CStr m p s) (hb : base = 0 ∨ 2 ≤ base ∧ base ≤ 36) (hs : Subject wide base s t neg body v)
    (hx : ¬ DanglingX wide base s t body) (hr : v < 2 ^ 64) :
    wcstoul m p base = some ⟨signedValue neg v % 2 ^ 64, some (p + t.length), none⟩ := by
  obtain ⟨q, ds, vs, b, c, h1, h2, h3, h4, h5, h6, h7, h8, e⟩ := wcsto_eq 0 (2 ^ 64 - 1) hm hb hs hx
  have w := wdigits_eq (lo := 0) (hi := 2 ^ 64 - 1) (sub := false) h1 (by decide) (by decide) ds vs 0 q h2 h3 h4 h5
    h6 (by rw [show vs.foldl (fun n d => n * b + d) 0 = v from h8.symm]; simp only [signedValue, Bool.false_eq_true, if_false]; omega)
  rw [show signedValue false 0 = 0 from rfl, show vs.foldl (fun n d => n * b + d) 0 = v from h8.symm, h7] at w
  unfold wcstoul
  rw [e]
  have d : decide ((0 : Int) ≠ 0) = false := by decide
  simp only [d, Bool.and_false, w, wfinish, Bool.not_false, Bool.and_true, Option.bind_some]
  cases neg
  · simp only [signedValue, Bool.false_eq_true, if_false]
    rw [show (v : Int) % 2 ^ 64 = v by omega]
  · simp only [signedValue, Bool.false_eq_true, if_false, if_true]
    rw [show (2 ^ 64 - 1 - (v : Int) + 1) % (2 ^ 64 - 1 + 1) = -(v : Int) % 2 ^ 64 by omega]

/-- C54: a value that does not fit: `errno` is `ERANGE`, and the unsigned functions return the maximum. (The end
pointer is not stored, and the signed functions return −1: `C54_overflow_violation`.) -/
theorem C54_overflow_partial {m : Mem Int32} {p base : Nat} {s t body : List Int32} {neg : Bool} {v : Nat}
    (hm : CStr m p s) (hb : base = 0 ∨ 2 ≤ base ∧ base ≤ 36) (hs : Subject wide base s t neg body v)
    (hx : ¬ DanglingX wide base s t body) :
    (¬ (-2 ^ 63 ≤ signedValue neg v ∧ signedValue neg v ≤ 2 ^ 63 - 1) →
      wcstol m p base = some ⟨-1, none, some .ERANGE⟩)
    ∧ (2 ^ 64 ≤ v → wcstoul m p base = some ⟨2 ^ 64 - 1, none, some .ERANGE⟩) := by
  refine ⟨fun hr => ?_, fun hr => ?_⟩
  · obtain ⟨q, ds, vs, b, c, h1, h2, h3, h4, h5, h6, h7, h8, e⟩ := wcsto_eq (-2 ^ 63) (2 ^ 63 - 1) hm hb hs hx
    have d' : decide (-2 ^ 63 ≠ (0 : Int)) = true := by decide
    have z : signedValue neg 0 = 0 := by cases neg <;> rfl
    have w := wdigits_over (lo := -2 ^ 63) (hi := 2 ^ 63 - 1) (sub := neg) h1 ds vs 0 q h2 h3 h4
      (by rw [z]; decide) (by rw [show vs.foldl (fun n d => n * b + d) 0 = v from h8.symm]; exact hr)
    rw [z] at w
    unfold wcstol
    rw [e]
    simp only [d', Bool.and_true, w, Option.bind_some]
    rfl
  · obtain ⟨q, ds, vs, b, c, h1, h2, h3, h4, h5, h6, h7, h8, e⟩ := wcsto_eq 0 (2 ^ 64 - 1) hm hb hs hx
    have w := wdigits_over (lo := 0) (hi := 2 ^ 64 - 1) (sub := false) h1 ds vs 0 q h2 h3 h4
      (by decide) (by rw [show vs.foldl (fun n d => n * b + d) 0 = v from h8.symm]; simp only [signedValue, Bool.false_eq_true, if_false]; omega)
    rw [show signedValue false 0 = 0 from rfl] at w
    unfold wcstoul
    rw [e]
    have d : decide ((0 : Int) ≠ 0) = false := by decide
    simp only [d, Bool.and_false, w, Option.bind_some]
    rfl

theorem wcstr_ofList (p : Nat) (s : List Int32) (h : (0 : Int32) ∉ s) : CStr (ofList p (s ++ [0])) p s :=
  cstr_iff.2 ⟨bytes_ofList .., h⟩

/-- A text of digits, in base 10. -/
theorem wsubject_decimal (ds : List Int32) (vs : List Nat) (h : ds.map wide.digit = vs.map some)
    (hd : ∀ d ∈ vs, d < 10) (hn : ds ≠ []) : Subject wide 10 ds ds false ds (ofDigits 10 vs) :=
  ⟨⟨[], [], [], ds, vs, 10, rfl, rfl, by simp, .none, hn, h, hd, .given (by decide), rfl⟩, ⟨[], by simp⟩,
    fun _ _ _ _ _ h => h.length_le⟩

-- `wcstol(L"120", &end, 10)`
example : wcstol (ofList 7 [49, 50, 48, 0]) 7 10 = some ⟨120, some 10, none⟩ :=
  C54_wcstol_partial (base := 10) (wcstr_ofList 7 [49, 50, 48] (by decide)) (.inr (by decide))
    (wsubject_decimal [49, 50, 48] [1, 2, 0] (by decide +kernel) (by decide) (by decide)) (by simp [DanglingX])
    (by decide)

/-- 9223372036854775808 -/
def wlongDigits : List Int32 := [57, 50, 50, 51, 51, 55, 50, 48, 51, 54, 56, 53, 52, 55, 55, 53, 56, 48, 56]

/-- C54 fails on overflow: `wcstol(L"9223372036854775808", &end, 10)` returns −1 instead of `LONG_MAX`, and does not
store the end pointer. -/
theorem C54_overflow_violation :
    Subject wide 10 wlongDigits wlongDigits false wlongDigits (2 ^ 63)
      ∧ wcstol (ofList 0 (wlongDigits ++ [0])) 0 10 = some ⟨-1, none, some .ERANGE⟩ := by
  have h := wsubject_decimal wlongDigits [9,2,2,3,3,7,2,0,3,6,8,5,4,7,7,5,8,0,8] (by decide +kernel) (by decide)
    (by decide)
  have ev : ofDigits 10 [9,2,2,3,3,7,2,0,3,6,8,5,4,7,7,5,8,0,8] = 2 ^ 63 := by decide
  rw [ev] at h
  exact ⟨h, (C54_overflow_partial (base := 10) (wcstr_ofList 0 wlongDigits (by decide)) (.inr (by decide)) h
    (by simp [DanglingX])).1 (by decide)⟩

theorem wdigits_stop (lo hi : Int) (sub : Bool) {m : Mem Int32} {b p : Nat} (hb : 2 ≤ b ∧ b ≤ 36) {c : Int32}
    (hc : m p = some c) (hs : WStops b c) (u : Int) : wdigits lo hi sub m b p u = some (some (u, p)) := by
  rw [wdigits, hc]
  simp only [Option.bind_eq_bind, Option.bind_some, toDigit_eq c hb]
  cases hk : wide.digit c with
  | none => simp
  | some k => have := hs k hk; simp [Nat.not_lt.2 this]

/-- C54 fails without a numeral: `wcstol(L" +", &end, 10)` stores the address after the sign, not the start. -/
theorem C54_no_conversion_violation :
    NoSubject wide 10 [32, 43] ∧ wcstol (ofList 0 [32, 43, 0]) 0 10 = some ⟨0, some 2, none⟩ := by
  constructor
  · rintro t neg body v ⟨ws, sgn, pre, ds, vs, b, rfl, rfl, -, -, h3, h4, -⟩ hp
    obtain ⟨a, k, r, rfl, hk⟩ := whead_digit h3 h4
    have : a ∈ ([32, 43] : List Int32) := hp.subset (by simp)
    have x1 : wide.digit 32 = none := by decide
    have x2 : wide.digit 43 = none := by decide
    simp only [List.mem_cons, List.not_mem_nil, or_false] at this
    rcases this with rfl | rfl
    · rw [x1] at hk; simp at hk
    · rw [x2] at hk; simp at hk
  · have e0 : (ofList 0 [32, 43, 0] : Mem Int32) 0 = some 32 := rfl
    have e1 : (ofList 0 [32, 43, 0] : Mem Int32) 1 = some 43 := rfl
    have e2 : (ofList 0 [32, 43, 0] : Mem Int32) 2 = some 0 := rfl
    have hw := wskip_eq (m := ofList 0 [32, 43, 0]) [32] 0 ⟨e0, trivial⟩ (by simp [wide]) (c := 43) e1
      (by simp only [wide]; decide)
    have hd := wdigits_stop (-2 ^ 63) (2 ^ 63 - 1) false (m := ofList 0 [32, 43, 0]) (b := 10) (p := 2) (by decide) e2
      (fun k hk => by simp [wide] at hk) 0
    unfold wcstol wcsto
    simp only [hw, Option.bind_eq_bind, Option.bind_some, List.length_singleton, Nat.zero_add, e1]
    simp only [show decide ((43 : Int32) = 45) = false from rfl, Bool.false_or, Bool.false_and]
    simp only [decide_true, if_true]
    have hp : wprefix (ofList 0 [32, 43, 0]) (1 + 1) 10 = some false := rfl
    rw [hp]
    simp only [Option.bind_some, Bool.false_eq_true, if_false]
    have hb : wbase (ofList 0 [32, 43, 0]) (1 + 1) 10 = some 10 := rfl
    rw [hb]
    simp only [Option.bind_some]
    exact congrArg (fun o => Option.bind o _) hd

/-- C54 fails for `0x` without a digit: the subject sequence of `0x` is `0`, the end pointer must be 1. -/
theorem C54_hex_violation :
    Subject wide 16 [48, 120] [48] false [48] 0
      ∧ wcstol (ofList 0 [48, 120, 0]) 0 16 = some ⟨0, some 2, none⟩ := by
  refine ⟨⟨⟨[], [], [], [48], [0], 16, rfl, rfl, by simp, .none, by simp, by decide, by decide,
    .given (by decide), rfl⟩, ⟨[120], by simp⟩, ?_⟩, ?_⟩
  · intro t' neg' body' v' hf' hp
    rcases Nat.lt_or_ge 1 t'.length with h | h
    · exfalso
      have := hp.length_le
      have e := hp.eq_of_length (by simp at this ⊢; omega)
      obtain ⟨ws, sgn, pre, ds, vs, b, e1, e2, -, -, h3, h4, h5, h6, -⟩ := hf'
      have hl : ds.getLast h3 = 120 := by
        have e3 : (ws ++ (sgn ++ (pre ++ ds))).getLast (by simp [h3]) = 120 := by
          have : ws ++ (sgn ++ (pre ++ ds)) = [48, 120] := by rw [← e, e1, e2]
          simp only [this]; rfl
        rw [← e3]
        simp [h3]
      have hv : some 33 ∈ vs.map some := by
        rw [← h4, ← show wide.digit 120 = some 33 by decide, ← hl]
        exact List.mem_map_of_mem (List.getLast_mem h3)
      have hv : (33 : Nat) ∈ vs := by simpa using hv
      have := h5 33 hv
      have hb : b ≤ 16 := by cases h6 <;> omega
      omega
    · exact h
  · have e0 : (ofList 0 [48, 120, 0] : Mem Int32) 0 = some 48 := rfl
    have e1 : (ofList 0 [48, 120, 0] : Mem Int32) 1 = some 120 := rfl
    have e2 : (ofList 0 [48, 120, 0] : Mem Int32) 2 = some 0 := rfl
    have hw := wskip_eq (m := ofList 0 [48, 120, 0]) [] 0 trivial (by simp) (c := 48) e0
      (by simp only [wide]; decide)
    have hd := wdigits_stop (-2 ^ 63) (2 ^ 63 - 1) false (m := ofList 0 [48, 120, 0]) (b := 16) (p := 2) (by decide) e2
      (fun k hk => by simp [wide] at hk) 0
    unfold wcstol wcsto
    simp only [hw, Option.bind_eq_bind, Option.bind_some, List.length_nil, Nat.add_zero, e0]
    simp only [show decide ((48 : Int32) = 45) = false from rfl, show decide ((48 : Int32) = 43) = false from rfl,
      Bool.or_false, Bool.false_and, Bool.false_eq_true, if_false]
    have hp : wprefix (ofList 0 [48, 120, 0]) 0 16 = some true := rfl
    rw [hp]
    simp only [Option.bind_some, if_true]
    have hb : wbase (ofList 0 [48, 120, 0]) (0 + 2) 16 = some 16 := rfl
    rw [hb]
    simp only [Option.bind_some]
    exact congrArg (fun o => Option.bind o _) hd

end Verif.Stdlib
