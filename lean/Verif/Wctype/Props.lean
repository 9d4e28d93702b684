import Verif.Wctype.Model
/-!
# C143: wide characters
-/

namespace Verif.Wctype

/-! ## Evaluation of the tables -/

def allBelow : Nat → (Nat → Bool) → Bool
  | 0, _ => true
  | n + 1, f => f n && allBelow n f

theorem allBelow_iff {n : Nat} {f : Nat → Bool} (h : allBelow n f = true) : ∀ i, i < n → f i = true := by
  induction n with
  | zero => intro i hi; omega
  | succ n ih =>
    intro i hi
    rw [allBelow, Bool.and_eq_true] at h
    by_cases hn : i = n
    · rw [hn]; exact h.1
    · exact ih h.2 i (by omega)

/-- The byte `j` of block `b`. -/
def aByte (b j : Nat) : Option Nat := match entry alphaTable 8 3904 b with
  | none => none
  | some t => entry alphaTable 8 3904 (t * 32 + j)

def pByte (b j : Nat) : Option Nat := match entry punctTable 8 4000 b with
  | none => none
  | some t => entry punctTable 8 4000 (t * 32 + j)

def bytesOk (b j : Nat) : Bool := match aByte b j, pByte b j with
  | some x, some y => Nat.beq (x &&& y) 0
  | _, _ => false

theorem bytes_check : allBelow 512 (fun b => allBelow 32 (fun j => bytesOk b j)) = true := by decide +kernel

theorem alpha_byte {wc : Nat} (h : wc < 0x20000) : alphaIs wc = (aByte (wc >>> 8) ((wc % 256) >>> 3)).map (fun b => (b >>> (wc % 8)) % 2 == 1) := by
  unfold alphaIs aByte
  rw [if_pos h]
  cases entry alphaTable 8 3904 (wc >>> 8) with
  | none => rfl
  | some t =>
    dsimp only
    cases entry alphaTable 8 3904 (t * 32 + (wc % 256) >>> 3) <;> rfl

theorem punct_byte {wc : Nat} (h : wc < 0x20000) : punctIs wc = (pByte (wc >>> 8) ((wc % 256) >>> 3)).map (fun b => (b >>> (wc % 8)) % 2 == 1) := by
  unfold punctIs pByte
  rw [if_pos h]
  cases entry punctTable 8 4000 (wc >>> 8) with
  | none => rfl
  | some t =>
    dsimp only
    cases entry punctTable 8 4000 (t * 32 + (wc % 256) >>> 3) <;> rfl

theorem bytes_ok {wc : Nat} (h : wc < 0x20000) : bytesOk (wc >>> 8) ((wc % 256) >>> 3) = true := by
  have h1 : wc >>> 8 < 512 := by rw [Nat.shiftRight_eq_div_pow]; omega
  have h2 : (wc % 256) >>> 3 < 32 := by rw [Nat.shiftRight_eq_div_pow]; omega
  exact allBelow_iff (allBelow_iff bytes_check _ h1) _ h2

/-- Both tables have an answer for every number, and no number is in both. -/
theorem tables (wc : Nat) : ∃ a p, alphaIs wc = some a ∧ punctIs wc = some p ∧ ¬ (a = true ∧ p = true) := by
  by_cases h : wc < 0x20000
  · rw [alpha_byte h, punct_byte h]
    have := bytes_ok h
    unfold bytesOk at this
    cases ha : aByte (wc >>> 8) ((wc % 256) >>> 3) with
    | none => rw [ha] at this; cases this
    | some x =>
      cases hp : pByte (wc >>> 8) ((wc % 256) >>> 3) with
      | none => rw [ha, hp] at this; cases this
      | some y =>
        rw [ha, hp] at this
        dsimp only at this
        have h0 : x &&& y = 0 := Nat.eq_of_beq_eq_true this
        refine ⟨_, _, rfl, rfl, ?_⟩
        rintro ⟨h1, h2⟩
        rw [beq_iff_eq] at h1 h2
        have t1 : x.testBit (wc % 8) = true := by rw [Nat.testBit_eq_decide_div_mod_eq, ← Nat.shiftRight_eq_div_pow, h1]; rfl
        have t2 : y.testBit (wc % 8) = true := by rw [Nat.testBit_eq_decide_div_mod_eq, ← Nat.shiftRight_eq_div_pow, h2]; rfl
        have := Nat.testBit_and x y (wc % 8)
        rw [h0, t1, t2, Nat.zero_testBit] at this
        cases this
  · refine ⟨_, _, by unfold alphaIs; rw [if_neg h], by unfold punctIs; rw [if_neg h], ?_⟩
    simp

/-- In neither table. -/
def neither (wc : Nat) : Bool := match alphaIs wc, punctIs wc with
  | some false, some false => true
  | _, _ => false

theorem neither_low : allBelow 33 neither = true := by decide +kernel
theorem neither_del : allBelow 33 (fun i => neither (0x7F + i)) = true := by decide +kernel
theorem neither_line : allBelow 2 (fun i => neither (0x2028 + i)) = true := by decide +kernel
theorem neither_surrogates : allBelow 8 (fun b => allBelow 256 fun i => neither (0xD800 + (b * 256 + i))) = true := by decide +kernel
theorem neither_inter : allBelow 3 (fun i => neither (0xFFF9 + i)) = true := by decide +kernel
theorem neither_end : allBelow 2 (fun i => neither (0xFFFE + i) && neither (0x1FFFE + i)) = true := by decide +kernel
theorem neither_spaces : spaces.all neither = true := by decide +kernel
theorem digits_alpha : allBelow 10 (fun i => match alphaIs (0x30 + i), punctIs (0x30 + i) with
  | some false, some false => true
  | _, _ => false) = true := by decide +kernel

theorem and_fffe {wc : Nat} (h : wc &&& 0xFFFE = 0xFFFE) : 65534 ≤ wc % 65536 := by
  have h1 := congrArg (· / 2) h
  rw [Nat.and_div_two] at h1
  have h2 : wc / 2 &&& (2 ^ 15 - 1) = (wc / 2) % 2 ^ 15 := Nat.and_two_pow_sub_one_eq_mod _ _
  have h3 : (0xFFFE / 2 : Nat) = 2 ^ 15 - 1 := by decide
  rw [h3, h2] at h1
  omega

/-- What cannot be printed. -/
theorem not_print {wc : Nat} (hw : wc < 2 ^ 32) (h : iswprint wc = false) :
    wc < 0x20 ∨ 0x7F ≤ wc ∧ wc < 0xA0 ∨ 0x2028 ≤ wc ∧ wc < 0x202A ∨ 0xD800 ≤ wc ∧ wc < 0xE000 ∨ 0xFFF9 ≤ wc ∧ wc < 0xFFFC ∨ 0x10FFFF < wc ∨ 65534 ≤ wc % 65536 := by
  unfold iswprint wsub at h
  split at h
  · rw [decide_eq_false_iff_not] at h
    omega
  · split at h
    · cases h
    · rename_i h1 h2
      simp only [Bool.or_eq_true, decide_eq_true_eq, not_or] at h2
      split at h
      · rename_i h3
        simp only [Bool.or_eq_true, decide_eq_true_eq, beq_iff_eq] at h3
        rcases h3 with h3 | h3
        · omega
        · have := and_fffe h3
          omega
      · cases h

theorem alpha_high {wc : Nat} (h : 0x20000 ≤ wc) : alphaIs wc = some (decide (wc < 0x2FFFE)) ∧ punctIs wc = some false := by
  unfold alphaIs punctIs
  rw [if_neg (by omega), if_neg (by omega)]
  exact ⟨rfl, rfl⟩

theorem neither_iff {wc : Nat} (h : neither wc = true) : alphaIs wc = some false ∧ punctIs wc = some false := by
  unfold neither at h
  split at h
  · rename_i h1 h2
    exact ⟨h1, h2⟩
  · cases h

/-- Letters and punctuation can be printed, and are neither controls nor spaces. -/
theorem in_table {wc : Nat} (hw : wc < 2 ^ 32) (h : alphaIs wc = some true ∨ punctIs wc = some true) : iswprint wc = true ∧ iswcntrl wc = false ∧ iswspace wc = false := by
  have no : neither wc ≠ true := by
    intro hn
    have := neither_iff hn
    rcases h with h | h
    · rw [this.1] at h; cases h
    · rw [this.2] at h; cases h
  have r1 : ¬ wc < 0x21 := fun hl => no (allBelow_iff neither_low wc hl)
  have r2 : ¬ (0x7F ≤ wc ∧ wc < 0xA0) := fun hl => no (by have := allBelow_iff neither_del (wc - 0x7F) (by omega); rwa [show 0x7F + (wc - 0x7F) = wc by omega] at this)
  have r3 : ¬ (0x2028 ≤ wc ∧ wc < 0x202A) := fun hl => no (by have := allBelow_iff neither_line (wc - 0x2028) (by omega); rwa [show 0x2028 + (wc - 0x2028) = wc by omega] at this)
  have r4 : ¬ (0xD800 ≤ wc ∧ wc < 0xE000) := fun hl => no (by
    have := allBelow_iff (allBelow_iff neither_surrogates ((wc - 0xD800) / 256) (by omega)) ((wc - 0xD800) % 256) (by omega)
    rwa [show 0xD800 + ((wc - 0xD800) / 256 * 256 + (wc - 0xD800) % 256) = wc by omega] at this)
  have r5 : ¬ (0xFFF9 ≤ wc ∧ wc < 0xFFFC) := fun hl => no (by have := allBelow_iff neither_inter (wc - 0xFFF9) (by omega); rwa [show 0xFFF9 + (wc - 0xFFF9) = wc by omega] at this)
  have r6 : ¬ 65534 ≤ wc % 65536 ∨ 0x20000 ≤ wc := by
    by_cases hh : 0x20000 ≤ wc
    · exact .inr hh
    · left
      intro hm
      have := allBelow_iff neither_end (wc % 65536 - 65534) (by omega)
      rw [Bool.and_eq_true] at this
      by_cases hl : wc < 65536
      · exact no (by rw [show 0xFFFE + (wc % 65536 - 65534) = wc by omega] at this; exact this.1)
      · exact no (by rw [show 0x1FFFE + (wc % 65536 - 65534) = wc by omega] at this; exact this.2)
  have r7 : 0x20000 ≤ wc → wc < 0x2FFFE := by
    intro hh
    have := alpha_high hh
    rcases h with h | h
    · rw [this.1, Option.some.injEq, decide_eq_true_eq] at h
      exact h
    · rw [this.2] at h; cases h
  refine ⟨?_, ?_, ?_⟩
  · cases hp : iswprint wc with
    | true => rfl
    | false =>
      have := not_print hw hp
      omega
  · unfold iswcntrl wsub
    simp only [Bool.or_eq_false_iff, decide_eq_false_iff_not]
    omega
  · unfold iswspace
    rw [decide_eq_false_iff_not]
    intro hm
    exact no (List.all_eq_true.1 neither_spaces wc hm)

/-! ## Evaluation of the cases -/

/-- A block whose characters have no case. -/
def plain (b : Nat) : Bool := match entry tab 8 2666 b, entry rulebases 8 512 b with
  | some t, some base => Nat.beq t 6 && (match entry rules 32 240 base with
    | some r => Nat.beq r 0
    | none => false)
  | _, _ => false

/-- What is to hold of a character. -/
def caseOk (c : Nat) : Bool := match casemap c 0, casemap c 1 with
  | some l, some u => match casemap l 0, casemap l 1, casemap u 0, casemap u 1 with
    | some ll, some lu, some ul, some uu => Nat.beq ll l && Nat.beq uu u && (Nat.beq l c || !Nat.beq lu l) && (Nat.beq u c || !Nat.beq ul u)
        && (Nat.beq l c && Nat.beq u c || (match alphaIs c with
          | some a => a
          | none => false)) && Nat.ble l 0x1FFFF && Nat.ble u 0x1FFFF
    | _, _, _, _ => false
  | _, _ => false

theorem case_check : allBelow 512 (fun b => plain b || allBelow 256 (fun c => caseOk (b * 256 + c))) = true := by decide +kernel

theorem row_check : allBelow 86 (fun x => match entry tab 8 2666 (6 * 86 + x) with
  | some v => Nat.beq v 0
  | none => false) = true := by decide +kernel

theorem plain_id {wc d : Nat} (h : wc < 0x20000) (hp : plain (wc >>> 8) = true) : casemap wc d = some wc := by
  unfold plain at hp
  cases ht : entry tab 8 2666 (wc >>> 8) with
  | none => rw [ht] at hp; cases hp
  | some t =>
    cases hb : entry rulebases 8 512 (wc >>> 8) with
    | none => rw [ht, hb] at hp; cases hp
    | some base =>
      rw [ht, hb] at hp
      dsimp only at hp
      rw [Bool.and_eq_true] at hp
      have h6 : t = 6 := Nat.eq_of_beq_eq_true hp.1
      cases hr : entry rules 32 240 base with
      | none => rw [hr] at hp; cases hp.2
      | some r =>
        rw [hr] at hp
        have h0 : r = 0 := Nat.eq_of_beq_eq_true hp.2
        have hrow := allBelow_iff row_check (wc % 256 / 3) (by omega)
        cases hv : entry tab 8 2666 (6 * 86 + wc % 256 / 3) with
        | none => rw [hv] at hrow; cases hrow
        | some v =>
          rw [hv] at hrow
          have hv0 : v = 0 := Nat.eq_of_beq_eq_true hrow
          unfold casemap
          dsimp only
          rw [if_neg (by omega), ht]
          dsimp only
          rw [h6, hv]
          dsimp only
          rw [hb, hv0]
          dsimp only
          rw [Nat.zero_mul, Nat.zero_shiftRight, Nat.zero_mod, Nat.add_zero, hr, h0]
          dsimp only
          rw [if_pos (by decide)]
          unfold apply
          rw [show shiftRule 0 = 0 from rfl, Nat.zero_and, Nat.add_zero, Nat.mod_eq_of_lt (by omega)]

/-- Everything about the two mappings. -/
structure Cases (wc l u : Nat) : Prop where
  lower : casemap wc 0 = some l
  upper : casemap wc 1 = some u
  again : casemap l 0 = some l ∧ casemap u 1 = some u
  isLower : l = wc ∨ ∃ x, casemap l 1 = some x ∧ x ≠ l
  isUpper : u = wc ∨ ∃ x, casemap u 0 = some x ∧ x ≠ u
  letter : l = wc ∧ u = wc ∨ alphaIs wc = some true
  range : l < 0x20000 ∧ u < 0x20000 ∨ l = wc ∧ u = wc

theorem cases_of {wc : Nat} (h : casemap wc 0 = some wc) (h' : casemap wc 1 = some wc) : Cases wc wc wc :=
  ⟨h, h', ⟨h, h'⟩, .inl rfl, .inl rfl, .inl ⟨rfl, rfl⟩, .inr ⟨rfl, rfl⟩⟩

theorem cases_ok {wc : Nat} (h : caseOk wc = true) : ∃ l u, Cases wc l u := by
  unfold caseOk at h
  split at h
  · rename_i l u h1 h2
    split at h
    · rename_i ll lu ul uu g1 g2 g3 g4
      simp only [Bool.and_eq_true, Bool.or_eq_true, Bool.not_eq_true'] at h
      obtain ⟨⟨⟨⟨⟨⟨a1, a2⟩, a3⟩, a4⟩, a5⟩, a6⟩, a7⟩ := h
      have b1 := Nat.eq_of_beq_eq_true a1
      have b2 := Nat.eq_of_beq_eq_true a2
      subst b1 b2
      refine ⟨_, _, h1, h2, ⟨g1, g4⟩, ?_, ?_, ?_, .inl ⟨?_, ?_⟩⟩
      · rcases a3 with a | a
        · exact .inl (Nat.eq_of_beq_eq_true a)
        · exact .inr ⟨lu, g2, Nat.ne_of_beq_eq_false a⟩
      · rcases a4 with a | a
        · exact .inl (Nat.eq_of_beq_eq_true a)
        · exact .inr ⟨ul, g3, Nat.ne_of_beq_eq_false a⟩
      · rcases a5 with ⟨a, b⟩ | a
        · exact .inl ⟨Nat.eq_of_beq_eq_true a, Nat.eq_of_beq_eq_true b⟩
        · right
          split at a
          · rename_i x hx
            rw [hx, a]
          · cases a
      · have := Nat.le_of_ble_eq_true a6
        omega
      · have := Nat.le_of_ble_eq_true a7
        omega
    · cases h
  · cases h

theorem case_all (wc : Nat) : ∃ l u, Cases wc l u := by
  by_cases h : wc < 0x20000
  · have hb : wc >>> 8 < 512 := by rw [Nat.shiftRight_eq_div_pow]; omega
    have := allBelow_iff case_check _ hb
    rw [Bool.or_eq_true] at this
    rcases this with hp | hc
    · exact ⟨wc, wc, cases_of (plain_id h hp) (plain_id h hp)⟩
    · have := allBelow_iff hc (wc % 256) (by omega)
      have e : wc >>> 8 * 256 + wc % 256 = wc := by rw [Nat.shiftRight_eq_div_pow]; omega
      rw [e] at this
      exact cases_ok this
  · have : ∀ d, casemap wc d = some wc := fun d => by unfold casemap; rw [if_pos (by omega)]
    exact ⟨wc, wc, cases_of (this 0) (this 1)⟩

/-! ## Theorems -/

/-- **C143.** Every function answers for every number: no table is read behind its end, and the search in the table of exceptions ends. -/
theorem C143_total (wc : Nat) : (towlower wc).isSome ∧ (towupper wc).isSome ∧ (iswalpha wc).isSome ∧ (iswalnum wc).isSome ∧ (iswpunct wc).isSome ∧ (iswlower wc).isSome ∧ (iswupper wc).isSome := by
  obtain ⟨l, u, h⟩ := case_all wc
  obtain ⟨a, p, ha, hp, _⟩ := tables wc
  have h1 : towlower wc = some l := h.lower
  have h2 : towupper wc = some u := h.upper
  have h3 : iswalpha wc = some a := ha
  have h4 : iswpunct wc = some p := hp
  refine ⟨by rw [h1]; rfl, by rw [h2]; rfl, by rw [h3]; rfl, ?_, by rw [h4]; rfl, by unfold iswlower; rw [h2]; rfl, by unfold iswupper; rw [h1]; rfl⟩
  unfold iswalnum
  split
  · rfl
  · rw [h3]; rfl

/-- **C143.** The mappings: twice is the same as once; what is changed to lower case is a lower case letter then, and what is changed to upper case an upper case letter. -/
theorem C143_mappings (wc l u : Nat) (hl : towlower wc = some l) (hu : towupper wc = some u) :
    towlower l = some l ∧ towupper u = some u ∧ (l ≠ wc → iswlower l = some true) ∧ (u ≠ wc → iswupper u = some true)
    ∧ (iswupper wc = some true ↔ l ≠ wc) ∧ (iswlower wc = some true ↔ u ≠ wc) ∧ (wc < 2 ^ 32 → l < 2 ^ 32 ∧ u < 2 ^ 32) := by
  obtain ⟨l', u', h⟩ := case_all wc
  have e1 : l = l' := Option.some.inj (hl.symm.trans h.lower)
  have e2 : u = u' := Option.some.inj (hu.symm.trans h.upper)
  subst e1 e2
  refine ⟨h.again.1, h.again.2, fun hn => ?_, fun hn => ?_, ?_, ?_, fun hw => ?_⟩
  · obtain ⟨x, h1, h2⟩ := h.isLower.resolve_left hn
    have : towupper l = some x := h1
    unfold iswlower
    rw [this, Option.map_some, bne_iff_ne.2 h2]
  · obtain ⟨x, h1, h2⟩ := h.isUpper.resolve_left hn
    have : towlower u = some x := h1
    unfold iswupper
    rw [this, Option.map_some, bne_iff_ne.2 h2]
  · unfold iswupper
    rw [hl, Option.map_some, Option.some.injEq, bne_iff_ne]
  · unfold iswlower
    rw [hu, Option.map_some, Option.some.injEq, bne_iff_ne]
  · rcases h.range with ⟨h1, h2⟩ | ⟨h1, h2⟩ <;> omega

/-- **C143.** The classes, for every number: upper and lower case letters are letters; letters, digits and punctuation are distinct; each of these can be printed and is neither a control nor space; a control cannot be printed. -/
theorem C143_classes (wc : Nat) (hw : wc < 2 ^ 32) :
    (iswupper wc = some true ∨ iswlower wc = some true → iswalpha wc = some true)
    ∧ (iswalnum wc = some true ↔ iswalpha wc = some true ∨ iswdigit wc = true)
    ∧ ¬ (iswalpha wc = some true ∧ iswdigit wc = true)
    ∧ ¬ (iswalnum wc = some true ∧ iswpunct wc = some true)
    ∧ (iswalnum wc = some true ∨ iswpunct wc = some true → iswgraph wc = true ∧ iswprint wc = true ∧ iswcntrl wc = false ∧ iswspace wc = false)
    ∧ (iswgraph wc = true ↔ iswprint wc = true ∧ iswspace wc = false)
    ∧ ¬ (iswcntrl wc = true ∧ iswprint wc = true)
    ∧ (iswblank wc = true → iswspace wc = true)
    ∧ (iswdigit wc = true → iswxdigit wc = true) ∧ (iswxdigit wc = true → iswalnum wc = some true) := by
  obtain ⟨a, p, ha, hp, hap⟩ := tables wc
  have h3 : iswalpha wc = some a := ha
  have h4 : iswpunct wc = some p := hp
  have hdig : iswdigit wc = true ↔ 0x30 ≤ wc ∧ wc < 0x3A := by
    unfold iswdigit wsub
    rw [decide_eq_true_eq]
    omega
  have hdn : iswdigit wc = true → a = false ∧ p = false := by
    intro hd
    have := allBelow_iff digits_alpha (wc - 0x30) (by have := hdig.1 hd; omega)
    rw [show 0x30 + (wc - 0x30) = wc by have := hdig.1 hd; omega, ha, hp] at this
    cases a <;> cases p <;> simp at this ⊢
  have hgr : iswgraph wc = true ↔ iswprint wc = true ∧ iswspace wc = false := by
    unfold iswgraph
    rw [Bool.and_eq_true, Bool.not_eq_true', and_comm]
  have haln : iswalnum wc = some true ↔ iswalpha wc = some true ∨ iswdigit wc = true := by
    unfold iswalnum
    cases hd : iswdigit wc <;> simp
  have hdp : iswdigit wc = true → iswprint wc = true ∧ iswcntrl wc = false ∧ iswspace wc = false := by
    intro hd
    have h := hdig.1 hd
    obtain ⟨i, hi, rfl⟩ : ∃ i, i < 10 ∧ wc = 0x30 + i := ⟨wc - 0x30, by omega, by omega⟩
    have key : ∀ i, i < 10 → iswprint (0x30 + i) = true ∧ iswcntrl (0x30 + i) = false ∧ iswspace (0x30 + i) = false := by decide +kernel
    exact key i hi
  refine ⟨fun h => ?_, haln, fun ⟨h1, h2⟩ => ?_, fun ⟨h1, h2⟩ => ?_, fun h => ?_, hgr, fun ⟨h1, h2⟩ => ?_, fun h => ?_, fun h => ?_, fun h => ?_⟩
  · obtain ⟨l, u, hc⟩ := case_all wc
    obtain ⟨m1, m2, m3, m4, m5, m6, m7⟩ := C143_mappings wc l u hc.lower hc.upper
    rcases hc.letter with ⟨e1, e2⟩ | hh
    · rcases h with h | h
      · exact absurd e1 (m5.1 h)
      · exact absurd e2 (m6.1 h)
    · exact hh
  · rw [h3] at h1
    have := (hdn h2).1
    rw [this] at h1
    cases h1
  · rw [h4] at h2
    rcases haln.1 h1 with h | h
    · rw [h3] at h
      exact hap ⟨Option.some.inj h, Option.some.inj h2⟩
    · have := (hdn h).2
      rw [this] at h2
      cases h2
  · have : iswprint wc = true ∧ iswcntrl wc = false ∧ iswspace wc = false := by
      rcases h with h | h
      · rcases haln.1 h with h | h
        · exact in_table hw (.inl h)
        · exact hdp h
      · exact in_table hw (.inr h)
    exact ⟨hgr.2 ⟨this.1, this.2.2⟩, this⟩
  · unfold iswcntrl wsub at h1
    unfold iswprint wsub at h2
    simp only [Bool.or_eq_true, decide_eq_true_eq] at h1
    split at h2
    · rw [decide_eq_true_eq] at h2
      omega
    · split at h2
      · rename_i h5
        simp only [Bool.or_eq_true, decide_eq_true_eq] at h5
        omega
      · split at h2
        · cases h2
        · rename_i h5 h6
          simp only [Bool.or_eq_true, decide_eq_true_eq, not_or] at h5 h6
          omega
  · unfold iswblank at h
    unfold iswspace
    rw [decide_eq_true_eq]
    simp only [Bool.or_eq_true, beq_iff_eq] at h
    rcases h with rfl | rfl <;> decide
  · unfold iswxdigit
    unfold iswdigit at h
    rw [h]
    rfl
  · unfold iswxdigit at h
    rw [Bool.or_eq_true] at h
    rcases h with h | h
    · exact haln.2 (.inr h)
    · rw [decide_eq_true_eq] at h
      have hle : wc ≤ wc ||| 32 := Nat.left_le_or
      have hor : wc ||| 32 < 2 ^ 32 := Nat.or_lt_two_pow hw (by decide)
      have hsm : wc < 128 := by
        unfold wsub at h
        omega
      have key : ∀ w, w < 128 → wsub (w ||| 32) 0x61 < 6 → iswalnum w = some true := by decide +kernel
      exact key wc hsm h

/-- **C143.** Numbers that are no characters — surrogates, those above U+10FFFF, `WEOF` among them, and the last two of each plane — are in no class and have no case. -/
theorem C143_no_character (wc : Nat) (hw : wc < 2 ^ 32) (h : 0xD800 ≤ wc ∧ wc < 0xE000 ∨ 0x10FFFF < wc ∨ 65534 ≤ wc % 65536) :
    iswprint wc = false ∧ iswgraph wc = false ∧ iswcntrl wc = false ∧ iswspace wc = false ∧ iswblank wc = false ∧ iswdigit wc = false ∧ iswxdigit wc = false ∧ iswalpha wc = some false ∧ iswalnum wc = some false
    ∧ iswpunct wc = some false ∧ towlower wc = some wc ∧ towupper wc = some wc := by
  have hpr : iswprint wc = false := by
    unfold iswprint wsub
    rw [if_neg (by omega), if_neg (by simp only [Bool.or_eq_true, decide_eq_true_eq]; omega)]
    by_cases h1 : (wc + 2 ^ 32 - 0xFFFC) % 2 ^ 32 > 0x10FFFF - 0xFFFC
    · rw [if_pos (by simp only [Bool.or_eq_true, decide_eq_true_eq]; exact .inl h1)]
    · have h2 : 65534 ≤ wc % 65536 := by omega
      have h3 : wc &&& 0xFFFE = 0xFFFE := by
        have e1 : (wc &&& 0xFFFE) / 2 = 0x7FFF := by
          rw [Nat.and_div_two]
          have := Nat.and_two_pow_sub_one_eq_mod (wc / 2) 15
          rw [show (0xFFFE / 2 : Nat) = 2 ^ 15 - 1 by decide, this]
          omega
        have e2 : (wc &&& 0xFFFE) % 2 = 0 := by
          have := Nat.and_mod_two_pow (a := wc) (b := 0xFFFE) (n := 1)
          rw [Nat.pow_one] at this
          rw [this]
          show (wc % 2) &&& 0 = 0
          exact Nat.and_zero _
        omega
      rw [if_pos (by simp only [Bool.or_eq_true, beq_iff_eq]; exact .inr h3)]
  obtain ⟨c1, c2, c3, c4, c5, c6, c7, c8, c9, c10⟩ := C143_classes wc hw
  have hspace : iswspace wc = false := by
    unfold iswspace
    rw [decide_eq_false_iff_not]
    intro hm
    have : ∀ x ∈ spaces, x < 0xD800 ∧ x % 65536 < 65534 := by decide
    have := this wc hm
    omega
  have hd : iswdigit wc = false := by
    unfold iswdigit wsub
    rw [decide_eq_false_iff_not]
    omega
  obtain ⟨a, p, ha, hp, _⟩ := tables wc
  have hal : iswalpha wc = some false := by
    cases a with
    | false => exact ha
    | true =>
      have := (c5 (.inl (c2.2 (.inl ha)))).2.1
      rw [hpr] at this
      cases this
  have haln : iswalnum wc = some false := by
    unfold iswalnum
    rw [hd]
    exact hal
  have hpu : iswpunct wc = some false := by
    cases p with
    | false => exact hp
    | true =>
      have := (c5 (.inr hp)).2.1
      rw [hpr] at this
      cases this
  have hx : iswxdigit wc = false := by
    cases hh : iswxdigit wc with
    | false => rfl
    | true =>
      have := c10 hh
      rw [haln] at this
      cases this
  obtain ⟨l, u, hc⟩ := case_all wc
  have hcase : l = wc ∧ u = wc := by
    rcases hc.letter with hh | hh
    · exact hh
    · have : iswalpha wc = some true := hh
      rw [hal] at this
      cases this
  refine ⟨hpr, ?_, ?_, hspace, ?_, hd, hx, hal, haln, hpu, by rw [← hcase.1]; rw [hcase.1]; exact hcase.1 ▸ hc.lower, by exact hcase.2 ▸ hc.upper⟩
  · unfold iswgraph
    rw [hpr, Bool.and_false]
  · unfold iswcntrl wsub
    simp only [Bool.or_eq_false_iff, decide_eq_false_iff_not]
    omega
  · unfold iswblank
    simp only [Bool.or_eq_false_iff, beq_eq_false_iff_ne]
    omega

/-- **C143.** The first 128 characters are as in the C locale. -/
theorem C143_ascii (wc : Nat) (h : wc < 128) :
    (iswupper wc = some true ↔ 0x41 ≤ wc ∧ wc ≤ 0x5A) ∧ (iswlower wc = some true ↔ 0x61 ≤ wc ∧ wc ≤ 0x7A)
    ∧ (iswalpha wc = some true ↔ 0x41 ≤ wc ∧ wc ≤ 0x5A ∨ 0x61 ≤ wc ∧ wc ≤ 0x7A) ∧ (iswdigit wc = true ↔ 0x30 ≤ wc ∧ wc ≤ 0x39)
    ∧ (iswxdigit wc = true ↔ 0x30 ≤ wc ∧ wc ≤ 0x39 ∨ 0x41 ≤ wc ∧ wc ≤ 0x46 ∨ 0x61 ≤ wc ∧ wc ≤ 0x66)
    ∧ (iswspace wc = true ↔ wc = 0x20 ∨ 9 ≤ wc ∧ wc ≤ 13) ∧ (iswblank wc = true ↔ wc = 0x20 ∨ wc = 9) ∧ (iswcntrl wc = true ↔ wc < 0x20 ∨ wc = 0x7F)
    ∧ (iswprint wc = true ↔ 0x20 ≤ wc ∧ wc ≤ 0x7E) ∧ (iswgraph wc = true ↔ 0x21 ≤ wc ∧ wc ≤ 0x7E)
    ∧ (iswpunct wc = some true ↔ 0x21 ≤ wc ∧ wc ≤ 0x7E ∧ ¬ (0x30 ≤ wc ∧ wc ≤ 0x39 ∨ 0x41 ≤ wc ∧ wc ≤ 0x5A ∨ 0x61 ≤ wc ∧ wc ≤ 0x7A))
    ∧ towlower wc = some (if 0x41 ≤ wc ∧ wc ≤ 0x5A then wc + 32 else wc) ∧ towupper wc = some (if 0x61 ≤ wc ∧ wc ≤ 0x7A then wc - 32 else wc) := by
  have a0 : ∀ wc, wc < 128 → ((iswupper wc = some true ↔ 0x41 ≤ wc ∧ wc ≤ 0x5A)) := by decide +kernel
  have a1 : ∀ wc, wc < 128 → ((iswlower wc = some true ↔ 0x61 ≤ wc ∧ wc ≤ 0x7A)) := by decide +kernel
  have a2 : ∀ wc, wc < 128 → ((iswalpha wc = some true ↔ 0x41 ≤ wc ∧ wc ≤ 0x5A ∨ 0x61 ≤ wc ∧ wc ≤ 0x7A)) := by decide +kernel
  have a3 : ∀ wc, wc < 128 → ((iswdigit wc = true ↔ 0x30 ≤ wc ∧ wc ≤ 0x39)) := by decide +kernel
  have a4 : ∀ wc, wc < 128 → ((iswxdigit wc = true ↔ 0x30 ≤ wc ∧ wc ≤ 0x39 ∨ 0x41 ≤ wc ∧ wc ≤ 0x46 ∨ 0x61 ≤ wc ∧ wc ≤ 0x66)) := by decide +kernel
  have a5 : ∀ wc, wc < 128 → ((iswspace wc = true ↔ wc = 0x20 ∨ 9 ≤ wc ∧ wc ≤ 13)) := by decide +kernel
  have a6 : ∀ wc, wc < 128 → ((iswblank wc = true ↔ wc = 0x20 ∨ wc = 9)) := by decide +kernel
  have a7 : ∀ wc, wc < 128 → ((iswcntrl wc = true ↔ wc < 0x20 ∨ wc = 0x7F)) := by decide +kernel
  have a8 : ∀ wc, wc < 128 → ((iswprint wc = true ↔ 0x20 ≤ wc ∧ wc ≤ 0x7E)) := by decide +kernel
  have a9 : ∀ wc, wc < 128 → ((iswgraph wc = true ↔ 0x21 ≤ wc ∧ wc ≤ 0x7E)) := by decide +kernel
  have a10 : ∀ wc, wc < 128 → ((iswpunct wc = some true ↔ 0x21 ≤ wc ∧ wc ≤ 0x7E ∧ ¬ (0x30 ≤ wc ∧ wc ≤ 0x39 ∨ 0x41 ≤ wc ∧ wc ≤ 0x5A ∨ 0x61 ≤ wc ∧ wc ≤ 0x7A))) := by decide +kernel
  have a11 : ∀ wc, wc < 128 → (towlower wc = some (if 0x41 ≤ wc ∧ wc ≤ 0x5A then wc + 32 else wc)) := by decide +kernel
  have a12 : ∀ wc, wc < 128 → (towupper wc = some (if 0x61 ≤ wc ∧ wc ≤ 0x7A then wc - 32 else wc)) := by decide +kernel
  exact ⟨a0 wc h, a1 wc h, a2 wc h, a3 wc h, a4 wc h, a5 wc h, a6 wc h, a7 wc h, a8 wc h, a9 wc h, a10 wc h, a11 wc h, a12 wc h⟩

/-- **C143.** A class asked for by name is that of the function of the name; another name is 0, and 0 is a class without members. -/
theorem C143_names (wc : Nat) :
    iswctype wc (wctype [0x61, 0x6C, 0x6E, 0x75, 0x6D]) = iswalnum wc ∧ iswctype wc (wctype [0x61, 0x6C, 0x70, 0x68, 0x61]) = iswalpha wc
    ∧ iswctype wc (wctype [0x62, 0x6C, 0x61, 0x6E, 0x6B]) = some (iswblank wc) ∧ iswctype wc (wctype [0x63, 0x6E, 0x74, 0x72, 0x6C]) = some (iswcntrl wc)
    ∧ iswctype wc (wctype [0x64, 0x69, 0x67, 0x69, 0x74]) = some (iswdigit wc) ∧ iswctype wc (wctype [0x67, 0x72, 0x61, 0x70, 0x68]) = some (iswgraph wc)
    ∧ iswctype wc (wctype [0x6C, 0x6F, 0x77, 0x65, 0x72]) = iswlower wc ∧ iswctype wc (wctype [0x70, 0x72, 0x69, 0x6E, 0x74]) = some (iswprint wc)
    ∧ iswctype wc (wctype [0x70, 0x75, 0x6E, 0x63, 0x74]) = iswpunct wc ∧ iswctype wc (wctype [0x73, 0x70, 0x61, 0x63, 0x65]) = some (iswspace wc)
    ∧ iswctype wc (wctype [0x75, 0x70, 0x70, 0x65, 0x72]) = iswupper wc ∧ iswctype wc (wctype [0x78, 0x64, 0x69, 0x67, 0x69, 0x74]) = some (iswxdigit wc)
    ∧ towctrans wc (wctrans [0x74, 0x6F, 0x75, 0x70, 0x70, 0x65, 0x72]) = towupper wc ∧ towctrans wc (wctrans [0x74, 0x6F, 0x6C, 0x6F, 0x77, 0x65, 0x72]) = towlower wc
    ∧ (∀ name, name ∉ [[0x61, 0x6C, 0x6E, 0x75, 0x6D], [0x61, 0x6C, 0x70, 0x68, 0x61], [0x62, 0x6C, 0x61, 0x6E, 0x6B], [0x63, 0x6E, 0x74, 0x72, 0x6C], [0x64, 0x69, 0x67, 0x69, 0x74], [0x67, 0x72, 0x61, 0x70, 0x68],
        [0x6C, 0x6F, 0x77, 0x65, 0x72], [0x70, 0x72, 0x69, 0x6E, 0x74], [0x70, 0x75, 0x6E, 0x63, 0x74], [0x73, 0x70, 0x61, 0x63, 0x65], [0x75, 0x70, 0x70, 0x65, 0x72], [0x78, 0x64, 0x69, 0x67, 0x69, 0x74]] → wctype name = 0)
    ∧ iswctype wc 0 = some false ∧ (∀ name, name ∉ [[0x74, 0x6F, 0x75, 0x70, 0x70, 0x65, 0x72], [0x74, 0x6F, 0x6C, 0x6F, 0x77, 0x65, 0x72]] → wctrans name = 0) ∧ towctrans wc 0 = some wc := by
  have n0 : wctype [0x61, 0x6C, 0x6E, 0x75, 0x6D] = 1 := by decide +kernel
  have n1 : wctype [0x61, 0x6C, 0x70, 0x68, 0x61] = 2 := by decide +kernel
  have n2 : wctype [0x62, 0x6C, 0x61, 0x6E, 0x6B] = 3 := by decide +kernel
  have n3 : wctype [0x63, 0x6E, 0x74, 0x72, 0x6C] = 4 := by decide +kernel
  have n4 : wctype [0x64, 0x69, 0x67, 0x69, 0x74] = 5 := by decide +kernel
  have n5 : wctype [0x67, 0x72, 0x61, 0x70, 0x68] = 6 := by decide +kernel
  have n6 : wctype [0x6C, 0x6F, 0x77, 0x65, 0x72] = 7 := by decide +kernel
  have n7 : wctype [0x70, 0x72, 0x69, 0x6E, 0x74] = 8 := by decide +kernel
  have n8 : wctype [0x70, 0x75, 0x6E, 0x63, 0x74] = 9 := by decide +kernel
  have n9 : wctype [0x73, 0x70, 0x61, 0x63, 0x65] = 10 := by decide +kernel
  have n10 : wctype [0x75, 0x70, 0x70, 0x65, 0x72] = 11 := by decide +kernel
  have n11 : wctype [0x78, 0x64, 0x69, 0x67, 0x69, 0x74] = 12 := by decide +kernel
  have t0 : wctrans [0x74, 0x6F, 0x75, 0x70, 0x70, 0x65, 0x72] = 1 := by decide +kernel
  have t1 : wctrans [0x74, 0x6F, 0x6C, 0x6F, 0x77, 0x65, 0x72] = 2 := by decide +kernel
  refine ⟨by rw [n0]; unfold iswctype; rw [if_pos rfl], by rw [n1]; unfold iswctype; rw [if_neg (by decide), if_pos rfl], by rw [n2]; unfold iswctype; rw [if_neg (by decide), if_neg (by decide), if_pos rfl], by rw [n3]; unfold iswctype; rw [if_neg (by decide), if_neg (by decide), if_neg (by decide), if_pos rfl], by rw [n4]; unfold iswctype; rw [if_neg (by decide), if_neg (by decide), if_neg (by decide), if_neg (by decide), if_pos rfl], by rw [n5]; unfold iswctype; rw [if_neg (by decide), if_neg (by decide), if_neg (by decide), if_neg (by decide), if_neg (by decide), if_pos rfl], by rw [n6]; unfold iswctype; rw [if_neg (by decide), if_neg (by decide), if_neg (by decide), if_neg (by decide), if_neg (by decide), if_neg (by decide), if_pos rfl], by rw [n7]; unfold iswctype; rw [if_neg (by decide), if_neg (by decide), if_neg (by decide), if_neg (by decide), if_neg (by decide), if_neg (by decide), if_neg (by decide), if_pos rfl], by rw [n8]; unfold iswctype; rw [if_neg (by decide), if_neg (by decide), if_neg (by decide), if_neg (by decide), if_neg (by decide), if_neg (by decide), if_neg (by decide), if_neg (by decide), if_pos rfl], by rw [n9]; unfold iswctype; rw [if_neg (by decide), if_neg (by decide), if_neg (by decide), if_neg (by decide), if_neg (by decide), if_neg (by decide), if_neg (by decide), if_neg (by decide), if_neg (by decide), if_pos rfl], by rw [n10]; unfold iswctype; rw [if_neg (by decide), if_neg (by decide), if_neg (by decide), if_neg (by decide), if_neg (by decide), if_neg (by decide), if_neg (by decide), if_neg (by decide), if_neg (by decide), if_neg (by decide), if_pos rfl], by rw [n11]; unfold iswctype; rw [if_neg (by decide), if_neg (by decide), if_neg (by decide), if_neg (by decide), if_neg (by decide), if_neg (by decide), if_neg (by decide), if_neg (by decide), if_neg (by decide), if_neg (by decide), if_neg (by decide), if_pos rfl], by rw [t0]; unfold towctrans; rw [if_pos rfl], by rw [t1]; unfold towctrans; rw [if_neg (by decide), if_pos rfl], fun name h => ?_, rfl, fun name h => ?_, rfl⟩
  · simp only [List.mem_cons, List.not_mem_nil, or_false, not_or] at h
    obtain ⟨h1, h2, h3, h4, h5, h6, h7, h8, h9, h10, h11, h12⟩ := h
    unfold wctype
    rw [if_neg h1, if_neg h2, if_neg h3, if_neg h4, if_neg h5, if_neg h6, if_neg h7, if_neg h8, if_neg h9, if_neg h10, if_neg h11, if_neg h12]
  · simp only [List.mem_cons, List.not_mem_nil, or_false, not_or] at h
    unfold wctrans
    rw [if_neg h.1, if_neg h.2]

/-! ## Comparison without case -/

/-- The characters of a string in lower case, and the end. -/
def lowered (s : List Nat) : List (Option Nat) := s.map towlower ++ [some 0]

/-- The order of the first difference. -/
def compare : List (Option Nat) → List (Option Nat) → Int
  | some a :: s, some b :: t => if a = b then compare s t else (a : Int) - b
  | _, _ => 0

theorem lower_small {wc : Nat} (h : wc < 2 ^ 31) : ∃ l, towlower wc = some l ∧ l < 2 ^ 31 := by
  obtain ⟨l, u, hc⟩ := case_all wc
  refine ⟨l, hc.lower, ?_⟩
  rcases hc.range with ⟨h1, _⟩ | ⟨h1, _⟩ <;> omega

theorem diff_eq {x y : Nat} (hx : x < 2 ^ 31) (hy : y < 2 ^ 31) : wcscasecmp.diff x y = (x : Int) - y := by
  unfold wcscasecmp.diff wsub
  split <;> omega

theorem low_zero : towlower 0 = some 0 := by decide +kernel

theorem low_pos {c l : Nat} (hc : c ≠ 0) (h : towlower c = some l) : l ≠ 0 := by
  rintro rfl
  have key : ∀ c, towlower c = some 0 → c = 0 := by
    intro c h
    obtain ⟨l, u, hh⟩ := case_all c
    obtain ⟨_, _, m3, _⟩ := C143_mappings c l u hh.lower hh.upper
    have e : l = 0 := Option.some.inj (hh.lower.symm.trans h)
    subst e
    by_cases hc0 : c = 0
    · exact hc0
    · have := m3 (Ne.symm hc0)
      have h0 : iswlower 0 = some false := by decide +kernel
      rw [h0] at this
      cases this
  exact hc (key c h)

/-- **C143.** `wcscasecmp` orders two strings by the first difference of their characters in lower case, the end being less than every character; in particular it is 0 for strings that are the same in lower case. -/
theorem C143_wcscasecmp (s t : List Nat) (hs : ∀ c ∈ s, c ≠ 0 ∧ c < 2 ^ 31) (ht : ∀ c ∈ t, c ≠ 0 ∧ c < 2 ^ 31) : wcscasecmp s t = some (compare (lowered s) (lowered t)) := by
  induction s generalizing t with
  | nil =>
    cases t with
    | nil =>
      unfold wcscasecmp
      rw [List.headD_nil, low_zero]
      rfl
    | cons b t =>
      obtain ⟨l, hl, hlt⟩ := lower_small (ht b (by simp)).2
      have := low_pos (ht b (by simp)).1 hl
      unfold wcscasecmp
      rw [List.headD_nil, low_zero, List.headD_cons, hl]
      dsimp only
      rw [diff_eq (by decide) hlt]
      simp only [lowered, List.map_nil, List.nil_append, List.map_cons, List.cons_append, hl]
      rw [compare, if_neg (Ne.symm this)]
  | cons a s ih =>
    obtain ⟨k, hk, hkt⟩ := lower_small (hs a (by simp)).2
    have hk0 := low_pos (hs a (by simp)).1 hk
    cases t with
    | nil =>
      unfold wcscasecmp
      rw [List.headD_nil, low_zero, List.headD_cons, hk]
      dsimp only
      rw [diff_eq hkt (by decide)]
      simp only [lowered, List.map_nil, List.nil_append, List.map_cons, List.cons_append, hk]
      rw [compare, if_neg hk0]
    | cons b t =>
      obtain ⟨l, hl, hlt⟩ := lower_small (ht b (by simp)).2
      unfold wcscasecmp
      rw [hk, hl]
      dsimp only
      simp only [lowered, List.map_cons, List.cons_append, hk, hl]
      rw [compare]
      by_cases he : k = l
      · rw [if_pos he, if_pos he]
        exact ih t (fun c hc => hs c (by simp [hc])) (fun c hc => ht c (by simp [hc]))
      · rw [if_neg he, if_neg he, diff_eq hkt hlt]

/-- **C143.** `wcsncasecmp` is the same for the first `n` characters. -/
theorem C143_wcsncasecmp (n : Nat) (s t : List Nat) (hs : ∀ c ∈ s, c ≠ 0 ∧ c < 2 ^ 31) (ht : ∀ c ∈ t, c ≠ 0 ∧ c < 2 ^ 31) :
    wcsncasecmp n s t = some (compare ((lowered s).take n) ((lowered t).take n)) := by
  induction n generalizing s t with
  | zero => rfl
  | succ n ih =>
    cases s with
    | nil =>
      cases t with
      | nil =>
        unfold wcsncasecmp
        rw [List.headD_nil, low_zero]
        dsimp only
        rw [diff_eq (by decide) (by decide)]
        simp only [lowered, List.map_nil, List.nil_append, List.take_succ_cons, List.take_nil]
        rw [compare, if_pos rfl]
        rfl
      | cons b t =>
        obtain ⟨l, hl, hlt⟩ := lower_small (ht b (by simp)).2
        have := low_pos (ht b (by simp)).1 hl
        unfold wcsncasecmp
        rw [List.headD_nil, low_zero, List.headD_cons, hl]
        dsimp only
        rw [diff_eq (by decide) hlt]
        simp only [lowered, List.map_nil, List.nil_append, List.map_cons, List.cons_append, hl, List.take_succ_cons]
        rw [compare, if_neg (Ne.symm this)]
    | cons a s =>
      obtain ⟨k, hk, hkt⟩ := lower_small (hs a (by simp)).2
      have hk0 := low_pos (hs a (by simp)).1 hk
      cases t with
      | nil =>
        unfold wcsncasecmp
        rw [List.headD_nil, low_zero, List.headD_cons, hk]
        dsimp only
        rw [diff_eq hkt (by decide)]
        simp only [lowered, List.map_nil, List.nil_append, List.map_cons, List.cons_append, hk, List.take_succ_cons]
        rw [compare, if_neg hk0]
      | cons b t =>
        obtain ⟨l, hl, hlt⟩ := lower_small (ht b (by simp)).2
        unfold wcsncasecmp
        rw [hk, hl]
        dsimp only
        simp only [lowered, List.map_cons, List.cons_append, hk, hl, List.take_succ_cons]
        rw [compare]
        by_cases he : k = l
        · rw [if_pos he, if_pos he]
          exact ih s t (fun c hc => hs c (by simp [hc])) (fun c hc => ht c (by simp [hc]))
        · rw [if_neg he, if_neg he, diff_eq hkt hlt]

/-! ## Examples -/

/-- É and é; ß and its upper case; the title case letter ǅ has both. -/
example : towlower 0xC9 = some 0xE9 ∧ towupper 0xE9 = some 0xC9 ∧ towupper 0xDF = some 0x1E9E ∧ towlower 0x1C5 = some 0x1C6 ∧ towupper 0x1C5 = some 0x1C4 := by decide +kernel

/-- "Éa" and "éB". -/
example : wcscasecmp [0xC9, 0x61] [0xE9, 0x42] = some (-1) ∧ wcsncasecmp 1 [0xC9, 0x61] [0xE9, 0x42] = some 0 := by decide +kernel

/-- **C143**: the controls are U+0000 to U+001F, U+007F to U+009F, the separators of lines and paragraphs, and the annotation characters. -/
theorem C143_controls (wc : Nat) (hw : wc < 2 ^ 32) : iswcntrl wc = true ↔
    wc ≤ 0x1F ∨ 0x7F ≤ wc ∧ wc ≤ 0x9F ∨ 0x2028 ≤ wc ∧ wc ≤ 0x2029 ∨ 0xFFF9 ≤ wc ∧ wc ≤ 0xFFFB := by
  unfold iswcntrl wsub
  simp only [Bool.or_eq_true, decide_eq_true_eq]
  omega

end Verif.Wctype
