import Verif.Fmtmsg.Model
/-!
# Messages of `fmtmsg` (C138)
-/

namespace Verif.Fmtmsg

/-! ## Specification -/

/-- The components of a message. -/
inductive Component where
  | label
  | severity
  | text
  | action
  | tag
deriving DecidableEq

/-- Their keywords. -/
def Component.keyword : Component → List UInt8
  | .label => [0x6C, 0x61, 0x62, 0x65, 0x6C]
  | .severity => [0x73, 0x65, 0x76, 0x65, 0x72, 0x69, 0x74, 0x79]
  | .text => [0x74, 0x65, 0x78, 0x74]
  | .action => [0x61, 0x63, 0x74, 0x69, 0x6F, 0x6E]
  | .tag => [0x74, 0x61, 0x67]

/-- Keywords with colons between them. -/
def joined : List Component → List UInt8
  | [] => []
  | [c] => c.keyword
  | c :: l => c.keyword ++ 0x3A :: joined l

/-- A value of `MSGVERB` that names these components: keywords with colons between them, perhaps one more at the end. -/
def Names (s : List UInt8) (l : List Component) : Prop := l ≠ [] ∧ (s = joined l ∨ s = joined l ++ [0x3A])

/-- The component is printed: if `MSGVERB` names components only these are, otherwise all. -/
def Selected (msgverb : Option (List UInt8)) (c : Component) : Prop := ∀ s l, msgverb = some s → Names s l → c ∈ l

/-- "(null)" aside, a component of the message as it is printed; `none` if it is not given. -/
def part (a : Args) : Component → Option (List UInt8)
  | .label => a.label.map (· ++ [0x3A, 0x20])
  | .severity =>
    if a.severity = 1 then some [0x48, 0x41, 0x4C, 0x54, 0x3A, 0x20] -- HALT
    else if a.severity = 2 then some [0x45, 0x52, 0x52, 0x4F, 0x52, 0x3A, 0x20] -- ERROR
    else if a.severity = 3 then some [0x57, 0x41, 0x52, 0x4E, 0x49, 0x4E, 0x47, 0x3A, 0x20] -- WARNING
    else if a.severity = 4 then some [0x49, 0x4E, 0x46, 0x4F, 0x3A, 0x20] -- INFO
    else none
  | .text => a.text
  | .action => a.action.map fun s => [0x0A, 0x54, 0x4F, 0x20, 0x46, 0x49, 0x58, 0x3A, 0x20] ++ s ++ [0x20]
  | .tag => a.tag

/-- The message with those of its components for which `p` holds. -/
def text (a : Args) (p : Component → Bool) : List UInt8 :=
  ([Component.label, .severity, .text, .action, .tag].map fun c => if p c then (part a c).getD [] else []).flatten ++ [0x0A]

/-- What arrives at an output. -/
def arrives (limit : Option Nat) (b : List UInt8) : List UInt8 := match limit with
  | none => b
  | some n => b.take n

/-! ## `MSGVERB` -/

theorem strcolcmp_iff (k s : List UInt8) (hk : 0x3A ∉ k) : strcolcmp k s = true ↔ s = k ∨ ∃ r, s = k ++ 0x3A :: r := by
  induction k generalizing s with
  | nil =>
    cases s with
    | nil => simp [strcolcmp]
    | cons b s => simp [strcolcmp]
  | cons a k ih =>
    cases s with
    | nil => simp [strcolcmp]
    | cons b s =>
      unfold strcolcmp
      have hk' : 0x3A ∉ k := fun h => hk (List.mem_cons_of_mem _ h)
      split
      · rename_i h
        subst h
        rw [ih s hk']
        simp
      · rename_i h
        have h' : ¬ b = a := fun q => h q.symm
        simp [h']

/-- The number of a component. -/
def Component.index : Component → Nat
  | .label => 0
  | .severity => 1
  | .text => 2
  | .action => 3
  | .tag => 4

theorem keyword_colon (c : Component) : 0x3A ∉ c.keyword := by cases c <;> decide

/-- The word before the first colon. -/
def word (s : List UInt8) : List UInt8 := s.takeWhile (· ≠ 0x3A)

theorem word_append (k r : List UInt8) (hk : 0x3A ∉ k) : word (k ++ 0x3A :: r) = k := by
  unfold word
  rw [List.takeWhile_append_of_pos]
  · simp
  · intro x hx
    simp only [ne_eq, decide_not, Bool.not_eq_eq_eq_not, Bool.not_true, decide_eq_false_iff_not]
    intro h
    exact hk (h ▸ hx)

theorem word_self (k : List UInt8) (hk : 0x3A ∉ k) : word k = k := by
  unfold word
  induction k with
  | nil => rfl
  | cons a k ih =>
    have ha : a ≠ 0x3A := fun h => hk (h ▸ List.mem_cons_self)
    have hk' : 0x3A ∉ k := fun h => hk (List.mem_cons_of_mem _ h)
    rw [List.takeWhile_cons_of_pos (by simpa using ha), ih hk']

theorem word_colon (s : List UInt8) : 0x3A ∉ word s := by
  unfold word
  induction s with
  | nil => simp
  | cons a s ih =>
    by_cases ha : a = 0x3A
    · simp [ha]
    · rw [List.takeWhile_cons_of_pos (by simpa using ha)]
      rw [List.mem_cons]
      rintro (h | h)
      · exact ha h.symm
      · exact ih h

theorem strcolcmp_word (k s : List UInt8) (hk : 0x3A ∉ k) : strcolcmp k s = true ↔ word s = k := by
  rw [strcolcmp_iff k s hk]
  constructor
  · rintro (rfl | ⟨r, rfl⟩)
    · exact word_self _ hk
    · exact word_append _ _ hk
  · intro h
    have e := List.takeWhile_append_dropWhile (p := fun b : UInt8 => decide (b ≠ 0x3A)) (l := s)
    have hd : ∀ r, List.dropWhile (fun b : UInt8 => decide (b ≠ 0x3A)) s = r → r = [] ∨ ∃ t, r = 0x3A :: t := by
      intro r hr
      cases r with
      | nil => exact .inl rfl
      | cons b t =>
        refine .inr ⟨t, ?_⟩
        have := List.head?_dropWhile_not (fun b : UInt8 => decide (b ≠ 0x3A)) s
        rw [hr] at this
        simp at this
        rw [this]
    rcases hd _ rfl with q | ⟨t, q⟩
    · rw [q, List.append_nil] at e
      exact .inl (e.symm.trans h)
    · rw [q] at e
      refine .inr ⟨t, e.symm.trans ?_⟩
      have : List.takeWhile (fun b : UInt8 => decide (b ≠ 0x3A)) s = k := h
      rw [this]

theorem strcolcmp_eq (c : Component) (s : List UInt8) : strcolcmp c.keyword s = decide (word s = c.keyword) := by
  rw [Bool.eq_iff_iff, decide_eq_true_iff]
  exact strcolcmp_word _ _ (keyword_colon c)

theorem find_eq (s : List UInt8) : find s msgs 0 =
    if word s = Component.label.keyword then some 0
    else if word s = Component.severity.keyword then some 1
    else if word s = Component.text.keyword then some 2
    else if word s = Component.action.keyword then some 3
    else if word s = Component.tag.keyword then some 4 else none := by
  have hm : msgs = [Component.label.keyword, Component.severity.keyword, Component.text.keyword, Component.action.keyword, Component.tag.keyword] := rfl
  rw [hm]
  simp only [find, strcolcmp_eq, decide_eq_true_iff]

theorem find_some (s : List UInt8) (c : Component) (h : word s = c.keyword) : find s msgs 0 = some c.index := by
  rw [find_eq, h]
  cases c <;> decide

theorem find_inv {s : List UInt8} {i : Nat} (h : find s msgs 0 = some i) : ∃ c : Component, word s = c.keyword ∧ c.index = i := by
  rw [find_eq] at h
  split at h
  · exact ⟨.label, ‹_›, by cases h; rfl⟩
  split at h
  · exact ⟨.severity, ‹_›, by cases h; rfl⟩
  split at h
  · exact ⟨.text, ‹_›, by cases h; rfl⟩
  split at h
  · exact ⟨.action, ‹_›, by cases h; rfl⟩
  split at h
  · exact ⟨.tag, ‹_›, by cases h; rfl⟩
  · cases h

theorem colon_append (k r : List UInt8) (hk : 0x3A ∉ k) : colon (k ++ 0x3A :: r) = some (0x3A :: r) := by
  induction k with
  | nil => simp [colon]
  | cons a k ih =>
    have ha : a ≠ 0x3A := fun h => hk (h ▸ List.mem_cons_self)
    have hk' : 0x3A ∉ k := fun h => hk (List.mem_cons_of_mem _ h)
    simp [colon, ha, ih hk']

theorem colon_none {k : List UInt8} (hk : 0x3A ∉ k) : colon k = none := by
  induction k with
  | nil => rfl
  | cons a k ih =>
    have ha : a ≠ 0x3A := fun h => hk (h ▸ List.mem_cons_self)
    have hk' : 0x3A ∉ k := fun h => hk (List.mem_cons_of_mem _ h)
    simp [colon, ha, ih hk']

theorem keyword_ne (c : Component) : c.keyword ≠ [] := by cases c <;> decide

theorem loop_nil (v : Nat) : verbLoop v [] = v := by rw [verbLoop, if_pos rfl]

theorem loop_last (v : Nat) (c : Component) : verbLoop v c.keyword = v ||| 1 <<< c.index := by
  rw [verbLoop, if_neg (keyword_ne c), find_some _ c (word_self _ (keyword_colon c))]
  dsimp only
  split
  · rfl
  · rename_i h
    rw [colon_none (keyword_colon c)] at h
    cases h

theorem loop_more (v : Nat) (c : Component) (r : List UInt8) : verbLoop v (c.keyword ++ 0x3A :: r) = verbLoop (v ||| 1 <<< c.index) r := by
  rw [verbLoop, if_neg (by simp), find_some _ c (word_append _ _ (keyword_colon c))]
  dsimp only
  split
  · rename_i h
    rw [colon_append _ _ (keyword_colon c)] at h
    cases h
  · rename_i h
    rw [colon_append _ _ (keyword_colon c)] at h
    cases h
    rfl

theorem testBit_step (v i j : Nat) : (v ||| 1 <<< i).testBit j = (v.testBit j || decide (i = j)) := by
  rw [Nat.testBit_or, Nat.one_shiftLeft, Nat.testBit_two_pow]

theorem joined_cons (c d : Component) (l : List Component) : joined (c :: d :: l) = c.keyword ++ 0x3A :: joined (d :: l) := rfl

/-- Named components give their bits. -/
theorem loop_named (l : List Component) (hl : l ≠ []) (v : Nat) (tail : List UInt8) (ht : tail = [] ∨ tail = [0x3A]) (j : Nat) :
    (verbLoop v (joined l ++ tail)).testBit j = (v.testBit j || l.any fun c => decide (c.index = j)) := by
  induction l generalizing v with
  | nil => exact absurd rfl hl
  | cons c l ih =>
    cases l with
    | nil =>
      have : verbLoop v (joined [c] ++ tail) = v ||| 1 <<< c.index := by
        rcases ht with rfl | rfl
        · rw [List.append_nil]
          exact loop_last v c
        · rw [show joined [c] ++ [0x3A] = c.keyword ++ 0x3A :: [] from rfl, loop_more, loop_nil]
      rw [this, testBit_step]
      simp
    | cons d l =>
      rw [joined_cons, List.append_assoc, List.cons_append, loop_more, ih (by simp), testBit_step]
      simp [Bool.or_assoc]

theorem split_word (s : List UInt8) : s = word s ∨ ∃ r, s = word s ++ 0x3A :: r := by
  have h : strcolcmp (word s) s = true := (strcolcmp_word _ _ (word_colon s)).2 rfl
  exact (strcolcmp_iff _ _ (word_colon s)).1 h

/-- Otherwise the loop gives all bits, if there is anything. -/
theorem loop_unnamed (n : Nat) (s : List UInt8) (hn : s.length ≤ n) (hs : s ≠ []) (v : Nat) : (∃ l, Names s l) ∨ verbLoop v s = 0xFF := by
  induction n generalizing s v with
  | zero => exact absurd (List.length_eq_zero_iff.1 (by omega)) hs
  | succ n ih =>
    cases hf : find s msgs 0 with
    | none =>
      refine .inr ?_
      rw [verbLoop, if_neg hs, hf]
    | some i =>
      obtain ⟨c, hc, hi⟩ := find_inv hf
      have hsp := split_word s
      rw [hc] at hsp
      rcases hsp with q | ⟨r, q⟩
      · exact .inl ⟨[c], by simp, .inl q⟩
      · by_cases hr : r = []
        · subst hr
          exact .inl ⟨[c], by simp, .inr q⟩
        · have hlen : r.length ≤ n := by
            rw [q] at hn
            simp only [List.length_append, List.length_cons] at hn
            omega
          rcases ih r hlen hr (v ||| 1 <<< c.index) with ⟨l, hl, hj⟩ | h
          · refine .inl ⟨c :: l, by simp, ?_⟩
            cases l with
            | nil => exact absurd rfl hl
            | cons d l =>
              rw [joined_cons]
              rcases hj with hj | hj
              · exact .inl (by rw [q, hj])
              · exact .inr (by rw [q, hj]; simp)
          · refine .inr ?_
            rw [q, loop_more, h]

theorem index_inj {c d : Component} (h : c.index = d.index) : c = d := by cases c <;> cases d <;> first | rfl | cases h

theorem all_bits (c : Component) : (0xFF : Nat).testBit c.index = true := by cases c <;> decide

theorem joined_ne (l : List Component) (hl : l ≠ []) : joined l ≠ [] := by
  cases l with
  | nil => exact absurd rfl hl
  | cons c l =>
    cases l with
    | nil => exact keyword_ne c
    | cons d l =>
      rw [joined_cons]
      simp

theorem names_bits {s : List UInt8} {l : List Component} (h : Names s l) (j : Nat) : (verbLoop 0 s).testBit j = l.any fun c => decide (c.index = j) := by
  obtain ⟨hl, hs⟩ := h
  have : (verbLoop 0 s).testBit j = (Nat.testBit 0 j || l.any fun c => decide (c.index = j)) := by
    rcases hs with rfl | rfl
    · have := loop_named l hl 0 [] (.inl rfl) j
      rwa [List.append_nil] at this
    · exact loop_named l hl 0 [0x3A] (.inr rfl) j
  rw [this, Nat.zero_testBit, Bool.false_or]

theorem any_index (l : List Component) (c : Component) : (l.any fun d => decide (d.index = c.index)) = true ↔ c ∈ l := by
  rw [List.any_eq_true]
  constructor
  · rintro ⟨d, hd, h⟩
    rw [decide_eq_true_iff] at h
    rwa [← index_inj h]
  · intro h
    exact ⟨c, h, by simp⟩

/-- The bits of `verb` are the components selected. -/
theorem verbOf_iff (m : Option (List UInt8)) (c : Component) : (verbOf m).testBit c.index = true ↔ Selected m c := by
  unfold verbOf Selected
  cases m with
  | none =>
    dsimp only
    rw [if_pos rfl]
    constructor
    · intro _ s l h
      cases h
    · intro _
      exact all_bits c
  | some s =>
    dsimp only
    by_cases hn : ∃ l, Names s l
    · obtain ⟨l, hl⟩ := hn
      have hb := names_bits hl
      have hz : ¬ verbLoop 0 s = 0 := by
        intro h0
        obtain ⟨hl1, _⟩ := hl
        cases l with
        | nil => exact hl1 rfl
        | cons d l =>
          have := hb d.index
          rw [h0] at this
          simp at this
      rw [if_neg hz, hb, any_index]
      constructor
      · intro hc s' l' h1 h2
        cases h1
        have := names_bits h2 c.index
        rw [hb] at this
        rw [← any_index, ← this, any_index]
        exact hc
      · intro h
        exact h s l rfl hl
    · have hsel : ∀ s' l, some s = some s' → Names s' l → c ∈ l := by
        intro s' l h1 h2
        cases h1
        exact absurd ⟨l, h2⟩ hn
      have hv : (if verbLoop 0 s = 0 then 0xFF else verbLoop 0 s) = 0xFF := by
        by_cases hs : s = []
        · subst hs
          rw [loop_nil, if_pos rfl]
        · rcases loop_unnamed _ s (Nat.le_refl _) hs 0 with h | h
          · exact absurd h hn
          · rw [h]
            rfl
      rw [hv]
      exact ⟨fun _ => hsel, fun _ => all_bits c⟩

theorem severity_cases {v : Int32} (h0 : 0 ≤ v) (h4 : v ≤ 4) : v = 0 ∨ v = 1 ∨ v = 2 ∨ v = 3 ∨ v = 4 := by
  have h0 := Int32.le_iff_toInt_le.1 h0
  have h4 := Int32.le_iff_toInt_le.1 h4
  rw [← Int32.toInt_inj, ← Int32.toInt_inj, ← Int32.toInt_inj, ← Int32.toInt_inj, ← Int32.toInt_inj]
  have e0 : (0 : Int32).toInt = 0 := rfl
  have e1 : (1 : Int32).toInt = 1 := rfl
  have e2 : (2 : Int32).toInt = 2 := rfl
  have e3 : (3 : Int32).toInt = 3 := rfl
  have e4 : (4 : Int32).toInt = 4 := rfl
  rw [e0] at h0 ⊢
  rw [e4] at h4 ⊢
  rw [e1, e2, e3]
  omega

theorem message_eq (a : Args) (h0 : 0 ≤ a.severity) (h4 : a.severity ≤ 4) (verb : Nat) (p : Component → Bool) (hp : ∀ c, p c = verb.testBit c.index) :
    message a verb = text a p := by
  have hl := hp .label
  have hs := hp .severity
  have ht := hp .text
  have ha := hp .action
  have hg := hp .tag
  unfold message text
  simp only [Component.index] at hl hs ht ha hg
  simp only [List.map_cons, List.map_nil, List.flatten_cons, List.flatten_nil, List.append_nil, hl, hs, ht, ha, hg, part]
  have e1 : pick (verb.testBit 1 && decide (a.severity ≠ 0)) (errstring a.severity) = if verb.testBit 1 = true then (errstring a.severity).getD [] else [] := by
    unfold pick
    rcases severity_cases h0 h4 with h | h | h | h | h <;> rw [h] <;> cases verb.testBit 1 <;> rfl
  rw [e1]
  unfold errstring pick percentS
  cases a.label <;> cases a.text <;> cases a.action <;> cases a.tag <;>
    cases verb.testBit 0 <;> cases verb.testBit 2 <;> cases verb.testBit 3 <;> cases verb.testBit 4 <;> simp

/-! ## The theorems -/

/-- **C138, partial.** With one of the five severities of the standard, `fmtmsg` writes to standard error, if `MM_PRINT` is set, exactly the components that are given
and that `MSGVERB` selects, in order and with their punctuation; to the console, if `MM_CONSOLE` is set and it can be opened, all components that are given;
nothing else anywhere. No descriptor stays open, and cancellation is enabled or disabled as before. The value is `MM_OK` if everything that was asked for was written,
`MM_NOMSG` if only that to standard error was not, `MM_NOCON` if only that to the console was not, `MM_NOTOK` if both were asked for and neither was. Missing: other severities
(`C138_severity_violation`). -/
theorem C138_fmtmsg_partial (w : World) (a : Args) (s : St) (h0 : 0 ≤ a.severity) (h4 : a.severity ≤ 4) (sel : Component → Bool)
    (hsel : ∀ c, sel c = true ↔ Selected w.msgverb c) :
    (fmtmsg w a s).2 =
      { console := s.console ++ if a.classification &&& 512 ≠ 0 ∧ w.console then arrives w.consoleLimit (text a fun _ => true) else []
        stderr := s.stderr ++ if a.classification &&& 256 ≠ 0 then arrives w.printLimit (text a sel) else []
        fds := s.fds
        cancel := s.cancel } ∧
    (fmtmsg w a s).1 =
      (let noCon := a.classification &&& 512 ≠ 0 ∧ (w.console = false ∨ w.consoleLimit.isSome)
       let noMsg := a.classification &&& 256 ≠ 0 ∧ w.printLimit.isSome
       if noCon ∧ noMsg then -1 else if noCon then 4 else if noMsg then 1 else 0) := by
  have m1 : message a 0x1F = text a fun _ => true := message_eq a h0 h4 _ _ (by intro c; cases c <;> rfl)
  have m2 : message a (verbOf w.msgverb) = text a sel := by
    refine message_eq a h0 h4 _ _ fun c => ?_
    rw [Bool.eq_iff_iff, hsel, verbOf_iff]
  have ar : ∀ l b, (dprintf l b).2 = arrives l b := by
    intro l b
    cases l <;> rfl
  have ok : ∀ l b, (dprintf l b).1 = l.isNone := by
    intro l b
    cases l <;> rfl
  unfold fmtmsg toConsole toStderr
  rw [m1, m2]
  dsimp only
  rw [ar, ar, ok, ok]
  have k1 : ¬ ((4 : Int32) &&& (4 ||| 1) = (4 ||| 1)) := by decide
  have k2 : ((4 ||| 1 : Int32) &&& (4 ||| 1) = (4 ||| 1)) := by decide
  have k5 : (0 ||| 1 : Int32) = 1 := by decide
  have k6 : ¬ (0 : Int32) = (4 ||| 1) := by decide
  have k7 : ¬ ((1 : Int32) &&& (4 ||| 1) = (4 ||| 1)) := by decide
  by_cases hc : a.classification &&& 512 ≠ 0 <;> by_cases hp : a.classification &&& 256 ≠ 0 <;> cases hw : w.console <;>
    cases hl : w.consoleLimit <;> cases hq : w.printLimit <;>
    simp only [ne_eq, Decidable.not_not] at hc hp <;>
    simp [hc, hp, k1, k2, k5, k6, k7]

/-- **C138, violated.** With any other severity (an implementation may define more; `fmtmsg` has no way to refuse them) the message contains "(null)". -/
theorem C138_severity_violation (w : World) (a : Args) (s : St) (hs : a.severity < 0 ∨ 4 < a.severity) (hp : a.classification &&& 256 ≠ 0) (hl : a.label = none)
    (hw : w.printLimit = none) (hv : w.msgverb = none) :
    [0x28, 0x6E, 0x75, 0x6C, 0x6C, 0x29] <+: (fmtmsg w a { s with stderr := [] }).2.stderr := by
  have he : errstring a.severity = none := by
    have : a.severity ≠ 1 ∧ a.severity ≠ 2 ∧ a.severity ≠ 3 ∧ a.severity ≠ 4 := by
      refine ⟨?_, ?_, ?_, ?_⟩ <;> intro h <;> rw [h] at hs <;> revert hs <;> decide
    unfold errstring
    rw [if_neg this.1, if_neg this.2.1, if_neg this.2.2.1, if_neg this.2.2.2]
  have hz : a.severity ≠ 0 := by
    intro h
    rw [h] at hs
    revert hs
    decide
  have hb : (verbOf w.msgverb).testBit 1 = true := by rw [hv]; decide
  have hm : [0x28, 0x6E, 0x75, 0x6C, 0x6C, 0x29] <+: message a (verbOf w.msgverb) := by
    unfold message
    rw [hl, he, hb]
    simp only [Option.isSome_none, Bool.and_false, pick, Bool.false_eq_true, if_false, List.nil_append, ne_eq, hz, not_false_eq_true, decide_true, Bool.and_self, if_true,
      percentS, Option.getD_none, List.append_assoc]
    exact List.prefix_append _ _
  have he : (fmtmsg w a { s with stderr := [] }).2.stderr = message a (verbOf w.msgverb) := by
    unfold fmtmsg toStderr
    dsimp only
    rw [if_pos hp, hw]
    have : (toConsole w a { { s with stderr := [] } with cancel := false }).2.stderr = [] := by
      unfold toConsole
      split
      · split <;> rfl
      · rfl
    dsimp only [dprintf]
    rw [this, List.nil_append]
  rw [he]
  exact hm

/-! ## Examples -/

/-- `fmtmsg(MM_PRINT, "l", MM_ERROR, "t", "a", "g")`. -/
def exArgs : Args := ⟨256, some [0x6C], 2, some [0x74], some [0x61], some [0x67]⟩

/-- Without `MSGVERB`: "l: ERROR: t\nTO FIX: a g\n". -/
example : (fmtmsg ⟨none, true, none, none⟩ exArgs ⟨[], [], 3, true⟩) =
    (0, ⟨[], [0x6C, 0x3A, 0x20, 0x45, 0x52, 0x52, 0x4F, 0x52, 0x3A, 0x20, 0x74, 0x0A, 0x54, 0x4F, 0x20, 0x46, 0x49, 0x58, 0x3A, 0x20, 0x61, 0x20, 0x67, 0x0A], 3, true⟩) := by
  decide +kernel

/-- `MSGVERB=tag:text`: "tg\n". -/
example : (fmtmsg ⟨some [0x74, 0x61, 0x67, 0x3A, 0x74, 0x65, 0x78, 0x74], true, none, none⟩ exArgs ⟨[], [], 3, true⟩) = (0, ⟨[], [0x74, 0x67, 0x0A], 3, true⟩) := by
  decide +kernel

/-- It names these components. -/
example : Names [0x74, 0x61, 0x67, 0x3A, 0x74, 0x65, 0x78, 0x74] [.tag, .text] := ⟨by simp, .inl rfl⟩

/-- Neither output works: `MM_NOTOK`. -/
example : (fmtmsg ⟨none, false, none, some 0⟩ { exArgs with classification := 768 } ⟨[], [], 3, true⟩).1 = -1 := by decide +kernel

end Verif.Fmtmsg
