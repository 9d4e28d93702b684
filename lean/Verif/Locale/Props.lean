import Verif.Locale.Model
/-!
# C144: locales; C145: locale definition files
-/

namespace Verif.Locale

/-! ## C144: specification -/

/-- The fields of the category `LC_NUMERIC`. -/
def numeric (f : Field) : Prop := f = .decimal_point ∨ f = .thousands_sep ∨ f = .grouping

instance (f : Field) : Decidable (numeric f) := by unfold numeric; infer_instance

/-- The C locale: the decimal point is `.`, other strings are empty, and other numbers `CHAR_MAX`. -/
def IsCLocale (d : Data) : Prop := ∀ f, d f = if f = .decimal_point then [0x2E] else if kind f = .int then [127] else []

/-! ## C144: theorems -/

theorem numeric_fields (self other : Data) (f : Field) (hf : f ≠ .frac_digits) : (numeric f → copyCategory self other 4 f = other f) ∧ (¬ numeric f → copyCategory self other 4 f = self f) := by
  unfold numeric
  constructor
  · rintro (rfl | rfl | rfl) <;> rfl
  · intro h
    cases f <;> first | rfl | simp at h hf

theorem monetary_fields (self other : Data) (f : Field) (hf : f ≠ .frac_digits) : (numeric f → copyCategory self other 3 f = self f) ∧ (¬ numeric f → copyCategory self other 3 f = other f) := by
  unfold numeric
  constructor
  · rintro (rfl | rfl | rfl) <;> rfl
  · intro h
    cases f <;> first | rfl | simp at h hf

/-- **C144.** Before any call of `setlocale`, `localeconv` of a thread without its own locale is the C locale. -/
theorem C144_initial (st : State) (t : Nat) (hg : st.global = none) (ht : st.thread t = none) : ∃ d, localeconv st t = some d ∧ IsCLocale d := by
  refine ⟨posixLconv, ?_, fun f => by cases f <;> rfl⟩
  unfold localeconv uselocale
  rw [ht]
  dsimp only
  rw [hg]

/-- **C144**, violated by the code: **the decimal point is lost**: `setlocale` in a process that has not called it before, whatever the category, even as a mere query of the name, or with the name `C`, leaves a global locale whose decimal point is the empty string. -/
theorem C144_decimal_point_violation (files : Files) (st : State) (t : Nat) (category : Int) (name : Option (List UInt8)) (hg : st.global = none) (ht : st.thread t = none) (hn : name = none ∨ name = some [0x43]) :
    ∃ d, localeconv (setlocale files st category name).2 t = some d ∧ d .decimal_point = [] := by
  have key : ∃ g, (setlocale files st category name).2.global = some g ∧ g.data .decimal_point = [] ∧ (setlocale files st category name).2.thread t = none := by
    rcases hn with rfl | rfl
    · refine ⟨newGlobal, ?_, rfl, ht⟩
      unfold setlocale
      rw [hg]
      rfl
    · have hl : load files [0x43] = some posix := rfl
      have hu : isUtf8 [0x43] = true := by decide +kernel
      have hc : ∀ c, copyCategory posix posix c .decimal_point = [] := by
        intro c
        unfold copyCategory
        split
        · rfl
        · split
          · rfl
          · split <;> rfl
      unfold setlocale
      dsimp only
      rw [hu, if_pos rfl, hl]
      dsimp only
      split
      · refine ⟨_, rfl, ?_, ht⟩
        rw [hg]
        exact hc _
      · refine ⟨_, rfl, ?_, ht⟩
        rw [hg]
        exact hc _
  obtain ⟨g, h1, h2, h3⟩ := key
  refine ⟨g.data, ?_, h2⟩
  unfold localeconv uselocale
  rw [h3]
  dsimp only
  rw [h1]

/-- **C144**, violated by the code: the same for `newlocale` with the name `C`, all categories. -/
theorem C144_newlocale_C_violation (files : Files) (st : State) : ∃ h st' d, newlocale files st 0x3F [0x43] .null = some (.obj h, st') ∧ st'.heap h = some d ∧ d .decimal_point = [] := by
  have hu : isUtf8 [0x43] = true := by decide +kernel
  refine ⟨st.next, (alloc st posix).2, posix, ?_, ?_, rfl⟩
  · unfold newlocale
    rw [hu]
    rfl
  · exact if_pos rfl

/-- **C144.** `uselocale` returns the locale used before and changes that of the calling thread only; the null locale changes nothing. -/
theorem C144_uselocale (st : State) (t : Nat) (l : Loc) (hl : l ≠ .null) :
    (uselocale (uselocale st t l).2 t .null).1 = l ∧ (∀ i, i ≠ t → ∀ m, (uselocale (uselocale st t l).2 i m).1 = (uselocale st i m).1) ∧ (uselocale st t .null).2 = st
    ∧ (uselocale (uselocale st t l).2 t (uselocale st t l).1).2 = st := by
  cases l with
  | null => exact absurd rfl hl
  | global =>
    refine ⟨?_, fun i hi m => ?_, rfl, ?_⟩
    · simp [uselocale]
    · simp [uselocale, hi]
    · unfold uselocale
      cases h : st.thread t with
      | none =>
        cases st
        simp only at h ⊢
        congr 1
        funext i
        by_cases hi : i = t
        · rw [if_pos hi, hi, h]
        · rw [if_neg hi, if_neg hi]
      | some x =>
        cases st
        simp only at h ⊢
        congr 1
        funext i
        by_cases hi : i = t
        · rw [if_pos hi, hi, h]
        · rw [if_neg hi, if_neg hi]
  | obj k =>
    refine ⟨?_, fun i hi m => ?_, rfl, ?_⟩
    · simp [uselocale]
    · simp [uselocale, hi]
    · unfold uselocale
      cases h : st.thread t with
      | none =>
        cases st
        simp only at h ⊢
        congr 1
        funext i
        by_cases hi : i = t
        · rw [if_pos hi, hi, h]
        · rw [if_neg hi, if_neg hi]
      | some x =>
        cases st
        simp only at h ⊢
        congr 1
        funext i
        by_cases hi : i = t
        · rw [if_pos hi, hi, h]
        · rw [if_neg hi, if_neg hi]

/-- **C144.** `localeconv` is of the locale the thread uses: `setlocale` changes nothing for a thread with its own locale, and `uselocale` in another thread changes nothing. -/
theorem C144_localeconv (files : Files) (st : State) (t i h : Nat) (category : Int) (name : Option (List UInt8)) (l : Loc) :
    (st.thread t = some h → localeconv st t = st.heap h ∧ localeconv (setlocale files st category name).2 t = st.heap h)
    ∧ localeconv (uselocale st t (.obj h)).2 t = st.heap h
    ∧ (i ≠ t → localeconv (uselocale st i l).2 t = localeconv st t) := by
  have hset : (setlocale files st category name).2.thread = st.thread ∧ (setlocale files st category name).2.heap = st.heap := by
    unfold setlocale
    cases name with
    | none => exact ⟨rfl, rfl⟩
    | some n =>
      dsimp only
      cases load files (if isUtf8 n = true then n else [0x43]) with
      | none => exact ⟨rfl, rfl⟩
      | some d =>
        dsimp only
        split <;> exact ⟨rfl, rfl⟩
  refine ⟨fun ht => ⟨?_, ?_⟩, ?_, fun hi => ?_⟩
  · unfold localeconv uselocale
    rw [ht]
  · unfold localeconv uselocale
    rw [hset.1, ht]
    dsimp only
    rw [hset.2]
  · simp [localeconv, uselocale]
  · cases l <;> simp [localeconv, uselocale, Ne.symm hi]

/-- What a failed `setlocale` leaves. -/
theorem set_same {st : State} {g : Global} (hg : st.global = some g) : { st with global := some g } = st := by
  cases st
  simp only at hg ⊢
  rw [hg]

/-- **C144.** A call that fails, for a category or for a name that does not exist, changes nothing, once the global locale exists. -/
theorem C144_failed (files : Files) (st : State) (g : Global) (category : Int) (name : List UInt8) (hg : st.global = some g) (hu : isUtf8 name = true) :
    ((category < 0 ∨ 7 ≤ category) → setlocale files st category (some name) = (none, st) ∧ setlocale files st category none = (none, st))
    ∧ (name ≠ [] → name ≠ [0x43] → name ≠ [0x50, 0x4F, 0x53, 0x49, 0x58] → files name = none → setlocale files st category (some name) = (none, st)) := by
  constructor
  · intro hc
    constructor
    · unfold setlocale
      dsimp only
      rw [hg, hu, if_pos rfl]
      cases load files name with
      | none =>
        dsimp only
        rw [Option.getD_some, set_same hg]
      | some d =>
        dsimp only
        rw [Option.getD_some, if_neg (by omega)]
        have : copyCategory g.data d category = g.data := by
          unfold copyCategory
          rw [if_neg (by unfold LC_NUMERIC; omega), if_neg (by unfold LC_MONETARY; omega), if_neg (by unfold LC_ALL; omega)]
        rw [this, set_same hg]
    · unfold setlocale
      dsimp only
      rw [hg, Option.getD_some, if_neg (by omega), set_same hg]
  · intro h1 h2 h3 hf
    have hl : load files name = none := by
      unfold load
      rw [if_neg (by simp only [h1, h2, h3, or_self, not_false_eq_true]), hf]
      rfl
    unfold setlocale
    dsimp only
    rw [hu, if_pos rfl, hl]
    dsimp only
    rw [hg, Option.getD_some, set_same hg]

/-- The locale of a name, without the names of the C locale. -/
def Named (files : Files) (name : List UInt8) (d : Data) : Prop := name ≠ [] ∧ name ≠ [0x43] ∧ name ≠ [0x50, 0x4F, 0x53, 0x49, 0x58] ∧ isUtf8 name = true ∧ ∃ s, files name = some s ∧ d = newData (parseFile s)

theorem load_named {files : Files} {name : List UInt8} {d : Data} (h : Named files name d) : load files name = some d ∧ isUtf8 name = true := by
  obtain ⟨h1, h2, h3, hu, s, hf, rfl⟩ := h
  refine ⟨?_, hu⟩
  unfold load
  rw [if_neg (by simp only [h1, h2, h3, or_self, not_false_eq_true]), hf]
  rfl

/-- **C144**, part: `setlocale` with a name for which there is a file returns the name; a query of the category returns it then; the names of the other categories are as before. In the global locale the fields of the category are those of the file and other fields are as before,
`frac_digits` excepted. Missing: the names after a change of `LC_ALL`, and `frac_digits`; both are wrong (below). -/
theorem C144_setlocale_partial (files : Files) (st : State) (g : Global) (category : Int) (name : List UInt8) (d : Data) (hg : st.global = some g) (hn : Named files name d) (hc : 0 ≤ category ∧ category < 7) :
    ∃ g' st', setlocale files st category (some name) = (some name, st') ∧ st' = { st with global := some g' }
    ∧ (setlocale files st' category none).1 = some name ∧ (∀ c, c ≠ category → (setlocale files st' c none).1 = (setlocale files st c none).1)
    ∧ (∀ f, f ≠ .frac_digits → g'.data f = if category = 6 ∨ category = 4 ∧ numeric f ∨ category = 3 ∧ ¬ numeric f then d f else g.data f)
    ∧ (category = 6 → g'.data = d) := by
  obtain ⟨hl, hu⟩ := load_named hn
  refine ⟨{ names := fun i => if i = category.toNat then name else g.names i, data := copyCategory g.data d category }, _, ?_, rfl, ?_, ?_, ?_, ?_⟩
  · unfold setlocale
    dsimp only
    rw [hu, if_pos rfl, hl]
    dsimp only
    rw [hg, Option.getD_some, if_pos hc]
  · unfold setlocale
    dsimp only
    rw [Option.getD_some, if_pos hc]
    exact congrArg some (if_pos rfl)
  · intro c hne
    unfold setlocale
    dsimp only
    rw [hg, Option.getD_some, Option.getD_some]
    split
    · dsimp only
      rw [if_neg (by omega)]
    · rfl
  · intro f hf
    dsimp only
    have h4 := numeric_fields g.data d f hf
    have h3 := monetary_fields g.data d f hf
    by_cases c4 : category = 4
    · subst c4
      by_cases hnum : numeric f
      · rw [if_pos (.inr (.inl ⟨rfl, hnum⟩))]
        exact h4.1 hnum
      · rw [if_neg (by simp [hnum])]
        exact h4.2 hnum
    · by_cases c3 : category = 3
      · subst c3
        by_cases hnum : numeric f
        · rw [if_neg (by simp [hnum])]
          exact h3.1 hnum
        · rw [if_pos (.inr (.inr ⟨rfl, hnum⟩))]
          exact h3.2 hnum
      · unfold copyCategory
        rw [if_neg (show ¬ category = LC_NUMERIC from c4), if_neg (show ¬ category = LC_MONETARY from c3)]
        by_cases c6 : category = 6
        · rw [if_pos (show category = LC_ALL from c6), if_pos (show category = 6 ∨ category = 4 ∧ numeric f ∨ category = 3 ∧ ¬ numeric f from .inl c6)]
        · rw [if_neg (show ¬ category = LC_ALL from c6), if_neg (show ¬ (category = 6 ∨ category = 4 ∧ numeric f ∨ category = 3 ∧ ¬ numeric f) by simp [c3, c4, c6])]
  · intro c6
    subst c6
    rfl

/-- **C144**, violated by the code: **`frac_digits`** is changed by `LC_NUMERIC` and not by `LC_MONETARY`, to which it belongs. -/
theorem C144_frac_digits_violation (files : Files) (st : State) (g : Global) (name : List UInt8) (d : Data) (hg : st.global = some g) (hn : Named files name d) :
    (∃ g', (setlocale files st 4 (some name)).2.global = some g' ∧ g'.data .frac_digits = d .frac_digits) ∧ (∃ g', (setlocale files st 3 (some name)).2.global = some g' ∧ g'.data .frac_digits = g.data .frac_digits) := by
  obtain ⟨hl, hu⟩ := load_named hn
  constructor
  · refine ⟨{ names := fun i => if i = (4 : Int).toNat then name else g.names i, data := copyCategory g.data d 4 }, ?_, rfl⟩
    unfold setlocale
    dsimp only
    rw [hu, if_pos rfl, hl]
    dsimp only
    rw [if_pos (by decide), hg]
    rfl
  · refine ⟨{ names := fun i => if i = (3 : Int).toNat then name else g.names i, data := copyCategory g.data d 3 }, ?_, rfl⟩
    unfold setlocale
    dsimp only
    rw [hu, if_pos rfl, hl]
    dsimp only
    rw [if_pos (by decide), hg]
    rfl

/-- **C144**, violated by the code: **`LC_ALL`**: after the locale of all categories was changed, the name of each single category is what it was; and after one category was changed, the name of `LC_ALL` is what it was, so that the locale cannot be restored with it. -/
theorem C144_all_names_violation (files : Files) (st : State) (g : Global) (name : List UInt8) (d : Data) (hg : st.global = some g) (hn : Named files name d) :
    (∀ c, 0 ≤ c ∧ c < 6 → (setlocale files (setlocale files st 6 (some name)).2 c none).1 = some (g.names c.toNat)) ∧ (setlocale files (setlocale files st 4 (some name)).2 6 none).1 = some (g.names 6) := by
  constructor
  · intro c hc
    obtain ⟨g', st', h1, h2, h3, h4, _⟩ := C144_setlocale_partial files st g 6 name d hg hn (by decide)
    rw [h1, h4 c (by omega)]
    unfold setlocale
    dsimp only
    rw [hg, Option.getD_some, if_pos (by omega)]
  · obtain ⟨g', st', h1, h2, h3, h4, _⟩ := C144_setlocale_partial files st g 4 name d hg hn (by decide)
    rw [h1, h4 6 (by decide)]
    unfold setlocale
    dsimp only
    rw [hg, Option.getD_some, if_pos (by decide)]
    rfl

/-- **C144**, violated by the code: a name that is **not UTF-8** is taken as `C`. -/
theorem C144_name_violation (files : Files) (st : State) (category : Int) (name : List UInt8) (hu : isUtf8 name = false) (hc : 0 ≤ category ∧ category < 7) : (setlocale files st category (some name)).1 = some [0x43] := by
  have hl : load files [0x43] = some posix := rfl
  unfold setlocale
  dsimp only
  rw [hu, if_neg (by decide), hl]
  dsimp only
  rw [if_pos hc]

/-- Every object has a number below `next`. -/
def Fresh (st : State) : Prop := st.heap st.next = none

/-- **C144**, part: `newlocale` with a base: a new object, whose fields are those of the file for the categories of the mask and those of the base for others, `frac_digits` excepted; nothing else changes, and a name without a file gives the null locale and no change. Missing: `frac_digits`, and the null
base, with which the mask is ignored (below). -/
theorem C144_newlocale_partial (files : Files) (st : State) (mask : UInt32) (name : List UInt8) (h : Nat) (b d : Data) (hb : st.heap h = some b) (hf : Fresh st) :
    (Named files name d → ∃ k st' e, newlocale files st mask name (.obj h) = some (.obj k, st') ∧ st.heap k = none ∧ st'.heap k = some e ∧ (∀ i, i ≠ k → st'.heap i = st.heap i) ∧ st'.global = st.global ∧ st'.thread = st.thread
      ∧ (∀ f, numeric f → e f = if mask &&& 0x10 = 0 then b f else d f) ∧ (∀ f, ¬ numeric f → f ≠ .frac_digits → e f = if mask &&& 8 = 0 then b f else d f))
    ∧ (name ≠ [] → name ≠ [0x43] → name ≠ [0x50, 0x4F, 0x53, 0x49, 0x58] → files name = none → newlocale files st mask name (.obj h) = some (.null, st)) := by
  constructor
  · intro hn
    obtain ⟨hl, hu⟩ := load_named hn
    refine ⟨st.next, (alloc st (if mask &&& LC_MONETARY_MASK = 0 then copyCategory (if mask &&& LC_NUMERIC_MASK = 0 then copyCategory d b LC_NUMERIC else d) b LC_MONETARY else if mask &&& LC_NUMERIC_MASK = 0 then copyCategory d b LC_NUMERIC else d)).2,
      if mask &&& LC_MONETARY_MASK = 0 then copyCategory (if mask &&& LC_NUMERIC_MASK = 0 then copyCategory d b LC_NUMERIC else d) b LC_MONETARY else if mask &&& LC_NUMERIC_MASK = 0 then copyCategory d b LC_NUMERIC else d,
      ?_, hf, if_pos rfl, fun i hi => if_neg hi, rfl, rfl, ?_, ?_⟩
    · unfold newlocale
      rw [hu, if_pos rfl, hl]
      dsimp only
      rw [hb]
      rfl
    · intro f hnum
      have hfd : f ≠ .frac_digits := by
        rintro rfl
        unfold numeric at hnum
        simp at hnum
      have n1 := (numeric_fields d b f hfd).1 hnum
      have m1 := fun x => (monetary_fields x b f hfd).1 hnum
      unfold LC_MONETARY_MASK LC_NUMERIC_MASK LC_MONETARY LC_NUMERIC
      by_cases c1 : mask &&& 8 = 0
      · rw [if_pos c1, m1]
        by_cases c2 : mask &&& 0x10 = 0
        · rw [if_pos c2, if_pos c2]; exact n1
        · rw [if_neg c2, if_neg c2]
      · rw [if_neg c1]
        by_cases c2 : mask &&& 0x10 = 0
        · rw [if_pos c2, if_pos c2]; exact n1
        · rw [if_neg c2, if_neg c2]
    · intro f hnum hfd
      have n1 := (numeric_fields d b f hfd).2 hnum
      have m1 := fun x => (monetary_fields x b f hfd).2 hnum
      unfold LC_MONETARY_MASK LC_NUMERIC_MASK LC_MONETARY LC_NUMERIC
      by_cases c1 : mask &&& 8 = 0
      · rw [if_pos c1, if_pos c1, m1]
      · rw [if_neg c1, if_neg c1]
        by_cases c2 : mask &&& 0x10 = 0
        · rw [if_pos c2]; exact n1
        · rw [if_neg c2]
  · intro h1 h2 h3 hfile
    have hl : (if isUtf8 name = true then load files name else none) = none := by
      split
      · unfold load
        rw [if_neg (by simp only [h1, h2, h3, or_self, not_false_eq_true]), hfile]
        rfl
      · rfl
    unfold newlocale
    rw [hl]

/-- **C144**, violated by the code: with the **null base**, categories that are not in the mask are to be those of the C locale, but every field is that of the file. -/
theorem C144_null_base_violation (files : Files) (st : State) (mask : UInt32) (name : List UInt8) (d : Data) (hn : Named files name d) :
    ∃ k st', newlocale files st mask name .null = some (.obj k, st') ∧ st'.heap k = some d := by
  obtain ⟨hl, hu⟩ := load_named hn
  refine ⟨st.next, (alloc st d).2, ?_, ?_⟩
  · unfold newlocale
    rw [hu, if_pos rfl, hl]
    rfl
  · exact if_pos rfl

/-- **C144**, part: `duplocale` of an object is a new object with the same fields, which stays when the first is freed. -/
theorem C144_duplocale_partial (st : State) (h : Nat) (d : Data) (hh : st.heap h = some d) (hf : Fresh st) :
    ∃ k st' st'', duplocale st (.obj h) = some (.obj k, st') ∧ k ≠ h ∧ st'.heap k = some d ∧ (∀ i, i ≠ k → st'.heap i = st.heap i) ∧ freelocale st' (.obj h) = some st'' ∧ st''.heap k = some d ∧ st''.heap h = none := by
  have hne : st.next ≠ h := by
    intro e
    unfold Fresh at hf
    rw [e, hh] at hf
    cases hf
  refine ⟨st.next, (alloc st d).2, { (alloc st d).2 with heap := fun i => if i = h then none else (alloc st d).2.heap i }, ?_, hne, if_pos rfl, fun i hi => if_neg hi, ?_, ?_, if_pos rfl⟩
  · unfold duplocale
    dsimp only
    rw [hh]
    rfl
  · unfold freelocale
    dsimp only
    have : (alloc st d).2.heap h = some d := by
      unfold alloc
      dsimp only
      rw [if_neg (Ne.symm hne), hh]
    rw [this]
    rfl
  · dsimp only
    rw [if_neg hne]
    exact if_pos rfl

/-- **C144**, violated by the code: `duplocale` of the **global locale** is the POSIX locale instead, without a decimal point. -/
theorem C144_duplocale_violation (st : State) : ∃ k st' d, duplocale st .global = some (.obj k, st') ∧ st'.heap k = some d ∧ d .decimal_point = [] ∧ d .thousands_sep = [] :=
  ⟨st.next, _, posix, rfl, if_pos rfl, rfl, rfl⟩

/-- A file with a decimal comma; the global locale with it, and a thread with the C locale of its own. -/
example : let files : Files := fun n => if n = [0x64, 0x65] then some [0x64, 0x65, 0x63, 0x69, 0x6D, 0x61, 0x6C, 0x5F, 0x70, 0x6F, 0x69, 0x6E, 0x74, 0x20, 0x22, 0x2C, 0x22, 0x0A] else none
    (setlocale files start 4 (some [0x64, 0x65])).1 = some [0x64, 0x65]
    ∧ ((localeconv (setlocale files start 4 (some [0x64, 0x65])).2 0).map fun d => d .decimal_point) = some [0x2C]
    ∧ ((localeconv (setlocale files (uselocale (alloc start posixLconv).2 1 (.obj 0)).2 4 (some [0x64, 0x65])).2 1).map fun d => d .decimal_point) = some [0x2E] := by decide +kernel

/-! ## C145: specification -/

/-- The keywords of a definition file. -/
def name : Field → List UInt8
  | .decimal_point => [0x64, 0x65, 0x63, 0x69, 0x6D, 0x61, 0x6C, 0x5F, 0x70, 0x6F, 0x69, 0x6E, 0x74]
  | .thousands_sep => [0x74, 0x68, 0x6F, 0x75, 0x73, 0x61, 0x6E, 0x64, 0x73, 0x5F, 0x73, 0x65, 0x70]
  | .int_curr_symbol => [0x69, 0x6E, 0x74, 0x5F, 0x63, 0x75, 0x72, 0x72, 0x5F, 0x73, 0x79, 0x6D, 0x62, 0x6F, 0x6C]
  | .currency_symbol => [0x63, 0x75, 0x72, 0x72, 0x65, 0x6E, 0x63, 0x79, 0x5F, 0x73, 0x79, 0x6D, 0x62, 0x6F, 0x6C]
  | .mon_decimal_point => [0x6D, 0x6F, 0x6E, 0x5F, 0x64, 0x65, 0x63, 0x69, 0x6D, 0x61, 0x6C, 0x5F, 0x70, 0x6F, 0x69, 0x6E, 0x74]
  | .mon_thousands_sep => [0x6D, 0x6F, 0x6E, 0x5F, 0x74, 0x68, 0x6F, 0x75, 0x73, 0x61, 0x6E, 0x64, 0x73, 0x5F, 0x73, 0x65, 0x70]
  | .positive_sign => [0x70, 0x6F, 0x73, 0x69, 0x74, 0x69, 0x76, 0x65, 0x5F, 0x73, 0x69, 0x67, 0x6E]
  | .negative_sign => [0x6E, 0x65, 0x67, 0x61, 0x74, 0x69, 0x76, 0x65, 0x5F, 0x73, 0x69, 0x67, 0x6E]
  | .grouping => [0x67, 0x72, 0x6F, 0x75, 0x70, 0x69, 0x6E, 0x67]
  | .mon_grouping => [0x6D, 0x6F, 0x6E, 0x5F, 0x67, 0x72, 0x6F, 0x75, 0x70, 0x69, 0x6E, 0x67]
  | .int_frac_digits => [0x69, 0x6E, 0x74, 0x5F, 0x66, 0x72, 0x61, 0x63, 0x5F, 0x64, 0x69, 0x67, 0x69, 0x74, 0x73]
  | .frac_digits => [0x66, 0x72, 0x61, 0x63, 0x5F, 0x64, 0x69, 0x67, 0x69, 0x74, 0x73]
  | .p_cs_precedes => [0x70, 0x5F, 0x63, 0x73, 0x5F, 0x70, 0x72, 0x65, 0x63, 0x65, 0x64, 0x65, 0x73]
  | .p_sep_by_space => [0x70, 0x5F, 0x73, 0x65, 0x70, 0x5F, 0x62, 0x79, 0x5F, 0x73, 0x70, 0x61, 0x63, 0x65]
  | .n_cs_precedes => [0x6E, 0x5F, 0x63, 0x73, 0x5F, 0x70, 0x72, 0x65, 0x63, 0x65, 0x64, 0x65, 0x73]
  | .n_sep_by_space => [0x6E, 0x5F, 0x73, 0x65, 0x70, 0x5F, 0x62, 0x79, 0x5F, 0x73, 0x70, 0x61, 0x63, 0x65]
  | .p_sign_posn => [0x70, 0x5F, 0x73, 0x69, 0x67, 0x6E, 0x5F, 0x70, 0x6F, 0x73, 0x6E]
  | .n_sign_posn => [0x6E, 0x5F, 0x73, 0x69, 0x67, 0x6E, 0x5F, 0x70, 0x6F, 0x73, 0x6E]
  | .int_p_cs_precedes => [0x69, 0x6E, 0x74, 0x5F, 0x70, 0x5F, 0x63, 0x73, 0x5F, 0x70, 0x72, 0x65, 0x63, 0x65, 0x64, 0x65, 0x73]
  | .int_p_sep_by_space => [0x69, 0x6E, 0x74, 0x5F, 0x70, 0x5F, 0x73, 0x65, 0x70, 0x5F, 0x62, 0x79, 0x5F, 0x73, 0x70, 0x61, 0x63, 0x65]
  | .int_n_cs_precedes => [0x69, 0x6E, 0x74, 0x5F, 0x6E, 0x5F, 0x63, 0x73, 0x5F, 0x70, 0x72, 0x65, 0x63, 0x65, 0x64, 0x65, 0x73]
  | .int_n_sep_by_space => [0x69, 0x6E, 0x74, 0x5F, 0x6E, 0x5F, 0x73, 0x65, 0x70, 0x5F, 0x62, 0x79, 0x5F, 0x73, 0x70, 0x61, 0x63, 0x65]
  | .int_p_sign_posn => [0x69, 0x6E, 0x74, 0x5F, 0x70, 0x5F, 0x73, 0x69, 0x67, 0x6E, 0x5F, 0x70, 0x6F, 0x73, 0x6E]
  | .int_n_sign_posn => [0x69, 0x6E, 0x74, 0x5F, 0x6E, 0x5F, 0x73, 0x69, 0x67, 0x6E, 0x5F, 0x70, 0x6F, 0x73, 0x6E]

/-- A word: not empty, without white space, and not with a backslash at the end. -/
def Word (w : List UInt8) : Prop := w ≠ [] ∧ (∀ b ∈ w, b ≠ 0x20 ∧ ¬ (9 ≤ b ∧ b ≤ 13)) ∧ w.getLast? ≠ some 0x5C

/-- The lines of a file. -/
inductive Line where
  | entry (f : Field) (v : List UInt8)
  | comment (s : List UInt8)
  | blank (n : Nat)
  | other (k v : List UInt8)

/-- The text of a line. -/
def Line.text : Line → List UInt8
  | .entry f v => name f ++ 0x20 :: v
  | .comment s => 0x23 :: s
  | .blank n => List.replicate n 0x20
  | .other k v => k ++ 0x20 :: v

def Line.Ok : Line → Prop
  | .entry _ v => Word v
  | .comment s => 0x0A ∉ s
  | .blank _ => True
  | .other k v => Word k ∧ Word v ∧ k.head? ≠ some 0x23 ∧ ∀ f, k ≠ name f

/-- The last value for a field. -/
def lastValue (ls : List Line) (f : Field) : Option (List UInt8) := (ls.filterMap fun l => match l with
  | .entry g v => if g = f then some v else none
  | _ => none).getLast?

/-- The text of a file. -/
def text (ls : List Line) : List UInt8 := ls.flatMap fun l => l.text ++ [0x0A]

/-! ## C145: lemmas -/

theorem split_cons {d : UInt8} {a s : List UInt8} (h : d ∉ a) : split d (a ++ d :: s) = a :: split d s := by
  induction a with
  | nil =>
    show split d (d :: s) = _
    rw [split, if_pos rfl]
  | cons b a ih =>
    simp only [List.mem_cons, not_or] at h
    show split d (b :: (a ++ d :: s)) = _
    rw [split, if_neg (Ne.symm h.1), ih h.2]

theorem split_one {d : UInt8} {a : List UInt8} (h : d ∉ a) : split d a = [a] := by
  induction a with
  | nil => rfl
  | cons b a ih =>
    simp only [List.mem_cons, not_or] at h
    rw [split, if_neg (Ne.symm h.1), ih h.2]

theorem space_iff (b : UInt8) (h : b ≠ 0x20 ∧ ¬ (9 ≤ b ∧ b ≤ 13)) : isAsciiSpace b = false ∧ Lookup.isSpace b = false := by
  have h9 : b ≠ 9 := fun e => h.2 (by rw [e]; decide)
  have h10 : b ≠ 10 := fun e => h.2 (by rw [e]; decide)
  have h11 : b ≠ 11 := fun e => h.2 (by rw [e]; decide)
  have h12 : b ≠ 12 := fun e => h.2 (by rw [e]; decide)
  have h13 : b ≠ 13 := fun e => h.2 (by rw [e]; decide)
  constructor
  · unfold isAsciiSpace
    simp [h.1, h9, h10, h12, h13]
  · unfold Lookup.isSpace
    rw [Bool.or_eq_false_iff, Bool.and_eq_false_iff]
    refine ⟨by simp [h.1], ?_⟩
    by_cases h9 : 9 ≤ b
    · exact .inr (decide_eq_false fun h' => h.2 ⟨h9, h'⟩)
    · exact .inl (decide_eq_false h9)

theorem words_one {w : List UInt8} (hw : w ≠ []) (h : ∀ b ∈ w, isAsciiSpace b = false) : words w = [w] := by
  induction w with
  | nil => exact absurd rfl hw
  | cons b w ih =>
    have hb := h b (by simp)
    cases w with
    | nil => rw [words, hb]; rfl
    | cons c w =>
      have hc := h c (by simp)
      rw [words, hb, hc, ih (by simp) (fun x hx => h x (by simp at hx ⊢; exact .inr hx))]
      rfl

theorem words_cons {w : List UInt8} (s : List UInt8) (hw : w ≠ []) (h : ∀ b ∈ w, isAsciiSpace b = false) : words (w ++ 0x20 :: s) = w :: words (0x20 :: s) := by
  induction w with
  | nil => exact absurd rfl hw
  | cons b w ih =>
    have hb := h b (by simp)
    cases w with
    | nil =>
      show words (b :: 0x20 :: s) = _
      rw [words, hb]
      rfl
    | cons c w =>
      have hc := h c (by simp)
      show words (b :: c :: (w ++ 0x20 :: s)) = _
      have := ih (by simp) (fun x hx => h x (by simp at hx ⊢; exact .inr hx))
      rw [List.cons_append] at this
      rw [words, hb, hc, this]
      rfl

theorem words_space {v : List UInt8} (hw : v ≠ []) : words (0x20 :: v) = words v := by
  cases v with
  | nil => exact absurd rfl hw
  | cons c s =>
    rw [words, if_pos (by decide)]

theorem trim_ends {s : List UInt8} (h1 : ∀ b, s.head? = some b → Lookup.isSpace b = false) (h2 : ∀ b, s.getLast? = some b → Lookup.isSpace b = false) : Lookup.trim s = s := by
  unfold Lookup.trim
  have drop : ∀ l : List UInt8, (∀ b, l.head? = some b → Lookup.isSpace b = false) → l.dropWhile Lookup.isSpace = l := by
    intro l hl
    cases l with
    | nil => rfl
    | cons b l => rw [List.dropWhile_cons, hl b rfl]; rfl
  rw [drop s h1, drop s.reverse (by intro b hb; rw [List.head?_reverse] at hb; exact h2 b hb), List.reverse_reverse]

theorem trim_blank (n : Nat) : Lookup.trim (List.replicate n 0x20) = [] := by
  unfold Lookup.trim
  have : (List.replicate n (0x20 : UInt8)).dropWhile Lookup.isSpace = [] := by
    induction n with
    | zero => rfl
    | succ n ih => rw [List.replicate_succ, List.dropWhile_cons, if_pos (by decide), ih]
  rw [this]
  rfl

/-- A line of two words. -/
theorem two_words {k v : List UInt8} (hk : Word k) (hv : Word v) : words (Lookup.trim (k ++ 0x20 :: v)) = [k, v] := by
  rw [trim_ends]
  · rw [words_cons v hk.1 (fun b hb => (space_iff b (hk.2.1 b hb)).1), words_space hv.1, words_one hv.1 (fun b hb => (space_iff b (hv.2.1 b hb)).1)]
  · intro b hb
    obtain ⟨x, l, rfl⟩ : ∃ x l, k = x :: l := by
      cases k with
      | nil => exact absurd rfl hk.1
      | cons x l => exact ⟨x, l, rfl⟩
    simp only [List.cons_append, List.head?_cons, Option.some.injEq] at hb
    subst hb
    exact (space_iff _ (hk.2.1 x (by simp))).2
  · intro b hb
    have : (k ++ 0x20 :: v).getLast? = v.getLast? := by
      obtain ⟨x, l, rfl⟩ : ∃ x l, v = x :: l := by
        cases v with
        | nil => exact absurd rfl hv.1
        | cons x l => exact ⟨x, l, rfl⟩
      rw [List.getLast?_append, List.getLast?_cons_cons]
      cases hh : (x :: l).getLast? with
      | none => simp at hh
      | some y => rfl
    rw [this] at hb
    exact (space_iff b (hv.2.1 b (List.mem_of_getLast? hb))).2

theorem value_word {v : List UInt8} (hv : Word v) (rest : List (List UInt8)) : value rest [v] = (v, rest) := by
  cases rest with
  | nil => rw [value, if_neg hv.2.2]
  | cons l rest => rw [value, if_neg hv.2.2]

theorem name_word (f : Field) : Word (name f) ∧ (name f).head? ≠ some 0x23 := by
  unfold Word
  cases f <;> decide

theorem keyword_find (f : Field) : ∃ k, keywords.find? (fun k => k.1 == name f) = some k ∧ k.2 = f := by
  cases f <;> exact ⟨_, rfl, rfl⟩

theorem keyword_none {k : List UInt8} (h : ∀ f, k ≠ name f) : keywords.find? (fun x => x.1 == k) = none := by
  rw [List.find?_eq_none]
  intro x hx
  have : ∀ x ∈ keywords, x.1 = name x.2 := by decide +kernel
  rw [this x hx]
  simp only [beq_iff_eq]
  exact fun e => h x.2 e.symm

/-- What a line does. -/
def Line.apply (d : Def) : Line → Def
  | .entry g v => fun f => if f = g then parseField f v else d f
  | _ => d

theorem parse_line (d : Def) (l : Line) (h : l.Ok) (rest : List (List UInt8)) : parse d ((if l.text.getLast? = some 0x0D then l.text.dropLast else l.text) :: rest) = parse (l.apply d) rest := by
  have nocr : ∀ {k v : List UInt8}, Word v → (k ++ 0x20 :: v).getLast? ≠ some 0x0D := by
    intro k v hv hb
    have : (k ++ 0x20 :: v).getLast? = v.getLast? := by
      obtain ⟨x, l, rfl⟩ : ∃ x l, v = x :: l := by
        cases v with
        | nil => exact absurd rfl hv.1
        | cons x l => exact ⟨x, l, rfl⟩
      rw [List.getLast?_append, List.getLast?_cons_cons]
      cases hh : (x :: l).getLast? with
      | none => simp at hh
      | some y => rfl
    rw [this] at hb
    exact (hv.2.1 _ (List.mem_of_getLast? hb)).2 (by decide)
  cases l with
  | entry f v =>
    have hv : Word v := h
    obtain ⟨hk, hh⟩ := name_word f
    show parse d ((if (name f ++ 0x20 :: v).getLast? = some 0x0D then (name f ++ 0x20 :: v).dropLast else name f ++ 0x20 :: v) :: rest) = _
    rw [if_neg (nocr hv), parse, two_words hk hv]
    dsimp only
    rw [if_neg hh, value_word hv]
    dsimp only
    rw [if_neg hv.1]
    obtain ⟨k, h1, h2⟩ := keyword_find f
    rw [h1]
    dsimp only
    rw [h2]
    rfl
  | other k v =>
    obtain ⟨hk, hv, hh, hn⟩ := h
    show parse d ((if (k ++ 0x20 :: v).getLast? = some 0x0D then (k ++ 0x20 :: v).dropLast else k ++ 0x20 :: v) :: rest) = _
    rw [if_neg (nocr hv), parse, two_words hk hv]
    dsimp only
    rw [if_neg hh, value_word hv]
    dsimp only
    rw [if_neg hv.1, keyword_none hn]
    rfl
  | blank n =>
    have : (List.replicate n (0x20 : UInt8)).getLast? ≠ some 0x0D := by
      intro hb
      have := (List.mem_replicate.1 (List.mem_of_getLast? hb)).2
      cases this
    show parse d ((if (List.replicate n (0x20 : UInt8)).getLast? = some 0x0D then _ else List.replicate n (0x20 : UInt8)) :: rest) = _
    rw [if_neg this, parse, trim_blank]
    rfl
  | comment s =>
    have key : ∀ u : List UInt8, parse d ((0x23 :: u) :: rest) = parse d rest := by
      intro u
      have htrim : ∃ w, Lookup.trim (0x23 :: u) = 0x23 :: w := by
        unfold Lookup.trim
        rw [List.dropWhile_cons, if_neg (by decide), List.reverse_cons, List.dropWhile_append]
        split
        · exact ⟨[], rfl⟩
        · exact ⟨(u.reverse.dropWhile Lookup.isSpace).reverse, by rw [List.reverse_append]; rfl⟩
      obtain ⟨w, hw⟩ := htrim
      have hwords : ∃ x xs, words (0x23 :: w) = (0x23 :: x) :: xs := by
        cases w with
        | nil => exact ⟨[], [], rfl⟩
        | cons c w =>
          rw [words, if_neg (by decide)]
          split
          · exact ⟨_, _, rfl⟩
          · split <;> exact ⟨_, _, rfl⟩
      obtain ⟨x, xs, hx⟩ := hwords
      rw [parse, hw, hx]
      dsimp only
      rw [if_pos (show (0x23 :: x).head? = some 0x23 from rfl)]
    show parse d ((if (0x23 :: s).getLast? = some 0x0D then (0x23 :: s).dropLast else 0x23 :: s) :: rest) = parse d rest
    split
    · rename_i hl
      cases s with
      | nil => cases hl
      | cons c s => exact key _
    · exact key s

theorem line_lf (l : Line) (h : l.Ok) : 0x0A ∉ l.text := by
  have word : ∀ {w : List UInt8}, Word w → 0x0A ∉ w := fun hw hm => (hw.2.1 _ hm).2 (by decide)
  cases l with
  | entry f v =>
    show 0x0A ∉ name f ++ 0x20 :: v
    simp only [List.mem_append, List.mem_cons, not_or]
    exact ⟨word (name_word f).1, by decide, word h⟩
  | comment s =>
    show 0x0A ∉ 0x23 :: s
    simp only [List.mem_cons, not_or]
    exact ⟨by decide, h⟩
  | blank n =>
    intro hm
    have := (List.mem_replicate.1 hm).2
    cases this
  | other k v =>
    show 0x0A ∉ k ++ 0x20 :: v
    simp only [List.mem_append, List.mem_cons, not_or]
    exact ⟨word h.1, by decide, word h.2.1⟩

theorem parse_lines (ls : List Line) (h : ∀ l ∈ ls, l.Ok) (d : Def) : parse d (lines (text ls)) = ls.foldl Line.apply d := by
  induction ls generalizing d with
  | nil =>
    show parse d [[]] = d
    rw [parse]
    show parse d [] = d
    rw [parse]
  | cons l ls ih =>
    have : text (l :: ls) = l.text ++ 0x0A :: text ls := by
      unfold text
      simp
    rw [this, lines, split_cons (line_lf l (h l (by simp))), List.map_cons, parse_line d l (h l (by simp)), List.foldl_cons]
    exact ih (fun x hx => h x (by simp [hx])) _

theorem fold_last (ls : List Line) (d : Def) (f : Field) : ls.foldl Line.apply d f = match lastValue ls f with
    | some v => parseField f v
    | none => d f := by
  induction ls generalizing d with
  | nil => rfl
  | cons l ls ih =>
    rw [List.foldl_cons, ih]
    unfold lastValue
    cases l with
    | entry g v =>
      by_cases hg : g = f
      · subst hg
        rw [List.filterMap_cons]
        simp only [if_true]
        cases hlast : (ls.filterMap fun l => match l with
          | .entry g' v => if g' = g then some v else none
          | _ => none) with
        | nil =>
          show (if g = g then _ else _) = _
          rw [if_pos rfl]
          rfl
        | cons x xs => rfl
      · rw [List.filterMap_cons]
        simp only [if_neg hg]
        have : (Line.entry g v).apply d f = d f := by
          show (if f = g then _ else _) = _
          rw [if_neg (Ne.symm hg)]
        rw [this]
    | comment s => rfl
    | blank n => rfl
    | other k v => rfl

/-! ## C145: theorems -/

/-- **C145.** Each field depends on the last line with its keyword only: comments, blank lines, and other keywords make no difference, and a field without a line is empty or `CHAR_MAX`. -/
theorem C145_lines (ls ls' : List Line) (h : ∀ l ∈ ls, l.Ok) (h' : ∀ l ∈ ls', l.Ok) (f : Field) :
    (lastValue ls f = lastValue ls' f → newData (parseFile (text ls)) f = newData (parseFile (text ls')) f)
    ∧ (lastValue ls f = none → newData (parseFile (text ls)) f = if kind f = .int then [127] else []) := by
  have e : ∀ ls : List Line, (∀ l ∈ ls, l.Ok) → parseFile (text ls) f = match lastValue ls f with
      | some v => parseField f v
      | none => none := fun ls h => by
    unfold parseFile
    rw [parse_lines ls h, fold_last]
  refine ⟨fun hl => ?_, fun hl => ?_⟩
  · unfold newData
    rw [e ls h, e ls' h', hl]
  · unfold newData
    rw [e ls h, hl]
    dsimp only
    cases kind f <;> rfl

theorem data_of {ls : List Line} (h : ∀ l ∈ ls, l.Ok) {f : Field} {v r : List UInt8} (hv : lastValue ls f = some v) (hr : parseField f v = some r) : newData (parseFile (text ls)) f = r := by
  unfold newData parseFile
  rw [parse_lines ls h, fold_last, hv]
  dsimp only
  rw [hr]

theorem until_quote {s : List UInt8} (h : 0x22 ∉ s) : untilQuote (s ++ [0x22]) = some s := by
  induction s with
  | nil => rfl
  | cons b s ih =>
    simp only [List.mem_cons, not_or] at h
    rw [List.cons_append, untilQuote, if_neg (Ne.symm h.1), ih h.2]
    rfl

/-- **C145.** A string is what is between the quotes. -/
theorem C145_string (ls : List Line) (h : ∀ l ∈ ls, l.Ok) (f : Field) (s : List UInt8) (hf : kind f = .str) (h1 : 0x22 ∉ s) (h0 : 0 ∉ s) (hv : lastValue ls f = some (0x22 :: (s ++ [0x22]))) : newData (parseFile (text ls)) f = s := by
  refine data_of h hv ?_
  unfold parseField
  rw [hf]
  show parseStr _ = _
  rw [parseStr, until_quote h1]
  dsimp only
  rw [if_neg h0]

/-- The digits of a number below 1000. -/
def dec (n : Nat) : List UInt8 :=
  if n < 10 then [UInt8.ofNat (0x30 + n)]
  else if n < 100 then [UInt8.ofNat (0x30 + n / 10), UInt8.ofNat (0x30 + n % 10)]
  else [UInt8.ofNat (0x30 + n / 100), UInt8.ofNat (0x30 + n / 10 % 10), UInt8.ofNat (0x30 + n % 10)]

theorem dec_parse : ∀ n, n < 1000 → parseInt (dec n) = if n < 128 then some (UInt8.ofNat n) else none := by decide +kernel

theorem neg_parse : ∀ n, n < 1000 → 0 < n → parseInt (0x2D :: dec n) = none := by decide +kernel

/-- **C145.** A number is that of its digits; a number above 127 and a negative number, `-1` in particular, is `CHAR_MAX`. -/
theorem C145_number (ls : List Line) (h : ∀ l ∈ ls, l.Ok) (f : Field) (n : Nat) (hf : kind f = .int) (hn : n < 1000) :
    (lastValue ls f = some (dec n) → newData (parseFile (text ls)) f = if n < 128 then [UInt8.ofNat n] else [127])
    ∧ (0 < n → lastValue ls f = some (0x2D :: dec n) → newData (parseFile (text ls)) f = [127]) := by
  constructor
  · intro hv
    unfold newData parseFile
    rw [parse_lines ls h, fold_last, hv]
    dsimp only
    unfold parseField
    rw [hf]
    dsimp only
    rw [dec_parse n hn]
    by_cases h2 : n < 128
    · rw [if_pos h2, if_pos h2]; rfl
    · rw [if_neg h2, if_neg h2]; rfl
  · intro h0 hv
    unfold newData parseFile
    rw [parse_lines ls h, fold_last, hv]
    dsimp only
    unfold parseField
    rw [hf]
    dsimp only
    rw [neg_parse n hn h0]
    rfl

/-- Numbers with semicolons between them. -/
def joined : List Nat → List UInt8
  | [] => []
  | [n] => dec n
  | n :: ns => dec n ++ 0x3B :: joined ns

theorem dec_semi : ∀ n, n < 1000 → 0x3B ∉ dec n := by decide +kernel

theorem group_parse (n : Nat) (ns : List Nat) (h : ∀ m ∈ n :: ns, m < 128) : parseGroup (joined (n :: ns)) = (n :: ns).map UInt8.ofNat := by
  induction ns generalizing n with
  | nil =>
    have hn := h n (by simp)
    unfold parseGroup
    rw [joined, split_one (dec_semi n (by omega)), List.map_cons, dec_parse n (by omega), if_pos hn]
    rfl
  | cons m ns ih =>
    have hn := h n (by simp)
    have := ih m (fun x hx => h x (by simp at hx ⊢; exact .inr hx))
    unfold parseGroup at this ⊢
    rw [joined, split_cons (dec_semi n (by omega)), List.map_cons, this, dec_parse n (by omega), if_pos hn]
    · rfl
    · simp

/-- **C145.** A grouping is the list of its numbers. -/
theorem C145_grouping (ls : List Line) (h : ∀ l ∈ ls, l.Ok) (f : Field) (n : Nat) (ns : List Nat) (hf : kind f = .group) (hn : ∀ m ∈ n :: ns, m < 128) (hv : lastValue ls f = some (joined (n :: ns))) :
    newData (parseFile (text ls)) f = (n :: ns).map UInt8.ofNat := by
  refine data_of h hv ?_
  unfold parseField
  rw [hf]
  dsimp only
  rw [group_parse n ns hn]

/-- Numbers with semicolons between them, and `-1` as the last. -/
def ended : List Nat → List UInt8
  | [] => [0x2D, 0x31]
  | n :: ns => dec n ++ 0x3B :: ended ns

theorem ended_parse (ns : List Nat) (h : ∀ m ∈ ns, m < 128) : parseGroup (ended ns) = ns.map UInt8.ofNat ++ [127] := by
  induction ns with
  | nil => decide +kernel
  | cons n ns ih =>
    have hn := h n (by simp)
    have := ih (fun x hx => h x (by simp [hx]))
    unfold parseGroup at this ⊢
    rw [ended, split_cons (dec_semi n (by omega)), List.map_cons, this, dec_parse n (by omega), if_pos hn]
    rfl

/-- **C145.** A grouping that ends with `-1` ends with `CHAR_MAX`: no more groups. -/
theorem C145_grouping_end (ls : List Line) (h : ∀ l ∈ ls, l.Ok) (f : Field) (ns : List Nat) (hf : kind f = .group) (hn : ∀ m ∈ ns, m < 128) (hv : lastValue ls f = some (ended ns)) :
    newData (parseFile (text ls)) f = ns.map UInt8.ofNat ++ [127] := by
  refine data_of h hv ?_
  unfold parseField
  rw [hf]
  dsimp only
  rw [ended_parse ns hn]

theorem until_after {s t : List UInt8} (h : 0x22 ∉ s) (ht : t ≠ []) : untilQuote (s ++ 0x22 :: t) = none := by
  induction s with
  | nil => rw [List.nil_append, untilQuote, if_pos rfl, if_neg ht]
  | cons b s ih =>
    rw [List.cons_append, untilQuote, if_neg (fun e => h (by simp [e])), ih (fun hm => h (by simp [hm]))]
    rfl

/-- **C145**: a string with something behind its closing quote is not taken: the field stays empty. -/
theorem C145_after_quote (ls : List Line) (h : ∀ l ∈ ls, l.Ok) (f : Field) (s t : List UInt8) (hf : kind f = .str) (h1 : 0x22 ∉ s) (ht : t ≠ [])
    (hv : lastValue ls f = some (0x22 :: (s ++ 0x22 :: t))) : newData (parseFile (text ls)) f = [] := by
  unfold newData parseFile
  rw [parse_lines ls h, fold_last, hv]
  dsimp only
  unfold parseField
  rw [hf]
  show (match parseStr _ with | some _ => _ | none => _) = _
  rw [parseStr, until_after h1 ht]

/-- **C145**: a value that ends in a backslash goes on in the next line, as often as wanted, without the backslashes; the lines behind the last
part are read next. At the end of the file the backslash is dropped too. -/
theorem C145_continued (c last : List UInt8) (cs rest : List (List UInt8)) (hc : ∀ x ∈ cs, ∀ b ∈ x, isAsciiSpace b = false)
    (hl : last ≠ []) (hs : ∀ b ∈ last, isAsciiSpace b = false) (hb : last.getLast? ≠ some 0x5C) :
    value (cs.map (· ++ [0x5C]) ++ last :: rest) [c ++ [0x5C]] = (c ++ cs.flatten ++ last, rest)
    ∧ value rest [last] = (last, rest)
    ∧ value [] [c ++ [0x5C]] = (c, []) := by
  have h2 : ∀ rest, value rest [last] = (last, rest) := by
    intro rest
    cases rest with
    | nil => rw [value, if_neg hb]
    | cons l r => rw [value, if_neg hb]
  have hg : ∀ c : List UInt8, (c ++ [0x5C]).getLast? = some 0x5C := fun c => by simp
  refine ⟨?_, h2 rest, by rw [value, if_pos (hg c), List.dropLast_concat]⟩
  induction cs generalizing c with
  | nil =>
    rw [List.map_nil, List.nil_append, value, if_pos (hg c), words_one hl hs, h2, List.dropLast_concat]
    simp
  | cons x cs ih =>
    have hw : words (x ++ [0x5C]) = [x ++ [0x5C]] := words_one (by simp) (fun b hb => by
      rcases List.mem_append.1 hb with h | h
      · exact hc x (by simp) b h
      · rw [List.mem_singleton.1 h]; decide)
    rw [List.map_cons, List.cons_append, value, if_pos (hg c), hw, ih x (fun y hy => hc y (by simp [hy])), List.dropLast_concat]
    simp

/-- **C145**, violated by the code: **a space in a string** ends it: `thousands_sep " "` is the empty string. -/
theorem C145_space_violation : newData (parseFile (name .thousands_sep ++ [0x20, 0x22, 0x20, 0x22, 0x0A])) .thousands_sep = [] := by decide +kernel

/-- **C145**, violated by the code: **a character by its number**, `decimal_point "<U002C>"`, is not a comma. -/
theorem C145_symbol_violation : newData (parseFile (name .decimal_point ++ [0x20, 0x22, 0x3C, 0x55, 0x30, 0x30, 0x32, 0x43, 0x3E, 0x22, 0x0A])) .decimal_point = [0x3C, 0x55, 0x30, 0x30, 0x32, 0x43, 0x3E] := by decide +kernel

/-- A value that goes on in the next line: `grouping 3;\` and `3`. -/
example : newData (parseFile (name .grouping ++ [0x20, 0x33, 0x3B, 0x5C, 0x0A, 0x33, 0x0A])) .grouping = [3, 3] := by decide +kernel

/-- The conditions of the theorems hold for a file. -/
example : (∀ l ∈ [Line.comment [0x78], .entry .grouping (joined [3, 3]), .blank 2, .entry .decimal_point [0x22, 0x2C, 0x22], .other [0x78] [0x79]], l.Ok)
    ∧ newData (parseFile (text [Line.comment [0x78], .entry .grouping (joined [3, 3]), .blank 2, .entry .decimal_point [0x22, 0x2C, 0x22], .other [0x78] [0x79]])) .decimal_point = [0x2C] := by
  refine ⟨?_, by decide +kernel⟩
  intro l hl
  simp only [List.mem_cons, List.not_mem_nil, or_false] at hl
  rcases hl with rfl | rfl | rfl | rfl | rfl
  · show (0x0A : UInt8) ∉ [(0x78 : UInt8)]
    decide
  · show Word _
    unfold Word
    decide
  · trivial
  · show Word _
    unfold Word
    decide
  · refine ⟨by unfold Word; decide, by unfold Word; decide, by decide, fun f => ?_⟩
    cases f <;> decide

end Verif.Locale
