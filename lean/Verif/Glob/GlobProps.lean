import Verif.Glob.GlobModel
import Verif.Fnmatch.FnmatchProps
/-!
# C97: `glob`
-/

namespace Verif.Glob
open Verif.Mem Verif.Fnmatch

/-! ## Specification -/

/-- The pathname of an entry of a directory; the empty name is the current directory. -/
def under (dir n : Name) : Name :=
  if dir = [] then n else if dir = [0x2F] then 0x2F :: n else dir ++ 0x2F :: n

/-- `n` is in the directory `dir`, and is a directory or a link to one just when `isDir`. -/
def Entry (fs : Fs) (dir n : Name) (isDir : Bool) : Prop :=
  ∃ l e k, fs.opendir (if dir = [] then [0x2E] else dir) = .ok (l, e) ∧ (n, k) ∈ l ∧ n ≠ [0x2E] ∧ n ≠ [0x2E, 0x2E] ∧
    (isDir = true ↔ k = .dir ∨ (k = .link ∧ fs.stat (under dir n) = .ok true))

/-- A name matches a section: a leading period is only matched by a period, unless `GLOB_PERIOD` is given. -/
def Matches (f : GFlags) (ps : List Part) (n : Name) : Prop := Fits ⟨f.noescape, false, !f.period, false⟩ true ps n

/-- `p` is a pathname that `glob` should find below `dir` for a pattern of these sections. -/
inductive Found (fs : Fs) (f : GFlags) : Name → List (List Part) → Name → Prop
  | last {dir n : Name} {d : Bool} {ps : List Part} : Entry fs dir n d → Matches f ps n →
      Found fs f dir [ps] (under dir n ++ if f.mark ∧ d then [0x2F] else [])
  | dir {dir n p : Name} {ps qs : List Part} {l : List (List Part)} : Entry fs dir n true → Matches f ps n →
      Found fs f (under dir n) (qs :: l) p → Found fs f dir (ps :: qs :: l) p

/-- The text of the sections, with slashes between them. -/
def sectionsText : List (List Part) → Name
  | [] => []
  | [ps] => ps.flatMap Part.text
  | ps :: qs :: l => ps.flatMap Part.text ++ 0x2F :: sectionsText (qs :: l)

/-- A section as the theorem supports it: not empty, without slashes, not `.` or `..`. -/
def SectionOk (ps : List Part) : Prop :=
  (∀ x ∈ ps, x.Good) ∧ 0x2F ∉ ps.flatMap Part.text ∧ ps.flatMap Part.text ≠ [] ∧ ps.flatMap Part.text ≠ [0x2E]
    ∧ ps.flatMap Part.text ≠ [0x2E, 0x2E]

/-- Names as file systems have them. -/
def NamesOk (fs : Fs) : Prop := ∀ dir n d, Entry fs dir n d → n ≠ [] ∧ 0x2F ∉ n ∧ 0 ∉ n

/-- The first part is a literal, or there are no hidden files. -/
def NoHidden (fs : Fs) (ps : List Part) : Prop :=
  (∃ c qs, ps = .lit c :: qs) ∨ ∀ dir n d, Entry fs dir n d → n.head? ≠ some 0x2E

/-- No directory has two entries of one name. -/
def Distinct (fs : Fs) : Prop := ∀ dir l e, fs.opendir dir = .ok (l, e) → (l.map Prod.fst).Nodup

/-! ## Lemmas -/

theorem fits_period {a a' p p' : Bool} {ps : List Part} {s : Name} (h : (∃ c qs, ps = .lit c :: qs) ∨ s.head? ≠ some 0x2E) :
    Fits ⟨a, false, p, false⟩ true ps s → Fits ⟨a', false, p', false⟩ true ps s := by
  have h0 : ∀ {ps : List Part} {s : Name} {lead : Bool}, lead = false → Fits ⟨a, false, p, false⟩ lead ps s →
      Fits ⟨a', false, p', false⟩ false ps s := by
    intro ps s lead hl h1
    induction h1 with
    | nil => exact .nil
    | lit x y ih => exact .lit x (ih rfl)
    | any x y z ih => exact .any (by simp) (by simp) (ih rfl)
    | star x y z ih => exact .star (by simp) (by simp) (ih rfl)
    | set x y z w ih => exact .set (by simp) (by simp) z (ih rfl)
  intro h1
  cases h1 with
  | nil => exact .nil
  | lit x y => exact .lit x (h0 rfl y)
  | any x y z =>
    rcases h with ⟨c, qs, h⟩ | h
    · cases h
    · exact .any (by simp) (fun _ _ e => h (by simp [e])) (h0 rfl z)
  | star x y z =>
    rcases h with ⟨c, qs, h⟩ | h
    · cases h
    · exact .star (by simp) (fun _ _ => h) (h0 rfl z)
  | set x y z w =>
    rcases h with ⟨c, qs, h⟩ | h
    · cases h
    · exact .set (by simp) (fun _ _ e => h (by simp [e])) z (h0 rfl w)

theorem supported_plain {a : Bool} (ps : List Part) (lead : Bool) : Supported ⟨a, false, false, false⟩ lead ps := by
  induction ps generalizing lead with
  | nil => trivial
  | cons p ps ih =>
    refine ⟨?_, ih _⟩
    cases p with
    | set neg es => cases neg <;> simp
    | _ => simp

theorem text_no_nul {ps : List Part} (hg : ∀ x ∈ ps, x.Good) : 0 ∉ ps.flatMap Part.text ∧ 0x5C ∉ ps.flatMap Part.text := by
  have he : ∀ e : Elem, e.Good → 0 ∉ e.text ∧ 0x5C ∉ e.text := by
    intro e h
    cases e with
    | one a => exact ⟨by simpa [Elem.text] using fun e => h.1 e.symm, by simpa [Elem.text] using fun e => h.2.2.1 e.symm⟩
    | range a b =>
      refine ⟨?_, ?_⟩
      · simp only [Elem.text, List.mem_cons, List.not_mem_nil, or_false, not_or]
        exact ⟨fun e => h.1.1 e.symm, by decide, fun e => h.2.1 e.symm⟩
      · simp only [Elem.text, List.mem_cons, List.not_mem_nil, or_false, not_or]
        exact ⟨fun e => h.1.2.2.1 e.symm, by decide, fun e => h.2.2.2.1 e.symm⟩
  have hp : ∀ x : Part, x.Good → 0 ∉ x.text ∧ 0x5C ∉ x.text := by
    intro x h
    cases x with
    | lit c => exact ⟨by simpa [Part.text] using fun e => h.1 e.symm, by simpa [Part.text] using fun e => h.2.2.2.2 e.symm⟩
    | any => decide
    | star => decide
    | set neg es =>
      constructor
      · simp only [Part.text, List.mem_append, List.mem_flatMap, not_or, not_exists, not_and]
        exact ⟨⟨⟨by decide, by cases neg <;> decide⟩, fun e h1 => (he e (h.2.1 e h1)).1⟩, by decide⟩
      · simp only [Part.text, List.mem_append, List.mem_flatMap, not_or, not_exists, not_and]
        exact ⟨⟨⟨by decide, by cases neg <;> decide⟩, fun e h1 => (he e (h.2.1 e h1)).2⟩, by decide⟩
  constructor
  · simp only [List.mem_flatMap, not_exists, not_and]
    exact fun x hx => (hp x (hg x hx)).1
  · simp only [List.mem_flatMap, not_exists, not_and]
    exact fun x hx => (hp x (hg x hx)).2

theorem two_cstr {a b : Name} (ha : 0 ∉ a) (hb : 0 ∉ b) :
    CStr (ofList 0 (a ++ [0] ++ b ++ [0])) 0 a ∧ CStr (ofList 0 (a ++ [0] ++ b ++ [0])) (a.length + 1) b := by
  have := bytes_ofList 0 (a ++ [0] ++ b ++ [0])
  rw [bytes_append, bytes_append, bytes_append] at this
  obtain ⟨⟨⟨h1, h2⟩, h3⟩, h4⟩ := this
  refine ⟨⟨h1, by simpa [Bytes] using h2, ha⟩, ⟨by simpa using h3, ?_, hb⟩⟩
  rw [show a.length + 1 + b.length = a.length + (b.length + 1) by omega]
  simpa [Bytes] using h4

theorem matchName_eq {f : GFlags} {ps : List Part} {n : Name} (hf : f.period = false) (hg : ∀ x ∈ ps, x.Good) (hn : 0 ∉ n)
    (hh : (∃ c qs, ps = .lit c :: qs) ∨ n.head? ≠ some 0x2E) :
    (Matches f ps n → matchName f (ps.flatMap Part.text) n = some true)
    ∧ (¬ Matches f ps n → matchName f (ps.flatMap Part.text) n = some false) := by
  obtain ⟨h1, h2⟩ := two_cstr (text_no_nul hg).1 hn
  have h := C71_fnmatch_partial (f := ⟨f.noescape, false, f.period, false⟩) hg (by rw [hf]; exact supported_plain ps true) h1 h2
  unfold matchName Matches
  constructor
  · intro hm
    rw [h.1 (fits_period hh hm)]
    rfl
  · intro hm
    rw [h.2 (fun h => hm (fits_period hh h))]
    rfl

theorem nextSection_eq {ne : Bool} {l : Name} (h1 : 0x2F ∉ l) (h2 : 0x5C ∉ l) (b : Bool) :
    nextSection ne l b false = (l, []) ∧ ∀ r, nextSection ne (l ++ 0x2F :: r) b false = (l, r) := by
  induction l generalizing b with
  | nil => simp [nextSection]
  | cons c l ih =>
    simp only [List.mem_cons, not_or] at h1 h2
    have hc : (c == 0x5C) = false := by simpa using fun e => h2.1 e.symm
    have hd : c ≠ 0x2F := fun e => h1.1 e.symm
    have := ih h1.2 h2.2
    constructor
    · simp [nextSection, hc, hd, this]
    · intro r
      simp [nextSection, hc, hd, this]

theorem join_eq {dir n : Name} (h : dir = [0x2F] ∨ dir.getLast? ≠ some 0x2F) : join dir n = under dir n := by
  unfold join under
  rcases h with rfl | h
  · simp
  · by_cases h0 : dir = []
    · simp [h0]
    · have : dir ≠ [0x2F] := by rintro rfl; simp at h
      simp [h0, h, this]

/-- Directories as `inner_glob` meets them. -/
def DirOk (dir : Name) : Prop := dir = [0x2F] ∨ dir.getLast? ≠ some 0x2F

theorem dirOk_under {dir n : Name} (h : n ≠ [] ∧ 0x2F ∉ n ∧ 0 ∉ n) : DirOk (under dir n) ∧ under dir n ≠ [] ∧ under dir n ≠ [0x2F] := by
  have hl : ∀ x : Name, (x ++ n).getLast? ≠ some 0x2F := by
    intro x e
    rw [List.getLast?_append] at e
    cases hx : n.getLast? with
    | none => exact h.1 (List.getLast?_eq_none_iff.mp hx)
    | some y =>
      rw [hx] at e
      simp only [Option.some_or, Option.some.injEq] at e
      subst e
      exact h.2.1 (List.mem_of_getLast? hx)
  have hu : ∃ x, under dir n = x ++ n := by
    unfold under
    split
    · exact ⟨[], rfl⟩
    · split
      · exact ⟨[0x2F], rfl⟩
      · exact ⟨dir ++ [0x2F], by simp⟩
  obtain ⟨x, hx⟩ := hu
  rw [hx]
  refine ⟨.inr (hl x), ?_, ?_⟩
  · simp [h.1]
  · intro e
    apply hl x
    rw [e]
    rfl

/-- What `list_dir` gives for one entry. -/
def dirEntry (fs : Fs) (dir : Name) (x : Name × Kind) : DirEntry :=
  ⟨x.1, match x.2 with
    | .dir => true
    | .other => false
    | .link => match fs.stat (join dir x.1) with
      | .ok d => d
      | .error _ => false⟩

theorem listLoop_eq {e : Env} (he : ∀ p n, e.stop p n = false) (dir : Name) (l : List (Name × Kind)) (errno : Int32) :
    ∃ errno', listLoop e dir false errno l =
      some ((l.filter fun x => x.1 ≠ [0x2E] ∧ x.1 ≠ [0x2E, 0x2E]).map (dirEntry e.fs dir), errno') := by
  induction l generalizing errno with
  | nil => exact ⟨_, rfl⟩
  | cons x l ih =>
    obtain ⟨n, k⟩ := x
    rw [listLoop.eq_def]
    dsimp only
    split
    · rename_i h
      obtain ⟨r, hr⟩ := ih errno
      refine ⟨r, ?_⟩
      rw [hr, List.filter_cons_of_neg]
      simp only [decide_eq_true_eq]
      exact fun h1 => h.elim h1.1 h1.2
    · rename_i h
      rw [List.filter_cons_of_pos (by simpa only [decide_eq_true_eq, not_or] using h)]
      obtain ⟨r, hr⟩ := ih errno
      obtain ⟨r2, hr2⟩ := ih e.errno
      cases k with
      | dir => exact ⟨r, by simp [hr, dirEntry]⟩
      | other => exact ⟨r, by simp [hr, dirEntry]⟩
      | link =>
        cases hs : e.fs.stat (join dir n) with
        | ok d => exact ⟨r, by simp [hr, dirEntry, hs]⟩
        | error x => exact ⟨r2, by simp [he, hr2, dirEntry, hs]⟩

theorem listDir_eq {e : Env} (he : ∀ p n, e.stop p n = false) {dir : Name} (hd : DirOk dir) : ∃ l, listDir e dir false = some l
    ∧ (∀ x, x ∈ l ↔ Entry e.fs dir x.name x.isDir) ∧ (Distinct e.fs → l.Pairwise fun x y => x.name ≠ y.name) := by
  unfold listDir
  cases ho : e.fs.opendir (if dir = [] then [0x2E] else dir) with
  | error n =>
    refine ⟨[], by simp [he], ?_, fun _ => .nil⟩
    simp [Entry, ho]
  | ok r =>
    obtain ⟨l, f⟩ := r
    obtain ⟨n, hn⟩ := listLoop_eq he dir l 0
    refine ⟨_, by simp only [hn]; rw [if_neg (by simp [he])], ?_, ?_⟩
    · intro x
      simp only [List.mem_map, List.mem_filter, decide_eq_true_eq, Entry, ho, Except.ok.injEq, Prod.mk.injEq]
      constructor
      · rintro ⟨⟨m, k⟩, ⟨h1, h2, h3⟩, rfl⟩
        refine ⟨l, f, k, ⟨rfl, rfl⟩, h1, h2, h3, ?_⟩
        cases k with
        | dir => simp [dirEntry]
        | other => simp [dirEntry]
        | link =>
          simp only [dirEntry, join_eq hd]
          cases e.fs.stat (under dir m) <;> simp
      · rintro ⟨_, _, k, ⟨rfl, rfl⟩, h1, h2, h3, h4⟩
        refine ⟨(x.name, k), ⟨h1, h2, h3⟩, ?_⟩
        obtain ⟨m, d⟩ := x
        simp only [dirEntry, DirEntry.mk.injEq, true_and]
        rw [Bool.eq_iff_iff, h4]
        cases k with
        | dir => simp
        | other => simp
        | link =>
          simp only [join_eq hd]
          cases e.fs.stat (under dir m) <;> simp
    · intro hdis
      have := hdis _ _ _ ho
      rw [List.pairwise_map]
      rw [List.Nodup, List.pairwise_map] at this
      exact this.sublist List.filter_sublist

open Classical in
/-- What the loop makes of an entry. -/
noncomputable def contrib (f : GFlags) (dir : Name) (ps : List Part) (more : Bool) (S : Name → List Name) (x : DirEntry) : List Name :=
  if (more = true → x.isDir = true) ∧ Matches f ps x.name then
    if more then S (under dir x.name) else [under dir x.name ++ if f.mark ∧ x.isDir then [0x2F] else []]
  else []

theorem matchLoop_eq {f : GFlags} {dir : Name} {ps : List Part} {more : Bool} {sub : Name → Option (Option (List Name))}
    {S : Name → List Name} {l : List DirEntry} (hd : DirOk dir) (hf : f.period = false) (hg : ∀ x ∈ ps, x.Good)
    (hl : ∀ x ∈ l, 0 ∉ x.name ∧ ((∃ c qs, ps = .lit c :: qs) ∨ x.name.head? ≠ some 0x2E))
    (hs : more = true → ∀ x ∈ l, sub (under dir x.name) = some (some (S (under dir x.name)))) :
    matchLoop f dir (ps.flatMap Part.text) more sub l = some (some (l.flatMap (contrib f dir ps more S))) := by
  induction l with
  | nil => rfl
  | cons x l ih =>
    have ih := ih (fun x hx => hl x (List.mem_cons_of_mem _ hx)) (fun h x hx => hs h x (List.mem_cons_of_mem _ hx))
    have hx := hl x List.mem_cons_self
    have hm := matchName_eq hf hg hx.1 hx.2
    rw [matchLoop, List.flatMap_cons]
    split
    · rename_i h
      rw [ih]
      have : contrib f dir ps more S x = [] := by
        unfold contrib
        rw [if_neg]
        rintro ⟨h1, _⟩
        simp [h1 h.1] at h
      rw [this]
      rfl
    · rename_i h
      have hmore : more = true → x.isDir = true := by
        intro h1
        simpa [h1] using h
      by_cases h1 : Matches f ps x.name
      · simp only [hm.1 h1]
        have hc : (if x.isDir = true ∧ more = true then
            sub (if f.mark = true ∧ (!more) = true ∧ x.isDir = true then join dir x.name ++ [0x2F] else join dir x.name)
            else some (some [if f.mark = true ∧ (!more) = true ∧ x.isDir = true then join dir x.name ++ [0x2F] else join dir x.name]))
            = some (some (contrib f dir ps more S x)) := by
          have h2 : contrib f dir ps more S x =
              if more then S (under dir x.name) else [under dir x.name ++ if f.mark ∧ x.isDir then [0x2F] else []] := by
            unfold contrib
            rw [if_pos ⟨hmore, h1⟩]
          rw [h2, join_eq hd]
          cases more with
          | true =>
            have := hmore rfl
            simp [this, hs rfl x List.mem_cons_self]
          | false =>
            simp only [Bool.false_eq_true, and_false, if_false, Bool.not_false, true_and]
            split <;> simp
        rw [hc]
        simp only [ih]
      · simp only [hm.2 h1, ih]
        have : contrib f dir ps more S x = [] := by
          unfold contrib
          rw [if_neg fun h => h1 h.2]
        rw [this]
        rfl

theorem sectionsText_ne {ps : List Part} {l : List (List Part)} (h : SectionOk ps) : sectionsText (ps :: l) ≠ [] := by
  cases l with
  | nil => exact h.2.2.1
  | cons q l => simp [sectionsText]

theorem sectionsText_drop {ps : List Part} {l : List (List Part)} (h : SectionOk ps) :
    (sectionsText (ps :: l)).dropWhile (· == 0x2F) = sectionsText (ps :: l) := by
  have hh : ∀ r : Name, (ps.flatMap Part.text ++ r).dropWhile (· == 0x2F) = ps.flatMap Part.text ++ r := by
    intro r
    cases ht : ps.flatMap Part.text with
    | nil => exact absurd ht h.2.2.1
    | cons c t =>
      have : c ≠ 0x2F := by
        intro e
        apply h.2.1
        rw [ht, e]
        exact List.mem_cons_self
      rw [List.cons_append, List.dropWhile_cons_of_neg]
      simpa using this
  cases l with
  | nil => simpa [sectionsText] using hh []
  | cons q l => exact hh _

theorem sectionsText_next {ne : Bool} {ps : List Part} {l : List (List Part)} (h : SectionOk ps) :
    nextSection ne (sectionsText (ps :: l)) false false = (ps.flatMap Part.text, sectionsText l) := by
  have := nextSection_eq (ne := ne) h.2.1 (text_no_nul h.1).2 false
  cases l with
  | nil => exact this.1
  | cons q l => exact this.2 _

theorem found_ext {fs : Fs} {f : GFlags} {dir p : Name} {secs : List (List Part)} (h : Found fs f dir secs p) :
    ∃ r, p = dir ++ r := by
  have hu : ∀ dir n : Name, ∃ r, under dir n = dir ++ r := by
    intro dir n
    unfold under
    split
    · exact ⟨n, by simp [*]⟩
    · split
      · exact ⟨n, by simp [*]⟩
      · exact ⟨_, rfl⟩
  induction h with
  | @last dir n d ps _ _ =>
    obtain ⟨r, hr⟩ := hu dir n
    exact ⟨_, by rw [hr, List.append_assoc]⟩
  | @dir dir n p ps qs l _ _ _ ih =>
    obtain ⟨r, hr⟩ := hu dir n
    obtain ⟨r2, ih⟩ := ih
    exact ⟨_, by rw [ih, hr, List.append_assoc]⟩

/-- A path found below a directory begins with the name of the directory and a slash. -/
theorem found_slash {fs : Fs} {f : GFlags} {dir p : Name} {secs : List (List Part)} (h0 : dir ≠ []) (h1 : dir ≠ [0x2F])
    (h : Found fs f dir secs p) : ∃ r, p = dir ++ 0x2F :: r := by
  have hu : ∀ n, under dir n = dir ++ 0x2F :: n := by
    intro n
    unfold under
    rw [if_neg h0, if_neg h1]
  cases h with
  | last _ _ => exact ⟨_, by rw [hu, List.append_assoc]; rfl⟩
  | dir _ _ h3 =>
    obtain ⟨r, hr⟩ := found_ext h3
    exact ⟨_, by rw [hr, hu, List.append_assoc]; rfl⟩

theorem under_inj {dir a b r s : Name} (ha : 0x2F ∉ a) (hb : 0x2F ∉ b) (hr : r = [] ∨ r.head? = some 0x2F)
    (hs : s = [] ∨ s.head? = some 0x2F) (h : under dir a ++ r = under dir b ++ s) : a = b := by
  have h2 : a ++ r = b ++ s := by
    unfold under at h
    split at h
    · exact h
    · split at h
      · simpa using h
      · simpa [List.append_assoc] using h
  have ht : ∀ {a r : Name}, 0x2F ∉ a → (r = [] ∨ r.head? = some 0x2F) → (a ++ r).takeWhile (· != 0x2F) = a := by
    intro a r ha hr
    rw [List.takeWhile_append_of_pos (by intro x hx; simp only [bne_iff_ne]; rintro rfl; exact ha hx)]
    rcases hr with rfl | hr
    · simp
    · cases r with
      | nil => simp
      | cons c r =>
        simp only [List.head?_cons, Option.some.injEq] at hr
        subst hr
        simp
  rw [← ht ha hr, h2, ht hb hs]

theorem inner_eq {e : Env} {f : GFlags} (he : ∀ p n, e.stop p n = false) (hf : f.err = false) (hp : f.period = false)
    (hn : NamesOk e.fs) {secs : List (List Part)} (h0 : secs ≠ []) (hok : ∀ ps ∈ secs, SectionOk ps ∧ NoHidden e.fs ps)
    {dir expr : Name} (hd : DirOk dir) (hx : expr.dropWhile (· == 0x2F) = sectionsText secs) :
    ∃ l, innerGlob e f dir expr = some (some l) ∧ (∀ p, p ∈ l ↔ Found e.fs f dir secs p) ∧ (Distinct e.fs → l.Nodup) := by
  induction secs generalizing dir expr with
  | nil => exact absurd rfl h0
  | cons ps rest ih =>
    have hps := hok ps List.mem_cons_self
    obtain ⟨es, hes, hmem, hdis⟩ := listDir_eq he hd
    have hsub : ∃ S : Name → List Name, rest ≠ [] → ∀ x ∈ es,
        innerGlob e f (under dir x.name) (sectionsText rest) = some (some (S (under dir x.name)))
        ∧ (∀ p, p ∈ S (under dir x.name) ↔ Found e.fs f (under dir x.name) rest p)
        ∧ (Distinct e.fs → (S (under dir x.name)).Nodup) := by
      by_cases hr : rest = []
      · exact ⟨fun _ => [], fun h => absurd hr h⟩
      · have hr2 : (sectionsText rest).dropWhile (· == 0x2F) = sectionsText rest := by
          cases rest with
          | nil => exact absurd rfl hr
          | cons q r => exact sectionsText_drop (hok q (by simp)).1
        refine ⟨fun p => ((innerGlob e f p (sectionsText rest)).getD none).getD [], fun _ x hxe => ?_⟩
        have hname := hn _ _ _ ((hmem x).mp hxe)
        obtain ⟨l, h1, h2, h3⟩ := ih hr (fun q hq => hok q (List.mem_cons_of_mem _ hq)) (dirOk_under (dir := dir) hname).1 hr2
        simp only [h1, Option.getD_some]
        exact ⟨trivial, h2, h3⟩
    obtain ⟨S, hS⟩ := hsub
    have hrest : sectionsText rest ≠ [] ↔ rest ≠ [] := by
      cases rest with
      | nil => simp [sectionsText]
      | cons q r => simp [sectionsText_ne (hok q (by simp)).1]
    have hml := matchLoop_eq (f := f) (dir := dir) (ps := ps) (more := decide (sectionsText rest ≠ []))
      (sub := fun path => if sectionsText rest ≠ [] then innerGlob e f path (sectionsText rest) else some (some [])) (S := S) (l := es)
      hd hp hps.1.1
      (by
        intro x hxe
        have h1 := (hmem x).mp hxe
        refine ⟨(hn _ _ _ h1).2.2, ?_⟩
        rcases hps.2 with h | h
        · exact .inl h
        · exact .inr (h _ _ _ h1))
      (by
        intro h1 x hxe
        have h1 := of_decide_eq_true h1
        rw [if_pos h1]
        exact (hS (hrest.mp h1) x hxe).1)
    refine ⟨es.flatMap (contrib f dir ps (decide (sectionsText rest ≠ [])) S), ?_, ?_, ?_⟩
    · rw [innerGlob, hx, sectionsText_next hps.1]
      dsimp only
      rw [if_neg (by
        rintro (h | h)
        · exact hps.1.2.2.2.1 h
        · exact hps.1.2.2.2.2 h), hf, hes]
      dsimp only
      rw [hml]
      split
      · rename_i h
        simp only [Option.some.injEq] at h
        rw [h, if_neg (by simp [he])]
      · rfl
    · intro p
      simp only [List.mem_flatMap]
      constructor
      · rintro ⟨x, hxe, hp⟩
        have hent := (hmem x).mp hxe
        unfold contrib at hp
        split at hp
        · rename_i hc
          by_cases hr : rest = []
          · subst hr
            simp only [sectionsText, ne_eq, not_true_eq_false, decide_false, Bool.false_eq_true, if_false, List.mem_singleton] at hp
            rw [hp]
            exact .last hent hc.2
          · have h1 := hrest.mpr hr
            simp only [h1, ne_eq, not_false_eq_true, decide_true, if_true] at hp
            have h2 := hc.1 (decide_eq_true h1)
            rw [h2] at hent
            have h3 := ((hS hr x hxe).2.1 p).mp hp
            cases rest with
            | nil => exact absurd rfl hr
            | cons q r => exact .dir hent hc.2 h3
        · simp at hp
      · intro h
        generalize hsecs : ps :: rest = secs at h
        cases h with
        | last h1 h2 =>
          rename_i n d ps'
          simp only [List.cons.injEq] at hsecs
          obtain ⟨rfl, rfl⟩ := hsecs
          refine ⟨⟨n, d⟩, (hmem _).mpr h1, ?_⟩
          unfold contrib
          rw [if_pos ⟨by simp [sectionsText], h2⟩]
          simp [sectionsText]
        | dir h1 h2 h3 =>
          rename_i n ps' qs r
          simp only [List.cons.injEq] at hsecs
          obtain ⟨rfl, rfl⟩ := hsecs
          have hxe := (hmem ⟨n, true⟩).mpr h1
          refine ⟨⟨n, true⟩, hxe, ?_⟩
          unfold contrib
          rw [if_pos ⟨fun _ => rfl, h2⟩, if_pos (decide_eq_true (hrest.mpr (by simp)))]
          exact ((hS (by simp) _ hxe).2.1 p).mpr h3
    · intro hD
      have hfound : ∀ x ∈ es, ∀ p ∈ contrib f dir ps (decide (sectionsText rest ≠ [])) S x,
          ∃ r, p = under dir x.name ++ r ∧ (r = [] ∨ r.head? = some 0x2F) := by
        intro x hxe p hp
        unfold contrib at hp
        split at hp
        · by_cases hr : rest = []
          · subst hr
            simp only [sectionsText, ne_eq, not_true_eq_false, decide_false, Bool.false_eq_true, if_false, List.mem_singleton] at hp
            refine ⟨_, hp, ?_⟩
            split <;> simp
          · have h1 := hrest.mpr hr
            simp only [h1, ne_eq, not_false_eq_true, decide_true, if_true] at hp
            have h3 := ((hS hr x hxe).2.1 p).mp hp
            have hd2 := dirOk_under (dir := dir) (hn _ _ _ ((hmem x).mp hxe))
            obtain ⟨r, hr⟩ := found_slash hd2.2.1 hd2.2.2 h3
            exact ⟨_, hr, .inr rfl⟩
        · simp at hp
      rw [List.Nodup, List.pairwise_flatMap]
      refine ⟨?_, ?_⟩
      · intro x hxe
        unfold contrib
        split
        · by_cases hr : rest = []
          · subst hr
            simp [sectionsText]
          · have h1 := hrest.mpr hr
            simp only [h1, ne_eq, not_false_eq_true, decide_true, if_true]
            exact (hS hr x hxe).2.2 hD
        · exact .nil
      · refine List.Pairwise.imp_of_mem ?_ (hdis hD)
        intro x y hxe hye hxy p hp q hq hpq
        obtain ⟨r, h1, h2⟩ := hfound x hxe p hp
        obtain ⟨s, h3, h4⟩ := hfound y hye q hq
        subst hpq
        rw [h1] at h3
        exact hxy (under_inj (hn _ _ _ ((hmem x).mp hxe)).2.1 (hn _ _ _ ((hmem y).mp hye)).2.1 h2 h4 h3)

theorem sortNames_mem {l : List Name} {p : Name} : p ∈ sortNames l ↔ p ∈ l := by
  unfold sortNames
  exact List.mem_mergeSort

theorem sortNames_nodup {l : List Name} (h : l.Nodup) : (sortNames l).Nodup := by
  unfold sortNames
  exact (List.mergeSort_perm l _).nodup_iff.mpr h

theorem sortNames_sorted (l : List Name) : (sortNames l).Pairwise (· ≤ ·) := by
  unfold sortNames
  have := List.pairwise_mergeSort (le := fun a b : Name => decide (a ≤ b))
    (fun a b c h1 h2 => by
      simp only [decide_eq_true_eq] at *
      exact List.le_trans h1 h2)
    (fun a b => by
      simp only [Bool.or_eq_true, decide_eq_true_eq]
      exact List.le_total a b) l
  exact this.imp fun h => by simpa using h

/-! ## C97 -/

/-- C97: `glob` finds exactly the existing pathnames that match the pattern, section by section, and stores them in the vector:
after what was there before (`GLOB_APPEND`) or after `gl_offs` null pointers (`GLOB_DOOFFS`), sorted unless `GLOB_NOSORT` is given,
with a slash after directories for `GLOB_MARK`, each of them once, a null pointer at the end; `gl_pathc` counts them. Without any it
returns `GLOB_NOMATCH`, or gives the pattern itself for `GLOB_NOCHECK`. Directories that cannot be read are skipped.

Missing: hidden files and `GLOB_PERIOD` (`C97_hidden_violation`), sections `.` and `..` (`C97_dots_violation`), slashes at the end of
the pattern (`C97_slash_violation`), `GLOB_ERR` (`C97_err_violation`), an `errfunc` that stops, backslashes, and patterns
that C71 does not support. -/
theorem C97_glob_partial {e : Env} {f : GFlags} {g : GlobT} {old : List (Option Name)} {abs : Bool} {secs : List (List Part)}
    (he : ∀ fn, e.errfunc = some fn → ∀ p n, fn p n = 0) (herr : f.err = false) (hper : f.period = false) (hn : NamesOk e.fs)
    (h0 : secs ≠ []) (hok : ∀ ps ∈ secs, SectionOk ps ∧ NoHidden e.fs ps)
    (hold : if f.append then g.pathv = some (old ++ [none]) else old = if f.dooffs then List.replicate g.offs none else []) :
    let pattern := (if abs then [0x2F] else []) ++ sectionsText secs
    let count := if f.append then g.pathc else 0
    ∃ l, (∀ p, p ∈ l ↔ Found e.fs f (if abs then [0x2F] else []) secs p) ∧ (Distinct e.fs → l.Nodup)
      ∧ (f.nosort = false → l.Pairwise (· ≤ ·))
      ∧ glob e f pattern g =
        (if l ≠ [] then some (0, ⟨count + l.length, g.offs, some (old ++ l.map some ++ [none])⟩)
          else if f.nocheck then some (0, ⟨count + 1, g.offs, some (old ++ [some pattern] ++ [none])⟩)
          else some (3, ⟨count, g.offs, some (old ++ [none])⟩)) := by
  intro pattern count
  have hstop : ∀ p n, e.stop p n = false := by
    intro p n
    unfold Env.stop
    cases h : e.errfunc with
    | none => rfl
    | some fn => simp [he fn h p n]
  obtain ⟨ps, rest, rfl⟩ : ∃ ps rest, secs = ps :: rest := by
    cases secs with
    | nil => exact absurd rfl h0
    | cons a b => exact ⟨a, b, rfl⟩
  have hps := (hok ps List.mem_cons_self).1
  have hpat : pattern ≠ [] := by simp [pattern, sectionsText_ne hps]
  have hdrop : pattern.dropWhile (· == 0x2F) = sectionsText (ps :: rest) := by
    cases abs
    · exact sectionsText_drop hps
    · simp only [pattern, if_true, List.cons_append, List.nil_append]
      rw [List.dropWhile_cons_of_pos (by simp)]
      exact sectionsText_drop hps
  have hbase : (if pattern.head? = some 0x2F then [0x2F] else []) = (if abs then [0x2F] else [] : Name) := by
    cases abs with
    | true => simp [pattern]
    | false =>
      have : pattern.head? ≠ some 0x2F := by
        intro h
        have h2 : pattern = pattern.dropWhile (· == 0x2F) := by rw [hdrop]; rfl
        cases hp : pattern with
        | nil => exact hpat hp
        | cons c t =>
          rw [hp] at h h2
          simp only [List.head?_cons, Option.some.injEq] at h
          subst h
          rw [List.dropWhile_cons_of_pos (by simp)] at h2
          have := congrArg List.length h2
          have h3 := (List.dropWhile_sublist (l := t) (· == (0x2F : UInt8))).length_le
          simp only [List.length_cons] at this
          omega
      simp [this]
  obtain ⟨l, h1, h2, h3⟩ := inner_eq (f := f) hstop herr hper hn (by simp) hok (dir := if abs then [0x2F] else []) (expr := pattern)
    (by cases abs <;> simp [DirOk]) hdrop
  have hvec : ∀ g2 : GlobT, g2 = (if f.append then g else { g with pathc := 0, pathv := none }) →
      (if f.append then g2.pathv.map List.dropLast else some (if f.dooffs then List.replicate g2.offs none else [])) = some old
      ∧ g2.pathc = count ∧ g2.offs = g.offs := by
    rintro _ rfl
    by_cases ha : f.append = true
    · rw [if_pos ha] at hold
      simp [ha, hold, count]
    · rw [if_neg ha] at hold
      simp [ha, hold, count]
  obtain ⟨hv1, hv2, hv3⟩ := hvec _ rfl
  refine ⟨if f.nosort then l else sortNames l, ?_, ?_, ?_, ?_⟩
  · intro p
    rw [← h2 p]
    split
    · rfl
    · exact sortNames_mem
  · intro hD
    split
    · exact h3 hD
    · exact sortNames_nodup (h3 hD)
  · intro hs
    rw [hs, if_neg (by simp)]
    exact sortNames_sorted l
  · unfold glob
    dsimp only
    rw [if_neg hpat, hbase, hv1, h1]
    dsimp only
    rw [hv2, hv3]
    by_cases hl : l = []
    · subst hl
      have : sortNames [] = [] := by simp [sortNames]
      have h4 : sortNames [pattern] = [pattern] := by simp [sortNames]
      cases f.nocheck <;> cases f.nosort <;> simp [this, h4]
    · have : sortNames l ≠ [] := by
        intro h
        have := congrArg List.length h
        simp only [sortNames, List.length_mergeSort, List.length_nil] at this
        exact hl (List.length_eq_zero_iff.mp this)
      have h5 : (sortNames l).length = l.length := by simp [sortNames]
      cases f.nosort <;> simp [this, hl, h5]

/-! ## A file system -/

/-- The current directory has a directory `a`, with a file `x` and a directory `y`, a file `b`, a hidden file `.h`, and a link `l`
to nothing. -/
def fs : Fs where
  opendir p :=
    if p = [0x2E] then .ok ([([0x2E], .dir), ([0x2E, 0x2E], .dir), ([0x62], .other), ([0x61], .dir), ([0x2E, 0x68], .other),
      ([0x6C], .link)], none)
    else if p = [0x61] then .ok ([([0x79], .dir), ([0x78], .other)], none)
    else .error 2
  stat _ := .error 2

/-- No flags. -/
def none8 : GFlags := ⟨false, false, false, false, false, false, false, false⟩

theorem name_eq {f : GFlags} {ps : List Part} {n : Name} (hg : ∀ x ∈ ps, x.Good) (hn : 0 ∉ n) :
    matchName f (ps.flatMap Part.text) n = some (accepts false (leaves ⟨f.noescape, false, f.period, false⟩ true false ps) n) := by
  obtain ⟨h1, h2⟩ := two_cstr (text_no_nul hg).1 hn
  unfold matchName
  rw [run (tokenize_eq hg h1) h2]
  simp only [Option.map_some]
  split <;> simp_all

theorem name_star (f : GFlags) (hf : f.period = false) {n : Name} (hn : 0 ∉ n) : matchName f [0x2A] n = some true := by
  have := name_eq (f := f) (ps := [.star]) (by simp [Part.Good]) hn
  rw [show ([Part.star].flatMap Part.text) = [0x2A] from rfl] at this
  rw [this]
  have h3 := (accepts_iff (f := ⟨f.noescape, false, f.period, false⟩) [.star]).1 true (by rw [hf]; exact supported_plain _ _) n
  rw [Option.some.injEq]
  apply h3.mpr
  rw [hf]
  simpa using Fits.star (f := ⟨f.noescape, false, false, false⟩) (lead := true) (l := n) (s := []) (by simp) (by simp) .nil

theorem name_lit (f : GFlags) (hf : f.period = false) (c : UInt8) (hc : c ≠ 0 ∧ c ≠ 0x2A ∧ c ≠ 0x3F ∧ c ≠ 0x5B ∧ c ≠ 0x5C) {n : Name} (hn : 0 ∉ n) :
    matchName f [c] n = some (decide (n = [c])) := by
  have := name_eq (f := f) (ps := [.lit c]) (by intro x hx; rw [List.mem_singleton.mp hx]; exact hc) hn
  rw [show ([Part.lit c].flatMap Part.text) = [c] from rfl] at this
  rw [this]
  have h3 := (accepts_iff (f := ⟨f.noescape, false, f.period, false⟩) [.lit c]).1 true (by rw [hf]; exact supported_plain _ _) n
  rw [Option.some.injEq, Bool.eq_iff_iff]
  refine h3.trans ?_
  rw [decide_eq_true_eq]
  constructor
  · intro h
    cases h with
    | lit h1 h2 =>
      cases h2
      rcases h1 with rfl | h1
      · rfl
      · exact nomatch h1.1
  · rintro rfl
    exact .lit (.inl rfl) .nil

theorem glob_eq {e : Env} {f : GFlags} {pattern : Name} {g : GlobT} {r : Option (List Name)} (hp : pattern ≠ [])
    (ha : f.append = false) (hd : f.dooffs = false)
    (hi : innerGlob e f (if pattern.head? = some 0x2F then [0x2F] else []) pattern = some r) :
    glob e f pattern g = some (match (generalizing := false) r with
      | none => (2, ⟨0, g.offs, some [none]⟩)
      | some results =>
        if results = [] ∧ !f.nocheck then (3, ⟨0, g.offs, some [none]⟩)
        else
          let results := if results = [] then [pattern] else results
          let results := if f.nosort then results else sortNames results
          (0, ⟨results.length, g.offs, some (results.map some ++ [none])⟩)) := by
  unfold glob
  dsimp only
  rw [if_neg hp, hi]
  simp only [ha, hd, Bool.false_eq_true, if_false]
  cases r with
  | none => rfl
  | some l =>
    by_cases h : l = [] ∧ (!f.nocheck) = true
    · simp [h]
    · dsimp only
      rw [if_neg h, if_neg h]
      simp

/-- C97 fails for hidden files: `*` finds `.h`. -/
theorem C97_hidden_violation : Entry fs [] [0x2E, 0x68] false ∧ ¬ Found fs { none8 with nosort := true } [] [[.star]] [0x2E, 0x68] ∧
    glob ⟨fs, none, 0⟩ { none8 with nosort := true } [0x2A] ⟨0, 0, none⟩ =
      some (0, ⟨4, 0, some [some [0x62], some [0x61], some [0x2E, 0x68], some [0x6C], none]⟩) := by
  refine ⟨?_, ?_, ?_⟩
  · exact ⟨_, _, .other, rfl, by simp, by decide, by decide, by simp⟩
  · intro h
    generalize hp : ([0x2E, 0x68] : Name) = p at h
    cases h with
    | @last _ n d _ h1 h2 =>
      have : n.head? = some 0x2E := by
        simp only [under, if_true, none8, Bool.false_eq_true, false_and, if_false, List.append_nil] at hp
        rw [← hp]
        rfl
      cases h2 with
      | star _ h3 _ => exact h3 rfl rfl this
  · have hi : innerGlob ⟨fs, none, 0⟩ { none8 with nosort := true } [] [0x2A] = some (some [[0x62], [0x61], [0x2E, 0x68], [0x6C]]) := by
      rw [innerGlob]
      simp [nextSection, listDir, fs, listLoop, Env.stop, none8, matchLoop, name_star, join]
    rw [glob_eq (by decide) rfl rfl hi]
    decide +kernel

/-- C97 fails for a slash at the end of the pattern: `b/` finds `b`, which is not a directory; `a/` finds `a`, not `a/`. -/
theorem C97_slash_violation :
    glob ⟨fs, none, 0⟩ none8 [0x62, 0x2F] ⟨0, 0, none⟩ = some (0, ⟨1, 0, some [some [0x62], none]⟩) ∧
    glob ⟨fs, none, 0⟩ none8 [0x61, 0x2F] ⟨0, 0, none⟩ = some (0, ⟨1, 0, some [some [0x61], none]⟩) := by
  constructor
  · have hi : innerGlob ⟨fs, none, 0⟩ none8 [] [0x62, 0x2F] = some (some [[0x62]]) := by
      rw [innerGlob]
      simp [nextSection, listDir, fs, listLoop, Env.stop, none8, matchLoop, name_lit, join]
    rw [glob_eq (by decide) rfl rfl hi]
    decide +kernel
  · have hi : innerGlob ⟨fs, none, 0⟩ none8 [] [0x61, 0x2F] = some (some [[0x61]]) := by
      rw [innerGlob]
      simp [nextSection, listDir, fs, listLoop, Env.stop, none8, matchLoop, name_lit, join]
    rw [glob_eq (by decide) rfl rfl hi]
    decide +kernel

/-- A file system whose current directory has a file `b` and can be read by each of the names `.`, `a/..` and `/`. -/
def fs2 : Fs where
  opendir p :=
    if p = [0x2E] ∨ p = [0x61, 0x2F, 0x2E, 0x2E] ∨ p = [0x2F] then
      .ok ([([0x2E], .dir), ([0x2E, 0x2E], .dir), ([0x61], .dir), ([0x62], .other)], none)
    else .error 2
  stat _ := .error 2

/-- C97 fails for `.` and `..`: patterns `.` and `/` find nothing, and for `a/../b` a directory `a..` is opened, which there is
not. -/
theorem C97_dots_violation :
    glob ⟨fs2, none, 0⟩ none8 [0x2E] ⟨0, 0, none⟩ = some (3, ⟨0, 0, some [none]⟩) ∧
    glob ⟨fs2, none, 0⟩ none8 [0x2F] ⟨0, 0, none⟩ = some (3, ⟨0, 0, some [none]⟩) ∧
    glob ⟨fs2, none, 0⟩ none8 [0x61, 0x2F, 0x2E, 0x2E, 0x2F, 0x62] ⟨0, 0, none⟩ = some (3, ⟨0, 0, some [none]⟩) := by
  have he : ∀ n : Name, 0 ∉ n → n ≠ [] → matchName none8 [] n = some false := by
    intro n hn h0
    have := name_eq (f := none8) (ps := []) (by simp) hn
    rw [show (([] : List Part).flatMap Part.text) = [] from rfl] at this
    rw [this]
    cases n with
    | nil => exact absurd rfl h0
    | cons a b => rfl
  refine ⟨?_, ?_, ?_⟩
  · have hi : innerGlob ⟨fs2, none, 0⟩ none8 [] [0x2E] = some (some []) := by
      rw [innerGlob, if_pos (by decide), innerGlob]
      simp [nextSection, listDir, fs2, listLoop, Env.stop, matchLoop, he, join]
    rw [glob_eq (by decide) rfl rfl hi]
    decide +kernel
  · have hi : innerGlob ⟨fs2, none, 0⟩ none8 [0x2F] [0x2F] = some (some []) := by
      rw [innerGlob]
      simp [nextSection, listDir, fs2, listLoop, Env.stop, matchLoop, he, join]
    rw [glob_eq (by decide) rfl rfl hi]
    decide +kernel
  · have h2 : innerGlob ⟨fs2, none, 0⟩ none8 [0x61] [0x2E, 0x2E, 0x2F, 0x62] = some (some []) := by
      rw [innerGlob, if_pos (by decide), innerGlob]
      simp [nextSection, listDir, fs2, Env.stop, none8, matchLoop]
    have hi : innerGlob ⟨fs2, none, 0⟩ none8 [] [0x61, 0x2F, 0x2E, 0x2E, 0x2F, 0x62] = some (some []) := by
      rw [innerGlob]
      have hm := name_lit none8 rfl 0x61 (by decide) (n := [0x61]) (by decide)
      have hl : listDir ⟨fs2, none, 0⟩ [] none8.err = some [⟨[0x61], true⟩, ⟨[0x62], false⟩] := by decide +kernel
      rw [hl]
      simp [nextSection, matchLoop, hm, join, h2, show none8.mark = false from rfl, show none8.err = false from rfl, Env.stop]
    rw [glob_eq (by decide) rfl rfl hi]
    decide +kernel

/-- C97 fails for `GLOB_ERR`: a link to nothing in a directory that can be read ends `glob` with `GLOB_ABORTED`, and so does a
directory part without match, in place of `GLOB_NOMATCH`. -/
theorem C97_err_violation :
    glob ⟨fs, none, 0⟩ { none8 with err := true } [0x62] ⟨0, 0, none⟩ = some (2, ⟨0, 0, some [none]⟩) ∧
    glob ⟨fs2, none, 0⟩ { none8 with err := true } [0x6E, 0x2F, 0x62] ⟨0, 0, none⟩ = some (2, ⟨0, 0, some [none]⟩) := by
  constructor
  · have hi : innerGlob ⟨fs, none, 0⟩ { none8 with err := true } [] [0x62] = some none := by
      rw [innerGlob]
      simp [nextSection, listDir, fs, listLoop, Env.stop]
    rw [glob_eq (by decide) rfl rfl hi]
  · have hi : innerGlob ⟨fs2, none, 0⟩ { none8 with err := true } [] [0x6E, 0x2F, 0x62] = some none := by
      rw [innerGlob]
      simp [nextSection, listDir, fs2, listLoop, Env.stop, none8, matchLoop, name_lit, join]
    rw [glob_eq (by decide) rfl rfl hi]

/-- `GLOB_NOCHECK` does not give back the empty pattern. -/
theorem C97_empty_violation (e : Env) (g : GlobT) :
    glob e { none8 with nocheck := true } [] g = some (3, ⟨0, g.offs, none⟩) := rfl

/-- `GLOB_APPEND` into a structure that a call with the empty pattern has filled is a fault: a null pointer is taken for a
vector. -/
theorem C97_append_violation (e : Env) (g g2 : GlobT) (h : glob e none8 [] g = some (3, g2)) (p : Name) (hp : p ≠ []) :
    glob e { none8 with append := true } p g2 = none := by
  simp only [glob, none8, Bool.false_eq_true, if_false, if_true, Option.some.injEq, Prod.mk.injEq, true_and] at h
  rw [← h]
  unfold glob
  rw [if_neg hp]
  rfl

/-- `globfree` does not free the first `gl_offs` strings, even if `GLOB_DOOFFS` was not given; with it, all of them are freed. -/
theorem C97_free_violation :
    globfree ⟨2, 1, some [some [0x61], some [0x62], none]⟩ = ([[0x62]], true) := by
  decide

/-- C97: `globfree` frees every string that `glob` stored, if `gl_offs` has its value and the vector began with so many null
pointers. -/
theorem C97_globfree_partial {l : List Name} {n c : Nat} :
    globfree ⟨c, n, some (List.replicate n none ++ l.map some ++ [none])⟩ = (l, true) := by
  simp [globfree, List.drop_append, List.filterMap_append, List.filterMap_map]

/-- The theorem applies: `a/x` is found in the file system above. -/
example : NamesOk fs ∧ SectionOk [.lit 0x61] ∧ SectionOk [.lit 0x78, .star] ∧ NoHidden fs [.lit 0x61] ∧ NoHidden fs [.lit 0x78, .star]
    ∧ Found fs none8 [] [[.lit 0x61], [.lit 0x78, .star]] [0x61, 0x2F, 0x78] := by
  refine ⟨?_, ?_, ?_, .inl ⟨_, _, rfl⟩, .inl ⟨_, _, rfl⟩, ?_⟩
  · rintro dir n d ⟨l, e, k, h, hm, h1, h2, -⟩
    generalize (if dir = [] then [0x2E] else dir) = q at h
    unfold fs at h
    dsimp only at h
    split at h
    · simp only [Except.ok.injEq, Prod.mk.injEq] at h
      rw [← h.1] at hm
      simp only [List.mem_cons, Prod.mk.injEq, List.not_mem_nil, or_false] at hm
      rcases hm with ⟨rfl, -⟩ | ⟨rfl, -⟩ | ⟨rfl, -⟩ | ⟨rfl, -⟩ | ⟨rfl, -⟩ | ⟨rfl, -⟩ <;> decide
    · split at h
      · simp only [Except.ok.injEq, Prod.mk.injEq] at h
        rw [← h.1] at hm
        simp only [List.mem_cons, Prod.mk.injEq, List.not_mem_nil, or_false] at hm
        rcases hm with ⟨rfl, -⟩ | ⟨rfl, -⟩ <;> decide
      · simp at h
  · exact ⟨by simp [Part.Good], by decide, by decide, by decide, by decide⟩
  · exact ⟨by simp [Part.Good], by decide, by decide, by decide, by decide⟩
  · refine .dir (n := [0x61]) ⟨_, _, .dir, rfl, by simp, by decide, by decide, by simp⟩ (.lit (.inl rfl) .nil) ?_
    exact .last (n := [0x78]) (d := false) ⟨_, _, .other, rfl, by simp, by decide, by decide, by simp⟩
      (.lit (.inl rfl) (.star (l := []) (s := []) (by simp) (by simp) .nil))

end Verif.Glob
