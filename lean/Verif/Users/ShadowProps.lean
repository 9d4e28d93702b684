import Verif.Users.ShadowModel
import Verif.Users.GrpExamples
/-!
# C89: password entries are found in the shadow database
-/

namespace Verif.Users

open Verif.Net

/-- An entry: no number if the field is empty. -/
structure Shadow where
  name : List UInt8
  pwd : List UInt8
  lstchg : Option Nat
  min : Option Nat
  max : Option Nat
  warn : Option Nat
  inact : Option Nat
  expire : Option Nat
  flag : Option Nat
deriving DecidableEq

/-- The text of a number that may be left out. -/
def NumField (limit : Nat) (s : List UInt8) (v : Option Nat) : Prop :=
  (s = [] ∧ v = none) ∨ ∃ n, v = some n ∧ Numeral 10 s n ∧ n < limit

/-- The line `l` describes the entry `u`. -/
def SLine (redox : Bool) (valid : List UInt8 → Bool) (l : List UInt8) (u : Shadow) : Prop :=
  ∃ t0 t1 t2 t3 t4 t5 t6, NumField (2 ^ 63) t0 u.lstchg ∧ NumField (2 ^ 63) t1 u.min ∧ NumField (2 ^ 63) t2 u.max ∧
    NumField (2 ^ 63) t3 u.warn ∧ NumField (2 ^ 63) t4 u.inact ∧ NumField (2 ^ 63) t5 u.expire ∧ NumField (2 ^ 64) t6 u.flag ∧
    l = List.intercalate [if redox then 0x3B else 0x3A] [u.name, u.pwd, t0, t1, t2, t3, t4, t5, t6] ∧
    (∀ w ∈ [u.name, u.pwd], (if redox then 0x3B else 0x3A) ∉ w ∧ 0 ∉ w ∧ 0x0A ∉ w) ∧
    l.getLast? ≠ some 0x0D ∧ valid l = true

/-- A number left out reads -1. -/
def Long (x : Int) (v : Option Nat) : Prop := x = match v with | some n => (n : Int) | none => -1

/-- The structure describes the entry. A flag left out reads 0. -/
def SShows (buf : List UInt8) (p : Spwd) (u : Shadow) : Prop :=
  Str buf p.namp u.name ∧ Str buf p.pwdp u.pwd ∧ Long p.lstchg u.lstchg ∧ Long p.min u.min ∧ Long p.max u.max ∧ Long p.warn u.warn ∧
    Long p.inact u.inact ∧ Long p.expire u.expire ∧ p.flag = u.flag.getD 0

/-- The bytes needed. -/
def Shadow.size (u : Shadow) : Nat := u.name.length + 1 + (u.pwd.length + 1)

theorem toLong_of {s : List UInt8} {v : Option Nat} (h : NumField (2 ^ 63) s v) : Long (toLong s) v := by
  rcases h with ⟨rfl, rfl⟩ | ⟨n, rfl, h1, h2⟩
  · rfl
  · unfold Long toLong
    rw [parseInt_of (bits := 64) h1 h2]
    simp

theorem toUlong_of {s : List UInt8} {v : Option Nat} (h : NumField (2 ^ 64) s v) : toUlong s = v.getD 0 := by
  rcases h with ⟨rfl, rfl⟩ | ⟨n, rfl, h1, h2⟩
  · rfl
  · unfold toUlong
    rw [fromStr_of (bits := 64) (by decide) (by decide) h1 h2]

theorem numField_plain {limit : Nat} {s : List UInt8} {v : Option Nat} (h : NumField limit s v) : 0x3A ∉ s ∧ 0x3B ∉ s ∧ 0x0A ∉ s := by
  rcases h with ⟨rfl, rfl⟩ | ⟨n, rfl, h1, h2⟩
  · simp
  · have key : ∀ b : UInt8, (b = 0x3A ∨ b = 0x3B) → b ∉ s := by
      intro b hb hm
      obtain ⟨d, hd⟩ := h1.mem hm
      rcases hb with rfl | rfl
      · have := (toDigit_iff (base := 10) (by decide)).2 hd
        rw [show toDigit 10 0x3A = none by decide] at this
        cases this
      · have := (toDigit_iff (base := 10) (by decide)).2 hd
        rw [show toDigit 10 0x3B = none by decide] at this
        cases this
    exact ⟨key _ (.inl rfl), key _ (.inr rfl), h1.not_mem (by decide)⟩

/-- The fields of a line. -/
theorem sline_split {redox : Bool} {valid : List UInt8 → Bool} {l : List UInt8} {u : Shadow} (h : SLine redox valid l u) :
    0x0A ∉ l ∧ l ≠ [] ∧ u.name <+: l ∧ ∃ t0 t1 t2 t3 t4 t5 t6, split (sep redox) l = [u.name, u.pwd, t0, t1, t2, t3, t4, t5, t6] ∧
      NumField (2 ^ 63) t0 u.lstchg ∧ NumField (2 ^ 63) t1 u.min ∧ NumField (2 ^ 63) t2 u.max ∧
      NumField (2 ^ 63) t3 u.warn ∧ NumField (2 ^ 63) t4 u.inact ∧ NumField (2 ^ 63) t5 u.expire ∧ NumField (2 ^ 64) t6 u.flag := by
  obtain ⟨t0, t1, t2, t3, t4, t5, t6, n0, n1, n2, n3, n4, n5, n6, hl, hw, _, _⟩ := h
  have hsep : sep redox = if redox then 0x3B else 0x3A := rfl
  have hnum : ∀ {limit s v}, NumField limit s v → sep redox ∉ s ∧ 0x0A ∉ s := by
    intro limit s v h
    obtain ⟨a, b, c⟩ := numField_plain h
    refine ⟨?_, c⟩
    cases redox
    · exact a
    · exact b
  have hall : ∀ w ∈ [u.name, u.pwd, t0, t1, t2, t3, t4, t5, t6], sep redox ∉ w ∧ 0x0A ∉ w := by
    intro w hm
    simp only [List.mem_cons, List.not_mem_nil, or_false] at hm
    rcases hm with rfl | rfl | rfl | rfl | rfl | rfl | rfl | rfl | rfl
    · exact ⟨(hw _ (by simp)).1, (hw _ (by simp)).2.2⟩
    · exact ⟨(hw _ (by simp)).1, (hw _ (by simp)).2.2⟩
    · exact hnum n0
    · exact hnum n1
    · exact hnum n2
    · exact hnum n3
    · exact hnum n4
    · exact hnum n5
    · exact hnum n6
  refine ⟨?_, ?_, ?_, t0, t1, t2, t3, t4, t5, t6, ?_, n0, n1, n2, n3, n4, n5, n6⟩
  · rw [hl]
    intro h
    rcases mem_intercalate h with h | ⟨w, h1, h2⟩
    · cases redox <;> exact absurd h (by decide)
    · exact (hall w h1).2 h2
  · rw [hl]; simp [List.intercalate]
  · rw [hl]; simp [List.intercalate]
  · rw [hl, ← hsep]
    exact split_intercalate (by simp) fun w h => (hall w h).1

theorem parseSpwd_line {redox : Bool} {valid : List UInt8 → Bool} {l : List UInt8} {u : Shadow} (h : SLine redox valid l u)
    (dest : Option (List UInt8)) (hd : ∀ d, dest = some d → u.size ≤ d.length) :
    ∃ o, parseSpwd redox l dest = .ok o ∧ SShows o.buf o.ref u ∧
      ∀ d, dest = some d → o.buf.length = d.length ∧ o.buf.drop u.size = d.drop u.size := by
  obtain ⟨_, _, _, t0, t1, t2, t3, t4, t5, t6, hs, n0, n1, n2, n3, n4, n5, n6⟩ := sline_split h
  obtain ⟨_, _, _, _, _, _, _, _, _, _, _, _, _, _, _, hw, _, _⟩ := h
  have hz1 := (hw u.name (by simp)).2.1
  have hz2 := (hw u.pwd (by simp)).2.1
  have hsz : u.name.length + 1 + u.pwd.length + 1 = u.size := by unfold Shadow.size; omega
  unfold parseSpwd
  rw [hs]
  dsimp only
  rw [hsz]
  have hlen : ¬ (dest.getD (List.replicate u.size 0)).length < u.size := by
    cases dest with
    | none => simp
    | some d => have := hd d rfl; simp only [Option.getD_some]; omega
  rw [if_neg hlen]
  have hpre : (u.name ++ [0] ++ u.pwd ++ [0]).length = u.size := by
    simp only [List.length_append, List.length_cons, List.length_nil]; omega
  refine ⟨_, rfl, ⟨⟨[], u.pwd ++ 0 :: (dest.getD (List.replicate u.size 0)).drop u.size, by simp, rfl, hz1⟩,
    ⟨u.name ++ [0], (dest.getD (List.replicate u.size 0)).drop u.size, by simp, by simp, hz2⟩, toLong_of n0, toLong_of n1, toLong_of n2,
    toLong_of n3, toLong_of n4, toLong_of n5, toUlong_of n6⟩, ?_⟩
  intro d e
  subst e
  have := hd d rfl
  dsimp only [Option.getD_some]
  constructor
  · rw [List.length_append, hpre, List.length_drop]; omega
  · rw [← hpre, List.drop_left]

theorem sline_read {redox : Bool} {valid : List UInt8 → Bool} (hv : ∀ l, valid (l ++ [0x0A]) = valid l) {l rest : List UInt8} {u : Shadow}
    (h : SLine redox valid l u) (hr : rest = [] ∨ ∃ t, rest = 0x0A :: t) :
    ∃ line, readLine (l ++ rest) = (line, rest.tail) ∧ line ≠ [] ∧ valid line = true ∧ strip line = l := by
  obtain ⟨hnl, hne, _⟩ := sline_split h
  obtain ⟨_, _, _, _, _, _, _, _, _, _, _, _, _, _, _, _, hcr, hval⟩ := h
  rcases hr with rfl | ⟨t, rfl⟩
  · refine ⟨l, by rw [List.append_nil, readLine_end hnl]; rfl, hne, hval, ?_⟩
    unfold strip
    rw [if_neg fun h => hnl (List.mem_of_getLast? h)]
  · refine ⟨l ++ [0x0A], by rw [readLine_newline hnl]; rfl, by simp, by rw [hv]; exact hval, ?_⟩
    unfold strip
    simp only [List.getLast?_append, List.getLast?_singleton, Option.some_or, if_true, List.dropLast_concat]
    rw [if_neg hcr]

/-- What comes before the newline of a line, or all but a carriage return. -/
theorem strip_prefix (l : List UInt8) : strip (l ++ [0x0A]) <+: l := by
  unfold strip
  simp only [List.getLast?_append, List.getLast?_singleton, Option.some_or, if_true, List.dropLast_concat]
  split
  · exact List.dropLast_prefix l
  · exact List.prefix_refl l

theorem getspnam_skip {redox : Bool} {valid : List UInt8 → Bool} {name : List UInt8} (hval : valid name = true) (rest : List UInt8) :
    ∀ ls : List (List UInt8), (∀ l ∈ ls, 0x0A ∉ l ∧ ¬ name <+: l) →
    getspnam redox valid name (body ls ++ rest) = getspnam redox valid name rest ∧
    ∀ buf, getspnamR redox valid name (body ls ++ rest) buf = getspnamR redox valid name rest buf := by
  intro ls
  induction ls with
  | nil => intro _; exact ⟨by simp [body], fun _ => by simp [body]⟩
  | cons l ls ih =>
    intro hl
    obtain ⟨h1, h2⟩ := hl l (by simp)
    obtain ⟨i1, i2⟩ := ih fun k hk => hl k (List.mem_cons_of_mem _ hk)
    have hb : body (l :: ls) ++ rest = l ++ 0x0A :: (body ls ++ rest) := by simp [body]
    have hno : (nameStr valid name).isPrefixOf (strip (l ++ [0x0A])) = false := by
      unfold nameStr
      rw [if_pos hval]
      cases hc : name.isPrefixOf (strip (l ++ [0x0A])) with
      | false => rfl
      | true => exact absurd ((List.isPrefixOf_iff_prefix.1 hc).trans (strip_prefix l)) h2
    constructor
    · rw [hb, getspnam, readLine_newline h1]
      simp only [List.append_eq_nil_iff, List.cons_ne_nil, and_false, dite_false, hno, Bool.false_eq_true, if_false]
      exact i1
    · intro buf
      rw [hb, getspnamR, readLine_newline h1]
      simp only [List.append_eq_nil_iff, List.cons_ne_nil, and_false, dite_false, hno, Bool.false_eq_true, if_false]
      exact i2 buf

/-- `getspnam`: the entry of the name, whatever follows; NULL if there is none. The lines before may be anything. Partial: none of
them may begin with the name, be it only the beginning of another name. -/
theorem C89_getspnam_partial (redox : Bool) (valid : List UInt8 → Bool) (hv : ∀ l, valid (l ++ [0x0A]) = valid l) (name : List UInt8)
    (hval : valid name = true) (ls : List (List UInt8)) (hn : ∀ l ∈ ls, 0x0A ∉ l ∧ ¬ name <+: l) :
    (∀ l rest u, SLine redox valid l u → u.name = name → (rest = [] ∨ ∃ t, rest = 0x0A :: t) →
      ∃ o, getspnam redox valid name (body ls ++ l ++ rest) = some o ∧ SShows o.buf o.ref u) ∧
    getspnam redox valid name (body ls) = none := by
  constructor
  · intro l rest u hu hname hr
    obtain ⟨line, e1, e2, e3, e4⟩ := sline_read hv hu hr
    obtain ⟨o, p1, p2, _⟩ := parseSpwd_line hu none (by simp)
    have hpre : (nameStr valid name).isPrefixOf l = true := by
      unfold nameStr
      rw [if_pos hval, List.isPrefixOf_iff_prefix, ← hname]
      exact (sline_split hu).2.2.1
    refine ⟨o, ?_, p2⟩
    rw [List.append_assoc, (getspnam_skip hval (l ++ rest) ls hn).1, getspnam, e1]
    simp only [e2, dite_false, e3, e4, hpre, and_self, if_true, p1]
  · have := (getspnam_skip (redox := redox) hval [] ls hn).1
    rw [List.append_nil] at this
    rw [this, getspnam]
    rfl

/-- `getspnam_r` likewise. With enough room for the name and the password the entry is found, and the rest of the buffer stays as
it was; with less, `ERANGE` is returned and nothing is written. -/
theorem C89_getspnam_r_partial (redox : Bool) (valid : List UInt8 → Bool) (hv : ∀ l, valid (l ++ [0x0A]) = valid l) (name : List UInt8)
    (hval : valid name = true) (ls : List (List UInt8)) (hn : ∀ l ∈ ls, 0x0A ∉ l ∧ ¬ name <+: l) (buf : List UInt8) :
    (∀ l rest u, SLine redox valid l u → u.name = name → (rest = [] ∨ ∃ t, rest = 0x0A :: t) →
      (u.size ≤ buf.length → ∃ p buf', getspnamR redox valid name (body ls ++ l ++ rest) buf = ⟨0, some p, buf'⟩ ∧ SShows buf' p u ∧
        buf'.length = buf.length ∧ buf'.drop u.size = buf.drop u.size) ∧
      (buf.length < u.size → getspnamR redox valid name (body ls ++ l ++ rest) buf = ⟨34, none, buf⟩)) ∧
    getspnamR redox valid name (body ls) buf = ⟨2, none, buf⟩ := by
  constructor
  · intro l rest u hu hname hr
    obtain ⟨line, e1, e2, e3, e4⟩ := sline_read hv hu hr
    have hpre : (nameStr valid name).isPrefixOf l = true := by
      unfold nameStr
      rw [if_pos hval, List.isPrefixOf_iff_prefix, ← hname]
      exact (sline_split hu).2.2.1
    have hstep : getspnamR redox valid name (body ls ++ l ++ rest) buf = match parseSpwd redox l (some buf) with
        | .ok o => ⟨0, some o.ref, o.buf⟩
        | .error .range => ⟨34, none, buf⟩
        | .error .syntax => ⟨2, none, buf⟩ := by
      rw [List.append_assoc, (getspnam_skip hval (l ++ rest) ls hn).2, getspnamR, e1]
      simp only [e2, dite_false, e3, e4, hpre, and_self, if_true]
      split <;> rename_i h <;> rw [h]
    constructor
    · intro hsz
      obtain ⟨o, p1, p2, p3⟩ := parseSpwd_line hu (some buf) (by intro d e; cases e; exact hsz)
      obtain ⟨q1, q2⟩ := p3 buf rfl
      exact ⟨o.ref, o.buf, by rw [hstep, p1], p2, q1, q2⟩
    · intro hsz
      rw [hstep]
      obtain ⟨_, _, _, t0, t1, t2, t3, t4, t5, t6, hs, _⟩ := sline_split hu
      unfold parseSpwd
      rw [hs]
      dsimp only [Option.getD_some]
      rw [if_pos (by unfold Shadow.size at hsz; omega)]
  · have := (getspnam_skip (redox := redox) hval [] ls hn).2 buf
    rw [List.append_nil] at this
    rw [this, getspnamR]
    rfl

/-! ### Enumeration -/

/-- The lines describe the entries. -/
def SLines (redox : Bool) (valid : List UInt8 → Bool) : List (List UInt8) → List Shadow → Prop
  | [], [] => True
  | l :: ls, u :: us => SLine redox valid l u ∧ SLines redox valid ls us
  | _, _ => False

/-- What the calls of `getspent` return. -/
def spRun (redox : Bool) (valid : List UInt8 → Bool) (file : List UInt8) : Option (List UInt8) → List PwOp → List (Option OwnedSpwd)
  | _, [] => []
  | r, .next :: ops => (getspent redox valid file r).1 :: spRun redox valid file (getspent redox valid file r).2 ops
  | r, .rewind :: ops => spRun redox valid file (setspent file r) ops
  | r, .close :: ops => spRun redox valid file (endspent r) ops

/-- What they should. -/
def spSpec (us : List Shadow) : Nat → List PwOp → List (Option Shadow)
  | _, [] => []
  | i, .next :: ops => us[i]? :: spSpec us (i + 1) ops
  | _, .rewind :: ops => spSpec us 0 ops
  | _, .close :: ops => spSpec us 0 ops

/-- The structures returned describe the entries. -/
def SAgree : List (Option OwnedSpwd) → List (Option Shadow) → Prop
  | [], [] => True
  | some o :: os, some u :: us => SShows o.buf o.ref u ∧ SAgree os us
  | none :: os, none :: us => SAgree os us
  | _, _ => False

theorem slines_get {redox : Bool} {valid : List UInt8 → Bool} : ∀ {ls : List (List UInt8)} {us : List Shadow}, SLines redox valid ls us →
    ls.length = us.length ∧ ∀ (i : Nat) (l : List UInt8), ls[i]? = some l → ∃ u, us[i]? = some u ∧ SLine redox valid l u
  | [], [], _ => ⟨rfl, by simp⟩
  | l :: ls, u :: us, h => by
    obtain ⟨e1, e2⟩ := slines_get h.2
    refine ⟨by simp [e1], ?_⟩
    intro i l' hi
    cases i with
    | zero => simp at hi; subst hi; exact ⟨u, rfl, h.1⟩
    | succ i => simp at hi; obtain ⟨v, h1, h2⟩ := e2 i l' hi; exact ⟨v, by simpa using h1, h2⟩
  | [], _ :: _, h => absurd h (by simp [SLines])
  | _ :: _, [], h => absurd h (by simp [SLines])

/-- `getspent` gives all entries in the order of the file, then NULL; `setspent` and `endspent` go back to the first. Partial: every
line must describe an entry. -/
theorem C89_getspent_partial (redox : Bool) (valid : List UInt8 → Bool) (hv : ∀ l, valid (l ++ [0x0A]) = valid l)
    (ls : List (List UInt8)) (us : List Shadow) (hl : SLines redox valid ls us) (ops : List PwOp) :
    SAgree (spRun redox valid (body ls) none ops) (spSpec us 0 ops) := by
  obtain ⟨hlen, hget⟩ := slines_get hl
  have key : ∀ (ops : List PwOp) (r : Option (List UInt8)) (i : Nat), r.getD (body ls) = body (ls.drop i) →
      SAgree (spRun redox valid (body ls) r ops) (spSpec us i ops) := by
    intro ops
    induction ops with
    | nil => intro _ _ _; trivial
    | cons op ops ih =>
      intro r i hr
      cases op with
      | rewind => exact ih _ 0 rfl
      | close => exact ih _ 0 rfl
      | next =>
        unfold spRun spSpec
        rcases Nat.lt_or_ge i ls.length with hi | hi
        · have hl1 : ls[i]? = some ls[i] := List.getElem?_eq_getElem hi
          obtain ⟨u, hu1, hu2⟩ := hget i _ hl1
          have hb : body (ls.drop i) = ls[i] ++ (0x0A :: body (ls.drop (i + 1))) := by
            rw [List.drop_eq_getElem_cons hi]; simp only [body, List.map_cons, List.flatten_cons, List.append_assoc, List.cons_append, List.nil_append]
          obtain ⟨line, e1, e2, e3, e4⟩ := sline_read hv hu2 (.inr ⟨body (ls.drop (i + 1)), rfl⟩)
          obtain ⟨o, p1, p2, _⟩ := parseSpwd_line hu2 none (by simp)
          have hg : getspent redox valid (body ls) r = (some o, some (body (ls.drop (i + 1)))) := by
            unfold getspent
            dsimp only
            rw [hr, hb, e1]
            simp only [e2, if_false, e3, Bool.true_eq_false, e4, p1, List.tail_cons]
          rw [hg, hu1]
          exact ⟨p2, ih _ _ rfl⟩
        · have hb : body (ls.drop i) = [] := by rw [List.drop_eq_nil_of_le hi]; rfl
          have hg : getspent redox valid (body ls) r = (none, some []) := by
            unfold getspent
            dsimp only
            rw [hr, hb]
            rfl
          rw [hg, List.getElem?_eq_none (by omega)]
          refine ih _ _ ?_
          rw [List.drop_eq_nil_of_le (by omega)]
          rfl
  exact key ops none 0 rfl

/-! ### Where it goes wrong, and examples -/

/-- The entry of "bob". -/
def bobsEntry : Shadow := ⟨txt "bob", txt "$6$salt$hash", some 19000, some 0, some 99999, some 7, none, none, none⟩

def bobsShadow : List UInt8 := txt "bob:$6$salt$hash:19000:0:99999:7:::"

theorem numField_of {limit : Nat} {s : List UInt8} {n : Nat} (bits : Nat) (h : accDigits bits 10 0 s = some n) (hl : 2 ^ bits = limit)
    (h4 : s ≠ []) : NumField limit s (some n) := by
  obtain ⟨a1, a2⟩ := (acc_iff (by decide) (by decide) h4).1 h
  exact .inr ⟨n, rfl, a1, hl ▸ a2⟩

theorem bobs_shadow : SLine false ascii7 bobsShadow bobsEntry :=
  ⟨txt "19000", txt "0", txt "99999", txt "7", [], [], [],
    numField_of 63 (by decide +kernel) rfl (by decide +kernel), numField_of 63 (by decide +kernel) rfl (by decide +kernel),
    numField_of 63 (by decide +kernel) rfl (by decide +kernel), numField_of 63 (by decide +kernel) rfl (by decide +kernel),
    .inl ⟨rfl, rfl⟩, .inl ⟨rfl, rfl⟩, .inl ⟨rfl, rfl⟩, by decide +kernel⟩

/-- "bob" is found behind a comment and "alice". -/
example : ∃ o, getspnam false ascii7 (txt "bob") (body [txt "# passwords", txt "alice:*:::::::"] ++ bobsShadow ++ []) = some o ∧
    SShows o.buf o.ref bobsEntry :=
  (C89_getspnam_partial false ascii7 ascii7_newline (txt "bob") (by decide +kernel) [txt "# passwords", txt "alice:*:::::::"]
    (by decide +kernel)).1 bobsShadow [] bobsEntry bobs_shadow rfl (.inl rfl)

/-- A buffer of 16 bytes is too small by one. -/
example : getspnamR false ascii7 (txt "bob") (body [] ++ bobsShadow ++ []) (List.replicate 16 0xFF) = ⟨34, none, List.replicate 16 0xFF⟩ :=
  ((C89_getspnam_r_partial false ascii7 ascii7_newline (txt "bob") (by decide +kernel) [] (by simp) (List.replicate 16 0xFF)).1
    bobsShadow [] bobsEntry bobs_shadow rfl (.inl rfl)).2 (by decide +kernel)

/-- `getspnam` finds the entry of "bob" for "b", for the empty name, and even for the text "bob:$6$". -/
theorem C89_prefix_violation :
    (∀ name ∈ [txt "b", [], txt "bob:$6$"], (getspnam false ascii7 name (body [bobsShadow])).isSome = true ∧
      (getspnamR false ascii7 name (body [bobsShadow]) (List.replicate 64 0)).entry.isSome = true ∧ name ≠ bobsEntry.name) ∧
    SLine false ascii7 bobsShadow bobsEntry := ⟨by decide +kernel, bobs_shadow⟩

/-- If "bobby" comes first, "bob" gets the password of "bobby". -/
theorem C89_order_violation : ∃ o, getspnam false ascii7 (txt "bob") (body [txt "bobby:secret:::::::", bobsShadow]) = some o ∧
    Str o.buf o.ref.namp (txt "bobby") ∧ Str o.buf o.ref.pwdp (txt "secret") ∧ SLine false ascii7 bobsShadow bobsEntry :=
  ⟨⟨txt "bobby" ++ 0 :: txt "secret" ++ [0], ⟨0, 6, -1, -1, -1, -1, -1, -1, 0⟩⟩, by decide +kernel,
    ⟨[], txt "secret" ++ [0], by decide +kernel, by decide +kernel, by decide +kernel⟩,
    ⟨txt "bobby" ++ [0], [], by decide +kernel, by decide +kernel, by decide +kernel⟩, bobs_shadow⟩

/-- A line without a password that begins with the name ends `getspnam_r`, not `getspnam`. -/
theorem C89_malformed_violation :
    (getspnam false ascii7 (txt "bob") (body [txt "bob", bobsShadow])).isSome = true ∧
    getspnamR false ascii7 (txt "bob") (body [txt "bob", bobsShadow]) (List.replicate 64 0) = ⟨2, none, List.replicate 64 0⟩ ∧
    (spRun false ascii7 (body [txt "bob", bobsShadow]) none [.next, .next]).map Option.isSome = [false, true] := by decide +kernel

end Verif.Users
