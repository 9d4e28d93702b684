import Verif.Stdio.PrintfConv
/-!
# Reading back a format

`items` of a format that was written from conversion specifications.
-/

namespace Verif.Stdio
open Verif.Mem Verif.Stdlib Verif.Wchar

/-- A width or precision as the code keeps it. -/
def Count.number : Count → Option Number
  | .none => .none
  | .lit ds => some (.static (litVal ds))
  | .star => some .next

/-- A length modifier as the code keeps it. -/
def Len.kind : Len → IntKind
  | .none => .int | .hh => .byte | .h => .short | .l => .long | .ll => .longLong | .j => .intMax | .z => .size
  | .t => .ptrDiff

/-- A conversion specifier as the code keeps it. -/
def Cv.kind : Cv → FmtKind
  | .percent => .percent | .d => .signed | .i => .signed | .c => .char | .s => .string | .n => .getWritten
  | _ => .unsigned

/-- A conversion specification as the code keeps it. -/
def Dir.arg (d : Dir) : PrintfArg :=
  ⟨none, decide (.alt ∈ d.flags),
    if isIntConv d.cv.byte && d.prec.number.isSome then false else decide (.zero ∈ d.flags),
    decide (.left ∈ d.flags), decide (.space ∈ d.flags), decide (.plus ∈ d.flags),
    d.width.number.getD (.static 0), d.prec.number, d.len.kind, d.cv.byte, d.cv.kind⟩

/-- Not a digit. -/
def NotDigit (c : UInt8) : Prop := ¬ (0x30 ≤ c ∧ c ≤ 0x39)

theorem popIntLoop_stop {l rest : List UInt8} (h : ∀ b ∈ l, b ≠ 0x24) (he : ∃ b ∈ l, NotDigit b) (int : Option Nat) :
    ∃ n c r, popIntLoop int (l ++ rest) = (n, c :: r) ∧ c ≠ 0x24 := by
  induction l generalizing int with
  | nil => simp at he
  | cons a l ih =>
    rw [List.cons_append, popIntLoop]
    by_cases ha : 0x30 ≤ a ∧ a ≤ 0x39
    · rw [if_pos ha]
      apply ih (fun b hb => h b (by simp [hb]))
      obtain ⟨b, hb, hn⟩ := he
      rcases List.mem_cons.1 hb with rfl | hb
      · exact absurd ha hn
      · exact ⟨b, hb, hn⟩
    · rw [if_neg ha]
      exact ⟨_, _, _, rfl, h a (by simp)⟩

theorem popIndex_none {l rest : List UInt8} (h : ∀ b ∈ l, b ≠ 0x24) (he : ∃ b ∈ l, NotDigit b) :
    popIndex (l ++ rest) = (none, l ++ rest) := by
  obtain ⟨n, c, r, h1, h2⟩ := popIntLoop_stop (rest := rest) h he none
  unfold popIndex
  rw [h1]
  split
  · rename_i i rest' heq
    simp only [Prod.mk.injEq, List.cons.injEq] at heq
    exact absurd heq.2.1 h2
  · rfl

theorem popFlags_eq (l : List Flag) {x : List UInt8}
    (hx : ∃ c r, x = c :: r ∧ c ≠ 0x23 ∧ c ≠ 0x30 ∧ c ≠ 0x2D ∧ c ≠ 0x20 ∧ c ≠ 0x2B) (fl : Flags) :
    popFlags fl (l.map Flag.byte ++ x) =
      (⟨fl.alternate || decide (.alt ∈ l), fl.zero || decide (.zero ∈ l), fl.left || decide (.left ∈ l),
        fl.signReserve || decide (.space ∈ l), fl.signAlways || decide (.plus ∈ l)⟩, x) := by
  induction l generalizing fl with
  | nil =>
    obtain ⟨c, r, rfl, h1, h2, h3, h4, h5⟩ := hx
    simp [popFlags, h1, h2, h3, h4, h5]
  | cons f l ih =>
    cases f <;> simp [popFlags, Flag.byte, ih]

theorem digit_isDigit (d : Fin 10) : 0x30 ≤ digit d ∧ digit d ≤ 0x39 := by
  revert d; decide

theorem digit_toNat (d : Fin 10) : (digit d).toNat - 0x30 = d.val := by
  revert d; decide

theorem digit_ne_star (d : Fin 10) : digit d ≠ 0x2A := by
  revert d; decide

theorem popIntLoop_digits (ds : List (Fin 10)) {c : UInt8} {r : List UInt8} (hc : NotDigit c) (a : Nat) :
    popIntLoop (some (a % 2 ^ 64)) (ds.map digit ++ c :: r)
      = (some (ds.foldl (fun a d => 10 * a + d.val) a % 2 ^ 64), c :: r) := by
  induction ds generalizing a with
  | nil => simp only [List.map_nil, List.nil_append, popIntLoop]; rw [if_neg hc]; rfl
  | cons d ds ih =>
    rw [List.map_cons, List.cons_append, popIntLoop, if_pos (digit_isDigit d), digit_toNat, Option.getD_some]
    have e : (a % 2 ^ 64 * 10 % 2 ^ 64 + d.val) % 2 ^ 64 = (10 * a + d.val) % 2 ^ 64 := by omega
    rw [e, ih, List.foldl_cons]

theorem popIntLoop_lit {ds : List (Fin 10)} (hds : ds ≠ []) (hv : litVal ds < 2 ^ 31) {c : UInt8} {r : List UInt8}
    (hc : NotDigit c) : popIntLoop none (ds.map digit ++ c :: r) = (some (litVal ds), c :: r) := by
  cases ds with
  | nil => exact absurd rfl hds
  | cons d ds =>
    rw [List.map_cons, List.cons_append, popIntLoop, if_pos (digit_isDigit d), digit_toNat, Option.getD_none]
    have e : (0 * 10 % 2 ^ 64 + d.val) % 2 ^ 64 = (10 * 0 + d.val) % 2 ^ 64 := by omega
    rw [e, popIntLoop_digits _ hc]
    have : litVal (d :: ds) = ds.foldl (fun a d => 10 * a + d.val) (10 * 0 + d.val) := rfl
    rw [← this, Nat.mod_eq_of_lt (by omega)]

/-- `popInt` of what a width or precision is written as. -/
theorem popInt_eq {w : Count} {c : UInt8} {r : List UInt8} (hw : ∀ ds, w = .lit ds → ds ≠ [] ∧ litVal ds < 2 ^ 31)
    (hc : NotDigit c) (hstar : c ≠ 0x2A) (hd : c ≠ 0x24) : popInt (w.text ++ c :: r) = (w.number, c :: r) := by
  cases w with
  | none =>
    simp only [Count.text, List.nil_append, Count.number]
    unfold popInt
    split
    · rename_i heq; exact absurd (List.cons.inj heq).1 hstar
    · simp only [popIntLoop]
      rw [if_neg hc]; rfl
  | lit ds =>
    obtain ⟨h1, h2⟩ := hw ds rfl
    simp only [Count.text, Count.number]
    unfold popInt
    split
    · rename_i heq
      cases ds with
      | nil => exact absurd rfl h1
      | cons d ds => exact absurd (List.cons.inj heq).1 (digit_ne_star d)
    · rw [popIntLoop_lit h1 h2 hc]; rfl
  | star =>
    simp only [Count.text, List.cons_append, List.nil_append, Count.number, popInt]
    rw [show c :: r = [c] ++ r from rfl, popIndex_none (by simpa using hd) ⟨c, by simp, hc⟩]

theorem popLen_eq (n : Len) (cv : Cv) (r : List UInt8) :
    popLen .int (n.text ++ cv.byte :: r) = (n.kind, cv.byte :: r) := by
  cases n <;> cases cv <;> simp [popLen, Len.text, Cv.byte, Len.kind]

theorem popConv_eq (e : List UInt8) (fl : Flags) (w : Number) (p : Option Number) (k : IntKind) (cv : Cv) (r : List UInt8) :
    popConv e none fl w p k (cv.byte :: r) =
      (.arg ⟨none, fl.alternate, if isIntConv cv.byte && p.isSome then false else fl.zero, fl.left, fl.signReserve,
        fl.signAlways, w, p, k, cv.byte, cv.kind⟩, r) := by
  cases cv <;> simp [popConv, Cv.byte, Cv.kind, kindOf]

/-- What can follow the flags, other than a width. -/
def Follow (c : UInt8) : Prop :=
  NotDigit c ∧ c ≠ 0x2A ∧ c ≠ 0x24 ∧ c ≠ 0x23 ∧ c ≠ 0x30 ∧ c ≠ 0x2D ∧ c ≠ 0x20 ∧ c ≠ 0x2B

instance (c : UInt8) : Decidable (Follow c) := by unfold Follow NotDigit; infer_instance

theorem follow_len (n : Len) (cv : Cv) (r : List UInt8) :
    ∃ c s, n.text ++ cv.byte :: r = c :: s ∧ Follow c ∧ c ≠ 0x2E := by
  cases n <;> first
    | exact ⟨_, _, rfl, by decide, by decide⟩
    | (cases cv <;> exact ⟨_, _, rfl, by decide, by decide⟩)

theorem follow_prec (d : Dir) (r : List UInt8) :
    ∃ c s, d.precText ++ (d.len.text ++ d.cv.byte :: r) = c :: s ∧ Follow c := by
  unfold Dir.precText
  cases d.prec with
  | none => obtain ⟨c, s, h, h', _⟩ := follow_len d.len d.cv r; exact ⟨c, s, h, h'⟩
  | lit ds => exact ⟨_, _, rfl, by decide⟩
  | star => exact ⟨_, _, rfl, by decide⟩

theorem digit_flag {d : Fin 10} (h : d ≠ 0) :
    digit d ≠ 0x23 ∧ digit d ≠ 0x30 ∧ digit d ≠ 0x2D ∧ digit d ≠ 0x20 ∧ digit d ≠ 0x2B := by
  revert d; decide

theorem text_no_dollar (d : Dir) :
    ∀ b ∈ d.flags.map Flag.byte ++ (d.width.text ++ (d.precText ++ (d.len.text ++ [d.cv.byte]))), b ≠ 0x24 := by
  have hdig : ∀ x : Fin 10, digit x ≠ 0x24 := by decide
  have hcount : ∀ w : Count, ∀ b ∈ w.text, b ≠ 0x24 := by
    intro w b hb
    cases w with
    | none => simp [Count.text] at hb
    | lit ds =>
      simp only [Count.text, List.mem_map] at hb
      obtain ⟨x, _, rfl⟩ := hb
      exact hdig x
    | star => simp only [Count.text, List.mem_singleton] at hb; subst hb; decide
  intro b hb
  simp only [List.mem_append] at hb
  rcases hb with h | h | h | h | h
  · simp only [List.mem_map] at h
    obtain ⟨f, _, rfl⟩ := h
    cases f <;> decide
  · exact hcount _ b h
  · unfold Dir.precText at h
    generalize hp : d.prec = p at h
    cases p with
    | none => simp at h
    | lit ds =>
      rcases List.mem_cons.1 h with rfl | h
      · decide
      · exact hcount _ b h
    | star =>
      rcases List.mem_cons.1 h with rfl | h
      · decide
      · exact hcount _ b h
  · have hl : ∀ n : Len, ∀ b ∈ n.text, b ≠ 0x24 := by intro n; cases n <;> decide
    exact hl _ b h
  · cases hc : d.cv <;> simp [hc, Cv.byte] at h <;> (subst h; decide)

theorem popSpec_eq {d : Dir} (h : d.Ok) (e r : List UInt8) :
    popSpec e (d.flags.map Flag.byte ++ (d.width.text ++ (d.precText ++ (d.len.text ++ d.cv.byte :: r))))
      = (.arg d.arg, r) := by
  have hi : popIndex (d.flags.map Flag.byte ++ (d.width.text ++ (d.precText ++ (d.len.text ++ d.cv.byte :: r))))
      = (none, d.flags.map Flag.byte ++ (d.width.text ++ (d.precText ++ (d.len.text ++ d.cv.byte :: r)))) := by
    have := popIndex_none (rest := r) (text_no_dollar d) ⟨d.cv.byte, by simp, by cases d.cv <;> simp [Cv.byte, NotDigit]⟩
    simpa only [List.append_assoc, List.cons_append, List.nil_append] using this
  obtain ⟨c, s, hcs, hf⟩ := follow_prec d r
  have hflags : popFlags {} (d.flags.map Flag.byte ++ (d.width.text ++ (c :: s))) =
      (⟨decide (.alt ∈ d.flags), decide (.zero ∈ d.flags), decide (.left ∈ d.flags), decide (.space ∈ d.flags),
        decide (.plus ∈ d.flags)⟩, d.width.text ++ (c :: s)) := by
    rw [popFlags_eq]
    · simp
    · cases hw : d.width with
      | none => exact ⟨_, _, rfl, hf.2.2.2⟩
      | lit ds =>
        obtain ⟨h1, h2, _⟩ := h.width ds hw
        cases ds with
        | nil => exact absurd rfl h1
        | cons x ds =>
          refine ⟨_, _, rfl, digit_flag ?_⟩
          intro hx; exact h2 (by rw [hx]; rfl)
      | star => exact ⟨_, _, rfl, by decide⟩
  have hwidth : popInt (d.width.text ++ (c :: s)) = (d.width.number, c :: s) :=
    popInt_eq (fun ds hds => ⟨(h.width ds hds).1, (h.width ds hds).2.2⟩) hf.1 hf.2.1 hf.2.2.1
  unfold popSpec
  rw [hi, hcs]
  dsimp only
  rw [hflags]
  dsimp only
  rw [hwidth]
  dsimp only
  have hpop : ∀ p : Count, (∀ ds, p = .lit ds → ds ≠ [] ∧ litVal ds < 2 ^ 31) →
      popInt (p.text ++ (d.len.text ++ d.cv.byte :: r)) = (p.number, d.len.text ++ d.cv.byte :: r) := by
    intro p hp
    obtain ⟨c', s', h', hf', _⟩ := follow_len d.len d.cv r
    rw [h']
    exact popInt_eq hp hf'.1 hf'.2.1 hf'.2.2.1
  cases hp : d.prec with
  | none =>
    have e1 : c :: s = d.len.text ++ d.cv.byte :: r := by rw [← hcs]; simp [Dir.precText, hp]
    obtain ⟨c', s', h', hf', hne⟩ := follow_len d.len d.cv r
    have e2 : c = c' := by rw [h'] at e1; exact (List.cons.inj e1).1
    split
    · rename_i heq; exact absurd ((List.cons.inj heq).1) (by rw [e2]; exact hne)
    · rw [e1, popLen_eq]
      dsimp only
      rw [popConv_eq]
      simp [Dir.arg, hp, Count.number]
  | lit ds =>
    have e1 : c :: s = 0x2E :: (Count.text (.lit ds) ++ (d.len.text ++ d.cv.byte :: r)) := by
      rw [← hcs]; simp [Dir.precText, hp]
    rw [e1]
    have e2 := hpop (.lit ds) (fun ds' h' => h.prec ds' (by rw [hp, h']))
    simp only [e2, Count.number]
    rw [popLen_eq]
    dsimp only
    rw [popConv_eq]
    simp [Dir.arg, hp, Count.number]
  | star =>
    have e1 : c :: s = 0x2E :: (Count.text .star ++ (d.len.text ++ d.cv.byte :: r)) := by
      rw [← hcs]; simp [Dir.precText, hp]
    rw [e1]
    have e2 := hpop .star (by simp)
    simp only [e2, Count.number]
    rw [popLen_eq]
    dsimp only
    rw [popConv_eq]
    simp [Dir.arg, hp, Count.number]

/-! ## The whole format -/

/-- Ordinary text as an item. -/
def plainItem (t : List UInt8) : List Item := if t = [] then [] else [.plain t]

/-- The items of a format. -/
def Format.items (f : Format) : List Item :=
  f.dirs.flatMap (fun x => plainItem x.1 ++ [.arg x.2.dir.arg]) ++ plainItem f.tail

/-- A format that can be written. -/
structure Format.Ok (f : Format) : Prop where
  text : ∀ x ∈ f.dirs, Plain x.1
  dirs : ∀ x ∈ f.dirs, x.2.dir.Ok
  tail : Plain f.tail

theorem takeWhile_plain {t : List UInt8} (h : Plain t) (r : List UInt8) :
    (t ++ 0x25 :: r).takeWhile (· != 0x25) = t ∧ (t ++ 0x25 :: r).dropWhile (· != 0x25) = 0x25 :: r := by
  induction t with
  | nil => simp
  | cons a t ih =>
    have ha : a ≠ 0x25 := h a (by simp)
    obtain ⟨h1, h2⟩ := ih (fun b hb => h b (by simp [hb]))
    constructor
    · rw [List.cons_append, List.takeWhile_cons, if_pos (by simpa using ha), h1]
    · rw [List.cons_append, List.dropWhile_cons, if_pos (by simpa using ha), h2]

theorem takeWhile_all {t : List UInt8} (h : Plain t) :
    t.takeWhile (· != 0x25) = t ∧ t.dropWhile (· != 0x25) = [] := by
  induction t with
  | nil => simp
  | cons a t ih =>
    have ha : a ≠ 0x25 := h a (by simp)
    obtain ⟨h1, h2⟩ := ih (fun b hb => h b (by simp [hb]))
    constructor
    · rw [List.takeWhile_cons, if_pos (by simpa using ha), h1]
    · rw [List.dropWhile_cons, if_pos (by simpa using ha), h2]

theorem items_tail (e : List UInt8) {t : List UInt8} (h : Plain t) : items e t = some (plainItem t) := by
  by_cases ht : t = []
  · subst ht; rw [items]; rfl
  · obtain ⟨h1, h2⟩ := takeWhile_all h
    have hn : nextItem e t = some (.plain t, []) := by
      unfold nextItem
      rw [h1, h2]
      cases t with
      | nil => exact absurd rfl ht
      | cons a t => rfl
    have hnil : items e [] = some [] := by rw [items]; rfl
    rw [items, hn]
    simp only [hnil]
    rw [plainItem, if_neg ht]; rfl

theorem items_dir (e : List UInt8) {d : Dir} (hd : d.Ok) (r : List UInt8) {l : List Item} (hl : items e r = some l) :
    items e (d.text ++ r) = some (.arg d.arg :: l) := by
  have hn : nextItem e (d.text ++ r) = some (.arg d.arg, r) := by
    unfold nextItem
    have : d.text ++ r = 0x25 :: (d.flags.map Flag.byte ++ (d.width.text ++ (d.precText ++ (d.len.text ++ d.cv.byte :: r)))) := by
      simp [Dir.text]
    rw [this, List.takeWhile_cons, List.dropWhile_cons]
    simp only [bne_self_eq_false, Bool.false_eq_true, if_false]
    rw [popSpec_eq hd]
  rw [items, hn]
  simp only [hl]
  rfl

theorem items_step (e : List UInt8) {t : List UInt8} (ht : Plain t) {d : Dir} (hd : d.Ok) (r : List UInt8)
    {l : List Item} (hl : items e r = some l) :
    items e (t ++ (d.text ++ r)) = some (plainItem t ++ .arg d.arg :: l) := by
  by_cases h0 : t = []
  · subst h0
    exact items_dir e hd r hl
  · have h2 := items_dir e hd r hl
    have hx : ∃ y, d.text ++ r = 0x25 :: y := ⟨_, rfl⟩
    obtain ⟨y, hy⟩ := hx
    have hn : nextItem e (t ++ (d.text ++ r)) = some (.plain t, d.text ++ r) := by
      unfold nextItem
      rw [hy, (takeWhile_plain ht y).1, (takeWhile_plain ht y).2]
      cases t with
      | nil => exact absurd rfl h0
      | cons a t => rfl
    rw [items, hn]
    simp only [h2]
    rw [plainItem, if_neg h0]
    rfl

theorem items_text (e : List UInt8) {f : Format} (h : f.Ok) : items e f.text = some f.items := by
  obtain ⟨dirs, tail⟩ := f
  obtain ⟨h1, h2, h3⟩ := h
  dsimp only at h1 h2 h3
  simp only [Format.text, Format.items]
  induction dirs with
  | nil => simpa using items_tail e h3
  | cons x l ih =>
    have := items_step e (h1 x (by simp)) (h2 x (by simp)) _
      (ih (fun y hy => h1 y (by simp [hy])) (fun y hy => h2 y (by simp [hy])))
    simpa [List.flatMap_cons, List.append_assoc] using this

end Verif.Stdio
