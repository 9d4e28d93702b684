import Verif.Scanf.ScanfModel
/-!
# C78: `sscanf`
-/

namespace Verif.Scanf

/-! ## Formats -/

/-- A number as text. -/
def decText (n : Nat) : List UInt8 := if n < 10 then [UInt8.ofNat (48 + n)] else decText (n / 10) ++ [UInt8.ofNat (48 + n % 10)]
termination_by n

/-- The length modifiers. -/
inductive Len where
  | none | hh | h | l | ll | j | z | t
deriving DecidableEq

/-- How they are written. -/
def Len.text : Len → List UInt8
  | .none => []
  | .hh => [0x68, 0x68]
  | .h => [0x68]
  | .l => [0x6C]
  | .ll => [0x6C, 0x6C]
  | .j => [0x6A]
  | .z => [0x7A]
  | .t => [0x74]

/-- The size of the integer they stand for. -/
def Len.bits : Len → Nat
  | .none => 32
  | .hh => 8
  | .h => 16
  | _ => 64

/-- What is converted. -/
inductive What where
  /-- one of `d i o u x X` -/
  | int (c : UInt8)
  /-- one of `f e g E a` -/
  | real (c : UInt8)
  | ptr
  | str
  | chr
  /-- `[`: single characters and ranges -/
  | set (invert : Bool) (cs : List (UInt8 × Option UInt8))
  | count
deriving DecidableEq

/-- An element of a set. -/
def elemText : UInt8 × Option UInt8 → List UInt8
  | (a, none) => [a]
  | (a, some b) => [a, 0x2D, b]

/-- How conversions are written. -/
def What.text : What → List UInt8
  | .int c => [c]
  | .real c => [c]
  | .ptr => [0x70]
  | .str => [0x73]
  | .chr => [0x63]
  | .set invert cs => 0x5B :: ((if invert then [0x5E] else []) ++ (cs.flatMap elemText ++ [0x5D]))
  | .count => [0x6E]

/-- A character is in the set. -/
def InSet (invert : Bool) (cs : List (UInt8 × Option UInt8)) (x : UInt8) : Prop :=
  (∃ p ∈ cs, p.1 ≤ x ∧ x ≤ p.2.getD p.1) ↔ invert = false

/-- A conversion. -/
structure Conv where
  ignore : Bool
  width : Option Nat
  len : Len
  what : What
deriving DecidableEq

/-- A part of a format. -/
inductive Item where
  | space
  | lit (c : UInt8)
  | percent
  | conv (c : Conv)
deriving DecidableEq

/-- How it is written. -/
def Item.text : Item → List UInt8
  | .space => [0x20]
  | .lit c => [c]
  | .percent => [0x25, 0x25]
  | .conv c => 0x25 :: ((if c.ignore then [0x2A] else []) ++ ((match c.width with | none => [] | some w => decText w) ++ (c.len.text ++ c.what.text)))

/-- The format. -/
def format (is : List Item) : List UInt8 := is.flatMap Item.text

/-- An element of a set is not confused with the punctuation. -/
def ElemOk (p : UInt8 × Option UInt8) : Prop :=
  p.1 ≠ 0x5D ∧ p.1 ≠ 0x2D ∧ ∀ b ∈ p.2, b ≠ 0x5D ∧ p.1 ≤ b

/-- The conversion may be written so; the length modifiers only where they are honoured. -/
def Conv.Valid (c : Conv) : Prop :=
  (∀ w ∈ c.width, w < 2 ^ 64) ∧
  match c.what with
  | .int d => d ∈ [0x64, 0x69, 0x6F, 0x75, 0x78, 0x58]
  | .real d => d ∈ [0x66, 0x65, 0x67, 0x45, 0x61] ∧ (c.len = .none ∨ c.len = .l)
  | .set invert cs => c.len = .none ∧ cs ≠ [] ∧ (∀ p ∈ cs, ElemOk p) ∧ (invert = false → (cs.head?.map Prod.fst) ≠ some 0x5E)
  | _ => c.len = .none

/-- A part of a format may be written so. -/
def Item.Valid : Item → Prop
  | .lit c => c ≠ 0x20 ∧ c ≠ 0x25
  | .conv c => c.Valid
  | _ => True

/-- Whether an argument belongs to it, and which conversion that is. -/
def Item.assigns : Item → Option Conv
  | .conv c => if c.ignore then none else some c
  | _ => none

/-- What may be stored for a conversion: an object of the type which the conversion stands for, and of a string no more characters than the width. -/
def Conv.Stores (c : Conv) (o : Out) : Prop :=
  match c.what with
  | .int d => ∃ v : Int, o = .int c.len.bits v ∧
      if d = 0x64 ∨ d = 0x69 ∨ c.len = .t then -2 ^ (c.len.bits - 1) ≤ v ∧ v < 2 ^ (c.len.bits - 1) else 0 ≤ v ∧ v < 2 ^ c.len.bits
  | .real _ => ∃ t, o = .real (c.len = .l) t
  | .ptr => ∃ v, o = .ptr v ∧ v < 2 ^ 64
  | .str => ∃ l, o = .str l ∧ ∀ w ∈ c.width, l.length ≤ w
  | .chr => ∃ l, o = .chars l ∧ l.length ≤ c.width.getD 1
  | .set invert cs => ∃ l, o = .str l ∧ l ≠ [] ∧ (∀ x ∈ l, InSet invert cs x) ∧ ∀ w ∈ c.width, l.length ≤ w
  | .count => ∃ v : Int, o = .int 32 v

/-! ## Parsing of formats -/

/-- The kind for a modifier. -/
def Len.kind : Len → Kind
  | .none => .int
  | .hh => .byte
  | .h => .short
  | .l => .long
  | .ll => .longLong
  | .j => .intMax
  | .z => .size
  | .t => .ptrDiff

/-- The character of a conversion. -/
def What.char : What → UInt8
  | .int c => c
  | .real c => c
  | .ptr => 0x70
  | .str => 0x73
  | .chr => 0x63
  | .set _ _ => 0x5B
  | .count => 0x6E

/-- The list of characters built for a set. -/
def elemList : UInt8 × Option UInt8 → List UInt8
  | (a, none) => [a]
  | (a, some b) => a :: (between a b ++ [b])

/-- The set. -/
def What.sets : What → Option (Bool × List UInt8)
  | .set invert cs => some (invert, cs.flatMap elemList)
  | _ => none

/-- The part of the format as the code sees it. -/
def Item.dir : Item → Dir
  | .space => .space
  | .lit c => .lit c
  | .percent => .conv false none .int 0x25 none
  | .conv c => .conv c.ignore c.width c.len.kind c.what.char c.what.sets

theorem decText_spec (n : Nat) : decText n ≠ [] ∧ (∀ b ∈ decText n, isDigit b = true) ∧ decimal (decText n) = n := by
  have hd : ∀ k, k < 10 → isDigit (UInt8.ofNat (48 + k)) = true ∧ (UInt8.ofNat (48 + k)).toNat - 0x30 = k := by decide
  induction n using Nat.strongRecOn with
  | ind n ih =>
    unfold decText
    by_cases h : n < 10
    · rw [if_pos h]
      refine ⟨by simp, fun b hb => ?_, ?_⟩
      · rw [List.mem_singleton.1 hb]
        exact (hd n h).1
      · simp only [decimal, List.foldl_cons, List.foldl_nil, (hd n h).2]
        omega
    · rw [if_neg h]
      obtain ⟨h1, h2, h3⟩ := ih (n / 10) (by omega)
      obtain ⟨h4, h5⟩ := hd (n % 10) (by omega)
      refine ⟨by simp, fun b hb => ?_, ?_⟩
      · rcases List.mem_append.1 hb with hb | hb
        · exact h2 b hb
        · rw [List.mem_singleton.1 hb]
          exact h4
      · unfold decimal at h3 ⊢
        rw [List.foldl_append, h3]
        simp only [List.foldl_cons, List.foldl_nil, h5]
        omega

theorem takeWhile_digits {l f : List UInt8} (hl : ∀ b ∈ l, isDigit b = true) (hf : isDigit (f.headD 0) = false) :
    (l ++ f).takeWhile isDigit = l ∧ (l ++ f).dropWhile isDigit = f := by
  induction l with
  | nil =>
    cases f with
    | nil => simp
    | cons a f => simp [List.takeWhile_cons, List.dropWhile_cons] at hf ⊢; simp [hf]
  | cons a l ih =>
    have := hl a (List.mem_cons_self ..)
    obtain ⟨h1, h2⟩ := ih (fun b hb => hl b (List.mem_cons_of_mem _ hb))
    rw [List.cons_append, List.takeWhile_cons, List.dropWhile_cons, if_pos this, if_pos this, h1, h2]
    exact ⟨rfl, rfl⟩

/-- No modifier and no digit. -/
def NoMod (c : UInt8) : Prop := c ≠ 0x68 ∧ c ≠ 0x6A ∧ c ≠ 0x6C ∧ c ≠ 0x71 ∧ c ≠ 0x4C ∧ c ≠ 0x74 ∧ c ≠ 0x7A

instance (c : UInt8) : Decidable (NoMod c) := by unfold NoMod; infer_instance

theorem modifiers_text (len : Len) {c : UInt8} (hc : NoMod c) (f : List UInt8) :
    modifiers .int (len.text ++ c :: f) = (len.kind, c :: f) := by
  have h : ∀ k, modifiers k (c :: f) = (k, c :: f) := by
    intro k
    obtain ⟨h1, h2, h3, h4, h5, h6, h7⟩ := hc
    unfold modifiers
    rw [if_neg h1, if_neg h2, if_neg h3, if_neg (not_or.2 ⟨h4, h5⟩), if_neg h6, if_neg h7]
  cases len <;> simp [Len.text, Len.kind, modifiers] <;> exact h _

theorem set_end (acc : List UInt8) (c : UInt8) (f : List UInt8) : setLoop acc c (0x5D :: f) = some (acc ++ [c], f) := by
  rw [setLoop.eq_def]
  rfl

theorem set_plain (acc : List UInt8) (c : UInt8) {d : UInt8} (h1 : d ≠ 0x2D) (h2 : d ≠ 0x5D) (f : List UInt8) :
    setLoop acc c (d :: f) = setLoop (acc ++ [c]) d f := by
  rw [setLoop.eq_def]
  dsimp only
  rw [if_neg h1, if_neg h2]

theorem set_range (acc : List UInt8) {c e : UInt8} (h1 : c ≠ 0x5D) (h2 : e ≠ 0x5D) (f : List UInt8) :
    setLoop acc c (0x2D :: e :: f) = setLoop (acc ++ [c] ++ between c e) e f := by
  rw [setLoop.eq_def]
  dsimp only
  rw [if_pos rfl, if_neg h1, if_neg h2]

theorem setLoop_elems {cs : List (UInt8 × Option UInt8)} (hcs : ∀ p ∈ cs, ElemOk p) (acc : List UInt8) {c : UInt8} (hc : c ≠ 0x5D) (f : List UInt8) :
    setLoop acc c (cs.flatMap elemText ++ 0x5D :: f) = some (acc ++ (c :: cs.flatMap elemList), f) := by
  induction cs generalizing acc c with
  | nil => exact set_end acc c f
  | cons p cs ih =>
    obtain ⟨a, b⟩ := p
    obtain ⟨h1, h2, h3⟩ := hcs _ (List.mem_cons_self ..)
    have hcs' := fun p hp => hcs p (List.mem_cons_of_mem _ hp)
    simp only at h1 h2 h3
    cases b with
    | none =>
      simp only [List.flatMap_cons, elemText, elemList, List.cons_append, List.nil_append]
      rw [set_plain _ _ h2 h1, ih hcs' _ h1]
      simp
    | some b =>
      obtain ⟨h4, h5⟩ := h3 b rfl
      simp only [List.flatMap_cons, elemText, elemList, List.cons_append, List.nil_append]
      rw [set_plain _ _ h2 h1, set_range _ h1 h4, ih hcs' _ h4]
      simp

theorem parseSet_text {invert : Bool} {cs : List (UInt8 × Option UInt8)} (hne : cs ≠ []) (hcs : ∀ p ∈ cs, ElemOk p)
    (hi : invert = false → (cs.head?.map Prod.fst) ≠ some 0x5E) (f : List UInt8) :
    parseSet ((if invert then [0x5E] else []) ++ (cs.flatMap elemText ++ 0x5D :: f)) = some ((invert, cs.flatMap elemList), f) := by
  cases cs with
  | nil => exact absurd rfl hne
  | cons p cs =>
    obtain ⟨a, b⟩ := p
    obtain ⟨h1, h2, h3⟩ := hcs _ (List.mem_cons_self ..)
    have hcs' := fun p hp => hcs p (List.mem_cons_of_mem _ hp)
    simp only at h1 h2 h3
    have key : ∃ g, (List.flatMap elemText ((a, b) :: cs) ++ 0x5D :: f) = a :: g ∧
        setLoop [] a g = some (List.flatMap elemList ((a, b) :: cs), f) := by
      cases b with
      | none =>
        refine ⟨cs.flatMap elemText ++ 0x5D :: f, by simp [elemText], ?_⟩
        rw [setLoop_elems hcs' _ h1]
        simp [elemList]
      | some b =>
        obtain ⟨h4, h5⟩ := h3 b rfl
        refine ⟨0x2D :: b :: (cs.flatMap elemText ++ 0x5D :: f), by simp [elemText], ?_⟩
        rw [set_range _ h1 h4, setLoop_elems hcs' _ h4]
        simp [elemList]
    obtain ⟨g, hg, hs⟩ := key
    rw [hg]
    cases invert with
    | true =>
      rw [if_pos rfl]
      simp only [List.cons_append, List.nil_append, parseSet, if_true, hs, Option.map_some]
    | false =>
      have ha : a ≠ 0x5E := by
        intro h
        exact hi rfl (by rw [h]; rfl)
      rw [if_neg (by simp)]
      simp only [List.nil_append, parseSet, ha, if_false, hs, Option.map_some]

theorem what_head {c : Conv} (hv : c.Valid) (f : List UInt8) : ∃ t, c.what.text ++ f = c.what.char :: t ∧ NoMod c.what.char ∧
    isDigit c.what.char = false ∧ c.what.char ≠ 0x2A ∧
    ((c.what.sets = none ∧ c.what.char ≠ 0x5B ∧ t = f) ∨ (∃ s, c.what.sets = some s ∧ c.what.char = 0x5B ∧ parseSet t = some (s, f))) := by
  have h2 := hv.2
  cases hw : c.what with
  | int d =>
    rw [hw] at h2
    simp only [List.mem_cons, List.not_mem_nil, or_false] at h2
    refine ⟨f, rfl, ?_, ?_, ?_, .inl ⟨rfl, ?_, rfl⟩⟩ <;> unfold What.char <;> rcases h2 with h | h | h | h | h | h <;> rw [h] <;> decide
  | real d =>
    rw [hw] at h2
    simp only [List.mem_cons, List.not_mem_nil, or_false] at h2
    refine ⟨f, rfl, ?_, ?_, ?_, .inl ⟨rfl, ?_, rfl⟩⟩ <;> unfold What.char <;> rcases h2.1 with h | h | h | h | h <;> rw [h] <;> decide
  | set invert cs =>
    rw [hw] at h2
    obtain ⟨-, h3, h4, h5⟩ := h2
    refine ⟨(if invert then [0x5E] else []) ++ (cs.flatMap elemText ++ 0x5D :: f), by simp [What.text, What.char],
      (by decide : NoMod 0x5B), (by decide : isDigit 0x5B = false), (by decide : (0x5B : UInt8) ≠ 0x2A), .inr ⟨_, rfl, rfl, ?_⟩⟩
    exact parseSet_text h3 h4 h5 f
  | ptr => exact ⟨f, rfl, by decide, by decide, by decide, .inl ⟨rfl, by decide, rfl⟩⟩
  | str => exact ⟨f, rfl, by decide, by decide, by decide, .inl ⟨rfl, by decide, rfl⟩⟩
  | chr => exact ⟨f, rfl, by decide, by decide, by decide, .inl ⟨rfl, by decide, rfl⟩⟩
  | count => exact ⟨f, rfl, by decide, by decide, by decide, .inl ⟨rfl, by decide, rfl⟩⟩

theorem len_head (len : Len) {c : UInt8} (hc : isDigit c = false) (h : c ≠ 0x2A) (t : List UInt8) :
    isDigit ((len.text ++ c :: t).headD 0) = false ∧ (len.text ++ c :: t).headD 0 ≠ 0x2A := by
  cases len <;> first | exact ⟨hc, h⟩ | exact ⟨rfl, by show (_ : UInt8) ≠ _; simp [Len.text]⟩

/-- The code understands the format. -/
theorem parse_item {it : Item} (hv : it.Valid) (f : List UInt8) : ∃ c g, it.text ++ f = c :: g ∧ parseDir c g = (it.dir, f) := by
  cases it with
  | space => exact ⟨0x20, f, rfl, rfl⟩
  | lit c =>
    refine ⟨c, f, rfl, ?_⟩
    unfold parseDir
    rw [if_neg hv.1, if_pos hv.2]
    rfl
  | percent => exact ⟨0x25, 0x25 :: f, rfl, by simp [parseDir, isDigit, decimal, modifiers, Item.dir]⟩
  | conv c =>
    obtain ⟨t, h1, h2, h3, h4, h5⟩ := what_head hv f
    have hw := hv.1
    refine ⟨0x25, _, rfl, ?_⟩
    rw [List.append_eq, List.append_assoc, List.append_assoc, List.append_assoc, h1]
    obtain ⟨l1, l2⟩ := len_head c.len h3 h4 t
    have hm := modifiers_text c.len h2 t
    generalize c.len.text ++ c.what.char :: t = u at l1 l2 hm ⊢
    -- the width
    obtain ⟨wt, hwt, hdig, hdec, hwn⟩ : ∃ wt, (match c.width with | none => [] | some w => decText w) = wt ∧ (∀ b ∈ wt, isDigit b = true) ∧
        decimal wt < 2 ^ 64 ∧ (if wt = [] then none else some (decimal wt)) = c.width := by
      cases hcw : c.width with
      | none => exact ⟨[], rfl, nofun, by decide, rfl⟩
      | some w =>
        obtain ⟨d1, d2, d3⟩ := decText_spec w
        exact ⟨_, rfl, d2, by rw [d3]; exact hw w hcw, by rw [if_neg d1, d3]⟩
    rw [hwt]
    obtain ⟨e1, e2⟩ := takeWhile_digits hdig l1
    have hhead : (wt ++ u).headD 0 ≠ 0x2A := by
      cases wt with
      | nil => exact l2
      | cons a wt =>
        intro h
        have := hdig a (List.mem_cons_self ..)
        simp only [List.cons_append, List.headD_cons] at h
        rw [h] at this
        exact absurd this (by decide)
    have hstar : (((if c.ignore then [0x2A] else []) ++ (wt ++ u)).headD 0 == 0x2A) = c.ignore ∧
        (if c.ignore then ((if c.ignore then [0x2A] else []) ++ (wt ++ u)).tail else ((if c.ignore then [0x2A] else []) ++ (wt ++ u))) = wt ++ u := by
      cases c.ignore with
      | true => exact ⟨rfl, rfl⟩
      | false =>
        refine ⟨?_, rfl⟩
        simp only [Bool.false_eq_true, if_false, List.nil_append]
        simpa using hhead
    unfold parseDir
    rw [if_neg (by decide), if_neg (by decide)]
    simp only [hstar.1, hstar.2, e1, e2]
    rw [if_neg (by omega)]
    simp only [hm, hwn, List.headD_cons, List.tail_cons]
    rcases h5 with ⟨h6, h7, h8⟩ | ⟨s, h6, h7, h8⟩
    · rw [if_neg h7, h8]
      simp only [Item.dir, h6]
    · rw [if_pos h7, h8]
      simp only [Item.dir, h6]

/-- The run over the parts of the format. -/
def execAll (parses : Bool → List UInt8 → Bool) (s : St) : List Item → Option (Int × List (Nat × Out))
  | [] => some (s.matched, s.out)
  | it :: is =>
    match exec parses s it.dir with
    | none => none
    | some (.error e) => some e
    | some (.ok s) => execAll parses s is

theorem run_format (parses : Bool → List UInt8 → Bool) {is : List Item} (hv : ∀ it ∈ is, it.Valid) (s : St) :
    run parses s (format is) = execAll parses s is := by
  induction is generalizing s with
  | nil => unfold format; simp [run, execAll]
  | cons it is ih =>
    obtain ⟨c, g, h1, h2⟩ := parse_item (hv it (List.mem_cons_self ..)) (format is)
    have : format (it :: is) = c :: g := by rw [← h1]; simp [format]
    rw [this, run, h2, execAll]
    cases exec parses s it.dir with
    | none => rfl
    | some r =>
      cases r with
      | error e => rfl
      | ok s => exact ih (fun i hi => hv i (List.mem_cons_of_mem _ hi)) s

/-! ## Nothing is stored but by the conversions -/

/-- Nothing has been stored. -/
def Same (s t : St) : Prop := t.out = s.out ∧ t.arg = s.arg ∧ t.matched = s.matched

theorem Same.refl (s : St) : Same s s := ⟨rfl, rfl, rfl⟩

theorem Same.trans {a b c : St} (h : Same a b) (k : Same b c) : Same a c := ⟨k.1.trans h.1, k.2.1.trans h.2.1, k.2.2.trans h.2.2⟩

/-- Nothing has been stored, and if the function returns, then one of these values. -/
def Quiet {α : Type} (f : α → St) (s : St) (r : Run α) : Prop :=
  match r with
  | .ok a => Same s (f a)
  | .error e => e.2 = s.out ∧ (e.1 = -1 ∨ e.1 = 0 ∨ e.1 = s.matched)

theorem Quiet.of {α : Type} {f : α → St} {s t : St} {r : Run α} (h : Same s t) (k : Quiet f t r) : Quiet f s r := by
  unfold Quiet at *
  split
  · exact h.trans k
  · simp only at k
    rw [← h.1, ← h.2.2]
    exact k

theorem quiet_ret {α : Type} {f : α → St} {s : St} {v : Int} (h : v = -1 ∨ v = 0 ∨ v = s.matched) : Quiet f s (ret s v) := ⟨rfl, h⟩

theorem read_same {s t : St} (h : s.read = some t) : Same s t := by
  unfold St.read at h
  split at h
  · cases h
  · injection h with h
    subst h
    exact ⟨rfl, rfl, rfl⟩

theorem maybeRead_quiet (s : St) : Quiet id s s.maybeRead := by
  unfold St.maybeRead
  split
  · exact Same.refl s
  · split
    · split
      · exact quiet_ret (.inl rfl)
      · exact quiet_ret (.inr (.inr rfl))
    · rename_i h
      exact read_same h

theorem skipWs_quiet (s : St) : Quiet id s s.skipWs := by
  fun_induction St.skipWs s with
  | case1 s h hr => exact quiet_ret (.inr (.inr rfl))
  | case2 s h t hr ih => exact Quiet.of (read_same hr) ih
  | case3 s h => exact Same.refl s

theorem number_quiet (s : St) (float auto pointer dot : Bool) (radix : Nat) (width : Option Nat) (n : List UInt8) :
    Quiet (fun a => a.2.2.2) s (s.number float auto pointer dot radix width n) := by
  fun_induction St.number s float auto pointer dot radix width n with
  | case1 => exact Same.refl _
  | case2 => rename_i h1 _ _ h2; exact Quiet.of (read_same (by assumption)) (quiet_ret (.inr (.inr rfl)))
  | case3 => rename_i ih; exact Quiet.of ((read_same (by assumption)).trans (read_same (by assumption))) ih
  | case4 => exact (read_same (by assumption))
  | case5 => rename_i ih; exact Quiet.of (read_same (by assumption)) ih
  | case6 => exact Same.refl _
  | case7 => rename_i ih; exact Quiet.of (read_same (by assumption)) ih
  | case8 => exact Same.refl _
  | case9 => exact Same.refl _

theorem text_spec (s : St) (ok : UInt8 → Bool) (width : Option Nat) (l : List UInt8) :
    Same s (s.text ok width l).2.2.2 ∧ ∃ t, (s.text ok width l).1 = l ++ t ∧ (∀ x ∈ t, ok x = true) ∧ ∀ w ∈ width, t.length ≤ w := by
  fun_induction St.text s ok width l with
  | case1 s width l h l' width' h2 hr =>
    rw [Bool.and_eq_true] at h
    refine ⟨Same.refl _, [s.ch], rfl, by simpa using h.2, fun w hw => ?_⟩
    cases hw
    have : 0 < w := by simpa [more] using h.1
    simp; omega
  | case2 s width l h l' width' h2 t hr ih =>
    rw [Bool.and_eq_true] at h
    obtain ⟨i1, u, i2, i3, i4⟩ := ih
    refine ⟨(read_same hr).trans i1, s.ch :: u, by rw [i2]; simp [l'], ?_, fun w hw => ?_⟩
    · intro x hx
      rcases List.mem_cons.1 hx with rfl | hx
      · exact h.2
      · exact i3 x hx
    · cases hw
      have h0 : 0 < w := by simpa [more] using h.1
      have := i4 (w - 1) rfl
      simp only [List.length_cons]
      omega
  | case3 s width l h l' width' h2 =>
    rw [Bool.and_eq_true] at h
    refine ⟨Same.refl _, [s.ch], rfl, by simpa using h.2, fun w hw => ?_⟩
    cases hw
    have : 0 < w := by simpa [more] using h.1
    simp; omega
  | case4 s width l h => exact ⟨Same.refl _, [], by simp, nofun, fun _ _ => Nat.zero_le _⟩

theorem chars_spec (s : St) (width : Option Nat) (l : List UInt8) (k : Nat) :
    Same s (s.chars width l k).2.2.2 ∧ (s.chars width l k).1.length ≤ l.length + k := by
  induction k generalizing s width l with
  | zero => exact ⟨Same.refl _, Nat.le_refl _⟩
  | succ k ih =>
    unfold St.chars
    dsimp only
    split
    · split
      · exact ⟨Same.refl _, by simp⟩
      · rename_i t hr
        obtain ⟨h1, h2⟩ := ih t (dec width) (l ++ [s.ch])
        refine ⟨(read_same hr).trans h1, ?_⟩
        rw [List.length_append, List.length_singleton] at h2
        omega
    · obtain ⟨h1, h2⟩ := ih s (dec width) (l ++ [s.ch])
      refine ⟨h1, ?_⟩
      rw [List.length_append, List.length_singleton] at h2
      omega

/-- What one part of the format does: at most one object is stored. -/
def Emits (it : Item) (arg : Nat) (new : List (Nat × Out)) : Prop :=
  new = [] ∨ ∃ c o, it.assigns = some c ∧ new = [(arg, o)] ∧ c.Stores o

/-- The effect of one part of the format. -/
def Effect (it : Item) (s : St) (r : Run St) : Prop :=
  ∃ new, Emits it s.arg new ∧
  match r with
  | .ok t => t.out = s.out ++ new ∧ t.arg = s.arg + (if it.assigns.isSome then 1 else 0) ∧ s.matched ≤ t.matched ∧ t.matched ≤ s.matched + new.length
  | .error e => e.2 = s.out ++ new ∧ (e.1 = -1 ∨ e.1 = 0 ∨ s.matched ≤ e.1) ∧ e.1 ≤ max 0 (s.matched + new.length)

theorem effect_quiet {it : Item} {s : St} {r : Run St} (h : Quiet id s r) (ha : it.assigns = none) : Effect it s r := by
  refine ⟨[], .inl rfl, ?_⟩
  cases r with
  | ok t =>
    obtain ⟨h1, h2, h3⟩ := h
    simp only [id] at h1 h2 h3
    simp [h1, h2, h3, ha]
  | error e =>
    obtain ⟨h1, h2⟩ := h
    simp only [List.append_nil, h1, List.length_nil, Int.ofNat_zero, true_and]
    constructor
    · rcases h2 with h | h | h
      · exact .inl h
      · exact .inr (.inl h)
      · exact .inr (.inr (by omega))
    · omega

theorem effect_error {it : Item} {s : St} {e : Int × List (Nat × Out)} (h : Quiet id s (.error e)) : Effect it s (.error e) := by
  refine ⟨[], .inl rfl, ?_⟩
  obtain ⟨h1, h2⟩ := h
  simp only [List.append_nil, h1, List.length_nil, Int.ofNat_zero, true_and]
  constructor
  · rcases h2 with h | h | h
    · exact .inl h
    · exact .inr (.inl h)
    · exact .inr (.inr (by omega))
  · omega

theorem effect_of {it : Item} {s t : St} {r : Run St} (h : Same s t) (k : Effect it t r) : Effect it s r := by
  obtain ⟨h1, h2, h3⟩ := h
  unfold Effect at *
  rw [h1, h2, h3] at k
  exact k

/-- A conversion that stores its object, then `finish`. -/
theorem effect_store {c : Conv} {s : St} {o : Out} (ho : c.Stores o) (eof : Bool) (width : Option Nat) (d : UInt8) :
    Effect (.conv c) s (finish (s.store c.ignore o) eof width d) := by
  unfold Effect finish St.store
  cases hi : c.ignore with
  | true =>
    refine ⟨[], .inl rfl, ?_⟩
    cases eof with
    | true => simp [ret]; omega
    | false =>
      simp only [Bool.false_eq_true, if_false, if_true]
      split <;> simp [Item.assigns, hi]
  | false =>
    refine ⟨[(s.arg, o)], .inr ⟨c, o, by simp [Item.assigns, hi], rfl, ho⟩, ?_⟩
    cases eof with
    | true => simp [ret]; omega
    | false =>
      simp only [Bool.false_eq_true, if_false]
      split <;> simp [Item.assigns, hi] <;> omega

theorem maybeRead_cases {it : Item} {s : St} {f : St → Option (Run St)} (hf : ∀ t, Same s t → ∃ r, f t = some r ∧ Effect it s r) :
    ∃ r, (match s.maybeRead with | .error e => some (.error e) | .ok s => f s) = some r ∧ Effect it s r := by
  have := maybeRead_quiet s
  cases h : s.maybeRead with
  | error e => rw [h] at this; exact ⟨_, rfl, effect_error this⟩
  | ok t => rw [h] at this; exact hf t this

theorem bind_cases {α : Type} {g : α → St} {it : Item} {s : St} {m : Run α} (hm : Quiet g s m) {f : α → Run St}
    (hf : ∀ a, m = .ok a → Same s (g a) → Effect it s (f a)) : Effect it s (m >>= f) := by
  cases h : m with
  | error e => rw [h] at hm; exact effect_error hm
  | ok a => rw [h] at hm; exact hf a h hm

theorem mem_between (a b x : UInt8) : x ∈ between a b ↔ a < x ∧ x < b := by
  unfold between
  rw [List.mem_map]
  constructor
  · rintro ⟨n, hn, rfl⟩
    obtain ⟨i, hi, rfl⟩ := List.mem_range'.1 hn
    have := b.toNat_lt
    rw [UInt8.lt_iff_toNat_lt, UInt8.lt_iff_toNat_lt, UInt8.toNat_ofNat']
    omega
  · rintro ⟨h1, h2⟩
    rw [UInt8.lt_iff_toNat_lt] at h1 h2
    refine ⟨x.toNat, List.mem_range'.2 ⟨x.toNat - (a.toNat + 1), by omega, by omega⟩, by simp⟩

theorem mem_elemList {p : UInt8 × Option UInt8} (hp : ∀ b ∈ p.2, p.1 ≤ b) (x : UInt8) : x ∈ elemList p ↔ p.1 ≤ x ∧ x ≤ p.2.getD p.1 := by
  obtain ⟨a, b⟩ := p
  cases b with
  | none =>
    simp only [elemList, List.mem_singleton, Option.getD_none, UInt8.le_iff_toNat_le, ← UInt8.toNat_inj]
    omega
  | some b =>
    have := hp b rfl
    simp only [elemList, List.mem_cons, List.mem_append, List.not_mem_nil, Option.getD_some, mem_between, or_false]
    simp only [UInt8.le_iff_toNat_le, ← UInt8.toNat_inj, UInt8.lt_iff_toNat_lt] at this ⊢
    omega

theorem inSet_iff {invert : Bool} {cs : List (UInt8 × Option UInt8)} (h : ∀ p ∈ cs, ElemOk p) (x : UInt8) :
    (invert != (cs.flatMap elemList).contains x) = true ↔ InSet invert cs x := by
  have : (cs.flatMap elemList).contains x = true ↔ ∃ p ∈ cs, p.1 ≤ x ∧ x ≤ p.2.getD p.1 := by
    rw [List.contains_iff_mem, List.mem_flatMap]
    constructor
    · rintro ⟨p, hp, hx⟩
      exact ⟨p, hp, (mem_elemList (fun b hb => ((h p hp).2.2 b hb).2) x).1 hx⟩
    · rintro ⟨p, hp, hx⟩
      exact ⟨p, hp, (mem_elemList (fun b hb => ((h p hp).2.2 b hb).2) x).2 hx⟩
  unfold InSet
  rw [← this]
  cases invert <;> cases (cs.flatMap elemList).contains x <;> decide

theorem conv_number (parses : Bool → List UInt8 → Bool) (s : St) (ignore : Bool) (width : Option Nat) (kind : Kind) {c : UInt8} (set : Option (Bool × List UInt8))
    (hc : c ∈ [0x64, 0x69, 0x6F, 0x75, 0x78, 0x58, 0x66, 0x65, 0x67, 0x45, 0x61, 0x70]) :
    execConv parses s ignore width kind c set = match s.maybeRead with
      | .error e => some (.error e)
      | .ok s => some (execNumber parses s ignore width kind c >>= fun r => finish r.2 false r.1 c) := by
  have h1 : c ≠ 0x6E ∧ c ≠ 0x25 := by revert hc; revert c; decide +kernel
  simp only [execConv, ne_eq, h1.1, not_false_eq_true, if_true, h1.2, if_false, if_pos hc]
  rfl

theorem conv_str (parses : Bool → List UInt8 → Bool) (s : St) (ignore : Bool) (width : Option Nat) (kind : Kind) (set : Option (Bool × List UInt8)) :
    execConv parses s ignore width kind 0x73 set = match s.maybeRead with
      | .error e => some (.error e)
      | .ok s => some (s.skipWs >>= fun s =>
        let r := s.text (fun b => !isWs b) width []
        let s := if r.2.1 = some 0 then r.2.2.2.read.getD r.2.2.2 else r.2.2.2
        finish (s.store ignore (.str r.1)) r.2.2.1 r.2.1 0x73) := rfl

theorem conv_chr (parses : Bool → List UInt8 → Bool) (s : St) (ignore : Bool) (width : Option Nat) (kind : Kind) (set : Option (Bool × List UInt8)) :
    execConv parses s ignore width kind 0x63 set = match s.maybeRead with
      | .error e => some (.error e)
      | .ok s => some (
        let r := s.chars width [] (width.getD 1)
        finish (r.2.2.2.store ignore (.chars r.1)) r.2.2.1 r.2.1 0x63) := rfl

theorem conv_set (parses : Bool → List UInt8 → Bool) (s : St) (ignore : Bool) (width : Option Nat) (kind : Kind) (invert : Bool) (cs : List UInt8) :
    execConv parses s ignore width kind 0x5B (some (invert, cs)) = match s.maybeRead with
      | .error e => some (.error e)
      | .ok s => some (
        let r := s.text (fun b => invert != cs.contains b) width []
        finish (if ignore then r.2.2.2 else if r.1 = [] then { r.2.2.2 with arg := r.2.2.2.arg + 1 } else r.2.2.2.store false (.str r.1)) r.2.2.1 r.2.1 0x5B) := rfl

theorem conv_count (parses : Bool → List UInt8 → Bool) (s : St) (ignore : Bool) (width : Option Nat) (kind : Kind) (set : Option (Bool × List UInt8)) :
    execConv parses s ignore width kind 0x6E set = some (finish (if ignore then s else { s with
      out := s.out ++ [(s.arg, .int 32 (BitVec.ofNat 32 s.count).toInt)]
      arg := s.arg + 1 }) false width 0x6E) := rfl

theorem number_effect {parses : Bool → List UInt8 → Bool} {c : Conv} (hv : c.Valid) (hw : (∃ d, c.what = .int d) ∨ (∃ d, c.what = .real d) ∨ c.what = .ptr)
    (s : St) : Effect (.conv c) s (execNumber parses s c.ignore c.width c.len.kind c.what.char >>= fun r => finish r.2 false r.1 c.what.char) := by
  unfold execNumber
  simp only [bind_assoc]
  refine bind_cases (skipWs_quiet s) fun t _ h1 => ?_
  refine bind_cases (Quiet.of h1 (number_quiet t _ _ _ _ _ _ _)) fun a _ h2 => ?_
  obtain ⟨radix, width, n, u⟩ := a
  dsimp only at h2 ⊢
  refine effect_of h2 ?_
  obtain ⟨hv1, hv2⟩ := hv
  rcases hw with ⟨d, hd⟩ | ⟨d, hd⟩ | hd
  · rw [hd] at hv2
    simp only at hv2
    rw [show c.what.char = d by rw [hd]; rfl]
    have e1 : ¬(d == 102 || d == 101 || d == 103 || d == 69 || d == 97) = true := by clear hd; revert hv2; revert d; decide +kernel
    have e2 : ¬d = 112 := by clear hd e1; revert hv2; revert d; decide +kernel
    rw [if_neg e1, if_neg e2]
    generalize hu : ((d == 0x6F || d == 0x75 || d == 0x78 || d == 0x58) && c.len.kind != .ptrDiff) = un
    by_cases hlt : value radix n < 2 ^ (if un then c.len.kind.bits else c.len.kind.bits - 1)
    · rw [if_pos hlt]
      simp only [pure_bind]
      refine effect_store ?_ _ _ _
      unfold Conv.Stores
      rw [hd]
      dsimp only
      have hb : c.len.kind.bits = c.len.bits := by cases c.len <;> rfl
      rw [hb] at hlt ⊢
      refine ⟨_, rfl, ?_⟩
      have hc : un = false ↔ d = 0x64 ∨ d = 0x69 ∨ c.len = .t := by
        rw [← hu, Bool.and_eq_false_iff, show (c.len.kind != .ptrDiff) = false ↔ c.len = .t by cases c.len <;> decide, ← or_assoc]
        refine or_congr_left ?_
        clear hd hu e1 e2
        revert hv2
        revert d
        decide +kernel
      cases un with
      | false =>
        rw [if_pos (hc.1 rfl)]
        have h0 : (0 : Int) ≤ 2 ^ (c.len.bits - 1) := Int.pow_nonneg (by decide)
        exact ⟨by omega, by simpa using Int.ofNat_lt.2 hlt⟩
      | true =>
        rw [if_neg (fun h => by cases hc.2 h)]
        exact ⟨Int.natCast_nonneg _, by simpa using Int.ofNat_lt.2 hlt⟩
    · rw [if_neg hlt]
      exact effect_error (quiet_ret (.inr (.inl rfl)))
  · rw [hd] at hv2
    simp only at hv2
    rw [show c.what.char = d by rw [hd]; rfl]
    obtain ⟨hv2, hv3⟩ := hv2
    have e1 : (d == 102 || d == 101 || d == 103 || d == 69 || d == 97) = true := by clear hd; revert hv2; revert d; decide +kernel
    rw [if_pos e1]
    split
    · simp only [pure_bind]
      refine effect_store ?_ _ _ _
      unfold Conv.Stores
      rw [hd]
      refine ⟨n, ?_⟩
      rcases hv3 with h | h <;> rw [h] <;> simp [Len.kind]
    · exact effect_error (quiet_ret (.inr (.inl rfl)))
  · rw [show c.what.char = 0x70 by rw [hd]; rfl]
    rw [if_neg (by decide), if_pos rfl]
    split
    · rename_i hlt
      simp only [pure_bind]
      refine effect_store ?_ _ _ _
      unfold Conv.Stores
      rw [hd]
      exact ⟨_, rfl, hlt⟩
    · exact effect_error (quiet_ret (.inr (.inl rfl)))

theorem exec_effect {parses : Bool → List UInt8 → Bool} {it : Item} (hv : it.Valid) (s : St) : ∃ r, exec parses s it.dir = some r ∧ Effect it s r := by
  cases it with
  | space =>
    refine ⟨_, rfl, ?_⟩
    refine bind_cases (maybeRead_quiet s) fun t _ h1 => ?_
    refine bind_cases (Quiet.of h1 (skipWs_quiet t)) fun u _ h2 => ?_
    exact effect_quiet (r := .ok _) h2 rfl
  | lit c =>
    refine ⟨_, rfl, ?_⟩
    refine bind_cases (maybeRead_quiet s) fun t _ h1 => ?_
    dsimp only
    split
    · exact effect_quiet (Quiet.of h1 (quiet_ret (.inr (.inr rfl)))) rfl
    · exact effect_quiet (r := .ok _) h1 rfl
  | percent =>
    show ∃ r, execConv parses s false none .int 0x25 none = some r ∧ _
    unfold execConv
    rw [if_pos (by decide)]
    refine maybeRead_cases fun t h1 => ?_
    rw [if_pos rfl]
    refine ⟨_, rfl, effect_of h1 ?_⟩
    refine bind_cases (skipWs_quiet t) fun u _ h2 => ?_
    split
    · exact effect_quiet (Quiet.of h2 (quiet_ret (.inr (.inr rfl)))) rfl
    · split
      · exact effect_quiet (Quiet.of h2 (quiet_ret (.inr (.inr rfl)))) rfl
      · rename_i v hr
        exact effect_quiet (r := .ok _) ((h2.trans (read_same hr) : Same t v)) rfl
  | conv c =>
    show ∃ r, execConv parses s c.ignore c.width c.len.kind c.what.char c.what.sets = some r ∧ _
    have hval : c.Valid := hv
    obtain ⟨h1, h2⟩ := (hv : c.Valid)
    cases hw : c.what with
    | int d =>
      rw [hw] at h2
      simp only at h2
      simp only [What.char]
      rw [conv_number _ _ _ _ _ _ (by clear hw; revert h2; revert d; decide +kernel)]
      refine maybeRead_cases fun t k => ?_
      refine ⟨_, rfl, effect_of k ?_⟩
      have := number_effect (parses := parses) hval (.inl ⟨d, hw⟩) t
      rw [hw] at this
      exact this
    | real d =>
      rw [hw] at h2
      simp only at h2
      obtain ⟨h2, -⟩ := h2
      simp only [What.char]
      rw [conv_number _ _ _ _ _ _ (by clear hw; revert h2; revert d; decide +kernel)]
      refine maybeRead_cases fun t k => ?_
      refine ⟨_, rfl, effect_of k ?_⟩
      have := number_effect (parses := parses) hval (.inr (.inl ⟨d, hw⟩)) t
      rw [hw] at this
      exact this
    | ptr =>
      simp only [What.char]
      rw [conv_number _ _ _ _ _ _ (by decide)]
      refine maybeRead_cases fun t k => ?_
      refine ⟨_, rfl, effect_of k ?_⟩
      have := number_effect (parses := parses) hval (.inr (.inr hw)) t
      rw [hw] at this
      exact this
    | str =>
      simp only [What.char]
      rw [conv_str]
      refine maybeRead_cases fun t k => ?_
      refine ⟨_, rfl, effect_of k ?_⟩
      refine bind_cases (skipWs_quiet t) fun u _ h3 => ?_
      refine effect_of h3 ?_
      obtain ⟨h4, l, h5, h6, h7⟩ := text_spec u (fun b => !isWs b) c.width []
      generalize u.text (fun b => !isWs b) c.width [] = q at *
      obtain ⟨l', w', eof, v⟩ := q
      dsimp only at h4 h5 ⊢
      have h8 : Same v (if w' = some 0 then v.read.getD v else v) := by
        split
        · cases hr : v.read with
          | none => exact Same.refl v
          | some x => exact read_same hr
        · exact Same.refl v
      refine effect_of (h4.trans h8) (effect_store ?_ _ _ _)
      unfold Conv.Stores
      rw [hw]
      exact ⟨l', rfl, by rw [h5]; exact h7⟩
    | chr =>
      simp only [What.char]
      rw [conv_chr]
      refine maybeRead_cases fun t k => ?_
      refine ⟨_, rfl, effect_of k ?_⟩
      obtain ⟨h4, h5⟩ := chars_spec t c.width [] (c.width.getD 1)
      generalize t.chars c.width [] (c.width.getD 1) = q at *
      obtain ⟨l', w', eof, v⟩ := q
      dsimp only at h4 h5 ⊢
      refine effect_of h4 (effect_store ?_ _ _ _)
      unfold Conv.Stores
      rw [hw]
      exact ⟨l', rfl, by simpa using h5⟩
    | set invert cs =>
      rw [hw] at h2
      simp only at h2
      obtain ⟨-, -, h2, -⟩ := h2
      simp only [What.char, What.sets]
      rw [conv_set]
      refine maybeRead_cases fun t k => ?_
      refine ⟨_, rfl, effect_of k ?_⟩
      obtain ⟨h4, l, h5, h6, h7⟩ := text_spec t (fun b => invert != (cs.flatMap elemList).contains b) c.width []
      generalize t.text (fun b => invert != (cs.flatMap elemList).contains b) c.width [] = q at *
      obtain ⟨l', w', eof, v⟩ := q
      dsimp only at h4 h5 ⊢
      rw [List.nil_append] at h5
      subst h5
      refine effect_of h4 ?_
      by_cases hl : c.ignore = false ∧ l' = []
      · rw [hl.1, if_neg (by decide), if_pos hl.2]
        refine ⟨[], .inl rfl, ?_⟩
        unfold finish
        cases eof with
        | true => simp [ret]; omega
        | false =>
          simp only [Bool.false_eq_true, if_false]
          split <;> simp [Item.assigns, hl.1]
      · have h9 : (if c.ignore = true then v else if l' = [] then { v with arg := v.arg + 1 } else v.store false (.str l')) = v.store c.ignore (.str l') := by
          cases hi : c.ignore with
          | true => rfl
          | false => rw [if_neg (by decide), if_neg (fun h => hl ⟨hi, h⟩)]
        rw [h9]
        by_cases hi : c.ignore = true
        · rw [show v.store c.ignore (.str l') = v by unfold St.store; rw [if_pos hi]]
          refine ⟨[], .inl rfl, ?_⟩
          unfold finish
          cases eof with
          | true => simp [ret]; omega
          | false =>
            simp only [Bool.false_eq_true, if_false]
            split <;> simp [Item.assigns, hi]
        · refine effect_store ?_ _ _ _
          unfold Conv.Stores
          rw [hw]
          refine ⟨l', rfl, fun h => hl ⟨by simpa using hi, h⟩, fun x hx => (inSet_iff h2 x).1 (h6 x hx), h7⟩
    | count =>
      simp only [What.char]
      rw [conv_count]
      refine ⟨_, rfl, ?_⟩
      unfold finish
      rw [if_neg (by decide)]
      simp only [ne_eq, not_true_eq_false, and_false, if_false]
      cases hi : c.ignore with
      | true => exact ⟨[], .inl rfl, by simp [Item.assigns, hi]⟩
      | false =>
        refine ⟨[(s.arg, .int 32 (BitVec.ofNat 32 s.count).toInt)], .inr ⟨c, _, by simp [Item.assigns, hi], rfl, ?_⟩, ?_⟩
        · unfold Conv.Stores
          rw [hw]
          exact ⟨_, rfl⟩
        · simp [Item.assigns, hi]
          omega

/-- The conversions that store, in order: the arguments. -/
def args (is : List Item) : List Conv := is.filterMap Item.assigns

theorem execAll_effect {parses : Bool → List UInt8 → Bool} {is : List Item} (hv : ∀ it ∈ is, it.Valid) (s : St) (hm : 0 ≤ s.matched) :
    ∃ v new, execAll parses s is = some (v, s.out ++ new) ∧ -1 ≤ v ∧ v ≤ s.matched + (args is).length ∧
      (new.map Prod.fst).Pairwise (· < ·) ∧ (∀ p ∈ new, s.arg ≤ p.1 ∧ ∃ c, (args is)[p.1 - s.arg]? = some c ∧ c.Stores p.2) := by
  induction is generalizing s with
  | nil => exact ⟨s.matched, [], by simp [execAll], by omega, by simp [args], by simp, nofun⟩
  | cons it is ih =>
    obtain ⟨r, h1, new, h2, h3⟩ := exec_effect (parses := parses) (hv it (List.mem_cons_self ..)) s
    unfold execAll
    rw [h1]
    have ha : args (it :: is) = it.assigns.toList ++ args is := by
      unfold args
      cases h : it.assigns <;> simp [List.filterMap_cons, h]
    have hl : (new.length : Int) ≤ it.assigns.toList.length := by
      rcases h2 with rfl | ⟨c, o, h2, rfl, -⟩
      · simp
      · simp [h2]
    have hnew : ∀ p ∈ new, p.1 = s.arg ∧ ∃ c, (args (it :: is))[p.1 - s.arg]? = some c ∧ c.Stores p.2 := by
      rcases h2 with rfl | ⟨c, o, h2, rfl, h4⟩
      · nofun
      · intro p hp
        rw [List.mem_singleton.1 hp]
        exact ⟨rfl, c, by simp [ha, h2], h4⟩
    have hone : (new.map Prod.fst).Pairwise (· < ·) := by
      rcases h2 with rfl | ⟨c, o, h2, rfl, h4⟩ <;> simp
    have hsize : ((args (it :: is)).length : Int) = it.assigns.toList.length + (args is).length := by rw [ha]; simp
    cases r with
    | error e =>
      obtain ⟨h3, h4, h5⟩ := h3
      refine ⟨e.1, new, by rw [← h3], ?_, ?_, hone, fun p hp => ?_⟩
      · rcases h4 with h | h | h <;> omega
      · rw [hsize]
        omega
      · obtain ⟨h6, h7⟩ := hnew p hp
        exact ⟨by omega, h7⟩
    | ok t =>
      obtain ⟨h3, h4, h5, h6⟩ := h3
      obtain ⟨v, more, g1, g2, g3, g4, g5⟩ := ih (fun i hi => hv i (List.mem_cons_of_mem _ hi)) t (by omega)
      have hcount : (if it.assigns.isSome then 1 else 0) = it.assigns.toList.length := by cases it.assigns <;> rfl
      rw [hcount] at h4
      refine ⟨v, new ++ more, by simp only [g1, h3, List.append_assoc], g2, by rw [hsize]; omega, ?_, ?_⟩
      · rw [List.map_append, List.pairwise_append]
        refine ⟨hone, g4, ?_⟩
        intro a ha' b hb
        obtain ⟨p, hp, rfl⟩ := List.mem_map.1 ha'
        obtain ⟨q, hq, rfl⟩ := List.mem_map.1 hb
        obtain ⟨k1, -⟩ := hnew p hp
        obtain ⟨k2, -⟩ := g5 q hq
        have : 1 ≤ new.length := List.length_pos_of_mem hp
        omega
      · intro p hp
        rcases List.mem_append.1 hp with hp | hp
        · obtain ⟨h6, h7⟩ := hnew p hp
          exact ⟨by omega, h7⟩
        · obtain ⟨k1, c, k2, k3⟩ := g5 p hp
          refine ⟨by omega, c, ?_, k3⟩
          rw [ha, List.getElem?_append_right (by omega), ← k2]
          congr 1
          omega

/-! ## What is stored -/

/-- C78: whatever the input, `sscanf` returns; its value is between -1 and the number of the conversions that store something; what it stores through an
argument is of the type that the conversion for this argument asks for, a string is not longer than the width; and the arguments are served in order,
each at most once. -/
theorem C78_types (parses : Bool → List UInt8 → Bool) (is : List Item) (hv : ∀ it ∈ is, it.Valid) (input : List UInt8) :
    ∃ v out, sscanf parses input (format is) = some (v, out) ∧ -1 ≤ v ∧ v ≤ (is.filterMap Item.assigns).length ∧
      (out.map Prod.fst).Pairwise (· < ·) ∧ ∀ p ∈ out, ∃ c, (is.filterMap Item.assigns)[p.1]? = some c ∧ c.Stores p.2 := by
  obtain ⟨v, new, h1, h2, h3, h4, h5⟩ := execAll_effect (parses := parses) hv ⟨input, 0, false, 0, 0, 0, []⟩ (Int.le_refl 0)
  refine ⟨v, new, ?_, h2, by simpa [args] using h3, h4, fun p hp => ?_⟩
  · unfold sscanf
    rw [run_format parses hv, h1]
    rfl
  · obtain ⟨-, c, h6, h7⟩ := h5 p hp
    exact ⟨c, h6, h7⟩

/-- `%hd %*s %4s` on ` 12 ab cdefgh`: two objects, an integer of 16 bits and four characters. -/
example : sscanf (fun _ _ => true) [0x20, 0x31, 0x32, 0x20, 0x61, 0x62, 0x20, 0x63, 0x64, 0x65, 0x66, 0x67]
      (format [.conv ⟨false, none, .h, .int 0x64⟩, .space, .conv ⟨true, none, .none, .str⟩, .space, .conv ⟨false, some 4, .none, .str⟩])
    = some (2, [(0, .int 16 12), (1, .str [0x63, 0x64, 0x65, 0x66])]) := by decide +kernel

end Verif.Scanf
