import Verif.Stdlib.NumberSpec
/-!
# `sscanf`

`src/header/stdio/scanf.rs`, for narrow characters and input from a string (`BufferReader`, `src/header/stdio/reader.rs:22-47`).

* Input and format are lists of bytes; the NUL ends them.
* What is stored through the arguments is recorded, in order, instead of being written to memory.
* Floating point: the text is recorded. Whether it can be parsed (`str::parse`) is an argument.
* `none` = the function does not return (a `%[` without `]`: the list of characters grows for ever).
-/

namespace Verif.Scanf

/-- `IntKind` (`src/header/stdio/printf.rs`). -/
inductive Kind where
  | byte | short | int | long | longLong | intMax | ptrDiff | size
deriving DecidableEq

/-- What is stored through an argument. -/
inductive Out where
  /-- an integer of so many bits -/
  | int (bits : Nat) (v : Int)
  /-- a `double` or a `float`, given by its text (empty: 0) -/
  | real (double : Bool) (text : List UInt8)
  /-- a pointer -/
  | ptr (v : Nat)
  /-- a string, with a NUL behind it -/
  | str (l : List UInt8)
  /-- characters, without a NUL -/
  | chars (l : List UInt8)
deriving DecidableEq

/-- A part of the format. -/
inductive Dir where
  | space
  | lit (c : UInt8)
  /-- the width cannot be parsed: `Err(-1)` -/
  | badWidth
  /-- `set` for `%[`: whether inverted, and the characters; `none` if there is no end. -/
  | conv (ignore : Bool) (width : Option Nat) (kind : Kind) (c : UInt8) (set : Option (Bool × List UInt8))
deriving DecidableEq

/-- `char::is_whitespace`, for the character whose number is the byte. -/
def isWs (b : UInt8) : Bool := (9 ≤ b && b ≤ 13) || b == 0x20 || b == 0x85 || b == 0xA0

/-- `char::is_ascii_digit`. -/
def isDigit (b : UInt8) : Bool := 0x30 ≤ b && b ≤ 0x39

/-- A number in decimal. -/
def decimal (l : List UInt8) : Nat := l.foldl (fun n d => n * 10 + (d.toNat - 0x30)) 0

/-- The length modifiers (`src/header/stdio/scanf.rs:123-156`); the rest begins with the conversion. -/
def modifiers (k : Kind) : List UInt8 → Kind × List UInt8
  | [] => (k, [])
  | c :: f =>
    if c = 0x68 then modifiers (if k = .short ∨ k = .byte then .byte else .short) f
    else if c = 0x6A then modifiers .intMax f
    else if c = 0x6C then modifiers (if k = .long ∨ k = .longLong then .longLong else .long) f
    else if c = 0x71 ∨ c = 0x4C then modifiers .longLong f
    else if c = 0x74 then modifiers .ptrDiff f
    else if c = 0x7A then modifiers .size f
    else (k, c :: f)

/-- The bytes between two. -/
def between (a b : UInt8) : List UInt8 := (List.range' (a.toNat + 1) (b.toNat - (a.toNat + 1))).map UInt8.ofNat

/-- The loop over the characters of `%[` (`src/header/stdio/scanf.rs:411-435`), `c` at its beginning: the characters and the rest of the format;
`none` at the end of the format, where the loop goes on for ever with `c` = NUL. -/
def setLoop (acc : List UInt8) (c : UInt8) : List UInt8 → Option (List UInt8 × List UInt8)
  | [] => none
  | d :: f =>
    let acc := acc ++ [c]
    if d = 0x2D then
      if c = 0x5D then setLoop acc d f
      else match f with
        | [] => none
        | e :: f => if e = 0x5D then some (acc ++ [0x2D], f) else setLoop (acc ++ between c e) e f
    else if d = 0x5D then some (acc, f)
    else setLoop acc d f

/-- The whole `%[`, behind the bracket. -/
def parseSet (f : List UInt8) : Option ((Bool × List UInt8) × List UInt8) :=
  match f with
  | [] => none
  | c :: f =>
    if c = 0x5E then
      match f with
      | [] => none
      | c :: f => (setLoop [] c f).map fun r => ((true, r.1), r.2)
    else (setLoop [] c f).map fun r => ((false, r.1), r.2)

/-- The next part of the format, which is not empty (`src/header/stdio/scanf.rs:81-156`, `398-435`), and the rest. -/
def parseDir (c : UInt8) (f : List UInt8) : Dir × List UInt8 :=
  if c = 0x20 then (.space, f)
  else if c ≠ 0x25 then (.lit c, f)
  else
    let ignore := f.headD 0 == 0x2A
    let f := if ignore then f.tail else f
    let w := f.takeWhile isDigit
    let f := f.dropWhile isDigit
    if 2 ^ 64 ≤ decimal w then (.badWidth, f)
    else
      let width := if w = [] then none else some (decimal w)
      let (k, f) := modifiers .int f
      let c := f.headD 0
      let f := f.tail
      if c = 0x5B then
        match parseSet f with
        | none => (.conv ignore width k c none, [])
        | some (set, f) => (.conv ignore width k c (some set), f)
      else (.conv ignore width k c none, f)

/-- The variables: the rest of the input, `character`, `skip_read`, `count`, `matched`, the number of the next argument, and what has been stored
through which argument. -/
structure St where
  r : List UInt8
  ch : UInt8
  skip : Bool
  count : Nat
  matched : Int
  arg : Nat
  out : List (Nat × Out)

/-- Either the function returns, or it goes on. -/
abbrev Run := Except (Int × List (Nat × Out))

/-- `return Ok(v)` and `return Err(v)`, which `scanf` treats alike. -/
def ret {α : Type} (s : St) (v : Int) : Run α := .error (v, s.out)

/-- `read!` (`src/header/stdio/scanf.rs:45-57`). -/
def St.read (s : St) : Option St :=
  match s.r with
  | [] => none
  | b :: r => some { s with r := r, ch := b, count := s.count + 1 }

/-- `maybe_read!(noreset)` (`src/header/stdio/scanf.rs:59-78`). -/
def St.maybeRead (s : St) : Run St :=
  if s.skip then .ok s
  else match s.read with
    | none => if s.matched = 0 then ret s (-1) else ret s s.matched
    | some s => .ok s

theorem read_lt {s t : St} (h : s.read = some t) : t.r.length < s.r.length := by
  unfold St.read at h
  split at h
  · cases h
  · rename_i b r hr
    injection h with h
    subst h
    rw [hr]
    simp

/-- `while character.is_whitespace()`. -/
def St.skipWs (s : St) : Run St :=
  if isWs s.ch then
    match h : s.read with
    | none => ret s s.matched
    | some t => t.skipWs
  else .ok s
termination_by s.r.length
decreasing_by exact read_lt h

/-- Whether the width is not used up. -/
def more (w : Option Nat) : Bool := match w with
  | none => true
  | some n => 0 < n

/-- `width.map(|w| w - 1)`. -/
def dec (w : Option Nat) : Option Nat := w.map (· - 1)

/-- The condition of the loop over a number (`src/header/stdio/scanf.rs:196-202`), without the width. -/
def numeral (float dot : Bool) (radix : Nat) (c : UInt8) : Bool :=
  (0x30 ≤ c && c ≤ 0x37) || (10 ≤ radix && 0x38 ≤ c && c ≤ 0x39) || (float && !dot && c == 0x2E)
    || (radix == 16 && ((0x61 ≤ c && c ≤ 0x66) || (0x41 ≤ c && c ≤ 0x46)))

/-- The loop over a number (`src/header/stdio/scanf.rs:195-240`): base, width, text. After a step which used up the width the loop ends. -/
def St.number (s : St) (float auto pointer dot : Bool) (radix : Nat) (width : Option Nat) (n : List UInt8) :
    Run (Nat × Option Nat × List UInt8 × St) :=
  if more width && numeral float dot radix s.ch then
    if auto && n.isEmpty && s.ch == 0x30 then
      let radix := if pointer then radix else 8
      let width := dec width
      match h : s.read with
      | none => .ok (radix, width, n, s)
      | some t =>
        if more width && (t.ch == 0x78 || t.ch == 0x58) then
          let width := dec width
          if more width then
            match h2 : t.read with
            | none => ret t t.matched
            | some u => u.number float auto pointer dot 16 width n
          else .ok (16, width, n, t)
        else t.number float auto pointer dot radix width n
    else
      let dot := dot || s.ch == 0x2E
      let n := n ++ [s.ch]
      let width := dec width
      if more width then
        match h : s.read with
        | none => .ok (radix, width, n, s)
        | some t => t.number float auto pointer dot radix width n
      else .ok (radix, width, n, s)
  else .ok (radix, width, n, s)
termination_by s.r.length
decreasing_by
  · have := read_lt h; have := read_lt h2; omega
  · exact read_lt h
  · exact read_lt h

/-- The value of a digit (`char::to_digit`). -/
def digitVal (c : UInt8) : Nat := if c ≤ 0x39 then c.toNat - 0x30 else if c ≤ 0x46 then c.toNat - 0x41 + 10 else c.toNat - 0x61 + 10

/-- `from_str_radix` for digits, without the check of the range. -/
def value (radix : Nat) (l : List UInt8) : Nat := l.foldl (fun n d => n * radix + digitVal d) 0

/-- The number of bits of the type. -/
def Kind.bits : Kind → Nat
  | .byte => 8
  | .short => 16
  | .int => 32
  | _ => 64

/-- `parse_type!` (`src/header/stdio/scanf.rs:242-327`): store a number. -/
def St.store (s : St) (ignore : Bool) (o : Out) : St :=
  if ignore then s else { s with out := s.out ++ [(s.arg, o)], arg := s.arg + 1, matched := s.matched + 1 }

/-- A number: `%d`, `%i`, `%o`, `%u`, `%x`, `%X`, `%p` and the floating point conversions (`src/header/stdio/scanf.rs:176-327`): the width and the state. -/
def execNumber (parses : Bool → List UInt8 → Bool) (s : St) (ignore : Bool) (width : Option Nat) (kind : Kind) (c : UInt8) : Run (Option Nat × St) := do
  let s ← s.skipWs
  let pointer := c == 0x70
  let auto := c == 0x69 || pointer
  let float := c == 0x66 || c == 0x65 || c == 0x67 || c == 0x45 || c == 0x61
  let radix := if c == 0x6F then 8 else if c == 0x78 || c == 0x58 || c == 0x70 then 16 else 10
  let (radix, width, n, s) ← s.number float auto pointer false radix width []
  if float then
    let double := kind = .long ∨ kind = .longLong
    if n = [] ∨ parses double n then pure (width, s.store ignore (.real double n)) else ret s 0
  else if c = 0x70 then
    if value radix n < 2 ^ 64 then pure (width, s.store ignore (.ptr (value radix n))) else ret s 0
  else
    let unsigned := (c == 0x6F || c == 0x75 || c == 0x78 || c == 0x58) && kind != .ptrDiff
    if value radix n < 2 ^ (if unsigned then kind.bits else kind.bits - 1) then
      pure (width, s.store ignore (.int kind.bits (value radix n)))
    else ret s 0

/-- The loop of `%s` and `%[` (`src/header/stdio/scanf.rs:340-350`, `443-460`) over the characters that are `ok`: what is stored, the width, `eof`. -/
def St.text (s : St) (ok : UInt8 → Bool) (width : Option Nat) (l : List UInt8) : List UInt8 × Option Nat × Bool × St :=
  if more width && ok s.ch then
    let l := l ++ [s.ch]
    let width := dec width
    if more width then
      match h : s.read with
      | none => (l, width, true, s)
      | some t => t.text ok width l
    else (l, width, false, s)
  else (l, width, false, s)
termination_by s.r.length
decreasing_by exact read_lt h

/-- The loop of `%c` (`src/header/stdio/scanf.rs:380-389`), `k` times. -/
def St.chars (s : St) (width : Option Nat) (l : List UInt8) : Nat → List UInt8 × Option Nat × Bool × St
  | 0 => (l, width, false, s)
  | k + 1 =>
    let l := l ++ [s.ch]
    let width := dec width
    if more width then
      match s.read with
      | none => (l, width, true, s)
      | some t => t.chars width l k
    else s.chars width l k

/-- The end of a conversion (`src/header/stdio/scanf.rs:471-479`). -/
def finish (s : St) (eof : Bool) (width : Option Nat) (c : UInt8) : Run St :=
  if eof then ret s s.matched
  else .ok (if width ≠ some 0 ∧ c ≠ 0x6E then { s with skip := true } else s)

/-- A conversion (`src/header/stdio/scanf.rs:158-479`). -/
def execConv (parses : Bool → List UInt8 → Bool) (s : St) (ignore : Bool) (width : Option Nat) (kind : Kind) (c : UInt8)
    (set : Option (Bool × List UInt8)) : Option (Run St) :=
  match (if c ≠ 0x6E then s.maybeRead else .ok s) with
  | .error e => some (.error e)
  | .ok s =>
    if c = 0x25 then some do
      let s ← s.skipWs
      if s.ch ≠ 0x25 then ret s s.matched
      else match s.read with
        | none => ret s s.matched
        | some s => finish s false width c
    else if c ∈ [0x64, 0x69, 0x6F, 0x75, 0x78, 0x58, 0x66, 0x65, 0x67, 0x45, 0x61, 0x70] then some do
      let (width, s) ← execNumber parses s ignore width kind c
      finish s false width c
    else if c = 0x73 then some do
      let s ← s.skipWs
      let (l, width, eof, s) := s.text (fun b => !isWs b) width []
      let s := if width = some 0 then s.read.getD s else s
      finish (s.store ignore (.str l)) eof width c
    else if c = 0x63 then some do
      let (l, width, eof, s) := s.chars width [] (width.getD 1)
      finish (s.store ignore (.chars l)) eof width c
    else if c = 0x5B then
      match set with
      | none => none
      | some (invert, cs) => some do
        let (l, width, eof, s) := s.text (fun b => invert != cs.contains b) width []
        finish (if ignore then s else if l = [] then { s with arg := s.arg + 1 } else s.store false (.str l)) eof width c
    else if c = 0x6E then some (finish (if ignore then s else { s with
      out := s.out ++ [(s.arg, .int 32 (BitVec.ofNat 32 s.count).toInt)]
      arg := s.arg + 1 }) false width c)
    else some (ret s (-1))

/-- One part of the format (`src/header/stdio/scanf.rs:81-480`). -/
def exec (parses : Bool → List UInt8 → Bool) (s : St) : Dir → Option (Run St)
  | .space => some do
    let s ← s.maybeRead
    let s ← s.skipWs
    pure { s with skip := true }
  | .lit c => some do
    let s ← s.maybeRead
    let s := { s with skip := false }
    if c ≠ s.ch then ret s s.matched else pure s
  | .badWidth => some (ret s (-1))
  | .conv ignore width kind c set => execConv parses s ignore width kind c set

theorem modifiers_length (k : Kind) (f : List UInt8) : (modifiers k f).2.length ≤ f.length := by
  fun_induction modifiers k f <;> simp_all <;> omega

theorem setLoop_length {acc : List UInt8} {c : UInt8} {f : List UInt8} {r : List UInt8 × List UInt8} (h : setLoop acc c f = some r) :
    r.2.length < f.length := by
  fun_induction setLoop acc c f with
  | case1 => cases h
  | case2 acc d f => rename_i ih; have := ih h; simp only [List.length_cons]; omega
  | case3 => cases h
  | case4 => injection h with h; subst h; simp only [List.length_cons]; omega
  | case5 => rename_i ih; have := ih h; simp only [List.length_cons]; omega
  | case6 => injection h with h; subst h; simp
  | case7 => rename_i ih; have := ih h; simp only [List.length_cons]; omega

theorem parseSet_length {f : List UInt8} {r : (Bool × List UInt8) × List UInt8} (h : parseSet f = some r) : r.2.length < f.length := by
  unfold parseSet at h
  split at h
  · cases h
  · split at h
    · split at h
      · cases h
      · rename_i c f
        obtain ⟨q, hq, rfl⟩ := Option.map_eq_some_iff.1 h
        have := setLoop_length hq
        simp only [List.length_cons]
        omega
    · obtain ⟨q, hq, rfl⟩ := Option.map_eq_some_iff.1 h
      have := setLoop_length hq
      simp only [List.length_cons]
      omega

theorem dropWhile_length (f : List UInt8) (p : UInt8 → Bool) : (f.dropWhile p).length ≤ f.length := (List.dropWhile_sublist p).length_le

theorem parseDir_length (c : UInt8) (f : List UInt8) : (parseDir c f).2.length ≤ f.length := by
  unfold parseDir
  split
  · simp
  · split
    · simp
    · have h1 : (if (f.headD 0 == 0x2A) then f.tail else f).length ≤ f.length := by split <;> simp
      have h2 := dropWhile_length (if (f.headD 0 == 0x2A) then f.tail else f) isDigit
      have h3 := modifiers_length .int ((if (f.headD 0 == 0x2A) then f.tail else f).dropWhile isDigit)
      dsimp only
      generalize (if (f.headD 0 == 0x2A) = true then f.tail else f) = g at *
      split
      · exact Nat.le_trans h2 h1
      · generalize modifiers .int (g.dropWhile isDigit) = q at *
        obtain ⟨k, q⟩ := q
        dsimp only at *
        split
        · split
          · simp
          · rename_i h
            have := parseSet_length h
            rw [List.length_tail] at this
            dsimp only at this ⊢
            omega
        · dsimp only
          rw [List.length_tail]
          omega

/-- The loop over the format (`src/header/stdio/scanf.rs:80-482`). -/
def run (parses : Bool → List UInt8 → Bool) (s : St) (f : List UInt8) : Option (Int × List (Nat × Out)) :=
  match f with
  | [] => some (s.matched, s.out)
  | c :: f =>
    match exec parses s (parseDir c f).1 with
    | none => none
    | some (.error e) => some e
    | some (.ok s) => run parses s (parseDir c f).2
termination_by f.length
decreasing_by
  have := parseDir_length c f
  simp only [List.length_cons]
  omega

/-- `sscanf` (`src/header/stdio/mod.rs`, `scanf`, `src/header/stdio/scanf.rs:486-491`): the return value and what has been stored. -/
def sscanf (parses : Bool → List UInt8 → Bool) (input format : List UInt8) : Option (Int × List (Nat × Out)) :=
  run parses ⟨input, 0, false, 0, 0, 0, []⟩ format

end Verif.Scanf
