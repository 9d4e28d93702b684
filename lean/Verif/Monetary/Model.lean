/-!
# `strfmon`

`src/header/monetary/mod.rs`, `src/header/monetary/strfmon.rs`. The format is the list of its characters (`CStr::to_str`, line 31; a format that is not UTF-8 gives −1), the buffer the list of its `maxsize` bytes.
-/

namespace Verif.Monetary

/-- The argument of a conversion: `±m / 2^k`. Every finite `double` is one; infinities and NaN are not modelled. -/
structure Value where
  neg : Bool
  m : Nat
  k : Nat
deriving DecidableEq, Repr

/-- `FormatFlags` (`src/header/monetary/mod.rs:54-65`); `use_parens` is never read. -/
structure Flags where
  left : Bool := false
  plus : Bool := false
  space : Bool := false
  bang : Bool := false
  width : Option Nat := none
  lprec : Option Nat := none
  rprec : Option Nat := none
  intl : Bool := false
deriving DecidableEq, Repr

/-- `apply_grouping` (`src/header/monetary/mod.rs:68-89`). `mon_grouping` is `[3, 3]` (line 40), so the group is always 3; the count is a byte (line 78). -/
def groupLoop : Nat → List Char → List Char
  | _, [] => []
  | count, c :: cs => (if count > 0 ∧ count % 256 % 3 = 0 then [',', c] else [c]) ++ groupLoop (count + 1) cs

/-- `{:0>width$}`. -/
def zeros (width : Nat) (s : List Char) : List Char := List.replicate (width - s.length) '0' ++ s

/-- Steps 1 to 4 of `format_monetary` (`src/header/monetary/strfmon.rs:170-202`): integer and fractional part. The product with the scale is exact here, a rounded `double` in the code; the conversions to
`i64` saturate. -/
def split (v : Value) (d : Nat) : Option (Nat × Nat) :=
  if v.m * 10 ^ d ≥ 2 ^ 63 * 2 ^ v.k then none else
    let int := v.m / 2 ^ v.k
    let frac := min ((2 * (v.m % 2 ^ v.k) * 10 ^ d + 2 ^ v.k) / (2 * 2 ^ v.k)) (2 ^ 63 - 1)
    if frac ≥ min (10 ^ d) (2 ^ 63 - 1) then some (int + 1, 0) else some (int, frac)

/-- `format_monetary` with `DEFAULT_MONETARY` (`src/header/monetary/strfmon.rs:164-325`, `src/header/monetary/mod.rs:35-51`): the symbol precedes, no space, the sign comes first. -/
def formatMonetary (room : Nat) (v : Value) (fl : Flags) : Option (List Char) :=
  let d := fl.rprec.getD 2
  match split v d with
  | none => none
  | some (int, frac) =>
    let int := Nat.toDigits 10 int
    match fl.lprec with
    | some n => if int.length > n then none else finish room v fl d (zeros n int) frac
    | none => finish room v fl d int frac
where
  /-- Steps 7 to 16 (`src/header/monetary/strfmon.rs:219-324`). -/
  finish (room : Nat) (v : Value) (fl : Flags) (d : Nat) (int : List Char) (frac : Nat) : Option (List Char) :=
    let sign := if v.neg then ['-'] else if fl.plus then [] else if fl.space then [' '] else []
    let symbol := if fl.bang then [] else if fl.intl then ['U', 'S', 'D', ' '] else ['$']
    let result := sign ++ symbol ++ groupLoop 0 int ++ (if d > 0 then '.' :: zeros d (Nat.toDigits 10 frac) else [])
    let result := match fl.width with
      | some w => if fl.left then result ++ List.replicate (w - result.length) ' ' else List.replicate (w - result.length) ' ' ++ result
      | none => result
    if result.length > room then none else some result

/-- The loop over the flags (`src/header/monetary/strfmon.rs:65-76`). -/
def takeFlags : List Char → Flags → Flags × List Char
  | '=' :: cs, fl => takeFlags cs { fl with left := true }
  | '+' :: cs, fl => takeFlags cs { fl with plus := true }
  | ' ' :: cs, fl => takeFlags cs { fl with space := true }
  | '(' :: cs, fl => takeFlags cs fl
  | '!' :: cs, fl => takeFlags cs { fl with bang := true }
  | cs, fl => (fl, cs)

/-- A loop over digits (`src/header/monetary/strfmon.rs:80-86`). -/
def takeDigits : List Char → List Char × List Char
  | [] => ([], [])
  | c :: cs => if c.isDigit then (c :: (takeDigits cs).1, (takeDigits cs).2) else ([], c :: cs)

/-- `str::parse::<usize>().ok()` of digits. -/
def parseUsize (ds : List Char) : Option Nat :=
  if ds = [] then none else
    let n := ds.foldl (fun n c => 10 * n + (c.toNat - 48)) 0
    if n < 2 ^ 64 then some n else none

/-- What follows `#` or `.` (`src/header/monetary/strfmon.rs:92-117`). -/
def takePrec (mark : Char) (cs : List Char) : Option Nat × List Char :=
  match cs with
  | c :: cs' => if c = mark then (parseUsize (takeDigits cs').1, (takeDigits cs').2) else (none, cs)
  | [] => (none, cs)

/-- A conversion after `%` (`src/header/monetary/strfmon.rs:61-144`). -/
def directive (cs : List Char) : Option (Flags × List Char) :=
  let (fl, cs) := takeFlags cs {}
  let (w, cs) := takeDigits cs
  let (l, cs) := takePrec '#' cs
  let (r, cs) := takePrec '.' cs
  match cs with
  | 'i' :: cs => some ({ fl with width := parseUsize w, lprec := l, rprec := r, intl := true }, cs)
  | 'n' :: cs => some ({ fl with width := parseUsize w, lprec := l, rprec := r }, cs)
  | _ => none

theorem takeFlags_le (cs : List Char) (fl : Flags) : (takeFlags cs fl).2.length ≤ cs.length := by
  fun_induction takeFlags cs fl <;> simp_all <;> omega

theorem takeDigits_le (cs : List Char) : (takeDigits cs).2.length ≤ cs.length := by
  induction cs with
  | nil => simp [takeDigits]
  | cons c cs ih =>
    unfold takeDigits
    split <;> simp
    omega

theorem takePrec_le (mark : Char) (cs : List Char) : (takePrec mark cs).2.length ≤ cs.length := by
  unfold takePrec
  split
  · next c cs' =>
    split
    · have := takeDigits_le cs'
      simp
      omega
    · simp
  · simp

theorem directive_lt {cs : List Char} {fl : Flags} {r : List Char} (h : directive cs = some (fl, r)) : r.length < cs.length := by
  unfold directive at h
  have h1 := takeFlags_le cs {}
  generalize takeFlags cs {} = p at h h1
  obtain ⟨fl', cs1⟩ := p
  have h2 := takeDigits_le cs1
  dsimp only at h h1
  generalize takeDigits cs1 = p at h h2
  obtain ⟨w, cs2⟩ := p
  have h3 := takePrec_le '#' cs2
  dsimp only at h h2
  generalize takePrec '#' cs2 = p at h h3
  obtain ⟨l, cs3⟩ := p
  have h4 := takePrec_le '.' cs3
  dsimp only at h h3
  generalize takePrec '.' cs3 = p at h h4
  obtain ⟨r', cs4⟩ := p
  dsimp only at h h4
  split at h
  · cases h
    simp at h4
    omega
  · cases h
    simp at h4
    omega
  · cases h

/-- Bytes written at a position. -/
def writeAt (buf : List UInt8) (pos : Nat) (bytes : List UInt8) : List UInt8 := buf.take pos ++ bytes ++ buf.drop (pos + bytes.length)

/-- The bytes of characters, `c as u8`. -/
def bytes (cs : List Char) : List UInt8 := cs.map fun c => UInt8.ofNat c.toNat

/-- The loop of `strfmon` and its end (`src/header/monetary/strfmon.rs:40-151`): the result and the buffer. `none`: there is no argument for a conversion, which C leaves undefined. -/
def loop (buf : List UInt8) (pos : Nat) (fmt : List Char) (args : List Value) : Option (Int × List UInt8) :=
  match fmt with
  | [] => if pos ≥ buf.length then some (-1, buf) else some (pos, buf.set pos 0)
  | c :: cs =>
    if c ≠ '%' then
      if pos ≥ buf.length then some (-1, buf) else loop (buf.set pos (UInt8.ofNat c.toNat)) (pos + 1) cs args
    else if cs.head? = some '%' then
      if pos ≥ buf.length then some (-1, buf) else loop (buf.set pos 0x25) (pos + 1) cs.tail args
    else match h : directive cs with
      | none => some (-1, buf)
      | some (fl, r) =>
        match args with
        | [] => none
        | v :: args =>
          match formatMonetary (buf.length - pos) v fl with
          | none => some (-1, buf)
          | some s => loop (writeAt buf pos (bytes s)) (pos + s.length) r args
termination_by fmt.length
decreasing_by
  · simp
  · simp; omega
  · have := directive_lt h
    simp; omega

/-- `strfmon` with a buffer and a format (`src/header/monetary/strfmon.rs:18-152`). -/
def strfmon (buf : List UInt8) (fmt : List Char) (args : List Value) : Option (Int × List UInt8) :=
  if buf.length = 0 then some (-1, buf) else loop buf 0 fmt args

end Verif.Monetary
