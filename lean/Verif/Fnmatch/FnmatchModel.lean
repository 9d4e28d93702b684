import Verif.Str.StrModel
/-!
# `fnmatch`

`src/header/fnmatch/mod.rs`.

* `flags` is given by its four bits.
* The pattern is read from memory (`none` = a read outside mapped memory).
* The regular expression matcher is the crate `posix-regex`, outside of the repository. Its contract is `accepts`: a list of
  leaves matches a whole string when the string can be cut into pieces, one for each leaf, such that a leaf with the range
  `ONCE` gets one character that it allows, and one with `Range(0, None)` any number of them.
-/

namespace Verif.Fnmatch
open Verif.Mem Verif.Str

/-- The flags (`src/header/fnmatch/mod.rs:20-31`). -/
structure Flags where
  noescape : Bool
  pathname : Bool
  period : Bool
  casefold : Bool

/-- `Token::Char` and `Token::OneOf` of the crate. -/
inductive Tok where
  | chr (c : UInt8)
  | oneOf (invert : Bool) (list : List UInt8)
deriving DecidableEq

/-- A leaf: the token, and whether its range is `Range(0, None)` (otherwise `ONCE`). -/
abbrev Leaf := Tok × Bool

/-- `any` (`src/header/fnmatch/mod.rs:34-43`). -/
def anyTok (f : Flags) (leading : Bool) : Tok :=
  .oneOf true ((if f.pathname then [0x2F] else []) ++ (if leading && f.period then [0x2E] else []))

/-- `can_push` (`src/header/fnmatch/mod.rs:44-47`). -/
def canPush (f : Flags) (leading : Bool) (c : UInt8) : Bool :=
  (c != 0x2F || !f.pathname) && (c != 0x2E || !leading || !f.period)

/-- `is_leading` (`src/header/fnmatch/mod.rs:48-50`). -/
def isLeading (f : Flags) (c : UInt8) : Bool := c == 0x2F && f.pathname

/-- `c..=end` (`src/header/fnmatch/mod.rs:115`). -/
def byteRange (c e : UInt8) : List UInt8 := (List.range' c.toNat (e.toNat + 1 - c.toNat)).map UInt8.ofNat

/-- The rest of an element of a bracket expression that begins with `c`, `p` behind it
(`src/header/fnmatch/mod.rs:112-122`): the characters and the next position. -/
def element (m : Mem UInt8) (p : Nat) (c : UInt8) : Option (List UInt8 × Nat) := do
  let d ← m p
  if d = 0x2D then do
    let e ← m (p + 1)
    if e ≠ 0 then some (byteRange c e, p + 2) else some ([c], p)
  else some ([c], p)

/-- The loop over a bracket expression (`src/header/fnmatch/mod.rs:94-123`): the list and the next position. -/
def bracketLoop (m : Mem UInt8) (f : Flags) (leading : Bool) (p : Nat) (list : List UInt8) : Option (List UInt8 × Nat) := do
  let c ← m p
  if c = 0 then some (list, p)
  else if c = 0x5D then some (list, p + 1)
  else if c = 0x5C then do
    let c ← m (p + 1)
    if c = 0 then some (list, p + 2)
    else do
      let (l, p) ← element m (p + 2) c
      bracketLoop m f leading p (list ++ l.filter (canPush f leading))
  else do
    let (l, p) ← element m (p + 1) c
    bracketLoop m f leading p (list ++ l.filter (canPush f leading))
partial_fixpoint

/-- The token at `p` (`src/header/fnmatch/mod.rs:59-134`) with the variables `leading` and `need_collapsing`: a leaf, if there
is one, and the next position and variables; `some none` = the loop ends. -/
def tokStep (m : Mem UInt8) (f : Flags) (p : Nat) (leading collapse : Bool) :
    Option (Option (Option Leaf × Nat × Bool × Bool)) := do
  let c ← m p
  if c = 0 then some none
  else if c = 0x2A ∧ collapse then some (some (none, p + 1, false, true))
  else if c = 0x5C ∧ f.noescape then do
    let c ← m (p + 1)
    if c = 0 then some none else some (some (some (.chr c, false), p + 2, isLeading f c, false))
  else if c = 0x3F then some (some (some (anyTok f leading, false), p + 1, false, false))
  else if c = 0x2A then some (some (some (anyTok f leading, true), p + 1, false, true))
  else if c = 0x5B then do
    let n ← m (p + 1)
    let (list, q) ← bracketLoop m f leading (if n = 0x21 then p + 2 else p + 1) []
    some (some (some (.oneOf (n == 0x21) list, false), q, false, false))
  else some (some (some (.chr c, false), p + 1, isLeading f c, false))

/-- `tokenize` (`src/header/fnmatch/mod.rs:33-139`). -/
def tokenize (m : Mem UInt8) (f : Flags) (p : Nat) (leading collapse : Bool) : Option (List Leaf) :=
  match tokStep m f p leading collapse with
  | none => none
  | some none => some []
  | some (some (leaf, p, leading, collapse)) => do
    let l ← tokenize m f p leading collapse
    some (leaf.toList ++ l)
partial_fixpoint

/-- The crate compares letters without regard to case (`case_insensitive`). -/
def lower (c : UInt8) : UInt8 := if 0x41 ≤ c ∧ c ≤ 0x5A then c + 32 else c

/-- The comparison of characters in the crate. -/
def same (fold : Bool) (c d : UInt8) : Bool := if fold then lower c == lower d else c == d

/-- Whether a token allows a character. -/
def Tok.ok (fold : Bool) (t : Tok) (d : UInt8) : Bool :=
  match t with
  | .chr c => same fold c d
  | .oneOf invert l => l.any (same fold · d) != invert

/-- A leaf with `Range(0, None)`, followed by `k`. -/
def starGo (fold : Bool) (t : Tok) (k : List UInt8 → Bool) : List UInt8 → Bool
  | [] => k []
  | c :: s => k (c :: s) || (t.ok fold c && starGo fold t k s)

/-- The contract of `PosixRegex::matches_exact`, for the leaves and `Token::End`. -/
def accepts (fold : Bool) : List Leaf → List UInt8 → Bool
  | [], s => s.isEmpty
  | (t, false) :: ts, [] => false
  | (t, false) :: ts, c :: s => t.ok fold c && accepts fold ts s
  | (t, true) :: ts, s => starGo fold t (accepts fold ts) s

/-- `fnmatch` (`src/header/fnmatch/mod.rs:150-172`). -/
def fnmatch (m : Mem UInt8) (pattern input : Nat) (f : Flags) : Option Int32 := do
  let n ← strlen m input
  let s ← readN m input n
  let ts ← tokenize m f pattern true false
  some (if accepts f.casefold ts s then 0 else 1)

end Verif.Fnmatch
