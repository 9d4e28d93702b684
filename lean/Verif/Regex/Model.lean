/-!
# `regcomp`, `regexec`, `regerror`

`src/header/regex/mod.rs`. The compiler and the matcher are the crate `posix_regex`, which is not in the repository: they are parameters.
-/

namespace Verif.Regex

abbrev Bytes := List UInt8

/-- The errors of the compiler (`posix_regex::compile::Error`); `other` are the ones that `regcomp` does not tell apart. -/
inductive CompileError where
  | emptyRepetition | integerOverflow | illegalRange | unclosedRepetition | leadingRepetition | unknownCollation | unknownClass | other
deriving DecidableEq

/-- What the matcher is told. -/
structure Mode where
  icase : Bool
  newline : Bool
  noStart : Bool
  noEnd : Bool
deriving DecidableEq

/-- The crate: a compiled expression is a `Tree`; of a match the groups are known, if they took part in it. -/
structure Engine (Tree : Type) where
  compile : Bytes → Bool → Except CompileError Tree
  groups : Tree → Nat
  matches' : Tree → Mode → Bytes → Option (List (Option (Nat × Nat)))

/-- `regex_t` (`src/header/regex/mod.rs:17-23`). -/
structure Regex (Tree : Type) where
  tree : Tree
  cflags : UInt32
  nsub : Nat

/-- The code for an error (`src/header/regex/mod.rs:77-86`). -/
def codeOf : CompileError → Int32
  | .emptyRepetition | .integerOverflow | .illegalRange => 11
  | .unclosedRepetition => 10
  | .leadingRepetition => 14
  | .unknownCollation => 3
  | .unknownClass => 4
  | .other => 2

/-- `regcomp` (`src/header/regex/mod.rs:58-87`): the code, and what is stored in `*out`. -/
def regcomp {T : Type} (E : Engine T) (pat : Bytes) (cflags : UInt32) : Int32 × Option (Regex T) :=
  match E.compile pat (cflags &&& 1 == 1) with
  | .ok t => (0, some ⟨t, cflags, E.groups t⟩)
  | .error e => (codeOf e, none)

/-- The loop over the groups (`src/header/regex/mod.rs:122-130`); `none` is a write outside of the array. -/
def fill (first : List (Option (Nat × Nat))) (nmatch : Nat) (i : Nat) (mem : List (UInt64 × UInt64)) : Option (List (UInt64 × UInt64)) :=
  if i < nmatch then
    if i < mem.length then
      let (a, b) := match first[i]? with
        | some (some (a, b)) => (UInt64.ofNat a, UInt64.ofNat b)
        | _ => (~~~0, ~~~0)
      fill first nmatch (i + 1) (mem.set i (a, b))
    else none
  else some mem
termination_by nmatch - i

/-- `regexec` (`src/header/regex/mod.rs:98-134`): `pmatch` is a null pointer or an array; the code and the array afterwards. -/
def regexec {T : Type} (E : Engine T) (r : Regex T) (input : Bytes) (nmatch : Nat) (pmatch : Option (List (UInt64 × UInt64))) (eflags : UInt32) :
    Option (Int32 × Option (List (UInt64 × UInt64))) :=
  let flags := r.cflags ||| eflags
  match E.matches' r.tree ⟨flags &&& 2 == 2, flags &&& 8 == 8, flags &&& 16 == 16, flags &&& 32 == 32⟩ input with
  | none => some (1, pmatch)
  | some first =>
    match pmatch with
    | none => some (0, none)
    | some mem =>
      if (eflags &&& 4 != 4) = true ∧ nmatch > 0 then (fill first nmatch 0 mem).map fun m => (0, some m)
      else some (0, some mem)

/-- The texts (`src/header/regex/mod.rs:145-162`), with their NUL. -/
def text (code : Int32) : Bytes :=
  if code = 0 then [78, 111, 32, 101, 114, 114, 111, 114, 0]
  else if code = 1 then [78, 111, 32, 109, 97, 116, 99, 104, 0]
  else if code = 2 then [73, 110, 118, 97, 108, 105, 100, 32, 114, 101, 103, 101, 120, 112, 0]
  else if code = 3 then [85, 110, 107, 110, 111, 119, 110, 32, 99, 111, 108, 108, 97, 116, 105, 110, 103, 32, 101, 108, 101, 109, 101, 110, 116, 0]
  else if code = 4 then [85, 110, 107, 110, 111, 119, 110, 32, 99, 104, 97, 114, 97, 99, 116, 101, 114, 32, 99, 108, 97, 115, 115, 32, 110, 97, 109, 101, 0]
  else if code = 5 then [84, 114, 97, 105, 108, 105, 110, 103, 32, 98, 97, 99, 107, 115, 108, 97, 115, 104, 0]
  else if code = 6 then [73, 110, 118, 97, 108, 105, 100, 32, 98, 97, 99, 107, 32, 114, 101, 102, 101, 114, 101, 110, 99, 101, 0]
  else if code = 7 then [77, 105, 115, 115, 105, 110, 103, 32, 39, 93, 39, 0]
  else if code = 8 then [85, 110, 115, 117, 112, 112, 111, 114, 116, 101, 100, 32, 111, 112, 101, 114, 97, 116, 105, 111, 110, 0]
  else if code = 9 then [77, 105, 115, 115, 105, 110, 103, 32, 39, 41, 39, 0]
  else if code = 10 then [77, 105, 115, 115, 105, 110, 103, 32, 39, 125, 39, 0]
  else if code = 11 then [73, 110, 118, 97, 108, 105, 100, 32, 99, 111, 110, 116, 101, 110, 116, 115, 32, 111, 102, 32, 123, 125, 0]
  else if code = 12 then [73, 110, 118, 97, 108, 105, 100, 32, 99, 104, 97, 114, 97, 99, 116, 101, 114, 32, 114, 97, 110, 103, 101, 0]
  else if code = 13 then [79, 117, 116, 32, 111, 102, 32, 109, 101, 109, 111, 114, 121, 0]
  else if code = 14 then
    [82, 101, 112, 101, 116, 105, 116, 105, 111, 110, 32, 110, 111, 116, 32, 112, 114, 101, 99, 101, 100, 101, 100, 32, 98, 121, 32, 118, 97, 108, 105,
     100, 32, 101, 120, 112, 114, 101, 115, 115, 105, 111, 110, 0]
  else [85, 110, 107, 110, 111, 119, 110, 32, 101, 114, 114, 111, 114, 0]

/-- `regerror` (`src/header/regex/mod.rs:139-169`): what is written to the buffer of `max` bytes, and the number returned. -/
def regerror (code : Int32) (max : Nat) : Bytes × Nat := ((text code).take (min (text code).length max), (text code).length)

end Verif.Regex
