/-!
# `getopt` and `getopt_long`

`src/header/getopt/mod.rs`, `src/header/unistd/getopt.rs`.

* The argument vector is the list of its strings (`argc` is their number, none is null), without their terminators. A pointer into it is the pair of the
  number of the argument and an offset.
* `longopts` is the list of its entries before the one with a null name; `flag` is an address.
* What is written to `stderr` is recorded as the kind of message.
* `optind` is not negative.
-/

namespace Verif.Getopt

/-- A pointer into the argument vector. -/
abbrev Ptr := Nat × Nat

/-- A message on `stderr`. -/
inductive Msg where
  | illegal (c : UInt8)
  | requires (c : UInt8)
  | longRequires (p : Ptr)
deriving DecidableEq

/-- The variables: `optind`, `optarg`, `optopt`, `opterr` (`src/header/unistd/getopt.rs:12-26`) and `CURRENT_OPT`
(`src/header/getopt/mod.rs:16`), where `none` is the null pointer or a pointer to an empty string elsewhere. `msgs` is what
was written to `stderr`, `longindex` the last value stored through that pointer, `stores` the values stored through
`flag` pointers. -/
structure St where
  optind : Nat
  cur : Option Ptr
  optarg : Option Ptr
  optopt : Int32
  opterr : Bool
  msgs : List Msg
  longindex : Option Nat
  stores : List (Nat × Int32)
deriving DecidableEq

/-- The string at a pointer. -/
def textAt (argv : List (List UInt8)) (p : Ptr) : List UInt8 := (argv.getD p.1 []).drop p.2

/-- `c_int::from` of a `c_char`, which is signed. -/
def charInt (c : UInt8) : Int32 := c.toInt8.toInt32

/-- `find_option` (`src/header/getopt/mod.rs:230-246`): whether the option takes an argument. -/
def findOption (ch : UInt8) : List UInt8 → Option Bool
  | [] => none
  | c :: t => if c = ch then some (t.head? = some 0x3A) else findOption ch t

/-- `update_current_opt` (`src/header/getopt/mod.rs:158-163`). -/
def St.update (argv : List (List UInt8)) (st : St) (p : Ptr) : St :=
  let st := { st with cur := some (p.1, p.2 + 1) }
  if textAt argv (p.1, p.2 + 1) = [] then { st with optind := st.optind + 1 } else st

/-- `parse_arg` (`src/header/getopt/mod.rs:152-223`); `none` = a read beyond the string. -/
def St.parseArg (argv : List (List UInt8)) (optstring : List UInt8) (st : St) (p : Ptr) : Option (Int32 × St) :=
  match textAt argv p with
  | [] => none
  | c :: t =>
    match findOption c optstring with
    | some false => some (charInt c, st.update argv p)
    | some true =>
      let st := { st with cur := none }
      if t = [] then
        let st := { st with optind := st.optind + 2 }
        if st.optind > argv.length then
          let st := { st with optopt := charInt c }
          if optstring.head? = some 0x3A then some (0x3A, st)
          else some (0x3F, if st.opterr then { st with msgs := st.msgs ++ [.requires c] } else st)
        else some (charInt c, { st with optarg := some (st.optind - 1, 0) })
      else some (charInt c, { st with optarg := some (p.1, p.2 + 1), optind := st.optind + 1 })
    | none =>
      let st := if st.opterr then { st with msgs := st.msgs ++ [.illegal c] } else st
      some (0x3F, { st.update argv p with optopt := charInt c })

/-- `struct option` (`src/header/getopt/mod.rs:27-32`). -/
structure LongOpt where
  name : List UInt8
  hasArg : Int32
  flag : Option Nat
  val : Int32

/-- The search for a long option (`src/header/getopt/mod.rs:81-95`): the first whose name begins with the `len` bytes at
the pointer (`strncmp`), and its number. -/
def findLong (word : List UInt8) (i : Nat) : List LongOpt → Option (Nat × LongOpt)
  | [] => none
  | o :: l => if o.name.take word.length = word then some (i, o) else findLong word (i + 1) l

/-- What is done with a long option (`src/header/getopt/mod.rs:96-138`); `p` points behind the two hyphens, `len` is the
length of the name. -/
def St.long (argv : List (List UInt8)) (optstring : List UInt8) (st : St) (p : Ptr) (len i : Nat) (o : LongOpt) : Int32 × St :=
  let st := { st with optind := st.optind + 1, longindex := some i }
  let eq := (textAt argv p)[len]? = some 0x3D
  let done (st : St) : Int32 × St :=
    match o.flag with
    | none => (o.val, st)
    | some a => (0, { st with stores := st.stores ++ [(a, o.val)] })
  if o.hasArg = 2 then
    if eq then done { st with optarg := some (p.1, p.2 + len + 1) } else done st
  else if o.hasArg = 1 then
    if eq then done { st with optarg := some (p.1, p.2 + len + 1) }
    else if st.optind < argv.length then done { st with optarg := some (st.optind, 0), optind := st.optind + 1 }
    else if optstring.head? = some 0x3A then (0x3A, st)
    else (0x3F, { st with msgs := st.msgs ++ [.longRequires p] })
  else done st

/-- The next argument (`src/header/getopt/mod.rs:57-146`). -/
def St.start (argv : List (List UInt8)) (optstring : List UInt8) (longopts : Option (List LongOpt)) (st : St) :
    Option (Int32 × St) :=
  match argv[st.optind]? with
  | none => some (-1, st)
  | some arg =>
    if arg.head? ≠ some 0x2D ∨ arg.length = 1 then some (-1, st)
    else if arg = [0x2D, 0x2D] then some (-1, { st with optind := st.optind + 1 })
    else
      let word := (arg.drop 2).takeWhile (· != 0x3D)
      match longopts.bind fun l => if arg.tail.head? = some 0x2D then findLong word 0 l else none with
      | some (i, o) => some (st.long argv optstring (st.optind, 2) word.length i o)
      | none => st.parseArg argv optstring (st.optind, 1)

/-- `getopt_long` (`src/header/getopt/mod.rs:38-150`); `longindex` is not null. -/
def St.getoptLong (argv : List (List UInt8)) (optstring : List UInt8) (longopts : Option (List LongOpt)) (st : St) :
    Option (Int32 × St) :=
  let st := { st with optarg := none }
  let st := if st.optind = 0 then { st with optind := 1, cur := none } else st
  match st.cur with
  | some p =>
    if textAt argv p = [] then st.start argv optstring longopts else st.parseArg argv optstring p
  | none => st.start argv optstring longopts

/-- `getopt` (`src/header/unistd/getopt.rs:30-36`). -/
def St.getopt (argv : List (List UInt8)) (optstring : List UInt8) (st : St) : Option (Int32 × St) :=
  st.getoptLong argv optstring none

end Verif.Getopt
