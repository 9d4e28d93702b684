import Verif.Lookup.Model
/-!
# Locales: `src/header/locale/mod.rs`, `src/header/locale/data.rs`

Strings are without their ends. The addresses in `lconv` are replaced by what they point to; `update_lconv_pointers` is called after every change of the buffers, so that they always point to the buffers.
The lifetime of the string returned by `setlocale` is not modelled. `c_char` is signed (x86): `c_char::MAX` is 127.
-/

namespace Verif.Locale

/-- The fields of `lconv` (`src/header/locale/data.rs:12-37`). -/
inductive Field where
  | decimal_point | thousands_sep | int_curr_symbol | currency_symbol | mon_decimal_point | mon_thousands_sep
  | positive_sign | negative_sign | grouping | mon_grouping | int_frac_digits | frac_digits
  | p_cs_precedes | p_sep_by_space | n_cs_precedes | n_sep_by_space | p_sign_posn | n_sign_posn
  | int_p_cs_precedes | int_p_sep_by_space | int_n_cs_precedes | int_n_sep_by_space | int_p_sign_posn | int_n_sign_posn
  deriving DecidableEq

inductive Kind where
  | str | group | int
  deriving DecidableEq

/-- The function `PosixLocaleDef::parse` reads the field with (`src/header/locale/data.rs:311-335`). -/
def kind : Field → Kind
  | .decimal_point | .thousands_sep | .int_curr_symbol | .currency_symbol | .mon_decimal_point | .mon_thousands_sep | .positive_sign | .negative_sign => .str
  | .grouping | .mon_grouping => .group
  | _ => .int

/-- What the fields of an `lconv` point to; a `char` is a list of one byte, a grouping is without its end. -/
abbrev Data := Field → List UInt8

/-- `PosixLocaleDef` (`src/header/locale/data.rs:249-275`). -/
abbrev Def := Field → Option (List UInt8)

/-- `posix_lconv` (`src/header/locale/data.rs:41-72`). -/
def posixLconv : Data := fun f => match f with
  | .decimal_point => [0x2E]
  | f => match kind f with
    | .int => [127]
    | _ => []

/-- `LocaleData::new` (`src/header/locale/data.rs:93-127`), the name left out. -/
def newData (d : Def) : Data := fun f => match d f with
  | some v => v
  | none => match kind f with
    | .int => [127]
    | _ => []

/-- `LocaleData::posix` (`src/header/locale/data.rs:129-131`). -/
def posix : Data := newData fun _ => none

def LC_MONETARY : Int := 3
def LC_NUMERIC : Int := 4
def LC_ALL : Int := 6

/-- `LocaleData::copy_category` (`src/header/locale/data.rs:146-183`). -/
def copyCategory (self other : Data) (category : Int) : Data :=
  if category = LC_NUMERIC then fun f => match f with
    | .decimal_point | .thousands_sep | .grouping | .frac_digits => other f
    | f => self f
  else if category = LC_MONETARY then fun f => match f with
    | .int_curr_symbol | .currency_symbol | .mon_decimal_point | .mon_thousands_sep | .mon_grouping | .positive_sign | .negative_sign | .int_frac_digits | .p_cs_precedes | .p_sep_by_space | .n_cs_precedes | .n_sep_by_space | .p_sign_posn | .n_sign_posn | .int_p_cs_precedes | .int_p_sep_by_space | .int_n_cs_precedes | .int_n_sep_by_space | .int_p_sign_posn | .int_n_sign_posn => other f
    | f => self f
  else if category = LC_ALL then other
  else self

/-! ## The file -/

/-- `str::split` at a byte. -/
def split (d : UInt8) : List UInt8 → List (List UInt8)
  | [] => [[]]
  | b :: s => if b = d then [] :: split d s else match split d s with
    | w :: ws => (b :: w) :: ws
    | [] => [[b]]

/-- ASCII white space. -/
def isAsciiSpace (b : UInt8) : Bool := b = 0x20 || b = 0x09 || b = 0x0A || b = 0x0C || b = 0x0D

/-- `split_ascii_whitespace`: the words between white space. -/
def words : List UInt8 → List (List UInt8)
  | [] => []
  | [b] => if isAsciiSpace b then [] else [[b]]
  | b :: c :: s => if isAsciiSpace b then words (c :: s) else if isAsciiSpace c then [b] :: words (c :: s) else match words (c :: s) with
    | w :: ws => (b :: w) :: ws
    | [] => [[b]]

/-- `str::lines`: the parts between line feeds, without a carriage return at the end. That no line follows the last line feed makes no difference here, since an empty line is skipped. -/
def lines (s : List UInt8) : List (List UInt8) := (split 0x0A s).map fun l => if l.getLast? = some 0x0D then l.dropLast else l

/-- The value on the rest of the line, and on the lines behind it as long as the word ends in a backslash (`src/header/locale/data.rs:292-305`). -/
def value : List (List UInt8) → List (List UInt8) → List UInt8 × List (List UInt8)
  | rest, [] => ([], rest)
  | [], chunk :: _ => if chunk.getLast? = some 0x5C then (chunk.dropLast, []) else (chunk, [])
  | l :: rest, chunk :: _ => if chunk.getLast? = some 0x5C then
      let r := value rest (words l)
      (chunk.dropLast ++ r.1, r.2)
    else (chunk, l :: rest)

theorem value_length (rest parts : List (List UInt8)) : (value rest parts).2.length ≤ rest.length := by
  induction rest generalizing parts with
  | nil =>
    cases parts with
    | nil => exact Nat.le_refl _
    | cons c p =>
      unfold value
      split <;> exact Nat.le_refl _
  | cons l rest ih =>
    cases parts with
    | nil => exact Nat.le_refl _
    | cons c p =>
      unfold value
      split
      · exact Nat.le_succ_of_le (ih _)
      · exact Nat.le_refl _

def digits : List UInt8 → Option Nat
  | [] => none
  | s => if s.all (fun b => 0x30 ≤ b && b ≤ 0x39) then some (s.foldl (fun n b => n * 10 + (b.toNat - 0x30)) 0) else none

/-- `PosixLocaleDef::parse_int` (`src/header/locale/data.rs:347-356`), with `i8::from_str`. -/
def parseInt (val : List UInt8) : Option UInt8 := match Lookup.trim val with
  | 0x2D :: s => match digits s with
    | some 0 => some 0
    | _ => none
  | s => match digits (match s with
      | 0x2B :: s => s
      | s => s) with
    | some n => if n ≤ 127 then some (UInt8.ofNat n) else none
    | none => none

/-- `PosixLocaleDef::parse_int_group` and `to_grouping_char` (`src/header/locale/data.rs:342-344`, `src/header/locale/data.rs:188-192`). -/
def parseGroup (val : List UInt8) : List UInt8 := (split 0x3B val).map fun v => (parseInt v).getD 127

/-- The loop of `parse_str`: the text up to the quote, which is to be the last. -/
def untilQuote : List UInt8 → Option (List UInt8)
  | [] => some []
  | b :: s => if b = 0x22 then (if s = [] then some [] else none) else (untilQuote s).map (b :: ·)

/-- `PosixLocaleDef::parse_str` (`src/header/locale/data.rs:359-377`). -/
def parseStr : List UInt8 → Option (List UInt8)
  | 0x22 :: s => match untilQuote s with
    | some r => if 0 ∈ r then none else some r
    | none => none
  | _ => none

/-- One field. -/
def parseField (f : Field) (val : List UInt8) : Option (List UInt8) := match kind f with
  | .str => parseStr val
  | .group => some (parseGroup val)
  | .int => (parseInt val).map fun b => [b]

/-- The keywords. -/
def keywords : List (List UInt8 × Field) := [
  ([0x64, 0x65, 0x63, 0x69, 0x6D, 0x61, 0x6C, 0x5F, 0x70, 0x6F, 0x69, 0x6E, 0x74], .decimal_point),
  ([0x74, 0x68, 0x6F, 0x75, 0x73, 0x61, 0x6E, 0x64, 0x73, 0x5F, 0x73, 0x65, 0x70], .thousands_sep),
  ([0x69, 0x6E, 0x74, 0x5F, 0x63, 0x75, 0x72, 0x72, 0x5F, 0x73, 0x79, 0x6D, 0x62, 0x6F, 0x6C], .int_curr_symbol),
  ([0x63, 0x75, 0x72, 0x72, 0x65, 0x6E, 0x63, 0x79, 0x5F, 0x73, 0x79, 0x6D, 0x62, 0x6F, 0x6C], .currency_symbol),
  ([0x6D, 0x6F, 0x6E, 0x5F, 0x64, 0x65, 0x63, 0x69, 0x6D, 0x61, 0x6C, 0x5F, 0x70, 0x6F, 0x69, 0x6E, 0x74], .mon_decimal_point),
  ([0x6D, 0x6F, 0x6E, 0x5F, 0x74, 0x68, 0x6F, 0x75, 0x73, 0x61, 0x6E, 0x64, 0x73, 0x5F, 0x73, 0x65, 0x70], .mon_thousands_sep),
  ([0x70, 0x6F, 0x73, 0x69, 0x74, 0x69, 0x76, 0x65, 0x5F, 0x73, 0x69, 0x67, 0x6E], .positive_sign),
  ([0x6E, 0x65, 0x67, 0x61, 0x74, 0x69, 0x76, 0x65, 0x5F, 0x73, 0x69, 0x67, 0x6E], .negative_sign),
  ([0x67, 0x72, 0x6F, 0x75, 0x70, 0x69, 0x6E, 0x67], .grouping),
  ([0x6D, 0x6F, 0x6E, 0x5F, 0x67, 0x72, 0x6F, 0x75, 0x70, 0x69, 0x6E, 0x67], .mon_grouping),
  ([0x69, 0x6E, 0x74, 0x5F, 0x66, 0x72, 0x61, 0x63, 0x5F, 0x64, 0x69, 0x67, 0x69, 0x74, 0x73], .int_frac_digits),
  ([0x66, 0x72, 0x61, 0x63, 0x5F, 0x64, 0x69, 0x67, 0x69, 0x74, 0x73], .frac_digits),
  ([0x70, 0x5F, 0x63, 0x73, 0x5F, 0x70, 0x72, 0x65, 0x63, 0x65, 0x64, 0x65, 0x73], .p_cs_precedes),
  ([0x70, 0x5F, 0x73, 0x65, 0x70, 0x5F, 0x62, 0x79, 0x5F, 0x73, 0x70, 0x61, 0x63, 0x65], .p_sep_by_space),
  ([0x6E, 0x5F, 0x63, 0x73, 0x5F, 0x70, 0x72, 0x65, 0x63, 0x65, 0x64, 0x65, 0x73], .n_cs_precedes),
  ([0x6E, 0x5F, 0x73, 0x65, 0x70, 0x5F, 0x62, 0x79, 0x5F, 0x73, 0x70, 0x61, 0x63, 0x65], .n_sep_by_space),
  ([0x70, 0x5F, 0x73, 0x69, 0x67, 0x6E, 0x5F, 0x70, 0x6F, 0x73, 0x6E], .p_sign_posn),
  ([0x6E, 0x5F, 0x73, 0x69, 0x67, 0x6E, 0x5F, 0x70, 0x6F, 0x73, 0x6E], .n_sign_posn),
  ([0x69, 0x6E, 0x74, 0x5F, 0x70, 0x5F, 0x63, 0x73, 0x5F, 0x70, 0x72, 0x65, 0x63, 0x65, 0x64, 0x65, 0x73], .int_p_cs_precedes),
  ([0x69, 0x6E, 0x74, 0x5F, 0x70, 0x5F, 0x73, 0x65, 0x70, 0x5F, 0x62, 0x79, 0x5F, 0x73, 0x70, 0x61, 0x63, 0x65], .int_p_sep_by_space),
  ([0x69, 0x6E, 0x74, 0x5F, 0x6E, 0x5F, 0x63, 0x73, 0x5F, 0x70, 0x72, 0x65, 0x63, 0x65, 0x64, 0x65, 0x73], .int_n_cs_precedes),
  ([0x69, 0x6E, 0x74, 0x5F, 0x6E, 0x5F, 0x73, 0x65, 0x70, 0x5F, 0x62, 0x79, 0x5F, 0x73, 0x70, 0x61, 0x63, 0x65], .int_n_sep_by_space),
  ([0x69, 0x6E, 0x74, 0x5F, 0x70, 0x5F, 0x73, 0x69, 0x67, 0x6E, 0x5F, 0x70, 0x6F, 0x73, 0x6E], .int_p_sign_posn),
  ([0x69, 0x6E, 0x74, 0x5F, 0x6E, 0x5F, 0x73, 0x69, 0x67, 0x6E, 0x5F, 0x70, 0x6F, 0x73, 0x6E], .int_n_sign_posn)]

/-- `PosixLocaleDef::parse` (`src/header/locale/data.rs:279-339`); of the white space at the ends of a line that of ASCII only is removed. -/
def parse (d : Def) : List (List UInt8) → Def
  | [] => d
  | line :: rest => match words (Lookup.trim line) with
    | [] => parse d rest
    | key :: parts =>
      if key.head? = some 0x23 then parse d rest
      else
        let r := value rest parts
        have : r.2.length < rest.length + 1 := Nat.lt_succ_of_le (value_length rest parts)
        if r.1 = [] then parse d r.2
        else match keywords.find? (fun k => k.1 == key) with
          | some k => parse (fun f => if f = k.2 then parseField f r.1 else d f) r.2
          | none => parse d r.2
  termination_by l => l.length

/-- The definition in a file. -/
def parseFile (s : List UInt8) : Def := parse (fun _ => none) (lines s)

/-! ## Locale objects -/

/-- Whether the bytes are UTF-8. -/
def isUtf8 : List UInt8 → Bool
  | [] => true
  | b :: s =>
    if b < 0x80 then isUtf8 s
    else if 0xC2 ≤ b && b ≤ 0xDF then match s with
      | c :: s => 0x80 ≤ c && c ≤ 0xBF && isUtf8 s
      | _ => false
    else if 0xE0 ≤ b && b ≤ 0xEF then match s with
      | c :: d :: s => (if b = 0xE0 then 0xA0 else 0x80) ≤ c && c ≤ (if b = 0xED then 0x9F else 0xBF) && 0x80 ≤ d && d ≤ 0xBF && isUtf8 s
      | _ => false
    else if 0xF0 ≤ b && b ≤ 0xF4 then match s with
      | c :: d :: e :: s => (if b = 0xF0 then 0x90 else 0x80) ≤ c && c ≤ (if b = 0xF4 then 0x8F else 0xBF) && 0x80 ≤ d && d ≤ 0xBF && 0x80 ≤ e && e ≤ 0xBF && isUtf8 s
      | _ => false
    else false
  termination_by s => s.length

/-- `GlobalLocaleData` (`src/header/locale/data.rs:206-210`): the names of the seven categories. -/
structure Global where
  names : Nat → List UInt8
  data : Data

/-- A `locale_t`. -/
inductive Loc where
  | null | global | obj (h : Nat)
  deriving DecidableEq

/-- `GLOBAL_LOCALE`, `THREAD_LOCALE` of each thread, and the objects that were allocated. -/
structure State where
  global : Option Global
  thread : Nat → Option Nat
  heap : Nat → Option Data
  next : Nat

/-- What is below `/usr/share/i18n/locales/`, by name: the content of a file that can be opened and is UTF-8. -/
abbrev Files := List UInt8 → Option (List UInt8)

/-- `load_locale_file` (`src/header/locale/mod.rs:170-183`), or the POSIX locale for the names `C`, `POSIX` and the empty one. -/
def load (files : Files) (name : List UInt8) : Option Data :=
  if name = [] ∨ name = [0x43] ∨ name = [0x50, 0x4F, 0x53, 0x49, 0x58] then some posix
  else (files name).map fun s => newData (parseFile s)

/-- `GlobalLocaleData::new` (`src/header/locale/data.rs:213-227`). -/
def newGlobal : Global := { names := fun _ => [0x43], data := posix }

/-- `setlocale` (`src/header/locale/mod.rs:56-91`). -/
def setlocale (files : Files) (st : State) (category : Int) (name : Option (List UInt8)) : Option (List UInt8) × State :=
  let g := st.global.getD newGlobal
  let st := { st with global := some g }
  let valid := 0 ≤ category ∧ category < 7
  match name with
  | none => (if valid then some (g.names category.toNat) else none, st)
  | some name =>
    let name := if isUtf8 name then name else [0x43]
    match load files name with
    | none => (none, st)
    | some d =>
      let data := copyCategory g.data d category
      if valid then (some name, { st with global := some { names := fun i => if i = category.toNat then name else g.names i, data := data } })
      else (none, { st with global := some { g with data := data } })

/-- `uselocale` (`src/header/locale/mod.rs:95-113`). -/
def uselocale (st : State) (t : Nat) (newloc : Loc) : Loc × State :=
  let old := match st.thread t with
    | none => Loc.global
    | some h => .obj h
  (old, match newloc with
    | .null => st
    | .global => { st with thread := fun i => if i = t then none else st.thread i }
    | .obj h => { st with thread := fun i => if i = t then some h else st.thread i })

/-- `localeconv` (`src/header/locale/mod.rs:39-52`); none for an object that was freed. -/
def localeconv (st : State) (t : Nat) : Option Data := match (uselocale st t .null).1 with
  | .obj h => st.heap h
  | _ => match st.global with
    | some g => some g.data
    | none => some posixLconv

def LC_MONETARY_MASK : UInt32 := 8
def LC_NUMERIC_MASK : UInt32 := 0x10

/-- A new object. -/
def alloc (st : State) (d : Data) : Loc × State := (.obj st.next, { st with heap := fun i => if i = st.next then some d else st.heap i, next := st.next + 1 })

/-- `newlocale` (`src/header/locale/mod.rs:119-145`); a name that is not UTF-8 is looked up with replacement characters, for which there is no file. `none` is a base that was freed. -/
def newlocale (files : Files) (st : State) (mask : UInt32) (name : List UInt8) (base : Loc) : Option (Loc × State) :=
  match (if isUtf8 name then load files name else none) with
  | none => some (.null, st)
  | some d => match base with
    | .obj h => match st.heap h with
      | none => none
      | some b =>
        let d := if mask &&& LC_NUMERIC_MASK = 0 then copyCategory d b LC_NUMERIC else d
        let d := if mask &&& LC_MONETARY_MASK = 0 then copyCategory d b LC_MONETARY else d
        some (alloc st d)
    | _ => some (alloc st d)

/-- `freelocale` (`src/header/locale/mod.rs:149-153`). -/
def freelocale (st : State) (loc : Loc) : Option State := match loc with
  | .obj h => (st.heap h).map fun _ => { st with heap := fun i => if i = h then none else st.heap i }
  | _ => some st

/-- `duplocale` (`src/header/locale/mod.rs:157-168`). -/
def duplocale (st : State) (loc : Loc) : Option (Loc × State) := match loc with
  | .null => some (.null, st)
  | .global => some (alloc st posix)
  | .obj h => (st.heap h).map (alloc st)

/-- The start of the process. -/
def start : State := { global := none, thread := fun _ => none, heap := fun _ => none, next := 0 }

end Verif.Locale
