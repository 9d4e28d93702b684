import Verif.Mem.Basic
import Verif.Stdlib.RandomModel
import Verif.Wchar.Utf8Model
/-!
# `printf`

`src/header/stdio/printf.rs` for narrow formats (`c_str::Thin`), and the writers behind `snprintf` and `sprintf`
(`src/platform/mod.rs`, `src/header/stdio/mod.rs`).

* `size_t`, `long`, `long long`, `intmax_t`, `ptrdiff_t`, `ssize_t` and pointers have 64 bits, as on x86-64 and aarch64;
  the constructors of `VaArg` that hold 64-bit integers are one constructor here.
* The variable argument list is the list of the 64-bit words that hold the integer and pointer arguments. Reading an
  `int` takes the low 32 bits. `none` = more arguments are read than were passed.
* Floating-point conversions are not modelled: a format that contains one has no result (`none`).
* The functions return the slices handed to the writer, in order; a writer that never fails is assumed. What the
  writer does with them is separate (`StringWriter.writeAll`), so a destination that overlaps the format or an argument
  string is not modelled (it is undefined in C).
* `none` = a fault, a panic, or something not modelled.
-/

namespace Verif.Stdio
open Verif.Mem Verif.Stdlib Verif.Wchar

/-! ## Arguments -/

/-- `IntKind` (`src/header/stdio/printf.rs:39-48`). -/
inductive IntKind where
  | byte | short | int | long | longLong | intMax | ptrDiff | size
  deriving DecidableEq

/-- `FmtKind` (`src/header/stdio/printf.rs:50-64`). -/
inductive FmtKind where
  | percent | signed | unsigned | scientific | decimal | anyNotation | string | char | pointer | getWritten
  deriving DecidableEq

/-- `Number` (`src/header/stdio/printf.rs:66-70`). -/
inductive Number where
  | static (n : Nat)
  | index (i : Nat)
  | next
  deriving DecidableEq

/-- `VaArg` (`src/header/stdio/printf.rs:102-115`) without the floating-point constructors; `c_long`, `c_longlong`,
`intmax_t`, `ptrdiff_t` and `ssize_t` are all `i64`. -/
inductive VaArg where
  | char (i : Int8)
  | short (i : Int16)
  | int (i : Int32)
  | i64 (i : Int64)
  | pointer (p : UInt64)
  | wint (c : UInt32)
  deriving DecidableEq

/-- The remaining words of the argument list. -/
abbrev VaList := List UInt64

/-- `VaArg::arg_from` (`src/header/stdio/printf.rs:117-174`) on the next word. -/
def argOf (fk : FmtKind) (ik : IntKind) (w : UInt64) : Option VaArg :=
  match fk, ik with
  | .percent, _ => none
  | .char, .long | .char, .longLong => some (.wint w.toUInt32)
  | .char, _ | .unsigned, .byte | .signed, .byte => some (.char w.toUInt8.toInt8)
  | .unsigned, .short | .signed, .short => some (.short w.toUInt16.toInt16)
  | .unsigned, .int | .signed, .int => some (.int w.toUInt32.toInt32)
  | .unsigned, _ | .signed, _ => some (.i64 w.toInt64)
  | .scientific, _ | .decimal, _ | .anyNotation, _ => none
  | .getWritten, _ | .pointer, _ | .string, _ => some (.pointer w)

/-- `VaArg::arg_from` (`src/header/stdio/printf.rs:117-174`). -/
def argFrom (fk : FmtKind) (ik : IntKind) : VaList → Option (VaArg × VaList)
  | [] => none
  | w :: ap => do
    let a ← argOf fk ik w
    some (a, ap)

/-- `VaArg::c_int(ap.next_arg::<c_int>())`. -/
def nextInt : VaList → Option (VaArg × VaList)
  | [] => none
  | w :: ap => some (.int w.toUInt32.toInt32, ap)

/-- The bytes of the union `Untyped` after one member was written. The bytes the member does not cover are
indeterminate in the code; here they are 0. -/
def VaArg.bits : VaArg → UInt64
  | .char i => i.toUInt8.toUInt64
  | .short i => i.toUInt16.toUInt64
  | .int i => i.toUInt32.toUInt64
  | .i64 i => i.toUInt64
  | .pointer p => p
  | .wint c => c.toUInt64

/-- `VaArg::transmute` (`src/header/stdio/printf.rs:241-323`). -/
def VaArg.transmute (a : VaArg) (fk : FmtKind) (ik : IntKind) : Option VaArg := argOf fk ik a.bits

/-- `VaListCache` (`src/header/stdio/printf.rs:326-329`). -/
structure Cache where
  args : List VaArg
  i : Nat

/-- The first loop of `VaListCache::get` (`src/header/stdio/printf.rs:347-355`): `n` more arguments as `c_int`. -/
def fillInts : Nat → List VaArg → VaList → Option (List VaArg × VaList)
  | 0, args, ap => some (args, ap)
  | n + 1, args, ap => do
    let (a, ap) ← nextInt ap
    fillInts n (args ++ [a]) ap

/-- `VaListCache::get` (`src/header/stdio/printf.rs:331-365`). -/
def Cache.get (c : Cache) (i : Nat) (ap : VaList) (default : Option (FmtKind × IntKind)) :
    Option (VaArg × Cache × VaList) :=
  match c.args[i]? with
  | some arg =>
    match default with
    | some (fk, ik) => do
      let a ← arg.transmute fk ik
      some (a, c, ap)
    | none => some (arg, c, ap)
  | none => do
    let (args, ap) ← fillInts (i - c.args.length) c.args ap
    let (a, ap) ← match default with
      | some (fk, ik) => argFrom fk ik ap
      | none => nextInt ap
    some (a, { c with args := args ++ [a] }, ap)

/-- The conversions `i as usize` of `Number::resolve` (`src/header/stdio/printf.rs:82-98`). -/
def VaArg.toUsize : VaArg → Nat
  | .char i => i.toInt64.toUInt64.toNat
  | .short i => i.toInt64.toUInt64.toNat
  | .int i => i.toInt64.toUInt64.toNat
  | .i64 i => i.toUInt64.toNat
  | .pointer p => p.toNat
  | .wint c => c.toNat

/-- `Number::resolve` (`src/header/stdio/printf.rs:72-99`). Position 0 (`i - 1` wraps) is not modelled. -/
def Number.resolve (n : Number) (c : Cache) (ap : VaList) : Option (Nat × Cache × VaList) :=
  match n with
  | .static num => some (num, c, ap)
  | .index 0 => none
  | .index (i + 1) => do
    let (a, c, ap) ← c.get i ap none
    some (a.toUsize, c, ap)
  | .next => do
    let (a, c, ap) ← { c with i := c.i + 1 }.get c.i ap none
    some (a.toUsize, c, ap)

/-! ## The format -/

/-- `PrintfArg` (`src/header/stdio/printf.rs:598-610`). -/
structure PrintfArg where
  index : Option Nat
  alternate : Bool
  zero : Bool
  left : Bool
  signReserve : Bool
  signAlways : Bool
  minWidth : Number
  precision : Option Number
  intkind : IntKind
  fmt : UInt8
  fmtkind : FmtKind
  deriving DecidableEq

/-- `PrintfFmt` (`src/header/stdio/printf.rs:612-615`), and the error item of the iterator. -/
inductive Item where
  | plain (l : List UInt8)
  | arg (a : PrintfArg)
  | err
  deriving DecidableEq

/-- `pop_int_raw` (`src/header/stdio/printf.rs:387-401`); `usize` arithmetic wraps. -/
def popIntLoop (int : Option Nat) : List UInt8 → Option Nat × List UInt8
  | [] => (int, [])
  | c :: rest =>
    if 0x30 ≤ c ∧ c ≤ 0x39 then
      popIntLoop (some ((int.getD 0 * 10 % 2 ^ 64 + (c.toNat - 0x30)) % 2 ^ 64)) rest
    else (int, c :: rest)

/-- `pop_index` (`src/header/stdio/printf.rs:402-412`). -/
def popIndex (f : List UInt8) : Option Nat × List UInt8 :=
  match popIntLoop none f with
  | (some i, 0x24 :: rest) => (some i, rest)
  | _ => (none, f)

/-- `pop_int` (`src/header/stdio/printf.rs:413-420`). -/
def popInt (f : List UInt8) : Option Number × List UInt8 :=
  match f with
  | 0x2A :: rest =>
    match popIndex rest with
    | (some i, rest) => (some (.index i), rest)
    | (none, rest) => (some .next, rest)
  | _ =>
    match popIntLoop none f with
    | (n, rest) => (n.map .static, rest)

/-- The flags. -/
structure Flags where
  alternate : Bool := false
  zero : Bool := false
  left : Bool := false
  signReserve : Bool := false
  signAlways : Bool := false
  deriving DecidableEq

/-- The loop over the flags (`src/header/stdio/printf.rs:645-655`). -/
def popFlags (fl : Flags) : List UInt8 → Flags × List UInt8
  | [] => (fl, [])
  | c :: rest =>
    if c = 0x23 then popFlags { fl with alternate := true } rest
    else if c = 0x30 then popFlags { fl with zero := true } rest
    else if c = 0x2D then popFlags { fl with left := true } rest
    else if c = 0x20 then popFlags { fl with signReserve := true } rest
    else if c = 0x2B then popFlags { fl with signAlways := true } rest
    else (fl, c :: rest)

/-- The loop over the length modifiers (`src/header/stdio/printf.rs:670-695`). -/
def popLen (k : IntKind) : List UInt8 → IntKind × List UInt8
  | [] => (k, [])
  | c :: rest =>
    if c = 0x68 then popLen (if k = .short ∨ k = .byte then .byte else .short) rest
    else if c = 0x6A then popLen .intMax rest
    else if c = 0x6C then popLen (if k = .long ∨ k = .longLong then .longLong else .long) rest
    else if c = 0x71 ∨ c = 0x4C then popLen .longLong rest
    else if c = 0x74 then popLen .ptrDiff rest
    else if c = 0x7A then popLen .size rest
    else (k, c :: rest)

/-- The conversion letter (`src/header/stdio/printf.rs:700-727`) but for `%m`. -/
def kindOf (c : UInt8) : Option FmtKind :=
  if c = 0x25 then some .percent
  else if c = 0x64 ∨ c = 0x69 then some .signed
  else if c = 0x6F ∨ c = 0x75 ∨ c = 0x78 ∨ c = 0x58 then some .unsigned
  else if c = 0x62 ∨ c = 0x42 then some .unsigned
  else if c = 0x65 ∨ c = 0x45 then some .scientific
  else if c = 0x66 ∨ c = 0x46 ∨ c = 0x4C then some .decimal
  else if c = 0x67 ∨ c = 0x47 then some .anyNotation
  else if c = 0x73 then some .string
  else if c = 0x63 then some .char
  else if c = 0x70 then some .pointer
  else if c = 0x6E then some .getWritten
  else none

/-- The letters for which a precision switches the `0` flag off (`src/header/stdio/printf.rs:730-735`). -/
def isIntConv (c : UInt8) : Bool :=
  c = 0x62 || c = 0x42 || c = 0x64 || c = 0x69 || c = 0x6F || c = 0x75 || c = 0x78 || c = 0x58

/-- `PrintfIter::next` after the length modifiers (`src/header/stdio/printf.rs:696-750`). -/
def popConv (errText : List UInt8) (index : Option Nat) (fl : Flags) (width : Number) (precision : Option Number)
    (k : IntKind) : List UInt8 → Item × List UInt8
  | [] => (.err, [])
  | c :: rest =>
    if c = 0x6D then (.plain errText, rest)
    else
      match kindOf c with
      | none => (.err, rest)
      | some fk =>
        (.arg ⟨index, fl.alternate, if isIntConv c && precision.isSome then false else fl.zero, fl.left,
          fl.signReserve, fl.signAlways, width, precision, k, c, fk⟩, rest)

/-- `PrintfIter::next` after a `%` (`src/header/stdio/printf.rs:633-750`). -/
def popSpec (errText : List UInt8) (f : List UInt8) : Item × List UInt8 :=
  let (index, f) := popIndex f
  let (fl, f) := popFlags {} f
  let (w, f) := popInt f
  let width := w.getD (.static 0)
  match f with
  | 0x2E :: f =>
    match popInt f with
    | (none, f) => (.err, f)
    | (some p, f) =>
      let (k, f) := popLen .int f
      popConv errText index fl width (some p) k f
  | f =>
    let (k, f) := popLen .int f
    popConv errText index fl width none k f

/-- `PrintfIter::next` (`src/header/stdio/printf.rs:619-750`). -/
def nextItem (errText : List UInt8) (f : List UInt8) : Option (Item × List UInt8) :=
  match f.takeWhile (· != 0x25), f.dropWhile (· != 0x25) with
  | [], [] => none
  | [], _ :: rest => some (popSpec errText rest)
  | chunk, rest => some (.plain chunk, rest)

/-- The items of the format up to the first error. `errText` is the text of the current `errno` (`%m`). -/
def items (errText : List UInt8) (f : List UInt8) : Option (List Item) :=
  match nextItem errText f with
  | none => some []
  | some (.err, _) => some [.err]
  | some (it, rest) => do
    let l ← items errText rest
    some (it :: l)
partial_fixpoint

/-! ## The first pass -/

/-- `BTreeMap::insert`. -/
def insertPos (k : Nat) (v : FmtKind × IntKind) : List (Nat × FmtKind × IntKind) → List (Nat × FmtKind × IntKind)
  | [] => [(k, v)]
  | (k', v') :: l => if k < k' then (k, v) :: (k', v') :: l else if k = k' then (k, v) :: l else (k', v') :: insertPos k v l

/-- State of the first pass. -/
structure Pre where
  args : List VaArg
  positional : List (Nat × FmtKind × IntKind)
  ap : VaList

/-- Pre-fetching of a width or precision (`src/header/stdio/printf.rs:776-786`). -/
def Pre.number (s : Pre) : Number → Option Pre
  | .next => do
    let (a, ap) ← nextInt s.ap
    some { s with args := s.args ++ [a], ap }
  | .index 0 => none
  | .index (i + 1) => some { s with positional := insertPos i (.signed, .int) s.positional }
  | .static _ => some s

/-- Pre-fetching of the argument proper (`src/header/stdio/printf.rs:787-794`). -/
def Pre.value (s : Pre) (a : PrintfArg) : Option Pre :=
  match a.index with
  | some 0 => none
  | some (i + 1) => some { s with positional := insertPos i (a.fmtkind, a.intkind) s.positional }
  | none => do
    let (v, ap) ← argFrom a.fmtkind a.intkind s.ap
    some { s with args := s.args ++ [v], ap }

/-- One conversion in the first pass (`src/header/stdio/printf.rs:773-794`). -/
def Pre.step (s : Pre) (a : PrintfArg) : Option Pre :=
  if a.fmtkind = .percent then some s
  else do
    let s ← s.number a.minWidth
    let s ← s.number (a.precision.getD (.static 0))
    s.value a

/-- The first pass (`src/header/stdio/printf.rs:767-795`); the inner `none` = the format is malformed. -/
def prefetch (s : Pre) : List Item → Option (Option Pre)
  | [] => some (some s)
  | .plain _ :: l => prefetch s l
  | .arg a :: l => do
    let s ← s.step a
    prefetch s l
  | .err :: _ => some none

/-- The arguments given by position (`src/header/stdio/printf.rs:798-800`). -/
def fetchPositional (c : Cache) (ap : VaList) : List (Nat × FmtKind × IntKind) → Option (Cache × VaList)
  | [] => some (c, ap)
  | (i, fk, ik) :: l => do
    let (_, c, ap) ← c.get i ap (some (fk, ik))
    fetchPositional c ap l

/-! ## Conversions -/

/-- The slices handed to the writer. -/
abbrev Chunks := List (List UInt8)

/-- `pad` (`src/header/stdio/printf.rs:436-448`): one byte at a time. -/
def pad (side : Bool) (c : UInt8) (start stop : Nat) : Chunks :=
  if side then List.replicate (stop - start) [c] else []

/-- The digit of Rust's integer formatting. -/
def digitByte (upper : Bool) (d : Nat) : UInt8 :=
  if d < 10 then UInt8.ofNat (0x30 + d) else if upper then UInt8.ofNat (0x37 + d) else UInt8.ofNat (0x57 + d)

/-- Rust's `Display`, `Octal`, `LowerHex`, `UpperHex`, `Binary` for unsigned integers. -/
def digitsOf (base : Nat) (upper : Bool) (n : Nat) : List UInt8 :=
  if _h : n < base ∨ base < 2 then [digitByte upper n]
  else digitsOf base upper (n / base) ++ [digitByte upper (n % base)]
termination_by n
decreasing_by exact Nat.div_lt_self (by have := _h; omega) (by have := _h; omega)

/-- `to_string` of a signed integer. -/
def signedString (v : Int) : List UInt8 :=
  if v < 0 then 0x2D :: digitsOf 10 false v.natAbs else digitsOf 10 false v.natAbs

/-- `fmt_int` (`src/header/stdio/printf.rs:422-434`). -/
def fmtInt (fmt : UInt8) (n : Nat) : Option (List UInt8) :=
  if fmt = 0x6F then some (digitsOf 8 false n)
  else if fmt = 0x75 then some (digitsOf 10 false n)
  else if fmt = 0x78 then some (digitsOf 16 false n)
  else if fmt = 0x58 then some (digitsOf 16 true n)
  else if fmt = 0x62 ∨ fmt = 0x42 then some (digitsOf 2 false n)
  else none

/-- The value of a `%d` argument (`src/header/stdio/printf.rs:865-880`). -/
def VaArg.signedVal : VaArg → Option Int
  | .char i => some i.toInt
  | .short i => some i.toInt
  | .int i => some i.toInt
  | .i64 i => some i.toInt
  | .pointer p => some p.toNat
  | .wint _ => none

/-- The value of a `%u` argument (`src/header/stdio/printf.rs:916-931`). -/
def VaArg.unsignedVal : VaArg → Option Nat
  | .char i => some i.toUInt8.toNat
  | .short i => some i.toUInt16.toNat
  | .int i => some i.toUInt32.toNat
  | .i64 i => some i.toUInt64.toNat
  | .pointer p => some p.toNat
  | .wint _ => none

/-- How a conversion is laid out: the results of `src/header/stdio/printf.rs:820-840`. -/
structure Layout where
  alternate : Bool
  left : Bool
  signReserve : Bool
  signAlways : Bool
  padSpace : Nat
  padZero : Nat
  precision : Option Nat

/-- `FmtKind::Signed` (`src/header/stdio/printf.rs:864-914`). -/
def signedChunks (L : Layout) (v : Int) : Chunks :=
  let string := signedString v
  let positive := string.head? != some 0x2D
  let zero : Bool := L.precision = some 0 ∧ string = [0x30]
  let len := if zero then 0 else string.length
  let finalLen := if zero then 0
    else max string.length (L.precision.getD 0) + (if positive && (L.signReserve || L.signAlways) then 1 else 0)
  let sign : Chunks := if positive then
      if L.signReserve then [[0x20]] else if L.signAlways then [[0x2B]] else []
    else [[0x2D]]
  let bytes := if positive then string else string.tail
  pad (!L.left) 0x20 finalLen L.padSpace ++ sign ++ pad true 0x30 len (L.precision.getD L.padZero)
    ++ (if zero then [] else [bytes]) ++ pad L.left 0x20 finalLen L.padSpace

/-- The prefix of the alternate form and its length (`src/header/stdio/printf.rs:945-968`). -/
def altPrefix (L : Layout) (fmt : UInt8) (string : List UInt8) : List UInt8 :=
  let noPrecision : Bool := match L.precision with
    | some pad => pad < string.length
    | none => true
  if L.alternate && string != [0x30] then
    if fmt = 0x6F && noPrecision then [0x30]
    else if fmt = 0x78 then [0x30, 0x78]
    else if fmt = 0x58 then [0x30, 0x58]
    else if fmt = 0x62 then [0x30, 0x62]
    else if fmt = 0x42 then [0x30, 0x42]
    else []
  else []

/-- `FmtKind::Unsigned` (`src/header/stdio/printf.rs:915-976`). -/
def unsignedChunks (L : Layout) (fmt : UInt8) (n : Nat) : Option Chunks := do
  let string ← fmtInt fmt n
  let zero : Bool := L.precision = some 0 ∧ string = [0x30]
  let len := if zero then 0 else string.length
  let finalLen := if zero then 0 else max string.length (L.precision.getD 0) + (altPrefix L fmt string).length
  some (pad (!L.left) 0x20 finalLen L.padSpace ++ [altPrefix L fmt string]
    ++ pad true 0x30 len (L.precision.getD L.padZero) ++ (if zero then [] else [string])
    ++ pad L.left 0x20 finalLen L.padSpace)

/-- The length loop of `%s` (`src/header/stdio/printf.rs:1087-1090`). -/
def strLenLoop (m : Mem UInt8) (ptr max len : Nat) : Option Nat := do
  let b ← m (ptr + len)
  if b ≠ 0 ∧ len < max then strLenLoop m ptr max (len + 1) else some len
partial_fixpoint

/-- The loop of `%ls` (`src/header/stdio/printf.rs:1071-1081`); the inner `none` = `EILSEQ`. -/
def wideLoop (m : Mem UInt8) (ptr max : Nat) (string : List UInt8) : Option (Option (List UInt8)) := do
  let c ← rd32 m ptr
  if c = 0 then some (some string)
  else if isChar c then
    if string.length + (encode c).length ≥ max then some (some string)
    else wideLoop m (ptr + 4) max (string ++ encode c)
  else some none
partial_fixpoint

/-- `pad`, text, `pad`. -/
def padded (L : Layout) (len : Nat) (text : List UInt8) : Chunks :=
  pad (!L.left) 0x20 len L.padSpace ++ [text] ++ pad L.left 0x20 len L.padSpace

/-- `FmtKind::String` (`src/header/stdio/printf.rs:1052-1097`); the inner `none` = `EILSEQ`. -/
def stringChunks (m : Mem UInt8) (L : Layout) (ik : IntKind) (ptr : Nat) : Option (Option Chunks) :=
  if ptr = 0 then some (some [[0x28, 0x6E, 0x75, 0x6C, 0x6C, 0x29]])
  else
    let max := L.precision.getD (2 ^ 64 - 1)
    if ik = .long ∨ ik = .longLong then do
      match ← wideLoop m ptr max [] with
      | some s => some (some (padded L s.length s))
      | none => some none
    else do
      let len ← strLenLoop m ptr max 0
      let s ← readN m ptr len
      some (some (padded L len s))

/-- `FmtKind::Char` (`src/header/stdio/printf.rs:1098-1118`); the inner `none` = `EILSEQ`. -/
def charChunks (L : Layout) : VaArg → Option (Option Chunks)
  | .char c => some (some (padded L 1 [c.toUInt8]))
  | .wint c => if isChar c then some (some (padded L 1 (encode c))) else some none
  | _ => none

/-- `FmtKind::Pointer` (`src/header/stdio/printf.rs:1119-1144`); the length is the number of decimal digits. -/
def pointerChunks (L : Layout) (p : Nat) : Chunks :=
  if p = 0 then padded L 5 [0x28, 0x6E, 0x69, 0x6C, 0x29]
  else padded L (digitsOf 10 false p).length ([0x30, 0x78] ++ digitsOf 16 false p)

/-- The number of bytes `%n` stores (`src/header/stdio/printf.rs:1152-1165`). -/
def IntKind.bytes : IntKind → Nat
  | .byte => 1
  | .short => 2
  | .int => 4
  | _ => 8

/-- A store made by `%n`: `value` in little-endian order at `ptr`. -/
structure NStore where
  ptr : Nat
  bytes : Nat
  value : Nat
  deriving DecidableEq

/-- State of the main loop. -/
structure St where
  cache : Cache
  ap : VaList
  out : Chunks
  stores : List NStore

/-- The result of a conversion. -/
inductive Conv where
  | text (c : Chunks)
  | store (s : NStore)
  | eilseq

/-- The number of bytes counted by `CountingWriter` (`src/platform/mod.rs:269-277`). -/
def St.written (s : St) : Nat := s.out.flatten.length

/-- `src/header/stdio/printf.rs:820-840`: widths and precision of a conversion. `n as c_int >= 0`,
`min_width as isize` and `-signed_space as usize` are written out on naturals below `2^64`. -/
def layoutOf (a : PrintfArg) (minWidth : Nat) (precision : Option Nat) : Layout :=
  let precision := precision.filter (fun n => n % 2 ^ 32 < 2 ^ 31)
  let padZero := if a.zero then minWidth else 0
  let signedSpace := if padZero = 0 then minWidth else 0
  if signedSpace < 2 ^ 63 then
    ⟨a.alternate, a.left, a.signReserve, a.signAlways, signedSpace, padZero, precision⟩
  else
    ⟨a.alternate, true, a.signReserve, a.signAlways, 2 ^ 64 - signedSpace, padZero, precision⟩

/-- The conversions (`src/header/stdio/printf.rs:862-1167`). -/
def convert (m : Mem UInt8) (a : PrintfArg) (L : Layout) (written : Nat) (v : VaArg) : Option Conv :=
  match a.fmtkind with
  | .percent => some (.text [[0x25]])
  | .signed => do
    let n ← v.signedVal
    some (.text (signedChunks L n))
  | .unsigned => do
    let n ← v.unsignedVal
    let c ← unsignedChunks L a.fmt n
    some (.text c)
  | .string =>
    match v with
    | .pointer p => do
      match ← stringChunks m L a.intkind p.toNat with
      | some c => some (.text c)
      | none => some .eilseq
    | _ => none
  | .char => do
    match ← charChunks L v with
    | some c => some (.text c)
    | none => some .eilseq
  | .pointer =>
    match v with
    | .pointer p => some (.text (pointerChunks L p.toNat))
    | _ => none
  | .getWritten =>
    match v with
    | .pointer p => some (.store ⟨p.toNat, a.intkind.bytes, written % 2 ^ (8 * a.intkind.bytes)⟩)
    | _ => none
  | .scientific | .decimal | .anyNotation => none

/-- Resolution of a precision (`src/header/stdio/printf.rs:826-828`). -/
def resolvePrecision (p : Option Number) (c : Cache) (ap : VaList) : Option (Option Nat × Cache × VaList) :=
  match p with
  | none => some (none, c, ap)
  | some n => do
    let (v, c, ap) ← n.resolve c ap
    some (some v, c, ap)

/-- The argument of a conversion (`src/header/stdio/printf.rs:852-860` and `varargs.get`). -/
def argument (a : PrintfArg) (c : Cache) (ap : VaList) : Option (VaArg × Cache × VaList) :=
  match a.index with
  | some 0 => none
  | some (i + 1) => c.get i ap (some (a.fmtkind, a.intkind))
  | none => { c with i := c.i + 1 }.get c.i ap (some (a.fmtkind, a.intkind))

/-- One conversion in the main loop (`src/header/stdio/printf.rs:820-1167`); the inner `none` = `EILSEQ`. -/
def St.conv (m : Mem UInt8) (s : St) (a : PrintfArg) : Option (Option St) := do
  let (minWidth, c, ap) ← a.minWidth.resolve s.cache s.ap
  let (precision, c, ap) ← resolvePrecision a.precision c ap
  let L := layoutOf a minWidth precision
  if a.fmtkind = .percent then some (some { s with cache := c, ap, out := s.out ++ [[0x25]] })
  else do
    let (v, c, ap) ← argument a c ap
    match ← convert m a L s.written v with
    | .text t => some (some { s with cache := c, ap, out := s.out ++ t })
    | .store n => some (some { s with cache := c, ap, stores := s.stores ++ [n] })
    | .eilseq => some none

/-- The main loop (`src/header/stdio/printf.rs:803-1168`): slices written, stores by `%n` and return value. -/
def mainLoop (m : Mem UInt8) (s : St) : List Item → Option (Chunks × List NStore × Int32)
  | [] => some (s.out, s.stores, Int32.ofNat s.written)
  | .plain t :: l => mainLoop m { s with out := s.out ++ [t] } l
  | .err :: _ => some (s.out, s.stores, -1)
  | .arg a :: l => do
    match ← s.conv m a with
    | some s => mainLoop m s l
    | none => some (s.out, s.stores, -1)

/-- `inner_printf` with `printf` (`src/header/stdio/printf.rs:753-1170`, `:1440-1442`): slices written, stores by `%n`
and return value, for the format `f` (without its terminator) and the argument words `ap`. -/
def printf (m : Mem UInt8) (errText : List UInt8) (f : List UInt8) (ap : VaList) :
    Option (Chunks × List NStore × Int32) := do
  let its ← items errText f
  match ← prefetch ⟨[], [], ap⟩ its with
  | none => some ([], [], -1)
  | some pre => do
    let (c, ap) ← fetchPositional ⟨pre.args, 0⟩ pre.ap pre.positional
    mainLoop m ⟨c, ap, [], []⟩ its

/-! ## Writers -/

/-- `StringWriter` (`src/platform/mod.rs:145`): the place of the next byte and the space left. -/
structure StringWriter where
  ptr : Nat
  cap : Nat

/-- `StringWriter::write` (`src/platform/mod.rs:147-165`). -/
def StringWriter.write (w : StringWriter) (m : Mem UInt8) (buf : List UInt8) : Option (StringWriter × Mem UInt8) :=
  if w.cap > 1 then do
    let n := min buf.length (w.cap - 1)
    let m ← writeN m w.ptr (buf.take n)
    let m ← Mem.store m (w.ptr + n) 0
    some (⟨w.ptr + n, w.cap - n⟩, m)
  else some (w, m)

/-- `Write::write_all` (`src/io/mod.rs:1754-1769`) for each slice: an empty slice is not written at all, and `write`
claims to have written everything. -/
def StringWriter.writeAll (w : StringWriter) (m : Mem UInt8) : Chunks → Option (StringWriter × Mem UInt8)
  | [] => some (w, m)
  | buf :: l =>
    if buf = [] then w.writeAll m l
    else do
      let (w, m) ← w.write m buf
      w.writeAll m l

/-- `UnsafeStringWriter::write` (`src/platform/mod.rs:189-196`). -/
def unsafeWrite (ptr : Nat) (m : Mem UInt8) (buf : List UInt8) : Option (Nat × Mem UInt8) := do
  let m ← writeN m ptr buf
  let m ← Mem.store m (ptr + buf.length) 0
  some (ptr + buf.length, m)

/-- `Write::write_all` (`src/io/mod.rs:1754-1769`) of `UnsafeStringWriter` for each slice. -/
def unsafeWriteAll (ptr : Nat) (m : Mem UInt8) : Chunks → Option (Nat × Mem UInt8)
  | [] => some (ptr, m)
  | buf :: l =>
    if buf = [] then unsafeWriteAll ptr m l
    else do
      let (ptr, m) ← unsafeWrite ptr m buf
      unsafeWriteAll ptr m l

/-- `snprintf`, `vsnprintf` (`src/header/stdio/mod.rs:1608-1638`): return value and memory. Formats with `%n` are left
out. -/
def snprintf (m : Mem UInt8) (errText : List UInt8) (s n : Nat) (f : List UInt8) (ap : VaList) :
    Option (Int32 × Mem UInt8) := do
  let (out, _, r) ← printf m errText f ap
  let (_, m) ← (⟨s, n⟩ : StringWriter).writeAll m out
  some (r, m)

/-- `sprintf`, `vsprintf` (`src/header/stdio/mod.rs:1642-1664`): return value and memory. Formats with `%n` are left
out. -/
def sprintf (m : Mem UInt8) (errText : List UInt8) (s : Nat) (f : List UInt8) (ap : VaList) :
    Option (Int32 × Mem UInt8) := do
  let (out, _, r) ← printf m errText f ap
  let (_, m) ← unsafeWriteAll s m out
  some (r, m)

end Verif.Stdio
