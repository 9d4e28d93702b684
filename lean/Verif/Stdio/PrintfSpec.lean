import Verif.Mem.Basic
/-!
# What `printf` prints

The conversions of ISO C (7.23.6.1) and POSIX `fprintf`, without reference to the code: directives, the text they are
written as in a format, the arguments they consume and the text they produce.
-/

namespace Verif.Stdio
open Verif.Mem

/-- A flag character. -/
inductive Flag where
  | alt | zero | left | space | plus
  deriving DecidableEq

/-- A width or precision: left out, a decimal numeral (its digits), or `*`. -/
inductive Count where
  | none
  | lit (ds : List (Fin 10))
  | star
  deriving DecidableEq

/-- A length modifier. -/
inductive Len where
  | none | hh | h | l | ll | j | z | t
  deriving DecidableEq

/-- A conversion specifier (without the floating-point ones and `%p`). -/
inductive Cv where
  | percent | d | i | o | u | x | X | b | B | c | s | n
  deriving DecidableEq

/-- A conversion specification. -/
structure Dir where
  flags : List Flag
  width : Count
  prec : Count
  len : Len
  cv : Cv

/-! ## Spelling -/

def Flag.byte : Flag → UInt8
  | .alt => 0x23 | .zero => 0x30 | .left => 0x2D | .space => 0x20 | .plus => 0x2B

def digit (d : Fin 10) : UInt8 := UInt8.ofNat (0x30 + d.val)

def Count.text : Count → List UInt8
  | .none => []
  | .lit ds => ds.map digit
  | .star => [0x2A]

def Len.text : Len → List UInt8
  | .none => [] | .hh => [0x68, 0x68] | .h => [0x68] | .l => [0x6C] | .ll => [0x6C, 0x6C] | .j => [0x6A]
  | .z => [0x7A] | .t => [0x74]

def Cv.byte : Cv → UInt8
  | .percent => 0x25 | .d => 0x64 | .i => 0x69 | .o => 0x6F | .u => 0x75 | .x => 0x78 | .X => 0x58 | .b => 0x62
  | .B => 0x42 | .c => 0x63 | .s => 0x73 | .n => 0x6E

/-- The precision with its period. -/
def Dir.precText (d : Dir) : List UInt8 :=
  match d.prec with
  | .none => []
  | p => 0x2E :: p.text

/-- A conversion specification as it stands in a format. -/
def Dir.text (d : Dir) : List UInt8 :=
  0x25 :: (d.flags.map Flag.byte ++ (d.width.text ++ (d.precText ++ (d.len.text ++ [d.cv.byte]))))

/-- The number written. -/
def litVal (ds : List (Fin 10)) : Nat := ds.foldl (fun a d => 10 * a + d.val) 0

/-- Numerals as they may be written: a width does not start with 0, and both fit in an `int`. A precision has digits. The
flag `0` is not defined for `%c` and `%s`. -/
structure Dir.Ok (d : Dir) : Prop where
  width : ∀ ds, d.width = .lit ds → ds ≠ [] ∧ ds.head? ≠ some 0 ∧ litVal ds < 2 ^ 31
  prec : ∀ ds, d.prec = .lit ds → ds ≠ [] ∧ litVal ds < 2 ^ 31
  percent : d.cv = .percent → d.flags = [] ∧ d.width = .none ∧ d.prec = .none ∧ d.len = .none
  zero : d.cv = .c ∨ d.cv = .s → .zero ∉ d.flags

/-- Ordinary text. -/
def Plain (l : List UInt8) : Prop := ∀ b ∈ l, b ≠ 0x25

instance (l : List UInt8) : Decidable (Plain l) := inferInstanceAs (Decidable (∀ b ∈ l, b ≠ 0x25))

/-! ## Arguments -/

/-- A conversion specification with the words of the argument list it uses: for a width `*`, a precision `*` and the
value. Words that are not used are ignored. -/
structure Call where
  dir : Dir
  wWord : UInt64
  pWord : UInt64
  vWord : UInt64

/-- The words, in the order in which they are passed. -/
def Call.words (c : Call) : List UInt64 :=
  (match c.dir.width with | .star => [c.wWord] | _ => []) ++ ((match c.dir.prec with | .star => [c.pWord] | _ => [])
    ++ (if c.dir.cv = .percent then [] else [c.vWord]))

/-- The unsigned value of the low `bits` bits. -/
def uval (bits : Nat) (w : UInt64) : Nat := w.toNat % 2 ^ bits

/-- The signed value of the low `bits` bits. -/
def sval (bits : Nat) (w : UInt64) : Int :=
  if w.toNat % 2 ^ bits < 2 ^ (bits - 1) then w.toNat % 2 ^ bits else (w.toNat % 2 ^ bits : Nat) - 2 ^ bits

/-- The number of bits of the argument. -/
def Len.bits : Len → Nat
  | .none => 32 | .hh => 8 | .h => 16 | _ => 64

/-- The width: 0 if it is left out. -/
def Call.width (c : Call) : Int :=
  match c.dir.width with
  | .none => 0
  | .lit ds => litVal ds
  | .star => sval 32 c.wWord

/-- The precision: a negative one counts as left out. -/
def Call.prec (c : Call) : Option Nat :=
  match c.dir.prec with
  | .none => none
  | .lit ds => some (litVal ds)
  | .star => if 0 ≤ sval 32 c.pWord then some (sval 32 c.pWord).toNat else none

/-! ## Output -/

def Call.has (c : Call) (f : Flag) : Bool := f ∈ c.dir.flags

/-- Left-justified: by flag, or by a negative width. -/
def Call.left (c : Call) : Bool := c.has .left || decide (c.width < 0)

/-- The digits of a number. -/
def numeral (base : Nat) (upper : Bool) (n : Nat) : List UInt8 :=
  (Nat.toDigits base n).map (fun c => UInt8.ofNat (if upper then c.toUpper else c).toNat)

/-- At least as many digits as the precision says; no digit for 0 with precision 0. -/
def withPrec (prec : Option Nat) (isZero : Prop) [Decidable isZero] (ds : List UInt8) : List UInt8 :=
  match prec with
  | none => ds
  | some p => if p = 0 ∧ isZero then [] else List.replicate (p - ds.length) 0x30 ++ ds

/-- A prefix and digits in a field: padded on the right, or with zeros between prefix and digits, or on the left. -/
def Call.field (c : Call) (pre ds : List UInt8) : List UInt8 :=
  let n := c.width.natAbs - (pre.length + ds.length)
  if c.left then pre ++ ds ++ List.replicate n 0x20
  else if c.has .zero ∧ c.prec = none then pre ++ List.replicate n 0x30 ++ ds
  else List.replicate n 0x20 ++ pre ++ ds

/-- The sign of `%d`. -/
def Call.sign (c : Call) (v : Int) : List UInt8 :=
  if v < 0 then [0x2D] else if c.has .plus then [0x2B] else if c.has .space then [0x20] else []

/-- `%d`, `%i`. -/
def Call.signed (c : Call) (v : Int) : List UInt8 :=
  c.field (c.sign v) (withPrec c.prec (v = 0) (numeral 10 false v.natAbs))

/-- The base of an unsigned conversion. -/
def Cv.base : Cv → Nat
  | .o => 8 | .x => 16 | .X => 16 | .b => 2 | .B => 2 | _ => 10

/-- `#o`: a leading 0 if there is none. -/
def octal (alt : Bool) (ds : List UInt8) : List UInt8 :=
  if alt ∧ ds.head? ≠ some 0x30 then 0x30 :: ds else ds

/-- `#x`, `#X`, `#b`, `#B`: the prefix of a number other than 0. -/
def Call.prefix (c : Call) (v : Nat) : List UInt8 :=
  if c.has .alt ∧ v ≠ 0 then
    match c.dir.cv with
    | .x => [0x30, 0x78]
    | .X => [0x30, 0x58]
    | .b => [0x30, 0x62]
    | .B => [0x30, 0x42]
    | _ => []
  else []

/-- `%o`, `%u`, `%x`, `%X`, `%b`, `%B`. -/
def Call.unsigned (c : Call) (v : Nat) : List UInt8 :=
  c.field (c.prefix v)
    (octal (c.has .alt && c.dir.cv = .o) (withPrec c.prec (v = 0) (numeral c.dir.cv.base (c.dir.cv = .X) v)))

/-- `%c`, `%s`: text in a field. -/
def Call.justify (c : Call) (t : List UInt8) : List UInt8 :=
  if c.left then t ++ List.replicate (c.width.natAbs - t.length) 0x20
  else List.replicate (c.width.natAbs - t.length) 0x20 ++ t

/-- What `%n` stores: address, number of bytes, value. -/
structure Count.Store where
  ptr : Nat
  bytes : Nat
  value : Nat
  deriving DecidableEq

/-- The text a conversion produces, given the memory and the number of bytes written so far, and what it stores. An
argument of `%s` is a string that ends with a NUL and whose size fits in `size_t`. -/
inductive Prints (m : Mem UInt8) (c : Call) (written : Nat) : List UInt8 → List Count.Store → Prop
  | percent (h : c.dir.cv = .percent) : Prints m c written [0x25] []
  | signed (h : c.dir.cv = .d ∨ c.dir.cv = .i) : Prints m c written (c.signed (sval c.dir.len.bits c.vWord)) []
  | unsigned (h : c.dir.cv ∈ [.o, .u, .x, .X, .b, .B]) :
      Prints m c written (c.unsigned (uval c.dir.len.bits c.vWord)) []
  | char (h : c.dir.cv = .c) (hl : c.dir.len = .none) :
      Prints m c written (c.justify [UInt8.ofNat (c.vWord.toNat % 256)]) []
  | string (h : c.dir.cv = .s) (hl : c.dir.len = .none) {s : List UInt8} (hp : c.vWord ≠ 0)
      (hs : CStr m c.vWord.toNat s) (hn : s.length < 2 ^ 64) :
      Prints m c written (c.justify (s.take (c.prec.getD s.length))) []
  | written (h : c.dir.cv = .n) :
      Prints m c written [] [⟨c.vWord.toNat, c.dir.len.bits / 8, written % 2 ^ c.dir.len.bits⟩]

/-- A format: ordinary text before every conversion specification, and after the last one. -/
structure Format where
  dirs : List (List UInt8 × Call)
  tail : List UInt8

def Format.text (f : Format) : List UInt8 := f.dirs.flatMap (fun x => x.1 ++ x.2.dir.text) ++ f.tail

def Format.words (f : Format) : List UInt64 := f.dirs.flatMap (fun x => x.2.words)

/-- Everything a format prints after `written` bytes. -/
inductive Format.Out (m : Mem UInt8) : Nat → Format → List UInt8 → List Count.Store → Prop
  | done {n : Nat} {t : List UInt8} : Format.Out m n ⟨[], t⟩ t []
  | step {n : Nat} {t : List UInt8} {c : Call} {l : List (List UInt8 × Call)} {u a b out : List UInt8}
      {sa sb st : List Count.Store} (h1 : Prints m c (n + t.length) a sa)
      (h2 : Format.Out m (n + t.length + a.length) ⟨l, u⟩ b sb) (ho : out = t ++ a ++ b) (hs : st = sa ++ sb) :
      Format.Out m n ⟨(t, c) :: l, u⟩ out st

end Verif.Stdio
