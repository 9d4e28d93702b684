import Verif.Mem.Basic
import Verif.Stdlib.SortModel
/-!
# Multibyte characters

`src/header/wchar/utf8.rs` and the functions of `src/header/wchar/mod.rs` and `src/header/stdlib/mod.rs` built on it.

`char::from_u32`, `char::len_utf8`, `char::encode_utf8`, `str::from_utf8` and `Chars::next` of Rust's `core` are
written out here after their published source; `str::from_utf8` and `Chars::next` are merged into one function that
reads the bytes in the order in which validation reads them. `wchar_t` is a 32-bit signed word, `size_t` a 64-bit one.
`errno` is `EILSEQ` whenever the result is `(size_t)-1` or `(size_t)-2`; it is not modelled otherwise. `mbstate_t` is
an empty type (`src/header/wchar/mod.rs:42-43`), so there is no conversion state to model. `none` = a fault.
-/

namespace Verif.Wchar
open Verif.Mem Verif.Stdlib

/-- `(size_t)-1`. -/
abbrev sizeMax : UInt64 := 0xFFFFFFFFFFFFFFFF
/-- `(size_t)-2`. -/
abbrev sizeMax1 : UInt64 := 0xFFFFFFFFFFFFFFFE

/-- `UTF8_CHAR_WIDTH` (`src/header/wchar/utf8.rs:22-41`). -/
def widthTable : List Nat :=
  List.replicate 128 1 ++ List.replicate 66 0 ++ List.replicate 30 2 ++ List.replicate 16 3 ++ List.replicate 5 4
    ++ List.replicate 11 0

/-- `utf8_char_width` (`src/header/wchar/utf8.rs:45-47`). -/
def charWidth (b : UInt8) : Nat := widthTable.getD b.toNat 0

/-- A continuation byte, `core::str::validations`: `(b as i8) < -64`. -/
def isCont (b : UInt8) : Bool := b &&& 0xC0 = 0x80

/-- The first two bytes of a three-byte form that `str::from_utf8` accepts. -/
def pair3 (x y : UInt8) : Bool :=
  (x = 0xE0 && 0xA0 ≤ y && y ≤ 0xBF) || (0xE1 ≤ x && x ≤ 0xEC && 0x80 ≤ y && y ≤ 0xBF)
    || (x = 0xED && 0x80 ≤ y && y ≤ 0x9F) || (0xEE ≤ x && x ≤ 0xEF && 0x80 ≤ y && y ≤ 0xBF)

/-- The first two bytes of a four-byte form that `str::from_utf8` accepts. -/
def pair4 (x y : UInt8) : Bool :=
  (x = 0xF0 && 0x90 ≤ y && y ≤ 0xBF) || (0xF1 ≤ x && x ≤ 0xF3 && 0x80 ≤ y && y ≤ 0xBF)
    || (x = 0xF4 && 0x80 ≤ y && y ≤ 0x8F)

/-- `utf8_acc_cont_byte` of `core::str::validations`. -/
def accCont (ch : UInt32) (b : UInt8) : UInt32 := (ch <<< 6) ||| (b &&& 0x3F).toUInt32

/-- `utf8_first_byte(x, 2)` of `core::str::validations`. -/
def firstBits (x : UInt8) : UInt32 := (x &&& 0x1F).toUInt32

/-- `str::from_utf8` on the `size` bytes at `s` followed by `Chars::next`; the inner `none` = not UTF-8. -/
def decode (m : Mem UInt8) (s size : Nat) : Option (Option UInt32) := do
  let x ← m s
  if size = 1 then some (if x < 0x80 then some x.toUInt32 else none)
  else do
    let y ← m (s + 1)
    if size = 2 then
      some (if isCont y then some (accCont (firstBits x) y) else none)
    else if size = 3 then
      if pair3 x y then do
        let z ← m (s + 2)
        some (if isCont z then some ((firstBits x <<< 12) ||| accCont (y &&& 0x3F).toUInt32 z) else none)
      else some none
    else
      if pair4 x y then do
        let z ← m (s + 2)
        if isCont z then do
          let w ← m (s + 3)
          some (if isCont w then
            some (((firstBits x &&& 7) <<< 18) ||| accCont (accCont (y &&& 0x3F).toUInt32 z) w) else none)
        else some none
      else some none

/-- `utf8::mbrtowc` (`src/header/wchar/utf8.rs:50-77`): the result, and what is stored in `*pwc` if `pwc` is not null. -/
def mbrtowc (m : Mem UInt8) (s : Nat) (n : UInt64) : Option (UInt64 × Option Int32) := do
  let b ← m s
  let size := charWidth b
  if size > n.toNat then some (sizeMax1, none)
  else if size = 0 then some (sizeMax, none)
  else
    match ← decode m s size with
    | none => some (sizeMax, none)
    | some c => some (if c ≠ 0 then UInt64.ofNat size else 0, some c.toInt32)

/-- `char::from_u32`. -/
def isChar (c : UInt32) : Bool := c < 0xD800 || (0xE000 ≤ c && c < 0x110000)

/-- `char::encode_utf8` with `char::len_utf8`. -/
def encode (c : UInt32) : List UInt8 :=
  if c < 0x80 then [c.toUInt8]
  else if c < 0x800 then [(c >>> 6 &&& 0x1F).toUInt8 ||| 0xC0, (c &&& 0x3F).toUInt8 ||| 0x80]
  else if c < 0x10000 then
    [(c >>> 12 &&& 0x0F).toUInt8 ||| 0xE0, (c >>> 6 &&& 0x3F).toUInt8 ||| 0x80, (c &&& 0x3F).toUInt8 ||| 0x80]
  else
    [(c >>> 18 &&& 0x07).toUInt8 ||| 0xF0, (c >>> 12 &&& 0x3F).toUInt8 ||| 0x80, (c >>> 6 &&& 0x3F).toUInt8 ||| 0x80,
      (c &&& 0x3F).toUInt8 ||| 0x80]

/-- `utf8::wcrtomb` (`src/header/wchar/utf8.rs:80-95`). -/
def wcrtomb (m : Mem UInt8) (s : Nat) (wc : Int32) : Option (UInt64 × Mem UInt8) :=
  let c := wc.toUInt32
  if isChar c then do
    let m ← writeN m s (encode c)
    some (UInt64.ofNat (encode c).length, m)
  else some (sizeMax, m)

/-- `get_char_encoded_length` (`src/header/wchar/utf8.rs:98-110`). -/
def charEncodedLength (b : UInt8) : Option Nat :=
  if b >>> 7 = 0 then some 1 else if b >>> 5 = 6 then some 2 else if b >>> 4 = 0xe then some 3
  else if b >>> 3 = 0x1e then some 4 else none

/-- `mblen` (`src/header/stdlib/mod.rs:729-742`). -/
def mblen (m : Mem UInt8) (s : Nat) (n : UInt64) : Option Int32 := do
  let (r, _) ← mbrtowc m s n
  some (if r = sizeMax then -1 else if r = sizeMax1 then -1 else r.toInt64.toInt32)

/-- `mbtowc` (`src/header/stdlib/mod.rs:753-756`): the result and what is stored in `*pwc`. -/
def mbtowc (m : Mem UInt8) (s : Nat) (n : UInt64) : Option (Int32 × Option Int32) := do
  let (r, wc) ← mbrtowc m s n
  some (r.toInt64.toInt32, wc)

/-- `wctomb` (`src/header/stdlib/mod.rs:1761-1773`). -/
def wctomb (m : Mem UInt8) (s : Nat) (wc : Int32) : Option (Int32 × Mem UInt8) := do
  let (r, m) ← wcrtomb m s wc
  some (if r = sizeMax then -1 else if r = sizeMax1 then -1 else r.toInt64.toInt32, m)

/-- `btowc` (`src/header/wchar/mod.rs:47-64`); `none` = `WEOF`. The byte is read from a local variable. -/
def btowc (c : Int32) : Option UInt32 :=
  if c = -1 then none
  else
    match mbrtowc (ofList 0 [c.toUInt32.toUInt8]) 0 1 with
    | some (_, some wc) => some wc.toUInt32
    | _ => none

/-- `wctob` (`src/header/wchar/mod.rs:975-977`); `none` = `EOF`. -/
def wctob (c : UInt32) : Option UInt32 := if c ≤ 0x7F then some c else none

/-- What `mbsnrtowcs` does to memory and its arguments. `src = none` stands for a null pointer stored in `*src`. -/
structure MbsRes where
  ret : UInt64
  src : Option Nat
  dst : Mem Int32

/-- The loop of `mbsnrtowcs` (`src/header/wchar/mod.rs:265-299`). `dst = none` stands for a null `dst_ptr`. Wide
strings are in their own memory, addressed by element. -/
def mbsnrtowcsLoop (m : Mem UInt8) (dst : Option Nat) (src : Nat) (srcLen dstLen : UInt64) (wm : Mem Int32)
    (dstOff srcOff : Nat) : Option MbsRes :=
  if (dst.isNone || dstOff < dstLen.toNat) && srcOff < srcLen.toNat then do
    let (amount, wc) ← mbrtowc m (src + srcOff) (UInt64.ofNat (srcLen.toNat - srcOff))
    if amount = sizeMax then some ⟨1, some (src + srcOff), wm⟩
    else if amount = sizeMax1 then some ⟨UInt64.ofNat dstOff, some (src + srcOff), wm⟩
    else do
      let wc := wc.getD 0
      let wm ← match dst with
        | some d => store wm (d + dstOff) wc
        | none => some wm
      if wc = 0 then some ⟨UInt64.ofNat dstOff, none, wm⟩
      else mbsnrtowcsLoop m dst src srcLen dstLen wm (dstOff + 1) (srcOff + amount.toNat)
  else some ⟨UInt64.ofNat dstOff, some (src + srcOff), wm⟩
partial_fixpoint

/-- `mbsnrtowcs` (`src/header/wchar/mod.rs:247-300`). -/
def mbsnrtowcs (m : Mem UInt8) (dst : Option Nat) (src : Nat) (srcLen dstLen : UInt64) (wm : Mem Int32) : Option MbsRes :=
  mbsnrtowcsLoop m dst src srcLen dstLen wm 0 0

/-- `mbsrtowcs` (`src/header/wchar/mod.rs:306-313`). -/
def mbsrtowcs (m : Mem UInt8) (dst : Option Nat) (src : Nat) (len : UInt64) (wm : Mem Int32) : Option MbsRes :=
  mbsnrtowcs m dst src sizeMax len wm

/-- What `wcsnrtombs` does to memory and its arguments. -/
structure WcsRes where
  ret : UInt64
  src : Option Nat
  mem : Mem UInt8

/-- The loop of `wcsnrtombs` (`src/header/wchar/mod.rs:683-712`). `wcrtomb` writes into a local array of sufficient
size (`MB_LEN_MAX`), so it appears here as the bytes it writes. -/
def wcsnrtombsLoop (wm : Mem Int32) (nwc len : UInt64) (m : Mem UInt8) (dest : Option Nat) (src read written : Nat) :
    Option WcsRes :=
  if read < nwc.toNat then do
    let wc ← wm src
    if isChar wc.toUInt32 then
      let bytes := encode wc.toUInt32
      match dest with
      | some d =>
        if len.toNat < written + bytes.length then some ⟨UInt64.ofNat written, some src, m⟩
        else do
          let m ← writeN m d bytes
          if wc = 0 then some ⟨UInt64.ofNat written, none, m⟩
          else wcsnrtombsLoop wm nwc len m (some (d + bytes.length)) (src + 1) (read + 1) (written + bytes.length)
      | none =>
        if wc = 0 then some ⟨UInt64.ofNat written, none, m⟩
        else wcsnrtombsLoop wm nwc len m none (src + 1) (read + 1) (written + bytes.length)
    else some ⟨sizeMax, some src, m⟩
  else some ⟨UInt64.ofNat written, some src, m⟩
partial_fixpoint

/-- `wcsnrtombs` (`src/header/wchar/mod.rs:667-713`). -/
def wcsnrtombs (wm : Mem Int32) (nwc len : UInt64) (m : Mem UInt8) (dest : Option Nat) (src : Nat) : Option WcsRes :=
  wcsnrtombsLoop wm nwc len m dest src 0 0

/-- `wcsrtombs` (`src/header/wchar/mod.rs:488-499`). -/
def wcsrtombs (wm : Mem Int32) (len : UInt64) (m : Mem UInt8) (dest : Option Nat) (src : Nat) : Option WcsRes :=
  wcsnrtombs wm sizeMax len m dest src

end Verif.Wchar
