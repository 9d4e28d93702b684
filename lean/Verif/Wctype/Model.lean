import Verif.Wctype.Tables
/-!
# Wide characters: classes and cases

`src/header/wctype/`. A `wint_t` is a number below 2^32. `none` is an index out of range (a panic), or a search that does not end. The functions return 0 or 1 in the code and `false` or `true` here.
-/

namespace Verif.Wctype

/-- An entry of an array of `len` words of `w` bits. -/
def entry (t w len i : Nat) : Option Nat := if i < len then some ((t >>> (w * i)) % 2 ^ w) else none

/-- `alpha::is` (`src/header/wctype/alpha.rs:7-15`). -/
def alphaIs (wc : Nat) : Option Bool :=
  if wc < 0x20000 then
    match entry alphaTable 8 3904 (wc >>> 8) with
    | none => none
    | some t => match entry alphaTable 8 3904 (t * 32 + (wc % 256) >>> 3) with
      | none => none
      | some b => some ((b >>> (wc % 8)) % 2 == 1)
  else some (wc < 0x2FFFE)

/-- `punct::is` (`src/header/wctype/punct.rs:7-12`). -/
def punctIs (wc : Nat) : Option Bool :=
  if wc < 0x20000 then
    match entry punctTable 8 4000 (wc >>> 8) with
    | none => none
    | some t => match entry punctTable 8 4000 (t * 32 + (wc % 256) >>> 3) with
      | none => none
      | some b => some ((b >>> (wc % 8)) % 2 == 1)
  else some false

/-- `r >> 8` of a `c_int`, as the `c_uint` with the same bits. -/
def shiftRule (r : Nat) : Nat := if r < 2 ^ 31 then r / 256 else r / 256 + 0xFF000000

/-- The rules of kind 0 and 1 (`src/header/wctype/casecmp.rs:381-384`, `:396-399`). -/
def apply (c0 rt rd dir : Nat) : Nat := (c0 + (rd &&& (if rt ^^^ dir = 0 then 0 else 0xFFFFFFFF))) % 2 ^ 32

/-- The search (`src/header/wctype/casecmp.rs:390-413`). A step that does not lessen `xn` leaves everything as it is, and then the search does not end; `xn` is at most 255, so that after 256 steps it never ends. -/
def search (c0 c dir : Nat) : Nat → Nat → Nat → Option Nat
  | 0, _, _ => none
  | fuel + 1, xn, xb =>
    if xn = 0 then some c0
    else match entry exceptions 16 200 (xb + xn / 2) with
      | none => none
      | some p =>
        if p % 256 = c then
          match entry rules 32 240 (p / 256) with
          | none => none
          | some r =>
            if r % 256 < 2 then some (apply c0 (r % 256) (shiftRule r) dir)
            else if dir = 0 then some (c0 + 1) else some (c0 - 1)
        else if p % 256 > c then search c0 c dir fuel (xn / 2) xb
        else search c0 c dir fuel (xn - xn / 2) (xb + xn / 2)

/-- `mt` (`src/header/wctype/casecmp.rs:371`). -/
def mt (y : Nat) : Nat := if y = 0 then 2048 else if y = 1 then 342 else 57

/-- `casemap` (`src/header/wctype/casecmp.rs:358-414`). -/
def casemap (c0 dir : Nat) : Option Nat :=
  if 0x20000 ≤ c0 then some c0
  else
    let b := c0 >>> 8
    let c := c0 % 256
    match entry tab 8 2666 b with
    | none => none
    | some t => match entry tab 8 2666 (t * 86 + c / 3) with
      | none => none
      | some v => match entry rulebases 8 512 b with
        | none => none
        | some base => match entry rules 32 240 (base + ((v * mt (c % 3)) >>> 11) % 6) with
          | none => none
          | some r =>
            if r % 256 < 2 then some (apply c0 (r % 256) (shiftRule r) dir)
            else search c0 c dir 256 (shiftRule r % 256) (shiftRule r / 256)

/-- `towlower` (`src/header/wctype/mod.rs:184-186`). -/
def towlower (wc : Nat) : Option Nat := casemap wc 0

/-- `towupper` (`src/header/wctype/mod.rs:190-192`). -/
def towupper (wc : Nat) : Option Nat := casemap wc 1

/-- `wrapping_sub` -/
def wsub (a b : Nat) : Nat := (a + 2 ^ 32 - b) % 2 ^ 32

/-- `iswdigit` (`src/header/wctype/mod.rs:90-92`). -/
def iswdigit (wc : Nat) : Bool := wsub wc 0x30 < 10

/-- `iswalpha` (`src/header/wctype/mod.rs:47-49`). -/
def iswalpha (wc : Nat) : Option Bool := alphaIs wc

/-- `iswalnum` (`src/header/wctype/mod.rs:41-43`). -/
def iswalnum (wc : Nat) : Option Bool := if iswdigit wc then some true else iswalpha wc

/-- `iswblank` (`src/header/wctype/mod.rs:53-55`), with `isblank` (`src/header/ctype/mod.rs`). -/
def iswblank (wc : Nat) : Bool := wc == 0x20 || wc == 9

/-- `iswcntrl` (`src/header/wctype/mod.rs:59-66`). -/
def iswcntrl (wc : Nat) : Bool := wc < 32 || wsub wc 0x7F < 33 || wsub wc 0x2028 < 2 || wsub wc 0xFFF9 < 3

/-- `iswlower` (`src/header/wctype/mod.rs:102-104`). -/
def iswlower (wc : Nat) : Option Bool := (towupper wc).map (· != wc)

/-- `iswupper` (`src/header/wctype/mod.rs:162-164`). -/
def iswupper (wc : Nat) : Option Bool := (towlower wc).map (· != wc)

/-- `iswprint` (`src/header/wctype/mod.rs:108-121`). -/
def iswprint (wc : Nat) : Bool :=
  if wc < 0xFF then 0x21 ≤ (wc + 1) % 128
  else if wc < 0x2028 || wsub wc 0x202A < 0xD800 - 0x202A || wsub wc 0xE000 < 0xFFF9 - 0xE000 then true
  else if wsub wc 0xFFFC > 0x10FFFF - 0xFFFC || wc &&& 0xFFFE == 0xFFFE then false
  else true

/-- `iswpunct` (`src/header/wctype/mod.rs:125-127`). -/
def iswpunct (wc : Nat) : Option Bool := punctIs wc

/-- The list in `iswspace`. -/
def spaces : List Nat := [0x20, 9, 10, 13, 11, 12, 0x0085, 0x2000, 0x2001, 0x2002, 0x2003, 0x2004, 0x2005, 0x2006, 0x2008, 0x2009, 0x200A, 0x2028, 0x2029, 0x205F, 0x3000]

/-- `iswspace` (`src/header/wctype/mod.rs:131-158`). -/
def iswspace (wc : Nat) : Bool := decide (wc ∈ spaces)

/-- `iswgraph` (`src/header/wctype/mod.rs:96-98`). -/
def iswgraph (wc : Nat) : Bool := !iswspace wc && iswprint wc

/-- `iswxdigit` (`src/header/wctype/mod.rs:168-170`). -/
def iswxdigit (wc : Nat) : Bool := wsub wc 0x30 < 10 || wsub (wc ||| 32) 0x61 < 6

/-- `iswctype` (`src/header/wctype/mod.rs:70-86`). -/
def iswctype (wc desc : Nat) : Option Bool :=
  if desc = 1 then iswalnum wc
  else if desc = 2 then iswalpha wc
  else if desc = 3 then some (iswblank wc)
  else if desc = 4 then some (iswcntrl wc)
  else if desc = 5 then some (iswdigit wc)
  else if desc = 6 then some (iswgraph wc)
  else if desc = 7 then iswlower wc
  else if desc = 8 then some (iswprint wc)
  else if desc = 9 then iswpunct wc
  else if desc = 10 then some (iswspace wc)
  else if desc = 11 then iswupper wc
  else if desc = 12 then some (iswxdigit wc)
  else some false

/-- `wctype` (`src/header/wctype/mod.rs:215-232`). -/
def wctype (name : List UInt8) : Nat :=
  if name = [0x61, 0x6C, 0x6E, 0x75, 0x6D] then 1
  else if name = [0x61, 0x6C, 0x70, 0x68, 0x61] then 2
  else if name = [0x62, 0x6C, 0x61, 0x6E, 0x6B] then 3
  else if name = [0x63, 0x6E, 0x74, 0x72, 0x6C] then 4
  else if name = [0x64, 0x69, 0x67, 0x69, 0x74] then 5
  else if name = [0x67, 0x72, 0x61, 0x70, 0x68] then 6
  else if name = [0x6C, 0x6F, 0x77, 0x65, 0x72] then 7
  else if name = [0x70, 0x72, 0x69, 0x6E, 0x74] then 8
  else if name = [0x70, 0x75, 0x6E, 0x63, 0x74] then 9
  else if name = [0x73, 0x70, 0x61, 0x63, 0x65] then 10
  else if name = [0x75, 0x70, 0x70, 0x65, 0x72] then 11
  else if name = [0x78, 0x64, 0x69, 0x67, 0x69, 0x74] then 12
  else 0

/-- `wctrans` (`src/header/wctype/mod.rs:200-207`). -/
def wctrans (name : List UInt8) : Nat :=
  if name = [0x74, 0x6F, 0x75, 0x70, 0x70, 0x65, 0x72] then 1
  else if name = [0x74, 0x6F, 0x6C, 0x6F, 0x77, 0x65, 0x72] then 2
  else 0

/-- `towctrans` (`src/header/wctype/mod.rs:174-180`). -/
def towctrans (wc trans : Nat) : Option Nat := if trans = 1 then towupper wc else if trans = 2 then towlower wc else some wc

/-- `wcscasecmp` (`src/header/wchar/mod.rs:1095-1107`) on two strings without their ends; the difference as a signed number. -/
def wcscasecmp : List Nat → List Nat → Option Int
  | a :: s, b :: t => match towlower a, towlower b with
    | some x, some y => if x = y then wcscasecmp s t else some (diff x y)
    | _, _ => none
  | s, t => match towlower (s.headD 0), towlower (t.headD 0) with
    | some x, some y => some (diff x y)
    | _, _ => none
where
  /-- `x.wrapping_sub(y) as c_int` -/
  diff (x y : Nat) : Int := if wsub x y < 2 ^ 31 then wsub x y else (wsub x y : Int) - 2 ^ 32

/-- `wcsncasecmp` (`src/header/wchar/mod.rs:1111-1129`). -/
def wcsncasecmp : Nat → List Nat → List Nat → Option Int
  | 0, _, _ => some 0
  | n + 1, a :: s, b :: t => match towlower a, towlower b with
    | some x, some y => if x = y then wcsncasecmp n s t else some (wcscasecmp.diff x y)
    | _, _ => none
  | _ + 1, s, t => match towlower (s.headD 0), towlower (t.headD 0) with
    | some x, some y => some (wcscasecmp.diff x y)
    | _, _ => none

end Verif.Wctype
