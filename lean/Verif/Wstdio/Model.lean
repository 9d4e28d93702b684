import Verif.Stdio.StreamModel
import Verif.Wchar.Utf8Model
/-!
# Wide characters on streams

`src/header/wchar/mod.rs`, on top of the streams of `src/header/stdio/mod.rs` (`Verif/Stdio/StreamModel.lean`), with the orientation, which that model leaves out.
-/

namespace Verif.Wstdio
open Verif.Mem Verif.Stdio Verif.Wchar

/-- A stream with its orientation. -/
structure S where
  file : FILE
  orientation : Int32

def WEOF : UInt32 := 0xFFFFFFFF

/-- `try_set_orientation_unlocked` (`src/header/stdio/mod.rs:342-351`). -/
def tryOrient (s : S) (mode : Int32) : Int32 × S :=
  let o := if s.orientation = 0 then (if 0 < mode then 1 else if mode < 0 then -1 else s.orientation) else s.orientation
  (o, { s with orientation := o })

/-- `try_set_byte_orientation_unlocked` (`src/header/stdio/mod.rs:353-358`). -/
def tryByte (s : S) : Bool × S :=
  let r := tryOrient s (-1)
  (r.1 ≤ -1, r.2)

/-- `fwide` (`src/header/wchar/mod.rs:180-182`). -/
def fwide (s : S) (mode : Int32) : Int32 × S := tryOrient s mode

/-- `getc_unlocked` (`src/header/stdio/mod.rs:998-1009`); −1 is `EOF`. -/
def getcU (s : S) : Option (Int × S) :=
  match tryByte s with
  | (false, s) => some (-1, s)
  | (true, s) => match getc s.file with
    | none => none
    | some (r, f) => some (r, { s with file := f })

/-- `fputc` (`src/header/stdio/mod.rs:735-742`). -/
def fputc (s : S) (c : Int32) : Int32 × S :=
  match tryByte s with
  | (false, s) => (-1, s)
  | (true, s) => ((putc s.file c).1, { s with file := (putc s.file c).2 })

/-- `ungetc` (`src/header/stdio/mod.rs:1524-1532`). -/
def ungetcU (s : S) (c : Int32) : Int32 × S :=
  match tryByte s with
  | (false, s) => (-1, s)
  | (true, s) => ((ungetc s.file c).1, { s with file := (ungetc s.file c).2 })

/-- Some more bytes for the buffer (`src/header/wchar/mod.rs:74-101`); `none` is `EOF`. -/
def more : Nat → S → List UInt8 → Option (Option (List UInt8) × S)
  | 0, s, buf => some (some buf, s)
  | n + 1, s, buf => match getcU s with
    | none => none
    | some (r, s) => if r = -1 then some (none, s) else more n s (buf ++ [UInt8.ofNat r.toNat])

/-- What `fgetwc` returns, and whether it sets `errno` to `EILSEQ`. -/
structure Got where
  wc : UInt32
  eilseq : Bool
deriving DecidableEq

/-- The buffer of four bytes. -/
def buffer (l : List UInt8) : Mem UInt8 := ofList 0 (l ++ List.replicate (4 - l.length) 0)

/-- `fgetwc_unlocked` (`src/header/wchar/mod.rs:67-111`), `fgetwc` (`src/header/wchar/mod.rs:116-119`). -/
def fgetwc (s : S) : Option (Got × S) :=
  match getcU s with
  | none => none
  | some (r, s) =>
    if r = -1 then some (⟨WEOF, false⟩, s)
    else match charEncodedLength (UInt8.ofNat r.toNat) with
      | none => some (⟨WEOF, true⟩, { s with file := { s.file with flags := s.file.flags ||| F_ERR } })
      | some n => match more (n - 1) s [UInt8.ofNat r.toNat] with
        | none => none
        | some (none, s) => some (⟨WEOF, false⟩, s)
        | some (some buf, s) => match mbrtowc (buffer buf) 0 (UInt64.ofNat n) with
          | none => none
          | some (_, some wc) => some (⟨wc.toUInt32, false⟩, s)
          | some (_, none) => some (⟨0, true⟩, s)

/-- The loop of `fgetws` (`src/header/wchar/mod.rs:127-137`): `left` is how often `i + 1 < n` still holds. The number of characters stored. -/
def fgetwsLoop : Nat → Nat → Nat → Mem Int32 → S → Option (Nat × Mem Int32 × S)
  | 0, _, i, wm, s => some (i, wm, s)
  | left + 1, ws, i, wm, s => match fgetwc s with
    | none => none
    | some (g, s) =>
      if g.wc = WEOF then some (i, wm, s)
      else match store wm (ws + i) g.wc.toInt32 with
        | none => none
        | some wm => if g.wc.toInt32 = 0x0A then some (i + 1, wm, s) else fgetwsLoop left ws (i + 1) wm s

/-- `fgetws` (`src/header/wchar/mod.rs:123-144`); `true` is `ws`, `false` the null pointer. -/
def fgetws (wm : Mem Int32) (ws : Nat) (n : Int32) (s : S) : Option (Bool × Mem Int32 × S) :=
  match fgetwsLoop (n.toInt - 1).toNat ws 0 wm s with
  | none => none
  | some (i, wm, s) => match store wm (ws + i) 0 with
    | none => none
    | some wm => some (!(i = 0 || ferror s.file ≠ 0), wm, s)

/-- A `c_char`, signed, as a `c_int`. -/
def charInt (b : UInt8) : Int32 := b.toInt8.toInt32

/-- The bytes one after the other, without looking at the results (`src/header/wchar/mod.rs:156-158`). -/
def putAll (s : S) : List UInt8 → S
  | [] => s
  | b :: l => putAll (fputc s (charInt b)).2 l

/-- `fputwc` (`src/header/wchar/mod.rs:148-160`). -/
def fputwc (s : S) (wc : Int32) : Option (UInt32 × S) :=
  match wcrtomb (buffer []) 0 wc with
  | none => none
  | some (amount, m) => match readN m 0 4 with
    | none => none
    | some bytes => some (wc.toUInt32, putAll s (bytes.take amount.toNat))

/-- `fputws` (`src/header/wchar/mod.rs:164-176`), of the characters before the null character. -/
def fputws (s : S) : List Int32 → Option (Int32 × S)
  | [] => some (0, s)
  | wc :: l => match fputwc s wc with
    | none => none
    | some (r, s) => if r = WEOF then some (-1, s) else fputws s l

/-- The bytes given back, the last first (`src/header/wchar/mod.rs:373-375`). -/
def ungetAll (s : S) : List UInt8 → S
  | [] => s
  | b :: l => (ungetcU (ungetAll s l) (charInt b)).2

/-- `ungetwc` (`src/header/wchar/mod.rs:355-378`). -/
def ungetwc (s : S) (wc : UInt32) : Option (UInt32 × S) :=
  if wc = WEOF then some (wc, s)
  else match wcrtomb (buffer []) 0 wc.toInt32 with
    | none => none
    | some (amount, m) =>
      if amount = sizeMax then some (WEOF, s)
      else match readN m 0 4 with
        | none => none
        | some bytes => some (wc, ungetAll s (bytes.take amount.toNat))

end Verif.Wstdio
