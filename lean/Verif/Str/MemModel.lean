import Verif.Mem.Basic

/-!
# Model of the `mem*` functions of `src/header/string/mod.rs`

Addresses are natural numbers; wrap-around of pointer arithmetic is not modelled. `usize` is 8 bytes, little endian.
-/

namespace Verif.Str

open Verif.Mem

/-- `c as u8` for a `c_int`. -/
def toUChar (c : Int) : UInt8 := UInt8.ofNat (c % 256).toNat

/-- Loop of `memcpy` (`src/header/string/mod.rs:111-116`), from index `i`. -/
def memcpyLoop {α : Type} (m : Mem α) (d s n i : Nat) : Option (Mem α) :=
  if i < n then do
    let b ← m (s + i)
    let m' ← store m (d + i) b
    memcpyLoop m' d s n (i + 1)
  else some m
termination_by n - i

/-- `memcpy` (`src/header/string/mod.rs:111-116`): final memory and returned pointer. -/
def memcpy (m : Mem UInt8) (d s n : Nat) : Option (Mem UInt8 × Nat) := do
  let m' ← memcpyLoop m d s n 0
  some (m', d)

/-- Backward loop of `memmove` (`src/header/string/mod.rs:160-164`), `i` as at the loop head. -/
def memmoveDown {α : Type} (m : Mem α) (d s : Nat) : Nat → Option (Mem α)
  | 0 => some m
  | i + 1 => do
    let b ← m (s + i)
    let m' ← store m (d + i) b
    memmoveDown m' d s i

/-- `memmove` (`src/header/string/mod.rs:157-174`). -/
def memmove (m : Mem UInt8) (d s n : Nat) : Option (Mem UInt8 × Nat) :=
  if s < d then do
    let m' ← memmoveDown m d s n
    some (m', d)
  else do
    let m' ← memcpyLoop m d s n 0
    some (m', d)

/-- Loop of `memset` (`src/header/string/mod.rs:201-206`). -/
def memsetLoop {α : Type} (m : Mem α) (s : Nat) (b : α) (n i : Nat) : Option (Mem α) :=
  if i < n then do
    let m' ← store m (s + i) b
    memsetLoop m' s b n (i + 1)
  else some m
termination_by n - i

/-- `memset` (`src/header/string/mod.rs:201-206`). -/
def memset (m : Mem UInt8) (s : Nat) (c : Int) (n : Nat) : Option (Mem UInt8 × Nat) := do
  let m' ← memsetLoop m s (toUChar c) n 0
  some (m', s)

/-- `memchr::memchr` of the external crate `memchr`, taken at its documentation: index of the first occurrence. -/
def crateMemchr (c : UInt8) : List UInt8 → Option Nat
  | [] => none
  | b :: l => if b = c then some 0 else (crateMemchr c l).map (· + 1)

/-- `memchr::memrchr` of the external crate: index of the last occurrence. -/
def crateMemrchr (c : UInt8) : List UInt8 → Option Nat
  | [] => none
  | b :: l =>
    match crateMemrchr c l with
    | some i => some (i + 1)
    | none => if b = c then some 0 else none

/-- `memchr` (`src/header/string/mod.rs:54-65`). Outer `none` is a fault, inner `none` is NULL. The slice makes the
whole range `len` readable as a precondition. -/
def memchr (m : Mem UInt8) (p : Nat) (c : Int) (n : Nat) : Option (Option Nat) := do
  let l ← readN m p n
  match crateMemchr (toUChar c) l with
  | some i => some (some (p + i))
  | none => some none

/-- `memrchr` (`src/header/string/mod.rs:178-189`). -/
def memrchr (m : Mem UInt8) (p : Nat) (c : Int) (n : Nat) : Option (Option Nat) := do
  let l ← readN m p n
  match crateMemrchr (toUChar c) l with
  | some i => some (some (p + i))
  | none => some none

/-- `memccpy` (`src/header/string/mod.rs:32-50`). -/
def memccpy (m : Mem UInt8) (d s : Nat) (c : Int) (n : Nat) : Option (Mem UInt8 × Option Nat) := do
  let to ← memchr m s c n
  let dist := match to with
    | none => n
    | some t => (t - s) + 1
  let (m', _) ← memcpy m d s dist
  match to with
  | none => some (m', none)
  | some _ => some (m', some (d + dist))

/-- Value of bytes as a little-endian number (`usize` read by `read_unaligned`). -/
def leValue : List UInt8 → Nat
  | [] => 0
  | b :: l => b.toNat + 256 * leValue l

/-- `a.read_unaligned()` for a `usize`. -/
def readWord (m : Mem UInt8) (p : Nat) : Option Nat := (readN m p 8).map leValue

/-- Byte loop inside `memcmp` for a differing word (`src/header/string/mod.rs:77-84`); `none` here also covers the
`unreachable!()`. -/
def memcmpWord (m : Mem UInt8) (a b i : Nat) : Option Int :=
  if i < 8 then do
    let c ← m (a + i)
    let d ← m (b + i)
    if c ≠ d then some ((c.toNat : Int) - d.toNat) else memcmpWord m a b (i + 1)
  else none
termination_by 8 - i

/-- Tail loop of `memcmp` (`src/header/string/mod.rs:92-99`). -/
def memcmpTail (m : Mem UInt8) (a b : Nat) : Nat → Option Int
  | 0 => some 0
  | r + 1 => do
    let c ← m a
    let d ← m b
    if c ≠ d then some ((c.toNat : Int) - d.toNat) else memcmpTail m (a + 1) (b + 1) r

/-- Word loop of `memcmp` (`src/header/string/mod.rs:73-88`) with `div` words left, then the tail. -/
def memcmpLoop (m : Mem UInt8) (a b rem : Nat) : Nat → Option Int
  | 0 => memcmpTail m a b rem
  | div + 1 => do
    let x ← readWord m a
    let y ← readWord m b
    if x ≠ y then memcmpWord m a b 0 else memcmpLoop m (a + 8) (b + 8) rem div

/-- `memcmp` (`src/header/string/mod.rs:69-100`). -/
def memcmp (m : Mem UInt8) (a b n : Nat) : Option Int := memcmpLoop m a b (n % 8) (n / 8)

/-- `slice.windows(k).find(|w| w == needle)`: index of the first window (`k > 0`) equal to `needle`. -/
def findWindow {α : Type} [DecidableEq α] (needle : List α) : List α → Nat → Option Nat
  | [], _ => none
  | b :: l, i =>
    if (b :: l).length < needle.length then none
    else if (b :: l).take needle.length = needle then some i
    else findWindow needle l (i + 1)

/-- `memmem` (`src/header/string/mod.rs:125-153`). -/
def memmem (m : Mem UInt8) (h hn p pn : Nat) : Option (Option Nat) :=
  if pn = 0 then some (some h)
  else do
    let hay ← readN m h hn
    let nee ← readN m p pn
    match findWindow nee hay 0 with
    | some i => some (some (h + i))
    | none => some none

end Verif.Str
