import Verif.Str.StrModel

/-!
# Model of the wide-string functions of `src/header/wchar/mod.rs`

`wchar_t` is `i32`. Memory is a map from element addresses to `Int32`: a pointer to wide characters is modelled by its
address divided by 4. Only `wmemcpy` and `wmemmove`, which call the byte functions, are modelled on byte memory.
Arithmetic on `i32` wraps (release build; a debug build would panic).
-/

namespace Verif.Str

open Verif.Mem

/-- `wcslen` (`src/header/wchar/mod.rs:584-586`), the same iterator as `strlen`. -/
def wcslen (m : Mem Int32) (p : Nat) : Option Nat := strlen m p

/-- `wcsnlen` (`src/header/wchar/mod.rs:650-663`): the loop reads `*s` only while `len < maxlen`, as does
`strnlenLoop`. -/
def wcsnlen (m : Mem Int32) (p n : Nat) : Option Nat := strnlen m p n

/-- `wcscpy` (`src/header/wchar/mod.rs:542-552`): read, write, stop after the NUL, as `strcpyLoop`. -/
def wcscpy (m : Mem Int32) (d s : Nat) : Option (Mem Int32 × Nat) := strcpy m d s

/-- `wcpcpy` (`src/header/wchar/mod.rs:445-447`). -/
def wcpcpy (m : Mem Int32) (d s : Nat) : Option (Mem Int32 × Nat) := do
  let (m', r) ← wcscpy m d s
  let n ← wcslen m' s
  some (m', r + n)

/-- `wcsncpy` (`src/header/wchar/mod.rs:627-646`): both loops. -/
def wcsncpyLoop (m : Mem Int32) (d s n i : Nat) : Option (Mem Int32) :=
  if i < n then do
    let wc ← m (s + i)
    let m' ← store m (d + i) wc
    if wc = 0 then memsetLoop m' d 0 n (i + 1)
    else wcsncpyLoop m' d s n (i + 1)
  else memsetLoop m d 0 n i
termination_by n - i

def wcsncpy (m : Mem Int32) (d s n : Nat) : Option (Mem Int32 × Nat) := do
  let m' ← wcsncpyLoop m d s n 0
  some (m', d)

/-- `wcpncpy` (`src/header/wchar/mod.rs:451-453`). -/
def wcpncpy (m : Mem Int32) (d s n : Nat) : Option (Mem Int32 × Nat) := do
  let (m', r) ← wcsncpy m d s n
  let k ← wcsnlen m' s n
  some (m', r + k)

/-- `wcsncat` (`src/header/wchar/mod.rs:590-608`): the loop has the shape of `strncatLoop`. -/
def wcsncat (m : Mem Int32) (d s n : Nat) : Option (Mem Int32 × Nat) := do
  let len ← wcslen m d
  let m' ← strncatLoop m d s len n 0
  some (m', d)

/-- `wcscat` (`src/header/wchar/mod.rs:503-505`). -/
def wcscat (m : Mem Int32) (d s : Nat) : Option (Mem Int32 × Nat) := wcsncat m d s USIZE_MAX

/-- `wcsncmp` (`src/header/wchar/mod.rs:612-623`); `k` iterations left. -/
def wcsncmpLoop (m : Mem Int32) (p q : Nat) : Nat → Option Int32
  | 0 => some 0
  | k + 1 => do
    let a ← m p
    let b ← m q
    if a ≠ b then some (a - b) else if a = 0 then some 0 else wcsncmpLoop m (p + 1) (q + 1) k

def wcsncmp (m : Mem Int32) (p q n : Nat) : Option Int32 := wcsncmpLoop m p q n

/-- `wcscmp` (`src/header/wchar/mod.rs:529-531`), also `wcscoll` (`src/header/wchar/mod.rs:535-538`). -/
def wcscmp (m : Mem Int32) (p q : Nat) : Option Int32 := wcsncmp m p q USIZE_MAX

/-- `wcschr` (`src/header/wchar/mod.rs:514-525`), the same iterator as `strchr`. -/
def wcschr (m : Mem Int32) (p : Nat) (c : Int32) : Option (Option Nat) := strchrLoop m p c

/-- `wcsrchr` (`src/header/wchar/mod.rs:729-741`). -/
def wcsrchrLoop (m : Mem Int32) (p : Nat) (c : Int32) (last : Option Nat) : Option (Option Nat) := do
  let b ← m p
  if b ≠ 0 then wcsrchrLoop m (p + 1) c (if b = c then some p else last) else some last
partial_fixpoint

def wcsrchr (m : Mem Int32) (p : Nat) (c : Int32) : Option (Option Nat) := wcsrchrLoop m p c none

/-- `inner_wcsspn` (`src/header/wchar/mod.rs:554-561`). -/
def wcsspnLoop (m : Mem Int32) (p set : Nat) (reject : Bool) (count : Nat) : Option Nat := do
  let b ← m p
  if b ≠ 0 then do
    let r ← wcschr m set b
    if r.isNone = reject then wcsspnLoop m (p + 1) set reject (count + 1) else some count
  else some count
partial_fixpoint

/-- `wcsspn` (`src/header/wchar/mod.rs:745-747`). -/
def wcsspn (m : Mem Int32) (p set : Nat) : Option Nat := wcsspnLoop m p set false 0
/-- `wcscspn` (`src/header/wchar/mod.rs:565-567`). -/
def wcscspn (m : Mem Int32) (p set : Nat) : Option Nat := wcsspnLoop m p set true 0

/-- `wcspbrk` (`src/header/wchar/mod.rs:716-725`). -/
def wcspbrk (m : Mem Int32) (p set : Nat) : Option (Option Nat) := do
  let n ← wcscspn m p set
  let b ← m (p + n)
  if b = 0 then some none else some (some (p + n))

/-- `wcsstr` (`src/header/wchar/mod.rs:751-776`), also `wcswcs`. `windows(k).position(..)` is `findWindow`. -/
def wcsstr (m : Mem Int32) (p q : Nat) : Option (Option Nat) := do
  let n2 ← wcslen m q
  if n2 = 0 then some (some p)
  else do
    let n1 ← wcslen m p
    let hay ← readN m p n1
    let nee ← readN m q n2
    match findWindow nee hay 0 with
    | some i => some (some (p + i))
    | none => some none

/-- `wcstok` (`src/header/wchar/mod.rs:822-854`) from a chosen start; new memory, new `*state`, result. -/
def wcstokFrom (m : Mem Int32) (p delim : Nat) : Option (Mem Int32 × Option Nat × Option Nat) := do
  let n ← wcsspn m p delim
  let b ← m (p + n)
  if b = 0 then some (m, none, none)
  else do
    let e ← wcspbrk m (p + n) delim
    match e with
    | none => some (m, none, some (p + n))
    | some e => do
      let m' ← store m e 0
      some (m', some (e + 1), some (p + n))

def wcstok (m : Mem Int32) (wcs : Option Nat) (delim : Nat) (state : Option Nat) :
    Option (Mem Int32 × Option Nat × Option Nat) :=
  match wcs, state with
  | none, none => some (m, none, none)
  | none, some s => wcstokFrom m s delim
  | some p, _ => wcstokFrom m p delim

/-- `wmemchr` (`src/header/wchar/mod.rs:995-1002`); `k` elements left. -/
def wmemchr (m : Mem Int32) (p : Nat) (c : Int32) : Nat → Option (Option Nat)
  | 0 => some none
  | k + 1 => do
    let b ← m p
    if b = c then some (some p) else wmemchr m (p + 1) c k

/-- `wmemcmp` (`src/header/wchar/mod.rs:1006-1015`); `k` elements left. -/
def wmemcmp (m : Mem Int32) (p q : Nat) : Nat → Option Int32
  | 0 => some 0
  | k + 1 => do
    let a ← m p
    let b ← m q
    if a ≠ b then some (a - b) else wmemcmp m (p + 1) (q + 1) k

/-- `wmemset` (`src/header/wchar/mod.rs:1053-1058`). -/
def wmemset (m : Mem Int32) (p : Nat) (c : Int32) (n : Nat) : Option (Mem Int32 × Nat) := do
  let m' ← memsetLoop m p c n 0
  some (m', p)

/-- `wmemcpy` (`src/header/wchar/mod.rs:1019-1032`), on byte memory; `n * 4` wraps. -/
def wmemcpy (m : Mem UInt8) (d s n : Nat) : Option (Mem UInt8 × Nat) := memcpy m d s (n * 4 % 2 ^ 64)

/-- `wmemmove` (`src/header/wchar/mod.rs:1036-1049`), on byte memory; `n * 4` wraps. -/
def wmemmove (m : Mem UInt8) (d s n : Nat) : Option (Mem UInt8 × Nat) := memmove m d s (n * 4 % 2 ^ 64)

/-- `wcsdup` (`src/header/wchar/mod.rs:473-484`). The result of `malloc` is given: NULL or the address of a new block
of at least the size asked for. The copy by `wmemcpy` is taken element by element. -/
def wcsdup (m : Mem Int32) (p : Nat) (malloc : Nat → Option Nat) : Option (Mem Int32 × Option Nat) := do
  let l ← wcslen m p
  match malloc ((l + 1) * 4) with
  | none => some (m, none)
  | some d => do
    let m' ← memcpyLoop m d p (l + 1) 0
    some (m', some d)

end Verif.Str
