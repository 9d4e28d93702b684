import Verif.Str.MemModel

/-!
# Model of the `str*` functions of `src/header/string/mod.rs`

`c_char` is represented by the byte it holds. NULL arguments are not modelled. In results of type
`Option (Option Nat)` the outer `none` is a fault (or no termination), the inner one is NULL.
-/

namespace Verif.Str

open Verif.Mem

variable {α : Type} [DecidableEq α] [OfNat α 0]

/-- `usize::MAX` -/
def USIZE_MAX : Nat := 2 ^ 64 - 1

/-! ## Lengths -/

/-- `NulTerminated::new(s).count()` (`src/iter.rs:53-67`, `src/header/string/mod.rs:483-487`). -/
def strlenLoop (m : Mem α) (p n : Nat) : Option Nat := do
  let b ← m p
  if b = 0 then some n else strlenLoop m (p + 1) (n + 1)
partial_fixpoint

/-- `strlen` (`src/header/string/mod.rs:483-487`). -/
def strlen (m : Mem α) (p : Nat) : Option Nat := strlenLoop m p 0

/-- `NulTerminated::new(s).take(size).count()`: `take` does not ask for the next element when none is left. -/
def strnlenLoop (m : Mem α) (p n : Nat) : Nat → Option Nat
  | 0 => some n
  | k + 1 => do
    let b ← m p
    if b = 0 then some n else strnlenLoop m (p + 1) (n + 1) k

/-- `strnlen` (`src/header/string/mod.rs:568-570`). -/
def strnlen (m : Mem α) (p size : Nat) : Option Nat := strnlenLoop m p 0 size

/-! ## Copies -/

/-- `strcpy` (`src/header/string/mod.rs:335-343`; `SrcDstPtrIter`, `src/iter.rs:165-189`): each source element, the
added final NUL included, is read and then written. -/
def strcpyLoop (m : Mem α) (d s : Nat) : Option (Mem α) := do
  let b ← m s
  let m' ← store m d b
  if b = 0 then some m' else strcpyLoop m' (d + 1) (s + 1)
partial_fixpoint

def strcpy (m : Mem α) (d s : Nat) : Option (Mem α × Nat) := do
  let m' ← strcpyLoop m d s
  some (m', d)

/-- `stpcpy` (`src/header/string/mod.rs:210-223`). -/
def stpcpy (m : Mem UInt8) (d s : Nat) : Option (Mem UInt8 × Nat) := do
  let b ← m s
  let m' ← store m d b
  let c ← m' d
  if c = 0 then some (m', d) else stpcpy m' (d + 1) (s + 1)
partial_fixpoint

/-- `stpncpy` (`src/header/string/mod.rs:242-262`); the `memset` after the loop is called with the remaining `n`. -/
def stpncpy (m : Mem UInt8) (d s : Nat) : Nat → Option (Mem UInt8 × Nat)
  | 0 => do
    let (m', _) ← memset m d 0 0
    some (m', d)
  | n + 1 => do
    let b ← m s
    let m' ← store m d b
    let c ← m' d
    if c = 0 then do
      let (m'', _) ← memset m' d 0 (n + 1)
      some (m'', d)
    else stpncpy m' (d + 1) (s + 1) n

/-- `strncpy` (`src/header/string/mod.rs:541-544`). -/
def strncpy (m : Mem UInt8) (d s n : Nat) : Option (Mem UInt8 × Nat) := do
  let (m', _) ← stpncpy m d s n
  some (m', d)

/-- Loop of `strncat` (`src/header/string/mod.rs:494-503`) from index `i`, and the final NUL. -/
def strncatLoop (m : Mem α) (d s len n i : Nat) : Option (Mem α) :=
  if i < n then do
    let b ← m (s + i)
    if b = 0 then store m (d + (len + i)) 0
    else do
      let m' ← store m (d + (len + i)) b
      strncatLoop m' d s len n (i + 1)
  else store m (d + (len + i)) 0
termination_by n - i

/-- `strncat` (`src/header/string/mod.rs:491-506`). -/
def strncat (m : Mem UInt8) (d s n : Nat) : Option (Mem UInt8 × Nat) := do
  let len ← strlen m d
  let m' ← strncatLoop m d s len n 0
  some (m', d)

/-- `strcat` (`src/header/string/mod.rs:272-274`). -/
def strcat (m : Mem UInt8) (d s : Nat) : Option (Mem UInt8 × Nat) := strncat m d s USIZE_MAX

/-- Copy loop of `strlcpy` (`src/header/string/mod.rs:458-466`): memory and `i` after the loop and the NUL. -/
def strlcpyLoop (m : Mem UInt8) (d s size i : Nat) : Option (Mem UInt8 × Nat) := do
  let b ← m (s + i)
  if b ≠ 0 ∧ i < size - 1 then do
    let m' ← store m (d + i) b
    strlcpyLoop m' d s size (i + 1)
  else do
    let m' ← store m (d + i) 0
    some (m', i)
partial_fixpoint

/-- `strlcpy` (`src/header/string/mod.rs:454-474`). -/
def strlcpy (m : Mem UInt8) (d s size : Nat) : Option (Mem UInt8 × Nat) :=
  if size ≠ 0 then do
    let (m', i) ← strlcpyLoop m d s size 0
    let n ← strlenLoop m' (s + i) i
    some (m', n)
  else do
    let n ← strlenLoop m s 0
    some (m, n)

/-- `strlcat` (`src/header/string/mod.rs:427-432`). -/
def strlcat (m : Mem UInt8) (d s size : Nat) : Option (Mem UInt8 × Nat) := do
  let dstLen ← strnlen m d size
  let (m', srcLen) ← strlcpy m (d + dstLen) s (size - dstLen)
  some (m', srcLen + if dstLen > size then size else dstLen)

/-- `strndup` (`src/header/string/mod.rs:548-564`); `buf` is the address returned by the allocator, `none` when it
fails. Result: memory and returned pointer. -/
def strndup (m : Mem UInt8) (s size : Nat) (buf : Nat → Option Nat) : Option (Mem UInt8 × Option Nat) := do
  let len ← strnlen m s size
  match buf (len + 1) with
  | none => some (m, none)
  | some b => do
    let m' ← memcpyLoop m b s len 0
    let m'' ← store m' (b + len) 0
    some (m'', some b)

/-- `strdup` (`src/header/string/mod.rs:380-382`). -/
def strdup (m : Mem UInt8) (s : Nat) (buf : Nat → Option Nat) : Option (Mem UInt8 × Option Nat) :=
  strndup m s USIZE_MAX buf

/-- `strxfrm` (`src/header/string/mod.rs:724-726`). -/
def strxfrm (m : Mem UInt8) (d s n : Nat) : Option (Mem UInt8 × Nat) := do
  let len ← strlen m s
  if len < n then do
    let (m', _) ← strcpy m d s
    some (m', len)
  else some (m, len)

/-! ## Comparison -/

/-- `strncmp` (`src/header/string/mod.rs:510-521`): `k` iterations left. -/
def strncmpLoop (m : Mem UInt8) (p q : Nat) : Nat → Option Int
  | 0 => some 0
  | k + 1 => do
    let a ← m p
    let b ← m q
    if a ≠ b ∨ a = 0 then some ((a.toNat : Int) - b.toNat) else strncmpLoop m (p + 1) (q + 1) k

def strncmp (m : Mem UInt8) (p q n : Nat) : Option Int := strncmpLoop m p q n

/-- `strcmp` (`src/header/string/mod.rs:316-318`), also `strcoll` (`src/header/string/mod.rs:329-331`). -/
def strcmp (m : Mem UInt8) (p q : Nat) : Option Int := strncmp m p q USIZE_MAX

/-! ## Searching -/

/-- `strchr` (`src/header/string/mod.rs:283-296`) with `NulTerminatedInclusive` (`src/iter.rs:106-124`). -/
def strchrLoop (m : Mem α) (p : Nat) (c : α) : Option (Option Nat) := do
  let b ← m p
  if b = c then some (some p)
  else if b = 0 then some none
  else strchrLoop m (p + 1) c
partial_fixpoint

def strchr (m : Mem UInt8) (p : Nat) (c : Int) : Option (Option Nat) := strchrLoop m p (toUChar c)

/-- `strchrnul` (`src/header/string/mod.rs:300-312`). -/
def strchrnulLoop (m : Mem UInt8) (p : Nat) (c : UInt8) : Option Nat := do
  let b ← m p
  if b = c then some p
  else if b = 0 then some p
  else strchrnulLoop m (p + 1) c
partial_fixpoint

def strchrnul (m : Mem UInt8) (p : Nat) (c : Int) : Option Nat := strchrnulLoop m p (toUChar c)

/-- Loop of `strrchr` (`src/header/string/mod.rs:598-605`); the argument is `i + 1`. -/
def strrchrLoop (m : Mem α) (p : Nat) (c : α) : Nat → Option (Option Nat)
  | 0 => some none
  | i + 1 => do
    let b ← m (p + i)
    if b = c then some (some (p + i)) else strrchrLoop m p c i

/-- `strrchr` (`src/header/string/mod.rs:595-606`). -/
def strrchr (m : Mem UInt8) (p : Nat) (c : Int) : Option (Option Nat) := do
  let len ← strlen m p
  strrchrLoop m p (toUChar c) len

/-- Inner loop of `inner_strstr` (`src/header/string/mod.rs:639-649`): does the needle match at `h`? -/
def strstrMatch (m : Mem UInt8) (h n : Nat) (mask : UInt8) (i : Nat) : Option Bool := do
  let b ← m (n + i)
  if b = 0 then some true
  else do
    let a ← m (h + i)
    if a &&& mask ≠ b &&& mask then some false else strstrMatch m h n mask (i + 1)
partial_fixpoint

/-- `inner_strstr` (`src/header/string/mod.rs:632-654`). -/
def innerStrstr (m : Mem UInt8) (h n : Nat) (mask : UInt8) : Option (Option Nat) := do
  let a ← m h
  if a = 0 then some none
  else do
    let r ← strstrMatch m h n mask 0
    if r then some (some h) else innerStrstr m (h + 1) n mask
partial_fixpoint

/-- `strstr` (`src/header/string/mod.rs:658-660`). -/
def strstr (m : Mem UInt8) (h n : Nat) : Option (Option Nat) := innerStrstr m h n 255

/-- `strcasestr` (`src/header/string/mod.rs:266-268`); the mask `!32` is 223. -/
def strcasestr (m : Mem UInt8) (h n : Nat) : Option (Option Nat) := innerStrstr m h n 223

/-! ## Spans and tokens -/

/-- First loop of `inner_strspn` (`src/header/string/mod.rs:354-359`); the external `BitSet256` is represented by the
list of inserted bytes. -/
def spanSet (m : Mem UInt8) (q : Nat) (set : List UInt8) : Option (List UInt8) := do
  let b ← m q
  if b = 0 then some set else spanSet m (q + 1) (b :: set)
partial_fixpoint

/-- Second loop of `inner_strspn` (`src/header/string/mod.rs:361-369`). -/
def spanLoop (m : Mem UInt8) (p : Nat) (set : List UInt8) (cmp : Bool) (i : Nat) : Option Nat := do
  let b ← m p
  if b = 0 then some i
  else if set.contains b ≠ cmp then some i
  else spanLoop m (p + 1) set cmp (i + 1)
partial_fixpoint

/-- `inner_strspn` (`src/header/string/mod.rs:345-370`). -/
def innerStrspn (m : Mem UInt8) (p q : Nat) (cmp : Bool) : Option Nat := do
  let set ← spanSet m q []
  spanLoop m p set cmp 0

/-- `strspn` (`src/header/string/mod.rs:628-630`). -/
def strspn (m : Mem UInt8) (p q : Nat) : Option Nat := innerStrspn m p q true

/-- `strcspn` (`src/header/string/mod.rs:374-376`). -/
def strcspn (m : Mem UInt8) (p q : Nat) : Option Nat := innerStrspn m p q false

/-- `strpbrk` (`src/header/string/mod.rs:584-591`). -/
def strpbrk (m : Mem UInt8) (p q : Nat) : Option (Option Nat) := do
  let n ← strcspn m p q
  let b ← m (p + n)
  if b ≠ 0 then some (some (p + n)) else some none

/-- `strsep` (`src/header/string/mod.rs:436-450`): new memory, new `*str_`, returned pointer. -/
def strsep (m : Mem UInt8) (str : Option Nat) (q : Nat) : Option (Mem UInt8 × Option Nat × Option Nat) :=
  match str with
  | none => some (m, none, none)
  | some s => do
    let n ← strcspn m s q
    let b ← m (s + n)
    if b ≠ 0 then do
      let m' ← store m (s + n) 0
      some (m', some (s + n + 1), some s)
    else some (m, none, some s)

/-- Second half of `strtok_r`, from the line `haystack = haystack.add(strspn(haystack, delimiter))`
(`src/header/string/mod.rs:685-703`): new memory, new `*lasts`, returned pointer. -/
def strtokFrom (m : Mem UInt8) (h q : Nat) : Option (Mem UInt8 × Option Nat × Option Nat) := do
  let k ← strspn m h q
  let token := h + k
  let b ← m token
  if b = 0 then some (m, some token, none)
  else do
    let e ← strpbrk m token q
    match e with
    | some e => do
      let m' ← store m e 0
      some (m', some (e + 1), some token)
    | none => do
      let n ← strlen m token
      some (m, some (token + n), some token)

/-- `strtok_r` (`src/header/string/mod.rs:671-704`); `s` and `lasts` are `none` for NULL. -/
def strtokR (m : Mem UInt8) (s : Option Nat) (q : Nat) (lasts : Option Nat) :
    Option (Mem UInt8 × Option Nat × Option Nat) :=
  match s with
  | some h => strtokFrom m h q
  | none =>
    match lasts with
    | none => some (m, none, none)
    | some h => strtokFrom m h q

end Verif.Str
