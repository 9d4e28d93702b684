import Verif.Net.InetModel
/-!
# IPv6 addresses as text

The branch of `inet_pton` for `AF_INET6` (`src/header/arpa_inet/mod.rs:291-373`).
-/

namespace Verif.Net
open Verif.Mem Verif.Stdlib

/-- `AF_INET6` (`src/header/sys_socket/constants.rs:174`). -/
def AF_INET6 : Int32 := 10

/-- `str::find("::")`. -/
def findPair : List UInt8 → Option Nat
  | a :: b :: t => if a = 0x3A ∧ b = 0x3A then some 0 else (findPair (b :: t)).map (· + 1)
  | _ => none

/-- `str::rfind("::")`. -/
def rfindPair : List UInt8 → Option Nat
  | a :: b :: t =>
    match rfindPair (b :: t) with
    | some i => some (i + 1)
    | none => if a = 0x3A ∧ b = 0x3A then some 0 else none
  | _ => none

/-- The loop over the four bytes of a dotted quad (`src/header/arpa_inet/mod.rs:353-367`); `false` = 0 is returned. -/
def octetLoop (m : Mem UInt8) (p : Nat) : Nat → List (List UInt8) → Option (Bool × Mem UInt8)
  | 0, _ => some (true, m)
  | _ + 1, [] => some (true, m)
  | n + 1, w :: ws =>
    if w.length > 1 ∧ w.head? = some 0x30 then some (false, m)
    else match fromStrRadix 8 10 w with
      | none => some (false, m)
      | some v => do
        let m ← Mem.store m p (UInt8.ofNat v)
        octetLoop m (p + 1) n ws

/-- The loop over the words of a chunk (`src/header/arpa_inet/mod.rs:342-371`); `p` is the address of the next element of
`s6_addr` and `left` the number of elements from there; `false` = 0 is returned. -/
def wordLoop (m : Mem UInt8) (p : Nat) : Nat → List (List UInt8) → Option (Bool × Mem UInt8)
  | _, [] => some (true, m)
  | 0, _ :: _ => some (true, m)
  | left + 1, w :: ws =>
    if w = [] then some (true, m)
    else match if w.length ≤ 4 then fromStrRadix 16 16 w else none with
      | some n => do
        let m ← writeN m p (leBytes 2 (be16 (UInt16.ofNat n)).toNat)
        wordLoop m (p + 2) left ws
      | none =>
        if 0x2E ∈ w then do
          let (ok, m) ← octetLoop m p 4 (split 0x2E w)
          if ok then wordLoop m (p + 2) left ws else some (false, m)
        else some (false, m)

/-- The loop over the chunks (`src/header/arpa_inet/mod.rs:334-372`). The subtraction panics (`none`) when it underflows. -/
def chunkLoop (m : Mem UInt8) (dst dots : Nat) : Nat → List (List UInt8) → Option (Bool × Mem UInt8)
  | _, [] => some (true, m)
  | count, chunk :: rest =>
    if chunk = [] then chunkLoop m dst dots (count + 1) rest
    else
      let n := (split 0x3A chunk).length
      if 8 < n + dots / 3 then none
      else do
        let skip := count * (8 - n - dots / 3)
        let (ok, m) ← wordLoop m (dst + 2 * skip) (8 - skip) (split 0x3A chunk)
        if ok then chunkLoop m dst dots (count + 1) rest else some (false, m)

/-- `chunks` (`src/header/arpa_inet/mod.rs:293, 316-324`). -/
def chunksOf (s : List UInt8) : List (List UInt8) :=
  match findPair s with
  | some i => [s.take i, s.drop (i + 2)]
  | none => [s]

/-- `inet_pton` for `AF_INET6` (`src/header/arpa_inet/mod.rs:291-373`). The text is read before anything is written (in the
code while it is, which would matter only if the two overlapped). -/
def inetPton6 (m : Mem UInt8) (src dst : Nat) : Option (Int32 × Mem UInt8) := do
  let n ← Str.strlen m src
  let s ← readN m src n
  let colons := s.count 0x3A
  if colons < 2 ∨ 7 < colons then some (0, m)
  else
    let dots := s.count 0x2E
    if dots ≠ 0 ∧ dots ≠ 3 then some (0, m)
    else if colons < 2
        ∨ (findPair s).isSome ∧ (dots = 0 ∧ colons > 7 ∨ dots = 3 ∧ colons > 6)
        ∨ (findPair s).isNone ∧ (dots = 0 ∧ colons ≠ 7 ∨ dots = 3 ∧ colons ≠ 6) then some (0, m)
    else if dots = 3 ∧ s.idxOf 0x3A > s.idxOf 0x2E then some (0, m)
    else if (findPair s).isSome ∧ findPair s ≠ rfindPair s then some (0, m)
    else do
      let m ← writeN m dst (List.replicate 16 0)
      let (ok, m) ← chunkLoop m dst dots 0 (chunksOf s)
      some (if ok then 1 else 0, m)

/-- `inet_pton` (`src/header/arpa_inet/mod.rs:265-378`). -/
def inetPton (m : Mem UInt8) (af : Int32) (src dst : Nat) : Option (Except InetErr Int32 × Mem UInt8) :=
  if af = AF_INET then (inetPton4 m src dst).map fun r => (.ok r.1, r.2)
  else if af = AF_INET6 then (inetPton6 m src dst).map fun r => (.ok r.1, r.2)
  else some (.error .EAFNOSUPPORT, m)

end Verif.Net
