import Verif.Net.EndianModel
import Verif.Str.StrModel
import Verif.Stdio.PrintfModel
/-!
# IPv4 addresses as text

`src/header/arpa_inet/mod.rs`. `in_addr` is a 32-bit word stored in little-endian order, as on the supported targets, so
that the word with the bytes of the address in network order is `to_be` of the address.
-/

namespace Verif.Net
open Verif.Mem Verif.Stdlib

/-! ## Library functions of Rust -/

/-- `char::to_digit`. -/
def toDigit (radix : Nat) (b : UInt8) : Option Nat :=
  let d :=
    if 0x30 ≤ b ∧ b ≤ 0x39 then b.toNat - 0x30
    else if 0x61 ≤ b ∧ b ≤ 0x7A then b.toNat - 0x57
    else if 0x41 ≤ b ∧ b ≤ 0x5A then b.toNat - 0x37
    else 36
  if d < radix then some d else none

/-- The loop of `from_str_radix`: `none` = an error. -/
def accDigits (bits radix r : Nat) : List UInt8 → Option Nat
  | [] => some r
  | b :: t => do
    let d ← toDigit radix b
    let v := r * radix + d
    if v < 2 ^ bits then accDigits bits radix v t else none

/-- `from_str_radix` (and `parse`, with radix 10) of unsigned integers of `bits` bits: one `+` in front is skipped. -/
def fromStrRadix (bits radix : Nat) : List UInt8 → Option Nat
  | [] => none
  | [b] => if b = 0x2B ∨ b = 0x2D then none else accDigits bits radix 0 [b]
  | b :: t => if b = 0x2B then accDigits bits radix 0 t else accDigits bits radix 0 (b :: t)

/-- `str::split` at a byte. -/
def split (c : UInt8) : List UInt8 → List (List UInt8)
  | [] => [[]]
  | b :: t =>
    if b = c then [] :: split c t
    else match split c t with
      | [] => [[b]]
      | w :: ws => (b :: w) :: ws

/-! ## `inet_aton`, `inet_addr`, `inet_network` -/

/-- The value of one part (`src/header/arpa_inet/mod.rs:78-92`). -/
def partValue : List UInt8 → Option Nat
  | 0x30 :: b :: t => if b = 0x78 ∨ b = 0x58 then fromStrRadix 32 16 t else fromStrRadix 32 8 (b :: t)
  | part => fromStrRadix 32 10 part

/-- The loop of `inet_aton` (`src/header/arpa_inet/mod.rs:75-111`); `none` = 0 is returned. -/
def atonLoop (result : UInt32) (index : Nat) : List (List UInt8) → Option UInt32
  | [] => some result
  | part :: rest =>
    match partValue part with
    | none => none
    | some v =>
      if rest ≠ [] then
        if v > 0xFF then none else atonLoop (result + UInt32.ofNat v <<< UInt32.ofNat (24 - index * 8)) (index + 1) rest
      else if index > 0 ∧ v ≥ 2 ^ (32 - index * 8) then none
      else atonLoop (result + UInt32.ofNat v) (index + 1) rest

/-- `inet_aton` (`src/header/arpa_inet/mod.rs:65-114`): return value and memory. (There are at most 4 parts, so the
condition `index < 4` always holds.) -/
def inetAton (m : Mem UInt8) (cp inp : Nat) : Option (Int32 × Mem UInt8) := do
  let n ← Str.strlen m cp
  let s ← readN m cp n
  let parts := split 0x2E s
  if parts.length > 4 then some (0, m)
  else match atonLoop 0 0 parts with
    | none => some (0, m)
    | some r => do
      let m ← writeN m inp (leBytes 4 (be32 r).toNat)
      some (1, m)

/-- `inet_addr` (`src/header/arpa_inet/mod.rs:49-57`); the local variable is at `val`. -/
def inetAddr (m : Mem UInt8) (val cp : Nat) : Option UInt32 := do
  let m ← writeN m val [0, 0, 0, 0]
  let (r, m) ← inetAton m cp val
  if r > 0 then do
    let l ← readN m val 4
    some (UInt32.ofNat (leValue l))
  else some 0xFFFFFFFF

/-- `inet_network` (`src/header/arpa_inet/mod.rs:192-197`). -/
def inetNetwork (m : Mem UInt8) (val cp : Nat) : Option UInt32 := do
  let r ← inetAddr m val cp
  some (ntohl r)

/-! ## `inet_lnaof`, `inet_netof`, `inet_makeaddr` -/

/-- `inet_lnaof` (`src/header/arpa_inet/mod.rs:126-134`). -/
def inetLnaof (a : UInt32) : UInt32 :=
  if a >>> 24 < 128 then a &&& 0xFFFFFF else if a >>> 24 < 192 then a &&& 0xFFFF else a &&& 0xFF

/-- `inet_makeaddr` (`src/header/arpa_inet/mod.rs:147-159`). -/
def inetMakeaddr (net lna : UInt32) : UInt32 :=
  if net < 256 then lna ||| net <<< 24 else if net < 65536 then lna ||| net <<< 16 else lna ||| net <<< 8

/-- `inet_netof` (`src/header/arpa_inet/mod.rs:171-179`). -/
def inetNetof (a : UInt32) : UInt32 :=
  if a >>> 24 < 128 then a &&& 0xFFFFFF else if a >>> 24 < 192 then a &&& 0xFFFF else a &&& 0xFF

/-! ## `inet_ntop`, `inet_pton` -/

/-- The errors. -/
inductive InetErr where
  | EAFNOSUPPORT
  | ENOSPC
deriving DecidableEq

/-- `AF_INET` (`src/header/sys_socket/constants.rs:172`). -/
def AF_INET : Int32 := 2

/-- `inet_ntop` (`src/header/arpa_inet/mod.rs:231-258`). The four bytes are read before the text is written (in the code
they are read one by one while it is written, which would matter if source and destination overlapped). -/
def inetNtop (m : Mem UInt8) (af : Int32) (src dst : Nat) (size : UInt32) : Option (Except InetErr Nat × Mem UInt8) := do
  if af ≠ AF_INET then some (.error .EAFNOSUPPORT, m)
  else if size < 16 then some (.error .ENOSPC, m)
  else do
    let l ← readN m src 4
    let d := fun i => Stdio.digitsOf 10 false (l.getD i 0).toNat
    let (_, m) ← (⟨dst, size.toNat⟩ : Stdio.StringWriter).writeAll m
      [d 0, [0x2E], d 1, [0x2E], d 2, [0x2E], d 3, [0]]
    some (.ok dst, m)

/-- The loop of `inet_pton` and the test behind it (`src/header/arpa_inet/mod.rs:275-290`). -/
def ptonLoop (m : Mem UInt8) (dst : Nat) : Nat → List (List UInt8) → Option (Int32 × Mem UInt8)
  | 0, octets => some (if octets = [] then 1 else 0, m)
  | _ + 1, [] => some (0, m)
  | n + 1, w :: ws =>
    if w.length ≤ 3 then
      match fromStrRadix 8 10 w with
      | none => some (0, m)
      | some v => do
        let m ← Mem.store m dst (UInt8.ofNat v)
        ptonLoop m (dst + 1) n ws
    else some (0, m)

/-- `inet_pton` for `AF_INET` (`src/header/arpa_inet/mod.rs:265-290`). -/
def inetPton4 (m : Mem UInt8) (src dst : Nat) : Option (Int32 × Mem UInt8) := do
  let n ← Str.strlen m src
  let s ← readN m src n
  ptonLoop m dst 4 (split 0x2E s)

end Verif.Net
