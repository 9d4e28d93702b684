import Verif.Net.EndianModel
/-!
# Directory streams

`src/header/dirent/mod.rs`, with the system calls of Linux (`src/platform/linux/mod.rs:308-319`) and Redox
(`src/platform/redox/mod.rs:548-567`).

* The directory does not change while it is read. The kernel has a list of records; it gives to each place between two records
  a number, and finds the place again from the number. How many records a call delivers is up to the kernel.
* Memory for the buffer can always be had, and `try_reserve_exact` gives no more than asked for.
* `none` = a loop that does not end.
-/

namespace Verif.Dir
open Verif.Net

/-- The two platforms. -/
inductive Plat where
  | linux
  | redox
deriving DecidableEq

/-- `EIO`, `EINVAL` (`src/header/errno/mod.rs`). -/
def EIO : Int32 := 5
@[inherit_doc EIO] def EINVAL : Int32 := 22

/-- The kernel's side: the records, the numbers of the places and the place of a number; the position of the descriptor (Linux
only); the number of calls made, how many more records than one the call with a number delivers, and whether it fails. -/
structure Kern where
  recs : List (List UInt8)
  cookie : Nat → UInt64
  index : UInt64 → Nat
  pos : Nat
  calls : Nat
  choice : Nat → Nat
  fail : Nat → Option Int32

/-- As many records as fit, at most `c`. -/
def fit : List (List UInt8) → Nat → Nat → List (List UInt8)
  | [], _, _ => []
  | _ :: _, _, 0 => []
  | r :: rs, len, c + 1 => if r.length ≤ len then r :: fit rs (len - r.length) c else []

/-- Where a call of `getdents` begins. -/
def Kern.place (pl : Plat) (k : Kern) (opq : UInt64) : Nat :=
  match pl with
  | .linux => k.pos
  | .redox => k.index opq

/-- `Sys::getdents` with a buffer of `len` bytes: `EINVAL` if not even one record fits. -/
def Kern.getdents (pl : Plat) (k : Kern) (len : Nat) (opq : UInt64) : Except Int32 (List UInt8) × Kern :=
  let p := k.place pl opq
  let k' := { k with calls := k.calls + 1 }
  match k.fail k.calls with
  | some e => (.error e, k')
  | none =>
    match k.recs.drop p with
    | [] => (.ok [], k')
    | r :: rs =>
      if len < r.length then (.error EINVAL, k')
      else
        let l := fit (r :: rs) len (k.choice k.calls + 1)
        (.ok l.flatten, { k' with pos := p + l.length })

/-- `Sys::dir_seek`. -/
def Kern.seek (pl : Plat) (k : Kern) (off : UInt64) : Kern :=
  match pl with
  | .linux => { k with pos := k.index off }
  | .redox => k

/-- `Sys::dent_reclen_offset`: the length of the record and the number of the next place. (Bytes beyond the slice count as 0.) -/
def reclenOffset (pl : Plat) (dent : List UInt8) : Option (Nat × UInt64) :=
  let reclen := leValue ((dent.drop 16).take 2)
  let off := UInt64.ofNat (leValue ((dent.drop 8).take 8))
  match pl with
  | .linux => some (reclen, off)
  | .redox =>
    if dent.length < 19 then none
    else if reclen = 0 ∨ dent[reclen - 1]? ≠ some 0 then none
    else some (reclen, off)

/-- `DIR` (`src/header/dirent/mod.rs:57-64`); `cap` is the capacity of the buffer. -/
structure DIR where
  k : Kern
  buf : List UInt8
  cap : Nat
  off : Nat
  opq : UInt64

/-- `DIR::new` (`src/header/dirent/mod.rs:66-76`). -/
def DIR.new (k : Kern) : DIR := ⟨k, [], 512, 0, 0⟩

/-- The loop around `getdents` (`src/header/dirent/mod.rs:98-111`): the bytes or an error. -/
def DIR.fill (pl : Plat) (d : DIR) : Option (Except Int32 (List UInt8) × DIR) :=
  let buf := d.buf ++ List.replicate (d.cap - d.buf.length) 0
  match d.k.getdents pl buf.length d.opq with
  | (.ok l, k) => some (.ok l, { d with buf := buf, k := k })
  | (.error e, k) =>
    if e = EINVAL then DIR.fill pl { d with buf := buf, k := k, cap := buf.length + buf.length }
    else some (.error e, { d with buf := buf, k := k })
partial_fixpoint

/-- The rest of `next_dirent` (`src/header/dirent/mod.rs:120-141`): the entry at the offset. -/
def DIR.take (pl : Plat) (d : DIR) : Except Int32 (Option (List UInt8)) × DIR :=
  let dent := d.buf.drop d.off
  match reclenOffset pl dent with
  | none => (.error EIO, d)
  | some (reclen, next) =>
    if d.off + reclen > d.buf.length ∨ dent.length < reclen then (.error EIO, d)
    else (.ok (some (dent.take reclen)), { d with opq := next, off := d.off + reclen })

/-- `next_dirent`, `readdir` (`src/header/dirent/mod.rs:95-141`, `276-278`): the record, the null pointer at the end, or `errno`. -/
def DIR.read (pl : Plat) (d : DIR) : Option (Except Int32 (Option (List UInt8)) × DIR) :=
  if d.off > d.buf.length then some (.error EIO, d)
  else if d.buf.drop d.off = [] then
    match d.fill pl with
    | none => none
    | some (.error e, d) => some (.error e, d)
    | some (.ok l, d) =>
      let d := { d with buf := l, off := 0 }
      if l = [] then some (.ok none, d) else some (d.take pl)
  else some (d.take pl)

/-- `seek`, for `seekdir` (`src/header/dirent/mod.rs:142-149`, `382-389`); a negative offset changes nothing. -/
def DIR.seek (pl : Plat) (d : DIR) (off : Int64) : DIR :=
  if off < 0 then d
  else { d with k := d.k.seek pl off.toUInt64, buf := [], off := 0, opq := off.toUInt64 }

/-- `rewind`, for `rewinddir` (`src/header/dirent/mod.rs:150-158`, `297-299`). -/
def DIR.rewind (pl : Plat) (d : DIR) : DIR := { d with k := d.k.seek pl 0, buf := [], off := 0, opq := 0 }

/-- `telldir` (`src/header/dirent/mod.rs:393-395`). -/
def DIR.tell (d : DIR) : Int64 := d.opq.toInt64

end Verif.Dir
