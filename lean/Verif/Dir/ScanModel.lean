import Verif.Dir.DirModel
import Verif.Stdlib.SortProps
/-!
# `scandir`, `alphasort`

`src/header/dirent/mod.rs:216-218`, `301-378`, on directory streams as in `DirModel`.

* `readdir` gives a pointer into the buffer of the stream. What can be read there is the rest of the buffer and, behind it, whatever is in
  memory (`junk`).
* The filter is a function of the 275 bytes of a `struct dirent` at the pointer; it may set `errno`.
* The array of pointers is modelled by the list of the entries they point to. It is sorted by `qsort`, which is an insertion sort
  (`qsort_eq`, C25); the comparison function sees the entries.
* `alloc n` says whether the `n`-th allocation succeeds. `malloc` does not set `errno` here (`platform::alloc`).
-/

namespace Verif.Dir
open Verif.Stdlib

/-- The fields of `struct dirent` (`src/header/dirent/mod.rs:170-176`): 8 + 8 + 2 + 1 + 256 bytes. -/
def DENT : Nat := 275

/-- A filter: whether the entry is wanted, and `errno` if it is set. -/
abbrev Filter := List UInt8 → Bool × Option Int32

/-- The state of the loop: the stream, the vector and its capacity, `errno`, the allocations so far, and whether bytes behind the end of
the stream's buffer have been read. -/
structure Scan where
  d : DIR
  vec : List (List UInt8)
  cap : Nat
  errno : Int32
  allocs : Nat
  over : Bool

/-- `CVec::push` (`src/c_vec.rs:87-109`): whether it succeeds. The capacity is the next power of two, as it is one already. -/
def Scan.push (alloc : Nat → Bool) (s : Scan) (e : List UInt8) : Bool × Scan :=
  if s.vec.length + 1 > s.cap then
    if alloc s.allocs then (true, { s with vec := s.vec ++ [e], cap := 2 * s.cap, allocs := s.allocs + 1 })
    else (false, { s with allocs := s.allocs + 1 })
  else (true, { s with vec := s.vec ++ [e] })

/-- The filter's answer; without a filter every entry is wanted (`src/header/dirent/mod.rs:327-331`). -/
def askFilter (filter : Option Filter) (entry : List UInt8) : Bool × Option Int32 :=
  match filter with
  | none => (true, none)
  | some f => f entry

/-- The loop (`src/header/dirent/mod.rs:321-341`). -/
def scanLoop (pl : Plat) (filter : Option Filter) (alloc : Nat → Bool) (junk : List UInt8) (s : Scan) : Option Scan :=
  match s.d.read pl with
  | none => none
  | some (.error e, d) => some { s with d := d, errno := e }
  | some (.ok none, d) => some { s with d := d }
  | some (.ok (some r), d) =>
    let start := d.off - r.length
    let entry := (d.buf.drop start ++ junk).take DENT
    let verdict := askFilter filter entry
    let s := { s with d := d, errno := verdict.2.getD s.errno }
    if verdict.1 = false then scanLoop pl filter alloc junk s
    else if alloc s.allocs = false then some { s with allocs := s.allocs + 1 }
    else
      let p := Scan.push alloc { s with allocs := s.allocs + 1, over := s.over || decide (start + DENT > d.cap) } entry
      if p.1 then scanLoop pl filter alloc junk p.2 else some p.2
partial_fixpoint

/-- What a caller sees: the value returned, the entries in `*namelist` if that was written, `errno`; and whether the directory has been closed,
and whether bytes behind the end of the buffer were read. -/
structure Scanned where
  ret : Int32
  list : Option (List (List UInt8))
  errno : Int32
  closed : Bool
  over : Bool

/-- The call of `qsort` (`src/header/dirent/mod.rs:366-374`); without a comparison function it does nothing. -/
def sortBy {σ : Type} (compare : Option (Comparator σ)) (c : σ) (vec : List (List UInt8)) : List (List UInt8) :=
  match compare with
  | some cmp => (isort cmp c [] vec).1
  | none => vec

/-- The last part of `scandir` (`src/header/dirent/mod.rs:343-377`). -/
def scanEnd {σ : Type} (compare : Option (Comparator σ)) (c : σ) (alloc : Nat → Bool) (old : Int32) (s : Scan) : Scanned :=
  if s.vec ≠ [] ∧ alloc s.allocs = false then ⟨-1, none, s.errno, true, s.over⟩
  else if s.errno ≠ 0 then ⟨-1, none, s.errno, true, s.over⟩
  else
    ⟨Int32.ofNat s.vec.length, some (sortBy compare c s.vec), old, true, s.over⟩

/-- `scandir` (`src/header/dirent/mod.rs:303-378`), with the directory as opened or the error of `opendir`. -/
def scandir {σ : Type} (pl : Plat) (dir : Except Int32 Kern) (filter : Option Filter) (compare : Option (Comparator σ)) (c : σ)
    (alloc : Nat → Bool) (junk : List UInt8) (errno : Int32) : Option Scanned :=
  match dir with
  | .error e => some ⟨-1, none, e, true, false⟩
  | .ok k =>
    if alloc 0 = false then some ⟨-1, none, errno, false, false⟩
    else (scanLoop pl filter alloc junk ⟨DIR.new k, [], 4, 0, 1, false⟩).map (scanEnd compare c alloc errno)

/-- The loop of `strcmp` on two strings without their NULs. -/
def cmpNames : List UInt8 → List UInt8 → Int32
  | [], [] => 0
  | [], b :: _ => - b.toUInt32.toInt32
  | a :: _, [] => a.toUInt32.toInt32
  | a :: s, b :: t => if a = b then cmpNames s t else a.toUInt32.toInt32 - b.toUInt32.toInt32

/-- `d_name`, as a string, of the bytes of an entry. -/
def dname (e : List UInt8) : List UInt8 := (e.drop 19).takeWhile (· ≠ 0)

/-- `alphasort` (`src/header/dirent/mod.rs:216-218`), which is `strcmp` of the names (`src/header/string/mod.rs:322-331`); as a comparison
function without a state. -/
def alphasort : Comparator Unit := fun _ a b => (cmpNames (dname a) (dname b), ())

end Verif.Dir
