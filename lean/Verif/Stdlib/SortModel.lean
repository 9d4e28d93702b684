import Verif.Mem.Basic
/-!
# `qsort`, `qsort_r`, `bsearch`

Transcription of `src/header/stdlib/sort.rs` and of the entry points in `src/header/stdlib/mod.rs`.

The comparator is a C function: it looks at the two elements it is given and may keep a state of its own (`qsort_r`'s
`arg`, or globals), so it is a function from its state and the contents of the two elements to an `int` and a new
state. It may not write to the array (C forbids it). Sizes and addresses are natural numbers: `nel * width` is the
size of an object, so none of the products below overflows.
-/

namespace Verif.Stdlib
open Verif.Mem

/-- A comparison function with state of type `σ`. -/
abbrev Comparator (σ : Type) := σ → List UInt8 → List UInt8 → Int32 × σ

variable {σ : Type}

/-- `ptr::write` of a buffer, byte after byte (the second half of `copy_from_nonoverlapping`). -/
def writeN (m : Mem UInt8) (p : Nat) : List UInt8 → Option (Mem UInt8)
  | [] => some m
  | b :: l => do
    let m ← store m p b
    writeN m (p + 1) l

/-- `swap` (`src/header/stdlib/sort.rs:242-262`): exchange `width` bytes at `ptr1` and `ptr2`, at most 128 at a time,
through a buffer. -/
def swap (m : Mem UInt8) (ptr1 ptr2 width : Nat) : Option (Mem UInt8) :=
  if width > 0 then do
    let copySize := min 128 width
    let buf ← readN m ptr1 copySize
    let other ← readN m ptr2 copySize
    let m ← writeN m ptr1 other
    let m ← writeN m ptr2 buf
    swap m (ptr1 + copySize) (ptr2 + copySize) (width - copySize)
  else some m
termination_by width
decreasing_by omega

/-- The inner loop of `insertion_sort` (`src/header/stdlib/sort.rs:100-108`), `for j in (0..i).rev()`. -/
def insertInner (cmp : Comparator σ) (base width : Nat) : Nat → σ → Mem UInt8 → Option (Mem UInt8 × σ)
  | 0, s, m => some (m, s)
  | j + 1, s, m => do
    let current := base + j * width
    let prev := base + (j + 1) * width
    let a ← readN m current width
    let b ← readN m prev width
    let (r, s) := cmp s a b
    if r > 0 then
      let m ← swap m current prev width
      insertInner cmp base width j s m
    else some (m, s)

/-- The outer loop of `insertion_sort` (`src/header/stdlib/sort.rs:93-110`), `for i in 0..nel`, with `n` iterations
left. -/
def insertOuter (cmp : Comparator σ) (base width : Nat) : (n i : Nat) → σ → Mem UInt8 → Option (Mem UInt8 × σ)
  | 0, _, s, m => some (m, s)
  | n + 1, i, s, m => do
    let (m, s) ← insertInner cmp base width i s m
    insertOuter cmp base width n (i + 1) s m

/-- `introsort` (`src/header/stdlib/sort.rs:28-39`), which only calls `insertion_sort`. The functions
`introsort_helper`, `heapsort`, `partition`, … of that file are not called by anything and not modelled. -/
def introsort (cmp : Comparator σ) (base nel width : Nat) (s : σ) (m : Mem UInt8) : Option (Mem UInt8 × σ) :=
  insertOuter cmp base width nel 0 s m

/-- `qsort` (`src/header/stdlib/mod.rs:1069-1084`) and `qsort_r` (`src/header/stdlib/mod.rs:1088-1099`): without a
comparator nothing happens. -/
def qsort (compar : Option (Comparator σ)) (base nel width : Nat) (s : σ) (m : Mem UInt8) :
    Option (Mem UInt8 × σ) :=
  match compar with
  | some comp => if nel > 0 then introsort comp base nel width s m else some (m, s)
  | none => some (m, s)

/-- `bsearch` (`src/header/stdlib/mod.rs:247-269`): the `while len > 0` loop. The result is the address of the
element found, if any. The comparator is always given the key first. `key` is the contents of the key (whatever its
size); `compar = None` (the `void_cmp` default) is not modelled. -/
def bsearchLoop (cmp : σ → List UInt8 → Int32 × σ) (width : Nat) (m : Mem UInt8) (start len : Nat) (s : σ) :
    Option (Option Nat × σ) :=
  if len > 0 then do
    let med := start + (len / 2) * width
    let e ← readN m med width
    let (diff, s) := cmp s e
    if diff = 0 then some (some med, s)
    else if diff > 0 then bsearchLoop cmp width m (med + width) ((len - 1) / 2) s
    else bsearchLoop cmp width m start (len / 2) s
  else some (none, s)
termination_by len
decreasing_by all_goals omega

/-- `bsearch` (`src/header/stdlib/mod.rs:247-269`). -/
def bsearch (cmp : Comparator σ) (m : Mem UInt8) (key : List UInt8) (base nel width : Nat) (s : σ) :
    Option (Option Nat × σ) :=
  bsearchLoop (fun s e => cmp s key e) width m base nel s

end Verif.Stdlib
