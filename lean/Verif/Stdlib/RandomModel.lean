import Verif.Stdlib.SortModel
/-!
# `random`, `srandom`, `initstate`, `setstate`

Transcription of `src/header/stdlib/random.rs` and of the functions that use it. The lock is taken with `try_lock` and a
panic if it is held; the model is sequential, it is always free. `DEFAULT_X` is at the address `deflt` of memory.
-/

namespace Verif.Stdlib
open Verif.Mem

/-- `u32::from_ne_bytes` of 4 bytes, on a little-endian machine. -/
def fromBytes : List UInt8 → UInt32
  | [a, b, c, d] => a.toUInt32 ||| (b.toUInt32 <<< 8) ||| (c.toUInt32 <<< 16) ||| (d.toUInt32 <<< 24)
  | _ => 0

/-- `u32::to_ne_bytes`. -/
def toBytes (v : UInt32) : List UInt8 := [v.toUInt8, (v >>> 8).toUInt8, (v >>> 16).toUInt8, (v >>> 24).toUInt8]

/-- `u32::from_ne_bytes(*p)`. -/
def rd32 (m : Mem UInt8) (p : Nat) : Option UInt32 := do
  let l ← readN m p 4
  some (fromBytes l)

/-- `*p = v.to_ne_bytes()`. -/
def wr32 (m : Mem UInt8) (p : Nat) (v : UInt32) : Option (Mem UInt8) := writeN m p (toBytes v)

/-- `State` (`src/header/stdlib/random.rs:24-29`), with memory. -/
structure RandSt where
  mem : Mem UInt8
  xPtr : Nat
  n : UInt8
  i : UInt8
  j : UInt8

/-- `State::ensure_x_ptr_init` (`src/header/stdlib/random.rs:36-41`). -/
def RandSt.ensure (deflt : Nat) (s : RandSt) : RandSt := if s.xPtr = 0 then { s with xPtr := deflt + 4 } else s

/-- `State::save` (`src/header/stdlib/random.rs:43-50`). -/
def RandSt.save (deflt : Nat) (s : RandSt) : Option (Nat × RandSt) := do
  let s := s.ensure deflt
  let stash := (s.n.toUInt32 <<< 16) ||| (s.i.toUInt32 <<< 8) ||| s.j.toUInt32
  let m ← wr32 s.mem (s.xPtr - 4) stash
  some (s.xPtr - 4, { s with mem := m })

/-- `State::load` (`src/header/stdlib/random.rs:52-64`). -/
def RandSt.load (s : RandSt) (statePtr : Nat) : Option RandSt := do
  let stash ← rd32 s.mem statePtr
  some { s with
    xPtr := statePtr + 4
    n := ((stash >>> 16) &&& 0xff).toUInt8
    i := ((stash >>> 8) &&& 0xff).toUInt8
    j := (stash &&& 0xff).toUInt8 }

/-- `lcg31_step` (`src/header/stdlib/random.rs:113-115`). -/
def lcg31Step (x : UInt32) : UInt32 := (1103515245 * x + 12345) &&& 0x7fffffff

/-- `lcg64_step` (`src/header/stdlib/random.rs:117-119`). -/
def lcg64Step (x : UInt64) : UInt64 := 6364136223846793005 * x + 1

/-- The loop of `State::seed` (`src/header/stdlib/random.rs:78-84`): the remaining `r` words from `p` on. -/
def seedFill (m : Mem UInt8) (p : Nat) (s : UInt64) : Nat → Option (Mem UInt8)
  | 0 => some m
  | r + 1 => do
    let s := lcg64Step s
    let m ← wr32 m p (s >>> 32).toUInt32
    seedFill m (p + 4) s r

/-- `State::seed` (`src/header/stdlib/random.rs:66-89`). -/
def RandSt.seed (deflt : Nat) (st : RandSt) (seed : UInt32) : Option RandSt :=
  let st := st.ensure deflt
  let s := seed.toUInt64
  if st.n = 0 then do
    let m ← wr32 st.mem st.xPtr s.toUInt32
    some { st with mem := m }
  else do
    let i := if st.n = 31 || st.n = 7 then 3 else 1
    let m ← seedFill st.mem st.xPtr s st.n.toNat
    let x ← rd32 m st.xPtr
    let m ← wr32 m st.xPtr (x ||| 1)
    some { st with mem := m, i := i, j := 0 }

/-- `random` (`src/header/stdlib/mod.rs:1155-1197`). -/
def random (deflt : Nat) (st : RandSt) : Option (Int × RandSt) :=
  let st := st.ensure deflt
  if st.n = 0 then do
    let x ← rd32 st.mem st.xPtr
    let x := lcg31Step x
    let m ← wr32 st.mem st.xPtr x
    some (x.toNat, { st with mem := m })
  else do
    let xi ← rd32 st.mem (st.xPtr + 4 * st.i.toNat)
    let xj ← rd32 st.mem (st.xPtr + 4 * st.j.toNat)
    let x := xi + xj
    let m ← wr32 st.mem (st.xPtr + 4 * st.i.toNat) x
    let i := st.i + 1
    let i := if i = st.n then 0 else i
    let j := st.j + 1
    let j := if j = st.n then 0 else j
    some ((x >>> 1).toNat, { st with mem := m, i := i, j := j })

/-- `srandom` (`src/header/stdlib/mod.rs:1397-1401`). -/
def srandom (deflt : Nat) (st : RandSt) (seed : UInt32) : Option RandSt := st.seed deflt seed

/-- The table of `initstate` (`src/header/stdlib/mod.rs:540-547`). -/
def stateWords (size : Nat) : UInt8 :=
  if size ≤ 31 then 0 else if size ≤ 63 then 7 else if size ≤ 127 then 15 else if size ≤ 255 then 31 else 63

/-- `initstate` (`src/header/stdlib/mod.rs:534-556`): the returned pointer. -/
def initstate (deflt : Nat) (st : RandSt) (seed : UInt32) (state size : Nat) : Option (Nat × RandSt) :=
  if size < 8 then some (0, st)
  else do
    let (old, st) ← st.save deflt
    let st ← ({ st with n := stateWords size, xPtr := state + 4 } : RandSt).seed deflt seed
    let (_, st) ← st.save deflt
    some (old, st)

/-- `setstate` (`src/header/stdlib/mod.rs:1360-1367`). -/
def setstate (deflt : Nat) (st : RandSt) (state : Nat) : Option (Nat × RandSt) := do
  let (old, st) ← st.save deflt
  let st ← st.load state
  some (old, st)

end Verif.Stdlib
