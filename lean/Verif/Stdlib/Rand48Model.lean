/-!
# The `drand48` family

Transcription of `src/header/stdlib/rand48.rs` and of the functions that use it. The locks are taken with `try_…` and
a panic if they are held; the model is sequential, they are always free. Arrays of three or seven `unsigned short`
passed by the caller are given by their contents.
-/

namespace Verif.Stdlib

/-- `[c_ushort; 3]`. -/
structure X3 where
  x0 : UInt16
  x1 : UInt16
  x2 : UInt16
deriving DecidableEq

/-- `U48` (`src/header/stdlib/rand48.rs:14`) is a wrapper of `u64`. -/
abbrev U48 := UInt64

/-- `From<&[c_ushort; 3]>` (`src/header/stdlib/rand48.rs:16-22`). -/
def U48.ofArray (v : X3) : U48 := v.x0.toUInt64 ||| (v.x1.toUInt64 <<< 16) ||| (v.x2.toUInt64 <<< 32)

/-- `TryFrom<u64>` (`src/header/stdlib/rand48.rs:30-40`). -/
def U48.tryFrom (value : UInt64) : Option U48 := if value < 0x1000000000000 then some value else none

/-- `From<U48> for [c_ushort; 3]` (`src/header/stdlib/rand48.rs:48-56`). -/
def U48.toArray (v : U48) : X3 := ⟨v.toUInt16, (v >>> 16).toUInt16, (v >>> 32).toUInt16⟩

/-- `get_f64` (`src/header/stdlib/rand48.rs:60-65`): on the bit patterns of doubles. `sub` is the subtraction. -/
def U48.getF64 (sub : UInt64 → UInt64 → UInt64) (v : U48) : UInt64 :=
  sub ((0x3ff0000000000000 : UInt64) ||| (v <<< (4 : UInt64))) 0x3ff0000000000000

/-- `get_u31` (`src/header/stdlib/rand48.rs:68-70`). The conversion to `c_long` panics if the value does not fit. -/
def U48.getU31 (v : U48) : Option Int :=
  if (v >>> 17).toNat < 2 ^ 63 then some ((v >>> 17).toNat : Int) else none

/-- `get_i32` (`src/header/stdlib/rand48.rs:73-83`). -/
def U48.getI32 (v : U48) : Int := (v >>> 16).toUInt32.toInt32.toInt

/-- `Params` (`src/header/stdlib/rand48.rs:89-92`). -/
structure Params where
  a : U48
  c : UInt16
deriving DecidableEq

/-- `Params::new` (`src/header/stdlib/rand48.rs:95-101`). -/
def Params.new : Params := ⟨0x5deece66d, 0xb⟩

/-- `Params::set` (`src/header/stdlib/rand48.rs:108-111`). -/
def Params.set (a : X3) (c : UInt16) : Params := ⟨U48.ofArray a, c⟩

/-- `Params::step` (`src/header/stdlib/rand48.rs:113-123`). -/
def Params.step (p : Params) (x : U48) : Option U48 :=
  U48.tryFrom ((p.a * x + p.c.toUInt64) &&& 0xffffffffffff)

/-- `PARAMS`, `XSUBI` and the buffer of `seed48` (`src/header/stdlib/rand48.rs:126`, `:144`,
`src/header/stdlib/mod.rs:1270`). -/
structure Rand48 where
  params : Params
  x : U48
  buf : X3

/-- The state at the start of the program. -/
def Rand48.init : Rand48 := ⟨Params.new, 0, ⟨0, 0, 0⟩⟩

/-- The step shared by `drand48`, `lrand48` and `mrand48`. -/
def Rand48.next (r : Rand48) : Option Rand48 := do
  let x ← r.params.step r.x
  some { r with x := x }

/-- `drand48` (`src/header/stdlib/mod.rs:315-320`). -/
def drand48 (sub : UInt64 → UInt64 → UInt64) (r : Rand48) : Option (UInt64 × Rand48) := do
  let r ← r.next
  some (U48.getF64 sub r.x, r)

/-- `lrand48` (`src/header/stdlib/mod.rs:694-699`). -/
def lrand48 (r : Rand48) : Option (Int × Rand48) := do
  let r ← r.next
  let v ← U48.getU31 r.x
  some (v, r)

/-- `mrand48` (`src/header/stdlib/mod.rs:890-895`). -/
def mrand48 (r : Rand48) : Option (Int × Rand48) := do
  let r ← r.next
  some (U48.getI32 r.x, r)

/-- `erand48` (`src/header/stdlib/mod.rs:349-356`). -/
def erand48 (sub : UInt64 → UInt64 → UInt64) (r : Rand48) (xsubi : X3) : Option (UInt64 × X3) := do
  let v ← r.params.step (U48.ofArray xsubi)
  some (U48.getF64 sub v, v.toArray)

/-- `nrand48` (`src/header/stdlib/mod.rs:907-915`). -/
def nrand48 (r : Rand48) (xsubi : X3) : Option (Int × X3) := do
  let v ← r.params.step (U48.ofArray xsubi)
  let k ← U48.getU31 v
  some (k, v.toArray)

/-- `jrand48` (`src/header/stdlib/mod.rs:567-575`). -/
def jrand48 (r : Rand48) (xsubi : X3) : Option (Int × X3) := do
  let v ← r.params.step (U48.ofArray xsubi)
  some (U48.getI32 v, v.toArray)

/-- `srand48` (`src/header/stdlib/mod.rs:1381-1393`). -/
def srand48 (seedval : Int64) (r : Rand48) : Option Rand48 := do
  let x ← U48.tryFrom ((seedval.toUInt64.toUInt32.toUInt64 <<< 16) ||| 0x330e)
  some { r with params := Params.new, x := x }

/-- `seed48` (`src/header/stdlib/mod.rs:1269-1288`): the new state; the returned buffer is `buf`. (The argument must not
be the returned buffer of an earlier call.) -/
def seed48 (seed16v : X3) (r : Rand48) : Rand48 :=
  { params := Params.new, x := U48.ofArray seed16v, buf := r.x.toArray }

/-- `lcong48` (`src/header/stdlib/mod.rs:636-648`). -/
def lcong48 (x a : X3) (c : UInt16) (r : Rand48) : Rand48 :=
  { r with x := U48.ofArray x, params := Params.set a c }

end Verif.Stdlib
