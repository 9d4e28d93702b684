import Verif.Stdio.StreamModel
/-!
# Line reader over a descriptor

`src/platform/rlb.rs`. The descriptor is the one of `Verif.Stdio.StreamModel`: each `read` may fail, or deliver any part
of what it was asked for, as the kernel likes. `errno` is not modelled.
-/

namespace Verif.Netdb
open Verif.Stdio

/-- `RawLineBuffer` (`src/platform/rlb.rs:11-16`) with its descriptor; `cap` is the capacity of the vector `buf`. -/
structure RLB where
  k : Kernel
  buf : List UInt8
  cap : Nat
  newline : Option Nat
  read : Nat

/-- `Line` (`src/platform/rlb.rs:19-23`). -/
inductive Line where
  | error
  | eof
  | some (l : List UInt8)
deriving DecidableEq

/-- `RawLineBuffer::new` (`src/platform/rlb.rs:26-33`). -/
def RLB.new (k : Kernel) : RLB := ⟨k, [], 0, none, 0⟩

/-- Growth of the vector (`src/platform/rlb.rs:54-56`), by `Vec::reserve`: the capacity doubles, or becomes what is asked
for if that is more. -/
def RLB.reserve (r : RLB) : RLB :=
  if r.buf.length ≥ r.cap then { r with cap := max (2 * r.cap) (r.buf.length + 1024) } else r

/-- The loop of `next` (`src/platform/rlb.rs:45-91`). -/
def RLB.loop (r : RLB) : Option (Line × RLB) :=
  match r.buf.findIdx? (· == 0x0A) with
  | some i => some (.some (r.buf.take i), { r with newline := some i })
  | none =>
    let r := { r with newline := none }.reserve
    match r.k.read (r.cap - r.buf.length) with
    | (none, k) => some (.error, { r with k })
    | (some [], k) => some (if r.buf = [] then .eof else .some r.buf, { r with k })
    | (some (b :: l), k) => RLB.loop { r with k, buf := r.buf ++ b :: l, read := r.read + (b :: l).length }
partial_fixpoint

/-- `next` (`src/platform/rlb.rs:39-92`); `none` = `drain` panics. -/
def RLB.next (r : RLB) : Option (Line × RLB) :=
  match r.newline with
  | some i => if i < r.buf.length then RLB.loop { r with buf := r.buf.drop (i + 1) } else none
  | none => r.loop

/-- `line_pos` (`src/platform/rlb.rs:95-97`). -/
def RLB.linePos (r : RLB) : Nat := r.read - r.buf.length

/-- `seek` (`src/platform/rlb.rs:100-106`). -/
def RLB.seek (r : RLB) (pos : Nat) : Int × RLB :=
  match r.k.lseek pos 0 with
  | (none, k) => (-1, { r with k })
  | (some p, k) => (p, { r with k, read := pos })

end Verif.Netdb
