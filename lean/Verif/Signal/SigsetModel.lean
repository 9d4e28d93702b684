/-!
# Signal sets

`src/header/signal/mod.rs`: `sigemptyset`, `sigfillset`, `sigaddset`, `sigdelset`, `sigismember`. A `sigset_t` is one
64-bit word (`src/header/bits_sigset-t/mod.rs:9`), viewed as the `cbitset` type `BitSet<[u64; 1]>`, of which `insert`,
`remove`, `contains`, `clear` and `fill(.., true)` are modelled as the corresponding operations on bits.
A null pointer is `none`.
-/

namespace Verif.Signal

/-- `u64`. -/
abbrev U64 := BitVec 64

/-- The result of a call: the value returned, whether `errno` was set to `EINVAL`, and the set afterwards. -/
structure SetResult where
  ret : Int
  einval : Bool
  set : Option U64
  deriving DecidableEq

/-- `NSIG.max(SIGRTMAX)` (`src/header/signal/constants.rs`). -/
def maxSig : Nat := max 32 64

/-- The range check of `sigaddset`, `sigdelset`, `sigismember` (`src/header/signal/mod.rs:321`, `:368`, `:512`). -/
def badSig (signo : Int) : Bool := signo ≤ 0 || signo.toNat > maxSig

/-- `1 << i` on `u64`. -/
def bit (i : Nat) : U64 := 1#64 <<< i

/-- `sigaddset` (`src/header/signal/mod.rs:320-332`). -/
def sigaddset (set : Option U64) (signo : Int) : SetResult :=
  if badSig signo then ⟨-1, true, set⟩
  else ⟨0, false, set.map fun s => s ||| bit (signo.toNat - 1)⟩

/-- `sigdelset` (`src/header/signal/mod.rs:367-379`). -/
def sigdelset (set : Option U64) (signo : Int) : SetResult :=
  if badSig signo then ⟨-1, true, set⟩
  else ⟨0, false, set.map fun s => s &&& ~~~ bit (signo.toNat - 1)⟩

/-- `sigemptyset` (`src/header/signal/mod.rs:389-394`). -/
def sigemptyset (set : Option U64) : SetResult := ⟨0, false, set.map fun _ => 0⟩

/-- `sigfillset` (`src/header/signal/mod.rs:404-409`). -/
def sigfillset (set : Option U64) : SetResult := ⟨0, false, set.map fun _ => BitVec.allOnes 64⟩

/-- `sigismember` (`src/header/signal/mod.rs:511-525`). -/
def sigismember (set : Option U64) (signo : Int) : SetResult :=
  if badSig signo then ⟨-1, true, set⟩
  else
    match set with
    | some s => if s &&& bit (signo.toNat - 1) ≠ 0 then ⟨1, false, set⟩ else ⟨0, false, set⟩
    | none => ⟨0, false, set⟩

end Verif.Signal
