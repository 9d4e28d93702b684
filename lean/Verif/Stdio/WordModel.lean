import Verif.Stdio.StreamModel
/-!
# Words and stored positions of a stream: `putw`, `getw`, `fgetpos`, `fsetpos`
-/

namespace Verif.Stdio
open Verif.Mem

/-- The bytes of an `int` in memory, lowest first. -/
def intBytes (w : UInt32) : List UInt8 := [w.toUInt8, (w >>> 8).toUInt8, (w >>> 16).toUInt8, (w >>> 24).toUInt8]

/-- The `int` that four bytes in memory are. -/
def bytesInt : List UInt8 → UInt32
  | [a, b, c, d] => .ofNat (a.toNat + b.toNat * 256 + c.toNat * 65536 + d.toNat * 16777216)
  | _ => 0

/-- Memory that holds one local variable of type `int`, at the address 16. -/
def local4 (l : List UInt8) : Mem UInt8 := fun a => if 16 ≤ a then l[a - 16]? else none

/-- `putw` (`src/header/stdio/mod.rs:1258-1268`): the number of items `fwrite` reports, minus one. -/
def putw (f : FILE) (w : Int32) : Option (Int × FILE) := do
  let (n, f) ← fwrite (local4 (intBytes w.toUInt32)) 16 4 1 f
  some ((n : Int) - 1, f)

/-- `getw` (`src/header/stdio/mod.rs:1037-1054`): the local variable is 0 before the read. -/
def getw (f : FILE) : Option (Int32 × FILE) := do
  let (n, m, f) ← fread (local4 [0, 0, 0, 0]) 16 4 1 f
  if 0 < n then
    let l ← readN m 16 4
    some ((bytesInt l).toInt32, f)
  else some (-1, f)

/-- `fgetpos` (`src/header/stdio/mod.rs:577-584`): the return value and what is stored at `pos`. -/
def fgetpos (f : FILE) : Int × Option Int × FILE :=
  let (off, f) := ftell f
  if off < 0 then (-1, none, f) else (0, some off, f)

/-- `fsetpos` (`src/header/stdio/mod.rs:894-896`). -/
def fsetpos (f : FILE) (pos : Int) : Int × FILE := fseek f pos 0

end Verif.Stdio
