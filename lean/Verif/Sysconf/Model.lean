import Verif.Locale.Model
/-!
# `sysconf` of Redox (`src/header/unistd/sysconf/redox.rs`, `src/header/unistd/sysconf.rs:20-23`)

The file `/scheme/sys/cpu` is given by its contents (`none` if it cannot be read), the memory scheme by its total and free blocks. `utf8` says whether
bytes are text. Only ASCII white space is trimmed. Not modelled: that a failing read of the processor file, which is answered with 1, may change `errno`.
-/

namespace Verif.Sysconf

abbrev Bytes := List UInt8

/-- The sign of a number, and what follows it. -/
def sign : Bytes → Bool × Bytes
  | 0x2D :: t => (true, t)
  | 0x2B :: t => (false, t)
  | t => (false, t)

/-- `str::parse::<i64>`: a sign, digits. -/
def parseI64 (s : Bytes) : Option Int :=
  let neg := (sign s).1
  let t := (sign s).2
  if t = [] ∨ t.any (fun b => b < 0x30 || 0x39 < b) then none
  else
    let m : Nat := t.foldl (fun (a : Nat) b => a * 10 + (b.toNat - 0x30)) 0
    let n : Int := if neg then -(m : Int) else m
    if -2 ^ 63 ≤ n ∧ n < 2 ^ 63 then some n else none

/-- `CPUs:`. -/
def label : Bytes := [0x43, 0x50, 0x55, 0x73, 0x3A]

/-- `get_cpu_count` (`src/header/unistd/sysconf/redox.rs:58-75`), `none` for an error too. The first 128 bytes are looked at. Simplified: a carriage return
before a line feed stays, which the trimming removes, and the empty piece after the last line feed stays, which is not the line looked for. -/
def cpuCount (utf8 : Bytes → Bool) (file : Option Bytes) : Option Int :=
  match file with
  | none => none
  | some f =>
    let contents := f.take 128
    if utf8 contents = false then none
    else
      match (Locale.split 0x0A contents).find? (fun l => label.isPrefixOf l) with
      | none => none
      | some line =>
        match (Locale.split 0x3A line)[1]? with
        | none => none
        | some num => parseI64 (Lookup.trim num)

/-- What the answers depend on. -/
structure Env where
  utf8 : Bytes → Bool
  cpu : Option Bytes
  /-- `get_mem_stat`: total and free blocks. -/
  mem : Option (Nat × Nat)
  pageSize : Nat

/-- A `u64` as `c_long`. -/
def asLong (n : Nat) : Int := (n : Int).bmod (2 ^ 64)

/-- `sysconf_impl` (`src/header/unistd/sysconf/redox.rs:15-56`) with the numbers of `src/header/unistd/sysconf/constants.rs`: the value, and the error
number if one is set. -/
def sysconf (e : Env) (name : Int) : Int × Option Int :=
  match name with
  | 0 => (4096, none)
  | 1 => (65536, none)
  | 2 => (100, none)
  | 3 => (65536, none)
  | 4 => (1024, none)
  | 5 => (16, none)
  | 6 => (-1, none)
  | 9 => (202405, none)
  | 11 => (202405, none)
  | 21 => (200112, none)
  | 22 => (200112, none)
  | 29 => (200809, none)
  | 30 => (if e.pageSize < 2 ^ 63 then e.pageSize else -1, none)
  | 34 => (32, none)
  | 44 => (32767, none)
  | 67 => (202405, none)
  | 69 => (-1, none)
  | 70 => (-1, none)
  | 71 => (256, none)
  | 72 => (32, none)
  | 77 => (202405, none)
  | 78 => (202405, none)
  | 83 => ((cpuCount e.utf8 e.cpu).getD 1, none)
  | 84 => ((cpuCount e.utf8 e.cpu).getD 1, none)
  | 85 => ((e.mem.map fun m => asLong m.1).getD (-1), none)
  | 86 => ((e.mem.map fun m => asLong m.2).getD (-1), none)
  | 133 => (202405, none)
  | 149 => (200112, none)
  | 157 => (1, none)
  | 164 => (202405, none)
  | 173 => (-1, none)
  | 180 => (255, none)
  | _ => (-1, some 22)

end Verif.Sysconf
