import Verif.Net.InetModel
/-!
# The user database

`src/header/pwd/mod.rs`, `src/header/pwd/linux.rs`, `src/header/pwd/redox.rs`.

* The contents of `/etc/passwd` are a list of bytes; the file does not change, and opening and reading it succeed. The buffered
  reader is its rest of the file.
* The two platforms: `redox`.
* Pointers into the buffer of an entry are offsets. `static mut` variables are left out: an entry is returned instead of being put
  there.
-/

namespace Verif.Users

open Verif.Net

/-- `read_until` for a newline (`src/io/mod.rs:398-424`): the line with its newline, and the rest. -/
def readLine : List UInt8 → List UInt8 × List UInt8
  | [] => ([], [])
  | b :: t => if b = 0x0A then ([b], t) else (b :: (readLine t).1, (readLine t).2)

/-- `SEPARATOR` (`src/header/pwd/mod.rs:35-39`). -/
def sep (redox : Bool) : UInt8 := if redox then 0x3B else 0x3A

/-- The parts with their offsets. -/
def positions (off : Nat) : List (List UInt8) → List (Nat × List UInt8)
  | [] => []
  | w :: ws => (off, w) :: positions (off + w.length + 1) ws

/-- The loop of `from_str_radix` behind a minus sign. -/
def accNeg (bits r : Nat) : List UInt8 → Option Nat
  | [] => some r
  | b :: t => do
    let d ← toDigit 10 b
    let v := r * 10 + d
    if v ≤ 2 ^ (bits - 1) then accNeg bits v t else none

/-- `parse` of signed integers of `bits` bits (Rust's library). `uid_t` and `gid_t` are `c_int` (`src/platform/types.rs:96-98`). -/
def parseInt (bits : Nat) : List UInt8 → Option Int
  | [] => none
  | [b] => if b = 0x2B ∨ b = 0x2D then none else (accDigits (bits - 1) 10 0 [b]).map Int.ofNat
  | b :: t =>
    if b = 0x2B then (accDigits (bits - 1) 10 0 t).map Int.ofNat
    else if b = 0x2D then (accNeg bits 0 t).map fun v => -(v : Int)
    else (accDigits (bits - 1) 10 0 (b :: t)).map Int.ofNat

/-- `passwd` (`src/header/pwd/mod.rs:48-63`). No `passwd`: the static string "x". -/
structure Passwd where
  name : Nat
  passwd : Option Nat
  uid : Int
  gid : Int
  gecos : Nat
  dir : Nat
  shell : Nat
deriving DecidableEq

/-- `split` (`src/header/pwd/linux.rs:4-15`, `src/header/pwd/redox.rs:4-15`), `parsed` (`src/header/pwd/mod.rs:130-138`). What is
not UTF-8 is not a number either. -/
def splitEntry (redox : Bool) (buf : List UInt8) : Option Passwd :=
  match redox, positions 0 (split 0 buf) with
  | false, n :: p :: u :: g :: c :: d :: s :: _ => do
    let uid ← parseInt 32 u.2
    let gid ← parseInt 32 g.2
    some ⟨n.1, some p.1, uid, gid, c.1, d.1, s.1⟩
  | true, n :: u :: g :: c :: d :: s :: _ => do
    let uid ← parseInt 32 u.2
    let gid ← parseInt 32 g.2
    some ⟨n.1, none, uid, gid, c.1, d.1, s.1⟩
  | _, _ => none

/-- `Cause` (`src/header/pwd/mod.rs:122-126`). `range`, `bad`: `Cause::Other`, with `errno` set to `ERANGE` or not set. -/
inductive Cause where
  | eof
  | range
  | bad
deriving DecidableEq

/-- `OwnedPwd` (`src/header/pwd/mod.rs:106-109`). -/
structure Owned where
  buf : List UInt8
  ref : Passwd
deriving DecidableEq

/-- The line with NUL bytes for the separators and at the end (`src/header/pwd/mod.rs:156-170`). -/
def record (redox : Bool) (line : List UInt8) : List UInt8 :=
  let buf := line.map fun b => if b = sep redox then 0 else b
  if buf.getLast? = some 0x0A then buf.dropLast ++ [0] else buf ++ [0]

/-- `getpwent_r` (`src/header/pwd/mod.rs:143-191`): the result, the rest of the file, the destination. -/
def getpwentR (redox : Bool) (file : List UInt8) (dest : Option (List UInt8)) :
    Except Cause Owned × List UInt8 × Option (List UInt8) :=
  let (line, rest) := readLine file
  if line = [] then (.error .eof, rest, dest)
  else
    let buf := record redox line
    match dest with
    | none =>
      match splitEntry redox buf with
      | some p => (.ok ⟨buf, p⟩, rest, none)
      | none => (.error .bad, rest, none)
    | some d =>
      if d.length < buf.length then (.error .range, rest, some d)
      else
        let d := buf ++ d.drop buf.length
        match splitEntry redox d with
        | some p => (.ok ⟨d, p⟩, rest, some d)
        | none => (.error .bad, rest, some d)

theorem readLine_length (file : List UInt8) : (readLine file).1 ≠ [] → (readLine file).2.length < file.length := by
  induction file with
  | nil => intro h; exact absurd rfl h
  | cons b t ih =>
    intro _
    unfold readLine
    split
    · simp
    · simp only [List.length_cons]
      by_cases h : (readLine t).1 = []
      · cases t with
        | nil => simp [readLine]
        | cons c t =>
          unfold readLine at h
          split at h <;> simp at h
      · have := ih h; omega

theorem getpwentR_length {redox : Bool} {file rest : List UInt8} {dest dest' : Option (List UInt8)} {o : Owned}
    (h : getpwentR redox file dest = (.ok o, rest, dest')) : rest.length < file.length := by
  unfold getpwentR at h
  split at h
  rename_i line r hl
  have hlen := readLine_length file
  rw [hl] at hlen
  split at h
  · simp at h
  · rename_i hne
    have := hlen hne
    dsimp only at h
    split at h
    · split at h <;> simp at h
      rw [← h.2.1]; exact this
    · split at h
      · simp at h
      · split at h <;> simp at h
        rw [← h.2.1]; exact this

/-- `pwd_lookup` (`src/header/pwd/mod.rs:193-210`): the result and the destination. -/
def lookup (redox : Bool) (want : Owned → Bool) (file : List UInt8) (dest : Option (List UInt8)) :
    Except Cause Owned × Option (List UInt8) :=
  match h : getpwentR redox file dest with
  | (.error c, _, dest) => (.error c, dest)
  | (.ok o, rest, dest) => if want o then (.ok o, dest) else lookup redox want rest dest
termination_by file.length
decreasing_by exact getpwentR_length h

/-- The string at an offset. -/
def cstr (buf : List UInt8) (off : Nat) : List UInt8 := (buf.drop off).takeWhile (· != 0)

/-- `strcmp(parts.pw_name, name) == 0`. -/
def named (name : List UInt8) (o : Owned) : Bool := cstr o.buf o.ref.name == name

/-- `parts.pw_uid == uid`. -/
def hasUid (uid : Int) (o : Owned) : Bool := o.ref.uid == uid

/-- `getpwnam`, `getpwuid` (`src/header/pwd/mod.rs:265-270,297-302`): no result: NULL. -/
def getpw (redox : Bool) (want : Owned → Bool) (file : List UInt8) : Option Owned :=
  match (lookup redox want file none).1 with
  | .ok o => some o
  | .error _ => none

/-- What `getpwnam_r` and `getpwuid_r` leave behind: the return value, `errno` if it was set, the entry (no entry: `*result` is
NULL), the buffer. -/
structure Reply where
  ret : Int
  errno : Option Int
  entry : Option Passwd
  buf : List UInt8
deriving DecidableEq

/-- `getpwnam_r`, `getpwuid_r` (`src/header/pwd/mod.rs:273-293,305-326`), `mux` (`src/header/pwd/mod.rs:212-232`). -/
def getpwR (redox : Bool) (want : Owned → Bool) (file buf : List UInt8) : Reply :=
  match lookup redox want file (some buf) with
  | (.ok o, d) => ⟨0, none, some o.ref, d.getD buf⟩
  | (.error .eof, d) => ⟨0, none, none, d.getD buf⟩
  | (.error .range, d) => ⟨-1, some 34, none, d.getD buf⟩
  | (.error .bad, d) => ⟨-1, none, none, d.getD buf⟩

/-- `getpwent` (`src/header/pwd/mod.rs:244-261`) with the value of `READER`. -/
def getpwent (redox : Bool) (file : List UInt8) (reader : Option (List UInt8)) : Option Owned × Option (List UInt8) :=
  match getpwentR redox (reader.getD file) none with
  | (.ok o, rest, _) => (some o, some rest)
  | (.error _, rest, _) => (none, some rest)

/-- `setpwent` (`src/header/pwd/mod.rs:329-333`). -/
def setpwent (file : List UInt8) (reader : Option (List UInt8)) : Option (List UInt8) := reader.map fun _ => file

/-- `endpwent` (`src/header/pwd/mod.rs:236-240`). -/
def endpwent (_ : Option (List UInt8)) : Option (List UInt8) := none

end Verif.Users
