import Verif.Users.GrpModel
/-!
# The shadow password database

`src/header/shadow/mod.rs`. The conventions are those of `GrpModel`; pointers into the buffer are offsets.
-/

namespace Verif.Users

open Verif.Net

/-- `spwd` (`src/header/shadow/mod.rs:92-102`). -/
structure Spwd where
  namp : Nat
  pwdp : Nat
  lstchg : Int
  min : Int
  max : Int
  warn : Int
  inact : Int
  expire : Int
  flag : Nat
deriving DecidableEq

/-- `Error` (`src/header/shadow/mod.rs:105-109`); `EOF` does not happen. -/
inductive SErr where
  | range
  | syntax
deriving DecidableEq

/-- `to_long` (`src/header/shadow/mod.rs:126-128`). -/
def toLong (s : List UInt8) : Int := (parseInt 64 s).getD (-1)

/-- `to_ulong` (`src/header/shadow/mod.rs:129-131`). -/
def toUlong (s : List UInt8) : Nat := (fromStrRadix 64 10 s).getD 0

/-- `OwnedSpwd` (`src/header/shadow/mod.rs:112-115`). -/
structure OwnedSpwd where
  buf : List UInt8
  ref : Spwd
deriving DecidableEq

/-- `parse_spwd` (`src/header/shadow/mod.rs:133-188`). -/
def parseSpwd (redox : Bool) (line : List UInt8) (dest : Option (List UInt8)) : Except SErr OwnedSpwd :=
  match split (sep redox) line with
  | name :: pwd :: parts =>
    let long (i : Nat) := toLong ((parts[i]?).getD [])
    let n := name.length + 1 + pwd.length + 1
    let buf := dest.getD (List.replicate n 0)
    if buf.length < n then .error .range
    else
      .ok ⟨name ++ [0] ++ pwd ++ [0] ++ buf.drop n,
           ⟨0, name.length + 1, long 0, long 1, long 2, long 3, long 4, long 5, toUlong ((parts[6]?).getD [])⟩⟩
  | _ => .error .syntax

/-- `c_name.to_str().unwrap_or("\0")` (`src/header/shadow/mod.rs:200,223`). -/
def nameStr (valid : List UInt8 → Bool) (name : List UInt8) : List UInt8 := if valid name then name else [0]

/-- The loop of `getspnam` (`src/header/shadow/mod.rs:192-207`). -/
def getspnam (redox : Bool) (valid : List UInt8 → Bool) (name file : List UInt8) : Option OwnedSpwd :=
  if h : (readLine file).1 = [] then none
  else if valid (readLine file).1 = true ∧ (nameStr valid name).isPrefixOf (strip (readLine file).1) = true then
    match parseSpwd redox (strip (readLine file).1) none with
    | .ok o => some o
    | .error _ => getspnam redox valid name (readLine file).2
  else getspnam redox valid name (readLine file).2
termination_by file.length
decreasing_by all_goals exact readLine_length file h

/-- What `getspnam_r` leaves behind: the return value, the entry (no entry: `*result` is NULL), the buffer. -/
structure SReply where
  ret : Int
  entry : Option Spwd
  buf : List UInt8
deriving DecidableEq

/-- `getspnam_r` (`src/header/shadow/mod.rs:211-246`). -/
def getspnamR (redox : Bool) (valid : List UInt8 → Bool) (name file buf : List UInt8) : SReply :=
  if h : (readLine file).1 = [] then ⟨2, none, buf⟩
  else if valid (readLine file).1 = true ∧ (nameStr valid name).isPrefixOf (strip (readLine file).1) = true then
    match parseSpwd redox (strip (readLine file).1) (some buf) with
    | .ok o => ⟨0, some o.ref, o.buf⟩
    | .error .range => ⟨34, none, buf⟩
    | .error .syntax => ⟨2, none, buf⟩
  else getspnamR redox valid name (readLine file).2 buf
termination_by file.length
decreasing_by exact readLine_length file h

/-- `getspent` (`src/header/shadow/mod.rs:267-281`) with the value of `LINE_READER`. -/
def getspent (redox : Bool) (valid : List UInt8 → Bool) (file : List UInt8) (reader : Option (List UInt8)) :
    Option OwnedSpwd × Option (List UInt8) :=
  let line := (readLine (reader.getD file)).1
  let rest := (readLine (reader.getD file)).2
  if line = [] then (none, some rest)
  else if valid line = false then (none, some rest)
  else
    match parseSpwd redox (strip line) none with
    | .ok o => (some o, some rest)
    | .error _ => (none, some rest)

/-- `setspent` (`src/header/shadow/mod.rs:250-255`). -/
def setspent (file : List UInt8) (_ : Option (List UInt8)) : Option (List UInt8) := some file

/-- `endspent` (`src/header/shadow/mod.rs:259-263`). -/
def endspent (_ : Option (List UInt8)) : Option (List UInt8) := none

end Verif.Users
