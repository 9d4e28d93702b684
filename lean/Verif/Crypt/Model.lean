import Verif.Stdio.PrintfModel
import Verif.Locale.Model
/-!
# `crypt`, `crypt_r`

`src/header/crypt/mod.rs`, `src/header/crypt/md5.rs`, `src/header/crypt/sha.rs`, `src/header/crypt/blowfish.rs`, `src/header/crypt/pbkdf2.rs`,
`src/header/crypt/scrypt.rs`, `src/header/crypt/argon2.rs`, `src/header/unistd/mod.rs`. The functions that compute hashes are parameters; what is
modelled is how settings are read and results are written. Settings consist of ASCII characters: with others the code may slice a string
inside a character, which panics and is not modelled.
-/

namespace Verif.Crypt

abbrev Bytes := List UInt8

/-- The hashes, as text (in base 64): of a password, a salt and the parameters. `argon2` tells whether a password belongs to a hash. -/
structure Kdf where
  md5 : Bytes → Bytes → Bytes
  sha : Bool → Nat → Bytes → Bytes → Option Bytes
  bcrypt : Bytes → Bytes → Nat → Option Bytes
  pbkdf2 : Bytes → Bytes → Nat → Bytes
  scrypt : Nat → Nat → Nat → Bytes → Bytes → Option Bytes
  argon2 : Bytes → Bytes → Bool
  genSalt : Option Bytes

/-- `to_digit` of a character. -/
def digitVal (c : UInt8) : Option Nat :=
  if 0x30 ≤ c ∧ c ≤ 0x39 then some (c.toNat - 0x30)
  else if 0x61 ≤ c ∧ c ≤ 0x7A then some (c.toNat - 0x61 + 10)
  else if 0x41 ≤ c ∧ c ≤ 0x5A then some (c.toNat - 0x41 + 10)
  else none

@[inherit_doc digitVal] def toDigit (radix : Nat) (c : UInt8) : Option Nat := (digitVal c).bind fun d => if d < radix then some d else none

/-- A step of `from_str_radix`. -/
def step (radix max : Nat) (acc : Option Nat) (c : UInt8) : Option Nat :=
  acc.bind fun a => (toDigit radix c).bind fun d => if a * radix + d ≤ max then some (a * radix + d) else none

/-- `parse`, `from_str_radix` of an unsigned number. -/
def parse (radix max : Nat) (s : Bytes) : Option Nat :=
  let t := if s.head? = some 0x2B then s.tail else s
  if t = [] then none else t.foldl (step radix max) (some 0)

/-- `crypt_md5` (`src/header/crypt/md5.rs:127-147`) with the salt read from the setting. `inner_md5` (`src/header/crypt/md5.rs:30-97`). -/
def cryptMd5 (K : Kdf) (passw setting : Bytes) : Option Bytes :=
  if passw.length > 30000 then none
  else if setting.take 3 ≠ [0x24, 0x31, 0x24] then none
  else
    let salt := ((setting.drop 3).take 8).takeWhile (· ≠ 0x24)
    some ([0x24, 0x31, 0x24] ++ salt ++ [0x24] ++ K.md5 passw salt)

/-- "rounds=". -/
def rstring : Bytes := [0x72, 0x6F, 0x75, 0x6E, 0x64, 0x73, 0x3D]

/-- The loop over the salt (`src/header/crypt/sha.rs:99-111`), of at most so many turns. -/
def scanSalt : Nat → Bytes → Option Bytes
  | 0, _ => some []
  | _ + 1, [] => some []
  | n + 1, c :: s => if c = 0x24 then some [] else if c = 0x0A ∨ c = 0x3A then none else (scanSalt n s).map (c :: ·)

/-- The rounds (`src/header/crypt/sha.rs:78-95`): whether there are any, how many, the rest of the setting. `ROUNDS_MIN` is 1000,
`ROUNDS_MAX` 999999999, `ROUNDS_DEFAULT` 5000 in the crate `sha_crypt`. -/
def rounds (rest : Bytes) : Option (Bool × Nat × Bytes) :=
  if rest.take 7 = rstring then
    let rest := rest.drop 7
    let num := rest.takeWhile (· ≠ 0x24)
    if num.length = rest.length then none
    else
      match parse 10 (2 ^ 64 - 1) num with
      | none => none
      | some u => some (true, max (min u 999999999) 1000, rest.drop (num.length + 1))
  else some (false, 5000, rest)

/-- `crypt_sha` (`src/header/crypt/sha.rs:56-140`). -/
def cryptSha (K : Kdf) (long : Bool) (passw setting : Bytes) : Option Bytes :=
  if passw.length > 256 then none
  else
    let param : Bytes := if long then [0x24, 0x36, 0x24] else [0x24, 0x35, 0x24]
    if setting.take 3 ≠ param then none
    else
      match rounds (setting.drop 3) with
      | none => none
      | some (has, n, rest) =>
        match scanSalt 16 rest with
        | none => none
        | some salt =>
          match K.sha long n passw salt with
          | none => none
          | some enc => some (param ++ (if has then rstring ++ Stdio.digitsOf 10 false n ++ [0x24] else []) ++ salt ++ [0x24] ++ enc)

/-- `split('$')`. -/
def split : Bytes → List Bytes
  | [] => [[]]
  | c :: s =>
    if c = 0x24 then [] :: split s
    else
      match split s with
      | [] => [[c]]
      | p :: l => (c :: p) :: l

/-- `split_with_prefix` (`src/header/crypt/blowfish.rs:13-33`). -/
def splitWithPrefix (hash : Bytes) : Option (Bytes × Bytes × Nat) :=
  match (split hash).drop 1 with
  | [pre, cost, setting] =>
    if pre ∈ ([[0x32, 0x79], [0x32, 0x62], [0x32, 0x61], [0x32, 0x78]] : List Bytes) then
      (parse 10 (2 ^ 32 - 1) cost).map fun c => (pre, setting, c)
    else none
  | _ => none

/-- `crypt_blowfish` (`src/header/crypt/blowfish.rs:64-90`). -/
def cryptBlowfish (K : Kdf) (passw setting : Bytes) : Option Bytes :=
  match splitWithPrefix setting with
  | none => none
  | some (pre, salt, cost) =>
    if 4 ≤ cost ∧ cost ≤ 31 then
      match K.bcrypt ((passw ++ [0]).take 72) salt cost with
      | none => none
      | some enc => some ([0x24] ++ pre ++ [0x24] ++ Stdio.digitsOf 10 false cost ++ [0x24] ++ enc)
    else none

/-- `crypt_pbkdf2` (`src/header/crypt/pbkdf2.rs:39-64`). -/
def cryptPbkdf2 (K : Kdf) (passw setting : Bytes) : Option Bytes :=
  let rest := setting.drop 3
  let iter := rest.takeWhile (· ≠ 0x24)
  if iter.length = rest.length then none
  else
    let salt := rest.drop (iter.length + 1)
    if 0x24 ∈ salt then none
    else
      match if salt ≠ [] then some salt else K.genSalt with
      | none => none
      | some actual =>
        match parse 16 (2 ^ 32 - 1) iter with
        | none => none
        | some n => some ([0x24, 0x38, 0x24] ++ iter ++ [0x24] ++ salt ++ [0x24] ++ K.pbkdf2 passw actual n)

/-- `to_digit` of `src/header/crypt/scrypt.rs:10-16`. -/
def scryptDigit (c : UInt8) : Option Nat := if c = 0x2E then some 0 else if c = 0x2F then some 1 else (toDigit 30 c).map (· + 2)

/-- `dencode_uint` (`src/header/crypt/scrypt.rs:27-38`), of the characters from a place on. -/
def dencode : Nat → Nat → Bytes → Option Nat
  | _, acc, [] => some acc
  | i, acc, c :: s => (scryptDigit c).bind fun d => if acc + d <<< (i * 6) < 2 ^ 32 then dencode (i + 1) (acc + d <<< (i * 6)) s else none

/-- `read_setting` (`src/header/crypt/scrypt.rs:49-62`), of a string of 11 characters or more. -/
def readSetting (K : Kdf) (s : Bytes) : Option (Nat × Nat × Nat × Bytes) := do
  let n ← scryptDigit (s.headD 0)
  let r ← dencode 0 0 ((s.drop 1).take 5)
  let p ← dencode 0 0 ((s.drop 6).take 5)
  let salt := s.drop 11
  let actual ← if salt ≠ [] then some salt else K.genSalt
  some (n, r, p, actual)

/-- `crypt_scrypt` (`src/header/crypt/scrypt.rs:95-113`). -/
def cryptScrypt (K : Kdf) (passw setting : Bytes) : Option Bytes :=
  if setting.length < 14 then none
  else
    match readSetting K (setting.drop 3) with
    | none => none
    | some (n, r, p, salt) =>
      match K.scrypt n r p passw salt with
      | none => none
      | some enc => some ([0x24, 0x37, 0x24] ++ (setting.drop 3).take 11 ++ [0x24] ++ salt ++ [0x24] ++ enc)

/-- `crypt_argon2` (`src/header/crypt/argon2.rs:7-16`). -/
def cryptArgon2 (K : Kdf) (key setting : Bytes) : Option Bytes := if K.argon2 key setting then some setting else none

/-- "$argon2". -/
def argonPrefix : Bytes := [0x24, 0x61, 0x72, 0x67, 0x6F, 0x6E, 0x32]

/-- The choice in `crypt_r` (`src/header/crypt/mod.rs:82-103`): no value if `EINVAL` is set. -/
def encoded (K : Kdf) (key setting : Bytes) : Option (Option Bytes) :=
  if setting.take 1 = [0x24] then
    if setting.take 3 = [0x24, 0x31, 0x24] then some (cryptMd5 K key setting)
    else if setting.take 2 = [0x24, 0x32] ∧ setting[3]? = some 0x24 then some (cryptBlowfish K key setting)
    else if setting.take 3 = [0x24, 0x35, 0x24] then some (cryptSha K false key setting)
    else if setting.take 3 = [0x24, 0x36, 0x24] then some (cryptSha K true key setting)
    else if setting.take 3 = [0x24, 0x37, 0x24] then some (cryptScrypt K key setting)
    else if setting.take 3 = [0x24, 0x38, 0x24] then some (cryptPbkdf2 K key setting)
    else if setting.take 7 = argonPrefix then some (cryptArgon2 K key setting)
    else none
  else some none

/-- What `crypt_r` leaves behind: the string returned, `errno` if it is set, the bytes written from the beginning of `buff` on. -/
structure Reply where
  ret : Option Bytes
  errno : Option Int
  written : Bytes

/-- `crypt_r` (`src/header/crypt/mod.rs:67-120`), `crypt` (`src/header/unistd/mod.rs:242-245`). The string returned is a new piece of memory. -/
def crypt (K : Kdf) (key setting : Bytes) : Reply :=
  if Locale.isUtf8 setting = false then ⟨none, some 22, []⟩
  else
    match encoded K key setting with
    | none => ⟨none, some 22, []⟩
    | some none => ⟨none, none, []⟩
    | some (some inner) => if 0 ∈ inner then ⟨none, none, []⟩ else ⟨some inner, none, inner⟩

end Verif.Crypt
