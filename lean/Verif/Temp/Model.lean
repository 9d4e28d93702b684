import Verif.Str.StrModel

/-!
# Temporary files

`mkstemp`, `mkstemps`, `mkostemp`, `mkostemps`, `mkdtemp`, `mktemp` (`src/header/stdlib/mod.rs:758-885`), `tmpnam`, `tempnam` and `tmpfile` (`src/header/stdio/mod.rs:1400-1518`), with the system
calls of Redox below them. The name is in memory, byte by byte. Other processes may change the files before every try, in any way. `none` as the outer result is an access to memory that is not
mapped.
-/

namespace Verif.Temp

open Verif.Mem Verif.Str

abbrev M := Mem UInt8

/-- The error numbers that occur. Values do not matter. -/
inductive Errno where
  | EINVAL
  | EEXIST
  | ENOENT
  | EACCES
  | EMFILE
deriving DecidableEq

/-- A file: whether it is a directory, and its permissions. -/
structure File where
  dir : Bool
  perm : UInt32
deriving DecidableEq

abbrev Files := List UInt8 → Option File

/-- An open descriptor: the name under which the file was opened, and the flags. -/
structure Desc where
  name : List UInt8
  flags : UInt32
deriving DecidableEq

/-- The system, seen from the process. -/
structure St where
  files : Files
  fds : List (Nat × Desc)
  umask : UInt32
  errno : Option Errno

/-- What the process does not decide: the letters drawn in the i-th try (`Alphanumeric` of the crate `rand`, an index into its table), what other processes do to the files before it, and the
error with which a system call on a name fails in it although nothing is wrong with the file itself (the directory is missing, or may not be written, or there is no descriptor left). -/
structure World where
  draw : Nat → Nat → Fin 62
  others : Nat → Files → Files
  deny : Nat → List UInt8 → Option Errno

/-- `GEN_ASCII_STR_CHARSET` of the crate `rand`. Not in the repository. -/
def alnum (k : Fin 62) : UInt8 :=
  if k.val < 26 then UInt8.ofNat (0x41 + k.val) else if k.val < 52 then UInt8.ofNat (0x61 + (k.val - 26)) else UInt8.ofNat (0x30 + (k.val - 52))

/-- `O_RDWR`, `O_ACCMODE`, `O_CREAT`, `O_EXCL` (`src/header/bits_open-flags/redox.rs:4-35`). -/
def O_RDWR : UInt32 := 0x00030000
def O_ACCMODE : UInt32 := 0x00030000
def O_CREAT : UInt32 := 0x02000000
def O_EXCL : UInt32 := 0x08000000

def has (w f : UInt32) : Bool := w &&& f = f

/-- One file set or removed. -/
def set (fs : Files) (name : List UInt8) (f : Option File) : Files := fun n => if n = name then f else fs n

/-- A number that no descriptor has. The system takes the least one; here it is one more than the greatest. -/
def newFd (l : List (Nat × Desc)) : Nat := l.foldr (fun d n => max (d.1 + 1) n) 0

/-- `Sys::open` (`src/platform/redox/mod.rs:952-965`): the file system, which is not in the repository, makes a new file only with `O_CREAT`, and refuses an old one with `O_CREAT` and `O_EXCL`. -/
def sysOpen (deny : Option Errno) (name : List UInt8) (flags mode : UInt32) (s : St) : Except Errno Nat × St :=
  match deny with
  | some e => (.error e, s)
  | none =>
    let desc : Desc := ⟨name, flags⟩
    match s.files name with
    | some _ => if has flags O_CREAT && has flags O_EXCL then (.error .EEXIST, s) else (.ok (newFd s.fds), { s with fds := (newFd s.fds, desc) :: s.fds })
    | none =>
      if has flags O_CREAT then
        (.ok (newFd s.fds), { s with fds := (newFd s.fds, desc) :: s.fds, files := set s.files name (some ⟨false, mode &&& ~~~s.umask &&& 0xFFF⟩) })
      else (.error .ENOENT, s)

/-- `Sys::mkdir`, `Sys::mkdirat` (`src/platform/redox/mod.rs:790-802`): the mode that is asked for is not used. -/
def sysMkdir (deny : Option Errno) (name : List UInt8) (_mode : UInt32) (s : St) : Except Errno Unit × St :=
  match deny with
  | some e => (.error e, s)
  | none => match s.files name with
    | some _ => (.error .EEXIST, s)
    | none => (.ok (), { s with files := set s.files name (some ⟨true, 0o777 &&& ~~~s.umask &&& 0xFFF⟩) })

/-- `Sys::access` with mode 0 (`src/platform/redox/mod.rs:102-149`). -/
def sysAccess (deny : Option Errno) (name : List UInt8) (s : St) : Except Errno Unit :=
  match deny with
  | some e => .error e
  | none => match s.files name with
    | some _ => .ok ()
    | none => .error .ENOENT

/-- `*p` for `p.offset(i)`. -/
def peek (m : M) (a : Int) : Option UInt8 := if a < 0 then none else m a.toNat

/-- `*p = b`. -/
def poke (m : M) (a : Int) (b : UInt8) : Option M := if a < 0 then none else store m a.toNat b

/-- The first loop of `inner_mktemp` (`src/header/stdlib/mod.rs:769-774`): are the `n` bytes at `a` all `X`? -/
def checkX (m : M) (a : Int) : Nat → Option Bool
  | 0 => some true
  | n + 1 => do
    let c ← peek m a
    if c ≠ 0x58 then some false else checkX m (a + 1) n

/-- The loop that writes the letters (`src/header/stdlib/mod.rs:785-788`): the k-th one goes to `last - k`. -/
def fill (m : M) (last : Int) (draw : Nat → Fin 62) (k : Nat) : Nat → Option M
  | 0 => some m
  | n + 1 => do
    let m ← poke m (last - k) (alnum (draw k))
    fill m last draw (k + 1) n

/-- `CStr::from_ptr`. -/
def cname (m : M) (p : Nat) : Option (List UInt8) := do
  let n ← strlen m p
  readN m p n

/-- One try: what the closure given to `inner_mktemp` does with the name. -/
abbrev Attempt (T : Type) := Option Errno → List UInt8 → St → Option T × St

/-- The second loop of `inner_mktemp` (`src/header/stdlib/mod.rs:779-793`), `n` tries from the i-th on. `last` is the offset of the last of the six places. -/
def tries {T : Type} (w : World) (attempt : Attempt T) (p : Nat) (last : Int) (i : Nat) (m : M) (s : St) : Nat → Option (Option T × M × St)
  | 0 => some (none, m, { s with errno := some .EEXIST })
  | n + 1 => do
    let m ← fill m (p + last) (w.draw i) 0 6
    let name ← cname m p
    match attempt (w.deny i name) name { s with files := w.others i s.files } with
    | (some t, s) => some (some t, m, s)
    | (none, s) => tries w attempt p last (i + 1) m s n

/-- `inner_mktemp` (`src/header/stdlib/mod.rs:758-797`). -/
def innerMktemp {T : Type} (w : World) (attempt : Attempt T) (p : Nat) (suffix : Int32) (m : M) (s : St) : Option (Option T × M × St) := do
  let n ← strlen m p
  let len := Int32.ofNat n
  if len < 6 ∨ suffix > len - 6 then
    return (none, m, { s with errno := some .EINVAL })
  let lo := (len - suffix - 6).toInt
  let hi := (len - suffix).toInt
  let ok ← checkX m (p + lo) (hi - lo).toNat
  if !ok then
    return (none, m, { s with errno := some .EINVAL })
  tries w attempt p (len.toInt - suffix.toInt - 1) 0 m s 100

/-- `mkostemps` (`src/header/stdlib/mod.rs:830-848`). `none` is -1. -/
def mkostemps (w : World) (p : Nat) (suffix : Int32) (flags : UInt32) (m : M) (s : St) : Option (Option Nat × M × St) :=
  let flags := (flags &&& ~~~O_ACCMODE) ||| (O_RDWR ||| O_CREAT ||| O_EXCL)
  innerMktemp w (fun deny name s => match sysOpen deny name flags 0o600 s with
    | (.ok fd, s) => (some fd, s)
    | (.error e, s) => (none, { s with errno := some e })) p suffix m s

/-- `mkostemp` (`src/header/stdlib/mod.rs:824-826`). -/
def mkostemp (w : World) (p : Nat) (flags : UInt32) (m : M) (s : St) : Option (Option Nat × M × St) := mkostemps w p 0 flags m s

/-- `mkstemp` (`src/header/stdlib/mod.rs:851-854`). -/
def mkstemp (w : World) (p : Nat) (m : M) (s : St) : Option (Option Nat × M × St) := mkostemps w p 0 0 m s

/-- `mkstemps` (`src/header/stdlib/mod.rs:857-860`). -/
def mkstemps (w : World) (p : Nat) (suffix : Int32) (m : M) (s : St) : Option (Option Nat × M × St) := mkostemps w p suffix 0 m s

/-- `mkdtemp` (`src/header/stdlib/mod.rs:811-820`). `none` is NULL. -/
def mkdtemp (w : World) (p : Nat) (m : M) (s : St) : Option (Option Nat × M × St) :=
  innerMktemp w (fun deny name s => match sysMkdir deny name 0o700 s with
    | (.ok _, s) => (some p, s)
    | (.error _, s) => (none, s)) p 0 m s

/-- The closure of `mktemp` (`src/header/stdlib/mod.rs:869-876`). -/
def accessAttempt : Attempt Unit := fun deny name s => match sysAccess deny name s with
  | .error .ENOENT => (some (), s)
  | _ => (none, s)

/-- `mktemp` (`src/header/stdlib/mod.rs:868-885`). The pointer that is returned is the argument. -/
def mktemp (w : World) (p : Nat) (m : M) (s : St) : Option (M × St) := do
  let (r, m, s) ← innerMktemp w accessAttempt p 0 m s
  match r with
  | some _ => some (m, s)
  | none => do
    let m ← store m p 0
    some (m, s)

/-- `copy_from_nonoverlapping`. -/
def copy (m : M) (p : Nat) : List UInt8 → Option M
  | [] => some m
  | b :: l => do
    let m ← store m p b
    copy m (p + 1) l

/-- `tmpnam_inner` (`src/header/stdio/mod.rs:1498-1518`). `none` in the result is NULL. -/
def tmpnamInner (w : World) (buf offset : Nat) (m : M) (s : St) : Option (Option Nat × M × St) := do
  let m ← copy m (buf + offset) [0x58, 0x58, 0x58, 0x58, 0x58, 0x58, 0]
  let err := s.errno
  let (m, s) ← mktemp w buf m s
  let s := { s with errno := err }
  let c ← m buf
  if c = 0 then some (none, m, s) else some (some buf, m, s)

/-- `L_tmpnam` (`src/header/stdio/constants.rs:39`). -/
def L_tmpnam : Nat := 7

/-- `tmpnam` (`src/header/stdio/mod.rs:1483-1495`), for a buffer given by the caller. -/
def tmpnam (w : World) (buf : Nat) (m : M) (s : St) : Option (Option Nat × M × St) := do
  let m ← store m buf 0x2F
  tmpnamInner w buf 1 m s

/-- `is_appropriate` (`src/header/stdio/mod.rs:1406-1408`); `writable` is the answer of `access` with `W_OK`. -/
def appropriate (writable : List UInt8 → Bool) : Option (List UInt8) → Bool
  | none => false
  | some d => writable d

/-- `"/tmp"` (`P_tmpdir` and the last resort, `src/header/stdio/constants.rs:46`). -/
def tmpDir : List UInt8 := [0x2F, 0x74, 0x6D, 0x70]

/-- The search for the directory in `tempnam` (`src/header/stdio/mod.rs:1411-1418`). -/
def chooseDir (writable : List UInt8 → Bool) (env dir : Option (List UInt8)) : List UInt8 :=
  (([env, dir, some tmpDir].find? (appropriate writable)).join).getD tmpDir

/-- The number of bytes `tempnam` allocates (`src/header/stdio/mod.rs:1424-1426`). -/
def tempnamSize (dir pfx : List UInt8) : Nat := dir.length + 1 + (pfx.take 5).length + L_tmpnam + 1

/-- `tempnam` (`src/header/stdio/mod.rs:1405-1452`). `alloc` gives the place for that many bytes. The directories and the prefix are texts instead of pointers; no prefix is an empty one. The third
component of the result says whether the buffer has been freed. -/
def tempnam (w : World) (writable : List UInt8 → Bool) (alloc : Nat → Option Nat) (env dir : Option (List UInt8)) (pfx : List UInt8) (m : M) (s : St) :
    Option (Option Nat × Bool × M × St) := do
  let d := chooseDir writable env dir
  match alloc (tempnamSize d pfx) with
  | none => some (none, false, m, s)
  | some buf =>
    let m ← copy m buf d
    let m ← store m (buf + d.length) 0x2F
    let m ← copy m (buf + (d.length + 1)) (pfx.take 5)
    let (r, m, s) ← tmpnamInner w buf (d.length + 1 + (pfx.take 5).length) m s
    match r with
    | none => some (none, true, m, s)
    | some b => some (some b, false, m, s)

/-- `"/tmp/tmpfileXXXXXX"`. -/
def tmpfileTemplate : List UInt8 := [0x2F, 0x74, 0x6D, 0x70, 0x2F, 0x74, 0x6D, 0x70, 0x66, 0x69, 0x6C, 0x65, 0x58, 0x58, 0x58, 0x58, 0x58, 0x58]

/-- `tmpfile` (`src/header/stdio/mod.rs:1456-1476`). The name is at address 0 of a memory of its own. `fdopenOk` says whether `fdopen` succeeds. Nobody else touches the files between the creation
and the `unlink`, which does not fail. `none` in the result is NULL, otherwise it is the descriptor of the stream. -/
def tmpfile (w : World) (fdopenOk : Bool) (s : St) : Option (Option Nat × St) := do
  let (r, m, s) ← mkstemp w 0 (ofList 0 (tmpfileTemplate ++ [0])) s
  match r with
  | none => some (none, s)
  | some fd => do
    let name ← cname m 0
    let s := { s with files := set s.files name none }
    if fdopenOk then some (some fd, s) else some (none, { s with fds := s.fds.filter (·.1 ≠ fd) })

end Verif.Temp
