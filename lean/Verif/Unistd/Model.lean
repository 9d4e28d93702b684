/-!
# `ttyname_r`, `ctermid`, `daemon`, `getpass`, `confstr`, `sleep`, `usleep`, interfaces, `wcswidth`

`src/header/unistd/mod.rs`, `src/header/unistd/getpass.rs`, `src/header/stdio/mod.rs`, `src/header/net_if/mod.rs`,
`src/header/wchar/mod.rs`
-/

namespace Verif.Unistd

/-! ## The names of terminals -/

/-- What the system says about a descriptor: the path of its file or `errno`, and whether it is a terminal. -/
structure Desc where
  path : Except Int (List UInt8)
  terminal : Bool

/-- `Sys::fpath` into a slice of so many bytes: the path, or `ENAMETOOLONG` with as much of it as fits written (the end of `fpath`,
`src/platform/redox/mod.rs:1081-1094`). The conversion of the kernel's form of the path is not modelled. -/
def fpath (d : Desc) (cap : Nat) : Except Int (List UInt8) × List UInt8 :=
  match d.path with
  | .error e => (.error e, [])
  | .ok p => if p.length ≤ cap then (.ok p, p) else (.error 36, p.take cap)

/-- Bytes put at the beginning of an array. -/
def put (arr w : List UInt8) : List UInt8 := w ++ arr.drop w.length

/-- `ttyname_r` (`src/header/unistd/mod.rs:1312-1327`): the value returned and the array. -/
def ttynameR (d : Desc) (name : List UInt8) : Int × List UInt8 :=
  if name = [] then (34, name)
  else
    match fpath d (name.length - 1) with
    | (.error e, w) => (-e, put name w)
    | (.ok p, w) => (0, (put name w).set p.length 0)

/-- `ctermid` with an array (`src/header/stdio/mod.rs:432-440`): `strncpy` of "/dev/tty" with its NUL. -/
def ctermid (s : List UInt8) : List UInt8 := put s [0x2F, 0x64, 0x65, 0x76, 0x2F, 0x74, 0x74, 0x79, 0]

/-! ## `daemon` -/

/-- A process, as far as `daemon` changes it: whether the working directory is the root, the files of its descriptors, its session. -/
structure Proc (F : Type) where
  root : Bool
  fds : Nat → Option F
  session : Nat

/-- Which calls of the system succeed, the number that `open` gives, and the number of a new session. -/
structure Sysc where
  chdir : Bool
  open_ : Option Nat
  dup2 : Nat → Bool
  fork : Bool
  setsid : Option Nat

/-- A descriptor set. -/
def setFd {F : Type} (p : Proc F) (i : Nat) (f : Option F) : Proc F := { p with fds := fun j => if j = i then f else p.fds j }

/-- `dup2` (of a file that is open). -/
def dup2 {F : Type} (s : Sysc) (fd to : Nat) (p : Proc F) : Bool × Proc F :=
  if s.dup2 to then (true, setFd p to (p.fds fd)) else (false, p)

/-- What becomes of the caller and of the process it forks: the value returned there, or the status it exits with. -/
inductive End (F : Type) where
  | failed (caller : Proc F)
  | forked (status : Int) (child : Proc F) (ret : Int)

/-- The middle of `daemon` (`src/header/unistd/mod.rs:254-266`): whether to go on, and the process. -/
def nullFds {F : Type} (s : Sysc) (null : F) (p : Proc F) : Bool × Proc F :=
  match s.open_ with
  | none => (false, p)
  | some fd =>
    let p := setFd p fd (some null)
    let r := dup2 s fd 0 p
    if r.1 = false then (false, setFd r.2 fd none)
    else
      let r := dup2 s fd 1 r.2
      if r.1 = false then (false, setFd r.2 fd none)
      else
        let r := dup2 s fd 2 r.2
        if r.1 = false then (false, setFd r.2 fd none)
        else if fd > 2 then (true, setFd r.2 fd none)
        else (true, r.2)

/-- `daemon` (`src/header/unistd/mod.rs:249-279`). -/
def daemon {F : Type} (s : Sysc) (null : F) (nochdir noclose : Int) (p : Proc F) : End F :=
  if nochdir = 0 ∧ s.chdir = false then .failed p
  else
    let p := if nochdir = 0 then { p with root := true } else p
    let r := if noclose = 0 then nullFds s null p else (true, p)
    if r.1 = false then .failed r.2
    else if s.fork = false then .failed r.2
    else
      match s.setsid with
      | none => .forked 0 r.2 (-1)
      | some n => .forked 0 { r.2 with session := n } 0

/-! ## `getpass` -/

/-- The terminal's input flags and local flags. -/
structure Attr where
  iflag : Nat
  lflag : Nat
  deriving DecidableEq

/-- The flags while the password is read (`src/header/unistd/getpass.rs:28-31`); `IGNCR` is 0x80, `INLCR` 0x40, `ICRNL` 0x100, `ECHO` 8
(`src/header/termios/constants.rs:32-36,96`), `ISIG` 1, `ICANON` 2 on Linux (`src/header/termios/linux.rs:152-154`), 0x80 and 0x100 on Redox
(`src/header/termios/redox.rs:130-132`). The flags are words of 32 bits. -/
def quiet (redox : Bool) (a : Attr) : Attr :=
  ⟨a.iflag &&& 0xFFFFFF3F ||| 0x100, if redox then a.lflag &&& 0xFFFFFF77 ||| 0x100 else a.lflag &&& 0xFFFFFFF6 ||| 2⟩

/-- How the calls end: whether "/dev/tty" opens, whether the prompt can be written, what is read, whether the newline can be
written. -/
structure Tty where
  opens : Bool
  prompt : Bool
  line : Option (List UInt8)
  newline : Bool

/-- The end of the password (`src/header/unistd/getpass.rs:42-46`): the array after a read of these bytes. -/
def store (buf line : List UInt8) : List UInt8 :=
  let len := line.length
  let arr := line ++ buf.drop len
  let len := if (0 < len ∧ arr[len - 1]? = some 0x0A) ∨ buf.length = len then len - 1 else len
  arr.set len 0

/-- `getpass` (`src/header/unistd/getpass.rs:17-57,66-72`): the array, or NULL; the flags of the terminal afterwards and while it was read. `tcgetattr`
and `tcsetattr` succeed; `write` writes all or fails. -/
def getpass (redox : Bool) (t : Tty) (buf : List UInt8) (a : Attr) : Option (List UInt8) × Attr × Option Attr :=
  if t.opens = false then (none, a, none)
  else if t.prompt = false then (none, quiet redox a, none)
  else
    match t.line with
    | none => (none, quiet redox a, some (quiet redox a))
    | some l => if t.newline then (some (store buf l), a, some (quiet redox a)) else (none, a, some (quiet redox a))

/-! ## `confstr` -/

/-- "/usr/bin". -/
def usrBin : List UInt8 := [0x2F, 0x75, 0x73, 0x72, 0x2F, 0x62, 0x69, 0x6E]

/-- `confstr` (`src/header/unistd/mod.rs:219-238`): the value returned, the array, `EINVAL` or no `errno`. `snprintf` with "%s". -/
def confstr (name : Int) (buf : List UInt8) : Nat × List UInt8 × Option Int :=
  if name = 0 then
    (usrBin.length + 1, if buf = [] then buf else put buf (usrBin.take (buf.length - 1) ++ [0]), none)
  else if name = 1 ∨ name = 4 ∨ name = 5 ∨ (1126 ≤ name ∧ name ≤ 1147) then (1, buf, none)
  else (0, buf, some 22)

/-! ## `sleep`, `usleep` -/

/-- What `nanosleep` does with a time in nanoseconds: sleeps it, or is interrupted with so much left. -/
inductive Nap where
  | slept
  | interrupted (left : Nat)

/-- `sleep` (`src/header/unistd/mod.rs:1179-1196`): the time asked for, in nanoseconds, and the value returned. -/
def sleep (seconds : Nat) (nap : Nat → Nap) : Nat × Nat :=
  let t := seconds * 1000000000
  match nap t with
  | .slept => (t, 0)
  | .interrupted left => (t, (left / 1000000000) % 2 ^ 32)

/-- The time `usleep` asks for (`src/header/unistd/mod.rs:1386-1401`), in seconds and nanoseconds. -/
def usleepTime (useconds : Nat) : Nat × Nat := (useconds / 1000000, ((useconds % 1000000) * 1000) % 2 ^ 32)

/-! ## Interfaces -/

/-- "stub". -/
def stub : List UInt8 := [0x73, 0x74, 0x75, 0x62]

/-- `if_nameindex` (`src/header/net_if/mod.rs:34-44,72-74`): the entries before the last. -/
def ifNameindex : List (Nat × List UInt8) := [(1, stub)]

/-- `if_nametoindex` (`src/header/net_if/mod.rs:82-91`). -/
def ifNametoindex (name : List UInt8) : Nat := if name = stub then 1 else 0

/-- `if_indextoname` (`src/header/net_if/mod.rs:59-65`): the name returned or `errno`, and the array. -/
def ifIndextoname (idx : Nat) (buf : List UInt8) : Except Int (List UInt8) × List UInt8 :=
  if idx = 1 then (.ok stub, buf) else (.error 6, buf)

/-! ## `wcswidth` -/

/-- `wcswidth` (`src/header/wchar/mod.rs:953-963`) of an array of wide characters; `width` is `wcwidth`. No result: a read behind the array. -/
def wcswidth (width : UInt32 → Int) : List UInt32 → Nat → Option Int
  | _, 0 => some 0
  | [], _ + 1 => none
  | c :: s, n + 1 =>
    if width c < 0 then some (-1)
    else
      match wcswidth width s n with
      | none => none
      | some t => if t < 0 then some (-1) else some (width c + t)

end Verif.Unistd
