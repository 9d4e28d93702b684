import Verif.Stdio.PrintfModel
/-!
# Pseudo-terminals and terminal modes

`src/header/pty/mod.rs`, `src/header/utmp/mod.rs`, `ptsname_r` (`src/header/stdlib/mod.rs`), parts of `src/header/termios/mod.rs` and of the terminal functions in `src/header/unistd/mod.rs`.

* What the kernel answers is in `Env`; the descriptors of the process are a function to what they refer to.
* A buffer is the list of its bytes.
* `errno` is modelled where a function returns or stores it.
-/

namespace Verif.Pty

/-- What a descriptor refers to: the manager, the terminal opened under a path, the ends of the pipe of `forkpty`, anything else. -/
inductive Obj
  | manager
  | terminal (path : List UInt8)
  | pipeRead
  | pipeWrite
  | other (n : Nat)
deriving DecidableEq

abbrev Fds := Nat → Option Obj

def put (f : Fds) (fd : Nat) (o : Obj) : Fds := fun x => if x = fd then some o else f x

def close (f : Fds) (fd : Nat) : Fds := fun x => if x = fd then none else f x

def dup2 (f : Fds) (a b : Nat) : Fds := match f a with
  | none => f
  | some o => put f b o

/-- How `fork` ends, in the process looked at. -/
inductive Fork
  | failed
  | child
  | parent (pid : Nat)
deriving DecidableEq

/-- The answers of the kernel: the descriptor for the manager, `TIOCSPTLCK`, `TIOCGPTN` (a number or an error), the opening of a path, `pipe2`, `fork`, `TIOCSCTTY` (`some e` = it fails with that
error), and what the parent reads from the pipe (`none` = end of file). -/
structure Env where
  ptmx : Option Nat
  unlock : Bool
  number : Nat ⊕ Nat
  opens : List UInt8 → Option Nat
  pipe : Option (Nat × Nat)
  fork : Fork
  ctty : Option Nat
  report : Option Nat

def EINVAL : Nat := 22
def ERANGE : Nat := 34

/-- "/scheme/pty/" -/
def scheme : List UInt8 := [0x2F, 0x73, 0x63, 0x68, 0x65, 0x6D, 0x65, 0x2F, 0x70, 0x74, 0x79, 0x2F]

/-- `ptsname_r` (`src/header/stdlib/mod.rs:996-1027`) on Redox, with a buffer: the number returned, and the buffer. The number of a terminal is not negative. -/
def ptsname (e : Env) (buf : List UInt8) : Nat × List UInt8 :=
  match e.number with
  | .inr err => (err, buf)
  | .inl n =>
    let s := scheme ++ Stdio.digitsOf 10 false n
    if s.length + 1 > buf.length then (ERANGE, buf) else (0, s ++ [0] ++ buf.drop (s.length + 1))

/-- The path in a buffer. -/
def path (buf : List UInt8) : List UInt8 := buf.takeWhile (· != 0)

/-- `openpty_inner` (`src/header/pty/mod.rs:19-56`). `ptsname_r` returns no negative number, so `ret < 0` (`:40`) never holds. -/
def openInner (e : Env) (f : Fds) (buf : List UInt8) : Option (Nat × Nat) × Fds × List UInt8 :=
  match e.ptmx with
  | none => (none, f, buf)
  | some m =>
    let f := put f m .manager
    if !e.unlock then (none, close f m, buf)
    else
      let r := ptsname e buf
      match e.opens (path r.2) with
      | none => (none, close f m, r.2)
      | some s => (some (m, s), put f s (.terminal (path r.2)), r.2)

/-- `openpty` (`src/header/pty/mod.rs:60-90`): with the buffer of the caller or its own, which holds zeros (`PATH_MAX` = 4096 bytes). The modes and the size are passed on to the kernel. -/
def openpty (e : Env) (f : Fds) (name : Option (List UInt8)) : Option (Nat × Nat) × Fds × List UInt8 :=
  openInner e f (name.getD (List.replicate 4096 0))

/-- `login_tty` (`src/header/utmp/mod.rs:13-40`); `some e` = −1 with that error. -/
def login (e : Env) (f : Fds) (fd : Nat) : Option Nat × Fds :=
  match e.ctty with
  | some err => (some err, f)
  | none =>
    let f := dup2 (dup2 (dup2 f fd 0) fd 1) fd 2
    (none, if fd > 2 then close f fd else f)

/-- The calling thread: descriptors, blocked signals, whether it may be cancelled. -/
structure St where
  fds : Fds
  mask : Nat → Bool
  cancel : Bool

/-- How `forkpty` ends: it returns −1, 0, or the process; or the child exits with 127 having written an error number into the pipe. -/
inductive End
  | failed
  | child
  | parent (pid : Nat) (manager : Nat)
  | exits (err : Nat)
deriving DecidableEq

/-- `forkpty` (`src/header/pty/mod.rs:94-168`). When `fork` fails there is no other end of the pipe, and reading it gives the end of file. -/
def forkpty (e : Env) (st : St) (name : Option (List UInt8)) : End × St :=
  match openpty e st.fds name with
  | (none, f, _) => (.failed, { st with fds := f })
  | (some (m, s), f, _) =>
    let old := st.mask
    let cs := st.cancel
    let st := { st with mask := fun _ => true, cancel := false, fds := f }
    match e.pipe with
    | none => (.failed, { st with fds := close (close st.fds s) m, mask := old, cancel := cs })
    | some (r, w) =>
      let f := put (put st.fds r .pipeRead) w .pipeWrite
      match e.fork with
      | .child =>
        match login e (close (close f m) r) s with
        | (some err, f) => (.exits err, { st with fds := f })
        | (none, f) => (.child, { st with fds := close f w, mask := old, cancel := cs })
      | .failed => (.failed, { st with fds := close (close (close (close f s) w) r) m, mask := old, cancel := cs })
      | .parent pid =>
        match e.report with
        | some _ => (.failed, { st with fds := close (close (close (close f s) w) r) m, mask := old, cancel := cs })
        | none => (.parent pid m, { st with fds := close (close (close f s) w) r, mask := old, cancel := cs })

/-- `tcsetpgrp` (`src/header/unistd/mod.rs:1274-1279`): the kernel's answer, and the result. -/
def tcsetpgrp (ok : Bool) (pgid : Int) : Int := if ok then pgid else -1

def ENAMETOOLONG : Nat := 36

/-- `fpath` (`src/platform/redox/mod.rs:1068-1095`): `p` is the path in its new form. What does not fit is cut off, and the error is `ENAMETOOLONG`. -/
def fpath (kernel : List UInt8 ⊕ Nat) (out : List UInt8) : Nat ⊕ Nat × List UInt8 :=
  match kernel with
  | .inr err => .inr (err, out)
  | .inl p => if p.length > out.length then .inr (ENAMETOOLONG, p.take out.length) else .inl p.length

/-- `ttyname_r` (`src/header/unistd/mod.rs:1312-1327`): the path of the open file or an error number; a buffer. -/
def ttyname (kernel : List UInt8 ⊕ Nat) (buf : List UInt8) : Int × List UInt8 :=
  if buf = [] then (ERANGE, buf)
  else match kernel, fpath kernel (buf.take (buf.length - 1)) with
    | .inl p, .inl n => (0, p ++ [0] ++ buf.drop (n + 1))
    | _, .inl _ => (0, buf)
    | _, .inr (err, out) => (-(err : Int), out ++ buf.drop (buf.length - 1))

inductive Sys
  | linux
  | redox
deriving DecidableEq

/-- The two speeds in a `termios` (`src/header/termios/mod.rs:58-78`) on Linux. -/
structure Speeds where
  ispeed : Nat
  ospeed : Nat
deriving DecidableEq

/-- The values accepted (`src/header/termios/mod.rs:211-213`, `:234-236`): `B0..=B38400 | B57600..=B4000000`, on Linux only. -/
def valid (sys : Sys) (n : Nat) : Bool := decide (sys = .linux) && decide (n ≤ 0o17 ∨ 0o10001 ≤ n ∧ n ≤ 0o10017)

/-- `cfgetispeed` (`src/header/termios/mod.rs:167-177`). -/
def cfgetispeed (sys : Sys) (t : Speeds) : Nat := match sys with
  | .linux => t.ispeed
  | .redox => 0

/-- `cfgetospeed` (`src/header/termios/mod.rs:189-199`). -/
def cfgetospeed (sys : Sys) (t : Speeds) : Nat := match sys with
  | .linux => t.ospeed
  | .redox => 0

/-- `cfsetispeed` (`src/header/termios/mod.rs:209-222`); `false` = −1 with `EINVAL`. -/
def cfsetispeed (sys : Sys) (t : Speeds) (n : Nat) : Bool × Speeds := if valid sys n then (true, { t with ispeed := n }) else (false, t)

/-- `cfsetospeed` (`src/header/termios/mod.rs:232-245`). -/
def cfsetospeed (sys : Sys) (t : Speeds) (n : Nat) : Bool × Speeds := if valid sys n then (true, { t with ospeed := n }) else (false, t)

/-- `cfsetspeed` (`src/header/termios/mod.rs:260-266`). -/
def cfsetspeed (sys : Sys) (t : Speeds) (n : Nat) : Bool × Speeds :=
  match cfsetispeed sys t n with
  | (false, t) => (false, t)
  | (true, t) => cfsetospeed sys t n

/-- `tcsetattr` (`src/header/termios/mod.rs:116-137`): the request (`TCSETS` and the action), `none` = `EINVAL`. -/
def tcsetattr (action : Int) : Option Nat := if action = 0 ∨ action = 1 ∨ action = 2 then some (0x5402 + action.toNat) else none

/-- `tcflush` (`src/header/termios/mod.rs:277-287`): the request and its argument. -/
def tcflush (q : Int) : Option (Nat × Int) := if q = 0 ∨ q = 1 ∨ q = 2 then some (0x540B, q) else none

/-- `tcflow` (`src/header/termios/mod.rs:354-364`). -/
def tcflow (a : Int) : Option (Nat × Int) := if a = 2 ∨ a = 3 ∨ a = 0 ∨ a = 1 then some (0x540A, a) else none

/-- `termios` (`src/header/termios/mod.rs:80-95`) on Redox. -/
structure Termios where
  iflag : UInt32
  oflag : UInt32
  cflag : UInt32
  lflag : UInt32
  cc : List UInt8

/-- `cfmakeraw` (`src/header/termios/mod.rs:373-384`), with the constants for Redox (`constants.rs`, `redox.rs`). -/
def cfmakeraw (t : Termios) : Termios :=
  { iflag := t.iflag &&& ~~~(0o1 ||| 0o2 ||| 0o10 ||| 0o40 ||| 0o100 ||| 0o200 ||| 0o400 ||| 0o1000)
    oflag := t.oflag &&& ~~~0o1
    lflag := t.lflag &&& ~~~(0x8 ||| 0x10 ||| 0x100 ||| 0x80 ||| 0x400)
    cflag := t.cflag &&& ~~~(0o1400 ||| 0o10000) ||| 0o1400
    cc := (t.cc.set 16 1).set 17 0 }

end Verif.Pty
