/-!
# Waiting for children, `system`, `popen` and `pclose`

`waitpid` of `src/platform/redox/mod.rs` with `sys_waitpid` (`redox-rt/src/sys.rs`), the macros of `sys/wait.h` (`src/header/sys_wait/cbindgen.toml`), `system`
(`src/header/stdlib/mod.rs`), `popen` and `pclose` (`src/header/stdio/mod.rs`). The process manager is not in the repository; it is an arbitrary
sequence of answers. Signals that interrupt a request are part of the answers.
-/

namespace Verif.Wait

/-! ## `waitpid` -/

/-- `EINVAL` is the library's own, the others come from the process manager. -/
inductive Errno where
  | EINVAL
  | other (n : Nat)
deriving DecidableEq

/-- `ProcCall::Waitpid` and `ProcCall::Waitpgid`. -/
inductive ProcCall where
  | waitpid
  | waitpgid
deriving DecidableEq

/-- An answer of the process manager: a child and its status, no child that has changed its state (0, with `WNOHANG`), or an error. Only the first writes the
status. -/
inductive Answer where
  | child (pid : Nat) (status : UInt64)
  | nothing
  | error (e : Errno)
deriving DecidableEq

/-- `WaitpidTarget::from_posix_arg` (`redox-rt/src/sys.rs:350-361`) and the first part of `sys_waitpid` (`redox-rt/src/sys.rs:363-369`). -/
def target (pid : Int) : ProcCall × Nat :=
  if pid = 0 then (.waitpgid, 0)
  else if pid = -1 then (.waitpid, 0)
  else if 1 ≤ pid then (.waitpid, pid.toNat)
  else (.waitpgid, (-pid).toNat)

/-- `WNOHANG`, `WUNTRACED` and `WCONTINUED` (`src/header/sys_wait/mod.rs:15-19`); `WaitFlags`, not in the repository, has these bits. -/
def flagsOf (options : Int32) : Option UInt32 :=
  if options < 0 then none else if options.toUInt32 &&& ~~~11 = 0 then some options.toUInt32 else none

/-- `wifstopped` of the protocol crate, which is not in the repository; as `WIFSTOPPED` (`src/header/sys_wait/cbindgen.toml:24`). -/
def wifstopped (status : UInt64) : Bool := status &&& 0xff = 0x7f

/-- The request of `sys_waitpid` (`redox-rt/src/sys.rs:370-376`). -/
structure Request where
  call : ProcCall
  id : Nat
  flags : UInt32
deriving DecidableEq

/-- The loop of `Sys::waitpid` (`src/platform/redox/mod.rs:1787-1799`), the first `n` turns: `none` if it goes on. Turn `i` gets the answer `ans i`; `traced i` is
`ptrace::is_traceme` at that time. The result is the answer and the status. -/
def loop (ans : Nat → Answer) (traced : Nat → Bool) (untraced : Bool) : Nat → Nat → UInt64 → Option (Except Errno Nat × UInt64)
  | 0, _, _ => none
  | n + 1, i, status =>
    let (res, status) : Except Errno Nat × UInt64 := match ans i with
      | .child pid st => (.ok pid, st)
      | .nothing => (.ok 0, status)
      | .error e => (.error e, status)
    if !wifstopped status || untraced || traced i then some (res, status) else loop ans traced untraced n (i + 1) status

/-- What `waitpid` does first (`src/platform/redox/mod.rs:1750-1757`): the request it repeats. -/
def request (pid options : Int32) : Except Errno Request :=
  match flagsOf options with
  | none => .error .EINVAL
  | some flags => .ok ⟨(target pid.toInt).1, (target pid.toInt).2, flags ||| 2⟩

/-- `Sys::waitpid` (`src/platform/redox/mod.rs:1746-1807`), the first `n` requests: the value returned or the error, and what is stored in `*stat_loc`. -/
def waitpid (ans : Nat → Answer) (traced : Nat → Bool) (n : Nat) (pid options : Int32) : Option (Except Errno Int32 × Option Int32) :=
  match flagsOf options with
  | none => some (.error .EINVAL, none)
  | some flags =>
    match loop ans traced (flags &&& 2 = 2) n 0 0 with
    | none => none
    | some (.error e, status) => some (.error e, some status.toUInt32.toInt32)
    | some (.ok p, status) => some (.ok (Int32.ofNat p), some status.toUInt32.toInt32)

/-- The status of `posix_exit` as the process manager gets it (`redox-rt/src/sys.rs:511`). -/
def exitWord (status : Int32) : UInt64 := (status &&& 0xFF).toUInt32.toUInt64

/-! ## The macros -/

/-- `WEXITSTATUS`, `WSTOPSIG` (`src/header/sys_wait/cbindgen.toml:14`, `src/header/sys_wait/cbindgen.toml:18`). -/
def WEXITSTATUS (s : UInt32) : UInt32 := (s >>> 8) &&& 0xff

/-- `WTERMSIG` (`src/header/sys_wait/cbindgen.toml:16`). -/
def WTERMSIG (s : UInt32) : UInt32 := s &&& 0x7f

/-- `WCOREDUMP` (`src/header/sys_wait/cbindgen.toml:20`). -/
def WCOREDUMP (s : UInt32) : Bool := s &&& 0x80 ≠ 0

/-- `WIFEXITED` (`src/header/sys_wait/cbindgen.toml:22`). -/
def WIFEXITED (s : UInt32) : Bool := s &&& 0x7f = 0

/-- `WIFSTOPPED` (`src/header/sys_wait/cbindgen.toml:24`). -/
def WIFSTOPPED (s : UInt32) : Bool := s &&& 0xff = 0x7f

/-- `WIFSIGNALED` (`src/header/sys_wait/cbindgen.toml:26`). -/
def WIFSIGNALED (s : UInt32) : Bool := 2 ≤ ((s &&& 0x7f) + 1) &&& 0x7f

/-- `WIFCONTINUED` (`src/header/sys_wait/cbindgen.toml:28`). -/
def WIFCONTINUED (s : UInt32) : Bool := s = 0xffff

/-! ## `system` -/

/-- Standard output: what has arrived in the file, and what is still in the buffer of the stream. -/
structure Out where
  file : List UInt8
  buffer : List UInt8
deriving DecidableEq

/-- The end of the child if the shell cannot be executed: `exit(127)` (`src/header/stdlib/mod.rs:1642`, `src/header/stdio/mod.rs:1168`) runs the functions registered with
`atexit`, which add the bytes `handlers` to the stream, and writes its copy of the buffer (`exit`, `src/header/stdlib/mod.rs:362-388`). `to` is where the child's standard output
goes. -/
def failedChild (handlers to buffer : List UInt8) : List UInt8 := to ++ buffer ++ handlers

/-- `system` (`src/header/stdlib/mod.rs:1618-1656`) with a command: whether `fork` and `execv` succeed, the status `waitpid` gives (or an error) and what the shell
writes. The result is the value and standard output. -/
def system (forks execs : Bool) (wait : Option Int32) (handlers shell : List UInt8) (o : Out) : Int32 × Out :=
  if !forks then (-1, o)
  else
    let o := if execs then { o with file := o.file ++ shell } else { o with file := failedChild handlers o.file o.buffer }
    match wait with
    | none => (-1, o)
    | some st => (st, o)

/-- `fflush(stdout)`, or the end of the process. -/
def flush (o : Out) : Out := ⟨o.file ++ o.buffer, []⟩

/-! ## `popen` -/

/-- What a descriptor refers to: an end of pipe `k`, or something else. -/
inductive End where
  | read (k : Nat)
  | write (k : Nat)
  | other (n : Nat)
deriving DecidableEq

/-- A table of descriptors; the flag is `FD_CLOEXEC`. -/
abbrev Tab := Nat → Option (End × Bool)

/-- One descriptor set. -/
def put (t : Tab) (fd : Nat) (e : Option (End × Bool)) : Tab := fun i => if i = fd then e else t i

/-- `close` -/
def close (t : Tab) (fd : Nat) : Tab := put t fd none

/-- `dup2`: the new descriptor has no flag; equal numbers change nothing. -/
def dup2 (t : Tab) (a b : Nat) : Tab := if a = b then t else put t b ((t a).map fun e => (e.1, false))

/-- `execv`: descriptors with the flag are closed. -/
def exec (t : Tab) : Tab := fun i => (t i).filter fun e => !e.2

/-- The process, its children, and the number of pipes so far. -/
structure World where
  self : Tab
  kids : List Tab
  pipes : Nat

/-- The letters of `popen`'s mode (`src/header/stdio/mod.rs:1111-1128`): whether it is for writing, and `e`; `none` is `EINVAL`. -/
def parseMode : List UInt8 → Option Bool → Bool → Option (Bool × Bool)
  | [], some w, ce => some (w, ce)
  | [], none, _ => none
  | b :: l, w, ce =>
    if b = 0x65 then parseMode l w true
    else if b = 0x72 ∧ w = none then parseMode l (some false) ce
    else if b = 0x77 ∧ w = none then parseMode l (some true) ce
    else none

/-- What happens in the child of `popen` (`src/header/stdio/mod.rs:1137-1166`) until it is the shell; `dup2` does not fail and the shell is there. -/
def childTab (t : Tab) (write : Bool) (a b : Nat) : Tab :=
  let t := if write then dup2 t a 0 else dup2 t b 1
  exec (close (close t a) b)

/-- `popen` (`src/header/stdio/mod.rs:1106-1189`): `pipe` gives the numbers `a` (to read) and `b` (to write), `forks` says whether `fork` succeeds. The result is the descriptor of
the stream. -/
def popen (w : World) (mode : List UInt8) (pipe : Option (Nat × Nat)) (forks : Bool) : Option Nat × World :=
  match parseMode mode none false with
  | none => (none, w)
  | some (write, ce) =>
    match pipe with
    | none => (none, w)
    | some (a, b) =>
      let t := put (put w.self a (some (.read w.pipes, false))) b (some (.write w.pipes, false))
      if !forks then (none, { w with self := t, pipes := w.pipes + 1 })
      else
        let kids := w.kids ++ [childTab t write a b]
        let (fd, t) := if write then (b, close t a) else (a, close t b)
        let t := if ce then put t fd ((t fd).map fun e => (e.1, true)) else t
        (some fd, { self := t, kids := kids, pipes := w.pipes + 1 })

/-- `pclose` (`src/header/stdio/mod.rs:1057-1078`), the part before it waits: the stream is closed. -/
def pcloseClose (w : World) (fd : Nat) : World := { w with self := close w.self fd }

end Verif.Wait
