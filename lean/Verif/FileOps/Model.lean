/-!
# Times of files, `posix_fallocate`, `gethostname`

`src/header/utime/mod.rs`, `src/header/sys_time/mod.rs`, `src/header/sys_stat/mod.rs`, `src/platform/pal/mod.rs`, `src/platform/redox/libredox.rs`, `src/platform/redox/mod.rs`, `src/header/fcntl/mod.rs`, `src/header/unistd/mod.rs`
-/

namespace Verif.FileOps

/-! ## Times -/

/-- `timespec`. -/
structure Timespec where
  sec : Int
  nsec : Int
  deriving DecidableEq

/-- `timeval`. -/
structure Timeval where
  sec : Int
  usec : Int
  deriving DecidableEq

def UTIME_NOW : Int := 2 ^ 30 - 1
def UTIME_OMIT : Int := 2 ^ 30 - 2

/-- A file: the times of the last access and modification, the file a symbolic link leads to, and whether the process may read it. -/
structure Node where
  atime : Timespec
  mtime : Timespec
  link : Option Nat
  readable : Bool
  deriving DecidableEq

/-- The files, and the clock. The kernel finds the file of a path, without following a symbolic link at its end. -/
structure Fs where
  node : Nat → Option Node
  lookup : Int → List UInt8 → Option Nat
  now : Timespec

inductive Err where
  | ENOENT | EINVAL | EACCES | ELOOP
  deriving DecidableEq

/-- The time the kernel sets: now, the one it has, or the one given, if the number of nanoseconds is one. -/
def newTime (now old t : Timespec) : Except Err Timespec :=
  if t.nsec = UTIME_NOW then .ok now
  else if t.nsec = UTIME_OMIT then .ok old
  else if 0 ≤ t.nsec ∧ t.nsec < 10 ^ 9 then .ok t
  else .error .EINVAL

/-- The kernel sets the times of a file. -/
def setTimes (fs : Fs) (i : Nat) (a m : Timespec) : Except Err Unit × Fs := match fs.node i with
  | none => (.error .ENOENT, fs)
  | some n => match newTime fs.now n.atime a, newTime fs.now n.mtime m with
    | .ok a, .ok m => (.ok (), { fs with node := fun j => if j = i then some { n with atime := a, mtime := m } else fs.node j })
    | _, _ => (.error .EINVAL, fs)

/-- `as i32`. -/
def asI32 (n : Int) : Int := (n + 2 ^ 31) % 2 ^ 32 - 2 ^ 31

/-- `syscall::TimeSpec::from` of Redox (`src/header/bits_timespec/mod.rs:79-86`). -/
def narrow (redox : Bool) (t : Timespec) : Timespec := if redox then { t with nsec := asI32 t.nsec } else t

/-- `futimens` of an open file: on Redox `src/platform/redox/libredox.rs:194-222`, on Linux the system call `utimensat` with `AT_EMPTY_PATH` (`src/platform/linux/mod.rs:288-295`); no times: the time now. -/
def futimens (redox : Bool) (fs : Fs) (i : Nat) (times : Option (Timespec × Timespec)) : Except Err Unit × Fs := match times with
  | none => setTimes fs i ⟨0, UTIME_NOW⟩ ⟨0, UTIME_NOW⟩
  | some (a, m) => setTimes fs i (narrow redox a) (narrow redox m)

/-- The file behind a symbolic link; a link that leads to another link is left out. -/
def follow (fs : Fs) (i : Nat) : Nat := match fs.node i with
  | some n => n.link.getD i
  | none => i

def AT_FDCWD : Int := -100

def AT_SYMLINK_NOFOLLOW (redox : Bool) : UInt32 := if redox then 0x200 else 0x100
def O_NOFOLLOW (redox : Bool) : UInt32 := if redox then 0x80000000 else 0x20000

/-- `Sys::openat` with no access mode (`src/platform/linux/mod.rs:525-527`, `src/platform/redox/mod.rs:952-965`): Linux takes it as `O_RDONLY` and wants the file to be readable. -/
def openat (redox : Bool) (fs : Fs) (fd : Int) (path : List UInt8) (oflag : UInt32) : Except Err Nat := match fs.lookup fd path with
  | none => .error .ENOENT
  | some i =>
    let nofollow := oflag &&& O_NOFOLLOW redox ≠ 0
    if nofollow ∧ ((fs.node i).bind (·.link)).isSome then .error .ELOOP
    else
      let j := follow fs i
      match fs.node j with
      | none => .error .ENOENT
      | some n => if !redox && !n.readable then .error .EACCES else .ok j

/-- `utimensat` (`src/header/sys_stat/mod.rs:260-276`). -/
def utimensat (redox : Bool) (fs : Fs) (fd : Int) (path : List UInt8) (times : Option (Timespec × Timespec)) (flag : UInt32) : Except Err Unit × Fs := match openat redox fs fd path (flag &&& AT_SYMLINK_NOFOLLOW redox) with
  | .error e => (.error e, fs)
  | .ok i => futimens redox fs i times

/-- `Sys::utimens` (`src/platform/pal/mod.rs:169-171`, `src/platform/linux/mod.rs:288-295`, `src/platform/redox/mod.rs:519-541`): follows symbolic links and does not need the file to be readable. -/
def utimens (redox : Bool) (fs : Fs) (path : List UInt8) (times : Option (Timespec × Timespec)) : Except Err Unit × Fs :=
  if path = [] then (.error .ENOENT, fs)
  else match fs.lookup AT_FDCWD path with
    | none => (.error .ENOENT, fs)
    | some i => futimens redox fs (follow fs i) times

/-- `utimes` (`src/header/sys_time/mod.rs:127-154`); the products do not overflow, `tv_usec` having 32 bits. -/
def utimes (redox : Bool) (fs : Fs) (path : List UInt8) (times : Option (Timeval × Timeval)) : Except Err Unit × Fs :=
  utimens redox fs path (times.map fun t => (⟨t.1.sec, t.1.usec * 1000⟩, ⟨t.2.sec, t.2.usec * 1000⟩))

/-- `utime` (`src/header/utime/mod.rs:44-60`): the access time and the modification time, in seconds; no times: a null pointer is read. -/
def utime (redox : Bool) (fs : Fs) (path : List UInt8) (times : Option (Int × Int)) : Option (Except Err Unit × Fs) :=
  times.map fun t => utimens redox fs path (some (⟨t.1, 0⟩, ⟨t.2, 0⟩))

/-! ## `posix_fallocate` -/

/-- What the kernel answers: whether the file can be locked, its status read, and its length set. -/
structure Kernel where
  lock : Option Int
  stat : Option Int
  truncate : Nat → Option Int

/-- `ftruncate`: the content cut, or filled with zeros. -/
def truncated (file : List UInt8) (n : Nat) : List UInt8 := file.take n ++ List.replicate (n - file.length) 0

/-- `Sys::posix_fallocate` of Redox (`src/platform/redox/mod.rs:972-1001`), with the content after it; 27 is `EFBIG`. -/
def sysFallocate (k : Kernel) (file : List UInt8) (offset length : Nat) : Int × List UInt8 := match k.lock with
  | some e => (e, file)
  | none =>
    if offset + length < 2 ^ 64 then
      let total := offset + length
      match k.stat with
      | some e => (e, file)
      | none =>
        if file.length ≤ total then match k.truncate total with
          | some e => (e, file)
          | none => (0, truncated file total)
        else (0, file)
    else (27, file)

/-- `posix_fallocate` (`src/header/fcntl/mod.rs:186-199`); 22 is `EINVAL`. -/
def posixFallocate (k : Kernel) (file : List UInt8) (offset len : Int) : Int × List UInt8 :=
  if offset < 0 then (22, file)
  else if len ≤ 0 then (22, file)
  else sysFallocate k file offset.toNat len.toNat

/-! ## `gethostname` -/

/-- `nodename` from `uname` of Redox (`src/platform/redox/mod.rs:1656-1680`): the first 64 bytes of `/etc/hostname`, however the reads are divided, and the zero; none if the file cannot be read. What `uninit` holds stays behind. -/
def nodename (file : Option (List UInt8)) (uninit : List UInt8) : Option (List UInt8) := file.map fun s => s.take 64 ++ 0 :: uninit.drop ((s.take 64).length + 1)

/-- The loop of `gethostname` (`src/header/unistd/mod.rs:620-634`) over the rest of `nodename` and of the buffer. -/
def copyName : List UInt8 → List UInt8 → List UInt8
  | [], buf => buf
  | _, [] => []
  | c :: cs, b :: buf => if c = 0 then c :: buf else c :: copyName cs buf

/-- `gethostname` (`src/header/unistd/mod.rs:611-636`) with a buffer of `len` bytes. -/
def gethostname (file : Option (List UInt8)) (uninit buf : List UInt8) : Int × List UInt8 := match nodename file uninit with
  | none => (-1, buf)
  | some n => (0, copyName n buf)

end Verif.FileOps
