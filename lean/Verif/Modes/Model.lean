/-!
# New files and their permissions on Redox

`open`, `umask`, `mkdir`, `mkfifo`, `mknod`, `symlink`, `utimensat` and `access` of `src/platform/redox/mod.rs` and `src/header/sys_stat/mod.rs`, with the word they send to the file system
(`libredox::openat`). The file system is not in the repository; `fsOpen` says what it is expected to do with the word. Names are numbers; a link is followed once (chains are the subject
of C110); descriptors are left out. `mode_t` and the flags, `c_int` in the code, are unsigned words here.
-/

namespace Verif.Modes

inductive Errno where
  | EINVAL
  | EACCES
  | EEXIST
  | ENOENT
  | ENOTDIR
deriving DecidableEq

inductive Kind where
  | reg
  | dir
  | fifo
  | link
deriving DecidableEq

/-- A file. `text` is the content, or for a link the name it leads to. -/
structure Node where
  kind : Kind
  perm : UInt32
  uid : UInt32
  gid : UInt32
  text : List UInt8
  time : Nat
deriving DecidableEq

/-- The files, and which name the text of a link is. -/
structure Fs where
  files : Nat → Option Node
  dest : List UInt8 → Nat

/-- `O_WRONLY`, `O_CLOEXEC`, `O_CREAT`, `O_EXCL`, `O_DIRECTORY`, `O_PATH`, `O_SYMLINK`, `O_NOFOLLOW` (`src/header/bits_open-flags/redox.rs:4-45`). -/
def O_WRONLY : UInt32 := 0x00020000
def O_CLOEXEC : UInt32 := 0x01000000
def O_CREAT : UInt32 := 0x02000000
def O_EXCL : UInt32 := 0x08000000
def O_DIRECTORY : UInt32 := 0x10000000
def O_PATH : UInt32 := 0x20000000
def O_SYMLINK : UInt32 := 0x40000000
def O_NOFOLLOW : UInt32 := 0x80000000

/-- `AT_SYMLINK_NOFOLLOW` (`src/header/fcntl/redox.rs:13`). -/
def AT_SYMLINK_NOFOLLOW : UInt32 := 0x200

/-- `AT_EACCESS` (`src/header/fcntl/redox.rs:26`). -/
def AT_EACCESS : UInt32 := 0x400

/-- A flag is set. -/
def has (w f : UInt32) : Bool := w &&& f = f

/-- One file set. -/
def Fs.put (fs : Fs) (p : Nat) (n : Node) : Fs := { fs with files := fun q => if q = p then some n else fs.files q }

/-- What the file system does with the word of an `open`, for a process with these ids: the file that is opened. The upper half of the word are the flags, the lower half the kind and the permissions
of a new file. Not in the repository. -/
def fsOpen (fs : Fs) (uid gid : UInt32) (p : Nat) (w : UInt32) : Except Errno Nat × Fs :=
  match fs.files p with
  | none =>
    if has w O_CREAT then
      let kind := if has w O_DIRECTORY then .dir else if has w O_SYMLINK then .link else if w &&& 0xF000 = 0x1000 then .fifo else .reg
      (.ok p, fs.put p ⟨kind, w &&& 0xFFF, uid, gid, [], 0⟩)
    else (.error .ENOENT, fs)
  | some n =>
    if has w O_CREAT && has w O_EXCL then (.error .EEXIST, fs)
    else if n.kind = .link && !has w O_SYMLINK && !has w O_NOFOLLOW then
      match fs.files (fs.dest n.text) with
      | none => (.error .ENOENT, fs)
      | some _ => (.ok (fs.dest n.text), fs)
    else if has w O_DIRECTORY && n.kind ≠ .dir then (.error .ENOTDIR, fs)
    else (.ok p, fs)

/-- The process: `UMASK` (`redox-rt/src/sys.rs:396`) and the ids. -/
structure Proc where
  mask : UInt32
  ruid : UInt32
  euid : UInt32
  rgid : UInt32
  egid : UInt32

/-- The word of `libredox::openat` (`src/platform/redox/libredox.rs:31`). -/
def word (oflag mode : UInt32) : UInt32 := (oflag &&& 0xFFFF0000) ||| (mode &&& 0xFFFF)

/-- `Sys::openat` (`src/platform/redox/mod.rs:952-965`). -/
def openat (s : Proc) (fs : Fs) (p : Nat) (oflag mode : UInt32) : Except Errno Nat × Fs :=
  fsOpen fs s.euid s.egid p (word oflag (mode &&& ~~~s.mask))

/-- `Sys::umask` (`src/platform/redox/mod.rs:1651-1654`); `MODE_PERM` is 0o7777. -/
def umask (s : Proc) (mask : UInt32) : UInt32 × Proc := (s.mask &&& ~~~0o1000, { s with mask := mask &&& 0o7777 &&& ~~~0o1000 })

/-- The result of a call that opens a file only to create it. -/
def done (r : Except Errno Nat × Fs) : Except Errno Unit × Fs := (match r.1 with
  | .ok _ => .ok ()
  | .error e => .error e, r.2)

/-- `Sys::mkdirat` (`src/platform/redox/mod.rs:794-802`). -/
def mkdirat (s : Proc) (fs : Fs) (p : Nat) (_mode : UInt32) : Except Errno Unit × Fs :=
  done (openat s fs p (O_DIRECTORY ||| O_EXCL ||| O_CLOEXEC ||| O_CREAT) 0o777)

/-- `Sys::mknodat` (`src/platform/redox/mod.rs:813-816`). -/
def mknodat (s : Proc) (fs : Fs) (p : Nat) (mode : UInt32) : Except Errno Unit × Fs :=
  done (openat s fs p (O_CREAT ||| O_CLOEXEC ||| O_CREAT) mode)

/-- `Sys::mkfifoat` (`src/platform/redox/mod.rs:804-811`). -/
def mkfifoat (s : Proc) (fs : Fs) (p : Nat) (mode : UInt32) : Except Errno Unit × Fs := mknodat s fs p (0x1000 ||| (mode &&& 0o777))

/-- A `write` of the whole text to a file that has just been opened: from its beginning. -/
def writeText (fs : Fs) (p : Nat) (t : List UInt8) : Fs :=
  match fs.files p with
  | none => fs
  | some n => fs.put p { n with text := t ++ n.text.drop t.length }

/-- `Sys::symlinkat` (`src/platform/redox/mod.rs:1503-1515`). -/
def symlinkat (s : Proc) (fs : Fs) (t : List UInt8) (p : Nat) : Except Errno Unit × Fs :=
  match openat s fs p (O_WRONLY ||| O_SYMLINK ||| O_CLOEXEC ||| O_CREAT) 0o777 with
  | (.error e, fs) => (.error e, fs)
  | (.ok q, fs) => (.ok (), writeText fs q t)

/-- `utimensat` (`src/header/sys_stat/mod.rs:260-275`), with one time instead of two. -/
def utimensat (s : Proc) (fs : Fs) (p : Nat) (time : Nat) (flag : UInt32) : Except Errno Unit × Fs :=
  match openat s fs p (flag &&& AT_SYMLINK_NOFOLLOW) 0 with
  | (.error e, fs) => (.error e, fs)
  | (.ok q, fs) => match fs.files q with
    | none => (.ok (), fs)
    | some n => (.ok (), fs.put q { n with time := time })

/-- `Sys::faccessat` (`src/platform/redox/mod.rs:106-149`). -/
def faccessat (s : Proc) (fs : Fs) (p : Nat) (mode flags : UInt32) : Except Errno Unit :=
  match (openat s fs p (O_PATH ||| O_CLOEXEC) 0).1 with
  | .error e => .error e
  | .ok q =>
    if flags &&& ~~~AT_EACCESS ≠ 0 then .error .EINVAL
    else if mode = 0 then .ok ()
    else match fs.files q with
      | none => .error .ENOENT
      | some n =>
        let (uid, gid) := if flags &&& AT_EACCESS = AT_EACCESS then (s.euid, s.egid) else (s.ruid, s.rgid)
        let perms := (if n.uid = uid then n.perm >>> 6 else if n.gid = gid then n.perm >>> 3 else n.perm) &&& 7
        if (mode &&& 4 = 4 ∧ perms &&& 4 ≠ 4) ∨ (mode &&& 2 = 2 ∧ perms &&& 2 ≠ 2) ∨ (mode &&& 1 = 1 ∧ perms &&& 1 ≠ 1) then .error .EINVAL
        else .ok ()

end Verif.Modes
