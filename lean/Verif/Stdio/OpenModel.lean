/-!
# Opening streams: `fopen`, `fdopen`, `freopen`

`src/header/stdio/helpers.rs`, `src/header/stdio/mod.rs:484-513`, `:680-714`, `:791-848`, with the descriptors of the process and the files behind them. The file system and the kernel are not in the
repository; `sysOpen`, `setfl` and `dup2` say what is expected of them. A descriptor carries the flags of its open file itself, so descriptors that share one (after `dup`) are separate here.
A stream is its descriptor, its flags, what it has read ahead and what it has not yet written.
-/

namespace Verif.Fopen

inductive Errno where
  | EINVAL
  | ENOENT
  | EEXIST
  | EMFILE
  | EBADF
  | EACCES
deriving DecidableEq

/-- A file: its contents and permissions. -/
structure File where
  data : List UInt8
  perm : UInt32
deriving DecidableEq

/-- An open descriptor: the file, `O_ACCMODE` and `O_APPEND` of its flags, whether it is closed on `exec`, and the offset. -/
structure Entry where
  path : List UInt8
  flags : UInt32
  cloexec : Bool
  pos : Nat
deriving DecidableEq

structure K where
  files : List UInt8 → Option File
  fds : Nat → Option Entry
  umask : UInt32

/-- `O_RDONLY`, ... (`src/header/bits_open-flags/redox.rs:4-35`). -/
def O_RDONLY : UInt32 := 0x00010000
@[inherit_doc O_RDONLY] def O_WRONLY : UInt32 := 0x00020000
@[inherit_doc O_RDONLY] def O_RDWR : UInt32 := 0x00030000
@[inherit_doc O_RDONLY] def O_APPEND : UInt32 := 0x00080000
@[inherit_doc O_RDONLY] def O_CLOEXEC : UInt32 := 0x01000000
@[inherit_doc O_RDONLY] def O_CREAT : UInt32 := 0x02000000
@[inherit_doc O_RDONLY] def O_TRUNC : UInt32 := 0x04000000
@[inherit_doc O_RDONLY] def O_EXCL : UInt32 := 0x08000000

/-- `F_PERM`, ... (`src/header/stdio/constants.rs:10-16`). -/
def F_PERM : UInt32 := 1
@[inherit_doc F_PERM] def F_NORD : UInt32 := 4
@[inherit_doc F_PERM] def F_NOWR : UInt32 := 8
@[inherit_doc F_PERM] def F_EOF : UInt32 := 16
@[inherit_doc F_PERM] def F_ERR : UInt32 := 32
@[inherit_doc F_PERM] def F_APP : UInt32 := 128

def has (w f : UInt32) : Bool := w &&& f = f

/-- One file set. -/
def K.put (k : K) (path : List UInt8) (f : File) : K := { k with files := fun p => if p = path then some f else k.files p }

/-- One descriptor set or closed. -/
def K.setFd (k : K) (fd : Nat) (e : Option Entry) : K := { k with fds := fun n => if n = fd then e else k.fds n }

/-- What the system decides during an `open`: the number of the new descriptor, if there is one left, and an error for a name that cannot be opened (missing directory, permissions). -/
structure Choice where
  pick : Option Nat
  deny : Option Errno

/-- `open` (`src/platform/redox/mod.rs:952-965`) and the file system. -/
def sysOpen (k : K) (c : Choice) (path : List UInt8) (flags mode : UInt32) : Except Errno Nat × K :=
  match c.pick with
  | none => (.error .EMFILE, k)
  | some fd =>
    match c.deny with
    | some e => (.error e, k)
    | none =>
      let entry : Entry := ⟨path, flags &&& (O_RDWR ||| O_APPEND), has flags O_CLOEXEC, 0⟩
      match k.files path with
      | none =>
        if has flags O_CREAT then (.ok fd, (k.put path ⟨[], mode &&& ~~~k.umask &&& 0xFFF⟩).setFd fd (some entry))
        else (.error .ENOENT, k)
      | some f =>
        if has flags O_CREAT && has flags O_EXCL then (.error .EEXIST, k)
        else if has flags O_TRUNC then (.ok fd, (k.put path { f with data := [] }).setFd fd (some entry))
        else (.ok fd, k.setFd fd (some entry))

/-- `fcntl` with `F_SETFD` and `FD_CLOEXEC` (`redox-rt/src/sys.rs:790-798`). -/
def setCloexec (k : K) (fd : Nat) : K :=
  match k.fds fd with
  | none => k
  | some e => k.setFd fd (some { e with cloexec := true })

/-- `fcntl` with `F_SETFL` (`redox-rt/src/sys.rs:800`): the kernel keeps the access mode. `false` is -1. -/
def setfl (k : K) (fd : Nat) (arg : UInt32) : Bool × K :=
  match k.fds fd with
  | none => (false, k)
  | some e => (true, k.setFd fd (some { e with flags := (e.flags &&& O_RDWR) ||| (arg &&& O_APPEND) }))

/-- `Sys::dup2` (`src/platform/redox/mod.rs:246-248`): the new descriptor is not closed on `exec`. It may fail. -/
def dup2 (k : K) (ok : Bool) (old new : Nat) : Bool × K :=
  match k.fds old with
  | none => (false, k)
  | some e => if ok then (true, k.setFd new (some { e with cloexec := false })) else (false, k)

/-- `Sys::close`. -/
def close (k : K) (fd : Nat) : K := k.setFd fd none

/-- A stream. `ahead` are the bytes that have been read from the descriptor and not yet been given to the program, those pushed back included; `pending` are the bytes not yet written. -/
structure Stream where
  fd : Nat
  flags : UInt32
  ahead : List UInt8
  pending : List UInt8
deriving DecidableEq

/-- `data` with `l` at offset `pos`, zeroes in between. -/
def overwrite (data : List UInt8) (pos : Nat) (l : List UInt8) : List UInt8 :=
  data.take pos ++ List.replicate (pos - data.length) 0 ++ l ++ data.drop (pos + l.length)

/-- `FILE::flush` (`src/header/stdio/mod.rs:306-314`): everything is written, or, if the descriptor does not allow it, nothing. Short writes are the subject of C37. -/
def flush (k : K) (s : Stream) : K × Stream :=
  if s.pending = [] then (k, s)
  else match k.fds s.fd with
  | none => (k, { s with flags := s.flags ||| F_ERR })
  | some e =>
    match k.files e.path with
    | none => (k, { s with flags := s.flags ||| F_ERR })
    | some f =>
      if has e.flags O_WRONLY then
        let pos := if has e.flags O_APPEND then f.data.length else e.pos
        ((k.put e.path { f with data := overwrite f.data pos s.pending }).setFd s.fd (some { e with pos := pos + s.pending.length }), { s with pending := [] })
      else (k, { s with flags := s.flags ||| F_ERR })

/-- `fclose` (`src/header/stdio/mod.rs:484-503`); the storage is left out. -/
def fclose (k : K) (s : Stream) : K := close (flush k s).1 s.fd

/-- `CStr::first` (`src/c_str.rs:200-206`): the terminator if the string is empty. -/
def first (mode : List UInt8) : UInt8 := mode.headD 0

/-- `parse_mode_flags` (`src/header/stdio/helpers.rs:25-49`). -/
def parseMode (mode : List UInt8) : UInt32 :=
  let flags := if mode.contains 0x2B then O_RDWR else if first mode = 0x72 then O_RDONLY else O_WRONLY
  let flags := if mode.contains 0x78 then flags ||| O_EXCL else flags
  let flags := if mode.contains 0x65 then flags ||| O_CLOEXEC else flags
  let flags := if first mode ≠ 0x72 then flags ||| O_CREAT else flags
  if first mode = 0x77 then flags ||| O_TRUNC else if first mode = 0x61 then flags ||| O_APPEND else flags

/-- The first byte is one of `r`, `w`, `a`. -/
def valid (mode : List UInt8) : Bool := first mode = 0x72 || first mode = 0x77 || first mode = 0x61

/-- `_fdopen` (`src/header/stdio/helpers.rs:52-94`), `fdopen` (`src/header/stdio/mod.rs:509-513`). `fcntl` with `F_GETFL` on a closed descriptor gives -1, which has `O_APPEND` set. -/
def fdopen (k : K) (fd : Nat) (mode : List UInt8) : Except Errno Stream × K :=
  if !valid mode then (.error .EINVAL, k)
  else
    let flags := if !mode.contains 0x2B then (if first mode = 0x72 then F_NOWR else F_NORD) else 0
    let k := if mode.contains 0x65 then setCloexec k fd else k
    if first mode = 0x61 then
      let f := match k.fds fd with
        | none => 0xFFFFFFFF
        | some e => e.flags
      let k := if f &&& O_APPEND = 0 then (setfl k fd (f ||| O_APPEND)).2 else k
      (.ok ⟨fd, flags ||| F_APP, [], []⟩, k)
    else (.ok ⟨fd, flags, [], []⟩, k)

/-- `fopen` (`src/header/stdio/mod.rs:680-714`). -/
def fopen (k : K) (c : Choice) (path mode : List UInt8) : Except Errno Stream × K :=
  if !valid mode then (.error .EINVAL, k)
  else
    let flags := parseMode mode
    let newMode := if has flags O_CREAT then 0o666 else 0
    match sysOpen k c path flags newMode with
    | (.error e, k) => (.error e, k)
    | (.ok fd, k) =>
      let k := if flags &&& O_CLOEXEC ≠ 0 then setCloexec k fd else k
      match fdopen k fd mode with
      | (.ok s, k) => (.ok s, k)
      | (.error e, k) => (.error e, close k fd)

/-- `freopen` (`src/header/stdio/mod.rs:791-848`). `none` is NULL; the stream is closed then. `dupOk` says whether the system lets `dup2` succeed. -/
def freopen (k : K) (c : Choice) (dupOk : Bool) (path : Option (List UInt8)) (mode : List UInt8) (s : Stream) : Option Stream × K :=
  let flags := parseMode mode
  let (k, s) := flush k s
  match path with
  | none =>
    let k := if flags &&& O_CLOEXEC ≠ 0 then setCloexec k s.fd else k
    match setfl k s.fd (flags &&& ~~~(O_CREAT ||| O_EXCL ||| O_CLOEXEC)) with
    | (false, k) => (none, fclose k s)
    | (true, k) => (some s, k)
  | some path =>
    match fopen k c path mode with
    | (.error _, k) => (none, fclose k s)
    | (.ok new, k) =>
      if new.fd = s.fd then (some { s with flags := (s.flags &&& F_PERM) ||| new.flags }, k)
      else
        match dup2 k dupOk new.fd s.fd with
        | (false, k) => (none, fclose (fclose k new) s)
        | (true, k) =>
          match setfl k s.fd (flags &&& O_CLOEXEC) with
          | (false, k) => (none, fclose (fclose k new) s)
          | (true, k) => (some { s with flags := (s.flags &&& F_PERM) ||| new.flags }, fclose k new)

end Verif.Fopen
