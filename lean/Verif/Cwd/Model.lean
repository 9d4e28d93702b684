import Verif.Mem.Basic

/-!
# Working directory and symbolic links, on Redox

`chdir`, `fchdir`, `getcwd` (`src/platform/redox/path.rs`, `src/header/unistd/mod.rs`), and the opening of a name that is a symbolic link
which the scheme does not follow itself (`EXDEV`).

The kernel, the schemes and the crate `redox-path` (not part of the repository) are the fields of `World`: absolute names are of a type `P`,
relative ones of a type `R`, open files of a type `N`. Nothing is assumed about them in the definitions. Locks and the blocking of signals are
left out (the functions hold the lock on `CWD` all the time); a file description which is dropped is closed, which is not modelled.
-/

namespace Verif.Cwd

open Verif.Mem

inductive Errno where
  | ENOENT | ENOTDIR | ENAMETOOLONG | EBADF | ERANGE | EXDEV | ELOOP | EINVAL
  | other (n : Nat)
deriving DecidableEq

/-- `limits::PATH_MAX` (`src/header/limits/mod.rs:21`). -/
def PATH_MAX : Nat := 4096

/-- `limits::SYMLOOP_MAX` (`src/header/limits/mod.rs:174`). -/
def SYMLOOP_MAX : Nat := 64

/-- `RedoxStr`: a name is absolute or relative. -/
inductive Name (P R : Type) where
  | abs (p : P)
  | rel (r : R)
deriving DecidableEq

/-- What the code asks the kernel and the crate `redox-path`. -/
structure World (P R N : Type) where
  /-- `RedoxPath::to_standard_canon` -/
  canon : P → P
  /-- `RedoxPath::canonicalize_as_cwd` of a relative name -/
  join : P → R → P
  /-- `RedoxPath::dirname` -/
  dirname : P → P
  /-- the text of an absolute name -/
  text : P → List UInt8
  /-- `RedoxPath::from_absolute` -/
  fromAbsolute : List UInt8 → Option P
  /-- `RedoxStr::is_empty` of a relative name (an absolute one is not empty) -/
  isEmpty : R → Bool
  /-- opening of an absolute name (`redox_rt::sys::open`, `libcscheme::open`), with the flags of the call -/
  openAbs : P → Except Errno N
  /-- opening of a name relative to an open directory -/
  openAt : N → R → Except Errno N
  /-- the same two with `O_STAT` -/
  statAbs : P → Except Errno N
  statAt : N → R → Except Errno N
  /-- `fstat` succeeds, and whether the file is a directory -/
  isDir : N → Option Bool
  /-- `Sys::fpath`: the name of an open file -/
  fpath : N → Except Errno (List UInt8)
  /-- duplication of a descriptor into the upper table -/
  dupUpper : N → Except Errno N
  /-- opening with `O_SYMLINK` and reading at most `PATH_MAX + 1` bytes -/
  linkAbs : P → Except Errno (List UInt8)
  linkAt : N → R → Except Errno (List UInt8)
  /-- `core::str::from_utf8(..).is_ok()` -/
  utf8 : List UInt8 → Bool
  /-- `RedoxStr::new` -/
  name : List UInt8 → Option (Name P R)

variable {P R N : Type}

/-- `Cwd` (`src/platform/redox/path.rs:107-111`). `CWD` (`:113`) is an `Option` of it. -/
structure Dir (P N : Type) where
  path : List UInt8
  redox : P
  fd : N

/-- `to_cwd_path` (`src/platform/redox/path.rs:115-117`). -/
def toCwdPath (t : List UInt8) : Except Errno (List UInt8) := if t.length ≤ PATH_MAX then .ok t else .error .ENAMETOOLONG

/-- The name and the open file which `chdir` takes (`src/platform/redox/path.rs:30-46`); the first error of two is that of the missing
directory. -/
def target (w : World P R N) (cwd : Option (Dir P N)) : Name P R → Except Errno (P × Except Errno N)
  | .abs p => .ok (w.canon p, w.statAbs (w.canon p))
  | .rel r => match cwd with
    | none => .error .ENOENT
    | some d => .ok (w.join d.redox r, w.statAt d.fd r)

/-- `chdir` (`src/platform/redox/path.rs:27-56`), `Sys::chdir` (`src/platform/redox/mod.rs:187-191`): result, and `CWD` afterwards. `none` is a
name for which `RedoxStr::new` fails. -/
def chdir (w : World P R N) (cwd : Option (Dir P N)) (nm : Option (Name P R)) : Except Errno Unit × Option (Dir P N) :=
  match nm with
  | none => (.error .EINVAL, cwd)
  | some nm => match target w cwd nm with
    | .error e => (.error e, cwd)
    | .ok (redox, .error e) => (.error e, cwd)
    | .ok (redox, .ok fd) =>
      if w.isDir fd ≠ some true then (.error .ENOTDIR, cwd)
      else match toCwdPath (w.text redox) with
        | .error e => (.error e, cwd)
        | .ok path => (.ok (), some ⟨path, redox, fd⟩)

/-- `fchdir` (`src/platform/redox/path.rs:58-74`) with `set_cwd_manual` (`src/platform/redox/path.rs:119-126`); `f` is the open file, `none` if
the descriptor is not open. `fpath` writes into a buffer of `PATH_MAX` bytes. -/
def fchdir (w : World P R N) (cwd : Option (Dir P N)) (f : Option N) : Except Errno Unit × Option (Dir P N) :=
  match f with
  | none => (.error .EBADF, cwd)
  | some f => match w.fpath f with
    | .error e => (.error e, cwd)
    | .ok t =>
      if t.length > PATH_MAX then (.error .ENAMETOOLONG, cwd)
      else match w.dupUpper f with
        | .error e => (.error e, cwd)
        | .ok fd => match w.fromAbsolute t with
          | none => (.error .EBADF, cwd)
          | some redox => (.ok (), some ⟨t, redox, fd⟩)

/-- `before.copy_from_slice`, `after.zero`: the bytes are written in order. -/
def fill (m : Mem UInt8) (p : Nat) : List UInt8 → Option (Mem UInt8)
  | [] => some m
  | b :: l => (store m p b).bind fun m => fill m (p + 1) l

/-- `path::getcwd` (`src/platform/redox/path.rs:77-91`) on a buffer of `size` bytes at `buf`. `none`: a write to unmapped memory. -/
def getcwdInto (cwd : Option (Dir P N)) (m : Mem UInt8) (buf size : Nat) : Option (Except Errno Nat × Mem UInt8) :=
  match cwd with
  | none => some (.error .ENOENT, m)
  | some d =>
    if d.path.length > size then some (.error .ERANGE, m)
    else (fill m buf (d.path ++ List.replicate (size - d.path.length) 0)).map fun m => (.ok d.path.length, m)

/-- `getcwd` (`src/header/unistd/mod.rs:499-531`): the pointer returned or the error. Address 0 is the null pointer; `stack` is where the array
`stack_buf` is, which is zeroed first; `heap` is what `platform::alloc` gives. `none`: a write to unmapped memory, or the panic of `expect`. -/
def getcwd (cwd : Option (Dir P N)) (m : Mem UInt8) (stack heap : Nat) (buf size : Nat) : Option (Except Errno Nat × Mem UInt8) :=
  if buf = 0 then do
    let m ← fill m stack (List.replicate PATH_MAX 0)
    let (r, m) ← getcwdInto cwd m stack PATH_MAX
    match r with
    | .error e => some (.error e, m)
    | .ok _ => do
      let bs ← readN m stack PATH_MAX
      let n ← bs.findIdx? (· == 0)
      let m ← fill m heap (bs.take (n + 1))
      some (.ok heap, m)
  else do
    let (r, m) ← getcwdInto cwd m buf size
    match r with
    | .error e => some (.error e, m)
    | .ok _ => some (.ok buf, m)

/-- The end of `read_link_content` (`src/platform/redox/path.rs:164-175`): `r` is what was read from the link into a buffer of `PATH_MAX + 1`
bytes. -/
def linkName (w : World P R N) (r : Except Errno (List UInt8)) : Except Errno (Name P R) :=
  match r with
  | .error e => .error e
  | .ok c =>
    if c.length ≥ PATH_MAX + 1 then .error .ENAMETOOLONG
    else if !w.utf8 c then .error .ENOENT
    else match w.name c with
      | none => .error .EBADF
      | some n => .ok n

/-- `dirname.canonicalize_as_cwd(link_target)`: an absolute name stays as it is. -/
def under (w : World P R N) (d : P) : Name P R → P
  | .abs p => p
  | .rel r => w.join d r

/-- The loop of `resolve_sym_links` (`src/platform/redox/path.rs:180-194`), `k` rounds. -/
def symLoop (w : World P R N) : Nat → P → Except Errno N
  | 0, _ => .error .ELOOP
  | k + 1, p => match w.openAbs p with
    | .ok fd => .ok fd
    | .error .EXDEV => match linkName w (w.linkAbs p) with
      | .error e => .error e
      | .ok t => symLoop w k (under w (w.dirname p) t)
    | .error e => .error e

/-- `resolve_sym_links` (`src/platform/redox/path.rs:178-197`). -/
def resolveSymLinks (w : World P R N) (p : P) : Except Errno N := symLoop w SYMLOOP_MAX p

/-- `openat2_path` (`src/platform/redox/path.rs:345-379`) for `AT_FDCWD` (`base` is the name of the working directory, or `none`), and for a
descriptor (`base` is its name by `fpath`, and `e` is the error if there is none). -/
def openat2Path (w : World P R N) (base : Except Errno P) (t : Name P R) : Except Errno P :=
  match t with
  | .abs p => .ok p
  | .rel r => if w.isEmpty r then .error .ENOENT else match base with
    | .error e => .error e
    | .ok d => .ok (w.join d r)

/-- `open` (`src/platform/redox/path.rs:251-289`). The library's own scheme (`open_absolute`) is one of those which `openAbs` opens. -/
def open_ (w : World P R N) (cwd : Option (Dir P N)) : Name P R → Except Errno N
  | .abs p => match w.openAbs p with
    | .ok fd => .ok fd
    | .error .EXDEV => match linkName w (w.linkAbs p) with
      | .error e => .error e
      | .ok t => match openat2Path w ((cwd.map (fun d => Except.ok d.redox)).getD (.error .EINVAL)) t with
        | .error e => .error e
        | .ok p => resolveSymLinks w p
    | .error e => .error e
  | .rel r => if w.isEmpty r then .error .ENOENT else match cwd with
    | none => .error .ENOENT
    | some d => match w.openAt d.fd r with
      | .ok fd => .ok fd
      | .error .EXDEV => match linkName w (w.linkAt d.fd r) with
        | .error e => .error e
        | .ok t => match openat2Path w (.ok d.redox) t with
          | .error e => .error e
          | .ok p => resolveSymLinks w p
      | .error e => .error e

/-- `openat` (`src/platform/redox/path.rs:200-248`) with a descriptor which is not `AT_FDCWD` (for that it is `open_`); `f` is the open
directory. The last part is the second half of `openat2_path` (`src/platform/redox/path.rs:371-378`). -/
def openat (w : World P R N) (cwd : Option (Dir P N)) (f : N) : Name P R → Except Errno N
  | .abs p => open_ w cwd (.abs p)
  | .rel r => if w.isEmpty r then .error .ENOENT else match w.openAt f r with
    | .ok fd => .ok fd
    | .error .EXDEV => match linkName w (w.linkAt f r) with
      | .error e => .error e
      | .ok t =>
        if (match t with | .abs _ => false | .rel r => w.isEmpty r) then .error .ENOENT
        else match w.fpath f with
          | .error e => .error e
          | .ok b => match w.fromAbsolute b with
            | none => .error .EBADF
            | some d => resolveSymLinks w (under w d t)
    | .error e => .error e

end Verif.Cwd
