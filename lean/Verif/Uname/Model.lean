/-!
# `uname` of Redox (`src/platform/redox/mod.rs:1656-1732`, `src/header/sys_utsname/mod.rs`)

The two files are given by their contents, `none` if one cannot be opened or read; that short reads and interruptions make no difference is C173 and
C176. Simplified: an error after part of the host name was read leaves that part in the array; here the array is unchanged. `utf8` says whether
bytes are text; in `Lines` it is asked about the line with its line feed, which makes no difference.
-/

namespace Verif.Uname

abbrev Bytes := List UInt8

/-- `utsname` (`src/header/sys_utsname/mod.rs:20-36`): six arrays of 65 bytes. -/
structure Uts where
  sysname : Bytes
  nodename : Bytes
  release : Bytes
  version : Bytes
  machine : Bytes
  domainname : Bytes

/-- `copy_common_length_from_slice` (`src/out.rs:157-164`). -/
def put (dst src : Bytes) : Bytes := src.take dst.length ++ dst.drop src.length

/-- `gethostname` inside `uname` (`src/platform/redox/mod.rs:1657-1674`): as much of the file as fits, and a NUL. -/
def hostname (file : Option Bytes) (dst : Bytes) : Option Bytes :=
  if dst = [] then some dst
  else match file with
    | none => none
    | some l => some (put dst (l.take (dst.length - 1) ++ [0]))

/-- `Lines::next` (`src/io/mod.rs:2008-2023`): the next line without its line feed and a carriage return before it, and what follows; the
outer `none` is the end, the inner one bytes that are not text. -/
def nextLine (utf8 : Bytes → Bool) (s : Bytes) : Option (Option (Bytes × Bytes)) :=
  if s = [] then none
  else
    let l := s.takeWhile (· ≠ 0x0A)
    if utf8 l = false then some none
    else match s.drop l.length with
      | [] => some (some (l, []))
      | _ :: r => some (some (if l.getLast? = some 0x0D then l.dropLast else l, r))

/-- `read_line` inside `uname` (`src/platform/redox/mod.rs:1697-1709`): the array filled and what follows, or `EIO`. -/
def readLine (utf8 : Bytes → Bool) (dst s : Bytes) : Option (Bytes × Bytes) :=
  match nextLine utf8 s with
  | some (some (line, r)) => if (line ++ [0]).length > 65 then none else some (put dst (line ++ [0]), r)
  | _ => none

/-- `uname`: 0 or −1 (with `EIO`), and the structure. -/
def uname (utf8 : Bytes → Bool) (host sys : Option Bytes) (u : Uts) : Int × Uts :=
  match hostname host u.nodename with
  | none => (-1, u)
  | some n =>
    let u := { u with nodename := n }
    match sys with
    | none => (-1, u)
    | some s =>
      match readLine utf8 u.sysname s with
      | none => (-1, u)
      | some (f, s) =>
        let u := { u with sysname := f }
        match readLine utf8 u.release s with
        | none => (-1, u)
        | some (f, s) =>
          let u := { u with release := f }
          match readLine utf8 u.machine s with
          | none => (-1, u)
          | some (f, s) =>
            let u := { u with machine := f }
            match readLine utf8 u.version s with
            | none => (-1, u)
            | some (f, _) => (0, { u with version := f, domainname := List.replicate u.domainname.length 0 })

end Verif.Uname
