import Verif.Dir.DirModel
/-!
# `posix_getdents` on Redox

`src/platform/redox/mod.rs:1003-1027`, `src/header/dirent/mod.rs:261-272`. The system calls are those of `Verif.Dir.DirModel`; the
position of the descriptor is the number of a place. `lseek` does not fail.
-/

namespace Verif.Dir
open Verif.Net

/-- The loop over the records (`src/platform/redox/mod.rs:1012-1023`): the number in the last record, or none for `EIO`. -/
def walk (buf : List UInt8) (total done : Nat) (next : UInt64) : Option UInt64 :=
  if _h : done < total then
    match reclenOffset .redox (buf.drop done) with
    | none => none
    | some (reclen, off) => if _h0 : reclen = 0 then none else walk buf total (done + reclen) off
  else some next
termination_by total - done

/-- `posix_getdents` (`src/header/dirent/mod.rs:261-272`, `src/platform/redox/mod.rs:1003-1027`) with the position of the descriptor:
the number of bytes or `errno`, the buffer, the kernel and the position afterwards. -/
def posixGetdents (k : Kern) (pos : UInt64) (buf : List UInt8) : Except Int32 Nat × List UInt8 × Kern × UInt64 :=
  match k.getdents .redox buf.length pos with
  | (.error e, k) => (.error e, buf, k, pos)
  | (.ok l, k) =>
    let buf := l ++ buf.drop l.length
    if l.length = 0 then (.ok 0, buf, k, pos)
    else
      match walk buf l.length 0 pos with
      | none => (.error EIO, buf, k, pos)
      | some next => (.ok l.length, buf, k, next)

end Verif.Dir
