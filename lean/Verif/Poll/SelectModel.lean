/-!
# `select`

`src/header/sys_select/mod.rs`.

* A set of descriptors is a function to `Bool`, a null pointer is `none`.
* The kernel is given by the answers to `epoll_ctl` (for each descriptor) and to `epoll_pwait` (for each list of registered
  descriptors and each timeout). `epoll_create1` succeeds. The signal mask is passed on unchanged and left out.
-/

namespace Verif.Poll

/-- `EPOLLIN` … `EPOLLHUP` (`src/header/sys_epoll/mod.rs:26-34`). -/
def EPOLLIN : UInt32 := 0x001
@[inherit_doc EPOLLIN] def EPOLLPRI : UInt32 := 0x002
@[inherit_doc EPOLLIN] def EPOLLOUT : UInt32 := 0x004
@[inherit_doc EPOLLIN] def EPOLLERR : UInt32 := 0x008
@[inherit_doc EPOLLIN] def EPOLLHUP : UInt32 := 0x010

/-- The answer to `epoll_ctl` with `EPOLL_CTL_ADD`; `eperm` = the file does not support epoll. -/
inductive Ctl where
  | ok
  | eperm
  | err (errno : Int32)
deriving DecidableEq

/-- `fd_set` (`src/header/sys_select/mod.rs:33-40`). -/
abbrev FdSet := Nat → Bool

/-- The three sets. -/
structure Sets where
  r : Option FdSet
  w : Option FdSet
  x : Option FdSet

/-- `if let Some(ref fd_set) = … && fd_set.contains(fd)`. -/
def has (s : Option FdSet) (fd : Nat) : Bool :=
  match s with
  | none => false
  | some f => f fd

/-- `BitSet::remove`. -/
def remove (s : Option FdSet) (fd : Nat) : Option FdSet := s.map fun f i => if i = fd then false else f i

/-- `BitSet::insert`. -/
def insert (s : Option FdSet) (fd : Nat) : Option FdSet := s.map fun f i => if i = fd then true else f i

/-- The events asked for (`src/header/sys_select/mod.rs:69-87`). -/
def Sets.events (s : Sets) (fd : Nat) : UInt32 :=
  (if has s.r fd then EPOLLIN else 0) ||| (if has s.w fd then EPOLLOUT else 0) ||| (if has s.x fd then EPOLLERR else 0)

/-- The registration loop (`src/header/sys_select/mod.rs:66-117`): the sets, `not_epoll` and the registered descriptors with
their events. -/
def register (ctl : Nat → Ctl) (s : Sets) (notEpoll : Nat) (reg : List (Nat × UInt32)) :
    List Nat → Except Int32 (Nat × List (Nat × UInt32)) × Sets
  | [] => (.ok (notEpoll, reg), s)
  | fd :: fds =>
    if s.events fd > 0 then
      match ctl fd with
      | .eperm => register ctl s (notEpoll + 1) reg fds
      | .err e => (.error e, s)
      | .ok => register ctl ⟨remove s.r fd, remove s.w fd, remove s.x fd⟩ notEpoll (reg ++ [(fd, s.events fd)]) fds
    else register ctl s notEpoll reg fds

/-- The timeout in milliseconds (`src/header/sys_select/mod.rs:120-136`). -/
def selectTimeout (notEpoll : Nat) (timeout : Option (Int64 × Int64)) : Int32 :=
  if notEpoll > 0 then 0
  else match timeout with
    | none => -1
    | some (sec, usec) =>
      let v := sec.toInt32.toInt * 1000
      if v < -2 ^ 31 ∨ v ≥ 2 ^ 31 then 0x7FFFFFFF
      else
        let v := v + (usec.toInt32 / 1000).toInt
        if v < -2 ^ 31 ∨ v ≥ 2 ^ 31 then 0x7FFFFFFF else Int32.ofInt v

/-- What is done with one set for one event (`src/header/sys_select/mod.rs:156-161`): the set, and what is added to the
count. -/
def put (s : Option FdSet) (fd : Nat) (ev bit : UInt32) : Option FdSet × Nat :=
  if ev &&& bit > 0 ∧ s.isSome then (insert s fd, 1) else (s, 0)

/-- The loop over the events (`src/header/sys_select/mod.rs:151-177`). -/
def collect (s : Sets) (count : Nat) : List (Nat × UInt32) → Nat × Sets
  | [] => (count, s)
  | (fd, ev) :: l =>
    if fd < 1024 then
      let (r, a) := put s.r fd ev EPOLLIN
      let (w, b) := put s.w fd ev EPOLLOUT
      let (x, c) := put s.x fd ev EPOLLERR
      collect ⟨r, w, x⟩ (count + a + b + c) l
    else collect s count l

/-- `EINVAL` (`src/header/errno/mod.rs:68`). -/
def EINVAL : Int32 := 22

/-- `select_epoll` (`src/header/sys_select/mod.rs:42-179`): the number of descriptors or `errno`, and the sets. -/
def select (ctl : Nat → Ctl) (wait : List (Nat × UInt32) → Int32 → Except Int32 (List (Nat × UInt32))) (nfds : Int32)
    (s : Sets) (timeout : Option (Int64 × Int64)) : Except Int32 Nat × Sets :=
  if nfds < 0 ∨ nfds > 1024 then (.error EINVAL, s)
  else
    match register ctl s 0 [] (List.range nfds.toInt.toNat) with
    | (.error e, s) => (.error e, s)
    | (.ok (notEpoll, reg), s) =>
      match wait reg (selectTimeout notEpoll timeout) with
      | .error e => (.error e, s)
      | .ok l =>
        let (count, s) := collect s notEpoll l
        (.ok count, s)

end Verif.Poll
