import Verif.Poll.SelectModel
/-!
# `poll`

`src/header/poll/mod.rs`, with the epoll of Linux: a descriptor that is registered a second time gives `EEXIST`.

* Masks of `poll` and of epoll are both `UInt32`; the constants have the same values, and no other bits are looked at.
* The kernel is given by the answers to `epoll_ctl` and `epoll_pwait` as for `select`; `none` = `epoll_pwait` never returns.
-/

namespace Verif.Poll

/-- `pollfd` (`src/header/poll/mod.rs:53-60`). -/
structure PollFd where
  fd : Int32
  events : UInt32
  revents : UInt32
deriving DecidableEq

/-- `event_map` (`src/header/poll/mod.rs:65-76`): the bits, equal on both sides (`src/header/poll/mod.rs:25-44`,
`src/header/sys_epoll/mod.rs:26-41`). -/
def eventMap : List UInt32 := [0x001, 0x002, 0x004, 0x008, 0x010, 0x020, 0x040, 0x100, 0x080, 0x200]

/-- The loops over `event_map` (`src/header/poll/mod.rs:102-106`, `141-145`): `acc |= ep` for the bits of `x`. -/
def mapBits (x acc : UInt32) : UInt32 := eventMap.foldl (fun a p => if x &&& p > 0 then a ||| p else a) acc

/-- `EBADF` (`src/header/errno/mod.rs:55`), `EEXIST` (`:63`), `EINTR` (`:50`). -/
def EBADF : Int32 := 9
@[inherit_doc EBADF] def EEXIST : Int32 := 17
@[inherit_doc EBADF] def EINTR : Int32 := 4

/-- The registration of one entry, number `i`, after those of `reg` with the descriptors `seen`. -/
def addOne (ctl : Int32 → Ctl) (seen : List Int32) (fd : Int32) : Ctl :=
  if fd ∈ seen then .err EEXIST else ctl fd

/-- The registration loop (`src/header/poll/mod.rs:89-119`): the entries, `closed` and what is registered. -/
def registerPoll (ctl : Int32 → Ctl) (i : Nat) (seen : List Int32) :
    List PollFd → Except Int32 (List PollFd × Nat × List (Nat × UInt32))
  | [] => .ok ([], 0, [])
  | e :: es =>
    if e.fd < 0 then do
      let (es, closed, reg) ← registerPoll ctl (i + 1) seen es
      .ok ({ e with revents := 0 } :: es, closed, reg)
    else
      match addOne ctl seen e.fd with
      | .ok => do
        let (es, closed, reg) ← registerPoll ctl (i + 1) (e.fd :: seen) es
        .ok ({ e with revents := 0 } :: es, closed, (i, mapBits e.events 0) :: reg)
      | .eperm => .error 1
      | .err n =>
        if n = EBADF then do
          let (es, closed, reg) ← registerPoll ctl (i + 1) seen es
          .ok ({ e with revents := 0x20 } :: es, closed + 1, reg)
        else .error n

/-- The loop over the events (`src/header/poll/mod.rs:136-147`). -/
def applyEvents (es : List PollFd) : List (Nat × UInt32) → List PollFd
  | [] => es
  | (i, ev) :: l => applyEvents (es.modify i fun e => { e with revents := mapBits ev e.revents }) l

/-- `poll_epoll` (`src/header/poll/mod.rs:63-166`): the number of entries or `errno`, and the entries. (When it fails, the
entries are left as they were, which is not so in the code for `revents`.) -/
def poll (ctl : Int32 → Ctl) (wait : List (Nat × UInt32) → Int32 → Option (Except Int32 (List (Nat × UInt32))))
    (es : List PollFd) (timeout : Int32) : Option (Except Int32 Nat × List PollFd) :=
  match registerPoll ctl 0 [] es with
  | .error n => some (.error n, es)
  | .ok (es', closed, reg) =>
    if closed > 0 ∧ closed = es.length then some (.ok closed, es')
    else
      match wait reg timeout with
      | none => none
      | some (.ok l) =>
        let es' := applyEvents es' l
        some (.ok (es'.countP (·.revents > 0)), es')
      | some (.error n) =>
        if n = EINTR ∧ closed > 0 then some (.ok (es'.countP (·.revents > 0)), es') else some (.error n, es)

/-- The timeout of `ppoll` (`src/header/poll/mod.rs:211-220`). -/
def ppollTimeout : Option (Int64 × Int64) → Int32
  | none => -1
  | some (sec, nsec) =>
    if sec > 2147483 then 0x7FFFFFFF else sec.toInt32 * 1000 + nsec.toInt32 / 1000000

end Verif.Poll
