/-!
# The table of file descriptors on Redox

`FdTbl`, `PosixFdTbl`, `UpperFdTbl` (`redox-rt/src/sys.rs`): the numbers in use are kept in the process, the kernel is told which one to
use.

Simplifications: a descriptor number is `posix n`, or `upper n` if the tag bit `UPPER_FDTBL_TAG` is set and `n` is the rest; of the flags
only the one for closing on `exec` is kept; indices are not truncated to 32 bits. `sync` says whether `sync_size`
(`redox-rt/src/sys.rs:1056-1076`), which asks the kernel for a larger table, succeeds. The outer `none` of a result is a panic.
-/

namespace Verif.Fd

/-- `FdTbl::CONTEXT_MAX_FILES` (`redox-rt/src/sys.rs:927`). -/
def maxFiles : Nat := 65536

/-- Why a number is not given: `EMFILE`, `EBADF`, `EEXIST`, `EINVAL`, or what `sync_size` says. -/
inductive Err where
  | emfile
  | ebadf
  | eexist
  | einval
  | sync
deriving DecidableEq

/-! ## `PosixFdTbl` -/

/-- `FdFlags` (`redox-rt/src/sys.rs:1255-1263`): `none` is vacant, otherwise the flag for closing on `exec`. -/
abbrev PEntry := Option Bool

/-- `PosixFdTbl` (`redox-rt/src/sys.rs:1250-1253`). -/
structure PTbl where
  table : List PEntry
  lowest : Nat

/-- `is_occupied` (`redox-rt/src/sys.rs:1320-1324`); `is_vacant` (`redox-rt/src/sys.rs:1314-1318`) is the contrary. -/
def PTbl.occ (t : PTbl) (i : Nat) : Bool :=
  match t.table[i]? with
  | some (some _) => true
  | _ => false

/-- `Vec::resize` -/
def resizeList {α : Type} (l : List α) (size : Nat) (d : α) : List α :=
  if size ≤ l.length then l.take size else l ++ List.replicate (size - l.length) d

/-- The loop of `update_lowest_idx`, over the rest of the table. -/
def scanOcc : List PEntry → Nat → Nat
  | some _ :: l, i => scanOcc l (i + 1)
  | _, i => i

/-- `update_lowest_idx` (`redox-rt/src/sys.rs:1361-1367`). -/
def PTbl.updateLowest (t : PTbl) (start : Nat) : PTbl := { t with lowest := scanOcc (t.table.drop start) start }

/-- `with_transaction` (`redox-rt/src/sys.rs:1345-1359`), after an error. -/
def PTbl.rollback (t : PTbl) (len : Nat) : PTbl :=
  let table := t.table.take len
  { table := table, lowest := if t.lowest > table.length then table.length else t.lowest }

/-- `PosixFdTbl::add` (`redox-rt/src/sys.rs:1418-1436`). -/
def PTbl.add (t : PTbl) (flag : Bool) (sync : Bool) : Except Err Nat × PTbl :=
  let handle := t.lowest
  if handle ≥ t.table.length then
    if sync then (.ok handle, { table := t.table ++ [some flag], lowest := handle + 1 })
    else (.error .sync, t.rollback t.table.length)
  else (.ok handle, PTbl.updateLowest { t with table := t.table.set handle (some flag) } (handle + 1))

/-- `insert_at` (`redox-rt/src/sys.rs:1482-1511`). -/
def PTbl.insertAt (t : PTbl) (handle : Nat) (flag : Bool) (sync : Bool) : Except Err Nat × PTbl :=
  if handle ≥ maxFiles then (.error .emfile, t)
  else if handle ≥ t.table.length ∧ !sync then (.error .sync, t.rollback t.table.length)
  else
    let table := if handle ≥ t.table.length then resizeList t.table (handle + 1) none else t.table
    let t' : PTbl := { t with table := table.set handle (some flag) }
    (.ok handle, if handle ≤ t'.lowest then t'.updateLowest handle else t')

/-- `PosixFdTbl::remove` (`redox-rt/src/sys.rs:1553-1565`); the result says whether there was an entry. -/
def PTbl.remove (t : PTbl) (handle : Nat) : Bool × PTbl :=
  if !t.occ handle then (false, t)
  else (true, { table := t.table.set handle none, lowest := if handle < t.lowest then handle else t.lowest })

/-- The first loop of `find_free_posix_slots`, over the rest of the table: the vacant indices from `i` on, at most `count`. -/
def freeIn : List PEntry → Nat → Nat → List Nat
  | _, _, 0 => []
  | [], _, _ => []
  | some _ :: l, i, n + 1 => freeIn l (i + 1) (n + 1)
  | none :: l, i, n + 1 => i :: freeIn l (i + 1) n

/-- `find_free_posix_slots` (`redox-rt/src/sys.rs:1398-1416`). -/
def PTbl.freeSlots (t : PTbl) (count : Nat) : List Nat :=
  let l := freeIn (t.table.drop t.lowest) t.lowest count
  l ++ (List.range (count - l.length)).map (t.table.length + ·)

/-- The entries are written: `this.table[handle] = …` for each handle. -/
def setAll {α : Type} (l : List α) (hs : List Nat) (a : α) : List α := hs.foldl (fun l h => l.set h a) l

/-- `bulk_add_posix` (`redox-rt/src/sys.rs:1438-1480`), all entries having the same flag. -/
def PTbl.bulkAdd (t : PTbl) (count : Nat) (flag : Bool) (sync : Bool) : Except Err (List Nat) × PTbl :=
  if count = 0 then (.ok [], t)
  else
    let handles := t.freeSlots count
    let maxIndex := handles.getLastD 0
    if maxIndex ≥ maxFiles then (.error .emfile, t)
    else if t.table.length ≤ maxIndex ∧ !sync then (.error .sync, t.rollback t.table.length)
    else
      let table := if t.table.length ≤ maxIndex then resizeList t.table (maxIndex + 1) none else t.table
      let t' : PTbl := { t with table := setAll table handles (some flag) }
      (.ok handles, t'.updateLowest t'.lowest)

/-- `validate_free_slots` (`redox-rt/src/sys.rs:1382-1396`, `redox-rt/src/sys.rs:1697-1712`), for a table of which `occ` says what is
occupied. -/
def validateFree (occ : Nat → Bool) : List Nat → List Nat → Option Err
  | [], _ => none
  | h :: hs, seen =>
    if h ≥ maxFiles then some .emfile
    else if seen.contains h then some .ebadf
    else if occ h then some .eexist
    else validateFree occ hs (h :: seen)

/-- `bulk_insert_manual` (`redox-rt/src/sys.rs:1513-1551`), all entries having the same flag. -/
def PTbl.bulkManual (t : PTbl) (handles : List Nat) (flag : Bool) (sync : Bool) : Option Err × PTbl :=
  if handles = [] then (none, t)
  else match validateFree t.occ handles [] with
    | some e => (some e, t)
    | none =>
      let maxIndex := handles.foldl max 0
      if t.table.length ≤ maxIndex ∧ !sync then (some .sync, t.rollback t.table.length)
      else
        let table := if t.table.length ≤ maxIndex then resizeList t.table (maxIndex + 1) none else t.table
        let t' : PTbl := { t with table := setAll table handles (some flag) }
        (none, t'.updateLowest 0)

/-! ## `UpperFdTbl` -/

/-- `FdTblEntry` (`redox-rt/src/sys.rs:1579-1583`). -/
inductive UEntry where
  | vacant (next : Nat)
  | occupied (flag : Bool)
deriving DecidableEq

/-- `UpperFdTbl` (`redox-rt/src/sys.rs:1591-1595`). -/
structure UTbl where
  table : List UEntry
  len : Nat
  first : Nat

/-- Whether the entry is occupied. -/
def UTbl.occ (t : UTbl) (i : Nat) : Bool :=
  match t.table[i]? with
  | some (.occupied _) => true
  | _ => false

/-- The loop of `rebuild_free_list`, over the table from index `i` on: the table and `next_vacant`. -/
def rebuildFrom : List UEntry → Nat → List UEntry × Nat
  | [], _ => ([], maxFiles)
  | e :: l, i =>
    let r := rebuildFrom l (i + 1)
    match e with
    | .vacant _ => (.vacant r.2 :: r.1, i)
    | .occupied f => (.occupied f :: r.1, r.2)

/-- `rebuild_free_list` (`redox-rt/src/sys.rs:1914-1923`). -/
def UTbl.rebuild (t : UTbl) : UTbl :=
  let r := rebuildFrom t.table 0
  { t with table := r.1, first := r.2 }

/-- `UpperFdTbl::resize` (`redox-rt/src/sys.rs:1645-1653`). -/
def UTbl.resize (t : UTbl) (size : Nat) : UTbl :=
  UTbl.rebuild { t with table := resizeList t.table size (.vacant maxFiles) }

/-- `with_transaction` (`redox-rt/src/sys.rs:1667-1678`), after an error. -/
def UTbl.rollback (t : UTbl) (len : Nat) : UTbl := { t with table := t.table.take len }

/-- `UpperFdTbl::insert` (`redox-rt/src/sys.rs:1735-1757`); `none` is `unreachable!()` or an index out of range. -/
def UTbl.insert (t : UTbl) (flag : Bool) (sync : Bool) : Option (Except Err Nat × UTbl) :=
  let handle := t.first
  if t.first = maxFiles then
    if sync then some (.ok t.table.length, { t with table := t.table ++ [.occupied flag], len := t.len + 1 })
    else some (.error .sync, t.rollback t.table.length)
  else match t.table[handle]? with
    | some (.vacant next) =>
      some (.ok handle, { table := t.table.set handle (.occupied flag), len := t.len + 1, first := next })
    | _ => none

/-- The loop of `find_free_block`, over the table from index `i` on, with `start` and `count`. -/
def findBlock (len : Nat) : List UEntry → Nat → Nat → Nat → Nat
  | [], i, start, count => if count = 0 then i else start
  | .vacant _ :: l, i, start, count =>
    let start := if count = 0 then i else start
    if count + 1 = len then start else findBlock len l (i + 1) start (count + 1)
  | .occupied _ :: l, i, start, _ => findBlock len l (i + 1) start 0

/-- `UpperFdTbl::bulk_insert` (`redox-rt/src/sys.rs:1759-1802`), with `find_free_block` (`redox-rt/src/sys.rs:1714-1733`). -/
def UTbl.bulkInsert (t : UTbl) (count : Nat) (flag : Bool) (sync : Bool) : Except Err (List Nat) × UTbl :=
  if count = 0 then (.ok [], t)
  else if t.len + count > maxFiles then (.error .emfile, t)
  else
    let start := findBlock count t.table 0 0 0
    let needed := start + count
    if t.table.length < needed ∧ !sync then (.error .sync, t.rollback t.table.length)
    else
      let t1 := if t.table.length < needed then t.resize needed else t
      let handles := (List.range count).map (start + ·)
      (.ok handles, UTbl.rebuild { t1 with table := setAll t1.table handles (.occupied flag), len := t1.len + count })

/-- `UpperFdTbl::insert_at` (`redox-rt/src/sys.rs:1804-1835`). -/
def UTbl.insertAt (t : UTbl) (handle : Nat) (flag : Bool) (sync : Bool) : Except Err Nat × UTbl :=
  if handle ≥ t.table.length ∧ !sync then (.error .sync, t.rollback t.table.length)
  else
    let t1 := if handle ≥ t.table.length then t.resize (handle + 1) else t
    let t2 : UTbl := { t1 with table := t1.table.set handle (.occupied flag) }
    (.ok handle, if t1.occ handle then t2 else UTbl.rebuild { t2 with len := t1.len + 1 })

/-- `UpperFdTbl::bulk_insert_manual` (`redox-rt/src/sys.rs:1837-1884`). -/
def UTbl.bulkManual (t : UTbl) (handles : List Nat) (flag : Bool) (sync : Bool) : Option Err × UTbl :=
  if handles = [] then (none, t)
  else if t.len + handles.length > maxFiles then (some .emfile, t)
  else match validateFree t.occ handles [] with
    | some e => (some e, t)
    | none =>
      let maxIndex := handles.foldl max 0
      if t.table.length ≤ maxIndex ∧ !sync then (some .sync, t.rollback t.table.length)
      else
        let t1 := if t.table.length ≤ maxIndex then t.resize (maxIndex + 1) else t
        (none, UTbl.rebuild { t1 with table := setAll t1.table handles (.occupied flag), len := t1.len + handles.length })

/-- `UpperFdTbl::remove` (`redox-rt/src/sys.rs:1886-1901`); the inner `none` is the underflow of `len`. -/
def UTbl.remove (t : UTbl) (handle : Nat) : Option (Bool × UTbl) :=
  if !t.occ handle then some (false, t)
  else if t.len = 0 then none
  else some (true, { table := t.table.set handle (.vacant t.first), len := t.len - 1, first := handle })

/-! ## `FdTbl` -/

/-- A descriptor number. -/
inductive Fd where
  | posix (n : Nat)
  | upper (n : Nat)
deriving DecidableEq

/-- `FdTbl` (`redox-rt/src/sys.rs:919-924`). -/
structure FdTbl where
  posix : PTbl
  upper : UTbl
  active : Nat

/-- `FdTbl::new` and `resize(DEFAULT_CAPACITY)` (`redox-rt/src/sys.rs:934-941`, `redox-rt/src/sys.rs:958`). -/
def FdTbl.initial : FdTbl :=
  ⟨⟨resizeList [] 64 none, 0⟩, UTbl.resize ⟨[], 0, maxFiles⟩ 64, 0⟩

/-- `FdTbl::remove` (`redox-rt/src/sys.rs:1230-1247`); `none` is the underflow of `active_count`. -/
def FdTbl.remove (t : FdTbl) (fd : Fd) : Option (Bool × FdTbl) :=
  match fd with
  | .upper h => do
    let r ← t.upper.remove h
    if r.1 then (if t.active = 0 then none else some (true, { t with upper := r.2, active := t.active - 1 }))
    else some (false, { t with upper := r.2 })
  | .posix h =>
    let r := t.posix.remove h
    if r.1 then (if t.active = 0 then none else some (true, { t with posix := r.2, active := t.active - 1 }))
    else some (false, { t with posix := r.2 })

/-- `FdTbl::override_at` (`redox-rt/src/sys.rs:1078-1098`); its first argument is not used. -/
def FdTbl.overrideAt (t : FdTbl) (fd : Fd) (sync : Bool) : Option (Except Err Fd × FdTbl) := do
  let r ← t.remove fd
  let t := r.2
  match fd with
  | .upper h => match t.upper.insertAt h false sync with
    | (.ok _, u) => some (.ok fd, { t with upper := u, active := t.active + 1 })
    | (.error e, u) => some (.error e, { t with upper := u })
  | .posix h => match t.posix.insertAt h false sync with
    | (.ok _, p) => some (.ok fd, { t with posix := p, active := t.active + 1 })
    | (.error e, p) => some (.error e, { t with posix := p })

/-- `FdTbl::add_posix` (`redox-rt/src/sys.rs:1099-1110`). -/
def FdTbl.addPosix (t : FdTbl) (flag : Bool) (sync : Bool) : Except Err Fd × FdTbl :=
  if t.active ≥ maxFiles then (.error .emfile, t)
  else match t.posix.add flag sync with
    | (.ok h, p) => (.ok (.posix h), { t with posix := p, active := t.active + 1 })
    | (.error e, p) => (.error e, { t with posix := p })

/-- `FdTbl::insert_upper` (`redox-rt/src/sys.rs:1112-1125`), whose callers add the tag. -/
def FdTbl.insertUpper (t : FdTbl) (flag : Bool) (sync : Bool) : Option (Except Err Fd × FdTbl) :=
  if t.active ≥ maxFiles then some (.error .emfile, t)
  else do
    let r ← t.upper.insert flag sync
    match r with
    | (.ok h, u) => some (.ok (.upper h), { t with upper := u, active := t.active + 1 })
    | (.error e, u) => some (.error e, { t with upper := u })

/-- `FdTbl::bulk_add` (`redox-rt/src/sys.rs:1148-1188`); `which` says whether the tag is in it. -/
def FdTbl.bulkAdd (t : FdTbl) (upper : Bool) (cnt : Nat) (flag : Bool) (sync : Bool) : Except Err (List Fd) × FdTbl :=
  if cnt = 0 then (.ok [], t)
  else if t.active + cnt > maxFiles then (.error .emfile, t)
  else if upper then match t.upper.bulkInsert cnt flag sync with
    | (.ok hs, u) => (.ok (hs.map .upper), { t with upper := u, active := t.active + cnt })
    | (.error e, u) => (.error e, { t with upper := u })
  else match t.posix.bulkAdd cnt flag sync with
    | (.ok hs, p) => (.ok (hs.map .posix), { t with posix := p, active := t.active + cnt })
    | (.error e, p) => (.error e, { t with posix := p })

/-- `FdTbl::bulk_insert` with given numbers (`redox-rt/src/sys.rs:1205-1228`). The numbers are without tag. -/
def FdTbl.bulkInsert (t : FdTbl) (upper : Bool) (handles : List Nat) (flag : Bool) (sync : Bool) : Except Err Unit × FdTbl :=
  if handles = [] then (.ok (), t)
  else if t.active + handles.length > maxFiles then (.error .emfile, t)
  else if upper then match t.upper.bulkManual handles flag sync with
    | (none, u) => (.ok (), { t with upper := u, active := t.active + handles.length })
    | (some e, u) => (.error e, { t with upper := u })
  else match t.posix.bulkManual handles flag sync with
    | (none, p) => (.ok (), { t with posix := p, active := t.active + handles.length })
    | (some e, p) => (.error e, { t with posix := p })

/-- `FdTbl::get_fd_flags` (`redox-rt/src/sys.rs:1020-1036`); `none` is `EBADF`. -/
def FdTbl.getFlags (t : FdTbl) (fd : Fd) : Option Bool :=
  match fd with
  | .posix h => match t.posix.table[h]? with
    | some (some f) => some f
    | _ => none
  | .upper h => match t.upper.table[h]? with
    | some (.occupied f) => some f
    | _ => none

/-- `FdTbl::set_fd_flags` (`redox-rt/src/sys.rs:1038-1054`). -/
def FdTbl.setFlags (t : FdTbl) (fd : Fd) (flag : Bool) : Bool × FdTbl :=
  match fd with
  | .posix h => if t.posix.occ h then (true, { t with posix := { t.posix with table := t.posix.table.set h (some flag) } }) else (false, t)
  | .upper h =>
    if t.upper.occ h then (true, { t with upper := { t.upper with table := t.upper.table.set h (.occupied flag) } }) else (false, t)

/-- The occupied entries of the first table from index `i` on. -/
def iterPosix : List PEntry → Nat → List (Fd × Bool)
  | [], _ => []
  | none :: l, i => iterPosix l (i + 1)
  | some f :: l, i => (.posix i, f) :: iterPosix l (i + 1)

/-- The occupied entries of the second table from index `i` on. -/
def iterUpper : List UEntry → Nat → List (Fd × Bool)
  | [], _ => []
  | .vacant _ :: l, i => iterUpper l (i + 1)
  | .occupied f :: l, i => (.upper i, f) :: iterUpper l (i + 1)

/-- `FdTblIter` (`redox-rt/src/sys.rs:1926-1991`), collected. -/
def FdTbl.iter (t : FdTbl) : List (Fd × Bool) := iterPosix t.posix.table 0 ++ iterUpper t.upper.table 0

/-- What the functions of `redox-rt/src/sys.rs` and `redox-rt/src/proc.rs` do with the table, always with the lock held. -/
inductive Op where
  | add (flag sync : Bool)
  | addUpper (flag sync : Bool)
  | bulkAdd (upper : Bool) (count : Nat) (flag sync : Bool)
  | bulkInsert (upper : Bool) (numbers : List Nat) (flag sync : Bool)
  | override (fd : Fd) (sync : Bool)
  | remove (fd : Fd)
  | setFlags (fd : Fd) (flag : Bool)

/-- The descriptors an operation has given, taken or changed, or the error. -/
abbrev Res := Except Err (List Fd)

/-- The result of a function that gives one descriptor. -/
def one (r : Except Err Fd × FdTbl) : Res × FdTbl :=
  (match r.1 with
    | .ok fd => .ok [fd]
    | .error e => .error e, r.2)

/-- The number with its tag, if it has one. -/
def mkFd (upper : Bool) (n : Nat) : Fd := if upper then .upper n else .posix n

/-- The result of a function that occupies given descriptors. -/
def numbered (l : List Fd) (r : Except Err Unit × FdTbl) : Res × FdTbl :=
  (match r.1 with
    | .ok _ => .ok l
    | .error e => .error e, r.2)

/-- One operation on the table; `none` is a panic. -/
def FdTbl.run (t : FdTbl) : Op → Option (Res × FdTbl)
  | .add flag sync => some (one (t.addPosix flag sync))
  | .addUpper flag sync => (t.insertUpper flag sync).map one
  | .bulkAdd upper count flag sync => some (t.bulkAdd upper count flag sync)
  | .bulkInsert upper numbers flag sync =>
    some (numbered (numbers.map (mkFd upper)) (t.bulkInsert upper numbers flag sync))
  | .override fd sync => (t.overrideAt fd sync).map one
  | .remove fd => (t.remove fd).map (fun r => (if r.1 then .ok [fd] else .error .ebadf, r.2))
  | .setFlags fd flag =>
    let r := t.setFlags fd flag
    some (if r.1 then .ok [fd] else .error .ebadf, r.2)

end Verif.Fd
