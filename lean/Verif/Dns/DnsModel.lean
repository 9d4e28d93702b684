import Verif.Net.InetModel
/-!
# DNS messages

`src/header/netdb/dns/mod.rs`.

* A `String` is the list of its bytes for `compile`, and the list of its characters for `parse` (all below 256, as they are
  made from bytes). The two agree for ASCII.
* `none` = the loop does not end. Positions are natural numbers; they stay below 2³².
-/

namespace Verif.Dns

/-- `DnsQuery` (`src/header/netdb/dns/query.rs:13-17`). -/
structure Query where
  name : List UInt8
  qtype : UInt16
  qclass : UInt16
deriving DecidableEq

/-- `DnsAnswer` (`src/header/netdb/dns/answer.rs:13-21`). -/
structure Answer where
  name : List UInt8
  atype : UInt16
  aclass : UInt16
  ttlA : UInt16
  ttlB : UInt16
  data : List UInt8
deriving DecidableEq

/-- `Dns` (`src/header/netdb/dns/mod.rs:18-24`). -/
structure Dns where
  id : UInt16
  flags : UInt16
  queries : List Query
  answers : List Answer
deriving DecidableEq

/-! ## `compile` -/

/-- `push_n16!` (`src/header/netdb/dns/mod.rs:36-40`): `u16::to_be_bytes`. -/
def be16Bytes (v : UInt16) : List UInt8 := [UInt8.ofNat (v.toNat / 256), UInt8.ofNat v.toNat]

/-- The name of a query (`src/header/netdb/dns/mod.rs:50-54`). -/
def compileName (name : List UInt8) : List UInt8 :=
  (Net.split 0x2E name).flatMap (fun part => UInt8.ofNat part.length :: part) ++ [0]

/-- `Dns::compile` (`src/header/netdb/dns/mod.rs:27-59`). -/
def compile (d : Dns) : List UInt8 :=
  be16Bytes d.id ++ be16Bytes d.flags ++ be16Bytes (UInt16.ofNat d.queries.length) ++ be16Bytes (UInt16.ofNat d.answers.length)
    ++ be16Bytes 0 ++ be16Bytes 0
    ++ d.queries.flatMap fun q => compileName q.name ++ be16Bytes q.qtype ++ be16Bytes q.qclass

/-! ## `parse` -/

/-- How `parse` fails: it returns `Err`, or panics at an index. -/
inductive Fail where
  | err
  | panic
deriving DecidableEq

/-- `pop_u8!` (`src/header/netdb/dns/mod.rs:65-73`): the byte and the new position. -/
def pop8 (data : List UInt8) (i : Nat) : Except Fail (UInt8 × Nat) :=
  if i + 1 > data.length then .error .err
  else match data[i]? with
    | none => .error .panic
    | some b => .ok (b, i + 1)

/-- `pop_n16!` (`src/header/netdb/dns/mod.rs:75-85`). -/
def pop16 (data : List UInt8) (i : Nat) : Except Fail (UInt16 × Nat) :=
  if i + 2 > data.length then .error .err
  else match data[i]?, data[i + 1]? with
    | some a, some b => .ok (UInt16.ofNat (a.toNat * 256 + b.toNat), i + 2)
    | _, _ => .error .panic

/-- The loops that pop `n` bytes (`src/header/netdb/dns/mod.rs:92-94`, `118-120`). -/
def popN (data : List UInt8) : Nat → Nat → Except Fail (List UInt8 × Nat)
  | 0, i => .ok ([], i)
  | n + 1, i => do
    let (b, i) ← pop8 data i
    let (l, i) ← popN data n i
    .ok (b :: l, i)

/-- `pop_data!` (`src/header/netdb/dns/mod.rs:87-98`). -/
def popData (data : List UInt8) (i : Nat) : Except Fail (List UInt8 × Nat) := do
  let (n, i) ← pop16 data i
  popN data n.toNat i

/-- What the loop of `pop_name!` does at position `i` (`src/header/netdb/dns/mod.rs:106-121`): it stops, or goes on with a
longer name at another position. -/
def nameStep (data name : List UInt8) (i : Nat) : Except Fail (List UInt8 × Nat × Bool) := do
  let (len, i) ← pop8 data i
  if len &&& 0xC0 = 0xC0 then do
    let (v, _) ← pop16 data (i - 1)
    .ok (name, (v - 0xC000).toNat, true)
  else if len = 0 then .ok (name, i, false)
  else do
    let (l, i) ← popN data len.toNat i
    .ok ((if name ≠ [] then name ++ [0x2E] else name) ++ l, i, true)

/-- The loop of `pop_name!` (`src/header/netdb/dns/mod.rs:105-121`). -/
def nameLoop (data name : List UInt8) (i : Nat) : Option (Except Fail (List UInt8 × Nat)) :=
  match nameStep data name i with
  | .error e => some (.error e)
  | .ok (name, i, true) => nameLoop data name i
  | .ok (name, i, false) => some (.ok (name, i))
partial_fixpoint

/-- `pop_name!` (`src/header/netdb/dns/mod.rs:100-129`). -/
def popName (data : List UInt8) (i : Nat) : Option (Except Fail (List UInt8 × Nat)) :=
  match nameLoop data [] i with
  | none => none
  | some (.error e) => some (.error e)
  | some (.ok (name, j)) => some (.ok (name, if j ≤ i then i + 2 else j))

/-- The type and class behind the name of a query (`src/header/netdb/dns/mod.rs:142-143`). -/
def queryRest (data name : List UInt8) (i : Nat) : Except Fail (Query × Nat) := do
  let (t, i) ← pop16 data i
  let (c, i) ← pop16 data i
  .ok (⟨name, t, c⟩, i)

/-- What follows the name of an answer (`src/header/netdb/dns/mod.rs:151-155`). -/
def answerRest (data name : List UInt8) (i : Nat) : Except Fail (Answer × Nat) := do
  let (t, i) ← pop16 data i
  let (c, i) ← pop16 data i
  let (a, i) ← pop16 data i
  let (b, i) ← pop16 data i
  let (d, i) ← popData data i
  .ok (⟨name, t, c, a, b, d⟩, i)

/-- The loops over the queries and the answers (`src/header/netdb/dns/mod.rs:138-145`, `147-157`). -/
def records {α : Type} (data : List UInt8) (rest : List UInt8 → List UInt8 → Nat → Except Fail (α × Nat)) :
    Nat → Nat → Option (Except Fail (List α × Nat))
  | 0, i => some (.ok ([], i))
  | n + 1, i =>
    match popName data i with
    | none => none
    | some (.error e) => some (.error e)
    | some (.ok (name, i)) =>
      match rest data name i with
      | .error e => some (.error e)
      | .ok (r, i) =>
        match records data rest n i with
        | none => none
        | some (.error e) => some (.error e)
        | some (.ok (l, i)) => some (.ok (r :: l, i))

/-- The header (`src/header/netdb/dns/mod.rs:131-136`): id, flags and the numbers of queries and answers. -/
def header (data : List UInt8) : Except Fail (UInt16 × UInt16 × UInt16 × UInt16 × Nat) := do
  let (id, i) ← pop16 data 0
  let (flags, i) ← pop16 data i
  let (q, i) ← pop16 data i
  let (a, i) ← pop16 data i
  let (_, i) ← pop16 data i
  let (_, i) ← pop16 data i
  .ok (id, flags, q, a, i)

/-- `Dns::parse` (`src/header/netdb/dns/mod.rs:61-165`). -/
def parse (data : List UInt8) : Option (Except Fail Dns) :=
  match header data with
  | .error e => some (.error e)
  | .ok (id, flags, q, a, i) =>
    match records data queryRest q.toNat i with
    | none => none
    | some (.error e) => some (.error e)
    | some (.ok (queries, i)) =>
      match records data answerRest a.toNat i with
      | none => none
      | some (.error e) => some (.error e)
      | some (.ok (answers, _)) => some (.ok ⟨id, flags, queries, answers⟩)

end Verif.Dns
