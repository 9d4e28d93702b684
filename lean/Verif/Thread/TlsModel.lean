/-!
# Model of thread-specific data (`src/header/pthread/tls.rs`)

Each operation is one step: the key table is protected by a lock and the value table is thread-local, so
operations of different threads interleave only as wholes. `T` are threads, pointers are natural numbers with
NULL = 0. `NEXTKEY` (64 bits) is a natural number here: the model does not cover 2^64 key creations. The debug
assertion in `pthread_getspecific` is not modelled.
-/

namespace Verif.Thread.Tls

/-- `D` is the type of destructor functions. -/
structure State (T D : Type) where
  /-- `KEYS`, in ascending key order (a `BTreeMap`; new keys are larger than all earlier ones) -/
  keys : List (Nat × Option D)
  /-- `NEXTKEY`, starts at 1 -/
  next : Nat
  /-- `VALUES` of each thread; `none` = no record -/
  values : T → Nat → Option Nat

/-- `src/header/pthread/tls.rs:27-30`: empty tables, `NEXTKEY = 1`. -/
def State.init {T D : Type} : State T D := ⟨[], 1, fun _ _ => none⟩

def EINVAL : Nat := 22

/-- `KEYS.lock().contains_key(&key)`. -/
def hasKey {T D : Type} (s : State T D) (k : Nat) : Bool := s.keys.any (fun e => e.1 == k)

/-- `pthread_getspecific` (`src/header/pthread/tls.rs:34-46`). -/
def getspecific {T D : Type} (s : State T D) (t : T) (k : Nat) : Nat := (s.values t k).getD 0

/-- Write one record of one thread. -/
def setRecord {T D : Type} [DecidableEq T] (s : State T D) (t : T) (k : Nat) (v : Option Nat) : State T D :=
  { s with values := fun t' k' => if t' = t ∧ k' = k then v else s.values t' k' }

/-- `pthread_setspecific` (`src/header/pthread/tls.rs:50-66`). -/
def setspecific {T D : Type} [DecidableEq T] (s : State T D) (t : T) (k : Nat) (v : Nat) : State T D × Nat :=
  if hasKey s k then (setRecord s t k (some v), 0) else (s, EINVAL)

/-- `pthread_key_create` (`src/header/pthread/tls.rs:70-84`); returns the key. -/
def keyCreate {T D : Type} (s : State T D) (d : Option D) : State T D × Nat :=
  ({ s with keys := s.keys ++ [(s.next, d)], next := s.next + 1 }, s.next)

/-- `pthread_key_delete` (`src/header/pthread/tls.rs:88-99`); only the calling thread's record is removed. -/
def keyDelete {T D : Type} [DecidableEq T] (s : State T D) (t : T) (k : Nat) : State T D × Nat :=
  if hasKey s k then
    (setRecord { s with keys := s.keys.filter (fun e => e.1 != k) } t k none, 0)
  else (s, EINVAL)

/-! ## Destructors at thread exit -/

/-- One destructor call: key, destructor, argument, and the state it is called in. -/
structure Call (T D : Type) where
  key : Nat
  dtor : D
  arg : Nat
  state : State T D

/-- Body of the inner loop for one `(key, dtor)` (`src/header/pthread/tls.rs:113-125`). `eff` is what the destructor
does: any change of the tables. -/
def visit {T D : Type} [DecidableEq T] (eff : D → Nat → State T D → State T D) (t : T)
    (acc : State T D × List (Call T D)) (e : Nat × D) : State T D × List (Call T D) :=
  match acc.1.values t e.1 with
  | none => acc
  | some v =>
    if v = 0 then acc
    else
      let s' := setRecord acc.1 t e.1 (some 0)
      (eff e.2 v s', acc.2 ++ [⟨e.1, e.2, v, s'⟩])

/-- `dtors`: the keys with a destructor (`src/header/pthread/tls.rs:104-109`). -/
def snapshot {T D : Type} (s : State T D) : List (Nat × D) :=
  s.keys.filterMap (fun e => e.2.map (fun d => (e.1, d)))

/-- One pass (`src/header/pthread/tls.rs:103-125`). -/
def pass {T D : Type} [DecidableEq T] (eff : D → Nat → State T D → State T D) (t : T) (s : State T D) :
    State T D × List (Call T D) :=
  (snapshot s).foldl (visit eff t) (s, [])

/-- `run_all_destructors` (`src/header/pthread/tls.rs:101-138`) with `n` passes left; the calls of each pass. A pass
without a call ends the loop. -/
def runPasses {T D : Type} [DecidableEq T] (eff : D → Nat → State T D → State T D) (t : T) :
    Nat → State T D → State T D × List (List (Call T D))
  | 0, s => (s, [])
  | n + 1, s =>
    let r := pass eff t s
    if r.2.isEmpty then (r.1, [r.2])
    else
      let r' := runPasses eff t n r.1
      (r'.1, r.2 :: r'.2)

/-- `PTHREAD_DESTRUCTOR_ITERATIONS` (`src/header/bits_limits_ptdi/mod.rs:8-12`). -/
def ITERATIONS : Nat := 4

def runAll {T D : Type} [DecidableEq T] (eff : D → Nat → State T D → State T D) (t : T) (s : State T D) :
    State T D × List (List (Call T D)) := runPasses eff t ITERATIONS s

end Verif.Thread.Tls
