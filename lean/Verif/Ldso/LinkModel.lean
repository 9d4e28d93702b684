/-!
# The dynamic linker: loading, scopes, unloading

`src/ld_so/linker.rs`, `src/ld_so/dso.rs`, `src/header/dlfcn/mod.rs`.

* An object (`Arc<DSO>`) is known by its `id`; ids are never used twice. Reference counts are counted when they are looked at:
  the references from the table of objects, from open handles, from local scopes and from calls under way.
* Finding a file, reading it and parsing it (`search_object`, `read_file`, `DSO::new`) is an argument: what file a name leads
  to. That the run path of the dependent object is searched too is left out here; see `searchObject`.
* Relocation, which comes between loading and initialisation, is left out, as are the tables for debuggers.
* The recursion of `load_objects_recursive` and `unload` has a depth as argument: the calls the stack has room for.
  `none` = the stack overflows, or a panic.
-/

namespace Verif.Ldso

abbrev Name := String

/-- What the linker reads from a file: `DT_SONAME`, or the last part of the path if there is none; `DT_NEEDED`; `p_memsz` of
`PT_TLS`. -/
structure File where
  name : Name
  needed : List Name
  tls : Option Nat
deriving DecidableEq

/-- The files, and `p_memsz` of the `PT_TLS` of libc. -/
structure Env where
  file : Name → Option File
  libcTls : Nat

/-- `ScopeKind` (`src/ld_so/linker.rs:177-181`). -/
inductive Kind where
  | global
  | loc
deriving DecidableEq

/-- `DlError` (`src/ld_so/linker.rs:38-55`). -/
inductive DlError where
  | notFound
  | malformed
  | invalidHandle
  | oom
deriving DecidableEq

/-- `DSO` (`src/ld_so/dso.rs:360-382`). `scope`: the objects of the local scope without the owner. `bound` is not in the code:
the objects the entries of `DT_NEEDED` were found to be. -/
structure Obj where
  id : Nat
  name : Name
  needed : List Name
  dlopened : Bool
  me : Bool
  tlsModule : Nat
  tlsOffset : Nat
  scope : List Nat
  bound : List Nat
deriving DecidableEq

/-- `Master` (`src/ld_so/tcb.rs:23-31`), without the image. -/
structure Master where
  size : Nat
  offset : Nat
deriving DecidableEq

/-- A constructor or destructor call. -/
inductive Event where
  | init (id : Nat)
  | fini (id : Nat)
deriving DecidableEq

/-- `Linker` (`src/ld_so/linker.rs:384-395`) and `GLOBAL_SCOPE`; the handles `dlopen` has given out. `news`, `masters`: the
variables `new_objects`, `tcb_masters` of `load_object`. -/
structure St where
  nextId : Nat := 1
  nextTls : Nat := 1
  tlsSize : Nat := 0
  objects : Nat → Option Obj := fun _ => none
  names : Name → Option Nat := fun _ => none
  global : List Nat := []
  handles : List Nat := []
  news : List Obj := []
  masters : List Master := []
  log : List Event := []

/-- `Scope::add` (`src/ld_so/linker.rs:216-239`). -/
def addTo (objs : List Nat) (id : Nat) : List Nat := if id ∈ objs then objs else objs ++ [id]

/-- The object goes into the scope of the dependent object or into the global scope
(`src/ld_so/linker.rs:782-790,794-802,830-838,880-887`). -/
def enter (k : Kind) (dep : Option (List Nat)) (id : Nat) (st : St) : Option (List Nat) × St :=
  match dep, k with
  | some s, .loc => (some (addTo s id), st)
  | some s, .global => (some s, { st with global := addTo st.global id })
  | none, .global => (none, { st with global := addTo st.global id })
  | none, .loc => (none, st)

/-- The object of a name that is loaded already (`src/ld_so/linker.rs:779-804`). -/
def known (st : St) (n : Name) : Option Obj :=
  match st.names n with
  | some id => st.objects id
  | none => st.news.find? (·.name = n)

/-- `usize::next_multiple_of(16)`. -/
def align16 (n : Nat) : Nat := (n + 15) / 16 * 16

/-- `DSO::from_raw` and its use (`src/ld_so/dso.rs:385-426`, `src/ld_so/linker.rs:808-846`). -/
def loadLibc (e : Env) (k : Kind) (dep : Option (List Nat)) (st : St) : (Obj × Option (List Nat)) × St :=
  let m : Master := ⟨e.libcTls, align16 st.tlsSize + e.libcTls⟩
  let o : Obj := { id := st.nextId, name := "libc.so.6", needed := [], dlopened := false, me := true,
                   tlsModule := st.nextTls, tlsOffset := m.offset, scope := [], bound := [] }
  let st := { st with tlsSize := m.offset, nextTls := st.nextTls + 1, nextId := st.nextId + 1,
                      masters := st.masters ++ [m], news := st.news ++ [o] }
  let (dep, st) := enter k dep o.id st
  ((o, dep), st)

/-- `DSO::new` and the numbers given to the object (`src/ld_so/dso.rs:428-479`, `src/ld_so/linker.rs:848-888`). -/
def create (dl : Bool) (f : File) (st : St) : Obj × St :=
  match f.tls with
  | some size =>
    let m : Master := ⟨size, align16 st.tlsSize + size⟩
    ({ id := st.nextId, name := f.name, needed := f.needed, dlopened := dl, me := false,
       tlsModule := st.nextTls, tlsOffset := m.offset, scope := [], bound := [] },
     { st with nextId := st.nextId + 1, tlsSize := if dl then st.tlsSize else m.offset,
               masters := st.masters ++ [m], nextTls := st.nextTls + 1 })
  | none =>
    ({ id := st.nextId, name := f.name, needed := f.needed, dlopened := dl, me := false,
       tlsModule := 0, tlsOffset := 0, scope := [], bound := [] },
     { st with nextId := st.nextId + 1 })

/-- What a step of loading gives: an error, or a value; and the state. -/
abbrev Res (α : Type) := Option (Except DlError α × St)

/-- The loop over the dependencies (`src/ld_so/linker.rs:906-918`): the local scope and the objects found. -/
def loadDeps (rec : Name → Option (List Nat) → St → Res (Obj × Option (List Nat))) :
    List Name → List Nat → List Nat → St → Res (List Nat × List Nat)
  | [], scope, bound, st => some (.ok (scope, bound), st)
  | d :: ds, scope, bound, st =>
    match rec d (some scope) st with
    | none => none
    | some (.error x, st) => some (.error x, st)
    | some (.ok (o, dep), st) => loadDeps rec ds (dep.getD scope) (bound ++ [o.id]) st

/-- `Linker::load_objects_recursive` (`src/ld_so/linker.rs:764-927`). -/
def loadRec (e : Env) (dl : Bool) (k : Kind) :
    Nat → Name → Option (List Nat) → St → Res (Obj × Option (List Nat))
  | 0, _, _, _ => none
  | depth + 1, n, dep, st =>
    match known st n with
    | some o =>
      let (dep, st) := enter k dep o.id st
      some (.ok (o, dep), st)
    | none =>
      if n = "libc.so.6" ∨ n = "libc.so" then
        let (r, st) := loadLibc e k dep st
        some (.ok r, st)
      else
        match e.file n with
        | none => some (.error .notFound, st)
        | some f =>
          let (o, st) := create dl f st
          let (dep, st) := enter k dep o.id st
          match loadDeps (loadRec e dl k depth) f.needed [] [] st with
          | none => none
          | some (.error x, st) => some (.error x, st)
          | some (.ok (scope, bound), st) =>
            let o := { o with scope, bound }
            some (.ok (o, dep), { st with news := st.news ++ [o] })

/-- `Linker::register_object` (`src/ld_so/linker.rs:744-747`). -/
def register (st : St) (o : Obj) : St :=
  { st with names := fun n => if n = o.name then some o.id else st.names n,
            objects := fun i => if i = o.id then some o else st.objects i }

/-- `Linker::run_init` and `register_object` for the new objects in turn (`src/ld_so/linker.rs:729-736`). -/
def initAll (st : St) : List Obj → St
  | [] => st
  | o :: os => initAll (register { st with log := st.log ++ [.init o.id] } o) os

/-- `Linker::load_object` (`src/ld_so/linker.rs:587-742`). After an error the new objects are dropped; they are not ready, so no
destructors are called. The threads' lists of masters are in `TlsModel`. -/
def loadObject (e : Env) (depth : Nat) (n : Name) (dl : Bool) (k : Kind) (st : St) : Res Obj :=
  match loadRec e dl k depth n none { st with news := [], masters := [] } with
  | none => none
  | some (.error x, st) => some (.error x, { st with news := [], masters := [] })
  | some (.ok (o, _), st) => some (.ok o, initAll { st with news := [] } st.news)

/-- `Linker::load_program` (`src/ld_so/linker.rs:412-426`). -/
def loadProgram (e : Env) (depth : Nat) (path : Name) (st : St) : Res Obj :=
  loadObject e depth path false .global st

/-- `Scope::copy_into` (`src/ld_so/linker.rs:289-301`). -/
def copyInto (st : St) (o : Obj) : St := { st with global := st.global ++ o.id :: o.scope }

/-- `dlopen` (`src/header/dlfcn/mod.rs:91-136`), `Linker::load_library` (`src/ld_so/linker.rs:428-495`), with `LD_BIND_NOW`
unset. `now`: `RTLD_NOW`; together with `RTLD_NOLOAD` it panics. -/
def dlopen (e : Env) (depth : Nat) (name : Option Name) (k : Kind) (now noload : Bool) (st : St) : Res Nat :=
  if noload ∧ now then none
  else
    match name with
    | none =>
      match st.objects 1 with
      | some o => some (.ok o.id, { st with handles := o.id :: st.handles })
      | none => some (.error .notFound, st)
    | some n =>
      match st.names n with
      | some id =>
        match st.objects id with
        | none => none
        | some o =>
          let st := if k = .global then copyInto st o else st
          some (.ok o.id, { st with handles := o.id :: st.handles })
      | none =>
        if noload then some (.error .notFound, st)
        else
          match loadObject e depth n true k st with
          | none => none
          | some (.error x, st) => some (.error x, st)
          | some (.ok o, st) => some (.ok o.id, { st with handles := o.id :: st.handles })

/-- The objects in the table, in the order of a `BTreeMap`. -/
def live (st : St) : List Obj := (List.range st.nextId).filterMap st.objects

/-- `Arc::strong_count`, besides the reference of the argument of the call: the table, the handles, the scopes of the objects in
the table and of the objects under way (`stack`), and those objects themselves. -/
def strong (st : St) (stack : List Obj) (id : Nat) : Nat :=
  (if (st.objects id).isSome then 1 else 0) + st.handles.count id
    + ((live st ++ stack).map fun y => y.scope.count id).sum
    + (stack.map (·.id)).count id

/-- The dependencies are unloaded in turn (`src/ld_so/linker.rs:547-553`). -/
def unloadDeps (rec : Obj → St → Option St) : List Name → St → Option St
  | [], st => some st
  | d :: ds, st =>
    match (st.names d).bind st.objects with
    | some o =>
      match rec o st with
      | none => none
      | some st => unloadDeps rec ds st
    | none => unloadDeps rec ds st

/-- `Linker::unload` (`src/ld_so/linker.rs:520-560`) and `DSO::drop` (`src/ld_so/dso.rs:1296-1309`): every object in the table is
ready. `stack`: the objects of the calls this one is nested in. -/
def unload : Nat → List Obj → Obj → St → Option St
  | 0, _, _, _ => none
  | depth + 1, stack, o, st =>
    if o.dlopened = false then some st
    else if strong st stack o.id + 1 = 2 then
      let st := { st with global := st.global.filter (· ≠ o.id),
                          objects := fun i => if i = o.id then none else st.objects i }
      match unloadDeps (unload depth (o :: stack)) o.needed st with
      | none => none
      | some st =>
        let st := { st with names := fun n => if n = o.name then none else st.names n }
        if strong st stack o.id = 0 then
          some { st with log := if o.me then st.log else st.log ++ [.fini o.id] }
        else none
    else some st

/-- `dlclose` (`src/header/dlfcn/mod.rs:176-196`) of a handle `dlopen` has given out. -/
def dlclose (depth : Nat) (id : Nat) (st : St) : Option St :=
  match st.objects id with
  | some o => unload depth [] o { st with handles := st.handles.erase id }
  | none => none

/-- `Linker::fini` (`src/ld_so/linker.rs:562-568`). -/
def finiAll (st : St) : St := { st with log := st.log ++ (live st).map fun o => .fini o.id }

/-- `SymbolBinding` (`src/ld_so/dso.rs:320-330`). -/
inductive Binding where
  | global
  | weak
deriving DecidableEq

/-- The definitions: of a name in an object, binding and address (`DSO::get_sym`, `src/ld_so/dso.rs:507-535`). -/
abbrev Defs := Nat → Name → Option (Binding × Nat)

/-- `Scope::_get_sym` (`src/ld_so/linker.rs:248-287`): the search with the value of `res` so far. -/
def searchFrom (d : Defs) (n : Name) : List Nat → Option (Nat × Nat) → Option (Nat × Nat)
  | [], res => res
  | o :: os, res =>
    match d o n with
    | some (.global, a) => some (o, a)
    | some (.weak, a) => searchFrom d n os (some (o, a))
    | none => searchFrom d n os res

/-- The objects of a local scope, the owner first (`src/ld_so/linker.rs:274-284`). -/
def localScope (o : Obj) : List Nat := o.id :: o.scope

/-- `Scope::get_sym` of the global scope: a panic if an object on the way is gone (`src/ld_so/linker.rs:268-273`). The objects
`dead` are those neither in the table nor being loaded. -/
def searchGlobal (d : Defs) (alive : Nat → Bool) (n : Name) : List Nat → Option (Nat × Nat) → Option (Option (Nat × Nat))
  | [], res => some res
  | o :: os, res =>
    if alive o = false then none
    else
      match d o n with
      | some (.global, a) => some (some (o, a))
      | some (.weak, a) => searchGlobal d alive n os (some (o, a))
      | none => searchGlobal d alive n os res

/-- `dlsym` (`src/header/dlfcn/mod.rs:140-172`), `Linker::get_sym` (`src/ld_so/linker.rs:497-518`) of a symbol that is not
thread-local. No handle: `RTLD_DEFAULT`. -/
def dlsym (d : Defs) (st : St) (handle : Option Nat) (n : Name) : Option (Option (Nat × Nat)) :=
  match handle with
  | none => searchGlobal d (fun i => (st.objects i).isSome) n st.global none
  | some id =>
    match st.objects id with
    | some o => some (searchFrom d n (localScope o) none)
    | none => none

/-- `resolve_sym` for a reference in the object `o` (`src/ld_so/dso.rs:1325-1330,1062-1072`,
`src/ld_so/linker.rs:1040-1043`). -/
def resolve (d : Defs) (st : St) (o : Obj) (n : Name) : Option (Option (Nat × Nat)) :=
  match searchGlobal d (fun i => (st.objects i).isSome || (st.news.any (·.id = i))) n st.global none with
  | none => none
  | some (some r) => some (some r)
  | some none => some (searchFrom d n (localScope o) none)

end Verif.Ldso
