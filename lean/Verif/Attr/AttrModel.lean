/-!
# Attribute objects

`src/header/pthread/attr.rs`, the attributes of mutexes, condition variables, read-write locks and barriers, and
`src/header/spawn/spawn_attr.rs`, as records. A setter returns its error number and the object. Null pointers are not given.
-/

namespace Verif.Attr

def EINVAL : Int32 := 22
def ENOTSUP : Int32 := 95

/-! ## Threads -/

/-- `RlctAttr` (`src/header/pthread/mod.rs:28-39`) on a 64-bit target; `param` is `sched_priority`. -/
structure ThreadAttr where
  detachstate : UInt8
  inheritsched : UInt8
  schedpolicy : UInt8
  scope : UInt8
  guardsize : UInt64
  stacksize : UInt64
  stack : UInt64
  param : Int32
deriving DecidableEq

/-- `pthread_attr_init` (`src/header/pthread/attr.rs:256-259`; the defaults are at `src/header/pthread/attr.rs:20-45`). -/
def attrInit (pagesize : UInt64) : ThreadAttr := ⟨1, 1, 1, 1, pagesize, 1048576, 0, 0⟩

/-- `pthread_attr_setdetachstate` (`src/header/pthread/attr.rs:271-288`). -/
def setDetachstate (a : ThreadAttr) (v : Int32) : Int32 × ThreadAttr :=
  if v = 0 ∨ v = 1 then (0, { a with detachstate := v.toUInt32.toUInt8 }) else (EINVAL, a)

/-- `pthread_attr_setguardsize` (`src/header/pthread/attr.rs:303-311`): the parameter is a `c_int`. -/
def setGuardsize (a : ThreadAttr) (v : Int32) : Int32 × ThreadAttr :=
  (0, { a with guardsize := v.toInt64.toUInt64 })

/-- `pthread_attr_setinheritsched` (`src/header/pthread/attr.rs:323-340`). -/
def setInheritsched (a : ThreadAttr) (v : Int32) : Int32 × ThreadAttr :=
  if v = 1 ∨ v = 0 then (0, { a with inheritsched := v.toUInt32.toUInt8 }) else (ENOTSUP, a)

/-- `pthread_attr_setschedparam` (`src/header/pthread/attr.rs:355-363`). -/
def setSchedparam (a : ThreadAttr) (v : Int32) : Int32 × ThreadAttr := (0, { a with param := v })

/-- `pthread_attr_setschedpolicy` (`src/header/pthread/attr.rs:375-392`); `SCHED_FIFO`, `SCHED_RR` and `SCHED_OTHER` are 0, 1 and 2
(`src/header/sched/mod.rs:29-37`). -/
def setSchedpolicy (a : ThreadAttr) (v : Int32) : Int32 × ThreadAttr :=
  if v = 0 ∨ v = 2 ∨ v = 1 then (0, { a with schedpolicy := v.toUInt32.toUInt8 }) else (ENOTSUP, a)

/-- `pthread_attr_setscope` (`src/header/pthread/attr.rs:404-421`). -/
def setScope (a : ThreadAttr) (v : Int32) : Int32 × ThreadAttr :=
  if v = 1 ∨ v = 0 then (0, { a with scope := v.toUInt32.toUInt8 }) else (ENOTSUP, a)

/-- `pthread_attr_setstack` (`src/header/pthread/attr.rs:434-450`); `PTHREAD_STACK_MIN` is 65536 (`src/header/limits/mod.rs:171`). -/
def setStack (a : ThreadAttr) (addr size : UInt64) : Int32 × ThreadAttr :=
  if size.toInt64 ≥ 65536 then (0, { a with stack := addr, stacksize := size }) else (EINVAL, a)

/-- `pthread_attr_setstacksize` (`src/header/pthread/attr.rs:462-474`). -/
def setStacksize (a : ThreadAttr) (size : UInt64) : Int32 × ThreadAttr :=
  if size.toInt64 ≥ 65536 then (0, { a with stacksize := size }) else (EINVAL, a)

/-- `pthread_attr_getdetachstate` (`src/header/pthread/attr.rs:80-86`). -/
def getDetachstate (a : ThreadAttr) : Int32 := a.detachstate.toUInt32.toInt32

/-- `pthread_attr_getguardsize` (`src/header/pthread/attr.rs:102-108`). -/
def getGuardsize (a : ThreadAttr) : UInt64 := a.guardsize

/-- `pthread_attr_getinheritsched` (`src/header/pthread/attr.rs:124-130`). -/
def getInheritsched (a : ThreadAttr) : Int32 := a.inheritsched.toUInt32.toInt32

/-- `pthread_attr_getschedparam` (`src/header/pthread/attr.rs:146-152`). -/
def getSchedparam (a : ThreadAttr) : Int32 := a.param

/-- `pthread_attr_getschedpolicy` (`src/header/pthread/attr.rs:168-174`). -/
def getSchedpolicy (a : ThreadAttr) : Int32 := a.schedpolicy.toUInt32.toInt32

/-- `pthread_attr_getscope` (`src/header/pthread/attr.rs:190-196`). -/
def getScope (a : ThreadAttr) : Int32 := a.scope.toUInt32.toInt32

/-- `pthread_attr_getstack` (`src/header/pthread/attr.rs:213-221`): address and size. -/
def getStack (a : ThreadAttr) : UInt64 × UInt64 := (a.stack, a.stacksize)

/-- `pthread_attr_getstacksize` (`src/header/pthread/attr.rs:237-243`). -/
def getStacksize (a : ThreadAttr) : UInt64 := a.stacksize

/-! ## Mutexes -/

/-- `RlctMutexAttr` (`src/header/pthread/mutex.rs:219-225`). -/
structure MutexAttr where
  prioceiling : Int32
  protocol : Int32
  pshared : Int32
  robust : Int32
  ty : Int32
deriving DecidableEq

/-- `RlctMutexAttr::default_const` (`src/header/pthread/mutex.rs:228-237`). -/
def mutexInit : MutexAttr := ⟨0, 0, 1, 1, 0⟩

/-- The attributes of a mutex. -/
inductive MutexField where
  | prioceiling
  | protocol
  | pshared
  | robust
  | type
deriving DecidableEq

/-- `pthread_mutexattr_setprioceiling`, `…setprotocol`, `…setpshared`, `…setrobust` and `…settype`
(`src/header/pthread/mutex.rs:170-215`). -/
def mutexSet (a : MutexAttr) (f : MutexField) (v : Int32) : Int32 × MutexAttr :=
  match f with
  | .prioceiling => (0, { a with prioceiling := v })
  | .protocol => (0, { a with protocol := v })
  | .pshared => (0, { a with pshared := v })
  | .robust => (0, { a with robust := v })
  | .type => (0, { a with ty := v })

/-- The getters (`src/header/pthread/mutex.rs:111-160`). -/
def mutexGet (a : MutexAttr) (f : MutexField) : Int32 :=
  match f with
  | .prioceiling => a.prioceiling
  | .protocol => a.protocol
  | .pshared => a.pshared
  | .robust => a.robust
  | .type => a.ty

/-- Types of mutexes (`src/sync/pthread_mutex.rs`, `Ty`). -/
inductive Ty where
  | def
  | errck
  | recursive
  | normal
deriving DecidableEq

/-- `RlctMutex::new` (`src/sync/pthread_mutex.rs:35-60`): type and robustness of the mutex that `pthread_mutex_init` makes, or its
error number. -/
def mutexNew (a : MutexAttr) : Except Int32 (Ty × Bool) := do
  let robust ← if a.robust = 1 then pure false else if a.robust = 0 then pure true else .error EINVAL
  let ty ← if a.ty = 0 then pure Ty.def else if a.ty = 1 then pure .errck else if a.ty = 3 then pure .recursive
    else if a.ty = 2 then pure .normal else .error EINVAL
  pure (ty, robust)

/-! ## Condition variables, read-write locks, barriers -/

/-- `CondAttr` (`src/sync/cond.rs:16-19`). -/
structure CondAttr where
  clock : Int32
  pshared : Int32
deriving DecidableEq

/-- `pthread_condattr_init` (`src/sync/cond.rs:21-29`, `src/header/pthread/cond.rs:274-277`); `CLOCK_REALTIME` is a parameter. -/
def condInit (realtime : Int32) : CondAttr := ⟨realtime, 1⟩

/-- `pthread_condattr_setclock` (`src/header/pthread/cond.rs:291-298`): `(*attr).clock = …` assigns to a copy, because the place is
read by a block expression. -/
def condSetclock (a : CondAttr) (_v : Int32) : Int32 × CondAttr := (0, a)

/-- `pthread_condattr_setpshared` (`src/header/pthread/cond.rs:311-322`): as before, assigns to a copy. -/
def condSetpshared (a : CondAttr) (v : Int32) : Int32 × CondAttr := if v = 0 ∨ v = 1 then (0, a) else (EINVAL, a)

/-- `pthread_condattr_getclock` (`src/header/pthread/cond.rs:229-235`). -/
def condGetclock (a : CondAttr) : Int32 := a.clock

/-- `pthread_condattr_getpshared` (`src/header/pthread/cond.rs:252-258`). -/
def condGetpshared (a : CondAttr) : Int32 := a.pshared

/-- `pthread_rwlockattr_setpshared` (`src/header/pthread/rwlock.rs:135-145`): assigns to a copy. The object is its `pshared`. -/
def rwlockSetpshared (a : Int32) (v : Int32) : Int32 × Int32 := if v = 1 ∨ v = 0 then (0, a) else (EINVAL, a)

/-- `pthread_barrierattr_setpshared` (`src/header/pthread/barrier.rs:140-148`). The object is its `pshared`. -/
def barrierSetpshared (_a : Int32) (v : Int32) : Int32 × Int32 := (0, v)

/-! ## `posix_spawn` -/

/-- `posix_spawnattr_t` (`src/header/spawn/spawn_attr.rs:40-47`). -/
structure SpawnAttr where
  param : Int32
  flags : Int16
  pgroup : Int32
  policy : Int32
  sigdefault : UInt64
  sigmask : UInt64
deriving DecidableEq

/-- `posix_spawnattr_init` (`src/header/spawn/spawn_attr.rs:59-65`). -/
def spawnInit : SpawnAttr := ⟨0, 0, 0, 0, 0, 0⟩

/-- `posix_spawnattr_setschedparam` (`src/header/spawn/spawn_attr.rs:102-111`). -/
def spawnSetschedparam (a : SpawnAttr) (v : Int32) : Int32 × SpawnAttr := (0, { a with param := v })

/-- `posix_spawnattr_setschedpolicy` (`src/header/spawn/spawn_attr.rs:152-163`). -/
def spawnSetschedpolicy (a : SpawnAttr) (v : Int32) : Int32 × SpawnAttr :=
  if v = 0 ∨ v = 1 ∨ v = 2 then (0, { a with policy := v }) else (EINVAL, a)

/-- `posix_spawnattr_setsigdefault` (`src/header/spawn/spawn_attr.rs:203-211`). -/
def spawnSetsigdefault (a : SpawnAttr) (v : UInt64) : Int32 × SpawnAttr := (0, { a with sigdefault := v })

/-- `posix_spawnattr_setsigmask` (`src/header/spawn/spawn_attr.rs:251-259`). -/
def spawnSetsigmask (a : SpawnAttr) (v : UInt64) : Int32 × SpawnAttr := (0, { a with sigmask := v })

/-- `posix_spawnattr_setflags` (`src/header/spawn/spawn_attr.rs:299-312`): `from_bits` gives something if no bit is set that no flag
has. The flags are 1, 2, 3, 4, 5, 6 and 7 (`src/header/spawn/spawn_attr.rs:17-36`). -/
def spawnSetflags (a : SpawnAttr) (v : Int16) : Int32 × SpawnAttr :=
  if v &&& ~~~(1 ||| 2 ||| 3 ||| 4 ||| 5 ||| 6 ||| 7) = 0 then (0, { a with flags := v }) else (EINVAL, a)

/-- `posix_spawnattr_setpgroup` (`src/header/spawn/spawn_attr.rs:353-360`). -/
def spawnSetpgroup (a : SpawnAttr) (v : Int32) : Int32 × SpawnAttr := (0, { a with pgroup := v })

end Verif.Attr
