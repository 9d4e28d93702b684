import Verif.Attr.AttrModel

/-!
# C101: attribute objects

After any sequence of calls each getter of an attribute object gives the value of the last accepted call of its setter, or the
default; the setters refuse the values that the interface does not define, and a refused call changes nothing.
-/

namespace Verif.Attr

/-! ## Specification -/

namespace Spec

/-- Attributes of a thread. -/
inductive Field where
  | detachstate
  | guardsize
  | inheritsched
  | priority
  | policy
  | scope
  | stackaddr
  | stacksize

/-- Calls of the setters of `<pthread.h>`. -/
inductive Call where
  | detachstate (v : Int32)
  | guardsize (v : UInt64)
  | inheritsched (v : Int32)
  | schedparam (v : Int32)
  | schedpolicy (v : Int32)
  | scope (v : Int32)
  | stack (addr size : UInt64)
  | stacksize (size : UInt64)

/-- The smallest and, exclusively, the largest stack. -/
def stackOk (n : UInt64) : Bool := 65536 ≤ n.toNat ∧ n.toNat < 2 ^ 63

/-- What a call returns: 0 if the value is one the interface defines. -/
def code : Call → Int32
  | .detachstate v => if v = 0 ∨ v = 1 then 0 else 22
  | .guardsize _ => 0
  | .inheritsched v => if v = 0 ∨ v = 1 then 0 else 95
  | .schedparam _ => 0
  | .schedpolicy v => if v = 0 ∨ v = 1 ∨ v = 2 then 0 else 95
  | .scope v => if v = 0 ∨ v = 1 then 0 else 95
  | .stack _ n => if stackOk n then 0 else 22
  | .stacksize n => if stackOk n then 0 else 22

/-- The value that a call gives to an attribute. -/
def sets : Field → Call → Option Int
  | .detachstate, .detachstate v => some v.toInt
  | .guardsize, .guardsize v => some v.toNat
  | .inheritsched, .inheritsched v => some v.toInt
  | .priority, .schedparam v => some v.toInt
  | .policy, .schedpolicy v => some v.toInt
  | .scope, .scope v => some v.toInt
  | .stackaddr, .stack a _ => some a.toNat
  | .stacksize, .stack _ n => some n.toNat
  | .stacksize, .stacksize n => some n.toNat
  | _, _ => none

/-- The defaults: joinable, a page, inherited, 0, `SCHED_RR`, the whole system, no address, 1 MiB. -/
def default (page : UInt64) : Field → Int
  | .detachstate => 1
  | .guardsize => page.toNat
  | .inheritsched => 1
  | .priority => 0
  | .policy => 1
  | .scope => 1
  | .stackaddr => 0
  | .stacksize => 1048576

/-- The value of the last call in the list that `val` says sets it, or else `d`. -/
def last (val : γ → Option Int) (d : Int) (calls : List γ) : Int := (calls.reverse.findSome? val).getD d

end Spec

open Spec (Field Call)

/-- A call on the model; a `size_t` given for the `int` of `pthread_attr_setguardsize` is converted by the caller. -/
def call (a : ThreadAttr) : Call → Int32 × ThreadAttr
  | .detachstate v => setDetachstate a v
  | .guardsize v => setGuardsize a v.toUInt32.toInt32
  | .inheritsched v => setInheritsched a v
  | .schedparam v => setSchedparam a v
  | .schedpolicy v => setSchedpolicy a v
  | .scope v => setScope a v
  | .stack p n => setStack a p n
  | .stacksize n => setStacksize a n

/-- What the getter of an attribute gives. -/
def read (a : ThreadAttr) : Field → Int
  | .detachstate => (getDetachstate a).toInt
  | .guardsize => (getGuardsize a).toNat
  | .inheritsched => (getInheritsched a).toInt
  | .priority => (getSchedparam a).toInt
  | .policy => (getSchedpolicy a).toInt
  | .scope => (getScope a).toInt
  | .stackaddr => (getStack a).1.toNat
  | .stacksize => (getStacksize a).toNat

/-- Calls one after the other: what each returns, and the object afterwards. -/
def runCalls (f : α → γ → Int32 × α) (a : α) : List γ → List Int32 × α
  | [] => ([], a)
  | c :: cs => let r := runCalls f (f a c).2 cs; ((f a c).1 :: r.1, r.2)

/-! ## Lemmas -/

theorem last_cons (val : γ → Option Int) (d : Int) (c : γ) (cs : List γ) :
    Spec.last val d (c :: cs) = Spec.last val ((val c).getD d) cs := by
  simp only [Spec.last, List.reverse_cons, List.findSome?_append]
  cases List.findSome? val cs.reverse with
  | some x => rfl
  | none => cases h : val c <;> simp [List.findSome?, h]

/-- A sequence of calls, given what each does. -/
theorem runCalls_spec (f : α → γ → Int32 × α) (rd : α → Int) (cd : γ → Int32) (val : γ → Option Int) (P : γ → Prop)
    (hc : ∀ a c, P c → (f a c).1 = cd c) (hv : ∀ a c, P c → rd (f a c).2 = (val c).getD (rd a)) :
    ∀ (cs : List γ) (a : α), (∀ c ∈ cs, P c) →
      (runCalls f a cs).1 = cs.map cd ∧ rd (runCalls f a cs).2 = Spec.last val (rd a) cs
  | [], a, _ => ⟨rfl, rfl⟩
  | c :: cs, a, h => by
    have ih := runCalls_spec f rd cd val P hc hv cs (f a c).2 (fun x hx => h x (List.mem_cons_of_mem _ hx))
    have h0 := h c (List.mem_cons_self)
    exact ⟨by simp only [runCalls, List.map_cons, ih.1, hc a c h0], by
      rw [last_cons, ← hv a c h0]; exact ih.2⟩

theorem stackOk_iff (n : UInt64) : n.toInt64 ≥ 65536 ↔ Spec.stackOk n = true := by
  have h := n.toNat_lt
  have e : n.toInt64.toInt = (n.toNat : Int).bmod (2 ^ 64) := by
    simp only [Int64.toInt, UInt64.toInt64, BitVec.toInt_eq_toNat_bmod]; rfl
  have k : n.toInt64 ≥ 65536 ↔ (65536 : Int) ≤ n.toInt64.toInt := by
    rw [ge_iff_le, Int64.le_iff_toInt_le]; exact Iff.rfl
  rw [k, e, Spec.stackOk, decide_eq_true_eq]
  rw [Int.bmod_def]
  split <;> omega

theorem guard_small (v : UInt64) (h : v.toNat < 2 ^ 31) : (v.toUInt32.toInt32).toInt64.toUInt64 = v := by
  apply UInt64.toBitVec_inj.1
  have e : v.toUInt32.toInt32.toInt64.toUInt64.toBitVec = (v.toBitVec.setWidth 32).signExtend 64 := rfl
  rw [e]
  have l : (v.toBitVec.setWidth 32).msb = false := by
    rw [BitVec.msb_eq_decide]
    simp only [BitVec.toNat_setWidth, UInt64.toNat_toBitVec, decide_eq_false_iff_not]
    omega
  rw [BitVec.signExtend_eq_setWidth_of_msb_false l]
  apply BitVec.eq_of_toNat_eq
  simp only [BitVec.toNat_setWidth, UInt64.toNat_toBitVec]
  omega

/-! ## Threads -/

/-- The value a call sets, if it is accepted. -/
def Spec.accepted (f : Field) (c : Call) : Option Int := if Spec.code c = 0 then Spec.sets f c else none

/-- **C101** for threads, for guard sizes below 2^31: every call returns what is specified, and afterwards the getter of every
attribute gives the value of the last accepted call that set it, or the default. -/
theorem C101_thread_partial (page : UInt64) (calls : List Call)
    (hg : ∀ v, Call.guardsize v ∈ calls → v.toNat < 2 ^ 31) :
    (runCalls call (attrInit page) calls).1 = calls.map Spec.code ∧
    ∀ f, read (runCalls call (attrInit page) calls).2 f = Spec.last (Spec.accepted f) (Spec.default page f) calls := by
  let P : Call → Prop := fun c => ∀ v, c = .guardsize v → v.toNat < 2 ^ 31
  have hP : ∀ c ∈ calls, P c := fun c hc v e => hg v (e ▸ hc)
  have hcode : ∀ a c, P c → (call a c).1 = Spec.code c := by
    intro a c _
    cases c with
    | detachstate v => simp only [call, setDetachstate, Spec.code]; split <;> rfl
    | guardsize v => rfl
    | inheritsched v =>
      simp only [call, setInheritsched, Spec.code, Or.comm (a := v = 1)]; split <;> rfl
    | schedparam v => rfl
    | schedpolicy v =>
      simp only [call, setSchedpolicy, Spec.code, Or.comm (a := v = 2)]; split <;> rfl
    | scope v => simp only [call, setScope, Spec.code, Or.comm (a := v = 1)]; split <;> rfl
    | stack p n => simp only [call, setStack, Spec.code, stackOk_iff]; split <;> rfl
    | stacksize n => simp only [call, setStacksize, Spec.code, stackOk_iff]; split <;> rfl
  have hval : ∀ f a c, P c → read (call a c).2 f = (Spec.accepted f c).getD (read a f) := by
    intro f a c hc
    cases c with
    | detachstate v =>
      simp only [call, setDetachstate, Spec.accepted, Spec.code]
      split
      · rename_i h; rcases h with rfl | rfl <;> cases f <;> rfl
      · rfl
    | guardsize v =>
      cases f <;> first | rfl | skip
      simp only [call, setGuardsize, Spec.accepted, Spec.code, Spec.sets, read, getGuardsize, guard_small v (hc v rfl), if_true, Option.getD]
    | inheritsched v =>
      simp only [call, setInheritsched, Spec.accepted, Spec.code, Or.comm (a := v = 1)]
      split
      · rename_i h; rcases h with rfl | rfl <;> cases f <;> rfl
      · rfl
    | schedparam v => cases f <;> rfl
    | schedpolicy v =>
      simp only [call, setSchedpolicy, Spec.accepted, Spec.code, Or.comm (a := v = 2)]
      split
      · rename_i h; rcases h with rfl | rfl | rfl <;> cases f <;> rfl
      · rfl
    | scope v =>
      simp only [call, setScope, Spec.accepted, Spec.code, Or.comm (a := v = 1)]
      split
      · rename_i h; rcases h with rfl | rfl <;> cases f <;> rfl
      · rfl
    | stack p n =>
      simp only [call, setStack, Spec.accepted, Spec.code, stackOk_iff]
      split
      · cases f <;> rfl
      · rfl
    | stacksize n =>
      simp only [call, setStacksize, Spec.accepted, Spec.code, stackOk_iff]
      split
      · cases f <;> rfl
      · rfl
  refine ⟨(runCalls_spec call (fun _ => 0) Spec.code (fun _ => none) P hcode (fun _ _ _ => rfl) calls _ hP).1, fun f => ?_⟩
  have e : read (attrInit page) f = Spec.default page f := by cases f <;> rfl
  rw [← e]
  exact (runCalls_spec call (read · f) Spec.code (Spec.accepted f) P hcode (hval f) calls _ hP).2

/-- The two getters of the size agree. -/
theorem C101_stacksize (a : ThreadAttr) : (getStack a).2 = getStacksize a := rfl

/-- A guard of 2 GiB is accepted, and the attribute is then 2^64 − 2^31. -/
theorem C101_guardsize_violation : ∃ v : UInt64, v.toNat = 2 ^ 31 ∧
    (call (attrInit 4096) (.guardsize v)).1 = 0 ∧ read (call (attrInit 4096) (.guardsize v)).2 .guardsize = 2 ^ 64 - 2 ^ 31 :=
  ⟨2147483648, by decide +kernel⟩

example : let r := runCalls call (attrInit 4096) [.detachstate 0, .stacksize 100, .stack 4096 131072, .detachstate 7, .guardsize 8192]
    r.1 = [0, 22, 0, 22, 0] ∧ read r.2 .detachstate = 0 ∧ read r.2 .stacksize = 131072 ∧ read r.2 .guardsize = 8192 := by
  decide +kernel

/-! ## Mutexes -/

/-- The values that `<pthread.h>` of relibc defines: `PTHREAD_MUTEX_DEFAULT` to `…RECURSIVE`, `…ROBUST` and `…STALLED`,
`PTHREAD_PROCESS_SHARED` and `…PRIVATE`; the three protocols are all 0. -/
def Spec.mutexValid : MutexField → Int32 → Bool
  | .type, v => v = 0 ∨ v = 1 ∨ v = 2 ∨ v = 3
  | .robust, v => v = 0 ∨ v = 1
  | .pshared, v => v = 0 ∨ v = 1
  | .protocol, v => v = 0
  | .prioceiling, _ => true

/-- The defaults. -/
def Spec.mutexDefault : MutexField → Int
  | .type => 0
  | .robust => 1
  | .pshared => 1
  | .protocol => 0
  | .prioceiling => 0

/-- **C101** for mutexes: after any calls with defined values, all return 0 and each getter gives the last value set. -/
theorem C101_mutex_partial (calls : List (MutexField × Int32)) (_hv : ∀ c ∈ calls, Spec.mutexValid c.1 c.2 = true) :
    (runCalls (fun a c => mutexSet a c.1 c.2) mutexInit calls).1 = calls.map (fun _ => 0) ∧
    ∀ f, (mutexGet (runCalls (fun a c => mutexSet a c.1 c.2) mutexInit calls).2 f).toInt =
      Spec.last (fun c => if c.1 = f then some c.2.toInt else none) (Spec.mutexDefault f) calls := by
  have hc : ∀ (a : MutexAttr) (c : MutexField × Int32), True → (mutexSet a c.1 c.2).1 = 0 := by
    intro a c _; rcases c with ⟨f, v⟩; cases f <;> rfl
  refine ⟨(runCalls_spec _ (fun _ => 0) (fun _ => 0) (fun _ => none) (fun _ => True) hc (fun _ _ _ => rfl) calls _
    (fun _ _ => trivial)).1, fun f => ?_⟩
  have e : (mutexGet mutexInit f).toInt = Spec.mutexDefault f := by cases f <;> decide +kernel
  rw [← e]
  refine (runCalls_spec _ (fun a => (mutexGet a f).toInt) (fun _ => 0) _ (fun _ => True) hc ?_ calls _ (fun _ _ => trivial)).2
  intro a c _
  rcases c with ⟨g, v⟩
  cases g <;> cases f <;> rfl

/-- A mutex made from an attributes object has the type and robustness of the object. -/
theorem C101_mutex_init (a : MutexAttr) :
    (Spec.mutexValid .type a.ty = true → Spec.mutexValid .robust a.robust = true →
      ∃ t r, mutexNew a = .ok (t, r) ∧ (r = true ↔ mutexGet a .robust = 0) ∧
        (t = .def ↔ mutexGet a .type = 0) ∧ (t = .errck ↔ mutexGet a .type = 1) ∧
        (t = .normal ↔ mutexGet a .type = 2) ∧ (t = .recursive ↔ mutexGet a .type = 3)) ∧
    (Spec.mutexValid .type a.ty = false ∨ Spec.mutexValid .robust a.robust = false → mutexNew a = .error 22) := by
  rcases a with ⟨c, p, s, r, t⟩
  simp only [Spec.mutexValid, decide_eq_true_eq, decide_eq_false_iff_not]
  constructor
  · rintro (rfl | rfl | rfl | rfl) (rfl | rfl) <;> refine ⟨_, _, rfl, ?_⟩ <;> simp only [mutexGet] <;> decide +kernel
  · intro h
    simp only [mutexNew]
    by_cases r1 : r = 1
    · subst r1
      rcases h with h | h
      · simp only [not_or] at h
        simp only [if_true, if_neg h.1, if_neg h.2.1, if_neg h.2.2.1, if_neg h.2.2.2]; rfl
      · exact absurd (Or.inr rfl) h
    · by_cases r0 : r = 0
      · subst r0
        rcases h with h | h
        · simp only [not_or] at h
          simp only [if_neg r1, if_true, if_neg h.1, if_neg h.2.1, if_neg h.2.2.1, if_neg h.2.2.2]; rfl
        · exact absurd (Or.inl rfl) h
      · simp only [if_neg r1, if_neg r0]; rfl

/-- The setters of the type and the robustness accept values that are not defined. -/
theorem C101_mutex_violation : ∃ f v, Spec.mutexValid f v = false ∧ f = .type ∧ (mutexSet mutexInit f v).1 = 0 ∧
    mutexGet (mutexSet mutexInit f v).2 f = v := ⟨.type, 99, by decide +kernel⟩

example : let r := (runCalls (fun a c => mutexSet a c.1 c.2) mutexInit [(.type, 3), (.robust, 0)]).2
    mutexGet r .type = 3 ∧ mutexGet r .robust = 0 ∧ mutexGet r .pshared = 1 := by decide +kernel

/-! ## Condition variables, read-write locks, barriers -/

/-- The setters of condition variables and read-write locks refuse what is not defined and otherwise return 0, but no sequence of
calls changes what the getters give. -/
theorem C101_cond_violation (clk : Int32) :
    (∀ calls : List (Int32 ⊕ Int32),
      let r := runCalls (fun a c => match c with | .inl v => condSetclock a v | .inr v => condSetpshared a v) (condInit clk) calls
      condGetclock r.2 = clk ∧ condGetpshared r.2 = 1) ∧
    (∀ v, (condSetclock (condInit clk) v).1 = 0) ∧ (∀ a v, (condSetpshared a v).1 = if v = 0 ∨ v = 1 then 0 else 22) := by
  refine ⟨?_, fun _ => rfl, fun a v => by simp only [condSetpshared]; split <;> rfl⟩
  intro calls
  have h : ∀ (cs : List (Int32 ⊕ Int32)) (a : CondAttr),
      (runCalls (fun a c => match c with | .inl v => condSetclock a v | .inr v => condSetpshared a v) a cs).2 = a := by
    intro cs
    induction cs with
    | nil => intro a; rfl
    | cons c cs ih =>
      intro a
      simp only [runCalls, ih]
      cases c with
      | inl v => rfl
      | inr v => simp only [condSetpshared]; split <;> rfl
  simp only [h]
  exact ⟨rfl, rfl⟩

/-- As for condition variables. -/
theorem C101_rwlock_violation (a v : Int32) :
    (rwlockSetpshared a v).2 = a ∧ ((rwlockSetpshared a v).1 = if v = 0 ∨ v = 1 then 0 else 22) := by
  simp only [rwlockSetpshared, Or.comm (a := v = 1)]
  split <;> exact ⟨rfl, rfl⟩

/-- A barrier's attribute is the last value set; undefined ones are accepted. -/
theorem C101_barrier_partial (calls : List Int32) :
    (runCalls barrierSetpshared 1 calls).1 = calls.map (fun _ => 0) ∧
    (runCalls barrierSetpshared 1 calls).2.toInt = Spec.last (fun v : Int32 => some v.toInt) 1 calls :=
  runCalls_spec barrierSetpshared (·.toInt) (fun _ => 0) _ (fun _ => True) (fun _ _ _ => rfl) (fun _ _ _ => rfl) calls 1
    (fun _ _ => trivial)

/-! ## `posix_spawn` -/

/-- Calls of the setters of `<spawn.h>`. -/
inductive Spec.SpawnCall where
  | schedparam (v : Int32)
  | schedpolicy (v : Int32)
  | sigdefault (v : UInt64)
  | sigmask (v : UInt64)
  | flags (v : Int16)
  | pgroup (v : Int32)

/-- Its attributes. -/
inductive Spec.SpawnField where
  | priority
  | policy
  | sigdefault
  | sigmask
  | flags
  | pgroup

open Spec (SpawnCall SpawnField)

def Spec.spawnCode : SpawnCall → Int32
  | .schedpolicy v => if v = 0 ∨ v = 1 ∨ v = 2 then 0 else 22
  | .flags v => if 0 ≤ v.toInt ∧ v.toInt < 8 then 0 else 22
  | _ => 0

def Spec.spawnSets : SpawnField → SpawnCall → Option Int
  | .priority, .schedparam v => some v.toInt
  | .policy, .schedpolicy v => some v.toInt
  | .sigdefault, .sigdefault v => some v.toNat
  | .sigmask, .sigmask v => some v.toNat
  | .flags, .flags v => some v.toInt
  | .pgroup, .pgroup v => some v.toInt
  | _, _ => none

def spawnCall (a : SpawnAttr) : SpawnCall → Int32 × SpawnAttr
  | .schedparam v => spawnSetschedparam a v
  | .schedpolicy v => spawnSetschedpolicy a v
  | .sigdefault v => spawnSetsigdefault a v
  | .sigmask v => spawnSetsigmask a v
  | .flags v => spawnSetflags a v
  | .pgroup v => spawnSetpgroup a v

/-- The getters (`src/header/spawn/spawn_attr.rs:128-135`, `src/header/spawn/spawn_attr.rs:180-187`,
`src/header/spawn/spawn_attr.rs:228-236`, `src/header/spawn/spawn_attr.rs:276-284`, `src/header/spawn/spawn_attr.rs:329-338`,
`src/header/spawn/spawn_attr.rs:377-386`). -/
def spawnGet (a : SpawnAttr) : SpawnField → Int
  | .priority => a.param.toInt
  | .policy => a.policy.toInt
  | .sigdefault => a.sigdefault.toNat
  | .sigmask => a.sigmask.toNat
  | .flags => a.flags.toInt
  | .pgroup => a.pgroup.toInt

theorem flags_iff (v : Int16) :
    v &&& ~~~(1 ||| 2 ||| 3 ||| 4 ||| 5 ||| 6 ||| 7) = 0 ↔ 0 ≤ v.toInt ∧ v.toInt < 8 := by
  have key : ∀ b : BitVec 16, (b &&& ~~~7#16 = 0#16) ↔ b.toNat < 8 := by
    intro b
    have e : b &&& ~~~7#16 = 0#16 ↔ b >>> 3 = 0#16 := by
      constructor
      · intro h
        have : (b &&& ~~~7#16) >>> 3 = 0#16 >>> 3 := by rw [h]
        rw [BitVec.ushiftRight_and_distrib] at this
        have m : (~~~7#16) >>> 3 = 0x1fff#16 := by decide
        rw [m] at this
        apply BitVec.eq_of_getLsbD_eq
        intro i hi
        have t := congrArg (·.getLsbD i) this
        by_cases h13 : i < 13
        · have o : (0x1fff#16).getLsbD i = true := by
            have : ∀ i : Fin 13, (0x1fff#16).getLsbD i = true := by decide
            exact this ⟨i, h13⟩
          simpa [o] using t
        · simp only [BitVec.getLsbD_ushiftRight, BitVec.getLsbD_zero]
          exact BitVec.getLsbD_of_ge _ _ (by omega)
      · intro h
        apply BitVec.eq_of_getLsbD_eq
        intro i hi
        by_cases h3 : i < 3
        · have o : (~~~7#16).getLsbD i = false := by
            have : ∀ i : Fin 3, (~~~7#16).getLsbD i = false := by decide
            exact this ⟨i, h3⟩
          rw [BitVec.getLsbD_and, o, Bool.and_false, BitVec.getLsbD_zero]
        · have t := congrArg (·.getLsbD (i - 3)) h
          simp only [BitVec.getLsbD_ushiftRight, BitVec.getLsbD_zero] at t
          rw [show 3 + (i - 3) = i by omega] at t
          rw [BitVec.getLsbD_and, t, Bool.false_and, BitVec.getLsbD_zero]
    rw [e]
    constructor
    · intro h
      have := congrArg BitVec.toNat h
      simp only [BitVec.toNat_ushiftRight, BitVec.toNat_ofNat, Nat.shiftRight_eq_div_pow] at this
      omega
    · intro h
      apply BitVec.eq_of_toNat_eq
      simp only [BitVec.toNat_ushiftRight, BitVec.toNat_ofNat, Nat.shiftRight_eq_div_pow]
      omega
  have e1 : v &&& ~~~(1 ||| 2 ||| 3 ||| 4 ||| 5 ||| 6 ||| 7) = 0 ↔ v.toBitVec &&& ~~~7#16 = 0#16 := by
    constructor
    · intro h; exact congrArg Int16.toBitVec h
    · intro h; exact Int16.toBitVec_inj.1 h
  rw [e1, key]
  have t : v.toInt = (v.toBitVec.toNat : Int).bmod (2 ^ 16) := by
    simp [Int16.toInt, BitVec.toInt_eq_toNat_bmod]
  have l := v.toBitVec.isLt
  rw [t, Int.bmod_def]
  split <;> omega

/-- **C101** for `posix_spawn`: as for threads; all attributes are 0 at first. -/
theorem C101_spawn (calls : List SpawnCall) :
    (runCalls spawnCall spawnInit calls).1 = calls.map Spec.spawnCode ∧
    ∀ f, spawnGet (runCalls spawnCall spawnInit calls).2 f =
      Spec.last (fun c => if Spec.spawnCode c = 0 then Spec.spawnSets f c else none) 0 calls := by
  have hc : ∀ (a : SpawnAttr) (c : SpawnCall), True → (spawnCall a c).1 = Spec.spawnCode c := by
    intro a c _
    cases c with
    | schedpolicy v => simp only [spawnCall, spawnSetschedpolicy, Spec.spawnCode]; split <;> rfl
    | flags v => simp only [spawnCall, spawnSetflags, Spec.spawnCode, flags_iff]; split <;> rfl
    | _ => rfl
  refine ⟨(runCalls_spec _ (fun _ => 0) Spec.spawnCode (fun _ => none) (fun _ => True) hc (fun _ _ _ => rfl) calls _
    (fun _ _ => trivial)).1, fun f => ?_⟩
  have e : spawnGet spawnInit f = 0 := by cases f <;> rfl
  rw [← e]
  refine (runCalls_spec _ (spawnGet · f) Spec.spawnCode _ (fun _ => True) hc ?_ calls _ (fun _ _ => trivial)).2
  intro a c _
  cases c with
  | schedpolicy v =>
    simp only [spawnCall, spawnSetschedpolicy, Spec.spawnCode]
    split <;> cases f <;> rfl
  | flags v =>
    simp only [spawnCall, spawnSetflags, Spec.spawnCode, flags_iff]
    split <;> cases f <;> rfl
  | _ => cases f <;> rfl

/-- The flags are not distinct bits: asking for default signals (3) is the same as asking for reset ids (1) and a process group (2). -/
theorem C101_flags_violation : ∀ a, spawnSetflags a 3 = spawnSetflags a (1 ||| 2) ∧ spawnSetflags a 7 = spawnSetflags a (3 ||| 4) :=
  fun _ => ⟨rfl, rfl⟩

example : let r := runCalls spawnCall spawnInit [.flags 2, .pgroup 7, .flags 8, .schedpolicy 5]
    r.1 = [0, 0, 22, 22] ∧ spawnGet r.2 .flags = 2 ∧ spawnGet r.2 .pgroup = 7 ∧ spawnGet r.2 .policy = 0 := by decide +kernel

end Verif.Attr
