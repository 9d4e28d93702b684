import Verif.Handlers.HandlerModel
/-!
# C98: destructors of `__cxa_atexit`; C99: cleanup handlers; C100: `pthread_atfork`
-/

namespace Verif.Handlers

/-! ## C98: specification -/

/-- A call of `__cxa_atexit` or `__cxa_finalize`. -/
inductive CxaOp where
  | atexit (func : Option Nat) (arg dso : Nat)
  | finalize (dso : Nat)

/-- The functions that should be called by each `__cxa_finalize`, if `pending` are those registered so far, the oldest first: those
of the object, or all for a null pointer, the newest first; they are registered no longer. -/
def cxaSpec (pending : List CxaFn) : List CxaOp → List (List CxaFn)
  | [] => []
  | .atexit func arg dso :: l => cxaSpec (pending ++ func.toList.map fun f => ⟨f, arg, dso⟩) l
  | .finalize dso :: l =>
    (pending.filter fun x => dso = 0 ∨ x.dso = dso).reverse :: cxaSpec (pending.filter fun x => ¬ (dso = 0 ∨ x.dso = dso)) l

/-- The functions that are called by each `__cxa_finalize`. -/
def cxaRun (registers : Nat → Bool) (funcs : List (Option CxaFn)) : List CxaOp → Option (List (List CxaFn))
  | [] => some []
  | .atexit func arg dso :: l => cxaRun registers (cxaAtexit funcs func arg dso) l
  | .finalize dso :: l => do
    let r ← cxaFinalize registers funcs dso
    let rest ← cxaRun registers r.2 l
    pure (r.1 :: rest)

/-- What a sequence of calls registers. -/
def registered : List CxaOp → List CxaFn
  | [] => []
  | .atexit func arg dso :: l => (func.toList.map fun f => ⟨f, arg, dso⟩) ++ registered l
  | .finalize _ :: l => registered l

/-! ## Lemmas -/

theorem fillSlot_eq (e : CxaFn) (l : List CxaFn) : fillSlot e (l.map some) = (l ++ [e]).map some := by
  induction l with
  | nil => rfl
  | cons x l ih => simp [fillSlot, ih]

theorem cxaAtexit_eq (l : List CxaFn) (func : Option Nat) (arg dso : Nat) :
    cxaAtexit (l.map some) func arg dso = (l ++ func.toList.map fun f => (⟨f, arg, dso⟩ : CxaFn)).map some := by
  cases func with
  | none => simp [cxaAtexit]
  | some f =>
    simp only [cxaAtexit, fillSlot_eq]
    simp

theorem finalizeLoop_eq {registers : Nat → Bool} {dso : Nat} {l : List CxaFn} (h : ∀ x ∈ l, registers x.func = false) :
    finalizeLoop registers dso (l.map some) = some (l.filter (fun x => dso = 0 ∨ x.dso = dso),
      l.map fun x => if dso = 0 ∨ x.dso = dso then none else some x) := by
  induction l with
  | nil => rfl
  | cons x l ih =>
    have ih := ih fun y hy => h y (List.mem_cons_of_mem _ hy)
    simp only [List.map_cons, finalizeLoop, ih, h x List.mem_cons_self]
    by_cases hx : dso = 0 ∨ x.dso = dso
    · simp [hx]
    · simp [hx]

theorem filter_slots (P : CxaFn → Prop) [DecidablePred P] (l : List CxaFn) :
    (l.map fun x => if P x then none else some x).filter Option.isSome = (l.filter fun x => ¬ P x).map some := by
  induction l with
  | nil => rfl
  | cons x l ih =>
    by_cases hx : P x
    · simp [hx, ih]
    · simp [hx, ih]

theorem cxaFinalize_eq {registers : Nat → Bool} {dso : Nat} {l : List CxaFn} (h : ∀ x ∈ l, registers x.func = false) :
    cxaFinalize registers (l.map some) dso =
      some ((l.filter fun x => dso = 0 ∨ x.dso = dso).reverse, (l.filter fun x => ¬ (dso = 0 ∨ x.dso = dso)).map some) := by
  unfold cxaFinalize
  rw [← List.map_reverse, finalizeLoop_eq (by simpa using h)]
  simp only [Option.map_some, Option.some.injEq, Prod.mk.injEq]
  refine ⟨List.filter_reverse, ?_⟩
  by_cases h0 : dso = 0
  · simp [h0]
  · rw [if_neg h0, ← List.map_reverse, List.reverse_reverse, filter_slots]

theorem count_split (P : CxaFn → Prop) [DecidablePred P] (l : List CxaFn) (x : CxaFn) :
    l.count x = (l.filter fun x => P x).count x + (l.filter fun x => ¬ P x).count x := by
  induction l with
  | nil => rfl
  | cons y l ih =>
    by_cases hy : P y
    · rw [List.filter_cons_of_pos (by simpa using hy), List.filter_cons_of_neg (by simpa using hy), List.count_cons, List.count_cons]
      omega
    · rw [List.filter_cons_of_neg (by simpa using hy), List.filter_cons_of_pos (by simpa using hy), List.count_cons, List.count_cons]
      omega

/-! ## C98 -/

/-- C98: whatever calls are made, each `__cxa_finalize` calls exactly the functions of its object that are still registered, or all
of them for a null pointer, in the reverse order of their registration. Missing: functions that register others
(`C98_reentry_violation`). -/
theorem C98_finalize_partial {registers : Nat → Bool} {ops : List CxaOp} (h : ∀ x ∈ registered ops, registers x.func = false) :
    cxaRun registers [] ops = some (cxaSpec [] ops) := by
  have key : ∀ ops pending, (∀ x ∈ pending ++ registered ops, registers x.func = false) →
      cxaRun registers (pending.map some) ops = some (cxaSpec pending ops) := by
    intro ops
    induction ops with
    | nil => intro pending _; rfl
    | cons op l ih =>
      intro pending h
      cases op with
      | atexit func arg dso =>
        simp only [cxaRun, cxaSpec, cxaAtexit_eq]
        apply ih
        intro x hx
        apply h
        simpa [registered, List.append_assoc] using hx
      | finalize dso =>
        simp only [cxaRun, cxaSpec]
        rw [cxaFinalize_eq fun x hx => h x (List.mem_append_left _ hx)]
        simp only [Option.bind_eq_bind, Option.bind_some]
        rw [ih]
        · rfl
        · intro x hx
          apply h
          simp only [List.mem_append, List.mem_filter, registered] at hx ⊢
          exact hx.imp And.left id
  exact key ops [] (by simpa using h)

theorem spec_once (ops : List CxaOp) (x : CxaFn) : (cxaSpec [] ops).flatten.count x ≤ (registered ops).count x := by
  have key : ∀ ops pending, (cxaSpec pending ops).flatten.count x ≤ (pending ++ registered ops).count x := by
    intro ops
    induction ops with
    | nil => intro pending; simp [cxaSpec]
    | cons op l ih =>
      intro pending
      cases op with
      | atexit func arg dso =>
        have := ih (pending ++ func.toList.map fun f => ⟨f, arg, dso⟩)
        simpa [cxaSpec, registered, List.append_assoc] using this
      | finalize dso =>
        have := ih (pending.filter fun x => ¬ (dso = 0 ∨ x.dso = dso))
        simp only [cxaSpec, registered, List.flatten_cons, List.count_append, List.count_reverse] at this ⊢
        have h2 := count_split (fun x => dso = 0 ∨ x.dso = dso) pending x
        omega
  simpa using key ops []

theorem spec_all (ops : List CxaOp) (x : CxaFn) :
    (cxaSpec [] (ops ++ [.finalize 0])).flatten.count x = (registered ops).count x := by
  have key : ∀ ops pending, (cxaSpec pending (ops ++ [.finalize 0])).flatten.count x = (pending ++ registered ops).count x := by
    intro ops
    induction ops with
    | nil => intro pending; simp [cxaSpec, registered]
    | cons op l ih =>
      intro pending
      cases op with
      | atexit func arg dso =>
        have := ih (pending ++ func.toList.map fun f => ⟨f, arg, dso⟩)
        simpa [cxaSpec, registered, List.append_assoc] using this
      | finalize dso =>
        have := ih (pending.filter fun x => ¬ (dso = 0 ∨ x.dso = dso))
        simp only [List.cons_append, cxaSpec, registered, List.flatten_cons, List.count_append, List.count_reverse] at this ⊢
        have h2 := count_split (fun x => dso = 0 ∨ x.dso = dso) pending x
        omega
  simpa using key ops []

/-- C98: no function is called more often than it was registered; and if the last call is `__cxa_finalize(NULL)`, each has been called
as often as it was registered. -/
theorem C98_once_partial {registers : Nat → Bool} {ops : List CxaOp} (h : ∀ x ∈ registered ops, registers x.func = false) :
    (∃ r, cxaRun registers [] ops = some r ∧ ∀ x, r.flatten.count x ≤ (registered ops).count x) ∧
    (∃ r, cxaRun registers [] (ops ++ [.finalize 0]) = some r ∧ ∀ x, r.flatten.count x = (registered ops).count x) := by
  refine ⟨⟨_, C98_finalize_partial h, spec_once ops⟩, ⟨_, C98_finalize_partial ?_, spec_all ops⟩⟩
  have e : ∀ l, registered (l ++ [.finalize 0]) = registered l := by
    intro l
    induction l with
    | nil => rfl
    | cons o l ih => cases o <;> simp [registered, ih]
  rw [e]; exact h

/-- C98 fails for a function that registers another one: `__cxa_finalize` holds the lock that `__cxa_atexit` waits for. -/
theorem C98_reentry_violation : cxaRun (· == 7) [] [.atexit (some 7) 1 0, .finalize 0] = none := rfl

/-- C98: the destructors of the thread-local objects of a thread run in the reverse order of their registration, each once. Missing:
destructors that register others (`C98_thread_violation`). -/
theorem C98_thread_partial {registers : Nat → Bool} {regs : List (Nat × Nat)} (h : ∀ x ∈ regs, registers x.1 = false) :
    cxaThreadFinalize registers (regs.foldl (fun d x => cxaThreadAtexit d x.1 x.2) []) = some regs.reverse := by
  have h1 : ∀ (regs d : List (Nat × Nat)), regs.foldl (fun d x => cxaThreadAtexit d x.1 x.2) d = d ++ regs := by
    intro regs
    induction regs with
    | nil => intro d; simp
    | cons x l ih => intro d; rw [List.foldl_cons, ih]; simp [cxaThreadAtexit]
  have h2 : ∀ l : List (Nat × Nat), (∀ x ∈ l, registers x.1 = false) → cxaThreadLoop registers l = some l := by
    intro l
    induction l with
    | nil => intro _; rfl
    | cons x l ih =>
      intro h
      simp [cxaThreadLoop, h x List.mem_cons_self, ih fun y hy => h y (List.mem_cons_of_mem _ hy)]
  rw [h1, List.nil_append, cxaThreadFinalize]
  exact h2 _ (by simpa using h)

/-- C98 fails for a destructor that registers another one: a panic. -/
theorem C98_thread_violation : cxaThreadFinalize (· == 7) (cxaThreadAtexit [] 7 1) = none := rfl

/-- The theorem applies: three functions of two objects. -/
example : cxaRun (fun _ => false) [] [.atexit (some 1) 10 5, .atexit (some 2) 20 6, .atexit (some 3) 30 5, .finalize 5, .finalize 0] =
    some [[⟨3, 30, 5⟩, ⟨1, 10, 5⟩], [⟨2, 20, 6⟩]] := rfl

/-! ## C99: specification -/

/-- `pthread_cleanup_push`, with the address of its entry, or `pthread_cleanup_pop`. -/
inductive CleanupOp where
  | push (addr routine arg : Nat)
  | pop (execute : Int32)

/-- The handlers of a thread, the newest first, with the addresses of their entries, after a sequence of calls, and what was called;
`none` = the calls are not paired, or the entry of a handler is used again while it is pushed. -/
def cleanupSpec (stack : List (Nat × Nat × Nat)) : List CleanupOp → Option (List (Nat × Nat) × List (Nat × Nat × Nat))
  | [] => some ([], stack)
  | .push addr routine arg :: l =>
    if addr ≠ 0 ∧ addr ∉ stack.map Prod.fst then cleanupSpec ((addr, routine, arg) :: stack) l else none
  | .pop execute :: l =>
    match stack with
    | [] => none
    | x :: stack => (cleanupSpec stack l).map fun r => ((if execute ≠ 0 then [x.2] else []) ++ r.1, r.2)

/-- What is called, and the state. -/
def cleanupRun (s : CleanupState) : List CleanupOp → Option (List (Nat × Nat) × CleanupState)
  | [] => some ([], s)
  | .push addr routine arg :: l => cleanupRun (cleanupPush s addr routine arg) l
  | .pop execute :: l => do
    let r ← cleanupPop s execute
    let rest ← cleanupRun r.2 l
    pure (r.1 ++ rest.1, rest.2)

/-! ## Lemmas -/

/-- The list that begins at `ptr` is the stack. -/
def Chain (mem : Nat → Option CleanupEntry) : Nat → List (Nat × Nat × Nat) → Prop
  | ptr, [] => ptr = 0
  | ptr, x :: l => ptr = x.1 ∧ x.1 ≠ 0 ∧ ∃ prev, mem x.1 = some ⟨x.2.1, x.2.2, prev⟩ ∧ Chain mem prev l

theorem chain_frame {mem mem' : Nat → Option CleanupEntry} {ptr : Nat} {l : List (Nat × Nat × Nat)} (h : Chain mem ptr l)
    (hm : ∀ x ∈ l, mem' x.1 = mem x.1) : Chain mem' ptr l := by
  induction l generalizing ptr with
  | nil => exact h
  | cons x l ih =>
    obtain ⟨h1, h2, prev, h3, h4⟩ := h
    exact ⟨h1, h2, prev, by rw [hm x List.mem_cons_self, h3], ih h4 fun y hy => hm y (List.mem_cons_of_mem _ hy)⟩

theorem cleanupRun_eq {ops : List CleanupOp} {s : CleanupState} {stack : List (Nat × Nat × Nat)} {log : List (Nat × Nat)}
    {stack' : List (Nat × Nat × Nat)} (hc : Chain s.mem s.head stack) (h : cleanupSpec stack ops = some (log, stack')) :
    ∃ s', cleanupRun s ops = some (log, s') ∧ Chain s'.mem s'.head stack' := by
  induction ops generalizing s stack log with
  | nil =>
    simp only [cleanupSpec, Option.some.injEq, Prod.mk.injEq] at h
    obtain ⟨rfl, rfl⟩ := h
    exact ⟨s, rfl, hc⟩
  | cons op l ih =>
    cases op with
    | push addr routine arg =>
      simp only [cleanupSpec] at h
      split at h
      · rename_i ha
        simp only [cleanupRun]
        refine ih ?_ h
        refine ⟨rfl, ha.1, s.head, by simp [cleanupPush], ?_⟩
        apply chain_frame hc
        intro x hx
        have : x.1 ≠ addr := by
          rintro rfl
          exact ha.2 (List.mem_map_of_mem hx)
        simp [cleanupPush, this]
      · cases h
    | pop execute =>
      cases stack with
      | nil => simp [cleanupSpec] at h
      | cons x stack =>
        simp only [cleanupSpec, Option.map_eq_some_iff] at h
        obtain ⟨⟨log2, st2⟩, h1, h2⟩ := h
        simp only [Prod.mk.injEq] at h2
        obtain ⟨rfl, rfl⟩ := h2
        obtain ⟨c1, c2, prev, c3, c4⟩ := hc
        obtain ⟨s', h3, h4⟩ := ih (s := { s with head := prev }) c4 h1
        refine ⟨s', ?_, h4⟩
        have hh : s.head ≠ 0 := by rw [c1]; exact c2
        simp only [cleanupRun, cleanupPop]
        rw [if_neg hh, c1, c3]
        simp [h3]

theorem destructorLoop_eq {mem : Nat → Option CleanupEntry} {ptr : Nat} {l : List (Nat × Nat × Nat)} (h : Chain mem ptr l) :
    destructorLoop mem ptr = some (l.map Prod.snd) := by
  induction l generalizing ptr with
  | nil =>
    have h : ptr = 0 := h
    rw [destructorLoop, if_pos h]
    rfl
  | cons x l ih =>
    obtain ⟨h1, h2, prev, h3, h4⟩ := h
    rw [destructorLoop, if_neg (by rw [h1]; exact h2), h1, h3]
    simp [ih h4]

/-! ## C99 -/

/-- C99: if the calls of `pthread_cleanup_push` and `pthread_cleanup_pop` are paired, then `pop` calls the newest handler with its
argument just when it should; and when the thread ends after any part of them, the handlers that are still pushed are called, the
newest first, each once, after the destructors of thread-local objects. -/
theorem C99_cleanup {ops : List CleanupOp} {log : List (Nat × Nat)} {stack : List (Nat × Nat × Nat)} {mem : Nat → Option CleanupEntry}
    {registers : Nat → Bool} {regs : List (Nat × Nat)} (h : cleanupSpec [] ops = some (log, stack))
    (hr : ∀ x ∈ regs, registers x.1 = false) :
    ∃ s, cleanupRun ⟨mem, 0⟩ ops = some (log, s) ∧
      runDestructorStack registers (regs.foldl (fun d x => cxaThreadAtexit d x.1 x.2) []) s =
        some (regs.reverse ++ stack.map Prod.snd) := by
  obtain ⟨s, h1, h2⟩ := cleanupRun_eq (s := ⟨mem, 0⟩) (stack := []) (show Chain mem 0 [] from rfl) h
  refine ⟨s, h1, ?_⟩
  simp [runDestructorStack, C98_thread_partial hr, destructorLoop_eq h2]

/-- The theorem applies: three handlers, one of them popped and called. -/
example : cleanupSpec [] [.push 100 1 10, .push 200 2 20, .pop 1, .push 200 3 30] =
    some ([(2, 20)], [(200, 3, 30), (100, 1, 10)]) := by decide

/-! ## C100: specification -/

/-- A call of `pthread_atfork` by a thread. -/
structure AtforkOp where
  thread : Nat
  prepare : Option Nat
  parent : Option Nat
  child : Option Nat

/-- The hooks after a sequence of calls. -/
def atforkRun (hooks : Nat → Hooks) (ops : List AtforkOp) : Nat → Hooks :=
  ops.foldl (fun h o => pthreadAtfork h o.thread o.prepare o.parent o.child) hooks

/-! ## C100 -/

/-- C100: `fork` calls the handlers for the child in the child and those for the parent in the parent, in the order of their
registration, none of them after an error; before it those for the preparation. Missing: handlers that another thread has
registered (`C100_thread_violation`); the handlers for the preparation run in the order of their registration, not in the reverse one
(`C100_order_violation`), so that for them only this is said: each is called as often as it was registered. -/
theorem C100_fork_partial {ops : List AtforkOp} {t : Nat} (h : ∀ o ∈ ops, o.thread = t) (pid : Int32) :
    (fork (atforkRun (fun _ => ⟨[], [], []⟩) ops) t pid).2 =
      (if pid = 0 then ops.filterMap AtforkOp.child else if pid = -1 then [] else ops.filterMap AtforkOp.parent) ∧
    ∀ f, (fork (atforkRun (fun _ => ⟨[], [], []⟩) ops) t pid).1.count f = (ops.filterMap AtforkOp.prepare).count f := by
  have key : ∀ (ops : List AtforkOp) hooks, (∀ o ∈ ops, o.thread = t) → atforkRun hooks ops t =
      ⟨(hooks t).prepare ++ ops.filterMap AtforkOp.prepare, (hooks t).parent ++ ops.filterMap AtforkOp.parent,
        (hooks t).child ++ ops.filterMap AtforkOp.child⟩ := by
    intro ops
    induction ops with
    | nil => intro hooks _; simp [atforkRun]
    | cons o l ih =>
      intro hooks h
      have h1 := ih (pthreadAtfork hooks o.thread o.prepare o.parent o.child) fun x hx => h x (List.mem_cons_of_mem _ hx)
      have h2 := h o List.mem_cons_self
      simp only [atforkRun, List.foldl_cons] at h1 ⊢
      rw [h1]
      obtain ⟨th, a, b, c⟩ := o
      cases h2
      cases a <;> cases b <;> cases c <;> simp [pthreadAtfork]
  simp only [fork, key ops _ h, List.nil_append, implies_true, and_true]
  by_cases h0 : pid = 0
  · simp [h0]
  · by_cases h1 : pid = -1
    · simp [h1]
    · simp [h0, h1]

/-- C100 fails for the order of the preparation: of two handlers the one registered first is called first. -/
theorem C100_order_violation :
    (fork (atforkRun (fun _ => ⟨[], [], []⟩) [⟨0, some 1, none, none⟩, ⟨0, some 2, none, none⟩]) 0 5).1 = [1, 2] := rfl

/-- C100 fails for handlers that another thread has registered: the lists belong to the threads. -/
theorem C100_thread_violation (pid : Int32) :
    fork (atforkRun (fun _ => ⟨[], [], []⟩) [⟨1, some 1, some 2, some 3⟩]) 0 pid = ([], []) := by
  simp [fork, atforkRun, pthreadAtfork]

end Verif.Handlers
