import Verif.Threads.CreateModel
import Verif.Net.EndianProps
import Verif.Stdlib.SortProps

/-!
# `pthread_create` (C115)
-/

namespace Verif.Threads

open Verif.Mem Verif.Net Verif.Stdlib

/-! ## Specification -/

/-- The kernel maps pages which were not mapped, at an address that is not NULL. -/
structure Kernel.Sound (k : Kernel) : Prop where
  fresh : ∀ {m n p}, k.mmap m n = .ok p → p % 4096 = 0 ∧ p ≠ 0 ∧ ∀ a, p ≤ a → a < p + n → m a = none

/-- The words `l` are in memory at `p`. -/
def Words (m : Mem UInt8) (p : Nat) (l : List Nat) : Prop := Bytes m p (l.flatMap (leBytes 8))

/-- What was mapped is as before. -/
def Kept (m m' : Mem UInt8) : Prop := ∀ a, (m a).isSome → m' a = m a

/-- Nothing is mapped from `p` to `p + n`. -/
def Unmapped (m : Mem UInt8) (p n : Nat) : Prop := ∀ i, i < n → m (p + i) = none

/-! ## Helpers -/

theorem flatMap_len (l : List Nat) : (l.flatMap (leBytes 8)).length = 8 * l.length := by
  induction l with
  | nil => rfl
  | cons a l ih => simp only [List.flatMap_cons, List.length_append, leBytes_length, ih, List.length_cons]; omega

theorem push_eq {vs : List Nat} {m : Mem UInt8} {sp : Nat} (hsp : 8 * vs.length ≤ sp) (h : Mapped m (sp - 8 * vs.length) (8 * vs.length)) :
    push vs (m, sp) = some (patch m (sp - 8 * vs.length) (vs.reverse.flatMap (leBytes 8)), sp - 8 * vs.length) := by
  induction vs generalizing m sp with
  | nil =>
    have : patch m sp [] = m := by funext a; exact patch_out (by simp; omega)
    simp [push, this]
  | cons v vs ih =>
    simp only [List.length_cons] at *
    have h1 : Mapped m (sp - 8) (leBytes 8 v).length := by
      rw [leBytes_length]
      intro i hi
      have := h (8 * vs.length + i) (by omega)
      rwa [show sp - 8 * (vs.length + 1) + (8 * vs.length + i) = sp - 8 + i by omega] at this
    rw [push, writeN_eq h1]
    simp only [Option.bind_eq_bind, Option.bind_some]
    rw [ih (by omega)]
    · have e := patch_append' m (sp - 8 * (vs.length + 1)) (vs.reverse.flatMap (leBytes 8)) (leBytes 8 v)
      rw [flatMap_len, List.length_reverse, show sp - 8 * (vs.length + 1) + 8 * vs.length = sp - 8 by omega] at e
      rw [show sp - 8 - 8 * vs.length = sp - 8 * (vs.length + 1) by omega, List.reverse_cons, List.flatMap_append, e]
      simp
    · apply mapped_patch
      intro i hi
      have := h i (by omega)
      rwa [show sp - 8 - 8 * vs.length = sp - 8 * (vs.length + 1) by omega]

theorem pages_ge (n : Nat) : n ≤ pages n := by unfold pages; omega
theorem pages_mod (n : Nat) : pages n % 4096 = 0 := by unfold pages; omega
theorem pages_pages (n : Nat) : pages (pages n) = pages n := by unfold pages; omega
theorem pages_pos {n : Nat} (h : 0 < n) : 4096 ≤ pages n := by unfold pages; omega
theorem pages_eq {n : Nat} (h : n % 4096 = 0) : pages n = n := by unfold pages; omega

theorem sysMmap_ok {k : Kernel} (hk : k.Sound) {m m' : Mem UInt8} {n p : Nat} (h : sysMmap k m n = .ok (p, m')) :
    0 < n ∧ p % 4096 = 0 ∧ p ≠ 0 ∧ Unmapped m p (pages n) ∧ m' = mapZero m p (pages n) := by
  unfold sysMmap at h
  split at h
  · cases h
  · split at h
    · cases h
    · rename_i q hq
      cases h
      obtain ⟨h1, h2, h3⟩ := hk.fresh hq
      exact ⟨by omega, h1, h2, fun i hi => h3 _ (by omega) (by omega), rfl⟩

theorem mapZero_kept {m : Mem UInt8} {p n : Nat} (h : Unmapped m p n) : Kept m (mapZero m p n) := by
  intro a ha
  unfold mapZero
  rw [if_neg]
  intro hc
  have := h (a - p) (by omega)
  rw [show p + (a - p) = a by omega] at this
  simp [this] at ha

theorem mapZero_mapped (m : Mem UInt8) (p n : Nat) : Mapped (mapZero m p n) p n := by
  intro i hi
  unfold mapZero
  rw [if_pos (by omega)]
  rfl

theorem Kept.mapped {m m' : Mem UInt8} (h : Kept m m') {p n : Nat} (hm : Mapped m p n) : Mapped m' p n := by
  intro i hi
  rw [h _ (hm i hi)]
  exact hm i hi

theorem Kept.trans {m m' m'' : Mem UInt8} (h : Kept m m') (h' : Kept m' m'') : Kept m m'' := by
  intro a ha
  rw [h' a (by rw [h a ha]; exact ha), h a ha]

theorem unmap_mapZero {m : Mem UInt8} {p n : Nat} (h : Unmapped m p n) : unmap (mapZero m p n) p n = m := by
  funext a
  unfold unmap mapZero
  by_cases hc : p ≤ a ∧ a < p + n
  · rw [if_pos hc]
    have := h (a - p) (by omega)
    rw [show p + (a - p) = a by omega] at this
    exact this.symm
  · rw [if_neg hc, if_neg hc]

/-- Everything a successful `create` has done. -/
theorem create_ok {k : Kernel} (hk : k.Sound) {m m' : Mem UInt8} {a : Attr} {x : Args} {t : Thread} {e : Nat}
    (hsz : 0 < a.stacksize) (h : create k m (some a) x = some (.ok t, m', e)) :
    ∃ m1 m2, newStack k m a = .ok (t.base, m1) ∧ newTcb k m1 x.tls = .ok (t.tcb, m2)
      ∧ push [0, 0, x.mutex, t.tcb, x.arg, x.start, x.shim] (m2, t.base + pages a.stacksize) = some (m', t.sp)
      ∧ t.size = pages a.stacksize ∧ t.detached = decide (a.detachstate = 0) := by
  unfold create at h
  simp only [Option.getD_some] at h
  split at h
  · cases h
  · rename_i base m1 h1
    split at h
    · cases h
    · split at h
      · cases h
      · rename_i tcb m2 h2
        simp only [Option.bind_eq_bind, Option.bind_eq_some_iff] at h
        obtain ⟨⟨m3, sp⟩, h3, h4⟩ := h
        dsimp only at h4
        split at h4
        · cases h4
        · cases h4
          exact ⟨m1, m2, h1, h2, h3, rfl, rfl⟩

theorem newTcb_ok {k : Kernel} (hk : k.Sound) {m m' : Mem UInt8} {tls tcb : Nat} (h : newTcb k m tls = .ok (tcb, m')) :
    ∃ p, tcb = p + 4096 + pages tls ∧ p % 4096 = 0 ∧ p ≠ 0 ∧ Unmapped m p (4096 + pages tls + 4096)
      ∧ m' = mapZero m p (4096 + pages tls + 4096) := by
  unfold newTcb at h
  split at h
  · cases h
  · rename_i p m1 h1
    cases h
    obtain ⟨_, h2, h3, h4, h5⟩ := sysMmap_ok hk h1
    have e : pages (4096 + pages tls + 4096) = 4096 + pages tls + 4096 := pages_eq (by have := pages_mod tls; omega)
    rw [e] at h4 h5
    exact ⟨p, rfl, h2, h3, h4, h5⟩

theorem words_patch (m : Mem UInt8) (p : Nat) (l : List Nat) : Words (patch m p (l.flatMap (leBytes 8))) p l := bytes_patch m p _

/-! ## C115 -/

/-- C115: with a stack of its own choice, `pthread_create` gives the thread a stack and a control block in memory which nobody had, of at least
the size asked for; at the top of the stack the thread finds its entry point, the start routine, the argument and its control block (and is
left with an aligned stack); and everything that was mapped is as before. -/
theorem C115_create {k : Kernel} (hk : k.Sound) {m m' : Mem UInt8} {a : Attr} {x : Args} {t : Thread} {e : Nat}
    (hst : a.stack = 0) (hsz : 0 < a.stacksize) (h : create k m (some a) x = some (.ok t, m', e)) :
    a.stacksize ≤ t.size ∧ Unmapped m t.base t.size ∧ Mapped m' t.base t.size
      ∧ Unmapped m t.tcb 4096 ∧ Mapped m' t.tcb 4096 ∧ Disjoint t.base t.size t.tcb 4096
      ∧ t.sp + 8 * 7 = t.base + t.size ∧ (t.base + t.size) % 16 = 0 ∧ Words m' t.sp [x.shim, x.start, x.arg, t.tcb, x.mutex, 0, 0]
      ∧ t.detached = decide (a.detachstate = 0) ∧ Kept m m' := by
  obtain ⟨m1, m2, h1, h2, h3, h4, h5⟩ := create_ok hk hsz h
  rw [newStack, if_neg (by simpa using hst)] at h1
  obtain ⟨_, e1, e2, e3, e4⟩ := sysMmap_ok hk h1
  rw [pages_pages] at e3 e4
  obtain ⟨p, f1, f2, f3, f4, f5⟩ := newTcb_ok hk h2
  have hp := pages_pos hsz
  have hmod := pages_mod a.stacksize
  have k1 : Kept m m1 := e4 ▸ mapZero_kept e3
  have k2 : Kept m1 m2 := f5 ▸ mapZero_kept f4
  have hm1 : Mapped m1 t.base (pages a.stacksize) := e4 ▸ mapZero_mapped _ _ _
  have hm2 := k2.mapped hm1
  have hm2' : Mapped m2 p (4096 + pages x.tls + 4096) := f5 ▸ mapZero_mapped _ _ _
  rw [push_eq (by simp; omega) (by
    intro i hi
    have := hm2 (pages a.stacksize - 56 + i) (by simp at hi; omega)
    simp only [List.length_cons, List.length_nil]
    rwa [show t.base + pages a.stacksize - 8 * (0 + 1 + 1 + 1 + 1 + 1 + 1 + 1) + i = t.base + (pages a.stacksize - 56 + i) by omega])] at h3
  simp only [List.length_cons, List.length_nil, Option.some.injEq, Prod.mk.injEq, Nat.reduceAdd, Nat.reduceMul] at h3
  obtain ⟨h3, h3'⟩ := h3
  have hd : Disjoint t.base (pages a.stacksize) p (4096 + pages x.tls + 4096) := by
    by_cases hc : t.base + pages a.stacksize ≤ p
    · exact .inl hc
    · by_cases hc' : p + (4096 + pages x.tls + 4096) ≤ t.base
      · exact .inr hc'
      · exfalso
        by_cases hle : p ≤ t.base
        · have := f4 (t.base - p) (by omega)
          have h' := hm1 0 (by omega)
          rw [show p + (t.base - p) = t.base + 0 by omega] at this
          rw [this] at h'
          cases h'
        · have := f4 0 (by omega)
          have h' := hm1 (p - t.base) (by omega)
          rw [show t.base + (p - t.base) = p + 0 by omega] at h'
          rw [this] at h'
          cases h'
  refine ⟨by rw [h4]; exact pages_ge _, by rw [h4]; exact e3, ?_, ?_, ?_, ?_, by rw [h4]; omega, by rw [h4]; omega, ?_, h5, ?_⟩
  · rw [h4, ← h3]
    exact mapped_patch hm2
  · intro i hi
    have := f4 (4096 + pages x.tls + i) (by omega)
    rw [show p + (4096 + pages x.tls + i) = t.tcb + i by omega] at this
    cases hc : m (t.tcb + i) with
    | none => rfl
    | some b =>
      have := k1 (t.tcb + i) (by rw [hc]; rfl)
      simp_all
  · rw [← h3]
    apply mapped_patch
    intro i hi
    have := hm2' (4096 + pages x.tls + i) (by omega)
    rwa [show p + (4096 + pages x.tls + i) = t.tcb + i by omega] at this
  · rw [h4, f1]
    simp only [Disjoint] at *
    omega
  · rw [← h3, ← h3']
    exact words_patch _ _ _
  · intro b hb
    rw [← h3, patch_out, (k1.trans k2) b hb]
    rw [flatMap_len]
    simp only [List.length_reverse, List.length_cons, List.length_nil]
    by_cases hc : t.base ≤ b ∧ b < t.base + pages a.stacksize
    · have := e3 (b - t.base) (by omega)
      rw [show t.base + (b - t.base) = b by omega] at this
      simp [this] at hb
    · omega

/-- C115: with a stack of its own choice, `pthread_create` does not fault. -/
theorem C115_no_fault {k : Kernel} (hk : k.Sound) (m : Mem UInt8) {a : Attr} (x : Args) (hst : a.stack = 0) (hd : a.detachstate ≤ 1) :
    (create k m (some a) x).isSome := by
  unfold create
  simp only [Option.getD_some]
  split
  · rfl
  · rename_i base m1 h1
    rw [if_neg (by omega)]
    split
    · rfl
    · rename_i tcb m2 h2
      rw [newStack, if_neg (by simpa using hst)] at h1
      obtain ⟨e0, e1, e2, e3, e4⟩ := sysMmap_ok hk h1
      rw [pages_pages] at e3 e4
      obtain ⟨p, f1, f2, f3, f4, f5⟩ := newTcb_ok hk h2
      have hm2 : Mapped m2 base (pages a.stacksize) := by
        rw [f5]
        exact (mapZero_kept f4).mapped (e4 ▸ mapZero_mapped _ _ _)
      have hp : 4096 ≤ pages a.stacksize := pages_pages a.stacksize ▸ pages_pos e0
      rw [push_eq (by simp; omega) (by
        intro i hi
        have := hm2 (pages a.stacksize - 56 + i) (by simp at hi; omega)
        simp only [List.length_cons, List.length_nil]
        rwa [show base + pages a.stacksize - 8 * (0 + 1 + 1 + 1 + 1 + 1 + 1 + 1) + i = base + (pages a.stacksize - 56 + i) by omega])]
      simp only [Option.bind_eq_bind, Option.bind_some]
      split <;> rfl

/-- C115, errors: the error number is `EAGAIN` or `ENOMEM`, and memory is as before. Missing: errors of the kernel when it starts the thread
(`C115_leak_violation`), stacks of the caller (`C115_stack_lost_violation`). -/
theorem C115_error_partial {k : Kernel} (hk : k.Sound) {m m' : Mem UInt8} {a : Attr} {x : Args} {err e : Nat} (hst : a.stack = 0)
    (hc : ∀ m sp, ∃ fd, k.clone m sp = .ok fd) (h : create k m (some a) x = some (.error err, m', e)) : (err = 11 ∨ err = 12) ∧ m' = m := by
  unfold create at h
  simp only [Option.getD_some] at h
  split at h
  · cases h
    exact ⟨.inl rfl, rfl⟩
  · rename_i base m1 h1
    split at h
    · cases h
    · split at h
      · cases h
        refine ⟨.inr rfl, ?_⟩
        rw [newStack, if_neg (by simpa using hst)] at h1
        obtain ⟨e0, e1, e2, e3, e4⟩ := sysMmap_ok hk h1
        rw [pages_pages] at e3 e4
        rw [munmap, if_neg (by omega), pages_pages, e4, unmap_mapZero e3]
      · simp only [Option.bind_eq_bind, Option.bind_eq_some_iff] at h
        obtain ⟨⟨m3, sp⟩, h3, h4⟩ := h
        obtain ⟨fd, hfd⟩ := hc m3 sp
        simp [hfd] at h4

/-- C115 fails if the kernel does not start the thread: the control block, with the thread-local storage, stays mapped, at an address which
nobody knows. -/
theorem C115_leak_violation {k : Kernel} (hk : k.Sound) {m : Mem UInt8} {a : Attr} (x : Args) (hst : a.stack = 0) (hd : a.detachstate ≤ 1)
    (hsz : 0 < a.stacksize) (hm : ∀ m n, ∃ p, k.mmap m n = .ok p) (hc : ∀ m sp, ∃ e, k.clone m sp = .error e) :
    ∃ m' p, create k m (some a) x = some (.error 11, m', 0) ∧ Unmapped m p (4096 + 4096) ∧ Mapped m' p (4096 + 4096) := by
  have hp := pages_pos hsz
  obtain ⟨base, hb⟩ := hm m (pages a.stacksize)
  obtain ⟨b1, b2, b3⟩ := hk.fresh hb
  have h1 : newStack k m a = .ok (base, mapZero m base (pages a.stacksize)) := by
    rw [newStack, if_neg (by simpa using hst), sysMmap, if_neg (by omega), pages_pages, hb]
  have hu1 : Unmapped m base (pages a.stacksize) := fun i hi => b3 _ (by omega) (by omega)
  generalize hm1 : mapZero m base (pages a.stacksize) = m1 at h1
  have hmm1 : Mapped m1 base (pages a.stacksize) := hm1 ▸ mapZero_mapped _ _ _
  have ht := pages_mod x.tls
  have et : pages (4096 + pages x.tls + 4096) = 4096 + pages x.tls + 4096 := pages_eq (by omega)
  obtain ⟨p, hp2⟩ := hm m1 (4096 + pages x.tls + 4096)
  obtain ⟨c1, c2, c3⟩ := hk.fresh hp2
  have h2 : newTcb k m1 x.tls = .ok (p + 4096 + pages x.tls, mapZero m1 p (4096 + pages x.tls + 4096)) := by
    rw [newTcb, sysMmap, if_neg (by omega), et, hp2]
  have hu2 : Unmapped m1 p (4096 + pages x.tls + 4096) := fun i hi => c3 _ (by omega) (by omega)
  generalize hm2 : mapZero m1 p (4096 + pages x.tls + 4096) = m2 at h2
  have hmm2 : Mapped m2 p (4096 + pages x.tls + 4096) := hm2 ▸ mapZero_mapped _ _ _
  have hmb2 : Mapped m2 base (pages a.stacksize) := hm2 ▸ (mapZero_kept hu2).mapped hmm1
  have hdis : ∀ i, i < 4096 + pages x.tls + 4096 → ¬ (base ≤ p + i ∧ p + i < base + pages a.stacksize) := by
    intro i hi hcon
    have h3 := hu2 i hi
    have h4 := hmm1 (p + i - base) (by omega)
    rw [show base + (p + i - base) = p + i by omega, h3] at h4
    cases h4
  have h3 := push_eq (vs := [0, 0, x.mutex, p + 4096 + pages x.tls, x.arg, x.start, x.shim]) (m := m2) (sp := base + pages a.stacksize)
    (by simp; omega) (by
      intro i hi
      have := hmb2 (pages a.stacksize - 56 + i) (by simp at hi; omega)
      simp only [List.length_cons, List.length_nil]
      rwa [show base + pages a.stacksize - 8 * (0 + 1 + 1 + 1 + 1 + 1 + 1 + 1) + i = base + (pages a.stacksize - 56 + i) by omega])
  generalize hq : patch m2 _ _ = m3 at h3
  have hmm3 : Mapped m3 p (4096 + pages x.tls + 4096) := hq ▸ mapped_patch hmm2
  generalize base + pages a.stacksize - _ = sp at h3
  obtain ⟨e, he⟩ := hc m3 sp
  refine ⟨munmap m3 base (pages a.stacksize), p, ?_, ?_, ?_⟩
  · unfold create
    simp only [Option.getD_some, h1]
    rw [if_neg (by omega)]
    simp only [h2, h3, Option.bind_eq_bind, Option.bind_some, he]
    rfl
  · intro i hi
    have := hu2 i (by omega)
    cases hcon : m (p + i) with
    | none => rfl
    | some b =>
      have h4 := mapZero_kept hu1 (p + i) (by rw [hcon]; rfl)
      rw [hm1, this, hcon] at h4
      cases h4
  · intro i hi
    rw [munmap, if_neg (by omega), pages_pages, unmap, if_neg (hdis i (by omega))]
    exact hmm3 i (by omega)

/-- C115 for a stack of the caller, whose size is a multiple of the size of a page: the thread uses it, and only it, besides new memory. -/
theorem C115_given_stack_partial {k : Kernel} (hk : k.Sound) {m m' : Mem UInt8} {a : Attr} {x : Args} {t : Thread} {e : Nat}
    (hst : a.stack ≠ 0) (hmul : a.stacksize % 4096 = 0) (hsz : 0 < a.stacksize) (hm : Mapped m a.stack a.stacksize)
    (h : create k m (some a) x = some (.ok t, m', e)) :
    t.base = a.stack ∧ t.size = a.stacksize ∧ t.sp + 8 * 7 = t.base + t.size
      ∧ Words m' t.sp [x.shim, x.start, x.arg, t.tcb, x.mutex, 0, 0] ∧ Unmapped m t.tcb 4096 ∧ Mapped m' t.tcb 4096
      ∧ ∀ b, (m b).isSome → (b < t.sp ∨ a.stack + a.stacksize ≤ b) → m' b = m b := by
  obtain ⟨m1, m2, h1, h2, h3, h4, h5⟩ := create_ok hk hsz h
  rw [newStack, if_pos hst] at h1
  simp only [Except.ok.injEq, Prod.mk.injEq] at h1
  obtain ⟨hb, rfl⟩ := h1
  rw [pages_eq hmul] at h3 h4
  rw [hb] at hm
  obtain ⟨p, f1, f2, f3, f4, f5⟩ := newTcb_ok hk h2
  have k2 : Kept m m2 := f5 ▸ mapZero_kept f4
  have hm2 := k2.mapped hm
  have hm2' : Mapped m2 p (4096 + pages x.tls + 4096) := f5 ▸ mapZero_mapped _ _ _
  rw [push_eq (by simp; omega) (by
    intro i hi
    have := hm2 (a.stacksize - 56 + i) (by simp at hi; omega)
    simp only [List.length_cons, List.length_nil]
    rwa [show t.base + a.stacksize - 8 * (0 + 1 + 1 + 1 + 1 + 1 + 1 + 1) + i = t.base + (a.stacksize - 56 + i) by omega])] at h3
  simp only [List.length_cons, List.length_nil, Option.some.injEq, Prod.mk.injEq, Nat.reduceAdd, Nat.reduceMul] at h3
  obtain ⟨h3, h3'⟩ := h3
  refine ⟨hb.symm, h4, by omega, ?_, ?_, ?_, ?_⟩
  · rw [← h3, ← h3']
    exact words_patch _ _ _
  · intro i hi
    have := f4 (4096 + pages x.tls + i) (by omega)
    rwa [show p + (4096 + pages x.tls + i) = t.tcb + i by omega] at this
  · rw [← h3]
    apply mapped_patch
    intro i hi
    have := hm2' (4096 + pages x.tls + i) (by omega)
    rwa [show p + (4096 + pages x.tls + i) = t.tcb + i by omega] at this
  · intro b hb hr
    rw [← h3, patch_out, k2 b hb]
    rw [flatMap_len]
    simp only [List.length_reverse, List.length_cons, List.length_nil]
    omega

/-- C115 fails for a stack of the caller whose size is not a multiple of the size of a page: the size is rounded up, and the thread starts above
the caller's stack. -/
theorem C115_overrun_violation {k : Kernel} (hk : k.Sound) {m m' : Mem UInt8} {a : Attr} {x : Args} {t : Thread} {e : Nat}
    (hst : a.stack ≠ 0) (hmul : 0 < a.stacksize % 4096) (hsmall : a.stacksize % 4096 ≤ 4096 - 56)
    (hm : Mapped m a.stack ((a.stacksize / 4096 + 1) * 4096)) (h : create k m (some a) x = some (.ok t, m', e)) :
    a.stack + a.stacksize ≤ t.sp ∧ Words m' t.sp [x.shim, x.start, x.arg, t.tcb, x.mutex, 0, 0] := by
  obtain ⟨m1, m2, h1, h2, h3, h4, h5⟩ := create_ok hk (by omega) h
  rw [newStack, if_pos hst] at h1
  simp only [Except.ok.injEq, Prod.mk.injEq] at h1
  obtain ⟨hb, rfl⟩ := h1
  have hpg : pages a.stacksize = (a.stacksize / 4096 + 1) * 4096 := by unfold pages; omega
  rw [hpg] at h3 h4
  rw [hb] at hm
  obtain ⟨p, f1, f2, f3, f4, f5⟩ := newTcb_ok hk h2
  have k2 : Kept m m2 := f5 ▸ mapZero_kept f4
  have hm2 := k2.mapped hm
  rw [push_eq (by simp; omega) (by
    intro i hi
    have := hm2 ((a.stacksize / 4096 + 1) * 4096 - 56 + i) (by simp at hi; omega)
    simp only [List.length_cons, List.length_nil]
    rwa [show t.base + (a.stacksize / 4096 + 1) * 4096 - 8 * (0 + 1 + 1 + 1 + 1 + 1 + 1 + 1) + i
      = t.base + ((a.stacksize / 4096 + 1) * 4096 - 56 + i) by omega])] at h3
  simp only [List.length_cons, List.length_nil, Option.some.injEq, Prod.mk.injEq, Nat.reduceAdd, Nat.reduceMul] at h3
  obtain ⟨h3, h3'⟩ := h3
  refine ⟨by omega, ?_⟩
  rw [← h3, ← h3']
  exact words_patch _ _ _

/-- C115 fails for a stack of the caller if there is no memory for the control block: the caller's stack is unmapped. -/
theorem C115_stack_lost_violation {k : Kernel} {m : Mem UInt8} {a : Attr} (x : Args) (hst : a.stack ≠ 0) (hal : a.stack % 4096 = 0)
    (hd : a.detachstate ≤ 1) (hsz : 0 < a.stacksize) (hm : ∀ m n, ∃ e, k.mmap m n = .error e) :
    ∃ m', create k m (some a) x = some (.error 12, m', 0) ∧ Unmapped m' a.stack a.stacksize := by
  refine ⟨munmap m a.stack (pages a.stacksize), ?_, ?_⟩
  · unfold create
    simp only [Option.getD_some, newStack, if_pos hst]
    rw [if_neg (by omega)]
    obtain ⟨e, he⟩ := hm m (pages (4096 + pages x.tls + 4096))
    simp only [newTcb, sysMmap, he]
    rw [if_neg (by omega)]
    rfl
  · intro i hi
    have h1 := pages_ge a.stacksize
    have h2 := pages_pos hsz
    rw [munmap, if_neg (by omega), pages_pages, unmap, if_pos (by omega)]

/-- C115 fails for a stack of the caller when the thread ends: it is unmapped. -/
theorem C115_stack_unmapped_violation {k : Kernel} (hk : k.Sound) {m m' m'' : Mem UInt8} {a : Attr} {x : Args} {t : Thread} {e : Nat}
    (hst : a.stack ≠ 0) (hsz : 0 < a.stacksize) (h : create k m (some a) x = some (.ok t, m', e)) :
    Unmapped (exitThread m'' t) a.stack a.stacksize := by
  obtain ⟨m1, m2, h1, h2, h3, h4, h5⟩ := create_ok hk hsz h
  rw [newStack, if_pos hst] at h1
  simp only [Except.ok.injEq, Prod.mk.injEq] at h1
  intro i hi
  have h6 := pages_ge a.stacksize
  rw [exitThread, unmap, if_pos (by omega)]

/-- C115 fails for the guard: whatever `pthread_attr_setguardsize` has set makes no difference, and no memory below the stack is protected. -/
theorem C115_guard_violation (k : Kernel) (m : Mem UInt8) (a : Attr) (x : Args) (g : Nat) :
    create k m (some { a with guardsize := g }) x = create k m (some a) x := rfl

/-- What a thread leaves behind after it has ended and (if joinable) has been joined. -/
def after (m : Mem UInt8) (t : Thread) : Mem UInt8 := if t.detached then exitThread m t else join (exitThread m t) t

/-- C115, end: whatever the thread has stored in its memory (`m''`), after it has ended and been joined exactly what was mapped before its
creation is mapped. Missing: its thread-local storage and the page below it (`C115_tls_leak_violation`). -/
theorem C115_end_partial {k : Kernel} (hk : k.Sound) {m m' m'' : Mem UInt8} {a : Attr} {x : Args} {t : Thread} {e : Nat}
    (hst : a.stack = 0) (hsz : 0 < a.stacksize) (h : create k m (some a) x = some (.ok t, m', e)) (hw : ∀ b, (m'' b).isSome = (m' b).isSome)
    (b : Nat) (hb : b < t.tcb - (4096 + (x.tls + 4095) / 4096 * 4096) ∨ t.tcb ≤ b) : (after m'' t b).isSome = (m b).isSome := by
  obtain ⟨m1, m2, h1, h2, h3, h4, h5⟩ := create_ok hk hsz h
  obtain ⟨_, g2, _, g4, _, _, _⟩ := C115_create hk hst hsz h
  rw [newStack, if_neg (by simpa using hst)] at h1
  obtain ⟨_, e1, e2, e3, e4⟩ := sysMmap_ok hk h1
  rw [pages_pages] at e3 e4
  obtain ⟨p, f1, f2, f3, f4, f5⟩ := newTcb_ok hk h2
  have hp := pages_pos hsz
  have e : after m'' t b = if t.base ≤ b ∧ b < t.base + t.size ∨ t.tcb ≤ b ∧ b < t.tcb + 4096 then none else m'' b := by
    unfold after exitThread join dealloc unmap
    cases t.detached
    all_goals
      simp only [Bool.false_eq_true, if_false, if_true]
      split <;> split <;> first | rfl | omega | (split <;> first | rfl | omega)
  rw [e]
  split
  · rename_i hc
    cases hc with
    | inl hc =>
      have := g2 (b - t.base) (by omega)
      rw [show t.base + (b - t.base) = b by omega] at this
      simp [this]
    | inr hc =>
      have := g4 (b - t.tcb) (by omega)
      rw [show t.tcb + (b - t.tcb) = b by omega] at this
      simp [this]
  · rename_i hc
    rw [hw]
    have hkeep : m' b = m b := by
      have hm2 : Mapped m2 t.base (pages a.stacksize) := by
        rw [f5]
        exact (mapZero_kept f4).mapped (e4 ▸ mapZero_mapped _ _ _)
      rw [push_eq (by simp; omega) (by
        intro i hi
        have := hm2 (pages a.stacksize - 56 + i) (by simp at hi; omega)
        simp only [List.length_cons, List.length_nil]
        rwa [show t.base + pages a.stacksize - 8 * (0 + 1 + 1 + 1 + 1 + 1 + 1 + 1) + i = t.base + (pages a.stacksize - 56 + i) by omega])] at h3
      simp only [List.length_cons, List.length_nil, Option.some.injEq, Prod.mk.injEq, Nat.reduceAdd, Nat.reduceMul] at h3
      obtain ⟨h3, h3'⟩ := h3
      have ht : pages x.tls = (x.tls + 4095) / 4096 * 4096 := rfl
      rw [← h3, patch_out, f5, e4]
      · unfold mapZero
        rw [if_neg (by omega), if_neg (by omega)]
      · rw [flatMap_len]
        simp only [List.length_reverse, List.length_cons, List.length_nil]
        omega
    rw [hkeep]

/-- C115 fails for the end of a thread: its thread-local storage, and the page in front of it, stay mapped for ever. -/
theorem C115_tls_leak_violation {k : Kernel} (hk : k.Sound) {m m' m'' : Mem UInt8} {a : Attr} {x : Args} {t : Thread} {e : Nat}
    (hst : a.stack = 0) (hsz : 0 < a.stacksize) (h : create k m (some a) x = some (.ok t, m', e)) (hw : ∀ b, (m'' b).isSome = (m' b).isSome) :
    Unmapped m (t.tcb - (4096 + (x.tls + 4095) / 4096 * 4096)) (4096 + x.tls)
      ∧ Mapped (after m'' t) (t.tcb - (4096 + (x.tls + 4095) / 4096 * 4096)) (4096 + x.tls) := by
  obtain ⟨m1, m2, h1, h2, h3, h4, h5⟩ := create_ok hk hsz h
  rw [newStack, if_neg (by simpa using hst)] at h1
  obtain ⟨_, e1, e2, e3, e4⟩ := sysMmap_ok hk h1
  rw [pages_pages] at e3 e4
  obtain ⟨p, f1, f2, f3, f4, f5⟩ := newTcb_ok hk h2
  have hp := pages_pos hsz
  have ht : pages x.tls = (x.tls + 4095) / 4096 * 4096 := rfl
  have htp := pages_ge x.tls
  have hm1 : Mapped m1 t.base (pages a.stacksize) := e4 ▸ mapZero_mapped _ _ _
  have hm2 : Mapped m2 t.base (pages a.stacksize) := f5 ▸ (mapZero_kept f4).mapped hm1
  have hm2' : Mapped m2 p (4096 + pages x.tls + 4096) := f5 ▸ mapZero_mapped _ _ _
  rw [← ht, show t.tcb - (4096 + pages x.tls) = p by omega]
  refine ⟨?_, ?_⟩
  · intro i hi
    have := f4 i (by omega)
    cases hcon : m (p + i) with
    | none => rfl
    | some b =>
      have h4 := mapZero_kept e3 (p + i) (by rw [hcon]; rfl)
      rw [← e4, this, hcon] at h4
      cases h4
  · intro i hi
    have hout : ¬ (t.base ≤ p + i ∧ p + i < t.base + pages a.stacksize) := by
      intro hcon
      have h6 := f4 i (by omega)
      have h7 := hm1 (p + i - t.base) (by omega)
      rw [show t.base + (p + i - t.base) = p + i by omega, h6] at h7
      cases h7
    have e : after m'' t (p + i) = m'' (p + i) := by
      unfold after exitThread join dealloc unmap
      cases t.detached
      all_goals
        simp only [Bool.false_eq_true, if_false, if_true]
        rw [if_neg (by omega), if_neg (by omega)]
    rw [e, hw]
    rw [push_eq (by simp; omega) (by
      intro i hi
      have := hm2 (pages a.stacksize - 56 + i) (by simp at hi; omega)
      simp only [List.length_cons, List.length_nil]
      rwa [show t.base + pages a.stacksize - 8 * (0 + 1 + 1 + 1 + 1 + 1 + 1 + 1) + i = t.base + (pages a.stacksize - 56 + i) by omega])] at h3
    simp only [Option.some.injEq, Prod.mk.injEq] at h3
    rw [← h3.1]
    exact mapped_patch hm2' i (by omega)

/-! ## Examples -/

/-- A kernel which maps pages at 2^20 or 2^21, where nothing is mapped. -/
def toyKernel : Kernel where
  mmap m n := if (List.range n).all (fun i => (m (2 ^ 20 + i)).isNone) then .ok (2 ^ 20)
    else if (List.range n).all (fun i => (m (2 ^ 21 + i)).isNone) then .ok (2 ^ 21) else .error 12
  clone _ _ := .ok 5

theorem toyKernel_sound : toyKernel.Sound := by
  constructor
  intro m n p h
  have key : ∀ q, (List.range n).all (fun i => (m (q + i)).isNone) = true → ∀ a, q ≤ a → a < q + n → m a = none := by
    intro q hq a h1 h2
    have := (List.all_eq_true.mp hq) (a - q) (by simp; omega)
    rw [show q + (a - q) = a by omega] at this
    simpa using this
  simp only [toyKernel] at h
  split at h
  · cases h
    exact ⟨by decide, by decide, key _ ‹_›⟩
  · split at h
    · cases h
      exact ⟨by decide, by decide, key _ ‹_›⟩
    · cases h

/-- A thread with a stack of 3000 bytes: the stack pointer, its control block, and the argument on the stack. -/
example : (create toyKernel (fun _ => none) (some ⟨1, 0, 3000, 0⟩) ⟨7, 258, 9, 10, 100⟩).bind
    (fun r => (readN r.2.1 (2 ^ 20 + 4096 - 40) 8).map fun l => (r.1.toOption, l))
    = some (some ⟨2 ^ 21 + 8192, 2 ^ 20, 4096, false, 2 ^ 20 + 4096 - 56, 5⟩, [2, 1, 0, 0, 0, 0, 0, 0]) := by decide +kernel

end Verif.Threads
