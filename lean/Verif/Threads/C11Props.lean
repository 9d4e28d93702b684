import Verif.Threads.C11Model
import Verif.Threads.CreateProps

/-!
# `threads.h` (C116)
-/

namespace Verif.Threads

open Verif.Mem Verif.Net Verif.Stdlib Verif.Time

/-! ## Specification -/

/-- `n` calls of `mtx_trylock` by `t`: their results, and the mutex. -/
def trylocks (t : Nat) : Nat → Mtx → List Nat × Mtx
  | 0, x => ([], x)
  | n + 1, x =>
    let (r, x, _) := mtxTrylock t x
    let (rs, x) := trylocks t n x
    (r :: rs, x)

/-- `n` calls of `mtx_unlock` by `t`. -/
def unlocks (t : Nat) : Nat → Mtx → List Nat × Mtx
  | 0, x => ([], x)
  | n + 1, x =>
    let (r, x) := mtxUnlock t x
    let (rs, x) := unlocks t n x
    (r :: rs, x)

/-- The mutex `x` is held `n` times by `t`. -/
structure Held (x : Mtx) (t n : Nat) : Prop where
  rec' : x.ty = .recursive
  word : x.word = if n = 0 then 0 else t
  count : x.count = n

/-! ## Helpers -/

theorem held_lock {x : Mtx} {t n : Nat} (ht : t ≠ 0) (h : Held x t n) (hn : n < 2 ^ 32 - 1) :
    ∃ x', mtxTrylock t x = (0, x', 0) ∧ Held x' t (n + 1) := by
  obtain ⟨w, c, ty, rb⟩ := x
  obtain ⟨h1, h2, h3⟩ := h
  dsimp only at h1 h2 h3
  subst h1 h2 h3
  have hc : c ≠ 2 ^ 32 - 1 := by omega
  refine ⟨⟨t, c + 1, .recursive, rb⟩, ?_, rfl, by simp, rfl⟩
  unfold mtxTrylock tryLock incCount
  by_cases hz : c = 0
  · simp [hz, report, code, thrd_success]
  · simp [hz, hc, ht, report, code, thrd_success]

theorem held_unlock {x : Mtx} {t n : Nat} (h : Held x t (n + 1)) (hn : n + 1 < 2 ^ 32) : ∃ x', mtxUnlock t x = (0, x') ∧ Held x' t n := by
  obtain ⟨w, c, ty, rb⟩ := x
  obtain ⟨h1, h2, h3⟩ := h
  dsimp only at h1 h2 h3
  rw [if_neg (by omega)] at h2
  subst h1 h2 h3
  refine ⟨⟨if n = 0 then 0 else w, n, .recursive, rb⟩, ?_, rfl, rfl, rfl⟩
  unfold mtxUnlock unlock
  rw [if_neg (by simp)]
  simp only [ite_true, if_neg (Nat.succ_ne_zero n), Nat.add_sub_cancel]
  by_cases hz : n = 0
  · subst hz
    rfl
  · have hp : n > 0 := by omega
    simp only [if_pos hp, if_neg hz]
    rfl

theorem held_locks {t : Nat} (ht : t ≠ 0) (k : Nat) : ∀ {x : Mtx} {n : Nat}, Held x t n → n + k < 2 ^ 32 →
    ∃ x', trylocks t k x = (List.replicate k 0, x') ∧ Held x' t (n + k) := by
  induction k with
  | zero => intro x n h _; exact ⟨x, rfl, h⟩
  | succ k ih =>
    intro x n h hn
    obtain ⟨x1, e1, h1⟩ := held_lock ht h (by omega)
    obtain ⟨x2, e2, h2⟩ := ih h1 (by omega)
    refine ⟨x2, ?_, by rwa [show n + (k + 1) = n + 1 + k by omega]⟩
    simp only [trylocks, e1, e2]
    rfl

theorem held_unlocks {t : Nat} (k : Nat) : ∀ {x : Mtx} {n : Nat}, Held x t (n + k) → n + k < 2 ^ 32 →
    ∃ x', unlocks t k x = (List.replicate k 0, x') ∧ Held x' t n := by
  induction k with
  | zero => intro x n h _; exact ⟨x, rfl, h⟩
  | succ k ih =>
    intro x n h hn
    obtain ⟨x1, e1, h1⟩ := held_unlock (n := n + k) h (by omega)
    obtain ⟨x2, e2, h2⟩ := ih h1 (by omega)
    refine ⟨x2, ?_, h2⟩
    simp only [unlocks, e1, e2]
    rfl

theorem incCount_word (x : Mtx) : (incCount x).2.word = x.word := by unfold incCount; split <;> rfl

theorem lockInner_word {t : Nat} {d : Bool} {ws : List Turn} {x x' : Mtx} (h : lockInner t d ws x = some (.ok (), x')) : x'.word = t := by
  induction ws generalizing x with
  | nil => cases h
  | cons w ws ih =>
    unfold lockInner at h
    dsimp only at h
    split at h
    · split at h
      · simp only [Option.some.injEq] at h
        have := incCount_word { x with word := t }
        rw [h] at this
        exact this
      · cases h
        rfl
    · split at h
      · rename_i hc
        simp only [Option.some.injEq] at h
        have := incCount_word { x with word := w.word }
        rw [h] at this
        exact this.trans hc.1
      · split at h
        · cases h
        · split at h
          · exact ih h
          · split at h
            · cases h
            · exact ih h

theorem code_zero {r : Except Nat Unit} (h : ∀ e, r = .error e → e ≠ 0) : code r = 0 ↔ r = .ok () := by
  cases r with
  | ok u => simp [code]
  | error e => simp [code, h e rfl]

theorem lockInner_err {t : Nat} {d : Bool} {ws : List Turn} {x x' : Mtx} {e : Nat} (h : lockInner t d ws x = some (.error e, x')) :
    e = EAGAIN ∨ e = ETIMEDOUT ∧ d = true := by
  induction ws generalizing x with
  | nil => cases h
  | cons w ws ih =>
    have hi : ∀ {y z : Mtx}, incCount y = (.error e, z) → e = EAGAIN := by
      intro y z hy
      unfold incCount at hy
      split at hy
      · cases hy
        rfl
      · cases hy
    unfold lockInner at h
    dsimp only at h
    split at h
    · split at h
      · simp only [Option.some.injEq] at h
        exact .inl (hi h)
      · cases h
    · split at h
      · simp only [Option.some.injEq] at h
        exact .inl (hi h)
      · split at h
        · cases h
          exact .inl rfl
        · split at h
          · exact ih h
          · split at h
            · rename_i hc
              cases h
              exact .inr ⟨rfl, hc.2⟩
            · exact ih h

theorem create_err {k : Kernel} {m m' : Mem UInt8} {a : Option Attr} {x : Args} {c e : Nat} (h : create k m a x = some (.error c, m', e)) : c ≠ 0 := by
  unfold create at h
  dsimp only at h
  generalize a.getD Attr.default = b at h
  split at h
  · cases h; decide
  · split at h
    · cases h
    · split at h
      · cases h; decide
      · simp only [Option.bind_eq_bind, Option.bind_eq_some_iff] at h
        obtain ⟨⟨m3, sp⟩, h3, h4⟩ := h
        dsimp only at h4
        split at h4
        · cases h4; decide
        · cases h4

/-! ## C116 -/

/-- C116, recursive mutexes: after `mtx_init` with `mtx_recursive` (alone or together with other bits), the thread which has the mutex can lock it again,
`n` times in all; after `k` calls of `mtx_unlock` it still holds it, unless `k = n`, then any other thread can lock it. -/
theorem C116_recursive {ty : UInt32} (hty : ty &&& 1 = 1) {t u n k : Nat} (ht : t ≠ 0) (hu : u ≠ 0) (htu : u ≠ t) (hn : n < 2 ^ 32) (hk : k ≤ n) :
    ∃ x x' x'', mtxInit ty = (0, some x) ∧ trylocks t n x = (List.replicate n 0, x') ∧ unlocks t k x' = (List.replicate k 0, x'')
      ∧ ((mtxTrylock u x'').1 = 0 ↔ k = n) := by
  have h0 : Held ⟨0, 0, .recursive, false⟩ t 0 := ⟨rfl, rfl, rfl⟩
  obtain ⟨x', e1, h1⟩ := held_locks ht n h0 (by omega)
  rw [Nat.zero_add, show n = n - k + k by omega] at h1
  obtain ⟨x'', e2, h2⟩ := held_unlocks k h1 (by omega)
  refine ⟨_, x', x'', by rw [mtxInit, if_pos hty]; rfl, e1, e2, ?_⟩
  obtain ⟨g1, g2, g3⟩ := h2
  unfold mtxTrylock tryLock incCount
  by_cases hz : k = n
  · rw [if_pos (by omega)] at g2
    simp only [g2, g1, g3, ite_true]
    simp [hz, report, code, thrd_success]
  · rw [if_neg (by omega)] at g2
    simp only [g2, g1, g3, if_neg ht, ite_true]
    simp [hz, ht, Ne.symm htu, report, code, thrd_error, EBUSY, thrd_success]

/-- C116, other mutexes: locked once, they cannot be locked again, by nobody, until they are unlocked. -/
theorem C116_plain {ty : UInt32} (hty : ty &&& 1 ≠ 1) {t u v : Nat} (ht : t ≠ 0) :
    ∃ x x' x'', mtxInit ty = (0, some x) ∧ mtxTrylock t x = (0, x', 0) ∧ (mtxTrylock u x').1 ≠ 0 ∧ (mtxTrylock u x').2.1 = x'
      ∧ mtxUnlock t x' = (0, x'') ∧ (mtxTrylock v x'').1 = 0 := by
  refine ⟨⟨0, 0, .normal, false⟩, ⟨t, 0, .normal, false⟩, ⟨0, 0, .normal, false⟩, ?_, ?_, ?_, ?_, ?_, ?_⟩
  · rw [mtxInit, if_neg hty]; rfl
  · simp [mtxTrylock, tryLock, report, code, thrd_success]
  · simp [mtxTrylock, tryLock, report, code, ht, EBUSY, thrd_error]
  · simp [mtxTrylock, tryLock, ht]
  · simp [mtxUnlock, unlock, code, thrd_success]
  · simp [mtxTrylock, tryLock, report, code, thrd_success]

/-- C116, `mtx_trylock` of any mutex: it reports success exactly if the caller has the mutex now which was free, or (recursive mutexes) had it already;
otherwise the mutex is as before. Missing: the result says why (`C116_busy_violation`). -/
theorem C116_trylock_partial (t : Nat) (x : Mtx) (hc : x.count = 2 ^ 32 - 1 → x.ty = .recursive → x.word ≠ 0) :
    ((mtxTrylock t x).1 = 0 ↔ x.word = 0 ∨ x.word = t ∧ x.ty = .recursive ∧ x.count ≠ 2 ^ 32 - 1)
      ∧ ((mtxTrylock t x).1 = 0 → (mtxTrylock t x).2.1.word = t)
      ∧ ((mtxTrylock t x).1 ≠ 0 → (mtxTrylock t x).2.1 = x) := by
  obtain ⟨w, c, ty, rb⟩ := x
  dsimp only at hc
  unfold mtxTrylock tryLock incCount
  by_cases hw : w = 0
  · subst hw
    by_cases hty : ty = .recursive
    · have : c ≠ 2 ^ 32 - 1 := fun h => hc h hty rfl
      simp [hty, this, report, code, thrd_success]
    · simp [hty, report, code, thrd_success]
  · by_cases hty : ty = .recursive
    · by_cases hwt : w = t
      · subst hwt
        by_cases h' : c = 2 ^ 32 - 1
        · simp [hw, hty, h', report, code, EAGAIN, EBUSY, thrd_error]
        · simp [hw, hty, h', report, code, thrd_success]
      · simp [hw, hty, hwt, report, code, EBUSY, thrd_error]
    · by_cases h' : w = t ∧ ty = .errck
      · simp [hw, h'.1 ▸ hw, hty, h', report, code, EDEADLK, EBUSY, thrd_error]
      · simp [hw, hty, h', report, code, EBUSY, thrd_error]

/-- C116 fails for the result of `mtx_trylock`: if another thread has the mutex, it is `thrd_error` (2), not `thrd_busy` (1); and `errno`, which no
function of the C standard sets to 0, is 0 afterwards. -/
theorem C116_busy_violation {t : Nat} {x : Mtx} (h0 : x.word ≠ 0) (h : x.word ≠ t) : mtxTrylock t x = (2, x, 0) := by
  have h' : ¬ (x.word = t ∧ x.ty = .errck) := fun c => h c.1
  unfold mtxTrylock tryLock
  by_cases hty : x.ty = .recursive
  · simp [h0, h, hty, report, code, EBUSY, thrd_error]
  · simp [h0, h, hty, report, code, EBUSY, thrd_error]

/-- C116, `mtx_lock`: whatever the other threads do, when it reports success the caller has the mutex. -/
theorem C116_lock {t : Nat} {ws : List Turn} {x x' : Mtx} (h : mtxLock t ws x = some (0, x')) : x'.word = t := by
  unfold mtxLock at h
  split at h
  · cases h
  · rename_i r y e
    cases r with
    | ok u =>
      simp only [Option.some.injEq, Prod.mk.injEq] at h
      rw [← h.2]
      exact lockInner_word e
    | error c =>
      have hz : c ≠ 0 := by have := lockInner_err e; simp [EAGAIN, ETIMEDOUT] at this; omega
      simp [code, hz, thrd_error] at h

/-- C116, `mtx_timedlock`: when it reports success the caller has the mutex. Missing: the result in case of a timeout
(`C116_timeout_violation`). -/
theorem C116_timedlock_partial {t : Nat} {now mono abs : Timespec} {ws : List Turn} {x x' : Mtx} {e : Nat}
    (h : mtxTimedlock t now mono abs ws x = some (0, x', e)) : x'.word = t := by
  unfold mtxTimedlock at h
  dsimp only at h
  split at h
  · exact absurd h (by simp [report, ETIMEDOUT, thrd_error])
  · exact absurd h (by simp [report, ENOMEM, ETIMEDOUT, thrd_error])
  · split at h
    · cases h
    · rename_i r y e'
      cases r with
      | ok u =>
        simp only [Option.some.injEq, Prod.mk.injEq] at h
        rw [← h.2.1]
        exact lockInner_word e'
      | error c =>
        have hz : c ≠ 0 := by have := lockInner_err e'; simp [EAGAIN, ETIMEDOUT] at this; omega
        simp [report, code, hz, ETIMEDOUT, thrd_error] at h

/-- C116 fails for timeouts: `thrd_timedout` (4) is never reported, by `mtx_timedlock` ... -/
theorem C116_timeout_violation (t : Nat) (now mono abs : Timespec) (ws : List Turn) (x x' : Mtx) (r e : Nat)
    (h : mtxTimedlock t now mono abs ws x = some (r, x', e)) : r = 0 ∨ r = 2 := by
  have key : ∀ c, report c 0 ETIMEDOUT thrd_timedout = 0 ∨ report c 0 ETIMEDOUT thrd_timedout = 2 := by
    intro c
    unfold report
    split
    · exact .inl rfl
    · exact .inr rfl
  unfold mtxTimedlock at h
  dsimp only at h
  split at h
  · cases h; exact key _
  · cases h; exact key _
  · split at h
    · cases h
    · cases h; exact key _

/-- ... nor by `cnd_timedwait`. -/
theorem C116_cnd_timeout_violation (t : Nat) (now mono abs : Timespec) (w : Wait) (ws : List Turn) (x x' : Mtx) (r e : Nat)
    (h : cndTimedwait t now mono abs w ws x = some (r, x', e)) : r = 0 ∨ r = 2 := by
  have key : ∀ c, report c 0 ETIMEDOUT thrd_timedout = 0 ∨ report c 0 ETIMEDOUT thrd_timedout = 2 := by
    intro c
    unfold report
    split
    · exact .inl rfl
    · exact .inr rfl
  unfold cndTimedwait at h
  dsimp only at h
  split at h
  · cases h; exact key _
  · cases h; exact key _
  · split at h
    · cases h; exact key _
    · split at h
      · cases h
      · cases h; exact key _
      · cases h; exact key _

/-- C116, `cnd_timedwait`: when it reports success the caller has the mutex again, and the wait has not timed out. -/
theorem C116_cnd_partial {t : Nat} {now mono abs : Timespec} {w : Wait} {ws : List Turn} {x x' : Mtx} {e : Nat}
    (h : cndTimedwait t now mono abs w ws x = some (0, x', e)) : x'.word = t ∧ w ≠ .timedOut := by
  unfold cndTimedwait at h
  dsimp only at h
  split at h
  · exact absurd h (by simp [report, ETIMEDOUT, thrd_error])
  · exact absurd h (by simp [report, ENOMEM, ETIMEDOUT, thrd_error])
  · split at h
    · rename_i c y hy
      have hz : c ≠ 0 := by
        unfold unlock at hy
        dsimp only at hy
        generalize (if x.count = 0 then 2 ^ 32 - 1 else x.count - 1) = next at hy
        split at hy
        · cases hy; decide
        · split at hy
          · split at hy <;> cases hy
          · cases hy
      simp [report, hz, ETIMEDOUT, thrd_error] at h
    · split at h
      · cases h
      · rename_i c z hz'
        have hz : c ≠ 0 := by have := lockInner_err hz'; simp [EAGAIN, ETIMEDOUT] at this; omega
        simp [report, hz, ETIMEDOUT, thrd_error] at h
      · rename_i z hz'
        by_cases hw : w = .timedOut
        · simp [report, hw, ETIMEDOUT, thrd_error] at h
        · simp only [Option.some.injEq, Prod.mk.injEq] at h
          rw [← h.2.1]
          exact ⟨lockInner_word hz', hw⟩

/-- C116, `mtx_unlock`: a mutex which is not locked by the caller is refused if it is recursive, and stays as it is. -/
theorem C116_unlock {t : Nat} {x : Mtx} (hty : x.ty = .recursive) (h : x.word ≠ t) : mtxUnlock t x = (2, x) := by
  simp [mtxUnlock, unlock, hty, h, code, EPERM, thrd_error]

/-- C116, `thrd_create`: success is reported exactly if there is a new thread (which C115 describes). Missing: the reason of a failure
(`C116_nomem_violation`). -/
theorem C116_create_partial {k : Kernel} {m m' : Mem UInt8} {x : Args} {r e : Nat} {t : Option Thread}
    (h : thrdCreate k m x = some (r, t, m', e)) : (r = 0 ↔ t.isSome) ∧ ∀ t', t = some t' → create k m none x = some (.ok t', m', e) := by
  unfold thrdCreate at h
  simp only [Option.bind_eq_bind, Option.bind_eq_some_iff] at h
  obtain ⟨⟨r1, m1, e1⟩, h1, h2⟩ := h
  dsimp only at h2
  split at h2
  · cases h2
    exact ⟨by simp [report, thrd_success], fun t' ht => by cases ht; exact h1⟩
  · rename_i c
    cases h2
    have hc : c ≠ 0 := create_err h1
    refine ⟨?_, fun t' ht => by cases ht⟩
    unfold report
    rw [if_neg hc]
    split <;> simp [thrd_nomem, thrd_error]

/-- C116 fails for the reason of a failure: without memory for the control block of the new thread `thrd_create` reports `thrd_error` (2), not
`thrd_nomem` (3). -/
theorem C116_nomem_violation {k : Kernel} {m : Mem UInt8} {x : Args} {base : Nat} (h1 : k.mmap m (1024 * 1024) = .ok base)
    (h2 : ∀ m' n, n ≠ 1024 * 1024 → k.mmap m' n = .error 12) (h3 : 4096 + (x.tls + 4095) / 4096 * 4096 + 4096 ≠ 1024 * 1024) :
    ∃ m', thrdCreate k m x = some (2, none, m', 0) := by
  have hs : pages Attr.default.stacksize = 1024 * 1024 := by decide
  have e1 : newStack k m Attr.default = .ok (base, mapZero m base (1024 * 1024)) := by
    rw [newStack, if_neg (by decide), sysMmap, hs, if_neg (by decide), ← hs, pages_pages, hs, h1]
  have e2 : ∀ m', newTcb k m' x.tls = .error 12 := by
    intro m'
    have hp : pages (4096 + pages x.tls + 4096) = 4096 + (x.tls + 4095) / 4096 * 4096 + 4096 := by unfold pages; omega
    unfold newTcb sysMmap
    rw [if_neg (by omega), hp, h2 _ _ h3]
  generalize mapZero m base (1024 * 1024) = m1 at e1
  refine ⟨munmap m1 base (pages Attr.default.stacksize), ?_⟩
  have e3 : create k m none x = some (.error ENOMEM, munmap m1 base (pages Attr.default.stacksize), 0) := by
    unfold create
    simp only [Option.getD_none, e1, e2]
    rw [if_neg (by decide)]
  unfold thrdCreate
  rw [e3]
  simp [report, ENOMEM, thrd_error]

/-- C116, `thrd_join`: the result of the thread is stored as an `int`. Missing: nothing else is changed (`C116_join_violation`). -/
theorem C116_join_partial {m : Mem UInt8} {p high : Nat} {res : UInt32} (hp : p ≠ 0) (hm : Mapped m p 8) :
    ∃ m', thrdJoin m false (retval res high) p = some (0, m') ∧ Bytes m' p (leBytes 4 res.toNat) := by
  unfold thrdJoin
  rw [if_neg (by simp), if_neg hp, writeN_eq (by rwa [leBytes_length])]
  refine ⟨_, rfl, ?_⟩
  have hb := bytes_patch m p (leBytes 8 (retval res high))
  have e : leBytes 8 (retval res high) = leBytes 4 res.toNat ++ leBytes 4 high := by
    have hr : retval res high = res.toNat + 4294967296 * high := by simp [retval]
    have hlt : res.toNat < 4294967296 := res.toNat_lt
    generalize res.toNat = r at hr hlt
    rw [hr]
    have a1 : (r + 4294967296 * high) % 256 = r % 256 := by omega
    have a2 : (r + 4294967296 * high) / 256 % 256 = r / 256 % 256 := by omega
    have a3 : (r + 4294967296 * high) / 256 / 256 % 256 = r / 256 / 256 % 256 := by omega
    have a4 : (r + 4294967296 * high) / 256 / 256 / 256 % 256 = r / 256 / 256 / 256 % 256 := by omega
    have a5 : (r + 4294967296 * high) / 256 / 256 / 256 / 256 = high := by omega
    simp only [leBytes, a1, a2, a3, a4, a5, List.cons_append, List.nil_append]
  rw [e] at hb
  rw [e]
  exact (bytes_append.mp hb).1

/-- C116 fails for `thrd_join`: it stores eight bytes, so the four bytes behind the `int` are changed. -/
theorem C116_join_violation {m : Mem UInt8} {p : Nat} (hp : p ≠ 0) (hm : Mapped m p 8) :
    ∃ m', thrdJoin m false (retval 7 0) p = some (0, m') ∧ Bytes m' (p + 4) [0, 0, 0, 0] := by
  unfold thrdJoin
  rw [if_neg (by simp), if_neg hp, writeN_eq (by rwa [leBytes_length])]
  refine ⟨_, rfl, ?_⟩
  have hb := bytes_patch m p (leBytes 8 (retval 7 0))
  rw [show leBytes 8 (retval 7 0) = [7, 0, 0, 0] ++ [0, 0, 0, 0] by decide] at hb ⊢
  exact (bytes_append.mp hb).2

/-- C116 fails for `thrd_sleep`: it panics. -/
theorem C116_sleep_violation (t : Timespec) : thrdSleep t = none := rfl

/-! ## Examples -/

/-- Thread 5 locks a recursive mutex twice and unlocks it once; thread 6 does not get it. -/
example : (mtxTrylock 6 (unlocks 5 1 (trylocks 5 2 ⟨0, 0, .recursive, false⟩).2).2).1 = 2 := by decide

/-- Thread 5 waits while thread 6 has the mutex, and then gets it. -/
example : mtxLock 5 [⟨6, false, .waited⟩, ⟨0, true, .waited⟩, ⟨0, false, .waited⟩] ⟨6, 0, .normal, false⟩ = some (0, ⟨5, 0, .normal, false⟩) := by
  decide

end Verif.Threads
