import Verif.Ring.Model

/-!
# C111: buffers and queues of `redox_ring`
-/

namespace Verif.Ring

namespace Spec

/-- What a program does with the pool: it gets a buffer, or gives one back by its offset. -/
inductive Call where
  | get
  | free (o : Nat)

/-- The pool and the buffers in use, after one call. A program frees only what is in use. -/
inductive Step : Shm × List Nat → Call → Option Nat → Shm × List Nat → Prop where
  | got (s live o s') (h : allocBuf s = (some o, s')) : Step (s, live) .get (some o) (s', o :: live)
  | full (s live s') (h : allocBuf s = (none, s')) : Step (s, live) .get none (s', live)
  | freed (s live o) (h : o ∈ live) : Step (s, live) (.free o) none (freeBuf s o, live.erase o)

/-- Pools which a program can reach from a new pool of `total` bytes in chunks of `chunk`. -/
inductive Reach (total chunk : Nat) : Shm × List Nat → Prop where
  | new (s) (h : Shm.new total chunk = some s) : Reach total chunk (s, [])
  | step (x c r y) (hx : Reach total chunk x) (h : Step x c r y) : Reach total chunk y

end Spec

theorem nodup_chunks (n c : Nat) (hc : c ≠ 0) : ((List.range n).map (· * c)).Nodup := by
  rw [List.nodup_iff_pairwise_ne, List.pairwise_map]
  refine List.Pairwise.imp ?_ (List.pairwise_lt_range)
  intro a b h e
  have := Nat.eq_of_mul_eq_mul_right (Nat.pos_of_ne_zero hc) e
  omega

theorem reach_perm {total chunk : Nat} {x : Shm × List Nat} (h : Spec.Reach total chunk x) :
    chunk ≠ 0 ∧ x.1.chunk = chunk ∧ x.1.total = total ∧ (x.1.free ++ x.2).Perm ((List.range (total / chunk)).map (· * chunk)) := by
  induction h with
  | new s h =>
    unfold Shm.new at h
    split at h
    · exact nomatch h
    · cases h
      exact ⟨‹_›, rfl, rfl, by simp⟩
  | step x c r y hx hs ih =>
    obtain ⟨hc, h1, h2, hp⟩ := ih
    cases hs with
    | got s live o s' h =>
      unfold allocBuf allocSized Shm.allocate at h
      cases hf : s.free with
      | nil => rw [hf] at h; simp at h
      | cons o' l =>
        rw [hf] at h
        simp only [Prod.mk.injEq, Option.some.injEq] at h
        obtain ⟨rfl, rfl⟩ := h
        refine ⟨hc, h1, h2, ?_⟩
        simp only [hf] at hp ⊢
        exact List.perm_middle.trans hp
    | full s live s' h =>
      unfold allocBuf allocSized Shm.allocate at h
      cases hf : s.free with
      | nil =>
        rw [hf] at h
        simp only [Prod.mk.injEq, true_and] at h
        subst h
        exact ⟨hc, h1, h2, hp⟩
      | cons o' l => rw [hf] at h; simp at h
    | freed s live o h =>
      refine ⟨hc, h1, h2, ?_⟩
      refine List.Perm.trans ?_ hp
      show (o :: s.free ++ live.erase o).Perm (s.free ++ live)
      exact (List.perm_middle.symm).trans ((List.perm_cons_erase h).symm.append_left _)

/-- C111. Buffers in use lie inside the pool and do not overlap. A request fails exactly if all `total / chunk` buffers are in use. -/
theorem C111_pool (total chunk : Nat) (s : Shm) (live : List Nat) (h : Spec.Reach total chunk (s, live)) :
    (∀ o ∈ live, o + chunk ≤ total) ∧
    live.Pairwise (fun a b => a + chunk ≤ b ∨ b + chunk ≤ a) ∧
    ((allocBuf s).1 = none ↔ live.length = total / chunk) := by
  obtain ⟨hc, _, _, hp⟩ := reach_perm h
  have hmem : ∀ o ∈ live, ∃ i, i < total / chunk ∧ o = i * chunk := by
    intro o ho
    have := hp.subset (List.mem_append_right _ ho)
    simp only [List.mem_map, List.mem_range] at this
    obtain ⟨i, hi, rfl⟩ := this
    exact ⟨i, hi, rfl⟩
  have hnd : (s.free ++ live).Nodup := hp.nodup_iff.2 (nodup_chunks _ _ hc)
  have hnl : live.Nodup := (List.nodup_append.1 hnd).2.1
  refine ⟨?_, ?_, ?_⟩
  · intro o ho
    obtain ⟨i, hi, rfl⟩ := hmem o ho
    have : (i + 1) * chunk ≤ total / chunk * chunk := Nat.mul_le_mul_right _ hi
    have := Nat.div_mul_le_self total chunk
    rw [Nat.add_mul, Nat.one_mul] at *
    omega
  · rw [List.pairwise_iff_getElem]
    intro i j hi hj hij
    obtain ⟨a, _, ha⟩ := hmem _ (List.getElem_mem hi)
    obtain ⟨b, _, hb⟩ := hmem _ (List.getElem_mem hj)
    rw [ha, hb]
    have hne : a ≠ b := by
      rintro rfl
      have := (List.pairwise_iff_getElem.1 (List.nodup_iff_pairwise_ne.1 hnl)) i j hi hj hij
      exact this (ha.trans hb.symm)
    rcases Nat.lt_or_gt_of_ne hne with hlt | hlt
    · left
      have : (a + 1) * chunk ≤ b * chunk := Nat.mul_le_mul_right _ hlt
      rw [Nat.add_mul, Nat.one_mul] at this
      exact this
    · right
      have : (b + 1) * chunk ≤ a * chunk := Nat.mul_le_mul_right _ hlt
      rw [Nat.add_mul, Nat.one_mul] at this
      exact this
  · have hl := hp.length_eq
    simp only [List.length_append, List.length_map, List.length_range] at hl
    unfold allocBuf allocSized Shm.allocate
    cases hf : s.free with
    | nil => rw [hf] at hl; simp at hl ⊢; omega
    | cons o l => rw [hf] at hl; simp at hl ⊢; omega

theorem pow_mod {k : Nat} (h : 2 ^ k % 2 ^ 32 ≠ 0) : k < 32 := by
  rcases Nat.lt_or_ge k 32 with hk | hk
  · exact hk
  · exfalso
    apply h
    rw [show k = 32 + (k - 32) by omega, Nat.pow_add]
    exact Nat.mul_mod_right _ _

/-- Every number that is not zero lies between the power of two chosen and its double. -/
theorem chosen (raw : Nat) (h0 : (if isPow2 raw then raw else nextPow2 raw / 2) ≠ 0) :
    ∃ k, (if isPow2 raw then raw else nextPow2 raw / 2) = 2 ^ k ∧ 2 ^ k ≤ raw ∧ raw < 2 * 2 ^ k := by
  by_cases hp : isPow2 raw = true
  · simp only [hp, ↓reduceIte]
    unfold isPow2 at hp
    simp only [ne_eq, decide_not, Bool.and_eq_true, Bool.not_eq_eq_eq_not, Bool.not_true, decide_eq_false_iff_not,
      decide_eq_true_eq] at hp
    exact ⟨raw.log2, hp.2.symm, by omega, by omega⟩
  · simp only [hp, Bool.false_eq_true, ↓reduceIte] at h0 ⊢
    by_cases h1 : raw ≤ 1
    · exfalso
      apply h0
      simp [nextPow2, h1]
    · have e : nextPow2 raw / 2 = 2 ^ (raw - 1).log2 := by
        unfold nextPow2
        rw [if_neg h1, Nat.pow_succ]
        omega
      have h3 : raw - 1 ≠ 0 := by omega
      have h4 := Nat.log2_self_le h3
      have h5 : raw - 1 < 2 ^ ((raw - 1).log2 + 1) := Nat.lt_log2_self
      have h6 : raw ≠ 2 ^ ((raw - 1).log2 + 1) := by
        intro he
        apply hp
        unfold isPow2
        have : raw.log2 = (raw - 1).log2 + 1 := by
          rw [he, Nat.log2_two_pow, ← he]
        simp only [ne_eq, decide_not, Bool.and_eq_true, Bool.not_eq_eq_eq_not, Bool.not_true, decide_eq_false_iff_not,
          decide_eq_true_eq]
        exact ⟨by omega, by rw [this]; exact he.symm⟩
      rw [Nat.pow_succ] at h5 h6
      exact ⟨_, e, by omega, by omega⟩

/-- C111. A queue has the largest power of two of entries which fit into its memory after the header; a memory smaller than the header is
refused. -/
theorem C111_queue (size item len : Nat) (hs : size < 2 ^ 64) (hi : item < 2 ^ 32) (h : queueLen size item = some len) :
    256 + len * item ≤ size ∧ size < 256 + 2 * len * item ∧ ∃ k, len = 2 ^ k := by
  unfold queueLen at h
  by_cases hi0 : item = 0
  · rw [if_pos hi0] at h; exact nomatch h
  rw [if_neg hi0] at h
  generalize ha : (size + 2 ^ 64 - HEADER) % 2 ^ 64 = avail at h
  simp only at h
  generalize hr : avail / item = raw at h
  have e2 : raw * item ≤ avail := by rw [← hr]; exact Nat.div_mul_le_self _ _
  have e4 : avail < (raw + 1) * item := by
    rw [← hr, Nat.mul_comm]
    exact Nat.lt_mul_div_succ avail (Nat.pos_of_ne_zero hi0)
  by_cases hz : (if isPow2 raw then raw else nextPow2 raw / 2) % 2 ^ 32 = 0
  · rw [if_pos hz] at h; exact nomatch h
  rw [if_neg hz] at h
  simp only [Option.some.injEq] at h
  obtain ⟨k, hk, h1, h2⟩ := chosen raw (by intro he; apply hz; rw [he])
  rw [hk] at h hz
  have hk32 := pow_mod hz
  have hlt : 2 ^ k ≤ 2 ^ 31 := Nat.pow_le_pow_right (by omega) (by omega)
  rw [Nat.mod_eq_of_lt (by omega)] at h
  subst h
  have hraw : raw < 2 ^ 32 := by omega
  have hav : avail < 2 ^ 64 - 256 := by
    have : (raw + 1) * item ≤ 2 ^ 32 * (2 ^ 32 - 1) := Nat.mul_le_mul (by omega) (by omega)
    omega
  have hsz : 256 ≤ size ∧ avail = size - 256 := by
    unfold HEADER at ha
    rcases Nat.lt_or_ge size 256 with hlt | hge
    · rw [Nat.mod_eq_of_lt (by omega)] at ha
      omega
    · rw [show size + 2 ^ 64 - 256 = (size - 256) + 2 ^ 64 by omega, Nat.add_mod_right, Nat.mod_eq_of_lt (by omega)] at ha
      exact ⟨hge, ha.symm⟩
  have e1 : 2 ^ k * item ≤ raw * item := Nat.mul_le_mul_right _ h1
  have e3 : (raw + 1) * item ≤ 2 * 2 ^ k * item := Nat.mul_le_mul_right _ h2
  exact ⟨by omega, by omega, k, rfl⟩

/-- C111 fails: `redox_ring_alloc_sized` on a pool of chunks gives a buffer that is smaller than what was asked for; the second buffer
begins inside it. -/
theorem C111_sized_violation : ∃ (s s1 s2 : Shm) (size a b : Nat), Shm.new 65536 4096 = some s ∧ allocSized s size 1 = (some a, s1) ∧
    allocSized s1 size 1 = (some b, s2) ∧ a < b ∧ b < a + size :=
  ⟨_, _, _, 8192, 0, 4096, rfl, rfl, rfl, by decide, by decide⟩

/-- C111 fails: `redox_ring_free_buf_sized` on a pool of chunks always frees the first buffer of the pool. Here the second is freed, and then
the first, still in use, is given out again. -/
theorem C111_free_sized_violation : ∃ (s s1 s2 s3 : Shm) (a b : Nat), Shm.new 65536 4096 = some s ∧ allocBuf s = (some a, s1) ∧
    allocBuf s1 = (some b, s2) ∧ a ≠ b ∧ allocBuf (freeBufSized s2 b) = (some a, s3) :=
  ⟨_, _, _, _, 0, 4096, rfl, rfl, rfl, by decide, rfl⟩

/-! Two buffers of a pool of two, and none left. -/
example : ∃ s, Spec.Reach 8192 4096 (s, [4096, 0]) ∧ (allocBuf s).1 = none :=
  ⟨⟨[], 4096, 8192⟩, .step _ .get (some 4096) _ (.step _ .get (some 0) _ (.new _ rfl) (.got _ _ 0 _ rfl)) (.got _ _ 4096 _ rfl), rfl⟩
example : queueLen 65536 64 = some 512 ∧ queueLen 4352 64 = some 64 := by decide +kernel

end Verif.Ring
