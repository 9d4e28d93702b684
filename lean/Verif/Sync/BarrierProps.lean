import Verif.Sync.BarrierModel

/-!
# C12: `pthread_barrier_wait`
-/

namespace Verif.Sync.Barrier
open Verif.Conc

variable {T : Type} [DecidableEq T]

/-- Accounting, valid without any bound on the history. -/
structure Inv (n : Nat) (s : State T) : Prop where
  lt : s.count < n
  gen : s.gen = s.rounds % M
  past : ∀ r, r < s.rounds → s.arrived r = n
  now : s.arrived s.rounds = s.count
  fut : ∀ r, s.rounds < r → s.arrived r = 0
  wait : ∀ t c g r, s.pc t = .wWait c g r → r ≤ s.rounds ∧ g = r % M
  slp : ∀ t g r, s.pc t = .sleeping g r → r ≤ s.rounds ∧ g = r % M
  rel : ∀ t g r, s.pc t = .relock g r → r ≤ s.rounds ∧ g = r % M
  ret : ∀ t r v, s.pc t = .ret r v → r < s.rounds
  own : ∀ t, s.owner = some t ↔ ∃ r, s.pc t = .bWake r
  bw : ∀ t r, s.pc t = .bWake r → r + 1 = s.rounds
  ser : ∀ r, s.returned.count (r, .serial) = if r < s.rounds ∧ (s.owner = none ∨ r + 1 ≠ s.rounds) then 1 else 0

theorem inv_init (n : Nat) (hn : 0 < n) (s : State T) (h : (sys n T).init s) : Inv n s := by
  obtain ⟨h1, h2, h3, h4, h5, h6, h7, h8, h9, h10⟩ := h
  constructor <;> simp_all [M]

set_option maxHeartbeats 4000000 in
theorem inv_step (n : Nat) (s s' : State T) (h : Inv n s) (st : (sys n T).step s s') : Inv n s' := by
  obtain ⟨h1, h2, h3, h4, h5, h6, h7, h8, h9, h10, h11, h12⟩ := h
  have st : Step n s s' := st
  have hb : ∀ t r, s.pc t = .bWake r → s.owner = some t := fun t r h => (h10 t).mpr ⟨r, h⟩
  cases st <;>
    (refine ⟨?_, ?_, ?_, ?_, ?_, ?_, ?_, ?_, ?_, ?_, ?_, ?_⟩ <;>
      simp only [upd, wakeAll, State.doReturn, List.count_cons, M] at * <;>
      first | grind | grind (splits := 20))

theorem inv_reachable (n : Nat) (hn : 0 < n) : ∀ s : State T, Reachable (sys n T) s → Inv n s :=
  Reachable.invariant (inv_init n hn) (inv_step n)

/-- Wake-ups, while fewer than 2^32 rounds have been completed. -/
structure InvW (s : State T) : Prop where
  ord : s.rounds < M → s.prev ≤ s.cur ∧ s.cur ≤ s.prev + 1 ∧ s.cur ≤ s.rounds
  ww : s.rounds < M → ∀ t c g r, s.pc t = .wWait c g r → c ≤ s.prev
  wd : s.rounds < M → ∀ t c g r, s.pc t = .wWait c g r → r < s.rounds → c < s.cur
  sd : s.rounds < M → ∀ t g r, s.pc t = .sleeping g r → r < s.rounds → ∃ u r', s.pc u = .bWake r'

set_option maxHeartbeats 4000000 in
theorem invW_reachable (n : Nat) (hn : 0 < n) : ∀ s : State T, Reachable (sys n T) s → InvW s := by
  refine Reachable.invariant_with (I := InvW) (inv_reachable n hn) ?_ ?_
  · intro s ⟨h1, h2, h3, h4, h5, h6, h7, h8, h9, h10⟩
    constructor <;> simp_all
  · intro s s' hI h st
    obtain ⟨_, h2, _, _, _, h6, h7, h8, h9, h10, h11, _⟩ := hI
    obtain ⟨w1, w2, w3, w4⟩ := h
    have st : Step n s s' := st
    cases st <;>
      (refine ⟨?_, ?_, ?_, ?_⟩ <;>
        simp only [upd, wakeAll, State.doReturn, M] at * <;>
        first | grind | grind (splits := 20))

/-- The round of the call the thread is waiting in. -/
def waitsIn : PC → Option Nat
  | .wWait _ _ r => some r
  | .sleeping _ r => some r
  | .relock _ r => some r
  | _ => none

omit [DecidableEq T] in
theorem waitsIn_wakeAll (pc : T → PC) (t : T) : waitsIn (wakeAll pc t) = waitsIn (pc t) := by
  unfold wakeAll
  cases pc t <;> rfl

theorem countP_erase' {α : Type} [BEq α] [LawfulBEq α] (p : α → Bool) (l : List α) (a : α) (h : a ∈ l) :
    (l.erase a).countP p + (if p a then 1 else 0) = l.countP p := by
  rw [(List.perm_cons_erase h).countP_eq, List.countP_cons]

/-- The calls still waiting and the calls that returned, counted. -/
structure InvC (s : State T) : Prop where
  mem : ∀ t r, (t, r) ∈ s.inside ↔ waitsIn (s.pc t) = some r
  nodup : s.inside.Nodup
  cnt : ∀ r, s.returned.count (r, .waited) + s.inside.countP (fun p => p.2 == r) +
    (if r < s.rounds then 1 else 0) = s.arrived r

theorem invC_reachable (n : Nat) (hn : 0 < n) : ∀ s : State T, Reachable (sys n T) s → InvC s := by
  refine Reachable.invariant_with (I := InvC) (inv_reachable n hn) ?_ ?_
  · intro s ⟨h1, h2, h3, h4, h5, h6, h7, h8, h9, h10⟩
    constructor <;> simp_all [waitsIn]
  · intro s s' hI ⟨c1, c2, c3⟩ st
    have hp := hI.past
    have hnow := hI.now
    have hlt := hI.lt
    have hrel := hI.rel
    have hfut := hI.fut
    have st : Step n s s' := st
    cases st with
    | arrive t h1 h2 h3 =>
      refine ⟨?_, ?_, ?_⟩ <;> simp only [upd, List.countP_cons, List.mem_cons, List.nodup_cons] <;> grind [waitsIn]
    | arriveLast t h1 h2 h3 =>
      refine ⟨?_, ?_, ?_⟩ <;> simp only [upd] <;> grind [waitsIn]
    | bWake t r h1 =>
      refine ⟨?_, c2, ?_⟩
      · intro u r'
        simp only [State.doReturn, upd]
        split
        · next h => subst h; rw [c1, h1]; simp [waitsIn]
        · rw [waitsIn_wakeAll]; exact c1 u r'
      · intro r'
        have := c3 r'
        simp only [State.doReturn, List.count_cons]
        rw [if_neg (by simp)]
        exact this
    | wWait t c g r h1 =>
      refine ⟨?_, c2, c3⟩
      intro u r'
      simp only [upd]
      rw [c1]
      by_cases h : u = t
      · subst h; rw [h1, if_pos rfl]; split <;> simp [waitsIn]
      · simp [h]
    | spurious t g r h1 =>
      refine ⟨?_, c2, c3⟩
      intro u r'
      simp only [upd]
      rw [c1]
      by_cases h : u = t
      · subst h; rw [h1]; simp_all [waitsIn]
      · simp [h]
    | leave t g r h1 h2 h3 =>
      have hm : (t, r) ∈ s.inside := by rw [c1, h1]; rfl
      refine ⟨?_, c2.erase _, ?_⟩
      · intro u r'
        simp only [State.doReturn, upd, c2.mem_erase_iff, c1]
        by_cases h : u = t
        · subst h; rw [h1]; simp [waitsIn]; grind
        · simp [h]
      · intro r'
        have h5 := c3 r'
        have := countP_erase' (fun p => p.2 == r') s.inside _ hm
        change (List.count (r', Res.waited) ((r, Res.waited) :: s.returned) +
          (s.inside.erase (t, r)).countP (fun p => p.2 == r') + if r' < s.rounds then 1 else 0) = s.arrived r'
        rw [List.count_cons]
        by_cases h : r = r'
        · subst h
          rw [if_pos (by simp)] at this ⊢
          omega
        · rw [if_neg (by simpa using h)] at this ⊢
          omega
    | again t g r h1 h2 h3 =>
      refine ⟨?_, c2, c3⟩
      intro u r'
      simp only [upd]
      rw [c1]
      by_cases h : u = t
      · subst h; rw [h1]; simp_all [waitsIn]
      · simp [h]
    | next t r v h1 =>
      refine ⟨?_, c2, c3⟩
      intro u r'
      simp only [upd]
      rw [c1]
      by_cases h : u = t
      · subst h; rw [h1]; simp_all [waitsIn]
      · simp [h]

theorem ret_returned (n : Nat) : ∀ s : State T, Reachable (sys n T) s → ∀ t r v,
    s.pc t = .ret r v → (r, v) ∈ s.returned := by
  refine Reachable.invariant (I := fun s : State T => ∀ t r v, s.pc t = .ret r v → (r, v) ∈ s.returned) ?_ ?_
  · intro s ⟨h1, h2, h3, h4, h5, h6, h7, h8, h9, h10⟩
    simp_all
  · intro s s' h st
    have st : Step n s s' := st
    cases st <;> (simp only [upd, wakeAll, State.doReturn, M] at * <;> grind)

theorem serial_unique (n : Nat) (hn : 0 < n) : ∀ s : State T, Reachable (sys n T) s → ∀ t u r,
    s.pc t = .ret r .serial → s.pc u = .ret r .serial → t = u := by
  refine Reachable.invariant_with (I := fun s : State T => ∀ t u r,
    s.pc t = .ret r .serial → s.pc u = .ret r .serial → t = u) 
    (J := fun s => Inv n s ∧ ∀ t r v, s.pc t = .ret r v → (r, v) ∈ s.returned)
    (fun s h => ⟨inv_reachable n hn s h, ret_returned n s h⟩) ?_ ?_
  · intro s ⟨h1, h2, h3, h4, h5, h6, h7, h8, h9, h10⟩
    simp_all
  · intro s s' ⟨hI, hR⟩ h st
    have h11 : ∀ t r, s.pc t = .bWake r → ∀ u, s.pc u ≠ .ret r .serial := by
      intro t r ht u hu
      have h1 := hI.ser r
      have h2 := hI.bw t r ht
      have h3 := (hI.own t).mpr ⟨r, ht⟩
      rw [if_neg (by simp [h3, h2])] at h1
      exact absurd (hR u r _ hu) (List.count_eq_zero.mp h1)
    have st : Step n s s' := st
    cases st <;>
      (simp only [upd, wakeAll, State.doReturn, M] at * <;> first | grind | grind (splits := 20))

/-! ## C12

`s.arrived r` counts the calls that have arrived in round `r`; a call belongs to the round that is being filled
when it arrives. -/

/-- **C12.** A call of round `r` has returned only if all `n` calls of round `r` have arrived, for every number of
threads, every schedule and any number of earlier rounds. -/
theorem C12_nobody_passes_early (n : Nat) (hn : 0 < n) (s : State T) (h : Reachable (sys n T) s) (t : T)
    (r : Nat) (v : Res) (ht : s.pc t = .ret r v) : s.arrived r = n := by
  have hI := inv_reachable n hn s h
  exact hI.past r (hI.ret t r v ht)

/-- **C12.** No round ever takes in more than `n` calls. -/
theorem C12_round_size (n : Nat) (hn : 0 < n) (s : State T) (h : Reachable (sys n T) s) (r : Nat) :
    s.arrived r ≤ n := by
  have hI := inv_reachable n hn s h
  have := hI.lt
  rcases Nat.lt_trichotomy r s.rounds with h1 | h1 | h1
  · rw [hI.past r h1]; exact Nat.le_refl _
  · rw [h1, hI.now]; omega
  · rw [hI.fut r h1]; omega

/-- **C12.** At most one call of each round returns `PTHREAD_BARRIER_SERIAL_THREAD`. -/
theorem C12_at_most_one_serial (n : Nat) (hn : 0 < n) (s : State T) (h : Reachable (sys n T) s) (r : Nat) :
    s.returned.count (r, .serial) ≤ 1 := by
  have := (inv_reachable n hn s h).ser r
  grind

/-- **C12.** As soon as any call of a round has returned, exactly one call of it has been told to be the serial
one, or is the one that is just about to return so (it holds the barrier's lock). -/
theorem C12_exactly_one_serial (n : Nat) (hn : 0 < n) (s : State T) (h : Reachable (sys n T) s) (r : Nat)
    (hr : s.arrived r = n) : s.returned.count (r, .serial) = 1 ∨ ∃ t, s.pc t = .bWake r := by
  have hI := inv_reachable n hn s h
  have hlt : r < s.rounds := by
    rcases Nat.lt_trichotomy r s.rounds with h1 | h1 | h1
    · exact h1
    · have := hI.now; have := hI.lt; subst h1; omega
    · have := hI.fut r h1; omega
  by_cases ho : s.owner = none ∨ r + 1 ≠ s.rounds
  · left; rw [hI.ser r, if_pos ⟨hlt, ho⟩]
  · right
    have ho1 : s.owner ≠ none := fun h => ho (.inl h)
    have ho2 : r + 1 = s.rounds := Classical.byContradiction fun h => ho (.inr h)
    obtain ⟨t, ht⟩ := Option.ne_none_iff_exists'.mp ho1
    obtain ⟨r', hr'⟩ := (hI.own t).mp ht
    have := hI.bw t r' hr'
    exact ⟨t, by rw [hr']; congr 1; omega⟩

/-- **C12.** What the calls of a round return: once all `n` calls of round `r` have arrived and none of them is
inside `pthread_barrier_wait` any more, exactly one has returned `PTHREAD_BARRIER_SERIAL_THREAD` and exactly `n - 1`
have returned 0. -/
theorem C12_round_results (n : Nat) (hn : 0 < n) (s : State T) (h : Reachable (sys n T) s) (r : Nat)
    (hr : s.arrived r = n) (hb : ∀ t, s.pc t ≠ .bWake r) (hw : ∀ t c g, s.pc t ≠ .wWait c g r)
    (hs : ∀ t g, s.pc t ≠ .sleeping g r) (hl : ∀ t g, s.pc t ≠ .relock g r) :
    s.returned.count (r, .serial) = 1 ∧ s.returned.count (r, .waited) = n - 1 := by
  have hI := inv_reachable n hn s h
  have hC := invC_reachable n hn s h
  refine ⟨(C12_exactly_one_serial n hn s h r hr).resolve_right (fun ⟨t, ht⟩ => hb t ht), ?_⟩
  have hlt : r < s.rounds := by
    rcases Nat.lt_trichotomy r s.rounds with h1 | h1 | h1
    · exact h1
    · have := hI.now; have := hI.lt; subst h1; omega
    · have := hI.fut r h1; omega
  have h0 : s.inside.countP (fun p => p.2 == r) = 0 := by
    rw [List.countP_eq_zero]
    rintro ⟨t, r'⟩ hm
    rw [hC.mem] at hm
    have hne : r' ≠ r := by
      rintro rfl
      cases hp : s.pc t <;> simp only [hp, waitsIn, Option.some.injEq, reduceCtorEq] at hm
      · next c g q => exact hw t c g (by rw [hp, hm])
      · next g q => exact hs t g (by rw [hp, hm])
      · next g q => exact hl t g (by rw [hp, hm])
    simpa using hne
  have := hC.cnt r
  rw [h0, if_pos hlt, hr] at this
  omega

/-- **C12.** Two calls of one round that have both just returned are not both the serial one. -/
theorem C12_serial_unique (n : Nat) (hn : 0 < n) (s : State T) (h : Reachable (sys n T) s) (t u : T) (r : Nat)
    (ht : s.pc t = .ret r .serial) (hu : s.pc u = .ret r .serial) : t = u :=
  serial_unique n hn s h t u r ht hu

/-- **C12** (wake-up, safety form; fewer than 2^32 rounds). A call of a completed round is asleep only while the
serial thread is still about to wake everybody. -/
theorem C12_completed_round_not_stranded_partial (n : Nat) (hn : 0 < n) (s : State T) (h : Reachable (sys n T) s)
    (hb : s.rounds < 2 ^ 32) (t : T) (g r : Nat) (ht : s.pc t = .sleeping g r) (hr : s.arrived r = n) :
    ∃ u r', s.pc u = .bWake r' := by
  have hI := inv_reachable n hn s h
  refine (invW_reachable n hn s h).sd hb t g r ht ?_
  rcases Nat.lt_trichotomy r s.rounds with h1 | h1 | h1
  · exact h1
  · have := hI.now; have := hI.lt; subst h1; omega
  · have := (hI.slp t g r ht).1; omega

/-! ## Non-vacuity -/

/-- A barrier of size 2: one thread arrives and sleeps, the other arrives last and returns as the serial thread,
then the first returns. -/
example : ∃ s : State Bool, Reachable (sys 2 Bool) s ∧ s.pc true = .ret 0 .waited ∧ s.pc false = .ret 0 .serial := by
  have r0 : Reachable (sys 2 Bool)
      ⟨none, 0, 0, 0, 0, fun _ => .idle, 0, fun _ => 0, [], []⟩ :=
    .init ⟨rfl, rfl, rfl, rfl, rfl, fun _ => rfl, rfl, fun _ => rfl, rfl, rfl⟩
  have r1 := Reachable.step r0 (Step.arrive true rfl rfl (by decide))
  have r2 := Reachable.step r1 (Step.wWait true 0 0 0 rfl)
  have r3 := Reachable.step r2 (Step.arriveLast false rfl rfl rfl)
  have r4 := Reachable.step r3 (Step.bWake false 0 rfl)
  have r5 := Reachable.step r4 (Step.leave true 0 0 rfl rfl (by simp [M, State.doReturn]))
  exact ⟨_, r5, rfl, rfl⟩

/-- The hypotheses of `C12_round_results` are satisfiable: a whole round of size 2. -/
example : ∃ s : State Bool, Reachable (sys 2 Bool) s ∧ s.arrived 0 = 2 ∧ (∀ t, ∃ v, s.pc t = .ret 0 v) := by
  have r0 : Reachable (sys 2 Bool)
      ⟨none, 0, 0, 0, 0, fun _ => .idle, 0, fun _ => 0, [], []⟩ :=
    .init ⟨rfl, rfl, rfl, rfl, rfl, fun _ => rfl, rfl, fun _ => rfl, rfl, rfl⟩
  have r1 := Reachable.step r0 (Step.arrive true rfl rfl (by decide))
  have r2 := Reachable.step r1 (Step.wWait true 0 0 0 rfl)
  have r3 := Reachable.step r2 (Step.arriveLast false rfl rfl rfl)
  have r4 := Reachable.step r3 (Step.bWake false 0 rfl)
  have r5 := Reachable.step r4 (Step.leave true 0 0 rfl rfl (by simp [M, State.doReturn]))
  exact ⟨_, r5, rfl, fun t => by cases t; exact ⟨.serial, rfl⟩; exact ⟨.waited, rfl⟩⟩

/-- A thread of a completed round is still asleep while the serial thread is about to wake it. -/
example : ∃ s : State Bool, Reachable (sys 2 Bool) s ∧ s.rounds < 2 ^ 32 ∧ s.pc true = .sleeping 0 0 ∧
    s.arrived 0 = 2 := by
  have r0 : Reachable (sys 2 Bool)
      ⟨none, 0, 0, 0, 0, fun _ => .idle, 0, fun _ => 0, [], []⟩ :=
    .init ⟨rfl, rfl, rfl, rfl, rfl, fun _ => rfl, rfl, fun _ => rfl, rfl, rfl⟩
  have r1 := Reachable.step r0 (Step.arrive true rfl rfl (by decide))
  have r2 := Reachable.step r1 (Step.wWait true 0 0 0 rfl)
  have r3 := Reachable.step r2 (Step.arriveLast false rfl rfl rfl)
  exact ⟨_, r3, by simp, rfl, rfl⟩

end Verif.Sync.Barrier
