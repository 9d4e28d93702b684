import Verif.Timer.Model

/-!
# C112: timers and alarms
-/

namespace Verif.Timer

namespace Spec

/-- An ideal timer: off, armed for a time with an interval, or deleted. -/
inductive Ideal where
  | off
  | on (at_ : Nat) (interval : Nat)
  | gone

/-- The events so far are those of an ideal timer: it expires once for each time it was armed, not before that time; with an interval it is then
armed again for a time at least one interval later; without, it is off. Nothing comes after the deletion. -/
inductive Explains : List Ev → Ideal → Prop where
  | new : Explains [] .off
  | arm (tr a i) (h : Explains tr .off) : Explains (tr ++ [.armed a i]) (.on a i)
  | once (tr a n) (h : Explains tr (.on a 0)) (le : a ≤ n) : Explains (tr ++ [.sent n]) .off
  | again (tr a i n n') (h : Explains tr (.on a i)) (hi : i ≠ 0) (le : a ≤ n) (hn : n + i ≤ n') : Explains (tr ++ [.sent n]) (.on n' i)
  | delete (tr x) (h : Explains tr x) (hx : x ≠ .gone) : Explains (tr ++ [.deleted]) .gone

/-- What `timer_gettime` must say. -/
def Ideal.left (now : Nat) : Ideal → Option (Nat × Nat)
  | .off => some (0, 0)
  | .on a i => some (a - now, i)
  | .gone => none

/-- States of a program which arms the timer only when it is off (never armed, or expired and without interval), and may delete it. -/
inductive Reach : St → Prop where
  | new (now) : Reach (created now)
  | internal (s s') (hs : Reach s) (h : Internal s s') : Reach s'
  | arm (s s' abs v i) (hs : Reach s) (hv : v ≠ 0) (ho : Explains s.trace .off) (h : settime s abs v i = some s') : Reach s'
  | delete (s s') (hs : Reach s) (h : delete s = some s') : Reach s'

/-- Something other than the clock can move on. -/
inductive Work : St → St → Prop where
  | wake (s s' i) (h : Timer.wake s i = some s') : Work s s'
  | start (s s' i) (h : Timer.start s i = some s') : Work s s'
  | handle (s s' i later) (h : Timer.handle s i later = some s') : Work s s'

/-- What has still to be done before the notification: wake-ups to be delivered, threads to be started. -/
def rank (s : St) : Nat := s.kernel.length + (s.threads.filter (· = .starting)).length

end Spec

open Spec

/-- Which kind of state the events lead to. -/
def kindStep (k : Option (Option Nat)) (e : Ev) : Option (Option Nat) :=
  match e, k with
  | .armed _ i, _ => some (some i)
  | .sent _, some (some i) => if i = 0 then some none else some (some i)
  | .deleted, _ => none
  | _, k => k

def kind : Ideal → Option (Option Nat)
  | .off => some none
  | .on _ i => some (some i)
  | .gone => none

theorem explains_kind {tr : List Ev} {x : Ideal} (h : Explains tr x) : tr.foldl kindStep (some none) = kind x := by
  induction h with
  | new => rfl
  | arm tr a i h ih => rw [List.foldl_append, ih]; rfl
  | once tr a n h le ih => rw [List.foldl_append, ih]; rfl
  | again tr a i n n' h hi le hn ih =>
    rw [List.foldl_append, ih]
    simp [kind, kindStep, hi]
  | delete tr x h hx ih => rw [List.foldl_append, ih]; rfl

/-- Invariant. -/
def Inv (s : St) : Prop :=
  match s.tm with
  | none => Explains s.trace .gone
  | some t =>
    (t.value = 0 ∧ t.thread = false ∧ s.kernel = [] ∧ s.events = 0 ∧ s.threads = [] ∧ Explains s.trace .off) ∨
    (t.value ≠ 0 ∧ t.thread = true ∧ (s.kernel = [t.value] ∧ s.events = 0 ∨ s.kernel = [] ∧ s.events = 1 ∧ t.value ≤ s.now) ∧
      (s.threads = [.starting] ∨ s.threads = [.waiting t.version]) ∧ Explains s.trace (.on t.value t.interval))

theorem inv_wake {s s' : St} {i : Nat} (hs : Inv s) (h : wake s i = some s') : Inv s' := by
  unfold wake at h
  cases hk : s.kernel[i]? with
  | none => rw [hk] at h; exact nomatch h
  | some w =>
    rw [hk] at h
    dsimp only at h
    split at h
    · rename_i hw
      cases h
      unfold Inv at hs ⊢
      dsimp only
      cases ht : s.tm with
      | none => rw [ht] at hs; exact hs
      | some t =>
        rw [ht] at hs
        dsimp only at hs ⊢
        rcases hs with ⟨_, _, h0, _⟩ | ⟨h1, h2, hk1 | hk1, h4, h5⟩
        · rw [h0] at hk; simp at hk
        · rw [hk1.1] at hk
          have hi : i = 0 := by
            cases i with
            | zero => rfl
            | succ i => simp at hk
          subst hi
          simp at hk
          subst hk
          exact .inr ⟨h1, h2, .inr ⟨by rw [hk1.1]; rfl, by rw [hk1.2], hw⟩, h4, h5⟩
        · rw [hk1.1] at hk; simp at hk
    · exact nomatch h

theorem inv_start {s s' : St} {i : Nat} (hs : Inv s) (h : start s i = some s') : Inv s' := by
  unfold start at h
  cases hk : s.threads[i]? with
  | none => rw [hk] at h; exact nomatch h
  | some r =>
    rw [hk] at h
    cases r with
    | waiting v => exact nomatch h
    | starting =>
      dsimp only at h
      unfold Inv at hs
      cases ht : s.tm with
      | none =>
        rw [ht] at hs h
        cases h
        unfold Inv
        exact hs
      | some t =>
        rw [ht] at hs h
        cases h
        unfold Inv
        dsimp only at hs ⊢
        rcases hs with ⟨_, _, _, _, h0, _⟩ | ⟨h1, h2, h3, h4 | h4, h5⟩
        · rw [h0] at hk; simp at hk
        · have hi : i = 0 := by
            cases i with
            | zero => rfl
            | succ i => rw [h4] at hk; simp at hk
          subst hi
          exact .inr ⟨h1, h2, h3, .inr (by rw [h4]; rfl), h5⟩
        · rw [h4] at hk
          cases i <;> simp at hk

theorem inv_handle {s s' : St} {i later : Nat} (hs : Inv s) (h : handle s i later = some s') :
    Inv s' ∧ (s.tm.isSome → s'.trace = s.trace ++ [.sent s.now]) := by
  unfold handle at h
  cases hk : s.threads[i]? with
  | none => rw [hk] at h; exact nomatch h
  | some r =>
    rw [hk] at h
    cases r with
    | starting => exact nomatch h
    | waiting v =>
      dsimp only at h
      split at h
      · exact nomatch h
      · rename_i he
        unfold Inv at hs
        cases ht : s.tm with
        | none =>
          rw [ht] at hs h
          cases h
          unfold Inv
          exact ⟨hs, fun h => by simp at h⟩
        | some t =>
          rw [ht] at hs h
          dsimp only at hs h
          rcases hs with ⟨_, _, _, h0, _⟩ | ⟨h1, h2, h3 | h3, h4 | h4, h5⟩
          · exact absurd h0 he
          · exact absurd h3.2 he
          · exact absurd h3.2 he
          · rw [h4] at hk
            cases i <;> simp at hk
          · have hi : i = 0 := by
              cases i with
              | zero => rfl
              | succ i => rw [h4] at hk; simp at hk
            subst hi
            rw [h4] at hk
            simp at hk
            subst hk
            rw [if_pos rfl] at h
            unfold nextEvent at h
            by_cases hi : t.interval = 0
            · rw [if_pos hi] at h
              cases h
              rw [hi] at h5
              refine ⟨?_, fun _ => rfl⟩
              unfold Inv
              dsimp only
              exact .inl ⟨rfl, rfl, h3.1, by rw [h3.2.1], by rw [h4]; rfl, .once _ _ _ h5 h3.2.2⟩
            · rw [if_neg hi, if_neg (by omega)] at h
              cases h
              refine ⟨?_, fun _ => rfl⟩
              unfold Inv
              dsimp only
              refine .inr ⟨by omega, h2, .inl ⟨by rw [h3.1]; rfl, by rw [h3.2.1]⟩, .inr (by rw [h4]; rfl), ?_⟩
              exact .again _ _ _ _ _ h5 hi h3.2.2 (by omega)

theorem inv_settime {s s' : St} {abs : Bool} {v i : Nat} (hs : Inv s) (hv : v ≠ 0) (ho : Explains s.trace .off)
    (h : settime s abs v i = some s') : Inv s' := by
  unfold settime at h
  unfold Inv at hs
  cases ht : s.tm with
  | none => rw [ht] at h; exact nomatch h
  | some t =>
    rw [ht] at h hs
    dsimp only at h hs
    rw [if_neg hv] at h
    cases h
    rcases hs with ⟨_, h1, h2, h3, h4, h5⟩ | ⟨_, _, _, _, h5⟩
    · unfold Inv
      dsimp only
      refine .inr ⟨?_, rfl, .inl ⟨by rw [h2]; rfl, h3⟩, .inl (by rw [h1, h4]; rfl), .arm _ _ _ h5⟩
      split <;> omega
    · have := (explains_kind ho).symm.trans (explains_kind h5)
      simp [kind] at this

theorem reach_inv {s : St} (h : Reach s) : Inv s := by
  induction h with
  | new now => exact .inl ⟨rfl, rfl, rfl, rfl, rfl, .new⟩
  | internal s s' _ h ih =>
    cases h with
    | tick d =>
      unfold Inv at ih ⊢
      dsimp only
      cases ht : s.tm with
      | none => rw [ht] at ih; exact ih
      | some t =>
        rw [ht] at ih
        rcases ih with h | ⟨h1, h2, h3 | h3, h4, h5⟩
        · exact .inl h
        · exact .inr ⟨h1, h2, .inl h3, h4, h5⟩
        · exact .inr ⟨h1, h2, .inr ⟨h3.1, h3.2.1, by have := h3.2.2; omega⟩, h4, h5⟩
    | wake _ i h => exact inv_wake ih h
    | start _ i h => exact inv_start ih h
    | handle _ i later h => exact (inv_handle ih h).1
  | arm s s' abs v i _ hv ho h ih => exact inv_settime ih hv ho h
  | delete s s' _ h ih =>
    unfold delete at h
    cases ht : s.tm with
    | none => rw [ht] at h; exact nomatch h
    | some t =>
      rw [ht] at h
      cases h
      unfold Inv at ih ⊢
      rw [ht] at ih
      dsimp only at ih ⊢
      rcases ih with ⟨_, _, _, _, _, h⟩ | ⟨_, _, _, _, h⟩
      · exact .delete _ _ h (by simp)
      · exact .delete _ _ h (by simp)

/-- C112, for programs that arm a timer only when it is off: the notifications are those of an ideal timer, `timer_gettime` tells what is left, and
when the time has come the notification is on its way: something can be done, and whatever is done either delivers it or brings it nearer.
Missing: arming a timer that is armed, and disarming (`C112_rearm_violation`, `C112_disarm_violation`). -/
theorem C112_timer_partial (s : St) (h : Reach s) : ∃ x, Explains s.trace x ∧ gettime s = x.left s.now ∧
    ∀ a i, x = .on a i → a ≤ s.now → (∃ s', Work s s') ∧
      ∀ s', Work s s' → s'.trace = s.trace ++ [.sent s.now] ∨ (s'.trace = s.trace ∧ s'.now = s.now ∧ gettime s' = gettime s ∧ rank s' < rank s) := by
  have hi := reach_inv h
  have hi' := hi
  unfold Inv at hi
  cases ht : s.tm with
  | none =>
    rw [ht] at hi
    exact ⟨.gone, hi, by simp [gettime, ht, Ideal.left], by intro a i e; exact nomatch e⟩
  | some t =>
    rw [ht] at hi
    rcases hi with ⟨h1, _, _, _, _, h6⟩ | ⟨h1, h2, h3, h4, h5⟩
    · exact ⟨.off, h6, by simp [gettime, ht, h1, Ideal.left], by intro a i e; exact nomatch e⟩
    · refine ⟨.on t.value t.interval, h5, by simp [gettime, ht, h1, Ideal.left], ?_⟩
      intro a i e hle
      cases e
      refine ⟨?_, ?_⟩
      · rcases h3 with h3 | h3
        · exact ⟨_, .wake s _ 0 (by unfold wake; rw [h3.1]; simp [hle]; rfl)⟩
        · rcases h4 with h4 | h4
          · exact ⟨_, .start s _ 0 (by unfold start; rw [h4, ht]; rfl)⟩
          · refine ⟨(handle s 0 0).get ?_, .handle s _ 0 0 (Option.some_get _).symm⟩
            unfold handle
            rw [h4, ht]
            simp only [List.getElem?_cons_zero, h3.2.1, Nat.one_ne_zero, ↓reduceIte]
            split <;> rfl
      · intro s' hw
        cases hw with
        | wake i h =>
          right
          unfold wake at h
          cases hk : s.kernel[i]? with
          | none => rw [hk] at h; exact nomatch h
          | some w =>
            rw [hk] at h
            dsimp only at h
            split at h
            · cases h
              refine ⟨rfl, rfl, rfl, ?_⟩
              have : i < s.kernel.length := by
                rcases Nat.lt_or_ge i s.kernel.length with h | h
                · exact h
                · rw [List.getElem?_eq_none h] at hk; exact nomatch hk
              simp only [rank, List.length_eraseIdx, this, ↓reduceIte]
              omega
            · exact nomatch h
        | start i h =>
          right
          unfold start at h
          cases hk : s.threads[i]? with
          | none => rw [hk] at h; exact nomatch h
          | some r =>
            rw [hk] at h
            cases r with
            | waiting v => exact nomatch h
            | starting =>
              rw [ht] at h
              cases h
              refine ⟨rfl, rfl, by simp [gettime, ht], ?_⟩
              rcases h4 with h4 | h4
              · have hi : i = 0 := by
                  cases i with
                  | zero => rfl
                  | succ i => rw [h4] at hk; simp at hk
                subst hi
                simp [rank, h4]
              · rw [h4] at hk
                cases i <;> simp at hk
        | handle i later h => exact .inl ((inv_handle hi' h).2 (by rw [ht]; rfl))

/-- Calls and internal steps, to write down an execution. -/
inductive Act where
  | set (v i : Nat)
  | alarm (sec : Nat)
  | tick (d : Nat)
  | wake (i : Nat)
  | start (i : Nat)
  | handle (i later : Nat)

/-- One of them. -/
def act (s : St) : Act → Option St
  | .set v i => settime s false v i
  | .alarm n => (alarm s (n * 1000000000)).map (·.2)
  | .tick d => some { s with now := s.now + d }
  | .wake i => wake s i
  | .start i => start s i
  | .handle i later => handle s i later

/-- A whole execution. -/
def run (s : St) : List Act → Option St
  | [] => some s
  | a :: l => (act s a).bind fun s => run s l

/-- No wake-up that is due, no event with a thread to read it, no thread to start: nothing will ever come. -/
def Dead (s : St) : Prop := (∀ t ∈ s.kernel, s.now < t) ∧ s.threads = []

theorem dead_work {s s' : St} (h : Dead s) : ¬ Work s s' := by
  intro hw
  cases hw with
  | wake i h' =>
    unfold wake at h'
    cases hk : s.kernel[i]? with
    | none => rw [hk] at h'; exact nomatch h'
    | some w =>
      rw [hk] at h'
      have := h.1 w (List.mem_of_getElem? hk)
      dsimp only at h'
      rw [if_neg (by omega)] at h'
      exact nomatch h'
  | start i h' => unfold start at h'; rw [h.2] at h'; exact nomatch h'
  | handle i later h' => unfold handle at h'; rw [h.2] at h'; exact nomatch h'

/-- C112 fails: a timer armed again, for a later time, notifies at the earlier time, and not at the later one. -/
theorem C112_rearm_violation : ∃ l s, run (created 1) l = some s ∧ s.trace = [.armed 11 0, .armed 21 0, .sent 11] ∧ 21 ≤ s.now ∧
    ∀ s', ¬ Work s s' :=
  ⟨[.set 10 0, .set 20 0, .start 0, .tick 10, .wake 0, .handle 0 0, .tick 10, .wake 0], _, rfl, rfl, by decide,
    fun s' => dead_work ⟨fun t ht => (nomatch ht), rfl⟩⟩

/-- C112 fails: a timer with an interval goes on after it was disarmed. -/
theorem C112_disarm_violation : ∃ l s, run (created 1) l = some s ∧ s.trace = [.armed 11 5, .disarmed, .sent 16] :=
  ⟨[.set 10 5, .start 0, .set 0 0, .tick 10, .wake 0, .handle 0 0, .tick 5, .wake 0, .handle 0 0], _, rfl, rfl⟩

/-- C112 fails: after disarming, `timer_gettime` still says that time is left. -/
theorem C112_gettime_violation : ∃ l s, run (created 1) l = some s ∧ s.trace = [.armed 11 0, .disarmed] ∧ gettime s = some (10, 0) :=
  ⟨[.set 10 0, .set 0 0], _, rfl, rfl, rfl⟩

/-- C112 fails: a timer disarmed before its thread has started notifies all the same. -/
theorem C112_race_violation : ∃ l s, run (created 1) l = some s ∧ s.trace = [.armed 11 0, .disarmed, .sent 11] :=
  ⟨[.set 10 0, .set 0 0, .start 0, .tick 10, .wake 0, .handle 0 0], _, rfl, rfl⟩

/-- C112 fails: `alarm(10); alarm(0); alarm(20);` never sends a signal. -/
theorem C112_alarm_violation : ∃ l s, run (created 1) l = some s ∧ l.take 4 = [.alarm 10, .start 0, .alarm 0, .alarm 20] ∧
    s.trace = [.armed 10000000001 0, .disarmed, .armed 20000000001 0] ∧ 20000000001 ≤ s.now ∧ ∀ s', ¬ Work s s' :=
  ⟨[.alarm 10, .start 0, .alarm 0, .alarm 20, .tick 10000000000, .wake 0, .handle 0 0, .tick 10000000000, .wake 0], 
    ⟨20000000001, some { value := 0, interval := 0, version := 1, thread := false }, [], 1, [], [.armed 10000000001 0, .disarmed, .armed 20000000001 0]⟩,
    by decide +kernel, rfl, rfl, by decide, fun s' => dead_work ⟨fun t ht => (nomatch ht), rfl⟩⟩

/-- C112 fails: a timer of interval 5 armed for 11, whose first notification is 2 late, expires the second time at 18 instead of 16. -/
theorem C112_drift_violation : ∃ l s, run (created 1) l = some s ∧ s.trace = [.armed 11 5, .sent 13] ∧ s.now = 13 ∧ gettime s = some (5, 5) :=
  ⟨[.set 10 5, .start 0, .tick 12, .wake 0, .handle 0 0], _, rfl, rfl, rfl, rfl⟩

/-- C112 fails: `timer_create` refuses all real-time signals but the first. -/
theorem C112_create_violation (signo : Int) (h1 : SIGRTMIN < signo) (h2 : signo ≤ SIGRTMAX) : createAccepts signo = false := by
  unfold SIGRTMIN at h1
  unfold createAccepts NSIG SIGRTMIN
  simp only [Bool.or_eq_false_iff, Bool.and_eq_false_iff, decide_eq_false_iff_not]
  omega

/-- C112. `alarm` gives the seconds that remained of the last one, rounded up. -/
theorem C112_alarm_partial (s s' : St) (h : Reach s) (ns r : Nat) (ha : alarm s ns = some (r, s')) :
    ∃ x, Explains s.trace x ∧ ∃ left i, x.left s.now = some (left, i) ∧ left ≤ r * 1000000000 ∧ r * 1000000000 < left + 1000000000 := by
  obtain ⟨x, hx, hg, _⟩ := C112_timer_partial s h
  refine ⟨x, hx, ?_⟩
  unfold alarm at ha
  rw [hg] at ha
  cases hl : x.left s.now with
  | none =>
    rw [hl] at hg
    unfold gettime at hg
    have : s.tm = none := by
      cases ht : s.tm with
      | none => rfl
      | some t => rw [ht] at hg; exact nomatch hg
    unfold settime at ha
    rw [this] at ha
    exact nomatch ha
  | some p =>
    obtain ⟨left, i⟩ := p
    rw [hl] at ha
    simp only [Option.map_eq_some_iff, Prod.mk.injEq] at ha
    obtain ⟨_, _, hr, _⟩ := ha
    exact ⟨left, i, rfl, by omega, by omega⟩

/-! A periodic timer in good order. -/
example : (run (created 1) [.set 10 5, .start 0, .tick 10, .wake 0, .handle 0 0, .tick 5, .wake 0, .handle 0 0]).map St.trace =
    some [.armed 11 5, .sent 11, .sent 16] := rfl

end Verif.Timer
