import Verif.Fd.CallModel
import Verif.Fd.TableProps

/-!
# C108: descriptors refer to what was opened

The functions on file descriptors keep the table of the process and that of the kernel in step.
-/

namespace Verif.Fd

variable {D : Type}

namespace Spec

/-- The two tables say the same numbers are open. -/
def Agree (s : Both D) : Prop := ∀ fd, (s.tbl.getFlags fd).isSome = (s.ker fd).isSome

/-- A good state: a table that can occur, in step with the kernel. -/
def Good (s : Both D) : Prop := Reach s.tbl ∧ Agree s

/-- Nothing the process can see has changed. -/
def Same (s s' : Both D) : Prop := s'.ker = s.ker ∧ s'.tbl.getFlags = s.tbl.getFlags

/-- Only `fd` has changed: it refers to `d`, with the flag. -/
def Now (s s' : Both D) (fd : Fd) (d : D) (flag : Bool) : Prop :=
  s'.ker fd = some d ∧ s'.tbl.getFlags fd = some flag ∧
  ∀ g, g ≠ fd → s'.ker g = s.ker g ∧ s'.tbl.getFlags g = s.tbl.getFlags g

/-- Only `fd` has changed: it is closed. -/
def Gone (s s' : Both D) (fd : Fd) : Prop :=
  s'.ker fd = none ∧ s'.tbl.getFlags fd = none ∧
  ∀ g, g ≠ fd → s'.ker g = s.ker g ∧ s'.tbl.getFlags g = s.tbl.getFlags g

/-- `fd` is a new number of its kind; if it is one for the program, it is the lowest that is not open. -/
def New (s : Both D) (upper : Bool) (fd : Fd) : Prop :=
  s.ker fd = none ∧ ∃ n, fd = mkFd upper n ∧ (upper = false → ∀ m, m < n → (s.ker (.posix m)).isSome)

end Spec

open Spec

/-! ## Lemmas -/

theorem reach_add {t t' : FdTbl} {flag sync : Bool} {r : Except Err Fd} (h : Reach t) (e : t.addPosix flag sync = (r, t')) : Reach t' :=
  .step h (op := .add flag sync) (r := (one (r, t')).1) (by simp only [FdTbl.run, e]; rfl)

theorem reach_upper {t t' : FdTbl} {flag sync : Bool} {r : Except Err Fd} (h : Reach t) (e : t.insertUpper flag sync = some (r, t')) : Reach t' :=
  .step h (op := .addUpper flag sync) (r := (one (r, t')).1) (by simp only [FdTbl.run, e]; rfl)

theorem reach_override {t t' : FdTbl} {fd : Fd} {sync : Bool} {r : Except Err Fd} (h : Reach t) (e : t.overrideAt fd sync = some (r, t')) : Reach t' :=
  .step h (op := .override fd sync) (r := (one (r, t')).1) (by simp only [FdTbl.run, e]; rfl)

theorem reach_remove {t t' : FdTbl} {fd : Fd} {b : Bool} (h : Reach t) (e : t.remove fd = some (b, t')) : Reach t' :=
  .step h (op := .remove fd) (r := if b then .ok [fd] else .error .ebadf) (by simp only [FdTbl.run, e]; rfl)

theorem reach_setFlags {t t' : FdTbl} {fd : Fd} {flag b : Bool} (h : Reach t) (e : t.setFlags fd flag = (b, t')) : Reach t' :=
  .step h (op := .setFlags fd flag) (r := if b then .ok [fd] else .error .ebadf) (by simp only [FdTbl.run, e])

theorem agree_none {s : Both D} (h : Agree s) {fd : Fd} : s.tbl.getFlags fd = none ↔ s.ker fd = none := by
  have := h fd
  cases h1 : s.tbl.getFlags fd <;> cases h2 : s.ker fd <;> simp_all

theorem agree_now {s s' : Both D} (h : Agree s) {fd : Fd} {d : D} {flag : Bool} (hn : Now s s' fd d flag) : Agree s' := by
  intro g
  by_cases hg : g = fd
  · subst hg; rw [hn.1, hn.2.1]; rfl
  · rw [(hn.2.2 g hg).1, (hn.2.2 g hg).2]; exact h g

theorem agree_gone {s s' : Both D} (h : Agree s) {fd : Fd} (hn : Gone s s' fd) : Agree s' := by
  intro g
  by_cases hg : g = fd
  · subst hg; rw [hn.1, hn.2.1]; rfl
  · rw [(hn.2.2 g hg).1, (hn.2.2 g hg).2]; exact h g

theorem agree_same {s s' : Both D} (h : Agree s) (hn : Same s s') : Agree s' := by
  intro g; rw [hn.1, hn.2]; exact h g

theorem now_of {s : Both D} {t : FdTbl} {fd : Fd} {d : D} {flag : Bool} (h : t.getFlags = change s.tbl.getFlags [fd] (some flag)) :
    Now s ⟨t, put s.ker fd (some d)⟩ fd d flag := by
  refine ⟨by simp [put], by rw [h]; simp [change], ?_⟩
  intro g hg
  exact ⟨by simp [put, hg], by rw [h]; simp [change, hg]⟩

theorem gone_of {s : Both D} {t : FdTbl} {fd : Fd} (h : t.getFlags = change s.tbl.getFlags [fd] none) :
    Gone s ⟨t, put s.ker fd none⟩ fd := by
  refine ⟨by simp [put], by rw [h]; simp [change], ?_⟩
  intro g hg
  exact ⟨by simp [put, hg], by rw [h]; simp [change, hg]⟩

/-- The table reserves a number. -/
theorem reserve_spec {s : Both D} (h : Good s) (upper flag sync : Bool) :
    (∃ e t, reserve s.tbl upper flag sync = some (.error e, t) ∧ Reach t ∧
      t.getFlags = s.tbl.getFlags) ∨
    ∃ fd t, reserve s.tbl upper flag sync = some (.ok fd, t) ∧ Reach t ∧
      New s upper fd ∧ t.getFlags = change s.tbl.getFlags [fd] (some flag) := by
  cases upper with
  | true =>
    simp only [reserve, if_true]
    rcases insertUpper_spec s.tbl (reach_inv h.1) flag sync with ⟨e, h1, _⟩ | ⟨n, t', h1, _, h3, h5⟩
    · exact Or.inl ⟨e, _, h1, h.1, rfl⟩
    · exact Or.inr ⟨_, _, h1, reach_upper h.1 h1, ⟨(agree_none h.2).mp h3, n, rfl, fun e => (nomatch e)⟩, h5⟩
  | false =>
    simp only [reserve, Bool.false_eq_true, if_false]
    rcases addPosix_spec s.tbl (reach_inv h.1) flag sync with ⟨e, h1, _⟩ | ⟨n, t', h1, _, h3, h4, h5⟩
    · exact Or.inl ⟨e, _, by rw [h1], h.1, rfl⟩
    · exact Or.inr ⟨_, _, by rw [h1], reach_add h.1 h1, ⟨(agree_none h.2).mp h3, n, rfl, fun _ m hm => by rw [← h.2]; exact h4 m hm⟩, h5⟩

theorem reserveThen_spec {s : Both D} (h : Good s) (upper flag sync : Bool) (sys : (Fd → Option D) → Fd → Except CallErr (Fd → Option D))
    (P : D → Prop) (hsys : ∀ fd, (∃ d, sys s.ker fd = .ok (put s.ker fd (some d)) ∧ P d) ∨ ∃ e, sys s.ker fd = .error e) :
    ∃ r s', reserveThen s upper flag sync sys = some (r, s') ∧ Good s' ∧
      match r with
      | .ok fd => New s upper fd ∧ ∃ d, P d ∧ Now s s' fd d flag
      | .error _ => Same s s' := by
  rcases reserve_spec h upper flag sync with ⟨e, t, h1, h2, h3⟩ | ⟨fd, t, h1, h2, h3, h4⟩
  · exact ⟨.error (.table e), ⟨t, s.ker⟩, by simp [reserveThen, h1], ⟨h2, agree_same h.2 ⟨rfl, h3⟩⟩, rfl, h3⟩
  · rcases hsys fd with ⟨d, h5, h6⟩ | ⟨e, h5⟩
    · refine ⟨.ok fd, ⟨t, put s.ker fd (some d)⟩, by simp [reserveThen, h1, h5], ⟨h2, agree_now h.2 (now_of h4)⟩, h3, d, h6, now_of h4⟩
    · obtain ⟨b, t', h6, _, h8, _⟩ := remove_any t (reach_inv h2) fd
      have hs : t'.getFlags = s.tbl.getFlags := by
        rw [h8, h4, change_change, change_none_id ((agree_none h.2).mpr h3.1)]
      exact ⟨.error e, ⟨t', s.ker⟩, by simp [reserveThen, h1, h5, h6], ⟨reach_remove h2 h6, agree_same h.2 ⟨rfl, hs⟩⟩, rfl, hs⟩

theorem sysDup_cases (s : Both D) (fd : Fd) (ok : Bool) (out : Fd) :
    (∃ d, sysDup fd ok s.ker out = .ok (put s.ker out (some d)) ∧ s.ker fd = some d) ∨ ∃ e, sysDup fd ok s.ker out = .error e := by
  simp only [sysDup]
  split
  · next d hd =>
    split
    · exact Or.inl ⟨d, rfl, hd⟩
    · exact Or.inr ⟨_, rfl⟩
  · exact Or.inr ⟨_, rfl⟩

/-! ## The property -/

/-- **C108** (`open`): a descriptor that was not open, the lowest for the program, now refers to the file, with the flag asked for;
nothing else changes, and nothing at all if the call fails. -/
theorem C108_open {s : Both D} (h : Good s) (upper flag sync : Bool) (file : Option D) :
    ∃ r s', openInto s upper flag sync file = some (r, s') ∧ Good s' ∧
      match r with
      | .ok fd => New s upper fd ∧ ∃ d, file = some d ∧ Now s s' fd d flag
      | .error _ => Same s s' := by
  refine reserveThen_spec h upper flag sync (sysOpen file) (fun d => file = some d) (fun fd => ?_)
  cases file with
  | none => exact Or.inr ⟨_, rfl⟩
  | some d => exact Or.inl ⟨d, rfl, rfl⟩

/-- **C108** (`dup`): the lowest number that was not open now refers to what `fd` refers to, not to be closed on `exec`; nothing else
changes, and nothing at all if the call fails. -/
theorem C108_dup {s : Both D} (h : Good s) (upper : Bool) (fd : Fd) (sync ok : Bool) :
    ∃ r s', dupInto s upper fd sync ok = some (r, s') ∧ Good s' ∧
      match r with
      | .ok out => New s upper out ∧ ∃ d, s.ker fd = some d ∧ Now s s' out d false
      | .error _ => Same s s' :=
  reserveThen_spec h upper false sync (sysDup fd ok) (fun d => s.ker fd = some d) (fun out => sysDup_cases s fd ok out)

/-- **C108** (`close`): the descriptor is closed, or it was not open and nothing changes; other descriptors stay as they are. -/
theorem C108_close {s : Both D} (h : Good s) (fd : Fd) :
    ∃ r s', close s fd = some (r, s') ∧ Good s' ∧
      match r with
      | .ok _ => (s.ker fd).isSome ∧ Gone s s' fd
      | .error e => e = .badf ∧ s.ker fd = none ∧ Same s s' := by
  obtain ⟨b, t', h6, _, h8, _⟩ := remove_any s.tbl (reach_inv h.1) fd
  simp only [close, h6]
  cases hk : s.ker fd with
  | some d => exact ⟨_, _, rfl, ⟨reach_remove h.1 h6, agree_gone h.2 (gone_of h8)⟩, rfl, gone_of h8⟩
  | none =>
    have hs : t'.getFlags = s.tbl.getFlags := by rw [h8, change_none_id ((agree_none h.2).mpr hk)]
    exact ⟨_, _, rfl, ⟨reach_remove h.1 h6, agree_same h.2 ⟨rfl, hs⟩⟩, rfl, rfl, rfl, hs⟩

/-- **C108** (`F_GETFD`, `F_SETFD`): the flag is that of the last `F_SETFD`, or the one the descriptor was made with; `EBADF` if it is not
open. -/
theorem C108_flags {s : Both D} (h : Good s) (fd : Fd) (flag ok : Bool) :
    (match fcntlGetfd s fd with
      | .ok f => (s.ker fd).isSome ∧ s.tbl.getFlags fd = some f
      | .error e => e = .badf ∧ s.ker fd = none) ∧
    Good (fcntlSetfd s fd flag ok).2 ∧
    match (fcntlSetfd s fd flag ok).1 with
    | .ok _ => ∃ d, s.ker fd = some d ∧ Now s (fcntlSetfd s fd flag ok).2 fd d flag
    | .error _ => Same s (fcntlSetfd s fd flag ok).2 := by
  refine ⟨?_, ?_⟩
  · simp only [fcntlGetfd]
    cases hg : s.tbl.getFlags fd with
    | none => exact ⟨rfl, (agree_none h.2).mp hg⟩
    | some f => exact ⟨by rw [← h.2, hg]; rfl, rfl⟩
  · simp only [fcntlSetfd]
    cases hk : s.ker fd with
    | none => exact ⟨h, rfl, rfl⟩
    | some d =>
      cases ok with
      | false => exact ⟨h, rfl, rfl⟩
      | true =>
        simp only [if_true]
        rcases setFlags_spec s.tbl (reach_inv h.1) fd flag with ⟨h1, h2⟩ | ⟨t', h1, _, _, h4⟩
        · rw [(agree_none h.2).mp h2] at hk; cases hk
        · rw [h1]
          have hn : Now s { s with tbl := t' } fd d flag := by
            refine ⟨hk, by rw [h4]; simp [change], fun g hg => ⟨rfl, by rw [h4]; simp [change, hg]⟩⟩
          exact ⟨⟨reach_setFlags h.1 h1, agree_now h.2 hn⟩, d, rfl, hn⟩

/-- **C108** (`dup2`): if it succeeds, `newfd` refers to what `fd` refers to, and is not closed on `exec`; nothing else changes.

Missing: what a failing call leaves (`C108_dup2_error_violation`), and that `dup2` of a descriptor to itself leaves its flag alone
(`C108_dup2_same_violation`). Here a failing call leaves things as they are if `newfd` was not open, or if the failure is that of the
table. -/
theorem C108_dup2_partial {s : Both D} (h : Good s) (fd newfd : Fd) (sync ok : Bool) :
    ∃ r s', dup2 s fd newfd sync ok = some (r, s') ∧
      match r with
      | .ok out => Good s' ∧ out = newfd ∧ ∃ d, s.ker fd = some d ∧ Now s s' newfd d false
      | .error (.table _) => Good s' ∧ Same s s'
      | .error _ => s.ker newfd = none → Good s' ∧ Same s s' := by
  rcases override_spec s.tbl (reach_inv h.1) newfd sync with ⟨e, t, h1, _, h3, _⟩ | ⟨t, h1, h2, h3⟩
  · exact ⟨.error (.table e), { s with tbl := t }, by simp [dup2, h1], ⟨reach_override h.1 h1, agree_same h.2 ⟨rfl, h3⟩⟩, rfl, h3⟩
  · rcases sysDup_cases s fd ok newfd with ⟨d, h5, h6⟩ | ⟨e, h5⟩
    · exact ⟨.ok newfd, ⟨t, put s.ker newfd (some d)⟩, by simp [dup2, h1, h5], ⟨reach_override h.1 h1, agree_now h.2 (now_of h3)⟩, rfl, d, h6, now_of h3⟩
    · obtain ⟨b, t', h6, _, h8, _⟩ := remove_any t h2 newfd
      refine ⟨.error e, ⟨t', s.ker⟩, by simp [dup2, h1, h5, h6], ?_⟩
      have hg : s.ker newfd = none → Good ⟨t', s.ker⟩ ∧ Same s ⟨t', s.ker⟩ := by
        intro hn
        have hs : t'.getFlags = s.tbl.getFlags := by rw [h8, h3, change_change, change_none_id ((agree_none h.2).mpr hn)]
        exact ⟨⟨reach_remove (reach_override h.1 h1) h6, agree_same h.2 ⟨rfl, hs⟩⟩, rfl, hs⟩
      cases e with
      | table e' =>
        exfalso
        simp only [sysDup] at h5
        split at h5
        · split at h5 <;> cases h5
        · cases h5
      | badf => exact hg
      | system => exact hg

/-- **C108** (`F_DUPFD`, `F_DUPFD_CLOEXEC`): a new descriptor refers to what `fd` refers to, with the flag asked for; nothing else changes,
and nothing at all if the call fails.

Missing: that the number is not less than the argument (`C108_dupfd_violation`). It is the lowest one that is not open. -/
theorem C108_dupfd_partial {s : Both D} (h : Good s) (fd arg : Fd) (cloexec sync ok : Bool) :
    ∃ r s', fcntlDupfd s fd arg cloexec sync ok = some (r, s') ∧ Good s' ∧
      match r with
      | .ok out => (∃ upper n, arg = mkFd upper n ∧ New s upper out) ∧ ∃ d, s.ker fd = some d ∧ Now s s' out d cloexec
      | .error _ => Same s s' := by
  cases arg with
  | upper n =>
    obtain ⟨r, s', h1, h2, h3⟩ := reserveThen_spec h true cloexec sync (sysDup fd ok) (fun d => s.ker fd = some d)
      (fun out => sysDup_cases s fd ok out)
    refine ⟨r, s', h1, h2, ?_⟩
    cases r with
    | error e => exact h3
    | ok out => exact ⟨⟨true, n, rfl, h3.1⟩, h3.2⟩
  | posix n =>
    obtain ⟨r, s', h1, h2, h3⟩ := reserveThen_spec h false cloexec sync (sysDup fd ok) (fun d => s.ker fd = some d)
      (fun out => sysDup_cases s fd ok out)
    refine ⟨r, s', h1, h2, ?_⟩
    cases r with
    | error e => exact h3
    | ok out => exact ⟨⟨false, n, rfl, h3.1⟩, h3.2⟩

theorem removeAll_spec (l : List Fd) : ∀ t, Reach t → ∃ t', removeAll t l = some t' ∧ Reach t' ∧
    ∀ fd, t'.getFlags fd = if fd ∈ l then none else t.getFlags fd := by
  induction l with
  | nil => intro t h; exact ⟨t, rfl, h, fun fd => by simp⟩
  | cons a l ih =>
    intro t h
    obtain ⟨b, t1, h1, _, h3, _⟩ := remove_any t (reach_inv h) a
    obtain ⟨t', h4, h5, h6⟩ := ih t1 (reach_remove h h1)
    refine ⟨t', by simp [removeAll, h1, h4], h5, ?_⟩
    intro fd
    rw [h6, h3]
    simp only [change, List.mem_cons, List.not_mem_nil, or_false]
    by_cases ha : fd = a
    · simp [ha]
    · simp [ha]

/-- **C108** (`exec`): exactly the descriptors with the flag, and the one of the program file, are closed, in both tables; the one for the
address space is left for later. -/
theorem C108_exec {s : Both D} (h : Good s) (keep image : Fd) :
    ∃ s', execClose s keep image = some s' ∧ Good s' ∧
      ∀ fd, (fd ≠ keep ∧ (s.tbl.getFlags fd = some true ∨ fd = image) → s'.ker fd = none ∧ s'.tbl.getFlags fd = none) ∧
        (¬ (fd ≠ keep ∧ (s.tbl.getFlags fd = some true ∨ fd = image)) → s'.ker fd = s.ker fd ∧ s'.tbl.getFlags fd = s.tbl.getFlags fd) := by
  obtain ⟨t', h1, h2, h3⟩ := removeAll_spec (toClose s.tbl keep image) s.tbl h.1
  have hmem : ∀ fd, fd ∈ toClose s.tbl keep image ↔ (s.ker fd).isSome ∧ fd ≠ keep ∧ (s.tbl.getFlags fd = some true ∨ fd = image) := by
    intro fd
    simp only [toClose, List.mem_map, List.mem_filter]
    constructor
    · rintro ⟨⟨g, f⟩, ⟨hg, hc⟩, rfl⟩
      have hg' := (iter_mem s.tbl g f).mp hg
      simp only [ne_eq, decide_not, Bool.and_eq_true, Bool.not_eq_eq_eq_not, Bool.not_true, decide_eq_false_iff_not, Bool.or_eq_true,
        beq_iff_eq] at hc
      refine ⟨by rw [← h.2, hg']; rfl, hc.1, ?_⟩
      rcases hc.2 with h5 | h5
      · left; rw [hg', h5]
      · exact Or.inr h5
    · rintro ⟨h4, h5, h6⟩
      rw [← h.2] at h4
      obtain ⟨f, hf⟩ := Option.isSome_iff_exists.mp h4
      refine ⟨(fd, f), ⟨(iter_mem s.tbl fd f).mpr hf, ?_⟩, rfl⟩
      simp only [ne_eq, decide_not, Bool.and_eq_true, Bool.not_eq_eq_eq_not, Bool.not_true, decide_eq_false_iff_not, Bool.or_eq_true,
        beq_iff_eq]
      refine ⟨h5, ?_⟩
      rcases h6 with h6 | h6
      · left; rw [hf] at h6; cases h6; rfl
      · exact Or.inr h6
  have hker : ∀ fd, (fun fd => if (toClose s.tbl keep image).contains fd then none else s.ker fd) fd =
      if fd ∈ toClose s.tbl keep image then none else s.ker fd := by
    intro fd; simp only [List.contains_iff_mem]
  refine ⟨⟨t', fun fd => if (toClose s.tbl keep image).contains fd then none else s.ker fd⟩, by simp [execClose, h1], ⟨h2, ?_⟩, ?_⟩
  · intro fd
    show (t'.getFlags fd).isSome = ((fun fd => if (toClose s.tbl keep image).contains fd then none else s.ker fd) fd).isSome
    rw [h3, hker]
    split
    · rfl
    · exact h.2 fd
  · intro fd
    show (_ → (fun fd => if (toClose s.tbl keep image).contains fd then none else s.ker fd) fd = none ∧ t'.getFlags fd = none) ∧
      (_ → (fun fd => if (toClose s.tbl keep image).contains fd then none else s.ker fd) fd = s.ker fd ∧ _)
    rw [h3, hker]
    refine ⟨fun hc => ?_, fun hc => ?_⟩
    · cases ho : s.ker fd with
      | none =>
        have := (agree_none h.2).mpr ho
        split
        · exact ⟨rfl, rfl⟩
        · exact ⟨rfl, this⟩
      | some d =>
        have hm := (hmem fd).mpr ⟨by rw [ho]; rfl, hc⟩
        rw [if_pos hm, if_pos hm]
        exact ⟨rfl, rfl⟩
    · have hm : fd ∉ toClose s.tbl keep image := fun hh => hc ((hmem fd).mp hh).2
      rw [if_neg hm, if_neg hm]
      exact ⟨rfl, rfl⟩

/-! ## Threads -/

/-- Several threads start with nothing open. -/
inductive Runs : Threads D → Prop
  | start : Runs ⟨FdTbl.initial, fun _ => none, [], []⟩
  | step {s s' : Threads D} : Runs s → Step s s' → Runs s'

/-- The invariant: the open numbers of the table are those of the kernel, those reserved, and those being closed, which are disjoint. -/
structure TInv (s : Threads D) : Prop where
  reach : Reach s.tbl
  pend : s.pending.Nodup
  clos : s.closing.Nodup
  dom : ∀ fd, (s.tbl.getFlags fd).isSome ↔ (s.ker fd).isSome ∨ fd ∈ s.pending ∨ fd ∈ s.closing
  pendK : ∀ fd ∈ s.pending, s.ker fd = none ∧ fd ∉ s.closing
  closK : ∀ fd ∈ s.closing, s.ker fd = none

theorem tinv_reserve {s : Threads D} (h : TInv s) {fd : Fd} {t : FdTbl} {flag : Bool} (hr : Reach t) (hn : s.tbl.getFlags fd = none)
    (hv : t.getFlags = change s.tbl.getFlags [fd] (some flag)) : TInv { s with tbl := t, pending := fd :: s.pending } := by
  have hd := h.dom fd
  rw [hn] at hd
  simp only [Option.isSome_none, Bool.false_eq_true, false_iff, not_or] at hd
  obtain ⟨h1, h2, h3⟩ := hd
  have h1' : s.ker fd = none := by cases hk : s.ker fd <;> simp_all
  refine ⟨hr, List.nodup_cons.mpr ⟨h2, h.pend⟩, h.clos, ?_, ?_, h.closK⟩
  · intro g
    rw [hv]
    simp only [change, List.mem_cons, List.not_mem_nil, or_false]
    by_cases hg : g = fd
    · simp [hg]
    · simp only [hg, if_false, false_or]; exact h.dom g
  · intro g hg
    rcases List.mem_cons.mp hg with rfl | hg
    · exact ⟨h1', h3⟩
    · exact h.pendK g hg

theorem tinv_step {s s' : Threads D} (ih : TInv s) (hs : Step s s') : TInv s' := by
  cases hs with
  | @reserve flag sync fd t he =>
    rcases addPosix_spec _ (reach_inv ih.reach) flag sync with ⟨e, h1, _⟩ | ⟨n, t', h1, _, h3, _, h5⟩
    · rw [h1] at he; cases he
    · rw [h1] at he; cases he
      exact tinv_reserve ih (reach_add ih.reach h1) h3 h5
  | @reserveUpper flag sync fd t he =>
    rcases insertUpper_spec _ (reach_inv ih.reach) flag sync with ⟨e, h1, _⟩ | ⟨n, t', h1, _, h3, h5⟩
    · rw [h1] at he; cases he
    · rw [h1] at he; cases he
      exact tinv_reserve ih (reach_upper ih.reach h1) h3 h5
  | @install fd d hm =>
    refine ⟨ih.reach, ih.pend.erase fd, ih.clos, ?_, ?_, ?_⟩
    · intro g
      rw [ih.dom g]
      simp only [put, List.Nodup.mem_erase_iff ih.pend]
      by_cases hg : g = fd
      · simp [hg, hm]
      · simp [hg]
    · intro g hg
      obtain ⟨h1, h2⟩ := (List.Nodup.mem_erase_iff ih.pend).mp hg
      exact ⟨by simp only [put, h1, if_false]; exact (ih.pendK g h2).1, (ih.pendK g h2).2⟩
    · intro g hg
      have hne : g ≠ fd := fun e => (ih.pendK fd hm).2 (e ▸ hg)
      simp only [put, hne, if_false]; exact ih.closK g hg
  | @release fd b t hm he =>
    obtain ⟨b', t', h1, _, h3, _⟩ := remove_any s.tbl (reach_inv ih.reach) fd
    rw [h1] at he; cases he
    refine ⟨reach_remove ih.reach h1, ih.pend.erase fd, ih.clos, ?_, ?_, ih.closK⟩
    · intro g
      rw [h3]
      simp only [change, List.mem_cons, List.not_mem_nil, or_false, List.Nodup.mem_erase_iff ih.pend]
      by_cases hg : g = fd
      · simp [hg, (ih.pendK fd hm).1, (ih.pendK fd hm).2]
      · simp only [hg, if_false, ne_eq, not_false_eq_true, true_and]; exact ih.dom g
    · intro g hg
      exact ih.pendK g ((List.Nodup.mem_erase_iff ih.pend).mp hg).2
  | @closeKernel fd ho =>
    have hn : fd ∉ s.closing := fun hc => by rw [ih.closK fd hc] at ho; cases ho
    have hp : fd ∉ s.pending := fun hc => by rw [(ih.pendK fd hc).1] at ho; cases ho
    refine ⟨ih.reach, ih.pend, List.nodup_cons.mpr ⟨hn, ih.clos⟩, ?_, ?_, ?_⟩
    · intro g
      rw [ih.dom g]
      simp only [put, List.mem_cons]
      by_cases hg : g = fd
      · simp [hg, ho]
      · simp [hg]
    · intro g hg
      have hne : g ≠ fd := fun e => hp (e ▸ hg)
      refine ⟨by simp only [put, hne, if_false]; exact (ih.pendK g hg).1, ?_⟩
      intro hc
      rcases List.mem_cons.mp hc with e | hc
      · exact hne e
      · exact (ih.pendK g hg).2 hc
    · intro g hg
      simp only [put]
      split
      · rfl
      · next hne =>
        rcases List.mem_cons.mp hg with e | hg
        · exact absurd e hne
        · exact ih.closK g hg
  | @closeTable fd b t hm he =>
    obtain ⟨b', t', h1, _, h3, _⟩ := remove_any s.tbl (reach_inv ih.reach) fd
    rw [h1] at he; cases he
    refine ⟨reach_remove ih.reach h1, ih.pend, ih.clos.erase fd, ?_, ?_, ?_⟩
    · intro g
      rw [h3]
      simp only [change, List.mem_cons, List.not_mem_nil, or_false, List.Nodup.mem_erase_iff ih.clos]
      by_cases hg : g = fd
      · subst hg
        have : g ∉ s.pending := fun hc => (ih.pendK g hc).2 hm
        simp [ih.closK g hm, this]
      · simp only [hg, if_false, ne_eq, not_false_eq_true, true_and]; exact ih.dom g
    · intro g hg
      exact ⟨(ih.pendK g hg).1, fun hc => (ih.pendK g hg).2 ((List.Nodup.mem_erase_iff ih.clos).mp hc).2⟩
    · intro g hg
      exact ih.closK g ((List.Nodup.mem_erase_iff ih.clos).mp hg).2
  | @setFlags fd flag ho =>
    rcases setFlags_spec s.tbl (reach_inv ih.reach) fd flag with ⟨h1, _⟩ | ⟨t', h1, h2, _, h4⟩
    · exact ⟨by rw [h1]; exact ih.reach, ih.pend, ih.clos, by rw [h1]; exact ih.dom, ih.pendK, ih.closK⟩
    · refine ⟨by rw [h1]; exact reach_setFlags ih.reach h1, ih.pend, ih.clos, ?_, ih.pendK, ih.closK⟩
      intro g
      simp only [h1]
      rw [h4, ← ih.dom g]
      simp only [change, List.mem_cons, List.not_mem_nil, or_false]
      by_cases hg : g = fd
      · rw [hg]; simp [h2]
      · simp [hg]

theorem tinv_runs {s : Threads D} (h : Runs s) : TInv s := by
  induction h with
  | start =>
    refine ⟨.initial, List.nodup_nil, List.nodup_nil, ?_, fun fd hfd => absurd hfd List.not_mem_nil, fun fd hfd => absurd hfd List.not_mem_nil⟩
    intro fd; rw [C107_initial]; simp
  | step _ hs ih => exact tinv_step ih hs

/-- **C108** (threads): in any interleaving of threads that open, duplicate and close descriptors, each closing only what is open, no
number is reserved by two threads at once, and no reserved number is open: a new descriptor never replaces an open one. A number that is
open is never free in the table. -/
theorem C108_threads {s : Threads D} (h : Runs s) :
    s.pending.Nodup ∧ (∀ fd ∈ s.pending, s.ker fd = none) ∧ ∀ fd, (s.ker fd).isSome → (s.tbl.getFlags fd).isSome :=
  ⟨(tinv_runs h).pend, fun fd hfd => ((tinv_runs h).pendK fd hfd).1, fun fd hfd => ((tinv_runs h).dom fd).mpr (Or.inl hfd)⟩

/-! ## Concrete cases, and what is wrong -/

/-- Nothing is open. -/
def empty : Both Nat := ⟨FdTbl.initial, fun _ => none⟩

theorem empty_good : Good empty := ⟨.initial, fun fd => by rw [show empty.tbl.getFlags fd = none from C107_initial fd]; rfl⟩

/-- Three files, 10 and 11 and 12, are opened one after the other, the second to be closed on `exec`. -/
def three : Option (Both Nat) := do
  let (_, s) ← openInto empty false false true (some 10)
  let (_, s) ← openInto s false true true (some 11)
  let (_, s) ← openInto s false false true (some 12)
  some s

theorem three_good : ∀ s, three = some s → Good s := by
  intro s hs
  obtain ⟨r1, s1, h1, g1, _⟩ := C108_open empty_good false false true (some 10)
  obtain ⟨r2, s2, h2, g2, _⟩ := C108_open g1 false true true (some 11)
  obtain ⟨r3, s3, h3, g3, _⟩ := C108_open g2 false false true (some 12)
  simp only [three, h1, Option.bind_eq_bind, Option.bind_some, h2, h3, Option.some.injEq] at hs
  rw [← hs]; exact g3

/-- What the first five numbers refer to, and their flags. -/
def shows (s : Both Nat) : List (Option Nat × Option Bool) := (List.range 5).map (fun n => (s.ker (.posix n), s.tbl.getFlags (.posix n)))

example : three.map shows = some [(some 10, some false), (some 11, some true), (some 12, some false), (none, none), (none, none)] := by
  decide +kernel

example : (three.bind (fun s => execClose s (.upper 0) (.posix 2))).map shows =
    some [(some 10, some false), (none, none), (none, none), (none, none), (none, none)] := by decide +kernel

example : (three.bind (fun s => (dup2 s (.posix 0) (.posix 4) true true).map (fun r => shows r.2))) =
    some [(some 10, some false), (some 11, some true), (some 12, some false), (none, none), (some 10, some false)] := by decide +kernel

/-- **C108**, violated: `dup2` from a descriptor that is not open fails with `EBADF`, and takes the number `newfd` out of the table,
though it is still open in the kernel. The next descriptor opened gets the same number, and the file that was open there is replaced. -/
theorem C108_dup2_error_violation :
    ∃ s s1 s2 : Both Nat, Good s ∧ s.ker (.posix 1) = some 11 ∧
      dup2 s (.posix 4) (.posix 1) true true = some (.error .badf, s1) ∧ s1.ker (.posix 1) = some 11 ∧ s1.tbl.getFlags (.posix 1) = none ∧
      fcntlGetfd s1 (.posix 1) = .error .badf ∧
      openInto s1 false false true (some 99) = some (.ok (.posix 1), s2) ∧ s2.ker (.posix 1) = some 99 := by
  obtain ⟨s, hs⟩ : ∃ s, three = some s := Option.isSome_iff_exists.mp (by decide +kernel)
  have h0 : (three.bind (fun s => (dup2 s (.posix 4) (.posix 1) true true).bind (fun r =>
      (openInto r.2 false false true (some 99)).map (fun q =>
        ((s.ker (.posix 1), match r.1 with | .error .badf => true | _ => false), (r.2.ker (.posix 1), r.2.tbl.getFlags (.posix 1)),
          (match q.1 with | .ok fd => some fd | _ => none, q.2.ker (.posix 1))))))) =
      some ((some 11, true), (some 11, none), (some (.posix 1), some 99)) := by decide +kernel
  rw [hs, Option.bind_some] at h0
  cases h1 : dup2 s (.posix 4) (.posix 1) true true with
  | none => rw [h1] at h0; cases h0
  | some r =>
    obtain ⟨r, s1⟩ := r
    rw [h1, Option.bind_some] at h0
    cases h2 : openInto s1 false false true (some 99) with
    | none => simp only at h0; rw [h2] at h0; cases h0
    | some q =>
      obtain ⟨q, s2⟩ := q
      simp only at h0
      rw [h2] at h0
      simp only [Option.map_some, Option.some.injEq, Prod.mk.injEq] at h0
      obtain ⟨⟨ha, hb⟩, ⟨hc, hd⟩, he, hf⟩ := h0
      refine ⟨s, s1, s2, three_good s hs, ha, ?_, hc, hd, by simp [fcntlGetfd, hd], ?_, hf⟩
      · split at hb
        · exact h1
        · cases hb
      · split at he
        · cases he; exact h2
        · cases he

/-- **C108**, violated: `dup2(1, 1)` clears the flag for closing on `exec`. -/
theorem C108_dup2_same_violation :
    ∃ s s' : Both Nat, Good s ∧ s.tbl.getFlags (.posix 1) = some true ∧
      dup2 s (.posix 1) (.posix 1) true true = some (.ok (.posix 1), s') ∧ s'.tbl.getFlags (.posix 1) = some false := by
  obtain ⟨s, hs⟩ : ∃ s, three = some s := Option.isSome_iff_exists.mp (by decide +kernel)
  have h0 : (three.map (fun s => (s.tbl.getFlags (.posix 1), s.ker (.posix 1)))) = some (some true, some 11) := by decide +kernel
  rw [hs] at h0
  simp only [Option.map_some, Option.some.injEq, Prod.mk.injEq] at h0
  have hg := three_good s hs
  obtain ⟨r, s', h1, h2⟩ := C108_dup2_partial hg (.posix 1) (.posix 1) true true
  have hr : (three.bind (fun s => dup2 s (.posix 1) (.posix 1) true true)).map (fun r => match r.1 with | .ok _ => true | _ => false) = some true := by
    decide +kernel
  rw [hs, Option.bind_some, h1] at hr
  simp only [Option.map_some, Option.some.injEq] at hr
  cases r with
  | error e => cases hr
  | ok out =>
    obtain ⟨_, h3, d, _, h4⟩ := h2
    subst h3
    exact ⟨s, s', hg, h0.1, h1, h4.2.1⟩

/-- **C108**, violated: `fcntl(0, F_DUPFD, 10)` gives number 3, not one from 10 on. -/
theorem C108_dupfd_violation :
    ∃ s s' : Both Nat, Good s ∧ fcntlDupfd s (.posix 0) (.posix 10) false true true = some (.ok (.posix 3), s') := by
  obtain ⟨s, hs⟩ : ∃ s, three = some s := Option.isSome_iff_exists.mp (by decide +kernel)
  have h0 : (three.bind (fun s => fcntlDupfd s (.posix 0) (.posix 10) false true true)).map
      (fun r => match r.1 with | .ok fd => some fd | _ => none) = some (some (.posix 3)) := by decide +kernel
  rw [hs, Option.bind_some] at h0
  cases h1 : fcntlDupfd s (.posix 0) (.posix 10) false true true with
  | none => rw [h1] at h0; cases h0
  | some r =>
    obtain ⟨r, s'⟩ := r
    rw [h1] at h0
    simp only [Option.map_some, Option.some.injEq] at h0
    refine ⟨s, s', three_good s hs, ?_⟩
    split at h0
    · cases h0; exact h1
    · cases h0

/-- **C108**, violated: if a thread closes a number that is not open (as programs do that close all numbers up to a limit) while another
thread is opening a file, the number reserved is given a second time: both threads install their file under it. -/
theorem C108_stray_close_violation :
    ∃ s s1 s2 : Threads Nat, Runs s ∧ s.pending = [.posix 0] ∧ Stray s s1 ∧ Step s1 s2 ∧ s2.pending = [.posix 0, .posix 0] := by
  have hinv := initial_inv
  rcases addPosix_spec FdTbl.initial hinv false true with ⟨e, h1, h2⟩ | ⟨n, t1, h1, h2, h3, h4, h5⟩
  · exfalso
    rcases h2 with ⟨_, l, hn, ho, hl⟩ | ⟨h, _⟩
    · cases l with
      | nil => simp at hl
      | cons a l => have := ho a List.mem_cons_self; rw [C107_initial] at this; cases this
    · cases h
  · have hn : n = 0 := by
      cases n with
      | zero => rfl
      | succ n => have := h4 0 (by omega); rw [C107_initial] at this; cases this
    subst hn
    obtain ⟨b, t2, h6, h7, h8, _⟩ := remove_any t1 h2 (.posix 0)
    have hv2 : t2.getFlags = FdTbl.initial.getFlags := by rw [h8, h5, change_change, change_none_id h3]
    rcases addPosix_spec t2 h7 false true with ⟨e, h9, h10⟩ | ⟨m, t3, h9, _, _, h12, _⟩
    · exfalso
      rcases h10 with ⟨_, l, hn, ho, hl⟩ | ⟨h, _⟩
      · cases l with
        | nil => simp at hl
        | cons a l => have := ho a List.mem_cons_self; rw [hv2, C107_initial] at this; cases this
      · cases h
    · have hm : m = 0 := by
        cases m with
        | zero => rfl
        | succ m => have := h12 0 (by omega); rw [hv2, C107_initial] at this; cases this
      subst hm
      exact ⟨_, _, _, .step .start (.reserve h1), rfl, .close rfl h6, .reserve h9, rfl⟩

end Verif.Fd
