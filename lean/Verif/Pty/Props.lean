import Verif.Pty.Model
import Verif.Stdio.PrintfConv
/-!
# Pseudo-terminals and terminal modes (C142)
-/

namespace Verif.Pty

/-! ## Specification -/

/-- The name of terminal `n`. -/
def nameOf (n : Nat) : List UInt8 := [0x2F, 0x73, 0x63, 0x68, 0x65, 0x6D, 0x65, 0x2F, 0x70, 0x74, 0x79, 0x2F] ++ Stdio.numeral 10 false n

/-- New descriptors are not in use, and differ. -/
structure Fresh (e : Env) (f : Fds) : Prop where
  manager : ∀ m, e.ptmx = some m → f m = none
  terminal : ∀ p s, e.opens p = some s → f s = none ∧ e.ptmx ≠ some s
  pipe : ∀ r w, e.pipe = some (r, w) → f r = none ∧ f w = none ∧ r ≠ w ∧ e.ptmx ≠ some r ∧ e.ptmx ≠ some w ∧ ∀ p, e.opens p ≠ some r ∧ e.opens p ≠ some w

/-! ## `ptsname_r` -/

theorem digit_nul (n : Nat) : (0 : UInt8) ∉ Stdio.digitsOf 10 false n := by
  induction n using Nat.strongRecOn with
  | ind n ih =>
    unfold Stdio.digitsOf
    have hd : ∀ d, d < 10 → (0 : UInt8) ≠ Stdio.digitByte false d := by decide +kernel
    split
    · rename_i h
      simp only [List.mem_singleton]
      exact hd n (by omega)
    · rename_i h
      simp only [List.mem_append, List.mem_singleton, not_or]
      exact ⟨ih _ (Nat.div_lt_self (by omega) (by omega)), hd _ (Nat.mod_lt _ (by omega))⟩

theorem name_eq (n : Nat) : scheme ++ Stdio.digitsOf 10 false n = nameOf n := by
  unfold nameOf
  rw [Stdio.digitsOf_eq (by decide) (by decide)]
  rfl

theorem name_nul (n : Nat) : (0 : UInt8) ∉ nameOf n := by
  rw [← name_eq, List.mem_append, not_or]
  exact ⟨by decide, digit_nul n⟩

theorem path_append {l t : List UInt8} (h : 0 ∉ l) : path (l ++ [0] ++ t) = l := by
  unfold path
  induction l with
  | nil => rfl
  | cons b l ih =>
    simp only [List.mem_cons, not_or] at h
    rw [List.cons_append, List.cons_append, List.takeWhile_cons, ih h.2]
    have : (b != 0) = true := by
      rw [bne_iff_ne]
      exact fun q => h.1 q.symm
    rw [this]
    rfl

/-- **C142.** `ptsname_r` stores the name of the terminal if it fits, and nothing behind it; otherwise the buffer stays as it is and the error is `ERANGE`, or that of the kernel. -/
theorem C142_ptsname (e : Env) (buf : List UInt8) :
    (∀ n, e.number = .inl n → (nameOf n).length < buf.length → ptsname e buf = (0, nameOf n ++ [0] ++ buf.drop ((nameOf n).length + 1))) ∧
    (∀ n, e.number = .inl n → buf.length ≤ (nameOf n).length → ptsname e buf = (34, buf)) ∧
    (∀ x, e.number = .inr x → ptsname e buf = (x, buf)) := by
  refine ⟨fun n h hl => ?_, fun n h hl => ?_, fun x h => ?_⟩
  · unfold ptsname
    rw [h]
    dsimp only
    rw [name_eq, if_neg (by omega)]
  · unfold ptsname
    rw [h]
    dsimp only
    rw [name_eq, if_pos (by omega)]
    rfl
  · unfold ptsname
    rw [h]

/-! ## `openpty` -/

theorem close_put {f : Fds} {fd : Nat} {o : Obj} (h : f fd = none) : close (put f fd o) fd = f := by
  funext x
  unfold close put
  by_cases hx : x = fd
  · rw [if_pos hx, hx, h]
  · rw [if_neg hx, if_neg hx]

theorem close_put_ne {f : Fds} {a b : Nat} {o : Obj} (h : a ≠ b) : close (put f a o) b = put (close f b) a o := by
  funext x
  unfold close put
  by_cases ha : x = a
  · have hb : x ≠ b := fun q => h (ha.symm.trans q)
    rw [if_neg hb, if_pos ha, if_pos ha]
  · rw [if_neg ha, if_neg ha]

theorem close_none {f : Fds} {fd : Nat} (h : f fd = none) : close f fd = f := by
  funext x
  unfold close
  by_cases hx : x = fd
  · rw [if_pos hx, hx, h]
  · rw [if_neg hx]

/-- **C142.** `openpty`, whatever fails: either the manager and a terminal are open, or there is no new descriptor. -/
theorem C142_openpty_descriptors {e : Env} {f : Fds} (h : Fresh e f) (name : Option (List UInt8)) :
    (∃ m s p b, openpty e f name = (some (m, s), put (put f m .manager) s (.terminal p), b) ∧ e.ptmx = some m ∧ e.opens p = some s) ∨
    (∃ b, openpty e f name = (none, f, b)) := by
  unfold openpty openInner
  cases hm : e.ptmx with
  | none => exact .inr ⟨_, rfl⟩
  | some m =>
    dsimp only
    have hf := h.manager m hm
    cases hu : e.unlock with
    | false =>
      refine .inr ⟨name.getD (List.replicate 4096 0), ?_⟩
      rw [Bool.not_false, if_pos rfl, close_put hf]
    | true =>
      simp only [Bool.not_true, Bool.false_eq_true, if_false]
      cases ho : e.opens (path (ptsname e (name.getD (List.replicate 4096 0))).2) with
      | none => exact .inr ⟨_, by rw [close_put hf]⟩
      | some s => exact .inl ⟨m, s, _, _, rfl, rfl, ho⟩

/-- **C142, partial.** `openpty` opens the terminal that belongs to the manager, and stores its name. Missing: when its number cannot be had (`C142_name_violation`). -/
theorem C142_openpty_partial {e : Env} {f : Fds} {n : Nat} (hn : e.number = .inl n) (hb : (nameOf n).length < 4096) {name : Option (List UInt8)} (hl : ∀ b, name = some b → b.length = 4096)
    {m s : Nat} {f' : Fds} {b : List UInt8} (h : openpty e f name = (some (m, s), f', b)) :
    e.opens (nameOf n) = some s ∧ f' = put (put f m .manager) s (.terminal (nameOf n)) ∧ path b = nameOf n := by
  have hbuf : (name.getD (List.replicate 4096 0)).length = 4096 := by
    cases name with
    | none => rw [Option.getD_none, List.length_replicate]
    | some x => exact hl x rfl
  have hp := (C142_ptsname e (name.getD (List.replicate 4096 0))).1 n hn (by omega)
  have hpath := path_append (t := (name.getD (List.replicate 4096 0)).drop ((nameOf n).length + 1)) (name_nul n)
  unfold openpty openInner at h
  cases hm : e.ptmx with
  | none =>
    rw [hm] at h
    cases h
  | some m' =>
    rw [hm] at h
    dsimp only at h
    split at h
    · cases h
    · rw [hp] at h
      dsimp only at h
      rw [hpath] at h
      cases ho : e.opens (nameOf n) with
      | none =>
        rw [ho] at h
        cases h
      | some s' =>
        rw [ho] at h
        cases h
        exact ⟨rfl, rfl, hpath⟩

/-- **C142, violated.** When the number of the terminal cannot be had, `openpty` opens whatever path is in the caller's buffer, and returns it as the terminal. -/
theorem C142_name_violation {e : Env} {f : Fds} {m x s : Nat} {buf : List UInt8} (hm : e.ptmx = some m) (hu : e.unlock = true) (hx : e.number = .inr x) (ho : e.opens (path buf) = some s) :
    openpty e f (some buf) = (some (m, s), put (put f m .manager) s (.terminal (path buf)), buf) := by
  unfold openpty openInner
  have := (C142_ptsname e buf).2.2 x hx
  rw [hm]
  dsimp only [Option.getD_some]
  rw [hu, this]
  dsimp only
  rw [ho]
  rfl

/-! ## `forkpty` -/

/-- **C142.** `forkpty` in the parent, when the child could set up its terminal: only the manager is new, and signals and cancellation are as before. -/
theorem C142_forkpty_parent {e : Env} {st : St} (h : Fresh e st.fds) {name : Option (List UInt8)} {pid m : Nat} {st' : St} (hf : forkpty e st name = (.parent pid m, st')) :
    e.fork = .parent pid ∧ e.ptmx = some m ∧ e.report = none ∧ st'.fds = put st.fds m .manager ∧ st'.mask = st.mask ∧ st'.cancel = st.cancel := by
  unfold forkpty at hf
  rcases C142_openpty_descriptors h name with ⟨m', s, p, b, ho, hm, hs⟩ | ⟨b, ho⟩
  · rw [ho] at hf
    dsimp only at hf
    cases hp : e.pipe with
    | none =>
      rw [hp] at hf
      cases hf
    | some rw' =>
      obtain ⟨r, w⟩ := rw'
      rw [hp] at hf
      dsimp only at hf
      cases hk : e.fork with
      | child =>
        rw [hk] at hf
        dsimp only at hf
        split at hf <;> cases hf
      | failed =>
        rw [hk] at hf
        cases hf
      | parent pid' =>
        rw [hk] at hf
        dsimp only at hf
        cases hr : e.report with
        | some x =>
          rw [hr] at hf
          cases hf
        | none =>
          rw [hr] at hf
          dsimp only at hf
          cases hf
          refine ⟨rfl, hm, rfl, ?_, rfl, rfl⟩
          obtain ⟨f1, f2, f3, f4, f5, f6⟩ := h.pipe r w hp
          obtain ⟨g1, g2⟩ := h.terminal p s hs
          have hsr : s ≠ r := fun q => (f6 p).1 (q ▸ hs)
          have hsw : s ≠ w := fun q => (f6 p).2 (q ▸ hs)
          have hms : m ≠ s := fun q => g2 (q ▸ hm)
          have hmr : m ≠ r := fun q => f4 (q ▸ hm)
          have hmw : m ≠ w := fun q => f5 (q ▸ hm)
          funext x
          dsimp only
          unfold close put
          by_cases h1 : x = r
          · subst h1
            rw [if_pos rfl, if_neg (Ne.symm hmr), f1]
          · rw [if_neg h1]
            by_cases h2 : x = w
            · subst h2
              rw [if_pos rfl, if_neg (Ne.symm hmw), f2]
            · rw [if_neg h2]
              by_cases h3 : x = s
              · subst h3
                rw [if_pos rfl, if_neg (Ne.symm hms), g1]
              · rw [if_neg h3, if_neg h2, if_neg h1, if_neg h3]
  · rw [ho] at hf
    cases hf

/-- **C142.** `forkpty` that returns −1 leaves everything as it was: descriptors, signals, cancellation; whether the manager, its terminal, the pipe or the process could not be had, or the child
could not set up its terminal. -/
theorem C142_forkpty_failed {e : Env} {st : St} (h : Fresh e st.fds) {name : Option (List UInt8)} {st' : St} (hf : forkpty e st name = (.failed, st')) : st' = st := by
  unfold forkpty at hf
  rcases C142_openpty_descriptors h name with ⟨m, s, p, b, ho, hm, hs⟩ | ⟨b, ho⟩
  · rw [ho] at hf
    dsimp only at hf
    obtain ⟨g1, g2⟩ := h.terminal p s hs
    have hms : m ≠ s := fun q => g2 (q ▸ hm)
    have f0 := h.manager m hm
    have hbase : close (close (put (put st.fds m .manager) s (.terminal p)) s) m = st.fds := by
      rw [close_put, close_put f0]
      unfold put
      rw [if_neg (Ne.symm hms), g1]
    cases hp : e.pipe with
    | none =>
      rw [hp] at hf
      dsimp only at hf
      cases hf
      rw [hbase]
    | some rw' =>
      obtain ⟨r, w⟩ := rw'
      rw [hp] at hf
      dsimp only at hf
      obtain ⟨f1, f2, f3, f4, f5, f6⟩ := h.pipe r w hp
      have hsr : s ≠ r := fun q => (f6 p).1 (q ▸ hs)
      have hsw : s ≠ w := fun q => (f6 p).2 (q ▸ hs)
      have hmr : m ≠ r := fun q => f4 (q ▸ hm)
      have hmw : m ≠ w := fun q => f5 (q ▸ hm)
      have hall : close (close (close (close (put (put (put (put st.fds m .manager) s (.terminal p)) r .pipeRead) w .pipeWrite) s) w) r) m = st.fds := by
        funext x
        unfold close put
        by_cases h0 : x = m
        · subst h0
          rw [if_pos rfl, f0]
        · rw [if_neg h0]
          by_cases h1 : x = r
          · subst h1
            rw [if_pos rfl, f1]
          · rw [if_neg h1]
            by_cases h2 : x = w
            · subst h2
              rw [if_pos rfl, f2]
            · rw [if_neg h2]
              by_cases h3 : x = s
              · subst h3
                rw [if_pos rfl, g1]
              · rw [if_neg h3, if_neg h2, if_neg h1, if_neg h3, if_neg h0]
      cases hk : e.fork with
      | child =>
        rw [hk] at hf
        dsimp only at hf
        split at hf <;> cases hf
      | failed =>
        rw [hk] at hf
        dsimp only at hf
        cases hf
        rw [hall]
      | parent pid' =>
        rw [hk] at hf
        dsimp only at hf
        cases hr : e.report with
        | some x =>
          rw [hr] at hf
          dsimp only at hf
          cases hf
          rw [hall]
        | none =>
          rw [hr] at hf
          cases hf
  · rw [ho] at hf
    dsimp only at hf
    cases hf
    rfl

theorem forkpty_child_fds {e : Env} {st : St} {name : Option (List UInt8)} {st' : St} (hf : forkpty e st name = (.child, st')) (h : Fresh e st.fds) :
    ∃ m s p r w, e.ptmx = some m ∧ e.opens p = some s ∧ e.pipe = some (r, w) ∧ st'.mask = st.mask ∧ st'.cancel = st.cancel ∧
      st'.fds = close (if s > 2 then close (put (put (put (close (close (put (put (put (put st.fds m .manager) s (.terminal p)) r .pipeRead) w .pipeWrite) m) r) 0 (.terminal p)) 1 (.terminal p)) 2 (.terminal p)) s
        else put (put (put (close (close (put (put (put (put st.fds m .manager) s (.terminal p)) r .pipeRead) w .pipeWrite) m) r) 0 (.terminal p)) 1 (.terminal p)) 2 (.terminal p)) w := by
  unfold forkpty at hf
  rcases C142_openpty_descriptors h name with ⟨m, s, p, b, ho, hm, hs⟩ | ⟨b, ho⟩
  · rw [ho] at hf
    dsimp only at hf
    cases hp : e.pipe with
    | none =>
      rw [hp] at hf
      cases hf
    | some rw' =>
      obtain ⟨r, w⟩ := rw'
      rw [hp] at hf
      dsimp only at hf
      obtain ⟨f1, f2, f3, f4, f5, f6⟩ := h.pipe r w hp
      obtain ⟨g1, g2⟩ := h.terminal p s hs
      have hsr : s ≠ r := fun q => (f6 p).1 (q ▸ hs)
      have hsw : s ≠ w := fun q => (f6 p).2 (q ▸ hs)
      have hms : m ≠ s := fun q => g2 (q ▸ hm)
      cases hk : e.fork with
      | failed =>
        rw [hk] at hf
        cases hf
      | parent pid =>
        rw [hk] at hf
        dsimp only at hf
        split at hf <;> cases hf
      | child =>
        rw [hk] at hf
        dsimp only at hf
        unfold login at hf
        cases hc : e.ctty with
        | some x =>
          rw [hc] at hf
          cases hf
        | none =>
          rw [hc] at hf
          dsimp only at hf
          have hg : (close (close (put (put (put (put st.fds m .manager) s (.terminal p)) r .pipeRead) w .pipeWrite) m) r) s = some (.terminal p) := by
            unfold close put
            rw [if_neg hsr, if_neg (Ne.symm hms), if_neg hsw, if_neg hsr, if_pos rfl]
          generalize hG : close (close (put (put (put (put st.fds m .manager) s (.terminal p)) r .pipeRead) w .pipeWrite) m) r = G at hf hg
          have hd0 : dup2 G s 0 = put G 0 (.terminal p) := by
            unfold dup2
            rw [hg]
          have hg0 : (put G 0 (.terminal p)) s = some (.terminal p) := by
            unfold put
            split
            · rfl
            · exact hg
          have hd1 : dup2 (put G 0 (.terminal p)) s 1 = put (put G 0 (.terminal p)) 1 (.terminal p) := by
            unfold dup2
            rw [hg0]
          have hg1 : (put (put G 0 (.terminal p)) 1 (.terminal p)) s = some (.terminal p) := by
            unfold put
            split
            · rfl
            · exact hg0
          have hd2 : dup2 (put (put G 0 (.terminal p)) 1 (.terminal p)) s 2 = put (put (put G 0 (.terminal p)) 1 (.terminal p)) 2 (.terminal p) := by
            unfold dup2
            rw [hg1]
          rw [hd0, hd1, hd2] at hf
          cases hf
          exact ⟨m, s, p, r, w, hm, hs, rfl, rfl, rfl, by rw [hG]⟩
  · rw [ho] at hf
    cases hf

/-- **C142, partial.** The child of `forkpty` has the terminal as its standard input, output and error, no other new descriptor, and signals and cancellation as before. Missing: when one of the
three was closed before the call (`C142_standard_violation`). -/
theorem C142_forkpty_child_partial {e : Env} {st : St} (h : Fresh e st.fds) (h3 : ∀ i, i ≤ 2 → st.fds i ≠ none) {name : Option (List UInt8)} {st' : St}
    (hf : forkpty e st name = (.child, st')) :
    ∃ p, st'.fds = (fun x => if x ≤ 2 then some (.terminal p) else st.fds x) ∧ st'.mask = st.mask ∧ st'.cancel = st.cancel := by
  obtain ⟨m, s, p, r, w, hm, hs, hp, hmask, hcancel, hfds⟩ := forkpty_child_fds hf h
  obtain ⟨f1, f2, f3, f4, f5, f6⟩ := h.pipe r w hp
  obtain ⟨g1, g2⟩ := h.terminal p s hs
  have f0 := h.manager m hm
  have big : ∀ {x}, st.fds x = none → ¬ x ≤ 2 := fun hx hle => h3 _ hle hx
  have bs := big g1
  have bw := big f2
  have br := big f1
  have bm := big f0
  refine ⟨p, ?_, hmask, hcancel⟩
  rw [hfds, if_pos (by omega)]
  funext x
  unfold close put
  by_cases hx : x ≤ 2
  · rw [if_pos hx, if_neg (by omega), if_neg (by omega)]
    by_cases x2 : x = 2
    · rw [if_pos x2]
    · rw [if_neg x2]
      by_cases x1 : x = 1
      · rw [if_pos x1]
      · rw [if_neg x1, if_pos (by omega)]
  · rw [if_neg hx]
    by_cases xw : x = w
    · rw [if_pos xw, xw, f2]
    · rw [if_neg xw]
      by_cases xs : x = s
      · rw [if_pos xs, xs, g1]
      · rw [if_neg xs, if_neg (by omega), if_neg (by omega), if_neg (by omega)]
        dsimp only
        by_cases xr : x = r
        · rw [if_pos xr, xr, f1]
        · rw [if_neg xr]
          by_cases xm : x = m
          · rw [if_pos xm, xm, f0]
          · rw [if_neg xm, if_neg xw, if_neg xr, if_neg xs, if_neg xm]

/-- **C142, violated.** If the pipe got the number of a standard descriptor, because that was closed, the child has no terminal there: `forkpty` closes it again. -/
theorem C142_standard_violation {e : Env} {st : St} (h : Fresh e st.fds) {name : Option (List UInt8)} {st' : St} (hf : forkpty e st name = (.child, st')) {r w : Nat}
    (hp : e.pipe = some (r, w)) (_ : w ≤ 2) : st'.fds w = none := by
  obtain ⟨m, s, p, r', w', hm, hs, hp', hmask, hcancel, hfds⟩ := forkpty_child_fds hf h
  rw [hp] at hp'
  cases hp'
  rw [hfds]
  unfold close
  rw [if_pos rfl]

/-! ## Terminal functions -/

/-- **C142, violated.** `tcsetpgrp` returns the process group, not 0, when it succeeds. -/
theorem C142_tcsetpgrp_violation (pgid : Int) (h : 0 < pgid) : tcsetpgrp true pgid ≠ 0 ∧ tcsetpgrp true pgid = pgid := by
  unfold tcsetpgrp
  simp
  omega

/-- **C142, partial.** `ttyname_r` stores the path of the terminal if it fits. Missing: error numbers (`C142_ttyname_violation`). -/
theorem C142_ttyname_partial (p buf : List UInt8) (h : p.length < buf.length) : ttyname (.inl p) buf = (0, p ++ [0] ++ buf.drop (p.length + 1)) := by
  unfold ttyname
  rw [if_neg (by rintro rfl; simp at h)]
  unfold fpath
  dsimp only
  rw [if_neg (by rw [List.length_take]; omega)]

/-- **C142, violated.** The errors of `ttyname_r` are negative, and that of a path that does not fit is not `ERANGE`. -/
theorem C142_ttyname_violation (buf : List UInt8) (h : buf ≠ []) : (∀ x, (ttyname (.inr x) buf).1 = -x) ∧ ∀ p, buf.length ≤ p.length → (ttyname (.inl p) buf).1 = -36 := by
  refine ⟨fun x => ?_, fun p hp => ?_⟩
  · unfold ttyname
    rw [if_neg h]
    rfl
  · have hl := List.length_pos_iff.2 h
    unfold ttyname
    rw [if_neg h]
    unfold fpath
    dsimp only
    rw [if_pos (by rw [List.length_take]; omega)]
    rfl

/-- The speeds there are: B0 to B38400, B57600 to B4000000. -/
def Speed (n : Nat) : Prop := n ≤ 0o17 ∨ 0o10001 ≤ n ∧ n ≤ 0o10017

/-- **C142.** Setting a speed on Linux: the speed can be read back, the other speed stays; what is no speed is refused and changes nothing; `cfsetspeed` sets both. -/
theorem C142_speed (t : Speeds) (n : Nat) :
    (Speed n → cfsetispeed .linux t n = (true, { t with ispeed := n }) ∧ cfsetospeed .linux t n = (true, { t with ospeed := n }) ∧ cfsetspeed .linux t n = (true, ⟨n, n⟩)) ∧
    (¬ Speed n → cfsetispeed .linux t n = (false, t) ∧ cfsetospeed .linux t n = (false, t) ∧ cfsetspeed .linux t n = (false, t)) ∧
    (cfgetispeed .linux t = t.ispeed ∧ cfgetospeed .linux t = t.ospeed) := by
  have hs : valid .linux n = true ↔ Speed n := by
    unfold valid Speed
    simp only [decide_eq_true_eq, Bool.and_eq_true, true_and]
  refine ⟨fun h => ?_, fun h => ?_, rfl, rfl⟩
  · have := hs.2 h
    refine ⟨?_, ?_, ?_⟩ <;> simp [cfsetspeed, cfsetispeed, cfsetospeed, this]
  · have : valid .linux n = false := by
      cases hv : valid .linux n
      · rfl
      · exact absurd (hs.1 hv) h
    refine ⟨?_, ?_, ?_⟩ <;> simp [cfsetspeed, cfsetispeed, cfsetospeed, this]

/-- **C142, violated.** On Redox no speed can be set, and every terminal is hung up (B0). -/
theorem C142_speed_violation (t : Speeds) (n : Nat) :
    cfsetispeed .redox t n = (false, t) ∧ cfsetospeed .redox t n = (false, t) ∧ cfsetspeed .redox t n = (false, t) ∧ cfgetispeed .redox t = 0 ∧ cfgetospeed .redox t = 0 := by
  have : valid .redox n = false := by
    unfold valid
    simp
  refine ⟨?_, ?_, ?_, rfl, rfl⟩ <;> simp [cfsetspeed, cfsetispeed, cfsetospeed, this]

/-- **C142.** `tcsetattr`, `tcflush`, `tcflow`: the request for the kernel, or, for an action that there is not, an error and no request. -/
theorem C142_actions (a : Int) :
    (tcsetattr a = if a = 0 then some 0x5402 else if a = 1 then some 0x5403 else if a = 2 then some 0x5404 else none) ∧
    (tcflush a = if 0 ≤ a ∧ a ≤ 2 then some (0x540B, a) else none) ∧
    (tcflow a = if 0 ≤ a ∧ a ≤ 3 then some (0x540A, a) else none) := by
  refine ⟨?_, ?_, ?_⟩
  · unfold tcsetattr
    by_cases h0 : a = 0
    · subst h0; rfl
    · by_cases h1 : a = 1
      · subst h1; rfl
      · by_cases h2 : a = 2
        · subst h2; rfl
        · rw [if_neg (by omega), if_neg h0, if_neg h1, if_neg h2]
  · unfold tcflush
    by_cases h : 0 ≤ a ∧ a ≤ 2
    · rw [if_pos h, if_pos (by omega)]
    · rw [if_neg h, if_neg (by omega)]
  · unfold tcflow
    by_cases h : 0 ≤ a ∧ a ≤ 3
    · rw [if_pos h, if_pos (by omega)]
    · rw [if_neg h, if_neg (by omega)]

/-- **C142.** `cfmakeraw`: no processing of input (no BRKINT, ICRNL, IGNBRK, IGNCR, INLCR, ISTRIP, IXON, PARMRK), no processing of output (OPOST), no echo, no lines, no signals (ECHO, ECHONL, ICANON, IEXTEN, ISIG),
8 bits without parity, one byte at a time without a timeout; every other mode, and every other control character, stays. -/
theorem C142_cfmakeraw (t : Termios) (hc : t.cc.length = 32) :
    (∀ i, (cfmakeraw t).iflag.toNat.testBit i = (t.iflag.toNat.testBit i && !decide (i ∈ [0, 1, 3, 5, 6, 7, 8, 9]))) ∧
    (∀ i, (cfmakeraw t).oflag.toNat.testBit i = (t.oflag.toNat.testBit i && !decide (i = 0))) ∧
    (∀ i, (cfmakeraw t).lflag.toNat.testBit i = (t.lflag.toNat.testBit i && !decide (i ∈ [3, 4, 7, 8, 10]))) ∧
    (∀ i, (cfmakeraw t).cflag.toNat.testBit i = (t.cflag.toNat.testBit i && !decide (i = 12) || decide (i ∈ [8, 9]))) ∧
    (∀ i, (cfmakeraw t).cc[i]? = if i = 16 then some 1 else if i = 17 then some 0 else t.cc[i]?) := by
  have mask : ∀ (x m : UInt32) (i : Nat), (x &&& ~~~m).toNat.testBit i = (x.toNat.testBit i && !m.toNat.testBit i) := by
    intro x m i
    rw [UInt32.toNat_and, Nat.testBit_and]
    by_cases hi : i < 32
    · congr 1
      have : (~~~m).toNat.testBit i = (~~~m.toBitVec).getLsbD i := rfl
      rw [this, BitVec.getLsbD_not, decide_eq_true hi, Bool.true_and]
      rfl
    · have hx : x.toNat.testBit i = false := by
        apply Nat.testBit_lt_two_pow
        have := x.toNat_lt
        exact Nat.lt_of_lt_of_le this (Nat.pow_le_pow_right (by decide) (by omega))
      rw [hx, Bool.false_and, Bool.false_and]
  have small : ∀ (m : UInt32) (l : List Nat), (∀ i, i < 32 → m.toNat.testBit i = decide (i ∈ l)) → (∀ i ∈ l, i < 32) → ∀ i, m.toNat.testBit i = decide (i ∈ l) := by
    intro m l h hl i
    by_cases hi : i < 32
    · exact h i hi
    · rw [decide_eq_false (fun q => hi (hl i q))]
      apply Nat.testBit_lt_two_pow
      exact Nat.lt_of_lt_of_le m.toNat_lt (Nat.pow_le_pow_right (by decide) (by omega))
  refine ⟨fun i => ?_, fun i => ?_, fun i => ?_, fun i => ?_, fun i => ?_⟩
  · unfold cfmakeraw
    rw [mask, small (0o1 ||| 0o2 ||| 0o10 ||| 0o40 ||| 0o100 ||| 0o200 ||| 0o400 ||| 0o1000) [0, 1, 3, 5, 6, 7, 8, 9] (by decide +kernel) (by decide)]
  · unfold cfmakeraw
    rw [mask, small 0o1 [0] (by decide +kernel) (by decide)]
    simp
  · unfold cfmakeraw
    rw [mask, small (0x8 ||| 0x10 ||| 0x100 ||| 0x80 ||| 0x400) [3, 4, 7, 8, 10] (by decide +kernel) (by decide)]
  · unfold cfmakeraw
    dsimp only
    rw [UInt32.toNat_or, Nat.testBit_or, mask, small (0o1400 ||| 0o10000) [8, 9, 12] (by decide +kernel) (by decide), small 0o1400 [8, 9] (by decide +kernel) (by decide)]
    by_cases h8 : i = 8
    · subst h8
      simp
    · by_cases h9 : i = 9
      · subst h9
        simp
      · simp [h8, h9]
  · unfold cfmakeraw
    dsimp only
    rw [List.getElem?_set, List.getElem?_set, List.length_set]
    by_cases h16 : i = 16
    · subst h16
      simp [hc]
    · by_cases h17 : i = 17
      · subst h17
        simp [hc]
      · rw [if_neg (Ne.symm h17), if_neg (Ne.symm h16), if_neg h16, if_neg h17]

/-! ## Examples -/

def exampleEnv : Env := ⟨some 5, true, .inl 7, fun p => if p = scheme ++ [0x37] then some 6 else none, some (8, 9), .parent 100, none, none⟩

def exampleFds : Fds := fun x => if x ≤ 2 then some (.other x) else none

example : Fresh exampleEnv exampleFds := by
  refine ⟨?_, ?_, ?_⟩
  · intro m h
    cases h
    rfl
  · intro p s h
    unfold exampleEnv at h
    dsimp only at h
    split at h
    · cases h
      exact ⟨rfl, by decide⟩
    · cases h
  · intro r w h
    cases h
    refine ⟨rfl, rfl, by decide, by decide, by decide, fun p => ?_⟩
    unfold exampleEnv
    dsimp only
    split <;> decide

/-- The parent, and the child, of a successful call; a call whose child cannot take the terminal. -/
example : (forkpty exampleEnv ⟨exampleFds, fun _ => false, true⟩ none).1 = .parent 100 5 ∧
    (forkpty { exampleEnv with fork := .child } ⟨exampleFds, fun _ => false, true⟩ none).1 = .child ∧
    (forkpty { exampleEnv with fork := .child, ctty := some 25 } ⟨exampleFds, fun _ => false, true⟩ none).1 = .exits 25 ∧
    (forkpty { exampleEnv with report := some 25 } ⟨exampleFds, fun _ => false, true⟩ none).1 = .failed := by
  decide +kernel

end Verif.Pty
