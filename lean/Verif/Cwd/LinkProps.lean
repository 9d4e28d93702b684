import Verif.Cwd.Props

/-!
# C110: symbolic links
-/

namespace Verif.Cwd

variable {P R N : Type}

namespace Spec

/-- What the content `c` of a link in the directory `d` names: a link that is too long or not a name names nothing. -/
def Points (w : World P R N) (d : P) (c : List UInt8) (q : P) : Prop :=
  c.length ≤ 4096 ∧ w.utf8 c = true ∧ (w.name c = some (.abs q) ∨ ∃ r, w.name c = some (.rel r) ∧ q = w.join d r)

/-- `p` is a link to `q`. -/
def LinkTo (w : World P R N) (p q : P) : Prop :=
  w.openAbs p = .error .EXDEV ∧ ∃ c, w.linkAbs p = .ok c ∧ Points w (w.dirname p) c q

/-- `p` leads to `q` by `k` links. -/
inductive Path (w : World P R N) : P → Nat → P → Prop where
  | here (p) : Path w p 0 p
  | link (p q k z) (h : LinkTo w p q) (t : Path w q k z) : Path w p (k + 1) z

end Spec

theorem linkName_ok (w : World P R N) (d : P) (c : List UInt8) (q : P) :
    Spec.Points w d c q ↔ ∃ t, linkName w (.ok c) = .ok t ∧ under w d t = q := by
  unfold Spec.Points linkName
  dsimp only
  by_cases hl : c.length ≤ 4096
  · rw [if_neg (by unfold PATH_MAX; omega)]
    by_cases hu : w.utf8 c = true
    · simp only [hu, Bool.not_true, Bool.false_eq_true, ↓reduceIte]
      cases hn : w.name c with
      | none => simp
      | some t =>
        cases t with
        | abs p => simp [under, hl]
        | rel r => simp [under, hl]; exact eq_comm
    · simp [hu]
  · rw [if_pos (by unfold PATH_MAX; omega)]
    simp [hl]

theorem symLoop_path (w : World P R N) {p z : P} {k : Nat} (h : Spec.Path w p k z) (n : Nat) : symLoop w (n + k) p = symLoop w n z := by
  induction h with
  | here p => rfl
  | link p q k z h t ih =>
    obtain ⟨ho, c, hc, hp⟩ := h
    obtain ⟨t, ht, hu⟩ := (linkName_ok w _ c q).1 hp
    rw [show n + (k + 1) = (n + k) + 1 by omega]
    conv => lhs; unfold symLoop
    rw [ho]
    simp only [hc, ht, hu]
    exact ih

/-- C110. A full name which leads by fewer than 64 links to a file: that file is opened. If what the last name gives is an error, that is
the result. If there are 64 links or more, the result is `ELOOP`. -/
theorem C110_resolve (w : World P R N) (p z : P) (k : Nat) (h : Spec.Path w p k z) :
    (k < 64 → ∀ f, w.openAbs z = .ok f → resolveSymLinks w p = .ok f) ∧
    (k < 64 → ∀ e, w.openAbs z = .error e → e ≠ .EXDEV → resolveSymLinks w p = .error e) ∧
    (k ≥ 64 → resolveSymLinks w p = .error .ELOOP) := by
  have key : ∀ n, k + n = 64 → resolveSymLinks w p = symLoop w n z := by
    intro n hn
    rw [← symLoop_path w h]
    unfold resolveSymLinks SYMLOOP_MAX
    rw [Nat.add_comm, hn]
  refine ⟨fun hk f hf => ?_, fun hk e he hx => ?_, fun hk => ?_⟩
  · rw [key (64 - k - 1 + 1) (by omega)]
    unfold symLoop
    rw [hf]
  · rw [key (64 - k - 1 + 1) (by omega)]
    unfold symLoop
    rw [he]
    cases e <;> simp_all
  · have cut : ∀ (k : Nat) (p z : P) (n : Nat), n ≤ k → Spec.Path w p k z → ∃ y, Spec.Path w p n y := by
      intro k
      induction k with
      | zero =>
        intro p z n hn h
        rw [Nat.le_zero.1 hn]
        exact ⟨p, .here p⟩
      | succ k ih =>
        intro p z n hn h
        cases h with
        | link _ q _ _ h t =>
          cases n with
          | zero => exact ⟨p, .here p⟩
          | succ n =>
            obtain ⟨y, hy⟩ := ih q z n (by omega) t
            exact ⟨y, .link p q n y h hy⟩
    obtain ⟨y, hy⟩ := cut k p z 64 hk h
    have := symLoop_path w hy 0
    rw [Nat.zero_add] at this
    exact this

/-- C110. The full name of a working directory and the open directory are the same: names under it give the same files either way. -/
def Spec.Same (w : World P R N) (d : Dir P N) (r : R) : Prop :=
  w.openAt d.fd r = w.openAbs (w.join d.redox r) ∧ w.linkAt d.fd r = w.linkAbs (w.join d.redox r)

/-- C110. `open` of a full name that leads by at most 64 links to a file opens that file, if the first link (should the name be one) is a full
name. Missing: a first link that is relative to its directory (`C110_open_violation`). -/
theorem C110_open_partial (w : World P R N) (cwd : Option (Dir P N)) (p z : P) (k : Nat) (f : N) (h : Spec.Path w p k z)
    (hk : k ≤ 64) (hz : w.openAbs z = .ok f) (h1 : ∀ c, w.linkAbs p = .ok c → ∃ q, w.name c = some (.abs q)) :
    open_ w cwd (.abs p) = .ok f := by
  cases h with
  | here => simp [open_, hz]
  | link _ q k _ h t =>
    obtain ⟨ho, c, hc, hp⟩ := h
    obtain ⟨t', ht, hu⟩ := (linkName_ok w _ c q).1 hp
    obtain ⟨q', hq⟩ := h1 c hc
    have : t' = .abs q := by
      have e : t' = .abs q' := by
        unfold linkName at ht
        dsimp only at ht
        rw [hq] at ht
        split at ht
        · exact nomatch ht
        · split at ht
          · exact nomatch ht
          · simp only [Except.ok.injEq] at ht
            exact ht.symm
      subst e
      exact congrArg _ hu
    subst this
    simp only [open_, ho, hc, ht, openat2Path]
    exact (C110_resolve w q z k t).1 (by omega) f hz

/-- C110. The same for a name in the working directory: links with full names, and links relative to the working directory if that is where
the link is. -/
theorem C110_open_relative_partial (w : World P R N) (d : Dir P N) (r : R) (z : P) (k : Nat) (f : N) (hs : Spec.Same w d r)
    (hr : w.isEmpty r = false) (h : Spec.Path w (w.join d.redox r) k z) (hk : k ≤ 64) (hz : w.openAbs z = .ok f)
    (h1 : ∀ c, w.linkAt d.fd r = .ok c → (∃ q, w.name c = some (.abs q)) ∨
      ∃ r', w.name c = some (.rel r') ∧ w.isEmpty r' = false ∧ w.dirname (w.join d.redox r) = d.redox) :
    open_ w (some d) (.rel r) = .ok f := by
  unfold open_
  simp only [hr, Bool.false_eq_true, ↓reduceIte, hs.1]
  cases h with
  | here => simp [hz]
  | link _ q k _ h t =>
    obtain ⟨ho, c, hc, hp⟩ := h
    have hc' := hs.2.trans hc
    obtain ⟨t', ht, hu⟩ := (linkName_ok w _ c q).1 hp
    have e : w.name c = some t' := by
      unfold linkName at ht
      dsimp only at ht
      split at ht
      · exact nomatch ht
      · split at ht
        · exact nomatch ht
        · cases hn : w.name c with
          | none => rw [hn] at ht; exact nomatch ht
          | some n => rw [hn] at ht; exact congrArg some (Except.ok.inj ht)
    have goal : openat2Path w (.ok d.redox) t' = .ok q := by
      rcases h1 c hc' with ⟨q', hq⟩ | ⟨r', hq, hn, hd⟩
      · rw [e] at hq
        cases hq
        exact congrArg _ hu
      · rw [e] at hq
        cases hq
        simp only [openat2Path, hn, Bool.false_eq_true, ↓reduceIte]
        rw [hd] at hu
        exact congrArg _ hu
    simp only [ho, hc', ht, goal]
    exact (C110_resolve w q z k t).1 (by omega) f hz

/-- C110. The same for a name in an open directory (`openat`), whose full name is known. -/
theorem C110_openat_partial (w : World P R N) (cwd : Option (Dir P N)) (d : Dir P N) (r : R) (z : P) (k : Nat) (f : N) (hs : Spec.Same w d r)
    (hf : w.fpath d.fd = .ok d.path) (ha : w.fromAbsolute d.path = some d.redox)
    (hr : w.isEmpty r = false) (h : Spec.Path w (w.join d.redox r) k z) (hk : k ≤ 64) (hz : w.openAbs z = .ok f)
    (h1 : ∀ c, w.linkAt d.fd r = .ok c → (∃ q, w.name c = some (.abs q)) ∨
      ∃ r', w.name c = some (.rel r') ∧ w.isEmpty r' = false ∧ w.dirname (w.join d.redox r) = d.redox) :
    openat w cwd d.fd (.rel r) = .ok f := by
  unfold openat
  simp only [hr, Bool.false_eq_true, ↓reduceIte, hs.1]
  cases h with
  | here => simp [hz]
  | link _ q k _ h t =>
    obtain ⟨ho, c, hc, hp⟩ := h
    have hc' := hs.2.trans hc
    obtain ⟨t', ht, hu⟩ := (linkName_ok w _ c q).1 hp
    have e : w.name c = some t' := by
      unfold linkName at ht
      dsimp only at ht
      split at ht
      · exact nomatch ht
      · split at ht
        · exact nomatch ht
        · cases hn : w.name c with
          | none => rw [hn] at ht; exact nomatch ht
          | some n => rw [hn] at ht; exact congrArg some (Except.ok.inj ht)
    have fin := (C110_resolve w q z k t).1 (by omega) f hz
    rcases h1 c hc' with ⟨q', hq⟩ | ⟨r', hq, hn, hd⟩
    · rw [e] at hq
      cases hq
      simp only [ho, hc', ht, hf, ha]
      rw [if_neg (by simp)]
      have : under w d.redox (.abs q') = q := hu
      rw [this]
      exact fin
    · rw [e] at hq
      cases hq
      simp only [ho, hc', ht, hf, ha]
      rw [if_neg (by simp [hn])]
      rw [hd] at hu
      rw [hu]
      exact fin

/-- C110 fails: a full name that is a link, relative to its own directory, is looked up relative to the working directory, and another file is
opened. -/
theorem C110_open_violation : ∃ (w : World (List UInt8) (List UInt8) (List UInt8)) (cwd : Dir (List UInt8) (List UInt8)) (p z : List UInt8)
    (f g : List UInt8), Spec.Path w p 1 z ∧ w.openAbs z = .ok f ∧ open_ w (some cwd) (.abs p) = .ok g ∧ f ≠ g :=
  ⟨toy, toyRoot, [100, 108], [100, 102], [100, 102], [102],
    .link _ [100, 102] 0 _ ⟨by rfl, [102], by rfl, by decide, rfl, .inr ⟨[102], by decide +kernel, by decide +kernel⟩⟩ (.here _), by rfl, by rfl, by decide⟩

/-! `/m` leads by two links to `/d/f`; `/o` leads nowhere. -/
example : open_ toy (some toyRoot) (.abs [109]) = .ok [100, 102] := by rfl
example : open_ toy (some toyRoot) (.abs [111]) = .error .ELOOP := by rfl
example : open_ toy (some ⟨[47, 100], [100], [100]⟩) (.rel [108]) = .ok [100, 102] := by rfl

end Verif.Cwd
