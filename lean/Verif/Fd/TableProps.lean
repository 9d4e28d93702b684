import Verif.Fd.TableLemmas

/-!
# C107: descriptor numbers

The table says for each descriptor number whether it is open, and if so whether it is to be closed on `exec`: what `F_GETFD` returns
(`getFlags`). The theorems say how this map changes with each operation, after any sequence of operations.
-/

namespace Verif.Fd

namespace Spec

/-- Which numbers are open, and with which flag. -/
abbrev Map := Fd → Option Bool

/-- The map, changed at the descriptors of a list. -/
def change (v : Map) (l : List Fd) (x : Option Bool) : Map := fun fd => if fd ∈ l then x else v fd

/-- There is no room for `n` more descriptors among 65536. -/
def Full (v : Map) (n : Nat) : Prop := ∃ l : List Fd, l.Nodup ∧ (∀ fd ∈ l, (v fd).isSome) ∧ l.length + n > 65536

/-- The kernel did not make its table larger. -/
def NoGrowth (sync : Bool) (e : Err) : Prop := sync = false ∧ e = .sync

/-- Why an operation may fail. -/
def Reason (v : Map) : Op → Err → Prop
  | .add _ sync, e => (e = .emfile ∧ Full v 1) ∨ NoGrowth sync e
  | .addUpper _ sync, e => (e = .emfile ∧ Full v 1) ∨ NoGrowth sync e
  | .bulkAdd _ n _ sync, e => (e = .emfile ∧ Full v n) ∨ NoGrowth sync e
  | .bulkInsert up ns _ sync, e => (e = .emfile ∧ Full v ns.length) ∨ NoGrowth sync e ∨
    (∃ n ∈ ns, n ≥ 65536 ∨ (v (mkFd up n)).isSome) ∨ ¬ ns.Nodup
  | .override fd sync, e => (e = .emfile ∧ ∃ n, fd = .posix n ∧ n ≥ 65536) ∨ NoGrowth sync e
  | .remove fd, e => e = .ebadf ∧ v fd = none
  | .setFlags fd _, e => e = .ebadf ∧ v fd = none

/-- What an operation gives and changes when it succeeds. -/
def Success (v : Map) : Op → List Fd → Map → Prop
  | .add flag _, l, v' => (∃ n, l = [.posix n] ∧ v (.posix n) = none ∧ ∀ m, m < n → (v (.posix m)).isSome) ∧ v' = change v l (some flag)
  | .addUpper flag _, l, v' => (∃ n, l = [.upper n] ∧ v (.upper n) = none) ∧ v' = change v l (some flag)
  | .bulkAdd false count flag _, l, v' => (∃ ns : List Nat, l = ns.map .posix ∧ ns.length = count ∧ ns.Pairwise (· < ·) ∧
      (∀ n ∈ ns, v (.posix n) = none) ∧ ∀ m, v (.posix m) = none → m ∉ ns → ∀ n ∈ ns, n < m) ∧ v' = change v l (some flag)
  | .bulkAdd true count flag _, l, v' => (∃ start, l = (List.range count).map (fun i => .upper (start + i)) ∧
      ∀ fd ∈ l, v fd = none) ∧ v' = change v l (some flag)
  | .bulkInsert up ns flag _, l, v' => l = ns.map (mkFd up) ∧ ns.Nodup ∧ (∀ fd ∈ l, v fd = none) ∧ v' = change v l (some flag)
  | .override fd _, l, v' => l = [fd] ∧ v' = change v [fd] (some false)
  | .remove fd, l, v' => l = [fd] ∧ (v fd).isSome ∧ v' = change v [fd] none
  | .setFlags fd flag, l, v' => l = [fd] ∧ (v fd).isSome ∧ v' = change v [fd] (some flag)

/-- What an operation may do: on failure nothing is changed. -/
def Does (v : Map) (op : Op) (r : Res) (v' : Map) : Prop :=
  match r with
  | .ok l => Success v op l v'
  | .error e => Reason v op e ∧ v' = v

end Spec

/-- The tables a process can have: it starts from the empty one. -/
inductive Reach : FdTbl → Prop
  | initial : Reach FdTbl.initial
  | step {t t' : FdTbl} {op : Op} {r : Res} : Reach t → t.run op = some (r, t') → Reach t'

/-! ## Lemmas -/

/-- What is known of the whole table. -/
structure FInv (t : FdTbl) : Prop where
  posix : PInv t.posix
  upper : UInv t.upper
  active : t.active = t.posix.count + t.upper.count

theorem getFlags_posix (t : FdTbl) (n : Nat) : t.getFlags (.posix n) = t.posix.view n := by
  simp only [FdTbl.getFlags, PTbl.view]
  cases t.posix.table[n]? with
  | none => rfl
  | some e => cases e <;> rfl

theorem getFlags_upper (t : FdTbl) (n : Nat) : t.getFlags (.upper n) = t.upper.view n := by
  simp only [FdTbl.getFlags, UTbl.view]
  cases t.upper.table[n]? with
  | none => rfl
  | some e => cases e <;> rfl

theorem iterPosix_mem (l : List PEntry) : ∀ i fd f, (fd, f) ∈ iterPosix l i ↔ ∃ k, fd = .posix (i + k) ∧ l[k]? = some (some f) := by
  induction l with
  | nil => intro i fd f; simp [iterPosix]
  | cons e l ih =>
    intro i fd f
    have hstep : (∃ k, fd = .posix (i + 1 + k) ∧ l[k]? = some (some f)) ↔ ∃ k, fd = .posix (i + (k + 1)) ∧ (e :: l)[k + 1]? = some (some f) := by
      constructor
      · rintro ⟨k, h1, h2⟩; exact ⟨k, by rw [h1]; congr 1; omega, by simpa using h2⟩
      · rintro ⟨k, h1, h2⟩; exact ⟨k, by rw [h1]; congr 1; omega, by simpa using h2⟩
    have hcase : (∃ k, fd = .posix (i + k) ∧ (e :: l)[k]? = some (some f)) ↔
        (fd = .posix i ∧ e = some f) ∨ ∃ k, fd = .posix (i + (k + 1)) ∧ (e :: l)[k + 1]? = some (some f) := by
      constructor
      · rintro ⟨k, h1, h2⟩
        cases k with
        | zero => exact Or.inl ⟨h1, by simpa using h2⟩
        | succ k => exact Or.inr ⟨k, h1, h2⟩
      · rintro (⟨h1, h2⟩ | ⟨k, h1, h2⟩)
        · exact ⟨0, h1, by simp [h2]⟩
        · exact ⟨k + 1, h1, h2⟩
    rw [hcase, ← hstep, ← ih]
    cases e with
    | none => simp [iterPosix]
    | some g =>
      simp only [iterPosix, List.mem_cons, Prod.mk.injEq, Option.some.injEq]
      constructor
      · rintro (⟨h1, h2⟩ | h)
        · exact Or.inl ⟨h1, h2.symm⟩
        · exact Or.inr h
      · rintro (⟨h1, h2⟩ | h)
        · exact Or.inl ⟨h1, h2.symm⟩
        · exact Or.inr h

theorem iterUpper_mem (l : List UEntry) : ∀ i fd f, (fd, f) ∈ iterUpper l i ↔ ∃ k, fd = .upper (i + k) ∧ l[k]? = some (.occupied f) := by
  induction l with
  | nil => intro i fd f; simp [iterUpper]
  | cons e l ih =>
    intro i fd f
    have hstep : (∃ k, fd = .upper (i + 1 + k) ∧ l[k]? = some (.occupied f)) ↔ ∃ k, fd = .upper (i + (k + 1)) ∧ (e :: l)[k + 1]? = some (.occupied f) := by
      constructor
      · rintro ⟨k, h1, h2⟩; exact ⟨k, by rw [h1]; congr 1; omega, by simpa using h2⟩
      · rintro ⟨k, h1, h2⟩; exact ⟨k, by rw [h1]; congr 1; omega, by simpa using h2⟩
    have hcase : (∃ k, fd = .upper (i + k) ∧ (e :: l)[k]? = some (.occupied f)) ↔
        (fd = .upper i ∧ e = .occupied f) ∨ ∃ k, fd = .upper (i + (k + 1)) ∧ (e :: l)[k + 1]? = some (.occupied f) := by
      constructor
      · rintro ⟨k, h1, h2⟩
        cases k with
        | zero => exact Or.inl ⟨h1, by simpa using h2⟩
        | succ k => exact Or.inr ⟨k, h1, h2⟩
      · rintro (⟨h1, h2⟩ | ⟨k, h1, h2⟩)
        · exact ⟨0, h1, by simp [h2]⟩
        · exact ⟨k + 1, h1, h2⟩
    rw [hcase, ← hstep, ← ih]
    cases e with
    | vacant n => simp [iterUpper]
    | occupied g =>
      simp only [iterUpper, List.mem_cons, Prod.mk.injEq, UEntry.occupied.injEq]
      constructor
      · rintro (⟨h1, h2⟩ | h)
        · exact Or.inl ⟨h1, h2.symm⟩
        · exact Or.inr h
      · rintro (⟨h1, h2⟩ | h)
        · exact Or.inl ⟨h1, h2.symm⟩
        · exact Or.inr h

theorem iterPosix_nodup (l : List PEntry) : ∀ i, ((iterPosix l i).map Prod.fst).Nodup := by
  induction l with
  | nil => intro i; exact List.nodup_nil
  | cons e l ih =>
    intro i
    cases e with
    | none => exact ih (i + 1)
    | some f =>
      refine List.nodup_cons.mpr ⟨?_, ih (i + 1)⟩
      intro h
      obtain ⟨⟨fd, g⟩, h1, h2⟩ := List.mem_map.mp h
      obtain ⟨k, h3, _⟩ := (iterPosix_mem l _ _ _).mp h1
      simp only at h2
      rw [h2] at h3
      injection h3 with h3; omega

theorem iterUpper_nodup (l : List UEntry) : ∀ i, ((iterUpper l i).map Prod.fst).Nodup := by
  induction l with
  | nil => intro i; exact List.nodup_nil
  | cons e l ih =>
    intro i
    cases e with
    | vacant n => exact ih (i + 1)
    | occupied f =>
      refine List.nodup_cons.mpr ⟨?_, ih (i + 1)⟩
      intro h
      obtain ⟨⟨fd, g⟩, h1, h2⟩ := List.mem_map.mp h
      obtain ⟨k, h3, _⟩ := (iterUpper_mem l _ _ _).mp h1
      simp only at h2
      rw [h2] at h3
      injection h3 with h3; omega

theorem iterPosix_length (l : List PEntry) : ∀ i, (iterPosix l i).length = l.countP Option.isSome := by
  induction l with
  | nil => intro i; rfl
  | cons e l ih => intro i; cases e <;> simp [iterPosix, ih]

theorem iterUpper_length (l : List UEntry) : ∀ i, (iterUpper l i).length = l.countP UEntry.isOcc := by
  induction l with
  | nil => intro i; rfl
  | cons e l ih => intro i; cases e <;> simp only [iterUpper, List.countP_cons, List.length_cons, ih] <;> rfl

theorem iter_mem (t : FdTbl) (fd : Fd) (f : Bool) : (fd, f) ∈ t.iter ↔ t.getFlags fd = some f := by
  rw [FdTbl.iter, List.mem_append, iterPosix_mem, iterUpper_mem]
  cases fd with
  | posix n =>
    rw [getFlags_posix, PTbl.view]
    constructor
    · rintro (⟨k, h1, h2⟩ | ⟨k, h1, _⟩)
      · cases h1; rw [Nat.zero_add, h2]; rfl
      · cases h1
    · intro h
      refine Or.inl ⟨n, by rw [Nat.zero_add], ?_⟩
      cases he : t.posix.table[n]? with
      | none => rw [he] at h; cases h
      | some e =>
        rw [he] at h
        change e = some f at h
        rw [h]
  | upper n =>
    rw [getFlags_upper, UTbl.view]
    constructor
    · rintro (⟨k, h1, _⟩ | ⟨k, h1, h2⟩)
      · cases h1
      · cases h1; rw [Nat.zero_add, h2]; rfl
    · intro h
      refine Or.inr ⟨n, by rw [Nat.zero_add], ?_⟩
      cases he : t.upper.table[n]? with
      | none => rw [he] at h; cases h
      | some e =>
        rw [he] at h
        cases e with
        | vacant m => cases h
        | occupied g => cases h; rfl

theorem iter_nodup (t : FdTbl) : (t.iter.map Prod.fst).Nodup := by
  rw [FdTbl.iter, List.map_append, List.nodup_append]
  refine ⟨iterPosix_nodup _ _, iterUpper_nodup _ _, ?_⟩
  intro a ha b hb e
  subst e
  obtain ⟨⟨x, f⟩, h1, h2⟩ := List.mem_map.mp ha
  obtain ⟨⟨y, g⟩, h3, h4⟩ := List.mem_map.mp hb
  obtain ⟨k, h5, _⟩ := (iterPosix_mem _ _ _ _).mp h1
  obtain ⟨j, h6, _⟩ := (iterUpper_mem _ _ _ _).mp h3
  simp only at h2 h4
  rw [h2] at h5; rw [h4, h5] at h6; cases h6

theorem iter_length (t : FdTbl) (h : FInv t) : t.iter.length = t.active := by
  rw [FdTbl.iter, List.length_append, iterPosix_length, iterUpper_length, h.active]; rfl

theorem full_of (t : FdTbl) (h : FInv t) (n : Nat) (hn : t.active + n > maxFiles) : Spec.Full t.getFlags n := by
  refine ⟨t.iter.map Prod.fst, iter_nodup t, ?_, by rw [List.length_map, iter_length t h]; exact hn⟩
  intro fd hfd
  obtain ⟨⟨x, f⟩, h1, rfl⟩ := List.mem_map.mp hfd
  rw [(iter_mem t x f).mp h1]; rfl

theorem initial_inv : FInv FdTbl.initial := by
  refine ⟨⟨Nat.zero_le _, fun i hi => absurd hi (Nat.not_lt_zero i), rfl, by decide⟩, rebuild_inv _ ?_, ?_⟩
  · decide +kernel
  · decide +kernel

theorem change_single (t : FdTbl) (fd : Fd) (x : Option Bool) (g : Fd) :
    Spec.change t.getFlags [fd] x g = if g = fd then x else t.getFlags g := by
  simp only [Spec.change, List.mem_singleton]

/-- An operation on the first table only. -/
theorem ptook_change {t : FdTbl} {p : PTbl} {hs : List Nat} {flag : Bool} (h : PTook t.posix p hs flag) (a : Nat) :
    FdTbl.getFlags { t with posix := p, active := a } = Spec.change t.getFlags (hs.map .posix) (some flag) := by
  funext fd
  cases fd with
  | posix n =>
    rw [getFlags_posix, Spec.change]
    show p.view n = _
    rw [h.view]
    by_cases hc : n ∈ hs
    · rw [if_pos hc, if_pos (List.mem_map_of_mem hc)]
    · rw [if_neg hc, if_neg, getFlags_posix]
      intro hh
      obtain ⟨m, h1, h2⟩ := List.mem_map.mp hh
      cases h2; exact hc h1
  | upper n =>
    rw [getFlags_upper, Spec.change, if_neg, getFlags_upper]
    intro hh
    obtain ⟨m, _, h2⟩ := List.mem_map.mp hh
    cases h2

/-- An operation on the second table only. -/
theorem utook_change {t : FdTbl} {u : UTbl} {hs : List Nat} {flag : Bool} (h : UTook t.upper u hs flag) (a : Nat) :
    FdTbl.getFlags { t with upper := u, active := a } = Spec.change t.getFlags (hs.map .upper) (some flag) := by
  funext fd
  cases fd with
  | upper n =>
    rw [getFlags_upper, Spec.change]
    show u.view n = _
    rw [h.view]
    by_cases hc : n ∈ hs
    · rw [if_pos hc, if_pos (List.mem_map_of_mem hc)]
    · rw [if_neg hc, if_neg, getFlags_upper]
      intro hh
      obtain ⟨m, h1, h2⟩ := List.mem_map.mp hh
      cases h2; exact hc h1
  | posix n =>
    rw [getFlags_posix, Spec.change, if_neg, getFlags_posix]
    intro hh
    obtain ⟨m, _, h2⟩ := List.mem_map.mp hh
    cases h2

theorem ptook_inv {t : FdTbl} (h : FInv t) {p : PTbl} {hs : List Nat} {flag : Bool} (hp : PTook t.posix p hs flag) :
    FInv { t with posix := p, active := t.active + hs.length } :=
  ⟨hp.inv, h.upper, by show t.active + hs.length = p.count + t.upper.count; rw [hp.count, h.active]; omega⟩

theorem utook_inv {t : FdTbl} (h : FInv t) {u : UTbl} {hs : List Nat} {flag : Bool} (hp : UTook t.upper u hs flag) :
    FInv { t with upper := u, active := t.active + hs.length } :=
  ⟨h.posix, hp.inv, by show t.active + hs.length = t.posix.count + u.count; rw [hp.count, h.active]; omega⟩

theorem remove_spec (t : FdTbl) (h : FInv t) (fd : Fd) :
    (t.remove fd = some (false, t) ∧ t.getFlags fd = none) ∨
    ∃ t', t.remove fd = some (true, t') ∧ (t.getFlags fd).isSome ∧ FInv t' ∧ t'.getFlags = Spec.change t.getFlags [fd] none := by
  cases fd with
  | posix n =>
    rcases premove_spec t.posix h.posix n with ⟨h1, h2⟩ | ⟨p, h1, h2, h3, h4, h5⟩
    · left; exact ⟨by simp [FdTbl.remove, h1], by rw [getFlags_posix]; exact h2⟩
    · right
      have hpos : t.active ≠ 0 := by rw [h.active]; omega
      refine ⟨{ t with posix := p, active := t.active - 1 }, by simp [FdTbl.remove, h1, hpos], by rw [getFlags_posix]; exact h2, ⟨h3, h.upper, ?_⟩, ?_⟩
      · show t.active - 1 = p.count + t.upper.count; rw [h.active]; omega
      · funext fd
        rw [change_single]
        cases fd with
        | posix m =>
          rw [getFlags_posix]
          show p.view m = _
          rw [h5, getFlags_posix]
          by_cases hc : m = n
          · rw [if_pos hc, if_pos (by rw [hc])]
          · rw [if_neg hc, if_neg (fun e => hc (by cases e; rfl))]
        | upper m => rw [if_neg (fun e => by cases e), getFlags_upper, getFlags_upper]
  | upper n =>
    rcases uremove_spec t.upper h.upper n with ⟨h1, h2⟩ | ⟨p, h1, h2, h3, h4, h5⟩
    · left; exact ⟨by simp [FdTbl.remove, h1], by rw [getFlags_upper]; exact h2⟩
    · right
      have hpos : t.active ≠ 0 := by rw [h.active]; omega
      refine ⟨{ t with upper := p, active := t.active - 1 }, by simp [FdTbl.remove, h1, hpos], by rw [getFlags_upper]; exact h2,
        ⟨h.posix, h3, ?_⟩, ?_⟩
      · show t.active - 1 = t.posix.count + p.count; rw [h.active]; omega
      · funext fd
        rw [change_single]
        cases fd with
        | upper m =>
          rw [getFlags_upper]
          show p.view m = _
          rw [h5, getFlags_upper]
          by_cases hc : m = n
          · rw [if_pos hc, if_pos (by rw [hc])]
          · rw [if_neg hc, if_neg (fun e => hc (by cases e; rfl))]
        | posix m => rw [if_neg (fun e => by cases e), getFlags_posix, getFlags_posix]

theorem change_none_id {v : Spec.Map} {fd : Fd} (h : v fd = none) : Spec.change v [fd] none = v := by
  funext g
  simp only [Spec.change, List.mem_singleton]
  split
  · next e => rw [e, h]
  · rfl

/-- Removing what may or may not be there. -/
theorem remove_any (t : FdTbl) (h : FInv t) (fd : Fd) :
    ∃ b t', t.remove fd = some (b, t') ∧ FInv t' ∧ t'.getFlags = Spec.change t.getFlags [fd] none ∧ ((t.getFlags fd).isSome ↔ b = true) ∧
      (b = false → t' = t) := by
  rcases remove_spec t h fd with ⟨h1, h2⟩ | ⟨t', h1, h2, h3, h4⟩
  · exact ⟨false, t, h1, h, (change_none_id h2).symm, by rw [h2]; simp, fun _ => rfl⟩
  · exact ⟨true, t', h1, h3, h4, by simp [h2], fun e => (nomatch e)⟩

theorem change_change (v : Spec.Map) (l : List Fd) (x y : Option Bool) : Spec.change (Spec.change v l x) l y = Spec.change v l y := by
  funext g; simp only [Spec.change]; split <;> rfl

theorem premove_length (t : PTbl) (n : Nat) : (t.remove n).2.table.length = t.table.length := by
  simp only [PTbl.remove]; split <;> simp

theorem freeIn_length (l : List PEntry) : ∀ i n, (freeIn l i n).length = min n (l.countP Option.isNone) := by
  induction l with
  | nil => intro i n; cases n <;> simp [freeIn]
  | cons e l ih =>
    intro i n
    cases n with
    | zero => simp [freeIn]
    | succ n =>
      cases e with
      | none => simp [freeIn, ih]
      | some f => simp [freeIn, ih]

theorem countP_none (l : List PEntry) : l.countP Option.isNone + l.countP Option.isSome = l.length := by
  induction l with
  | nil => rfl
  | cons e l ih => cases e <;> simp <;> omega

theorem freeSlots_lt (t : PTbl) (h : PInv t) (n : Nat) (hn : t.count + n ≤ maxFiles) : ∀ k ∈ t.freeSlots n, k < maxFiles := by
  intro k hk
  simp only [PTbl.freeSlots] at hk
  have hlen := freeIn_length (t.table.drop t.lowest) t.lowest n
  obtain ⟨_, _, h3, _⟩ := freeIn_spec (t.table.drop t.lowest) t.lowest n
  rcases List.mem_append.mp hk with hk | hk
  · obtain ⟨h5, h6⟩ := h3 k hk
    have := (List.getElem?_eq_some_iff.mp h6).1
    rw [List.length_drop] at this
    have := h.len
    omega
  · obtain ⟨c, hc, rfl⟩ := List.mem_map.mp hk
    have hc := List.mem_range.mp hc
    have h1 := countP_none (t.table.drop t.lowest)
    have h2 : t.count = (t.table.take t.lowest).countP Option.isSome + (t.table.drop t.lowest).countP Option.isSome := by
      rw [← List.countP_append, List.take_append_drop]; rfl
    have h4 : (t.table.take t.lowest).countP Option.isSome ≤ t.lowest :=
      Nat.le_trans List.countP_le_length (by rw [List.length_take]; omega)
    have h5 : t.lowest ≤ (t.table.take t.lowest).countP Option.isSome := by
      have h6 := lowest_le_count ⟨t.table.take t.lowest, t.lowest⟩ ?_
      · exact h6
      · have hle := h.le
        refine ⟨by simp only [List.length_take]; omega, ?_, ?_, by simp only [List.length_take]; have := h.len; omega⟩
        · intro i hi
          obtain ⟨f, hf⟩ := (occ_iff t i).mp (h.below i hi)
          exact (occ_iff _ _).mpr ⟨f, by rw [List.getElem?_take, if_pos hi]; exact hf⟩
        · refine Bool.eq_false_iff.mpr (fun hc => ?_)
          have := occ_lt hc
          simp only [List.length_take] at this; omega
    have h6 := h.le
    rw [List.length_drop] at h1
    omega

theorem override_spec (t : FdTbl) (h : FInv t) (fd : Fd) (sync : Bool) :
    (∃ e t', t.overrideAt fd sync = some (.error e, t') ∧ FInv t' ∧ t'.getFlags = t.getFlags ∧
      ((e = .emfile ∧ ∃ n, fd = .posix n ∧ n ≥ 65536) ∨ Spec.NoGrowth sync e)) ∨
    ∃ t', t.overrideAt fd sync = some (.ok fd, t') ∧ FInv t' ∧ t'.getFlags = Spec.change t.getFlags [fd] (some false) := by
  obtain ⟨b, t1, hr, hinv, hview, hb, hbt⟩ := remove_any t h fd
  have hnone : t1.getFlags fd = none := by rw [hview]; simp [Spec.change]
  cases fd with
  | posix n =>
    have hv : t1.posix.view n = none := by rw [← getFlags_posix]; exact hnone
    have hbad : ∀ e, t1.posix.insertAt n false sync = (.error e, t1.posix) → t1 = t := by
      intro e he
      cases b with
      | false => exact hbt rfl
      | true =>
        exfalso
        have hocc : t.posix.occ n = true := by rw [occ_view, ← getFlags_posix]; exact hb.mpr rfl
        have hlt := occ_lt hocc
        have hlen1 : t1.posix.table.length = t.posix.table.length := by
          simp only [FdTbl.remove] at hr
          split at hr
          · split at hr
            · cases hr
            · simp only [Option.some.injEq, Prod.mk.injEq, true_and] at hr
              rw [← hr]; exact premove_length _ _
          · cases hr
        have := h.posix.len
        simp only [PTbl.insertAt] at he
        rw [if_neg (by omega), if_neg (by rw [hlen1]; intro hh; omega)] at he
        cases he
    rcases pinsert_spec t1.posix hinv.posix n false sync hv with ⟨h1, h2⟩ | ⟨h1, h2⟩ | ⟨p, h1, h2, h3⟩
    · left
      have := hbad _ h1
      refine ⟨.emfile, t1, by simp [FdTbl.overrideAt, hr, h1], hinv, by rw [this], Or.inl ⟨rfl, n, rfl, h2⟩⟩
    · left
      have := hbad _ h1
      exact ⟨.sync, t1, by simp [FdTbl.overrideAt, hr, h1], hinv, by rw [this], Or.inr ⟨h2, rfl⟩⟩
    · right
      refine ⟨_, by simp only [FdTbl.overrideAt, hr, Option.bind_eq_bind, Option.bind_some, h1]; rfl, ptook_inv hinv h2, ?_⟩
      rw [ptook_change h2, hview]
      exact change_change _ _ _ _
  | upper n =>
    have hv : t1.upper.view n = none := by rw [← getFlags_upper]; exact hnone
    rcases uinsertAt_spec t1.upper hinv.upper n false sync hv with ⟨h1, h2⟩ | ⟨p, h1, h2⟩
    · left
      have : t1 = t := by
        cases b with
        | false => exact hbt rfl
        | true =>
          exfalso
          have hsome : (t.upper.view n).isSome := by rw [← getFlags_upper]; exact hb.mpr rfl
          have hlt : n < t.upper.table.length := by
            refine Nat.lt_of_not_le (fun hc => ?_)
            rw [UTbl.view, List.getElem?_eq_none hc] at hsome; cases hsome
          have hlen1 : t1.upper.table.length = t.upper.table.length := by
            simp only [FdTbl.remove, UTbl.remove, uocc_view, hsome] at hr
            split at hr
            · cases hr
            · split at hr
              · cases hr
              · next hl =>
                simp only [Option.bind_eq_bind, Option.bind_some, if_true] at hr
                split at hr
                · cases hr
                · simp only [Option.some.injEq, Prod.mk.injEq, true_and] at hr
                  rw [← hr]; simp
          simp only [UTbl.insertAt] at h1
          rw [if_neg (by rw [hlen1]; intro hh; omega)] at h1
          cases h1
      exact ⟨.sync, t1, by simp [FdTbl.overrideAt, hr, h1], hinv, by rw [this], Or.inr ⟨h2, rfl⟩⟩
    · right
      refine ⟨_, by simp only [FdTbl.overrideAt, hr, Option.bind_eq_bind, Option.bind_some, h1]; rfl, utook_inv hinv h2, ?_⟩
      rw [utook_change h2, hview]
      exact change_change _ _ _ _

theorem setFlags_spec (t : FdTbl) (h : FInv t) (fd : Fd) (flag : Bool) :
    (t.setFlags fd flag = (false, t) ∧ t.getFlags fd = none) ∨
    ∃ t', t.setFlags fd flag = (true, t') ∧ (t.getFlags fd).isSome ∧ FInv t' ∧ t'.getFlags = Spec.change t.getFlags [fd] (some flag) := by
  cases fd with
  | posix n =>
    simp only [FdTbl.setFlags]
    split
    · next ho =>
      right
      obtain ⟨f, hf⟩ := (occ_iff _ _).mp ho
      have hlt := occ_lt ho
      have hview : ∀ i, PTbl.view ⟨t.posix.table.set n (some flag), t.posix.lowest⟩ i = if i = n then some flag else t.posix.view i := by
        intro i
        rw [view_eq, List.getElem?_set]
        by_cases hi : n = i
        · subst hi; simp [hlt]
        · rw [if_neg hi, if_neg (fun e => hi e.symm)]; rfl
      have hocc : ∀ i, PTbl.occ ⟨t.posix.table.set n (some flag), t.posix.lowest⟩ i = t.posix.occ i := by
        intro i
        rw [occ_view, hview]
        split
        · next e => rw [e, ho]; rfl
        · rw [occ_view]
      refine ⟨_, rfl, by rw [getFlags_posix, ← occ_view]; exact ho, ⟨⟨by simpa using h.posix.le, ?_, ?_, by simpa using h.posix.len⟩, h.upper, ?_⟩, ?_⟩
      · intro i hi; rw [hocc]; exact h.posix.below i hi
      · rw [hocc]; exact h.posix.free
      · have := countP_set Option.isSome t.posix.table n (some flag) (some f) hf
        simp only [Option.isSome_some, if_true] at this
        show t.active = List.countP Option.isSome (t.posix.table.set n (some flag)) + t.upper.count
        rw [h.active, PTbl.count]; omega
      · funext fd
        rw [change_single]
        cases fd with
        | posix m =>
          rw [getFlags_posix]
          show PTbl.view ⟨t.posix.table.set n (some flag), t.posix.lowest⟩ m = _
          rw [hview, getFlags_posix]
          by_cases hc : m = n
          · rw [if_pos hc, if_pos (by rw [hc])]
          · rw [if_neg hc, if_neg (fun e => hc (by cases e; rfl))]
        | upper m => rw [if_neg (fun e => by cases e), getFlags_upper, getFlags_upper]
    · next ho =>
      left
      exact ⟨rfl, by rw [getFlags_posix]; exact occ_false_view.mp (by simpa using ho)⟩
  | upper n =>
    simp only [FdTbl.setFlags]
    split
    · next ho =>
      right
      have hget : ∃ f, t.upper.table[n]? = some (.occupied f) := by
        simp only [UTbl.occ] at ho
        split at ho
        · next f hf => exact ⟨f, hf⟩
        · cases ho
      obtain ⟨f, hf⟩ := hget
      have hlt := (List.getElem?_eq_some_iff.mp hf).1
      have hcount := countP_set UEntry.isOcc t.upper.table n (.occupied flag) (.occupied f) hf
      simp only [show UEntry.isOcc (.occupied flag) = true from rfl, show UEntry.isOcc (.occupied f) = true from rfl, if_true] at hcount
      obtain ⟨⟨is, hc, hn⟩, hlen⟩ := h.upper
      refine ⟨_, rfl, by rw [getFlags_upper, ← uocc_view]; exact ho, ⟨h.posix, ⟨⟨is, chain_congr ?_ hc, hn⟩, ?_⟩, ?_⟩, ?_⟩
      · intro i hi
        rw [List.getElem?_set, if_neg]
        intro e; subst e
        obtain ⟨m, hm⟩ := chain_vacant hc n hi
        rw [hf] at hm; cases hm
      · show t.upper.len = List.countP UEntry.isOcc (t.upper.table.set n (.occupied flag))
        rw [hlen, UTbl.count]; omega
      · show t.active = t.posix.count + List.countP UEntry.isOcc (t.upper.table.set n (.occupied flag))
        rw [h.active, UTbl.count]; omega
      · funext fd
        rw [change_single]
        cases fd with
        | upper m =>
          rw [getFlags_upper, getFlags_upper]
          simp only [UTbl.view]
          rw [List.getElem?_set]
          by_cases hi : n = m
          · subst hi; simp [hlt, UEntry.flag?]
          · rw [if_neg hi, if_neg (fun e => hi (by cases e; rfl))]
        | posix m => rw [if_neg (fun e => by cases e), getFlags_posix, getFlags_posix]
    · next ho =>
      left
      refine ⟨rfl, ?_⟩
      rw [getFlags_upper]
      rw [uocc_view] at ho
      cases hv : t.upper.view n <;> simp_all

theorem addPosix_spec (t : FdTbl) (h : FInv t) (flag sync : Bool) :
    (∃ e, t.addPosix flag sync = (.error e, t) ∧ ((e = .emfile ∧ Spec.Full t.getFlags 1) ∨ Spec.NoGrowth sync e)) ∨
    ∃ n t', t.addPosix flag sync = (.ok (.posix n), t') ∧ FInv t' ∧ t.getFlags (.posix n) = none ∧
      (∀ m, m < n → (t.getFlags (.posix m)).isSome) ∧ t'.getFlags = Spec.change t.getFlags [.posix n] (some flag) := by
  simp only [FdTbl.addPosix]
  split
  · next hge => exact Or.inl ⟨_, rfl, Or.inl ⟨rfl, full_of t h 1 (by omega)⟩⟩
  · next hlt =>
    rcases padd_spec t.posix h.posix flag sync (by have := h.active; omega) with ⟨h1, h2⟩ | ⟨p, h1, h2⟩
    · left
      rw [h1]
      exact ⟨.sync, rfl, Or.inr ⟨h2, rfl⟩⟩
    · right
      rw [h1]
      refine ⟨_, _, rfl, ptook_inv h h2, ?_, ?_, ptook_change h2 _⟩
      · rw [getFlags_posix]; exact occ_false_view.mp h.posix.free
      · intro m hm; rw [getFlags_posix, ← occ_view]; exact h.posix.below m hm

theorem insertUpper_spec (t : FdTbl) (h : FInv t) (flag sync : Bool) :
    (∃ e, t.insertUpper flag sync = some (.error e, t) ∧ ((e = .emfile ∧ Spec.Full t.getFlags 1) ∨ Spec.NoGrowth sync e)) ∨
    ∃ n t', t.insertUpper flag sync = some (.ok (.upper n), t') ∧ FInv t' ∧ t.getFlags (.upper n) = none ∧
      t'.getFlags = Spec.change t.getFlags [.upper n] (some flag) := by
  simp only [FdTbl.insertUpper]
  split
  · next hge => exact Or.inl ⟨_, rfl, Or.inl ⟨rfl, full_of t h 1 (by omega)⟩⟩
  · next hlt =>
    rcases uinsert_spec t.upper h.upper flag sync with ⟨h1, h2⟩ | ⟨n, u, h1, h2, h3⟩
    · left
      rw [h1]
      exact ⟨.sync, rfl, Or.inr ⟨h2, rfl⟩⟩
    · right
      rw [h1]
      exact ⟨n, _, rfl, utook_inv h h3, by rw [getFlags_upper]; exact h2, utook_change h3 _⟩

theorem run_spec (t : FdTbl) (h : FInv t) (op : Op) :
    ∃ r t', t.run op = some (r, t') ∧ FInv t' ∧ Spec.Does t.getFlags op r t'.getFlags := by
  cases op with
  | add flag sync =>
    rcases addPosix_spec t h flag sync with ⟨e, h1, h2⟩ | ⟨n, t', h1, h2, h3, h4, h5⟩
    · exact ⟨.error e, t, by simp only [FdTbl.run, h1]; rfl, h, h2, rfl⟩
    · exact ⟨.ok [.posix n], t', by simp only [FdTbl.run, h1]; rfl, h2, ⟨n, rfl, h3, h4⟩, h5⟩
  | addUpper flag sync =>
    rcases insertUpper_spec t h flag sync with ⟨e, h1, h2⟩ | ⟨n, t', h1, h2, h3, h5⟩
    · exact ⟨.error e, t, by simp only [FdTbl.run, h1]; rfl, h, h2, rfl⟩
    · exact ⟨.ok [.upper n], t', by simp only [FdTbl.run, h1]; rfl, h2, ⟨n, rfl, h3⟩, h5⟩
  | bulkAdd upper count flag sync =>
    simp only [FdTbl.run, FdTbl.bulkAdd]
    split
    · next hz =>
      subst hz
      refine ⟨_, _, rfl, h, ?_⟩
      have hid : t.getFlags = Spec.change t.getFlags [] (some flag) := by funext g; simp [Spec.change]
      cases upper with
      | false => exact ⟨⟨[], rfl, rfl, List.Pairwise.nil, fun n hn => absurd hn List.not_mem_nil, fun _ _ _ n hn => absurd hn List.not_mem_nil⟩, hid⟩
      | true => exact ⟨⟨0, rfl, fun fd hfd => absurd hfd List.not_mem_nil⟩, hid⟩
    · split
      · next hge => exact ⟨_, _, rfl, h, Or.inl ⟨rfl, full_of t h count hge⟩, rfl⟩
      · next hle =>
        have hact := h.active
        cases upper with
        | true =>
          rw [if_pos rfl]
          rcases ubulk_spec t.upper h.upper count flag sync with ⟨h1, h2⟩ | ⟨h1, h2⟩ | ⟨start, u, h1, h2, h3⟩
          · omega
          · rw [h1]; exact ⟨_, _, rfl, h, Or.inr ⟨h2, rfl⟩, rfl⟩
          · rw [h1]
            have hinv := utook_inv h h3
            rw [List.length_map, List.length_range] at hinv
            refine ⟨_, _, rfl, hinv, ⟨start, by rw [List.map_map]; rfl, ?_⟩, utook_change h3 _⟩
            intro fd hfd
            obtain ⟨k, hk, rfl⟩ := List.mem_map.mp hfd
            rw [getFlags_upper]; exact h2 k hk
        | false =>
          rw [if_neg (by simp)]
          rcases pbulkAdd_spec t.posix h.posix count flag sync with ⟨h1, k, hk, hk2⟩ | ⟨h1, h2⟩ | ⟨p, h1, h2⟩
          · have := freeSlots_lt t.posix h.posix count (by omega) k hk; omega
          · rw [h1]; exact ⟨_, _, rfl, h, Or.inr ⟨h2, rfl⟩, rfl⟩
          · rw [h1]
            obtain ⟨h3, h4, h5, h6⟩ := freeSlots_spec t.posix h.posix count
            have hinv := ptook_inv h h2
            rw [h3] at hinv
            refine ⟨_, _, rfl, hinv, ⟨_, rfl, h3, h4, ?_, ?_⟩, ptook_change h2 _⟩
            · intro n hn; rw [getFlags_posix]; exact h5 n hn
            · intro m hm; rw [getFlags_posix] at hm; exact h6 m hm
  | bulkInsert upper ns flag sync =>
    simp only [FdTbl.run, FdTbl.bulkInsert]
    split
    · next hz =>
      subst hz
      exact ⟨_, _, rfl, h, rfl, List.nodup_nil, fun fd hfd => absurd hfd List.not_mem_nil, by funext g; simp [Spec.change]⟩
    · split
      · next hge => exact ⟨_, _, rfl, h, Or.inl ⟨rfl, full_of t h _ hge⟩, rfl⟩
      · next hle =>
        have hact := h.active
        cases upper with
        | true =>
          rw [if_pos rfl]
          rcases ubulkManual_spec t.upper h.upper ns flag sync with ⟨e, h1, h2⟩ | ⟨u, h1, h2, h3, h4⟩
          · rw [h1]
            refine ⟨_, _, rfl, h, ?_, rfl⟩
            rcases h2 with (⟨k, hk, h2⟩ | h2) | h2 | h2
            · refine Or.inr (Or.inr (Or.inl ⟨k, hk, ?_⟩))
              rcases h2 with h2 | h2
              · exact Or.inl h2
              · exact Or.inr (by rw [show mkFd true k = .upper k from rfl, getFlags_upper]; exact h2)
            · exact Or.inr (Or.inr (Or.inr h2))
            · exact Or.inr (Or.inl ⟨h2.2, h2.1⟩)
            · omega
          · rw [h1]
            refine ⟨_, _, rfl, utook_inv h h2, rfl, h3, ?_, utook_change h2 _⟩
            intro fd hfd
            obtain ⟨k, hk, rfl⟩ := List.mem_map.mp hfd
            rw [show mkFd true k = .upper k from rfl, getFlags_upper]; exact h4 k hk
        | false =>
          rw [if_neg (by simp)]
          rcases pbulkManual_spec t.posix h.posix ns flag sync with ⟨e, h1, h2⟩ | ⟨p, h1, h2, h3, h4⟩
          · rw [h1]
            refine ⟨_, _, rfl, h, ?_, rfl⟩
            rcases h2 with (⟨k, hk, h2⟩ | h2) | h2
            · refine Or.inr (Or.inr (Or.inl ⟨k, hk, ?_⟩))
              rcases h2 with h2 | h2
              · exact Or.inl h2
              · exact Or.inr (by rw [show mkFd false k = .posix k from rfl, getFlags_posix]; exact h2)
            · exact Or.inr (Or.inr (Or.inr h2))
            · exact Or.inr (Or.inl ⟨h2.2, h2.1⟩)
          · rw [h1]
            refine ⟨_, _, rfl, ptook_inv h h2, rfl, h3, ?_, ptook_change h2 _⟩
            intro fd hfd
            obtain ⟨k, hk, rfl⟩ := List.mem_map.mp hfd
            rw [show mkFd false k = .posix k from rfl, getFlags_posix]; exact h4 k hk
  | override fd sync =>
    rcases override_spec t h fd sync with ⟨e, t', h1, h2, h3, h4⟩ | ⟨t', h1, h2, h3⟩
    · exact ⟨.error e, t', by simp only [FdTbl.run, h1]; rfl, h2, h4, h3⟩
    · exact ⟨.ok [fd], t', by simp only [FdTbl.run, h1]; rfl, h2, rfl, h3⟩
  | remove fd =>
    rcases remove_spec t h fd with ⟨h1, h2⟩ | ⟨t', h1, h2, h3, h4⟩
    · exact ⟨.error .ebadf, t, by simp only [FdTbl.run, h1]; rfl, h, ⟨rfl, h2⟩, rfl⟩
    · exact ⟨.ok [fd], t', by simp only [FdTbl.run, h1]; rfl, h3, rfl, h2, h4⟩
  | setFlags fd flag =>
    rcases setFlags_spec t h fd flag with ⟨h1, h2⟩ | ⟨t', h1, h2, h3, h4⟩
    · exact ⟨.error .ebadf, t, by simp only [FdTbl.run, h1]; rfl, h, ⟨rfl, h2⟩, rfl⟩
    · exact ⟨.ok [fd], t', by simp only [FdTbl.run, h1]; rfl, h3, rfl, h2, h4⟩

theorem reach_inv {t : FdTbl} (h : Reach t) : FInv t := by
  induction h with
  | initial => exact initial_inv
  | step _ hr ih =>
    obtain ⟨r', t'', h1, h2, _⟩ := run_spec _ ih _
    rw [hr] at h1; cases h1; exact h2

/-! ## The property -/

/-- **C107**: at the start nothing is open. -/
theorem C107_initial (fd : Fd) : FdTbl.initial.getFlags fd = none := by
  cases fd with
  | posix n =>
    rw [getFlags_posix]
    show PTbl.view ⟨resizeList [] 64 none, 0⟩ n = none
    rw [view_eq, get_resize id _ _ _ (by simp) rfl]; simp
  | upper n =>
    rw [getFlags_upper]
    show UTbl.view (UTbl.resize ⟨[], 0, maxFiles⟩ 64) n = none
    rw [uresize_view _ _ (by simp)]; simp [UTbl.view]

/-- **C107**: after any sequence of operations, any operation on the table completes without panic and does what it is for: a new descriptor
gets the lowest number that is not open, numbers given together are the lowest ones in order, or a block, and are not open, numbers asked
for are given if they are all free and distinct, everything else keeps its number and its flag; and an operation fails only for the reasons
listed, without changing anything. -/
theorem C107_operation {t : FdTbl} (h : Reach t) (op : Op) :
    ∃ r t', t.run op = some (r, t') ∧ Spec.Does t.getFlags op r t'.getFlags := by
  obtain ⟨r, t', h1, _, h2⟩ := run_spec t (reach_inv h) op
  exact ⟨r, t', h1, h2⟩

/-- **C107**: the iterator used by `exec` gives every open descriptor once, with its flag, and nothing else. -/
theorem C107_iter {t : FdTbl} (_h : Reach t) :
    (∀ fd f, (fd, f) ∈ t.iter ↔ t.getFlags fd = some f) ∧ (t.iter.map Prod.fst).Nodup :=
  ⟨iter_mem t, iter_nodup t⟩

/-- **C107**: `active_count` is the number of open descriptors. -/
theorem C107_count {t : FdTbl} (h : Reach t) : t.active = (t.iter.map Prod.fst).length := by
  rw [List.length_map, iter_length t (reach_inv h)]

/-- A sequence of operations, with the results. -/
def runAll : FdTbl → List Op → Option (List Res × FdTbl)
  | t, [] => some ([], t)
  | t, op :: ops => do
    let (r, t1) ← t.run op
    let (rs, t2) ← runAll t1 ops
    some (r :: rs, t2)

/-- The descriptors given by each operation, `none` for an error. -/
def given (ops : List Op) : Option (List (Option (List Fd))) :=
  (runAll FdTbl.initial ops).map (fun r => r.1.map (fun x => match x with
    | .ok l => some l
    | .error _ => none))

example : given [.add false true, .add true true, .add false true, .remove (.posix 1), .add true true, .override (.posix 5) true,
    .add false true, .bulkAdd false 3 false true, .remove (.posix 9)] =
  some [some [.posix 0], some [.posix 1], some [.posix 2], some [.posix 1], some [.posix 1], some [.posix 5],
    some [.posix 3], some [.posix 4, .posix 6, .posix 7], none] := by decide +kernel

example : given [.addUpper false true, .addUpper false true, .addUpper true true, .remove (.upper 0), .bulkAdd true 2 false true,
    .addUpper false true, .bulkInsert true [1] false true, .bulkInsert true [7, 7] false true] =
  some [some [.upper 0], some [.upper 1], some [.upper 2], some [.upper 0], some [.upper 3, .upper 4], some [.upper 0], none, none] := by
  decide +kernel

end Verif.Fd
