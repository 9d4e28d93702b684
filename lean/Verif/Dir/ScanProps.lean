import Verif.Dir.ScanModel
import Verif.Dir.DirProps
/-!
# C135: scandir
-/

namespace Verif.Dir
open Verif.Stdlib

/-! ## Specification -/

/-- `c` is a copy of the directory's record `r` in a `struct dirent` of 275 bytes: it begins like the record, as far as there is room. -/
def Copy (c r : List UInt8) : Prop := c.length = 275 ∧ c.take r.length = r.take 275

/-- The filter looks only at the entry, and does not touch `errno`: on any copy of a record it says what `g` says about the record. -/
def Looks (f : Filter) (g : List UInt8 → Bool) (recs : List (List UInt8)) : Prop :=
  ∀ r ∈ recs, ∀ c, Copy c r → f c = (g r, none)

/-- `list` has a copy of each of the records, and nothing else, in the same order. -/
def Copies (list recs : List (List UInt8)) : Prop :=
  ∃ pairs : List (List UInt8 × List UInt8), pairs.map Prod.fst = list ∧ pairs.map Prod.snd = recs ∧ ∀ p ∈ pairs, Copy p.1 p.2

/-! ## Lemmas -/

/-- After an entry has been read it is in the buffer. -/
theorem read_entry {pl : Plat} {d d' : DIR} {r : List UInt8} (h : d.read pl = some (.ok (some r), d')) :
    (d'.buf.drop (d'.off - r.length)).take r.length = r ∧ d'.off ≤ d'.buf.length := by
  have key : ∀ e e' : DIR, e.take pl = (.ok (some r), e') →
      (e'.buf.drop (e'.off - r.length)).take r.length = r ∧ e'.off ≤ e'.buf.length := by
    intro e e' he
    unfold DIR.take at he
    dsimp only at he
    cases hx : reclenOffset pl (e.buf.drop e.off) with
    | none => rw [hx] at he; cases he
    | some x =>
      obtain ⟨n, nx⟩ := x
      rw [hx] at he
      dsimp only at he
      split at he
      · cases he
      · rename_i hn
        injection he with h1 h2
        injection h1 with h1
        injection h1 with h1
        subst h2
        have hlen : r.length = n := by
          rw [← h1, List.length_take]
          omega
        dsimp only
        rw [hlen, show e.off + n - n = e.off by omega]
        exact ⟨h1, by omega⟩
  unfold DIR.read at h
  split at h
  · cases h
  · split at h
    · cases hf : d.fill pl with
      | none => rw [hf] at h; cases h
      | some x =>
        obtain ⟨x, y⟩ := x
        rw [hf] at h
        cases x with
        | error e => cases h
        | ok l =>
          dsimp only at h
          split at h
          · cases h
          · injection h with h
            exact key _ _ h
    · injection h with h
      exact key _ _ h

theorem copy_of {l r junk : List UInt8} (h : l.take r.length = r) (hj : 275 ≤ junk.length) : Copy ((l ++ junk).take DENT) r := by
  have hrl : r.length ≤ l.length := by
    have := congrArg List.length h
    rw [List.length_take] at this
    omega
  refine ⟨by rw [List.length_take, List.length_append]; unfold DENT; omega, ?_⟩
  rw [List.take_take, Nat.min_comm, ← List.take_take, List.take_append_of_le_length hrl, h]
  rfl

theorem push_ok {alloc : Nat → Bool} (ha : ∀ n, alloc n = true) (s : Scan) (e : List UInt8) :
    ∃ cap allocs, Scan.push alloc s e = (true, { s with vec := s.vec ++ [e], cap := cap, allocs := allocs }) := by
  unfold Scan.push
  split
  · rw [if_pos (ha _)]
    exact ⟨_, _, rfl⟩
  · exact ⟨s.cap, s.allocs, rfl⟩

theorem copies_nil : Copies [] [] := ⟨[], rfl, rfl, nofun⟩

theorem copies_snoc {l rs : List (List UInt8)} {c r : List UInt8} (h : Copies l rs) (hc : Copy c r) : Copies (l ++ [c]) (rs ++ [r]) := by
  obtain ⟨p, h1, h2, h3⟩ := h
  refine ⟨p ++ [(c, r)], by simp [h1], by simp [h2], ?_⟩
  intro x hx
  rcases List.mem_append.1 hx with hx | hx
  · exact h3 x hx
  · rw [List.mem_singleton] at hx
    subst hx
    exact hc

/-- The off of the stream after an entry has been read is at least the length of the entry. -/
theorem read_off {pl : Plat} {d d' : DIR} {r : List UInt8} (h : d.read pl = some (.ok (some r), d')) : r.length ≤ d'.off := by
  have key : ∀ e e' : DIR, e.take pl = (.ok (some r), e') → r.length ≤ e'.off := by
    intro e e' he
    unfold DIR.take at he
    dsimp only at he
    cases hx : reclenOffset pl (e.buf.drop e.off) with
    | none => rw [hx] at he; cases he
    | some x =>
      obtain ⟨n, nx⟩ := x
      rw [hx] at he
      dsimp only at he
      split at he
      · cases he
      · injection he with h1 h2
        injection h1 with h1
        injection h1 with h1
        subst h2
        rw [← h1, List.length_take]
        dsimp only
        omega
  unfold DIR.read at h
  split at h
  · cases h
  · split at h
    · cases hf : d.fill pl with
      | none => rw [hf] at h; cases h
      | some x =>
        obtain ⟨x, y⟩ := x
        rw [hf] at h
        cases x with
        | error e => cases h
        | ok l =>
          dsimp only at h
          split at h
          · cases h
          · injection h with h
            exact key _ _ h
    · injection h with h
      exact key _ _ h

/-- What is said about a record. -/
def says (g : Option (List UInt8 → Bool)) (r : List UInt8) : Bool :=
  match g with
  | none => true
  | some g => g r

theorem says_none (l : List (List UInt8)) : l.filter (says none) = l := by
  rw [List.filter_eq_self]
  intros
  rfl

theorem says_some (g : List UInt8 → Bool) : says (some g) = g := rfl

theorem scanLoop_at {pl : Plat} {k0 : Kern} (hg : k0.Good) {filter : Option Filter} {w : List UInt8 → Bool} {o : Option Int32}
    (hf : ∀ r ∈ k0.recs, ∀ c, Copy c r → askFilter filter c = (w r, o))
    {alloc : Nat → Bool} (ha : ∀ n, alloc n = true) {junk : List UInt8} (hj : 275 ≤ junk.length) (n : Nat) :
    ∀ (s : Scan) (i : Nat) (done : List (List UInt8)), k0.recs.length - i = n → At pl k0 s.d i → Copies s.vec done →
      ∃ s', scanLoop pl filter alloc junk s = some s' ∧ s'.errno = (if i < k0.recs.length then o.getD s.errno else s.errno) ∧
        Copies s'.vec (done ++ (k0.recs.drop i).filter w) := by
  induction n with
  | zero =>
    intro s i done hn hat hc
    obtain ⟨d', hr, -⟩ := read_at hg hat
    rw [scanLoop, hr, List.getElem?_eq_none (by omega), if_neg (by omega)]
    refine ⟨_, rfl, rfl, ?_⟩
    rw [List.drop_eq_nil_of_le (by omega)]
    simpa using hc
  | succ n ih =>
    intro s i done hn hat hc
    have hi : i < k0.recs.length := by omega
    obtain ⟨d', hr, hat'⟩ := read_at hg hat
    rw [if_pos hi] at hat'
    rw [List.getElem?_eq_getElem hi] at hr
    generalize hrec : k0.recs[i] = r at hr
    have hmem : r ∈ k0.recs := hrec ▸ List.getElem_mem hi
    have hcopy : Copy ((d'.buf.drop (d'.off - r.length) ++ junk).take DENT) r := copy_of (read_entry hr).1 hj
    have hdrop : k0.recs.drop i = r :: k0.recs.drop (i + 1) := by rw [← hrec]; exact List.drop_eq_getElem_cons hi
    have ho : ∀ x : Int32, (if i + 1 < k0.recs.length then o.getD (o.getD x) else o.getD x) = o.getD x := by
      intro x
      cases o <;> simp
    rw [scanLoop, hr]
    dsimp only
    generalize hent : (d'.buf.drop (d'.off - r.length) ++ junk).take DENT = ent at hcopy
    rw [hf r hmem ent hcopy, hdrop, List.filter_cons, if_pos hi]
    dsimp only
    cases hw : w r with
    | false =>
      rw [if_pos rfl, if_neg (by decide)]
      have := ih ⟨d', s.vec, s.cap, o.getD s.errno, s.allocs, s.over⟩ (i + 1) done (by omega) hat' hc
      rwa [ho] at this
    | true =>
      rw [if_neg (by decide), if_neg (by rw [ha]; decide), if_pos rfl]
      obtain ⟨cap, allocs, hp⟩ := push_ok ha
        ⟨d', s.vec, s.cap, o.getD s.errno, s.allocs + 1, s.over || decide (d'.off - r.length + DENT > d'.cap)⟩ ent
      rw [hp]
      dsimp only
      rw [if_pos rfl]
      have := ih ⟨d', s.vec ++ [ent], cap, o.getD s.errno, allocs, s.over || decide (d'.off - r.length + DENT > d'.cap)⟩ (i + 1) (done ++ [r])
        (by omega) hat' (copies_snoc hc hcopy)
      rw [ho, List.append_assoc, List.singleton_append] at this
      exact this

theorem new_at {pl : Plat} {k : Kern} (hg : k.Good) (hp : k.pos = 0) : At pl k (DIR.new k) 0 :=
  ⟨rfl, rfl, rfl, rfl, Nat.zero_le _, ⟨0, by simp [DIR.new], by omega, fun _ => hp⟩, Nat.zero_le _,
    by rw [hg.zero]; rfl, by simp [DIR.new], by simp [DIR.new]⟩

/-! ### The order of names -/

theorem sub_le (a b : UInt8) : a.toUInt32.toInt32 - b.toUInt32.toInt32 ≤ 0 ↔ a ≤ b := by
  have : ∀ x : UInt8, x.toUInt32.toInt32.toInt = x.toNat := by
    intro x
    have : ∀ n, n < 256 → (UInt8.ofNat n).toUInt32.toInt32.toInt = n := by decide +kernel
    have h := this x.toNat x.toNat_lt
    rwa [UInt8.ofNat_toNat] at h
  have ha := this a
  have hb := this b
  have := a.toNat_lt
  have := b.toNat_lt
  rw [Int32.le_iff_toInt_le, Int32.toInt_sub, ha, hb, UInt8.le_iff_toNat_le, Int.bmod_def]
  show _ ≤ (0 : Int) ↔ _
  split <;> omega

theorem byte_pos (a : UInt8) (h : a ≠ 0) : ¬ a.toUInt32.toInt32 ≤ 0 := by
  have := sub_le a 0
  rw [show (0 : UInt8).toUInt32.toInt32 = 0 from rfl, Int32.sub_zero] at this
  rw [this, UInt8.le_iff_toNat_le]
  intro hc
  exact h (UInt8.toNat_inj.1 (Nat.le_zero.1 hc))

theorem cmpNames_le (s t : List UInt8) (hs : ∀ b ∈ s, b ≠ 0) (ht : ∀ b ∈ t, b ≠ 0) : cmpNames s t ≤ 0 ↔ s ≤ t := by
  induction s generalizing t with
  | nil =>
    cases t with
    | nil => simp [cmpNames]
    | cons b t =>
      have := sub_le 0 b
      rw [show (0 : UInt8).toUInt32.toInt32 = 0 from rfl, Int32.zero_sub] at this
      simp only [cmpNames, this]
      exact iff_of_true (by rw [UInt8.le_iff_toNat_le]; exact Nat.zero_le _) (List.nil_le _)
  | cons a s ih =>
    cases t with
    | nil =>
      simp only [cmpNames]
      refine iff_of_false (byte_pos a (hs a (List.mem_cons_self ..))) ?_
      intro h
      exact absurd h (by simp)
    | cons b t =>
      unfold cmpNames
      rw [List.cons_le_cons_iff]
      by_cases h : a = b
      · rw [if_pos h, ih t (fun x hx => hs x (List.mem_cons_of_mem _ hx)) (fun x hx => ht x (List.mem_cons_of_mem _ hx))]
        subst h
        simp
      · rw [if_neg h, sub_le]
        have : a ≤ b ↔ a < b := by
          rw [UInt8.le_iff_toNat_le, UInt8.lt_iff_toNat_lt]
          have : a.toNat ≠ b.toNat := fun hc => h (UInt8.toNat_inj.1 hc)
          omega
        simp [this, h]

theorem dname_nz (e : List UInt8) : ∀ b ∈ dname e, b ≠ 0 := by
  intro b hb
  have := List.all_takeWhile (p := fun x : UInt8 => decide (x ≠ 0)) (l := e.drop 19)
  rw [List.all_eq_true] at this
  simpa using this b hb

theorem alphasort_orders : Orders alphasort fun a b => cmpNames (dname a) (dname b) where
  answers _ _ _ := rfl
  total a b := by
    rw [cmpNames_le _ _ (dname_nz a) (dname_nz b), cmpNames_le _ _ (dname_nz b) (dname_nz a)]
    exact List.le_total _ _
  trans a b c := by
    rw [cmpNames_le _ _ (dname_nz a) (dname_nz b), cmpNames_le _ _ (dname_nz b) (dname_nz c), cmpNames_le _ _ (dname_nz a) (dname_nz c)]
    exact List.le_trans

/-! ## C135 -/

/-- **C135.** If nothing fails, `scandir` gives copies of exactly the entries which the filter wants (all of them without a filter), each once, and
their number; with a comparison function which is an order they are sorted by it, without one they are in the order of the directory;
`errno` is as before, and the directory has been closed. Missing: see the violations. -/
theorem C135_scandir_partial {σ : Type} (pl : Plat) (k : Kern) (hg : k.Good) (hp : k.pos = 0) (filter : Option Filter)
    (g : Option (List UInt8 → Bool))
    (hf : match filter, g with | none, none => True | some f, some g => Looks f g k.recs | _, _ => False)
    (compare : Option (Comparator σ)) (c : σ) (alloc : Nat → Bool) (ha : ∀ n, alloc n = true) (junk : List UInt8)
    (hj : 275 ≤ junk.length) (errno : Int32) :
    ∃ r list copies, scandir pl (.ok k) filter compare c alloc junk errno = some r ∧ r.list = some list ∧
      Copies copies (match (generalizing := false) g with | none => k.recs | some g => k.recs.filter g) ∧ list.Perm copies ∧
      r.ret = Int32.ofNat list.length ∧ r.errno = errno ∧ r.closed = true ∧
      (compare = none → list = copies) ∧
      (∀ cmp f, compare = some cmp → Orders cmp f → list.Pairwise fun a b => f a b ≤ 0) := by
  have hw : ∀ r ∈ k.recs, ∀ c, Copy c r → askFilter filter c = (says g r, none) := by
    intro r hr c hc
    cases filter with
    | none => cases g with
      | none => rfl
      | some g => exact hf.elim
    | some f => cases g with
      | none => exact hf.elim
      | some g => exact hf r hr c hc
  obtain ⟨s', h1, h2, h3⟩ := scanLoop_at hg hw ha hj k.recs.length ⟨DIR.new k, [], 4, 0, 1, false⟩ 0 [] (by omega) (new_at hg hp) copies_nil
  rw [List.drop_zero, List.nil_append] at h3
  replace h2 : s'.errno = 0 := by rw [h2]; split <;> rfl
  replace h3 : Copies s'.vec (match (generalizing := false) g with | none => k.recs | some g => k.recs.filter g) := by
    cases g with
    | none => rwa [says_none] at h3
    | some g => exact h3
  have hr : scandir pl (.ok k) filter compare c alloc junk errno = some (scanEnd compare c alloc errno s') := by
    unfold scandir
    dsimp only
    rw [if_neg (by rw [ha]; decide), h1]
    rfl
  have he : scanEnd compare c alloc errno s' = ⟨Int32.ofNat s'.vec.length,
      some (sortBy compare c s'.vec), errno, true, s'.over⟩ := by
    unfold scanEnd
    rw [if_neg (by rw [ha]; simp), if_neg (fun h => h h2)]
  have hperm : (sortBy compare c s'.vec).Perm s'.vec := by
    cases compare with
    | none => exact List.Perm.refl _
    | some cmp => exact isort_perm cmp c [] s'.vec
  refine ⟨_, _, s'.vec, hr, by rw [he], h3, hperm, ?_, by rw [he], by rw [he], ?_, ?_⟩
  · rw [he, hperm.length_eq]
  · rintro rfl
    rfl
  · rintro cmp f rfl ho
    exact isort_sorted ho _ _ _ List.Pairwise.nil

/-- **C135.** With `alphasort` the entries are sorted by name, byte by byte. -/
theorem C135_alphasort (pl : Plat) (k : Kern) (hg : k.Good) (hp : k.pos = 0) (alloc : Nat → Bool) (ha : ∀ n, alloc n = true)
    (junk : List UInt8) (hj : 275 ≤ junk.length) (errno : Int32) :
    ∃ r list, scandir pl (.ok k) none (some alphasort) () alloc junk errno = some r ∧ r.list = some list ∧
      list.Pairwise fun a b => ((a.drop 19).takeWhile (· ≠ 0)) ≤ ((b.drop 19).takeWhile (· ≠ 0)) := by
  obtain ⟨r, list, copies, h1, h2, -, -, -, -, -, -, h3⟩ :=
    C135_scandir_partial pl k hg hp none none trivial (some alphasort) () alloc ha junk hj errno
  refine ⟨r, list, h1, h2, (h3 _ _ rfl alphasort_orders).imp fun {a b} h => ?_⟩
  exact (cmpNames_le _ _ (dname_nz a) (dname_nz b)).1 h

/-- **C135.** If the directory cannot be opened, -1 is returned with the error, and nothing is stored. -/
theorem C135_open {σ : Type} (pl : Plat) (e : Int32) (filter : Option Filter) (compare : Option (Comparator σ)) (c : σ)
    (alloc : Nat → Bool) (junk : List UInt8) (errno : Int32) :
    ∃ r, scandir pl (.error e) filter compare c alloc junk errno = some r ∧ r.ret = -1 ∧ r.list = none ∧ r.errno = e :=
  ⟨_, rfl, rfl, rfl, rfl⟩

/-- **C135.** A filter which leaves a value in `errno`, as any library function may which it calls, makes `scandir` fail with that value,
although nothing has failed: for every directory which is not empty and every such filter. -/
theorem C135_errno_violation {σ : Type} (pl : Plat) (k : Kern) (hg : k.Good) (hp : k.pos = 0) (hne : k.recs ≠ []) (w : List UInt8 → Bool)
    (e : Int32) (he : e ≠ 0) (f : Filter) (hf : ∀ r ∈ k.recs, ∀ c, Copy c r → f c = (w r, some e))
    (compare : Option (Comparator σ)) (c : σ) (alloc : Nat → Bool) (ha : ∀ n, alloc n = true) (junk : List UInt8)
    (hj : 275 ≤ junk.length) (errno : Int32) :
    ∃ r, scandir pl (.ok k) (some f) compare c alloc junk errno = some r ∧ r.ret = -1 ∧ r.list = none ∧ r.errno = e := by
  obtain ⟨s', h1, h2, -⟩ := scanLoop_at hg (filter := some f) hf ha hj k.recs.length ⟨DIR.new k, [], 4, 0, 1, false⟩ 0 [] (by omega)
    (new_at hg hp) copies_nil
  rw [if_pos (List.length_pos_iff.2 hne)] at h2
  replace h2 : s'.errno = e := h2
  have hr : scandir pl (.ok k) (some f) compare c alloc junk errno = some (scanEnd compare c alloc errno s') := by
    unfold scandir
    dsimp only
    rw [if_neg (by rw [ha]; decide), h1]
    rfl
  have : scanEnd compare c alloc errno s' = ⟨-1, none, e, true, s'.over⟩ := by
    unfold scanEnd
    rw [if_neg (by rw [ha]; simp), if_pos (by rw [h2]; exact he), h2]
  exact ⟨_, hr, by rw [this], by rw [this], by rw [this]⟩

/-- **C135.** If there is no memory for the first copy, `scandir` reports success, with no entries, for a directory which is not empty. -/
theorem C135_memory_violation {σ : Type} (pl : Plat) (k : Kern) (hg : k.Good) (hp : k.pos = 0) (hne : k.recs ≠ [])
    (compare : Option (Comparator σ)) (c : σ) (alloc : Nat → Bool) (h0 : alloc 0 = true) (h1 : alloc 1 = false) (junk : List UInt8)
    (errno : Int32) :
    ∃ r, scandir pl (.ok k) none compare c alloc junk errno = some r ∧ r.ret = 0 ∧ r.list = some [] ∧ r.errno = errno := by
  obtain ⟨d', hr, -⟩ := read_at hg (new_at (pl := pl) hg hp)
  rw [List.getElem?_eq_getElem (List.length_pos_iff.2 hne)] at hr
  have hs : ∃ s', scanLoop pl none alloc junk ⟨DIR.new k, [], 4, 0, 1, false⟩ = some s' ∧ s'.vec = [] ∧ s'.errno = 0 := by
    rw [scanLoop, hr]
    refine ⟨⟨d', [], 4, 0, 2, false⟩, ?_, rfl, rfl⟩
    dsimp only [askFilter, Option.getD_none]
    rw [if_neg (by decide), if_pos h1]
  obtain ⟨s', h2, h3, h4⟩ := hs
  have he : scanEnd compare c alloc errno s' = ⟨0, some [], errno, true, s'.over⟩ := by
    unfold scanEnd
    rw [if_neg (fun h => h.1 h3), if_neg (fun h => h h4), h3]
    cases compare <;> rfl
  refine ⟨scanEnd compare c alloc errno s', ?_, by rw [he], by rw [he], by rw [he]⟩
  unfold scandir
  dsimp only
  rw [if_neg (by rw [h0]; decide), h2]
  rfl

/-- **C135.** If there is no memory for the vector, the directory stays open for ever. -/
theorem C135_leak_violation {σ : Type} (pl : Plat) (k : Kern) (filter : Option Filter) (compare : Option (Comparator σ)) (c : σ)
    (alloc : Nat → Bool) (h0 : alloc 0 = false) (junk : List UInt8) (errno : Int32) :
    ∃ r, scandir pl (.ok k) filter compare c alloc junk errno = some r ∧ r.ret = -1 ∧ r.closed = false := by
  refine ⟨⟨-1, none, errno, false, false⟩, ?_, rfl, rfl⟩
  unfold scandir
  dsimp only
  exact if_pos h0

/-- A directory with records of 240 and 24 bytes. -/
def overKern : Kern where
  recs := [[1, 0, 0, 0, 0, 0, 0, 0, 7, 0, 0, 0, 0, 0, 0, 0, 240, 0, 8, 98] ++ List.replicate 220 0,
    [2, 0, 0, 0, 0, 0, 0, 0, 9, 0, 0, 0, 0, 0, 0, 0, 24, 0, 8, 97, 0, 0, 0, 0]]
  cookie i := match i with | 0 => 0 | 1 => 7 | _ => 9
  index c := if c = 0 then 0 else if c = 7 then 1 else 2
  pos := 0
  calls := 0
  choice _ := 3
  fail _ := none

theorem overGood : overKern.Good where
  size := by decide +kernel
  len := by decide +kernel
  next := by
    intro i r hr
    match i, hr with
    | 0, hr => injection hr with hr; subst hr; rfl
    | 1, hr => injection hr with hr; subst hr; rfl
    | _ + 2, hr => exact absurd hr nofun
  nul := by decide +kernel
  zero := rfl
  index := by
    intro i hi
    match i, hi with
    | 0, _ => rfl
    | 1, _ => rfl
    | 2, _ => rfl
    | _ + 3, hi => exact absurd (show _ + 3 ≤ 2 from hi) (by omega)
  small := by
    intro i
    match i with
    | 0 => decide
    | 1 => decide
    | _ + 2 => show (9 : UInt64).toNat < _; decide
  fine _ := rfl

/-- The stream on `overKern` after `getdents`, at an offset. -/
def overDir (off : Nat) (opq : UInt64) : DIR :=
  ⟨{ overKern with calls := 1, pos := 2 }, overKern.recs.flatten, 512, off, opq⟩

set_option maxRecDepth 20000 in
theorem over_read0 (pl : Plat) : (DIR.new overKern).read pl = some (.ok overKern.recs[0]?, overDir 240 7) := by
  have hf : (DIR.new overKern).fill pl =
      some (.ok overKern.recs.flatten, ⟨{ overKern with calls := 1, pos := 2 }, List.replicate 512 0, 512, 0, 0⟩) := by
    rw [DIR.fill]
    cases pl <;> rfl
  unfold DIR.read
  rw [if_neg (by decide), if_pos (show (DIR.new overKern).buf.drop (DIR.new overKern).off = [] from rfl), hf]
  cases pl <;> rfl

set_option maxRecDepth 20000 in
theorem over_read1 (pl : Plat) : (overDir 240 7).read pl = some (.ok overKern.recs[1]?, overDir 264 9) := by
  cases pl <;> rfl

set_option maxRecDepth 20000 in
theorem over_read2 (pl : Plat) : ∃ d, (overDir 264 9).read pl = some (.ok none, d) := by
  have hf : ∃ d, (overDir 264 9).fill pl = some (.ok [], d) := by
    rw [DIR.fill]
    cases pl <;> exact ⟨_, rfl⟩
  obtain ⟨d, hf⟩ := hf
  refine ⟨{ d with buf := [], off := 0 }, ?_⟩
  unfold DIR.read
  rw [if_neg (by decide +kernel), if_pos (show (overDir 264 9).buf.drop (overDir 264 9).off = [] by decide +kernel), hf]
  rfl

theorem scan_step {pl : Plat} {alloc : Nat → Bool} (ha : ∀ n, alloc n = true) (junk : List UInt8) {s : Scan} {r : List UInt8} {d : DIR}
    (hr : s.d.read pl = some (.ok (some r), d)) (hl : s.vec.length + 1 ≤ s.cap) :
    scanLoop pl none alloc junk s = scanLoop pl none alloc junk
      ⟨d, s.vec ++ [(d.buf.drop (d.off - r.length) ++ junk).take DENT], s.cap, s.errno, s.allocs + 1,
        s.over || decide (d.off - r.length + DENT > d.cap)⟩ := by
  rw [scanLoop, hr]
  dsimp only [askFilter, Option.getD_none]
  rw [if_neg (by decide), if_neg (by rw [ha]; decide)]
  have : ∀ (t : Scan) (e : List UInt8), t.vec.length + 1 ≤ t.cap → Scan.push alloc t e = (true, { t with vec := t.vec ++ [e] }) := by
    intro t e ht
    unfold Scan.push
    exact if_neg (by omega)
  have hp := this ⟨d, s.vec, s.cap, s.errno, s.allocs + 1, s.over || decide (d.off - r.length + DENT > d.cap)⟩
    ((d.buf.drop (d.off - r.length) ++ junk).take DENT) hl
  refine (if_pos (congrArg Prod.fst hp)).trans ?_
  rw [hp]

set_option maxRecDepth 20000 in
/-- **C135.** The copy is always of 275 bytes, however short the record: there is a directory of two files where bytes behind the end of the
allocated buffer are read, whatever the filter's absence and the comparison. -/
theorem C135_over_violation {σ : Type} (pl : Plat) (compare : Option (Comparator σ)) (c : σ) (alloc : Nat → Bool) (ha : ∀ n, alloc n = true)
    (junk : List UInt8) (errno : Int32) :
    ∃ k : Kern, k.Good ∧ k.pos = 0 ∧ ∃ r, scandir pl (.ok k) none compare c alloc junk errno = some r ∧ r.ret = 2 ∧ r.over = true := by
  refine ⟨overKern, overGood, rfl, ?_⟩
  obtain ⟨d, h2⟩ := over_read2 pl
  have hs : ∃ s', scanLoop pl none alloc junk ⟨DIR.new overKern, [], 4, 0, 1, false⟩ = some s' ∧ s'.vec.length = 2 ∧ s'.errno = 0 ∧ s'.over = true := by
    rw [scan_step ha junk (over_read0 pl) (by show 0 + 1 ≤ 4; decide), scan_step ha junk (over_read1 pl) (by show 1 + 1 ≤ 4; decide), scanLoop, h2]
    refine ⟨_, rfl, rfl, rfl, ?_⟩
    dsimp only
    decide +kernel
  obtain ⟨s', h3, h4, h5, h6⟩ := hs
  have he : (scanEnd compare c alloc errno s').ret = 2 ∧ (scanEnd compare c alloc errno s').over = true := by
    unfold scanEnd
    rw [if_neg (by rw [ha]; simp), if_neg (fun h => h h5)]
    exact ⟨by show Int32.ofNat s'.vec.length = 2; rw [h4]; rfl, h6⟩
  refine ⟨scanEnd compare c alloc errno s', ?_, he.1, he.2⟩
  unfold scandir
  dsimp only
  rw [if_neg (by rw [ha]; decide), h3]
  rfl

/-! ## Examples -/

set_option maxRecDepth 20000 in
/-- The file `a` comes first although the directory has `b` first. -/
example : ∃ r list, scandir .linux (.ok overKern) none (some alphasort) () (fun _ => true) (List.replicate 300 0) 9 = some r ∧
    r.list = some list ∧ r.ret = 2 ∧ r.errno = 9 ∧ list.map (fun e => (e.drop 19).takeWhile (· ≠ 0)) = [[97], [98]] := by
  obtain ⟨r, list, copies, h1, h2, h3, h4, h5, h6, -, -, h7⟩ := C135_scandir_partial .linux overKern overGood rfl none none trivial
    (some alphasort) () (fun _ => true) (fun _ => rfl) (List.replicate 300 0) (by decide) 9
  have h8 := h7 _ _ rfl alphasort_orders
  obtain ⟨pairs, h9, h10, h11⟩ := h3
  match pairs, h10 with
  | [(c1, r1), (c2, r2)], h10 =>
    have hl : list.length = 2 := by rw [h4.length_eq, ← h9]; rfl
    have e1 : r1 = overKern.recs[0] := congrArg (fun l => l.head?.getD []) h10
    have e2 : r2 = overKern.recs[1] := congrArg (fun l => l.tail.head?.getD []) h10
    have n1 : dname c1 = [98] := by
      have := (h11 (c1, r1) (by simp)).2
      dsimp only at this
      have hx := congrArg (fun l => ((l.drop 19).take 2)) this
      rw [e1] at hx
      rw [List.drop_take, List.take_take, show min 2 (overKern.recs[0].length - 19) = 2 from rfl,
        show (((overKern.recs[0].take 275).drop 19).take 2) = [98, 0] from rfl] at hx
      unfold dname
      match c1.drop 19, hx with
      | a :: b :: t, hx =>
        rw [show (a :: b :: t).take 2 = [a, b] from rfl] at hx
        injection hx with x1 x2
        injection x2 with x2
        subst x1 x2
        rfl
    have n2 : dname c2 = [97] := by
      have := (h11 (c2, r2) (by simp)).2
      dsimp only at this
      have hx := congrArg (fun l => ((l.drop 19).take 2)) this
      rw [e2] at hx
      rw [List.drop_take, List.take_take, show min 2 (overKern.recs[1].length - 19) = 2 from rfl,
        show (((overKern.recs[1].take 275).drop 19).take 2) = [97, 0] from rfl] at hx
      unfold dname
      match c2.drop 19, hx with
      | a :: b :: t, hx =>
        rw [show (a :: b :: t).take 2 = [a, b] from rfl] at hx
        injection hx with x1 x2
        injection x2 with x2
        subst x1 x2
        rfl
    refine ⟨r, list, h1, h2, by rw [h5, hl]; rfl, h6, ?_⟩
    subst h9
    match list, hl with
    | [x, y], _ =>
      have hmap : [dname x, dname y].Perm [[98], [97]] := by
        have := h4.map dname
        simpa [n1, n2] using this
      have hle : dname x ≤ dname y := by
        have := List.rel_of_pairwise_cons h8 (List.mem_singleton.2 rfl)
        exact (cmpNames_le _ _ (dname_nz x) (dname_nz y)).1 this
      show [dname x, dname y] = _
      generalize dname x = p at hmap hle
      generalize dname y = q at hmap hle
      have hp := hmap.mem_iff (a := p)
      have hq := hmap.mem_iff (a := q)
      have ha := hmap.symm.mem_iff (a := [98])
      have hb := hmap.symm.mem_iff (a := [97])
      simp at hp hq ha hb
      rcases hp with hp | hp <;> rcases hq with hq | hq <;> subst hp <;> subst hq
      · simp at hb
      · exact absurd hle (by decide)
      · rfl
      · simp at ha

end Verif.Dir
