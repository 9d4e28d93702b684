import Verif.Dir.DirModel
/-!
# C73: directory streams
-/

namespace Verif.Dir
open Verif.Net

/-! ## Specification -/

/-- What the kernel guarantees: a record has its length at 16, the number of the place behind it at 8, and ends with a NUL; the
beginning has the number 0, a place is found again from its number, and the numbers are not negative as `long`. No call fails. -/
structure Kern.Good (k : Kern) : Prop where
  size : ∀ r ∈ k.recs, 24 ≤ r.length ∧ r.length < 65536
  len : ∀ r ∈ k.recs, leValue ((r.drop 16).take 2) = r.length
  next : ∀ i r, k.recs[i]? = some r → leValue ((r.drop 8).take 8) = (k.cookie (i + 1)).toNat
  nul : ∀ r ∈ k.recs, r.getLast? = some 0
  zero : k.cookie 0 = 0
  index : ∀ i, i ≤ k.recs.length → k.index (k.cookie i) = i
  small : ∀ i, (k.cookie i).toNat < 2 ^ 63
  fine : ∀ n, k.fail n = none

/-- The calls; `seek j` is `seekdir` to the place `j`, with the number that `telldir` gives there. -/
inductive Op where
  | read
  | tell
  | seek (j : Nat)
  | rewind

/-- What a call returns. -/
inductive Out where
  | entry (r : Except Int32 (Option (List UInt8)))
  | pos (p : Int64)
  | none

/-- Calls on a stream. -/
def DIR.run (pl : Plat) (d : DIR) : List Op → Option (List Out)
  | [] => some []
  | .read :: ops => do
    let (r, d) ← d.read pl
    let l ← d.run pl ops
    some (.entry r :: l)
  | .tell :: ops => do
    let l ← d.run pl ops
    some (.pos d.tell :: l)
  | .seek j :: ops => do
    let l ← (d.seek pl (d.k.cookie j).toInt64).run pl ops
    some (.none :: l)
  | .rewind :: ops => do
    let l ← (d.rewind pl).run pl ops
    some (.none :: l)

/-- What they should return when the next entry is number `i`. -/
def expect (k : Kern) (i : Nat) : List Op → List Out
  | [] => []
  | .read :: ops => .entry (.ok k.recs[i]?) :: expect k (if i < k.recs.length then i + 1 else i) ops
  | .tell :: ops => .pos (k.cookie i).toInt64 :: expect k i ops
  | .seek j :: ops => .none :: expect k j ops
  | .rewind :: ops => .none :: expect k 0 ops

/-! ## Lemmas -/

/-- The stream is before entry `i`. -/
structure At (pl : Plat) (k0 : Kern) (d : DIR) (i : Nat) : Prop where
  recs : d.k.recs = k0.recs
  cookie : d.k.cookie = k0.cookie
  index : d.k.index = k0.index
  fail : d.k.fail = k0.fail
  le : i ≤ k0.recs.length
  buf : ∃ c, d.buf.drop d.off = ((k0.recs.drop i).take c).flatten ∧ i + c ≤ k0.recs.length ∧ (pl = .linux → d.k.pos = i + c)
  off : d.off ≤ d.buf.length
  opq : d.opq = k0.cookie i
  cap : 0 < d.cap
  capLe : d.buf.length ≤ d.cap

theorem fit_take (rs : List (List UInt8)) (len c : Nat) : fit rs len c = rs.take (fit rs len c).length := by
  induction rs generalizing len c with
  | nil => simp [fit]
  | cons r rs ih =>
    cases c with
    | zero => simp [fit]
    | succ c =>
      unfold fit
      split
      · rw [List.length_cons, List.take_succ_cons, ← ih]
      · simp

theorem fit_length (rs : List (List UInt8)) (len c : Nat) : (fit rs len c).length ≤ rs.length ∧ (fit rs len c).flatten.length ≤ len := by
  induction rs generalizing len c with
  | nil => simp [fit]
  | cons r rs ih =>
    cases c with
    | zero => simp [fit]
    | succ c =>
      unfold fit
      split
      · have := ih (len - r.length) c
        simp only [List.length_cons, List.flatten_cons, List.length_append]
        omega
      · simp

/-- `getdents` at the place `i`. -/
theorem getdents_at {pl : Plat} {k0 : Kern} (hg : k0.Good) {k : Kern} (h1 : k.recs = k0.recs)
    (h3 : k.index = k0.index) (h4 : k.fail = k0.fail) {i : Nat} (hi : i ≤ k0.recs.length) (hp : pl = .linux → k.pos = i) (len : Nat) :
    (k.getdents pl len (k0.cookie i)) =
      match k0.recs.drop i with
      | [] => (.ok [], { k with calls := k.calls + 1 })
      | r :: rs =>
        if len < r.length then (.error EINVAL, { k with calls := k.calls + 1 })
        else (.ok (fit (r :: rs) len (k.choice k.calls + 1)).flatten,
          { k with calls := k.calls + 1, pos := i + (fit (r :: rs) len (k.choice k.calls + 1)).length }) := by
  have hpos : k.place pl (k0.cookie i) = i := by
    cases pl with
    | linux => exact hp rfl
    | redox => rw [Kern.place, h3, hg.index i hi]
  unfold Kern.getdents
  simp only [hpos, h4, hg.fine, h1]
  cases k0.recs.drop i <;> simp [h1]

/-- Nothing is left in the buffer, and the kernel is at the place `i`. -/
structure Ready (pl : Plat) (k0 : Kern) (d : DIR) (i : Nat) : Prop where
  recs : d.k.recs = k0.recs
  cookie : d.k.cookie = k0.cookie
  index : d.k.index = k0.index
  fail : d.k.fail = k0.fail
  le : i ≤ k0.recs.length
  pos : pl = .linux → d.k.pos = i
  opq : d.opq = k0.cookie i
  cap : 0 < d.cap
  capLe : d.buf.length ≤ d.cap

theorem fill_ready {pl : Plat} {k0 : Kern} (hg : k0.Good) : ∀ (n : Nat) {d : DIR} {i : Nat}, Ready pl k0 d i →
    (∀ r, k0.recs[i]? = some r → r.length ≤ d.cap + n) →
    ∃ l d', d.fill pl = some (.ok l, d') ∧ At pl k0 { d' with buf := l, off := 0 } i ∧ (l = [] ↔ k0.recs[i]? = none) := by
  intro n
  induction n with
  | zero => ?_
  | succ n ih => ?_
  all_goals
    intro d i h hr
    have hblen : (d.buf ++ List.replicate (d.cap - d.buf.length) (0 : UInt8)).length = d.cap := by
      have := h.capLe
      simp
      omega
    have hd := getdents_at hg h.recs h.index h.fail h.le h.pos d.cap
    rw [DIR.fill]
    simp only [hblen, h.opq]
    rw [hd]
    cases hdr : k0.recs.drop i with
    | nil => ?_
    | cons r rs => ?_
    · simp only
      have hn : k0.recs.length ≤ i := by
        have := congrArg List.length hdr
        rw [List.length_drop] at this
        simp at this
        omega
      refine ⟨[], _, rfl, ?_, by simp [hn]⟩
      exact ⟨h.recs, h.cookie, h.index, h.fail, h.le, ⟨0, by simp, by have := h.le; omega, fun e => h.pos e⟩, Nat.zero_le _, rfl, h.cap,
        Nat.zero_le _⟩
    · simp only
      have hlt : i < k0.recs.length := by
        have := congrArg List.length hdr
        rw [List.length_drop] at this
        simp at this
        omega
      have hget : k0.recs[i]? = some r := by
        rw [List.drop_eq_getElem_cons hlt] at hdr
        injection hdr with h1 h2
        rw [List.getElem?_eq_getElem hlt, h1]
      have hrl := hr r hget
      by_cases hfit : d.cap < r.length
      · rw [if_pos hfit]
        simp only [if_true]
        first
        | exact absurd hrl (by omega)
        | refine ih ⟨h.recs, h.cookie, h.index, h.fail, h.le, h.pos, rfl, ?_, ?_⟩ ?_
          · have := h.cap
            simp only
            omega
          · simp only
            rw [hblen]
            omega
          · intro x hx
            have := hr x hx
            have := h.cap
            simp only
            omega
      · rw [if_neg hfit]
        simp only
        have ht := fit_take (r :: rs) d.cap (d.k.choice d.k.calls + 1)
        have hl := fit_length (r :: rs) d.cap (d.k.choice d.k.calls + 1)
        refine ⟨_, _, rfl, ?_, ?_⟩
        · refine ⟨h.recs, h.cookie, h.index, h.fail, h.le, ⟨(fit (r :: rs) d.cap (d.k.choice d.k.calls + 1)).length, ?_, ?_, ?_⟩,
            Nat.zero_le _, rfl, h.cap, hl.2⟩
          · simp only
            rw [hdr, ← ht]
            rfl
          · have := congrArg List.length hdr
            rw [List.length_drop] at this
            omega
          · intro _
            rfl
        · rw [hget]
          simp only [reduceCtorEq, iff_false]
          intro h0
          have h0 := congrArg List.length h0
          unfold fit at h0
          rw [if_pos (by omega)] at h0
          have := (hg.size r (List.mem_of_getElem? hget)).1
          rw [List.flatten_cons, List.length_append, List.length_nil] at h0
          omega

theorem at_ready {pl : Plat} {k0 : Kern} (hg : k0.Good) {d : DIR} {i : Nat} (h : At pl k0 d i) (he : d.buf.drop d.off = []) :
    Ready pl k0 d i := by
  obtain ⟨c, hc1, hc2, hc3⟩ := h.buf
  have hc : c = 0 := by
    rw [he] at hc1
    cases c with
    | zero => rfl
    | succ c =>
      have hlt : i < k0.recs.length := by omega
      rw [List.drop_eq_getElem_cons hlt, List.take_succ_cons, List.flatten_cons] at hc1
      have h0 := congrArg List.length hc1
      have := (hg.size _ (List.getElem_mem hlt)).1
      rw [List.length_append, List.length_nil] at h0
      omega
  subst hc
  exact ⟨h.recs, h.cookie, h.index, h.fail, h.le, hc3, h.opq, h.cap, h.capLe⟩

theorem take_prefix {r l : List UInt8} {a b : Nat} (h : a + b ≤ r.length) : ((r ++ l).drop a).take b = (r.drop a).take b := by
  rw [List.drop_append_of_le_length (by omega), List.take_append_of_le_length (by rw [List.length_drop]; omega)]

theorem reclen_at {pl : Plat} {k0 : Kern} (hg : k0.Good) {i : Nat} {r l : List UInt8} (h : k0.recs[i]? = some r) :
    reclenOffset pl (r ++ l) = some (r.length, k0.cookie (i + 1)) := by
  have hm := List.mem_of_getElem? h
  have h1 := hg.size r hm
  have h2 := hg.len r hm
  have h3 := hg.next i r h
  have h4 := hg.nul r hm
  unfold reclenOffset
  rw [take_prefix (by omega), take_prefix (by omega), h2, h3]
  have h5 : UInt64.ofNat (k0.cookie (i + 1)).toNat = k0.cookie (i + 1) := by simp
  rw [h5]
  cases pl with
  | linux => rfl
  | redox =>
    simp only
    rw [if_neg (by rw [List.length_append]; omega), if_neg]
    intro h
    rcases h with h | h
    · omega
    · apply h
      rw [List.getElem?_append_left (by omega), ← h4, List.getLast?_eq_getElem?]

theorem take_at {pl : Plat} {k0 : Kern} (hg : k0.Good) {d : DIR} {i : Nat} (h : At pl k0 d i) (he : d.buf.drop d.off ≠ []) :
    ∃ r d', k0.recs[i]? = some r ∧ d.take pl = (.ok (some r), d') ∧ At pl k0 d' (i + 1) := by
  obtain ⟨c, hc1, hc2, hc3⟩ := h.buf
  cases c with
  | zero => exact absurd (by rw [hc1]; simp) he
  | succ c =>
    have hlt : i < k0.recs.length := by omega
    have hget : k0.recs[i]? = some k0.recs[i] := List.getElem?_eq_getElem hlt
    rw [List.drop_eq_getElem_cons hlt, List.take_succ_cons, List.flatten_cons] at hc1
    generalize k0.recs[i] = r at hget hc1
    have hlen := congrArg List.length hc1
    rw [List.length_drop, List.length_append] at hlen
    have := h.off
    have hs := (hg.size r (List.mem_of_getElem? hget)).1
    refine ⟨r, { d with opq := k0.cookie (i + 1), off := d.off + r.length }, hget, ?_, ?_⟩
    · unfold DIR.take
      simp only [hc1]
      rw [reclen_at hg hget]
      simp only
      rw [if_neg (by rw [List.length_append]; omega), List.take_left]
    · refine ⟨h.recs, h.cookie, h.index, h.fail, by omega, ⟨c, ?_, by omega, fun e => by have := hc3 e; simp only; omega⟩, ?_, rfl, h.cap, h.capLe⟩
      · simp only
        rw [← List.drop_drop, hc1, List.drop_left]
      · simp only
        omega

theorem read_at {pl : Plat} {k0 : Kern} (hg : k0.Good) {d : DIR} {i : Nat} (h : At pl k0 d i) :
    ∃ d', d.read pl = some (.ok k0.recs[i]?, d') ∧ At pl k0 d' (if i < k0.recs.length then i + 1 else i) := by
  unfold DIR.read
  rw [if_neg (by have := h.off; omega)]
  by_cases he : d.buf.drop d.off = []
  · rw [if_pos he]
    obtain ⟨l, d', h1, h2, h3⟩ := fill_ready hg ((k0.recs[i]?.getD []).length) (at_ready hg h he) (fun r hr => by rw [hr]; simp)
    rw [h1]
    simp only
    by_cases hl : l = []
    · rw [if_pos hl, h3.1 hl, if_neg (by have := h3.1 hl; simpa using this)]
      exact ⟨_, rfl, h2⟩
    · rw [if_neg hl]
      obtain ⟨r, d'', h4, h5, h6⟩ := take_at hg h2 (by simpa using hl)
      have hlt : i < k0.recs.length := by
        have := (List.getElem?_eq_some_iff.1 h4).1
        exact this
      rw [h5, h4, if_pos hlt]
      exact ⟨_, rfl, h6⟩
  · rw [if_neg he]
    obtain ⟨r, d'', h4, h5, h6⟩ := take_at hg h he
    have hlt : i < k0.recs.length := (List.getElem?_eq_some_iff.1 h4).1
    rw [h5, h4, if_pos hlt]
    exact ⟨_, rfl, h6⟩

theorem seek_at {pl : Plat} {k0 : Kern} (hg : k0.Good) {d : DIR} {i j : Nat} (h : At pl k0 d i) (hj : j ≤ k0.recs.length) :
    At pl k0 (d.seek pl (k0.cookie j).toInt64) j := by
  have hs := hg.small j
  have hneg : ¬ (k0.cookie j).toInt64 < 0 := by
    rw [Int64.lt_iff_toInt_lt]
    have : (k0.cookie j).toInt64.toInt = ((k0.cookie j).toNat : Int) := by
      rw [Int64.toInt, UInt64.toBitVec_toInt64, BitVec.toInt_eq_toNat_of_lt]
      · rfl
      · rw [UInt64.toNat_toBitVec]
        omega
    rw [this]
    simp
  unfold DIR.seek
  rw [if_neg hneg]
  have hx := hg.index j hj
  simp only [UInt64.toUInt64_toInt64]
  cases pl with
  | linux => exact ⟨h.recs, h.cookie, h.index, h.fail, hj, ⟨0, by simp, by omega, fun _ => by simp only [Kern.seek]; rw [h.index]; exact hx⟩, Nat.zero_le _, rfl, h.cap, Nat.zero_le _⟩
  | redox => exact ⟨h.recs, h.cookie, h.index, h.fail, hj, ⟨0, by simp, by omega, nofun⟩, Nat.zero_le _, rfl, h.cap, Nat.zero_le _⟩

theorem rewind_at {pl : Plat} {k0 : Kern} (hg : k0.Good) {d : DIR} {i : Nat} (h : At pl k0 d i) : At pl k0 (d.rewind pl) 0 := by
  have h0 := hg.index 0 (Nat.zero_le _)
  rw [hg.zero] at h0
  unfold DIR.rewind
  cases pl with
  | linux => exact ⟨h.recs, h.cookie, h.index, h.fail, Nat.zero_le _, ⟨0, by simp, by omega, fun _ => by simp only [Kern.seek]; rw [h.index]; exact h0⟩, Nat.zero_le _, hg.zero.symm, h.cap, Nat.zero_le _⟩
  | redox => exact ⟨h.recs, h.cookie, h.index, h.fail, Nat.zero_le _, ⟨0, by simp, by omega, nofun⟩, Nat.zero_le _, hg.zero.symm, h.cap, Nat.zero_le _⟩

theorem run_at {pl : Plat} {k0 : Kern} (hg : k0.Good) (ops : List Op) (hops : ∀ j, Op.seek j ∈ ops → j ≤ k0.recs.length) {d : DIR} {i : Nat}
    (h : At pl k0 d i) : d.run pl ops = some (expect k0 i ops) := by
  induction ops generalizing d i with
  | nil => rfl
  | cons o ops ih =>
    have hops' : ∀ j, Op.seek j ∈ ops → j ≤ k0.recs.length := fun j hj => hops j (List.mem_cons_of_mem _ hj)
    cases o with
    | read =>
      obtain ⟨d', h1, h2⟩ := read_at hg h
      simp only [DIR.run, expect, h1]
      have := ih hops' h2
      simp [this]
    | tell =>
      simp only [DIR.run, expect, ih hops' h, DIR.tell, h.opq]
      rfl
    | seek j =>
      have := seek_at hg h (hops j (List.mem_cons_self ..))
      simp only [DIR.run, expect, h.cookie, ih hops' this]
      rfl
    | rewind =>
      simp only [DIR.run, expect, ih hops' (rewind_at hg h)]
      rfl

/-! ## Theorems -/

/-- **C73.** On both platforms, and however the kernel cuts its answers, `readdir` gives every entry of the directory once and in
order, then the null pointer again and again; `telldir` gives the number of the place, `seekdir` with it comes back to the same place
whatever was read in between, and `rewinddir` goes to the beginning. No call loops, however long the records. -/
theorem C73_dirent_partial (pl : Plat) (k : Kern) (hg : k.Good) (hp : k.pos = 0) (ops : List Op)
    (hops : ∀ j, Op.seek j ∈ ops → j ≤ k.recs.length) :
    (DIR.new k).run pl ops = some (expect k 0 ops) :=
  run_at hg ops hops ⟨rfl, rfl, rfl, rfl, Nat.zero_le _, ⟨0, by simp [DIR.new], by omega, fun _ => hp⟩, Nat.zero_le _,
    by rw [hg.zero]; rfl, by simp [DIR.new], by simp [DIR.new]⟩

/-- The state after the first call has failed. -/
def broken (k : Kern) : DIR := ⟨k, List.replicate 512 0, 512, 0, 0⟩

theorem read_broken_linux (k : Kern) : (broken k).read .linux = some (.ok (some []), broken k) := rfl

set_option maxRecDepth 4000 in
theorem read_broken_redox (k : Kern) : (broken k).read .redox = some (.error EIO, broken k) := rfl

theorem run_broken {pl : Plat} {x : Except Int32 (Option (List UInt8))} {k : Kern} (h : (broken k).read pl = some (x, broken k)) (n : Nat) :
    (broken k).run pl (List.replicate n .read) = some (List.replicate n (.entry x)) := by
  induction n with
  | zero => rfl
  | succ n ih =>
    rw [List.replicate_succ, List.replicate_succ, DIR.run, h]
    simp [ih]

theorem run_error (pl : Plat) (k : Kern) (hc : k.calls = 0) (e : Int32) (he : e ≠ 22) (hf : k.fail 0 = some e)
    {x : Except Int32 (Option (List UInt8))} (h : (broken { k with calls := 1 }).read pl = some (x, broken { k with calls := 1 })) (n : Nat) :
    (DIR.new k).run pl (.read :: List.replicate n .read) = some (.entry (.error e) :: List.replicate n (.entry x)) := by
  have h1 : (DIR.new k).read pl = some (.error e, broken { k with calls := 1 }) := by
    have : (DIR.new k).fill pl = some (.error e, broken { k with calls := 1 }) := by
      rw [DIR.fill]
      simp only [DIR.new, Kern.getdents, hc, hf]
      rw [if_neg (show e ≠ EINVAL from he)]
      rfl
    unfold DIR.read
    rw [if_neg (by simp [DIR.new]), if_pos (by simp [DIR.new]), this]
  rw [DIR.run, h1]
  simp [run_broken h]

/-- **C73.** A failure of the kernel is not only reported once: the buffer stays full of zeros which count as entries. If the first
call fails, with anything but `EINVAL`, then on Linux every further `readdir` gives a record of no bytes, for ever, and on Redox `EIO`
for ever, although the directory could be read by then. -/
theorem C73_error_violation (k : Kern) (hc : k.calls = 0) (e : Int32) (he : e ≠ 22) (hf : k.fail 0 = some e) (n : Nat) :
    (DIR.new k).run .linux (.read :: List.replicate n .read) = some (.entry (.error e) :: List.replicate n (.entry (.ok (some [])))) ∧
    (DIR.new k).run .redox (.read :: List.replicate n .read) = some (.entry (.error e) :: List.replicate n (.entry (.error 5))) :=
  ⟨run_error _ k hc e he hf (read_broken_linux _) n, run_error _ k hc e he hf (read_broken_redox _) n⟩

/-! ## Examples -/

/-- A record of 600 bytes, longer than the first buffer, and one of 24. -/
def exampleKern : Kern where
  recs := [[1, 0, 0, 0, 0, 0, 0, 0, 7, 0, 0, 0, 0, 0, 0, 0, 88, 2, 8, 97] ++ List.replicate 580 0,
    [2, 0, 0, 0, 0, 0, 0, 0, 9, 0, 0, 0, 0, 0, 0, 0, 24, 0, 8, 98, 0, 0, 0, 0]]
  cookie i := match i with | 0 => 0 | 1 => 7 | _ => 9
  index c := if c = 0 then 0 else if c = 7 then 1 else 2
  pos := 0
  calls := 0
  choice _ := 3
  fail _ := none

theorem exampleGood : exampleKern.Good where
  size := by decide +kernel
  len := by decide +kernel
  next := by
    intro i r hr
    match i, hr with
    | 0, hr => injection hr with hr; subst hr; rfl
    | 1, hr => injection hr with hr; subst hr; rfl
    | _ + 2, hr => exact absurd hr nofun
  nul := by decide +kernel
  zero := rfl
  index := by
    intro i hi
    match i, hi with
    | 0, _ => rfl
    | 1, _ => rfl
    | 2, _ => rfl
    | _ + 3, hi => exact absurd (show _ + 3 ≤ 2 from hi) (by omega)
  small := by
    intro i
    match i with
    | 0 => decide
    | 1 => decide
    | _ + 2 => show (9 : UInt64).toNat < _; decide
  fine _ := rfl

/-- The entry behind the mark is read again after `seekdir`. -/
example : (DIR.new exampleKern).run .linux [.read, .tell, .read, .read, .seek 1, .read] =
    some [.entry (.ok exampleKern.recs[0]?), .pos 7, .entry (.ok exampleKern.recs[1]?), .entry (.ok none), .none,
      .entry (.ok exampleKern.recs[1]?)] :=
  C73_dirent_partial .linux exampleKern exampleGood rfl _ (by intro j hj; simp at hj; subst hj; decide)

end Verif.Dir
