import Verif.Stdlib.SortModel
/-!
# Sorting and searching (C25, C26)
-/

namespace Verif.Stdlib
open Verif.Mem

variable {σ : Type}

/-! ## Specification -/

/-- An array at `base` of elements `width` bytes wide holds the elements `l`. -/
def Arr (m : Mem UInt8) (base width : Nat) (l : List (List UInt8)) : Prop :=
  (∀ e ∈ l, e.length = width) ∧ Bytes m base l.flatten

/-- The comparator's answers do not depend on its state and order the elements: `f a b ≤ 0` ("`a` is not after `b`")
is total and transitive. -/
structure Orders (cmp : Comparator σ) (f : List UInt8 → List UInt8 → Int32) : Prop where
  answers : ∀ s a b, (cmp s a b).1 = f a b
  total : ∀ a b, f a b ≤ 0 ∨ f b a ≤ 0
  trans : ∀ a b c, f a b ≤ 0 → f b c ≤ 0 → f a c ≤ 0

/-! ## Lemmas -/

theorem writeN_eq {m : Mem UInt8} {p : Nat} {l : List UInt8} (h : Mapped m p l.length) :
    writeN m p l = some (patch m p l) := by
  induction l generalizing m p with
  | nil => simp [writeN]
  | cons b l ih =>
    have h1 := store_patch h.head b
    simp only [writeN, h1, Option.bind_eq_bind, Option.bind_some]
    rw [ih (mapped_patch h.shift), patch_cons]

theorem readN_of {m : Mem UInt8} {p n : Nat} {l : List UInt8} (h : Bytes m p l) (e : l.length = n) :
    readN m p n = some l := by subst e; exact h.readN

theorem patch_comm {m : Mem UInt8} {p q : Nat} {l k : List UInt8} (d : Disjoint p l.length q k.length) :
    patch (patch m p l) q k = patch (patch m q k) p l := by
  funext a
  unfold patch
  unfold Disjoint at d
  by_cases h1 : p ≤ a ∧ a < p + l.length
  · have h2 : ¬ (q ≤ a ∧ a < q + k.length) := by omega
    simp only [h1, h2, if_false, and_self, if_true]
  · simp only [if_neg h1]

theorem swap_eq {m : Mem UInt8} {p q w : Nat} {a b : List UInt8} (ha : Bytes m p a) (hb : Bytes m q b)
    (la : a.length = w) (lb : b.length = w) (d : Disjoint p w q w) :
    swap m p q w = some (patch (patch m p b) q a) := by
  induction w using Nat.strongRecOn generalizing m p q a b with
  | ind w ih =>
    rw [swap]
    by_cases hw : w > 0
    · rw [if_pos hw]
      have hk : min 128 w ≤ w := by omega
      have hk0 : 0 < min 128 w := by omega
      generalize min 128 w = k at hk hk0
      obtain ⟨a1, a2, rfl, l1⟩ : ∃ a1 a2, a = a1 ++ a2 ∧ a1.length = k :=
        ⟨a.take k, a.drop k, by simp, by simp; omega⟩
      obtain ⟨b1, b2, rfl, l2⟩ : ∃ b1 b2, b = b1 ++ b2 ∧ b1.length = k :=
        ⟨b.take k, b.drop k, by simp, by simp; omega⟩
      obtain ⟨ha1, ha2⟩ := bytes_append.1 ha
      obtain ⟨hb1, hb2⟩ := bytes_append.1 hb
      rw [l1] at ha2
      rw [l2] at hb2
      simp only [List.length_append] at la lb
      unfold Disjoint at d
      simp only [readN_of ha1 l1, readN_of hb1 l2, Option.bind_eq_bind, Option.bind_some]
      rw [writeN_eq (l := b1) (by rw [l2, ← l1]; exact ha1.mapped)]
      simp only [Option.bind_some]
      rw [writeN_eq (l := a1) (mapped_patch (by rw [l1, ← l2]; exact hb1.mapped))]
      simp only [Option.bind_some]
      rw [ih (w - k) (by omega) (a := a2) (b := b2)]
      · congr 1
        rw [patch_comm (p := q) (q := p + k) (by unfold Disjoint; omega), ← l2, patch_append, l2, ← l1, patch_append]
      · exact (ha2.patch_disjoint (by unfold Disjoint; omega)).patch_disjoint (by unfold Disjoint; omega)
      · exact (hb2.patch_disjoint (by unfold Disjoint; omega)).patch_disjoint (by unfold Disjoint; omega)
      · omega
      · omega
      · unfold Disjoint; omega
    · rw [if_neg hw]
      have h1 := List.length_eq_zero_iff.1 (show a.length = 0 by omega)
      have h2 := List.length_eq_zero_iff.1 (show b.length = 0 by omega)
      subst h1; subst h2
      simp

/-- Insertion of `y` from the right into the list whose reverse is `r`. -/
def sink (cmp : Comparator σ) : σ → List (List UInt8) → List UInt8 → List (List UInt8) × σ
  | s, [], y => ([y], s)
  | s, x :: r, y =>
    if (cmp s x y).1 > 0 then
      ((sink cmp (cmp s x y).2 r y).1 ++ [x], (sink cmp (cmp s x y).2 r y).2)
    else (r.reverse ++ [x, y], (cmp s x y).2)

theorem sink_perm (cmp : Comparator σ) (s : σ) (r : List (List UInt8)) (y : List UInt8) :
    (sink cmp s r y).1.Perm (r.reverse ++ [y]) := by
  induction r generalizing s with
  | nil => simp [sink]
  | cons x r ih =>
    rw [sink]
    split
    · refine ((ih _).append_right [x]).trans ?_
      simp only [List.reverse_cons, List.append_assoc]
      exact List.Perm.append_left _ (List.Perm.swap ..)
    · simp

theorem flatten_length {l : List (List UInt8)} {w : Nat} (h : ∀ e ∈ l, e.length = w) :
    l.flatten.length = l.length * w := by
  induction l with
  | nil => simp
  | cons a l ih =>
    simp only [List.flatten_cons, List.length_append, List.length_cons, Nat.add_mul, Nat.one_mul]
    rw [ih (fun e he => h e (List.mem_cons_of_mem _ he)), h a (List.mem_cons_self ..)]
    omega

theorem arr_append {m : Mem UInt8} {base w : Nat} {l k : List (List UInt8)} :
    Arr m base w (l ++ k) ↔ Arr m base w l ∧ Arr m (base + l.length * w) w k := by
  constructor
  · rintro ⟨h1, h2⟩
    have hl : ∀ e ∈ l, e.length = w := fun e he => h1 e (by simp [he])
    have hk : ∀ e ∈ k, e.length = w := fun e he => h1 e (by simp [he])
    rw [List.flatten_append, bytes_append, flatten_length hl] at h2
    exact ⟨⟨hl, h2.1⟩, hk, h2.2⟩
  · rintro ⟨⟨h1, h2⟩, h3, h4⟩
    refine ⟨fun e he => (List.mem_append.1 he).elim (h1 e) (h3 e), ?_⟩
    rw [List.flatten_append, bytes_append, flatten_length h1]
    exact ⟨h2, h4⟩

theorem arr_one {m : Mem UInt8} {base w : Nat} {e : List UInt8} :
    Arr m base w [e] ↔ e.length = w ∧ Bytes m base e := by simp [Arr]

theorem insertInner_eq (cmp : Comparator σ) {m : Mem UInt8} {base w : Nat} (r : List (List UInt8)) (y : List UInt8)
    (s : σ) (h : Arr m base w (r.reverse ++ [y])) :
    insertInner cmp base w r.length s m = some (patch m base (sink cmp s r y).1.flatten, (sink cmp s r y).2) := by
  induction r generalizing m s with
  | nil =>
    have h := h.2
    simp only [List.length_nil, insertInner, sink, List.reverse_nil, List.nil_append] at *
    rw [patch_same h]
  | cons x r ih =>
    have h0 := h
    rw [arr_append, List.reverse_cons, arr_append, arr_one, arr_one] at h
    obtain ⟨⟨h1, lx, hx⟩, ly, hy⟩ := h
    simp only [List.length_reverse, List.length_append, List.length_singleton] at hx hy
    simp only [List.length_cons, insertInner, readN_of hx lx, readN_of hy ly, Option.bind_eq_bind, Option.bind_some]
    rw [sink]
    have hd : base + (r.length + 1) * w = base + r.length * w + w := by rw [Nat.add_mul]; omega
    have lr : r.reverse.flatten.length = r.length * w := by rw [flatten_length h1.1]; simp
    split
    · rw [swap_eq hx hy lx ly (by unfold Disjoint; omega)]
      simp only [Option.bind_some]
      have hm : patch (patch m (base + r.length * w) y) (base + (r.length + 1) * w) x
          = patch m (base + r.length * w) (y ++ x) := by
        rw [← patch_append, ly, hd]
      rw [hm, ih]
      · congr 2
        have e1 := (sink_perm cmp (cmp s x y).2 r y)
        have e2 : (sink cmp (cmp s x y).2 r y).1.flatten.length = (r.length + 1) * w := by
          rw [flatten_length (w := w)]
          · rw [e1.length_eq]; simp
          · intro e he
            have := e1.mem_iff.1 he
            simp only [List.mem_append, List.mem_singleton] at this
            rcases this with h | h
            · exact h1.1 e h
            · rw [h]; exact ly
        generalize (sink cmp (cmp s x y).2 r y).1 = t at *
        simp only [List.flatten_append, List.flatten_cons, List.flatten_nil, List.append_nil]
        rw [← patch_append m base, e2, ← hm, patch_comm (by unfold Disjoint; omega)]
        congr 1
        funext a
        unfold patch
        by_cases c : base ≤ a ∧ a < base + t.flatten.length
        · rw [if_pos c, if_pos c]
        · rw [if_neg c, if_neg c, if_neg (by omega)]
      · rw [arr_append, arr_one]
        refine ⟨⟨h1.1, h1.2.patch_disjoint (by unfold Disjoint; omega)⟩, ly, ?_⟩
        simp only [List.length_reverse]
        exact (bytes_append.1 (bytes_patch m _ (y ++ x))).1
    · have := patch_same h0.2
      simp only [List.reverse_cons, List.append_assoc, List.cons_append, List.nil_append] at this
      rw [this]

/-- Insertion sort on lists: `l` is done already. -/
def isort (cmp : Comparator σ) : σ → List (List UInt8) → List (List UInt8) → List (List UInt8) × σ
  | s, l, [] => (l, s)
  | s, l, y :: k => isort cmp (sink cmp s l.reverse y).2 (sink cmp s l.reverse y).1 k

theorem isort_perm (cmp : Comparator σ) (s : σ) (l k : List (List UInt8)) :
    (isort cmp s l k).1.Perm (l ++ k) := by
  induction k generalizing s l with
  | nil => simp [isort]
  | cons y k ih =>
    rw [isort]
    refine (ih _ _).trans ?_
    have := (sink_perm cmp s l.reverse y).append_right k
    simpa using this

theorem insertOuter_eq (cmp : Comparator σ) {m : Mem UInt8} {base w : Nat} (l k : List (List UInt8)) (s : σ)
    (h : Arr m base w (l ++ k)) :
    insertOuter cmp base w k.length l.length s m
      = some (patch m base (isort cmp s l k).1.flatten, (isort cmp s l k).2) := by
  induction k generalizing m s l with
  | nil =>
    simp only [List.append_nil] at h
    simp [insertOuter, isort, patch_same h.2]
  | cons y k ih =>
    rw [show l ++ y :: k = (l ++ [y]) ++ k by simp, arr_append] at h
    have h1 := insertInner_eq cmp l.reverse y s (by simpa using h.1)
    simp only [List.length_reverse] at h1
    have pm := sink_perm cmp s l.reverse y
    simp only [List.reverse_reverse] at pm
    have hp : ∀ e ∈ (sink cmp s l.reverse y).1, e.length = w := fun e he => h.1.1 e (pm.mem_iff.1 he)
    have hl := pm.length_eq
    simp only [List.length_append, List.length_singleton] at hl
    have hf := flatten_length hp
    rw [List.length_cons, insertOuter, h1]
    simp only [Option.bind_eq_bind, Option.bind_some]
    rw [← hl, ih]
    · congr 2
      rw [isort]
      have pi := isort_perm cmp (sink cmp s l.reverse y).2 (sink cmp s l.reverse y).1 k
      have l2 : ∀ e ∈ (isort cmp (sink cmp s l.reverse y).2 (sink cmp s l.reverse y).1 k).1, e.length = w := by
        intro e he
        rcases List.mem_append.1 (pi.mem_iff.1 he) with h' | h'
        · exact hp e h'
        · exact h.2.1 e h'
      have l3 := flatten_length l2
      have l4 := pi.length_eq
      simp only [List.length_append] at l4
      have : (sink cmp s l.reverse y).1.flatten.length
          ≤ (isort cmp (sink cmp s l.reverse y).2 (sink cmp s l.reverse y).1 k).1.flatten.length := by
        rw [hf, l3]; exact Nat.mul_le_mul_right _ (by omega)
      funext a
      unfold patch
      split
      · rfl
      · rw [if_neg (by omega)]
    · rw [arr_append]
      refine ⟨⟨hp, bytes_patch ..⟩, h.2.1, ?_⟩
      have := h.2.2
      rw [show (l ++ [y]).length = (sink cmp s l.reverse y).1.length by simp [hl]] at this
      exact this.patch_disjoint (by unfold Disjoint; omega)

theorem sink_sorted {cmp : Comparator σ} {f} (o : Orders cmp f) (s : σ) (r : List (List UInt8)) (y : List UInt8)
    (h : r.reverse.Pairwise (fun a b => f a b ≤ 0)) :
    (sink cmp s r y).1.Pairwise (fun a b => f a b ≤ 0) := by
  induction r generalizing s with
  | nil => simp [sink]
  | cons x r ih =>
    rw [List.reverse_cons, List.pairwise_append] at h
    rw [sink, o.answers]
    split
    · rename_i c
      have := ih (cmp s x y).2 h.1
      refine List.pairwise_append.2 ⟨this, by simp, ?_⟩
      intro a ha b hb
      simp only [List.mem_singleton] at hb
      subst hb
      have := (sink_perm cmp (cmp s b y).2 r y).mem_iff.1 ha
      rcases List.mem_append.1 this with h' | h'
      · exact h.2.2 a h' b (by simp)
      · simp only [List.mem_singleton] at h'
        subst h'
        rcases o.total a b with h' | h'
        · exact h'
        · exact absurd h' (by simpa using c)
    · rename_i c
      have c : f x y ≤ 0 := by simpa using c
      rw [show r.reverse ++ [x, y] = (r.reverse ++ [x]) ++ [y] by simp]
      refine List.pairwise_append.2 ⟨List.pairwise_append.2 h, by simp, ?_⟩
      intro a ha b hb
      simp only [List.mem_singleton] at hb
      subst hb
      rcases List.mem_append.1 ha with h' | h'
      · exact o.trans a x b (h.2.2 a h' x (by simp)) c
      · simp only [List.mem_singleton] at h'
        subst h'; exact c

theorem isort_sorted {cmp : Comparator σ} {f} (o : Orders cmp f) (s : σ) (l k : List (List UInt8))
    (h : l.Pairwise (fun a b => f a b ≤ 0)) :
    (isort cmp s l k).1.Pairwise (fun a b => f a b ≤ 0) := by
  induction k generalizing s l with
  | nil => simpa [isort] using h
  | cons y k ih => exact ih _ _ (sink_sorted o _ _ _ (by simpa using h))

theorem qsort_eq (cmp : Comparator σ) {m : Mem UInt8} {base w : Nat} {l : List (List UInt8)} (s : σ)
    (h : Arr m base w l) :
    qsort (some cmp) base l.length w s m
      = some (patch m base (isort cmp s [] l).1.flatten, (isort cmp s [] l).2) := by
  unfold qsort introsort
  by_cases hl : l.length > 0
  · simp only [if_pos hl]
    exact insertOuter_eq cmp [] l s h
  · have := List.length_eq_zero_iff.1 (show l.length = 0 by omega)
    subst this
    simp [isort]

/-! ## C25 -/

/-- C25, for any comparator whatever (inconsistent, stateful): `qsort` and `qsort_r` terminate, leave in the array a
permutation of its elements, and change nothing outside the array. -/
theorem C25_permutation (cmp : Comparator σ) {m : Mem UInt8} {base w : Nat} {l : List (List UInt8)} (s : σ)
    (h : Arr m base w l) :
    ∃ l' s', qsort (some cmp) base l.length w s m = some (patch m base l'.flatten, s') ∧ l'.Perm l
      ∧ Arr (patch m base l'.flatten) base w l' := by
  have p := isort_perm cmp s [] l
  refine ⟨_, _, qsort_eq cmp s h, p, fun e he => h.1 e (p.mem_iff.1 he), bytes_patch ..⟩

/-- C25: with a comparator that orders the elements, the array ends up sorted. -/
theorem C25_sorted {cmp : Comparator σ} {f} (o : Orders cmp f) {m m' : Mem UInt8} {base w : Nat}
    {l : List (List UInt8)} {s s' : σ} (h : Arr m base w l)
    (e : qsort (some cmp) base l.length w s m = some (m', s')) :
    ∃ l', Arr m' base w l' ∧ l'.Perm l ∧ l'.Pairwise (fun a b => f a b ≤ 0) := by
  have p := isort_perm cmp s [] l
  rw [qsort_eq cmp s h] at e
  simp only [Option.some.injEq, Prod.mk.injEq] at e
  obtain ⟨rfl, -⟩ := e
  exact ⟨_, ⟨fun e he => h.1 e (p.mem_iff.1 he), bytes_patch ..⟩, p, isort_sorted o _ _ _ List.Pairwise.nil⟩

/-- Compare the first bytes, as numbers, and count the calls. -/
def firstByte : Comparator Nat := fun n a b =>
  (if a.headD 0 < b.headD 0 then -1 else if b.headD 0 < a.headD 0 then 1 else 0, n + 1)

theorem firstByte_orders : Orders firstByte (fun a b => (firstByte 0 a b).1) := by
  have key : ∀ a b, (firstByte 0 a b).1 ≤ 0 ↔ a.headD 0 ≤ b.headD 0 := by
    intro a b
    unfold firstByte
    by_cases h1 : a.headD 0 < b.headD 0
    · simp only [h1, if_true]
      exact iff_of_true (by decide) (UInt8.le_of_lt h1)
    · by_cases h2 : b.headD 0 < a.headD 0
      · simp only [h1, h2, if_true, if_false]
        constructor
        · intro h; exact absurd h (by decide)
        · intro h; exact absurd h2 (UInt8.not_lt.2 h)
      · simp only [h1, h2, if_false]
        exact iff_of_true (by decide) (UInt8.not_lt.1 h2)
  refine ⟨fun s a b => rfl, fun a b => ?_, fun a b c => ?_⟩
  · rw [key, key]; exact UInt8.le_total _ _
  · rw [key, key, key]; exact UInt8.le_trans

example : ∃ m' s', qsort (some firstByte) 10 3 2 0 (ofList 10 [3, 7, 1, 8, 2, 9]) = some (m', s') ∧
    Bytes m' 10 [1, 8, 2, 9, 3, 7] :=
  ⟨_, _, qsort_eq (l := [[3, 7], [1, 8], [2, 9]]) firstByte 0 ⟨by simp, by simp [Bytes, ofList]⟩, bytes_patch ..⟩

/-! ## C26 -/

/-- The array is ordered consistently with the key: elements before the key (`cmp > 0`: the key is after them), then
those equal to it, then those after it. This is all `bsearch` requires of the array. -/
def KeyOrdered (g : List UInt8 → Int32) (l : List (List UInt8)) : Prop :=
  ∃ a b c, l = a ++ b ++ c ∧ (∀ e ∈ a, g e > 0) ∧ (∀ e ∈ b, g e = 0) ∧ (∀ e ∈ c, g e < 0)

theorem int32_cases (x : Int32) : x < 0 ∨ x = 0 ∨ x > 0 := by
  rcases Int.lt_trichotomy x.toInt 0 with h | h | h
  · left; exact Int32.lt_iff_toInt_lt.2 (by simpa using h)
  · right; left; exact Int32.toInt_inj.1 (by simpa using h)
  · right; right; exact Int32.lt_iff_toInt_lt.2 (by simpa using h)

theorem int32_irrefl {x : Int32} (h : x < 0) (h' : x > 0) : False := by
  rw [gt_iff_lt] at h'
  rw [Int32.lt_iff_toInt_lt] at h h'
  omega

/-- The part of `l` before a key-ordered split point. -/
theorem keyOrdered_pos {g : List UInt8 → Int32} {p : List (List UInt8)} {x : List UInt8} {q : List (List UInt8)}
    (h : KeyOrdered g (p ++ x :: q)) (hx : g x > 0) : (∀ e ∈ p, g e > 0) ∧ KeyOrdered g q := by
  obtain ⟨a, b, c, e, ha, hb, hc⟩ := h
  rcases List.append_eq_append_iff.1 (show p ++ x :: q = a ++ (b ++ c) by simpa using e) with ⟨t, h1, h2⟩ | ⟨t, h1, h2⟩
  · -- a = p ++ t
    cases t with
    | nil =>
      exfalso
      simp only [List.nil_append] at h2
      have hm : x ∈ b ++ c := by rw [← h2]; simp
      rcases List.mem_append.1 hm with h | h
      · have := hb x h; rw [this] at hx; revert hx; decide
      · exact int32_irrefl (hc x h) hx
    | cons y t =>
      simp only [List.cons_append, List.cons.injEq] at h2
      obtain ⟨rfl, rfl⟩ := h2
      subst h1
      exact ⟨fun e he => ha e (by simp [he]), t, b, c, by simp, fun e he => ha e (by simp [he]), hb, hc⟩
  · exfalso
    have hm : x ∈ b ++ c := by rw [h2]; simp
    rcases List.mem_append.1 hm with h | h
    · have := hb x h; rw [this] at hx; revert hx; decide
    · exact int32_irrefl (hc x h) hx

theorem keyOrdered_neg {g : List UInt8 → Int32} {p : List (List UInt8)} {x : List UInt8} {q : List (List UInt8)}
    (h : KeyOrdered g (p ++ x :: q)) (hx : g x < 0) : (∀ e ∈ q, g e < 0) ∧ KeyOrdered g p := by
  obtain ⟨a, b, c, e, ha, hb, hc⟩ := h
  have no : x ∉ a ++ b := by
    intro hm
    rcases List.mem_append.1 hm with h | h
    · exact int32_irrefl hx (ha x h)
    · have := hb x h; rw [this] at hx; revert hx; decide
  rcases List.append_eq_append_iff.1 e with ⟨t, h1, h2⟩ | ⟨t, h1, h2⟩
  · cases t with
    | nil =>
      simp only [List.nil_append] at h2
      subst h2
      simp only [List.append_nil] at h1
      exact ⟨fun e he => hc e (by simp [he]), a, b, [], by simp [h1], ha, hb, by simp⟩
    | cons y t =>
      simp only [List.cons_append, List.cons.injEq] at h2
      exact absurd (by rw [h1, h2.1]; simp) no
  · subst h1
    have : x :: q = [] ++ x :: q := rfl
    refine ⟨fun e he => hc e (by rw [h2]; simp [he]), a, b, t, rfl, ha, hb, fun e he => hc e (by rw [h2]; simp [he])⟩

theorem bsearchLoop_eq {cmp : σ → List UInt8 → Int32 × σ} {g : List UInt8 → Int32} (hg : ∀ s e, (cmp s e).1 = g e)
    {m : Mem UInt8} {w : Nat} (l : List (List UInt8)) (start : Nat) (s : σ) (h : Arr m start w l) :
    ∃ r s', bsearchLoop cmp w m start l.length s = some (r, s')
      ∧ (∀ q, r = some q → ∃ i x, l[i]? = some x ∧ q = start + i * w ∧ g x = 0)
      ∧ (KeyOrdered g l → r = none → ∀ x ∈ l, g x ≠ 0) := by
  generalize hn : l.length = n
  induction n using Nat.strongRecOn generalizing l start s with
  | ind n ih =>
    rw [bsearchLoop]
    by_cases h0 : n > 0
    · rw [if_pos h0]
      obtain ⟨p, x, q, rfl, lp⟩ : ∃ p x q, l = p ++ x :: q ∧ p.length = n / 2 := by
        refine ⟨l.take (n / 2), l[n / 2]'(by omega), l.drop (n / 2 + 1), ?_, by simp; omega⟩
        rw [List.getElem_cons_drop]
        simp
      have h2 := h
      rw [show p ++ x :: q = p ++ ([x] ++ q) by simp, arr_append, arr_append, arr_one] at h2
      obtain ⟨hp, ⟨lx, hx⟩, hq⟩ := h2
      rw [lp] at hx hq
      simp only [readN_of hx lx, Option.bind_eq_bind, Option.bind_some]
      rw [hg]
      simp only [List.length_append, List.length_cons] at hn
      by_cases c0 : g x = 0
      · rw [if_pos c0]
        refine ⟨_, _, rfl, ?_, by simp⟩
        intro a ha
        exact ⟨n / 2, x, by simp [← lp], (Option.some.inj ha).symm, c0⟩
      · rw [if_neg c0]
        by_cases c1 : g x > 0
        · rw [if_pos c1]
          obtain ⟨r, s', e, f1, f2⟩ := ih ((n - 1) / 2) (by omega) q (start + n / 2 * w + w) (cmp s x).2
            (by simpa using hq) (by omega)
          refine ⟨r, s', e, ?_, ?_⟩
          · intro a ha
            obtain ⟨i, y, y1, y2, y3⟩ := f1 a ha
            refine ⟨n / 2 + 1 + i, y, ?_, ?_, y3⟩
            · rw [List.getElem?_append_right (by omega), lp,
                show n / 2 + 1 + i - n / 2 = i + 1 by omega]
              simpa using y1
            · rw [y2]; simp only [Nat.add_mul]; omega
          · intro ko hr y hy
            have := keyOrdered_pos ko c1
            rcases List.mem_append.1 hy with h' | h'
            · intro z; have := this.1 y h'; rw [z] at this; revert this; decide
            · rcases List.mem_cons.1 h' with h' | h'
              · subst h'; exact c0
              · exact f2 this.2 hr y h'
        · rw [if_neg c1]
          have c1 : g x < 0 := by
            rcases int32_cases (g x) with h | h | h
            · exact h
            · exact absurd h c0
            · exact absurd h c1
          obtain ⟨r, s', e, f1, f2⟩ := ih (n / 2) (by omega) p start (cmp s x).2 hp lp
          refine ⟨r, s', e, ?_, ?_⟩
          · intro a ha
            obtain ⟨i, y, y1, y2, y3⟩ := f1 a ha
            refine ⟨i, y, ?_, y2, y3⟩
            have : i < p.length := (List.getElem?_eq_some_iff.1 y1).1
            rw [List.getElem?_append_left this, y1]
          · intro ko hr y hy
            have := keyOrdered_neg ko c1
            rcases List.mem_append.1 hy with h' | h'
            · exact f2 this.2 hr y h'
            · rcases List.mem_cons.1 h' with h' | h'
              · subst h'; exact c0
              · intro z; have := this.1 y h'; rw [z] at this; revert this; decide
    · rw [if_neg h0]
      have := List.length_eq_zero_iff.1 (show l.length = 0 by omega)
      subst this
      exact ⟨none, s, rfl, by simp, by simp⟩

/-- C26: `bsearch` terminates, looking only at elements of the array; what it returns is the address of an element
equal to the key; if the array is ordered consistently with the key and `bsearch` returns NULL, no element equals the
key. -/
theorem C26_bsearch {cmp : Comparator σ} {f : List UInt8 → List UInt8 → Int32}
    (hf : ∀ s a b, (cmp s a b).1 = f a b) {m : Mem UInt8} {base w : Nat} {l : List (List UInt8)} {key : List UInt8}
    (s : σ) (h : Arr m base w l) :
    ∃ r s', bsearch cmp m key base l.length w s = some (r, s')
      ∧ (∀ q, r = some q → ∃ i x, l[i]? = some x ∧ q = base + i * w ∧ f key x = 0)
      ∧ (KeyOrdered (f key) l → ((∃ x ∈ l, f key x = 0) ↔ r ≠ none)) := by
  obtain ⟨r, s', e, h1, h2⟩ := bsearchLoop_eq (fun s e => hf s key e) l base s h
  refine ⟨r, s', e, h1, fun ko => ⟨?_, ?_⟩⟩
  · rintro ⟨x, hx, e⟩ hr
    exact h2 ko hr x hx e
  · intro hr
    obtain ⟨q, rfl⟩ := Option.ne_none_iff_exists'.1 hr
    obtain ⟨i, x, h3, -, h4⟩ := h1 q rfl
    exact ⟨x, List.mem_of_getElem? h3, h4⟩

/-- C26, with C25: an array sorted by an order which compares elements with the key as with each other is searched
correctly. `f` is antisymmetric in sign, as every comparison function for C must be. -/
theorem C26_sorted_array {f : List UInt8 → List UInt8 → Int32}
    (trans : ∀ a b c, f a b ≤ 0 → f b c ≤ 0 → f a c ≤ 0) (anti : ∀ a b, f a b = 0 ↔ f a b ≤ 0 ∧ f b a ≤ 0)
    {l : List (List UInt8)} (key : List UInt8) (h : l.Pairwise (fun a b => f a b ≤ 0)) : KeyOrdered (f key) l := by
  induction l with
  | nil => exact ⟨[], [], [], rfl, by simp, by simp, by simp⟩
  | cons x l ih =>
    rw [List.pairwise_cons] at h
    obtain ⟨a, b, c, e, ha, hb, hc⟩ := ih h.2
    have pos_iff : ∀ y, f key y > 0 ↔ ¬ f key y ≤ 0 := fun y => by simp
    rcases int32_cases (f key x) with hx | hx | hx
    · -- everything is after the key
      have le : f key x ≤ 0 := Int32.le_of_lt hx
      have nle : ¬ f x key ≤ 0 := by
        intro h'
        have := (anti key x).2 ⟨le, h'⟩
        rw [this] at hx; revert hx; decide
      have all : ∀ y ∈ l, f key y < 0 := by
        intro y hy
        have h1 := trans key x y le (h.1 y hy)
        rcases int32_cases (f key y) with h2 | h2 | h2
        · exact h2
        · exact absurd (trans x y key (h.1 y hy) ((anti key y).1 h2).2) nle
        · exact absurd h1 ((pos_iff y).1 h2)
      refine ⟨[], [], x :: l, rfl, by simp, by simp, ?_⟩
      intro y hy
      rcases List.mem_cons.1 hy with rfl | hy
      · exact hx
      · exact all y hy
    · -- nothing is before the key
      have hx' := (anti key x).1 hx
      have : a = [] := by
        cases a with
        | nil => rfl
        | cons y a =>
          exfalso
          have h1 := ha y (by simp)
          have h2 := trans key x y hx'.1 (h.1 y (by rw [e]; simp))
          exact (pos_iff y).1 h1 h2
      subst this
      refine ⟨[], x :: b, c, by simp [e], by simp, ?_, hc⟩
      intro y hy
      rcases List.mem_cons.1 hy with rfl | hy
      · exact hx
      · exact hb y hy
    · refine ⟨x :: a, b, c, by simp [e], ?_, hb, hc⟩
      intro y hy
      rcases List.mem_cons.1 hy with rfl | hy
      · exact hx
      · exact ha y hy

example : ∃ s', bsearch firstByte (ofList 10 [1, 8, 2, 9, 3, 7]) [2] 10 3 2 0 = some (some 12, s') := by
  refine ⟨1, ?_⟩
  simp only [bsearch]
  rw [bsearchLoop]
  rfl

end Verif.Stdlib
