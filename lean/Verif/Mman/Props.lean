import Verif.Mman.Model
/-!
# C152: the program break; C153: names of shared memory objects; C154: `swab`
-/

namespace Verif.Mman

/-! ## C152 -/

/-- The area reserved for the break is mapped at `base`, and the break is `b`. -/
structure Reserved (st : St) (base b : Nat) : Prop where
  base_pos : 0 < base
  fits : base + 4194304 < 2 ^ 63
  cur : st.cur = b
  end_ : st.end_ = base + 4194304
  known : st.brk = b ∨ st.brk = 0
  low : base ≤ b
  high : b < base + 4194304

theorem sysBrk_at {mapped : Option Nat} {st : St} {base b : Nat} (h : Reserved st base b) (addr : Nat) :
    sysBrk mapped st addr = if addr = 0 then (some b, st) else if b ≤ addr ∧ addr < base + 4194304 then (some addr, { st with cur := addr }) else (none, st) := by
  unfold sysBrk
  have := h.base_pos
  have := h.low
  rw [if_neg (by rw [h.cur]; omega)]
  dsimp only
  rw [h.cur, h.end_]

theorem sysBrk_query {mapped : Option Nat} {st : St} {base b : Nat} (h : Reserved st base b) : sysBrk mapped st 0 = (some b, st) := by
  rw [sysBrk_at h, if_pos rfl]

theorem sysBrk_in {mapped : Option Nat} {st : St} {base b addr : Nat} (h : Reserved st base b) (ha : b ≤ addr ∧ addr < base + 4194304) : sysBrk mapped st addr = (some addr, { st with cur := addr }) := by
  have := h.base_pos
  have := h.low
  rw [sysBrk_at h, if_neg (by omega), if_pos ha]

theorem sysBrk_out {mapped : Option Nat} {st : St} {base b addr : Nat} (h : Reserved st base b) (h0 : addr ≠ 0) (ha : ¬ (b ≤ addr ∧ addr < base + 4194304)) : sysBrk mapped st addr = (none, st) := by
  rw [sysBrk_at h, if_neg h0, if_neg ha]

/-- The state `sbrk` works on. -/
theorem sbrk_at {mapped : Option Nat} {st : St} {base b : Nat} (h : Reserved st base b) (incr : Int) :
    sbrk mapped st incr = if incr ≠ 0 then
        (let r := sysBrk mapped { st with brk := b } (offset b incr)
         let st := { r.2 with brk := r.1.getD 0 }
         if st.brk < offset b incr then (none, st) else (some b, st))
      else (some b, { st with brk := b }) := by
  have e : (if st.brk = 0 then { (sysBrk mapped st 0).2 with brk := (sysBrk mapped st 0).1.getD 0 } else st) = { st with brk := b } := by
    rcases h.known with k | k
    · have := h.base_pos
      have := h.low
      rw [if_neg (by omega), ← k]
    · rw [if_pos k, sysBrk_query h]
      rfl
  unfold sbrk
  dsimp only
  rw [e]

theorem with_brk {st : St} {base b : Nat} (h : Reserved st base b) : Reserved { st with brk := b } base b := ⟨h.base_pos, h.fits, h.cur, h.end_, .inl rfl, h.low, h.high⟩

/-- **C152.** `sbrk` of a number that is not negative gives the old break and moves it so far, within the area; or fails if the area ends there, and leaves the break where it is. -/
theorem C152_sbrk (mapped : Option Nat) (st : St) (base b n : Nat) (h : Reserved st base b) (hn : n < 2 ^ 63) :
    (b + n < base + 4194304 → ∃ st', sbrk mapped st n = (some b, st') ∧ Reserved st' base (b + n))
    ∧ (base + 4194304 ≤ b + n → ∃ st', sbrk mapped st n = (none, st') ∧ Reserved st' base b) := by
  have hf := h.fits
  have hh := h.high
  have hl := h.low
  have hp := h.base_pos
  have ho : b + n < 2 ^ 64 → offset b n = b + n := by
    intro hlt
    unfold offset
    omega
  constructor
  · intro hb
    rw [sbrk_at h]
    by_cases h0 : (n : Int) ≠ 0
    · rw [if_pos h0]
      dsimp only
      rw [ho (by omega), sysBrk_in (with_brk h) (by omega)]
      refine ⟨_, if_neg ?_, ?_⟩
      · show ¬ b + n < b + n
        omega
      · exact ⟨hp, hf, rfl, h.end_, .inl rfl, by omega, hb⟩
    · rw [if_neg h0]
      have : n = 0 := by omega
      subst this
      exact ⟨_, rfl, with_brk h⟩
  · intro hb
    rw [sbrk_at h, if_pos (by omega)]
    dsimp only
    have ha : ¬ (b ≤ offset b n ∧ offset b n < base + 4194304) ∧ offset b n ≠ 0 := by
      unfold offset
      omega
    rw [sysBrk_out (with_brk h) ha.2 ha.1]
    refine ⟨_, if_pos ?_, ?_⟩
    · show 0 < offset b n
      omega
    · exact ⟨hp, hf, h.cur, h.end_, .inr rfl, hl, hh⟩

/-- **C152.** The first call maps the area; the break is at its beginning. -/
theorem C152_first (base n : Nat) (hp : 0 < base) (hf : base + 4194304 < 2 ^ 63) (hn : n < 4194304) : ∃ st', sbrk (some base) start n = (some base, st') ∧ Reserved st' base (base + n) := by
  have hr : Reserved ⟨base, base + 4194304, base⟩ base base := ⟨hp, hf, rfl, rfl, .inl rfl, Nat.le_refl _, by omega⟩
  have e : sbrk (some base) start n = sbrk (some base) ⟨base, base + 4194304, base⟩ n := by
    have hb : (⟨base, base + 4194304, base⟩ : St).brk ≠ 0 := by dsimp only; omega
    have s : (if start.brk = 0 then { (sysBrk (some base) start 0).2 with brk := (sysBrk (some base) start 0).1.getD 0 } else start) = (⟨base, base + 4194304, base⟩ : St) := rfl
    have s' : (if (⟨base, base + 4194304, base⟩ : St).brk = 0 then { (sysBrk (some base) (⟨base, base + 4194304, base⟩ : St) 0).2 with brk := (sysBrk (some base) (⟨base, base + 4194304, base⟩ : St) 0).1.getD 0 } else ⟨base, base + 4194304, base⟩) = (⟨base, base + 4194304, base⟩ : St) := if_neg hb
    unfold sbrk
    dsimp only at s s' ⊢
    rw [s, s']
  rw [e]
  exact (C152_sbrk (some base) _ base base n hr (by omega)).1 (by omega)

/-- Calls in a row, with what each returns. -/
def calls (mapped : Option Nat) : St → List Nat → List (Option Nat × Nat)
  | _, [] => []
  | st, n :: l => ((sbrk mapped st n).1, n) :: calls mapped (sbrk mapped st n).2 l

/-- **C152.** In any row of calls the pieces given out lie in the area, behind the break there was, and do not overlap. -/
theorem C152_disjoint (mapped : Option Nat) (st : St) (base b : Nat) (sizes : List Nat) (h : Reserved st base b) (hs : ∀ n ∈ sizes, n < 2 ^ 63) :
    (∀ p n, (some p, n) ∈ calls mapped st sizes → b ≤ p ∧ p + n < base + 4194304) ∧
      (calls mapped st sizes).Pairwise fun x y => ∀ p q, x.1 = some p → y.1 = some q → p + x.2 ≤ q := by
  induction sizes generalizing st b with
  | nil => exact ⟨fun p n hm => (List.not_mem_nil hm).elim, List.Pairwise.nil⟩
  | cons n l ih =>
    have hn := hs n (by simp)
    have hl : ∀ n ∈ l, n < 2 ^ 63 := fun m hm => hs m (by simp [hm])
    have step := C152_sbrk mapped st base b n h hn
    by_cases hb : b + n < base + 4194304
    · obtain ⟨st', e, r⟩ := step.1 hb
      have i := ih st' (b + n) r hl
      unfold calls
      rw [e]
      constructor
      · intro p m hm
        rcases List.mem_cons.1 hm with hm | hm
        · cases hm
          exact ⟨Nat.le_refl _, hb⟩
        · have := i.1 p m hm
          omega
      · refine .cons (fun y hy p q hp hq => ?_) i.2
        cases hp
        obtain ⟨y1, y2⟩ := y
        dsimp only at hq ⊢
        subst hq
        exact (i.1 q y2 hy).1
    · obtain ⟨st', e, r⟩ := step.2 (by omega)
      have i := ih st' b r hl
      unfold calls
      rw [e]
      constructor
      · intro p m hm
        rcases List.mem_cons.1 hm with hm | hm
        · cases hm
        · exact i.1 p m hm
      · refine .cons (fun y hy p q hp hq => by cases hp) i.2

/-- **C152.** `brk` moves the break forward to an address in the area, and else fails and leaves it. -/
theorem C152_brk_partial (mapped : Option Nat) (st : St) (base b addr : Nat) (h : Reserved st base b) :
    (b ≤ addr ∧ addr < base + 4194304 → ∃ st', brk mapped st addr = (0, st') ∧ Reserved st' base addr)
    ∧ (base + 4194304 ≤ addr → ∃ st', brk mapped st addr = (-1, st') ∧ Reserved st' base b) := by
  have hf := h.fits
  have hh := h.high
  have hl := h.low
  have hp := h.base_pos
  constructor
  · intro ha
    unfold brk
    dsimp only
    rw [sysBrk_in h ha]
    refine ⟨_, if_neg ?_, ?_⟩
    · show ¬ addr < addr
      omega
    · exact ⟨hp, hf, rfl, h.end_, .inl rfl, by omega, ha.2⟩
  · intro ha
    unfold brk
    dsimp only
    rw [sysBrk_out h (by omega) (by omega)]
    refine ⟨_, if_pos ?_, ?_⟩
    · show 0 < addr
      omega
    · exact ⟨hp, hf, h.cur, h.end_, .inr rfl, hl, hh⟩

/-- **C152**, violated by the code: the break can **not be moved back**: `sbrk` of a negative number and `brk` of an address below fail. -/
theorem C152_back_violation (mapped : Option Nat) (st : St) (base b n : Nat) (h : Reserved st base b) (hn : 0 < n ∧ n < b) :
    (sbrk mapped st (-n)).1 = none ∧ (brk mapped st (b - n)).1 = -1 := by
  have hf := h.fits
  have hh := h.high
  have ho : offset b (-n) = b - n := by
    unfold offset
    omega
  constructor
  · rw [sbrk_at h, if_pos (by omega)]
    dsimp only
    rw [ho, sysBrk_out (with_brk h) (by omega) (by omega)]
    rw [if_pos]
    show 0 < b - n
    omega
  · unfold brk
    dsimp only
    rw [sysBrk_out h (by omega) (by omega)]
    rw [if_pos]
    show 0 < b - n
    omega

/-- **C152**, violated by the code: `sbrk` that would move the break back **to the null pointer** gives the old break, as if it had, and leaves the break where it is. -/
theorem C152_null_violation (mapped : Option Nat) (st : St) (base b : Nat) (h : Reserved st base b) : ∃ st', sbrk mapped st (-b) = (some b, st') ∧ Reserved st' base b := by
  have hp := h.base_pos
  have hl := h.low
  have ho : offset b (-b) = 0 := by
    unfold offset
    omega
  rw [sbrk_at h, if_pos (by omega)]
  dsimp only
  rw [ho, sysBrk_query (with_brk h)]
  exact ⟨_, if_neg (Nat.not_lt_zero _), with_brk (with_brk h)⟩

/-- **C152**, violated by the code: when there is **no memory** for the area, `sbrk(0)` gives a null pointer and not −1. -/
theorem C152_memory_violation : sbrk none start 0 = (some 0, start) := rfl

/-! ## C153 -/

/-- The name without the slashes it begins with. -/
def bare : List UInt8 → List UInt8
  | [] => []
  | b :: s => if b = 0x2F then bare s else b :: s

theorem push_false (path s : List UInt8) : pushName false path s = path ++ s := by
  induction s generalizing path with
  | nil => simp [pushName]
  | cons b s ih =>
    unfold pushName
    rw [if_neg (by simp), ih]
    simp

theorem push_true (path s : List UInt8) : pushName true path s = path ++ bare s := by
  induction s generalizing path with
  | nil => simp [pushName, bare]
  | cons b s ih =>
    unfold pushName bare
    by_cases hb : b = 0x2F
    · rw [if_pos ⟨rfl, hb⟩, if_pos hb, ih]
    · rw [if_neg (by simp [hb]), if_neg hb, push_false]
      simp

/-- **C153.** The path is the directory and the name, without slashes at its beginning. -/
theorem C153_path (redox : Bool) (name : List UInt8) : shmPath redox name = (if redox then [0x2F, 0x73, 0x63, 0x68, 0x65, 0x6D, 0x65, 0x2F, 0x73, 0x68, 0x6D, 0x2F] else [0x2F, 0x64, 0x65, 0x76, 0x2F, 0x73, 0x68, 0x6D, 0x2F]) ++ bare name := push_true _ _

/-- **C153.** Different names are different objects, apart from slashes at the beginning; the same name is the same object. -/
theorem C153_names (redox : Bool) (a b : List UInt8) : shmPath redox a = shmPath redox b ↔ bare a = bare b := by
  rw [C153_path, C153_path]
  exact ⟨List.append_cancel_left, fun h => by rw [h]⟩

/-- The parts of a path between slashes. -/
def parts : List UInt8 → List (List UInt8)
  | [] => [[]]
  | b :: s => if b = 0x2F then [] :: parts s else match parts s with
    | w :: ws => (b :: w) :: ws
    | [] => [[b]]

/-- Where the parts lead, from a directory given by its names, the last first. -/
def walk : List (List UInt8) → List (List UInt8) → List (List UInt8)
  | dir, [] => dir
  | dir, p :: l => if p = [] ∨ p = [0x2E] then walk dir l else if p = [0x2E, 0x2E] then walk dir.tail l else walk (p :: dir) l

/-- The directory, the last name first. -/
def home (redox : Bool) : List (List UInt8) := if redox then [[0x73, 0x68, 0x6D], [0x73, 0x63, 0x68, 0x65, 0x6D, 0x65]] else [[0x73, 0x68, 0x6D], [0x64, 0x65, 0x76]]

theorem walk_home (redox : Bool) (s : List UInt8) : walk [] (parts (shmDir redox ++ s)) = walk (home redox) (parts s) := by
  cases redox
  · show walk [] (parts ([0x2F, 0x64, 0x65, 0x76, 0x2F, 0x73, 0x68, 0x6D, 0x2F] ++ s)) = _
    simp [parts, walk, home]
  · show walk [] (parts ([0x2F, 0x73, 0x63, 0x68, 0x65, 0x6D, 0x65, 0x2F, 0x73, 0x68, 0x6D, 0x2F] ++ s)) = _
    simp [parts, walk, home]

theorem parts_plain (s : List UInt8) (h : 0x2F ∉ s) : parts s = [s] := by
  induction s with
  | nil => rfl
  | cons b s ih =>
    simp only [List.mem_cons, not_or] at h
    unfold parts
    rw [if_neg (Ne.symm h.1), ih h.2]

/-- **C153**, part: a name with no other slash, and which is not `.` or `..`, is an entry of the directory of shared memory. Missing: names with other slashes are not refused (below). -/
theorem C153_inside_partial (redox : Bool) (name : List UInt8) (h : 0x2F ∉ bare name) (h0 : bare name ≠ []) (h1 : bare name ≠ [0x2E]) (h2 : bare name ≠ [0x2E, 0x2E]) : walk [] (parts (shmPath redox name)) = bare name :: home redox := by
  have : shmPath redox name = shmDir redox ++ bare name := push_true _ _
  rw [this, walk_home, parts_plain _ h]
  unfold walk walk
  rw [if_neg (by simp [h0, h1]), if_neg h2]

/-- **C153**, violated by the code: a name that begins with `/../` leads **out of the directory**: with `/../x`, to `x` beside it. -/
theorem C153_outside_violation (redox : Bool) (x : List UInt8) (h : 0x2F ∉ x) (h0 : x ≠ []) (h1 : x ≠ [0x2E]) (h2 : x ≠ [0x2E, 0x2E]) : walk [] (parts (shmPath redox ([0x2F, 0x2E, 0x2E, 0x2F] ++ x))) = x :: (home redox).tail := by
  have : shmPath redox ([0x2F, 0x2E, 0x2E, 0x2F] ++ x) = shmDir redox ++ ([0x2E, 0x2E, 0x2F] ++ x) := by
    have := push_true (shmDir redox) ([0x2F, 0x2E, 0x2E, 0x2F] ++ x)
    exact this
  rw [this, walk_home]
  have p : parts ([0x2E, 0x2E, 0x2F] ++ x) = [0x2E, 0x2E] :: [x] := by
    show parts (0x2E :: 0x2E :: 0x2F :: x) = _
    simp [parts, parts_plain x h]
  rw [p]
  unfold walk
  rw [if_neg (by decide), if_pos rfl]
  unfold walk walk
  rw [if_neg (by simp [h0, h1]), if_neg h2]

/-! ## C154 -/

theorem swabLoop_get (src : List UInt8) (n i : Nat) (dest : List UInt8) (h : i + 2 * n ≤ dest.length) (j : Nat) :
    (swabLoop src n i dest)[j]? = if i ≤ j ∧ j < i + 2 * n then some (src.getD (if (j - i) % 2 = 0 then j + 1 else j - 1) 0) else dest[j]? := by
  induction n generalizing i dest with
  | zero => rw [if_neg (by omega)]; rfl
  | succ n ih =>
    unfold swabLoop
    rw [ih _ _ (by simp only [List.length_set]; omega)]
    by_cases h1 : i + 2 ≤ j ∧ j < i + 2 + 2 * n
    · have h1' : i ≤ j ∧ j < i + 2 * (n + 1) := by omega
      have : (j - (i + 2)) % 2 = (j - i) % 2 := by omega
      rw [if_pos h1, if_pos h1', this]
    · rw [if_neg h1]
      by_cases h2 : j = i
      · subst h2
        rw [if_pos (by omega), if_pos (by omega), List.getElem?_set_self (by simp only [List.length_set]; omega)]
      · rw [List.getElem?_set_ne (Ne.symm h2)]
        by_cases h3 : j = i + 1
        · subst h3
          rw [if_pos (by omega), if_neg (by omega), List.getElem?_set_self (by omega)]
          rfl
        · rw [List.getElem?_set_ne (Ne.symm h3), if_neg (by omega)]

theorem swabLoop_length (src : List UInt8) (n i : Nat) (dest : List UInt8) : (swabLoop src n i dest).length = dest.length := by
  induction n generalizing i dest with
  | zero => rfl
  | succ n ih => unfold swabLoop; rw [ih]; simp

/-- **C154.** `swab` exchanges the bytes of each pair, of as many pairs as there are in `n` bytes, and changes nothing else. -/
theorem C154_swab (src dest : List UInt8) (n : Nat) (hs : n ≤ src.length) (hd : n ≤ dest.length) :
    (∀ i, 2 * i + 1 < n → (swab src dest n)[2 * i]? = src[2 * i + 1]? ∧ (swab src dest n)[2 * i + 1]? = src[2 * i]?)
    ∧ (∀ j, n / 2 * 2 ≤ j → (swab src dest n)[j]? = dest[j]?) ∧ (swab src dest n).length = dest.length := by
  have get : ∀ j, (swab src dest n)[j]? = if j < n / 2 * 2 then some (src.getD (if j % 2 = 0 then j + 1 else j - 1) 0) else dest[j]? := by
    intro j
    unfold swab
    by_cases h0 : (n : Int) ≤ 0
    · rw [if_pos h0, if_neg (by omega)]
    · have hn : ((n : Int) / 2).toNat = n / 2 := by omega
      rw [if_neg h0, hn, swabLoop_get _ _ _ _ (by omega)]
      by_cases hj : j < n / 2 * 2
      · rw [if_pos (by omega), if_pos hj]
        rfl
      · rw [if_neg (by omega), if_neg hj]
  have some_get : ∀ k, k < src.length → some (src.getD k 0) = src[k]? := by
    intro k hk
    rw [List.getD_eq_getElem?_getD, List.getElem?_eq_getElem hk]
    rfl
  refine ⟨fun i hi => ⟨?_, ?_⟩, fun j hj => ?_, ?_⟩
  · rw [get, if_pos (by omega), if_pos (by omega), some_get _ (by omega)]
  · rw [get, if_pos (by omega), if_neg (by omega), some_get _ (by omega)]
    rfl
  · rw [get, if_neg (by omega)]
  · unfold swab
    split
    · rfl
    · exact swabLoop_length _ _ _ _

/-- **C154.** A number that is not positive changes nothing. -/
theorem C154_negative (src dest : List UInt8) (n : Int) (h : n ≤ 0) : swab src dest n = dest := if_pos h

/-! ## Examples -/

example : (calls (some 4096) start [100, 0, 50]).map (·.1) = [some 4096, some 4196, some 4196] := by decide +kernel

example : shmPath false [0x2F, 0x61] = [0x2F, 0x64, 0x65, 0x76, 0x2F, 0x73, 0x68, 0x6D, 0x2F, 0x61] := by decide +kernel

example : swab [1, 2, 3, 4, 5] [9, 9, 9, 9, 9, 9] 5 = [2, 1, 4, 3, 9, 9] := by decide +kernel

end Verif.Mman
