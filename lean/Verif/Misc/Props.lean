import Verif.Misc.Model
/-!
# Division, clocks, `rand`, cursors, `pathconf`, `truncate`, `remove`, `renameat2`: the theorems
-/

namespace Verif.Misc

/-! ## C165: division and absolute values -/

/-- A signed number of `w` bits. -/
def Signed (w : Nat) (x : Int) : Prop := -(2 ^ (w - 1)) ≤ x ∧ x < 2 ^ (w - 1)

/-- The quotient and the remainder as ISO C has them: the quotient without its fraction, and what is left. -/
def Divides (n d q r : Int) : Prop := n = q * d + r ∧ r.natAbs < d.natAbs ∧ (0 ≤ n → 0 ≤ r) ∧ (n ≤ 0 → r ≤ 0)

theorem divides_unique (n d q r q' r' : Int) (h : Divides n d q r) (h' : Divides n d q' r') : q' = q ∧ r' = r := by
  obtain ⟨h1, h2, h3, h4⟩ := h
  obtain ⟨g1, g2, g3, g4⟩ := h'
  have hk : (q - q') * d = r' - r := by rw [Int.sub_mul]; omega
  have hq : q - q' = 0 := by
    by_cases h0 : q - q' = 0
    · exact h0
    · exfalso
      have a : ((q - q') * d).natAbs = (q - q').natAbs * d.natAbs := Int.natAbs_mul _ _
      have b : 1 * d.natAbs ≤ (q - q').natAbs * d.natAbs := Nat.mul_le_mul_right _ (by omega)
      rw [hk] at a
      rcases Int.le_total 0 n with h | h
      · have := h3 h; have := g3 h; omega
      · have := h4 h; have := g4 h; omega
  have : q' = q := by omega
  subst this
  exact ⟨rfl, by omega⟩

theorem divides_t (n d : Int) (hd : d ≠ 0) : Divides n d (n.tdiv d) (n.tmod d) := by
  refine ⟨?_, ?_, ?_, ?_⟩
  · have := Int.mul_tdiv_add_tmod n d
    rw [Int.mul_comm] at this; omega
  · rw [Int.natAbs_tmod]; exact Nat.mod_lt _ (by omega)
  · intro h; exact Int.tmod_nonneg _ h
  · intro h
    have := Int.tmod_nonneg (a := -n) d (by omega)
    rw [Int.neg_tmod] at this; omega

/-- **C165**: there is a result exactly if the quotient exists and can be represented, and it is the one of ISO C. -/
theorem C165_div (w : Nat) (n d : Int) (hn : Signed w n) (hd : Signed w d) :
    ((div w n d).isSome ↔ ∃ q r, Divides n d q r ∧ Signed w q) ∧
    (∀ q r, div w n d = some (q, r) → Divides n d q r ∧ Signed w q ∧ Signed w r ∧ ∀ q' r', Divides n d q' r' → q' = q ∧ r' = r) := by
  unfold div Signed at *
  have hp : (0 : Int) < 2 ^ (w - 1) := Int.pow_pos (by omega)
  generalize (2 : Int) ^ (w - 1) = m at *
  have key : ∀ q r, (if d = 0 then none else if n = -m ∧ d = -1 then none else some (n.tdiv d, n.tmod d)) = some (q, r) →
      Divides n d q r ∧ (-m ≤ q ∧ q < m) ∧ (-m ≤ r ∧ r < m) := by
    intro q r h
    split at h
    · exact absurd h (by simp)
    · split at h
      · exact absurd h (by simp)
      · rename_i h0 h1
        simp only [Option.some.injEq, Prod.mk.injEq] at h
        obtain ⟨rfl, rfl⟩ := h
        have hD := divides_t n d h0
        refine ⟨hD, ?_, ?_⟩
        · have e : (n.tdiv d).natAbs = n.natAbs / d.natAbs := Int.natAbs_tdiv _ _
          rcases Nat.lt_or_ge d.natAbs 2 with h2 | h2
          · rcases Int.lt_or_lt_of_ne h0 with h3 | h3
            · have : d = -1 := by omega
              subst this
              rw [Int.tdiv_neg, Int.tdiv_one]; omega
            · have : d = 1 := by omega
              subst this
              rw [Int.tdiv_one]; omega
          · have : n.natAbs / d.natAbs ≤ n.natAbs / 2 := Nat.div_le_div_left h2 (by omega)
            omega
        · obtain ⟨_, h2, _, _⟩ := hD
          omega
  refine ⟨⟨?_, ?_⟩, ?_⟩
  · intro h
    obtain ⟨⟨q, r⟩, hq⟩ := Option.isSome_iff_exists.1 h
    exact ⟨q, r, (key q r hq).1, (key q r hq).2.1⟩
  · rintro ⟨q, r, ⟨h1, h2, _, _⟩, h3⟩
    rw [if_neg (by omega), if_neg]
    · rfl
    · rintro ⟨rfl, rfl⟩
      omega
  · intro q r h
    exact ⟨(key q r h).1, (key q r h).2.1, (key q r h).2.2, fun q' r' h' => divides_unique n d q r q' r' (key q r h).1 h'⟩

example : div 32 (-7) 2 = some (-3, -1) := by decide
example : div 32 (-2147483648) (-1) = none := by decide

/-- **C165**: an absolute value that can be represented is the result. -/
theorem C165_abs (w : Nat) (i : Int) (hi : Signed w i) (h : Signed w i.natAbs) : abs w i = i.natAbs := by
  unfold abs Signed at *
  generalize (2 : Int) ^ (w - 1) = m at *
  rw [if_neg (by omega)]
  split <;> omega

example : abs 32 (-5) = 5 := by decide

/-! ## C166: one clock, many views -/

/-- The nanoseconds of a time. -/
def Ts.total (t : Ts) : Int := t.sec * 1000000000 + t.nsec

/-- A time that the kernel gives. -/
def Ts.Valid (t : Ts) : Prop := 0 ≤ t.nsec ∧ t.nsec < 1000000000

/-- **C166**: `clock` gives the whole microseconds, and −1 exactly if the clock cannot be read, for 290000 years. -/
theorem C166_clock (now : Option Ts) (h : ∀ t, now = some t → t.Valid ∧ 0 ≤ t.sec ∧ t.sec < 9223372036854) :
    (now = none ↔ clock now = -1) ∧ ∀ t, now = some t → clock now = t.total / 1000 := by
  match now with
  | none => exact ⟨⟨fun _ => rfl, fun _ => rfl⟩, fun t h => absurd h (by simp)⟩
  | some ts =>
    obtain ⟨⟨h1, h2⟩, h3, h4⟩ := h ts rfl
    have e1 : wrap64 (ts.sec * 1000000) = ts.sec * 1000000 := by
      unfold wrap64; exact Int.bmod_eq_of_le (by omega) (by omega)
    have e2 : ts.nsec.tdiv (1000000000 / 1000000) = ts.nsec / 1000 := Int.tdiv_eq_ediv_of_nonneg h1
    have e : clock (some ts) = ts.sec * 1000000 + ts.nsec / 1000 := by
      show wrap64 (wrap64 (ts.sec * 1000000) + _) = _
      rw [e1, e2]
      unfold wrap64; exact Int.bmod_eq_of_le (by omega) (by omega)
    refine ⟨⟨fun h => absurd h (by simp), fun h => ?_⟩, ?_⟩
    · exfalso; rw [e] at h; omega
    · intro t ht
      cases ht
      rw [e]; unfold Ts.total; omega

/-- **C166**: time that passes is never seen to go back. -/
theorem C166_clock_monotone (s t : Ts) (hs : s.Valid) (ht : t.Valid) (h0 : 0 ≤ s.sec) (h1 : t.sec < 9223372036854) (h : s.total ≤ t.total) :
    clock (some s) ≤ clock (some t) := by
  have hle : s.sec ≤ t.sec := by
    unfold Ts.total Ts.Valid at *; omega
  rw [(C166_clock (some s) (fun x hx => by cases hx; exact ⟨hs, h0, by omega⟩)).2 s rfl,
    (C166_clock (some t) (fun x hx => by cases hx; exact ⟨ht, by omega, h1⟩)).2 t rfl]
  exact Int.ediv_le_ediv (by omega) h

example : clock (some ⟨3, 2999⟩) = 3000002 := by decide

/-- **C166**: `gettimeofday` gives the whole microseconds of the clock, `ftime` the whole milliseconds, both of Greenwich; both fail only if
the clock cannot be read. -/
theorem C166_time (now : Option Ts) (h : ∀ t, now = some t → t.Valid) :
    (now = none → gettimeofday now = none ∧ ftime now = (-1, none)) ∧
    (∀ t, now = some t →
      (∃ us, gettimeofday now = some ((t.sec, us), (0, 0)) ∧ 0 ≤ us ∧ us < 1000000 ∧ t.sec * 1000000 + us = t.total / 1000) ∧
      (∃ ms, ftime now = (0, some ⟨t.sec, ms, 0, 0⟩) ∧ 0 ≤ ms ∧ ms < 1000 ∧ t.sec * 1000 + ms = t.total / 1000000)) := by
  refine ⟨?_, ?_⟩
  · rintro rfl; exact ⟨rfl, rfl⟩
  · rintro t rfl
    obtain ⟨h1, h2⟩ := h t rfl
    have e1 : t.nsec.tdiv 1000 = t.nsec / 1000 := Int.tdiv_eq_ediv_of_nonneg h1
    have e2 : (t.nsec / 1000).tdiv 1000 = t.nsec / 1000 / 1000 := Int.tdiv_eq_ediv_of_nonneg (by omega)
    refine ⟨⟨t.nsec / 1000, ?_, by omega, by omega, by unfold Ts.total; omega⟩, ⟨t.nsec / 1000 / 1000, ?_, by omega, by omega, by unfold Ts.total; omega⟩⟩
    · show some ((t.sec, t.nsec.tdiv 1000), (0, 0)) = _
      rw [e1]
    · show (0, some (Timeb.mk t.sec (((t.nsec.tdiv 1000).tdiv 1000) % 2 ^ 16) _ _)) = _
      rw [e1, e2, Int.emod_eq_of_lt (by omega) (by omega)]
      rfl

example : (ftime (some ⟨7, 123456789⟩)).2.map Timeb.millitm = some 123 := by decide

/-- **C166**: `timespec_get` with `TIME_UTC` or `TIME_MONOTONIC` reads the clock of that name (1 and 4 on Redox, 0 and 1 on Linux) and gives the
base, which is not 0, or 0 if the clock cannot be read. -/
theorem C166_timespec_get (redox : Bool) (clk : Int → Option Ts) :
    (∀ base c, (base, c) = (timeUtc redox, (if redox then 1 else 0 : Int)) ∨ (base, c) = (timeMonotonic redox, (if redox then 4 else 1 : Int)) →
      0 < base ∧ (∀ t, clk c = some t → timespecGet clk base = (base, some t)) ∧ (clk c = none → timespecGet clk base = (0, none))) ∧
    timeUtc redox ≠ timeMonotonic redox ∧
    (∀ base, (timespecGet clk base).1 ≠ 0 → (timespecGet clk base).1 = base ∧ (timespecGet clk base).2.isSome) := by
  have g : ∀ base c, wrap32 (base - 1) = c → (∀ t, clk c = some t → timespecGet clk base = (base, some t)) ∧ (clk c = none → timespecGet clk base = (0, none)) := by
    rintro base c rfl
    exact ⟨fun t h => by unfold timespecGet; rw [h], fun h => by unfold timespecGet; rw [h]⟩
  refine ⟨?_, by cases redox <;> decide, ?_⟩
  · rintro base c (h | h) <;> cases h <;> exact ⟨by cases redox <;> decide, g _ _ (by cases redox <;> decide)⟩
  · intro base h
    unfold timespecGet at *
    split at h
    · exact absurd rfl h
    · exact ⟨rfl, rfl⟩

example : (timespecGet (fun c => if c = 1 then some ⟨5, 6⟩ else none) (timeUtc true)).1 = 2 := by decide

/-- **C166**: the resolution is asked of the same clocks, with a pointer or without; Redox answers for these two only, and takes no short
answer. -/
theorem C166_getres (redox : Bool) (res : Int → Option Ts) (ptr : Bool) (read : Int → Except Int (Nat × Ts)) :
    (∀ t, res (if redox then 1 else 0) = some t → timespecGetres res ptr (timeUtc redox) = (timeUtc redox, if ptr then some t else none)) ∧
    (res (if redox then 1 else 0) = none → timespecGetres res ptr (timeUtc redox) = (0, none)) ∧
    (∀ c, c ≠ 1 → c ≠ 4 → clockGetres read c = .error 22) ∧
    (∀ c n t, c = 1 ∨ c = 4 → read c = .ok (n, t) → (16 ≤ n → clockGetres read c = .ok t) ∧ (n < 16 → clockGetres read c = .error 5)) ∧
    (∀ c e, c = 1 ∨ c = 4 → read c = .error e → clockGetres read c = .error e) := by
  have e : wrap32 (timeUtc redox - 1) = if redox then 1 else 0 := by cases redox <;> decide
  refine ⟨?_, ?_, ?_, ?_, ?_⟩
  · intro t h; unfold timespecGetres; rw [e, h]
  · intro h; unfold timespecGetres; rw [e, h]
  · intro c h1 h4
    unfold clockGetres
    rw [if_neg (fun h => h.elim h1 h4)]
  · intro c n t hc h
    unfold clockGetres
    rw [if_pos (show c = realtime true ∨ c = monotonic true from hc), h]
    exact ⟨fun hn => by dsimp only; rw [if_neg (by omega)], fun hn => by dsimp only; rw [if_pos hn]⟩
  · intro c e hc h
    unfold clockGetres
    rw [if_pos (show c = realtime true ∨ c = monotonic true from hc), h]

/-! ## C167: `rand` -/

/-- **C167**: the same seed gives the same numbers, whatever was done before; without a seed they are those of the seed 1. -/
theorem C167_repeat {R : Type} (g : Gen R) (n : Nat) :
    (∀ (seed : UInt32) (before before' : Option R), (rands g n (srand g before seed)).1 = (rands g n (srand g before' seed)).1) ∧
    (∀ before, (rands g n none).1 = (rands g n (srand g before 1)).1) := by
  exact ⟨fun _ _ _ => rfl, fun _ => by cases n <;> rfl⟩

/-- **C167**: the sequence goes on where it stopped: so many numbers and then so many are all of them. -/
theorem C167_sequence {R : Type} (g : Gen R) (n m : Nat) (rng : Option R) :
    (rands g (n + m) rng).1 = (rands g n rng).1 ++ (rands g m (rands g n rng).2).1 := by
  induction n generalizing rng with
  | zero => simp [rands]
  | succ n ih =>
    rw [show n + 1 + m = (n + m) + 1 by omega]
    show _ :: (rands g (n + m) _).1 = _
    rw [ih]; rfl

/-- **C167**: each number is between 0 and `RAND_MAX`, if the distribution keeps to its bounds. -/
theorem C167_range {R : Type} (g : Gen R) (hg : ∀ r, 0 ≤ (g.sample r).1 ∧ (g.sample r).1 ≤ 2147483647) (n : Nat) (rng : Option R) :
    (rands g n rng).1.length = n ∧ ∀ x ∈ (rands g n rng).1, 0 ≤ x ∧ x ≤ 2147483647 := by
  induction n generalizing rng with
  | zero => exact ⟨rfl, fun x h => absurd h (by simp [rands])⟩
  | succ n ih =>
    refine ⟨by simp [rands, (ih _).1], ?_⟩
    intro x hx
    rcases List.mem_cons.1 hx with h | h
    · subst h
      cases rng <;> exact hg _
    · exact (ih _).2 x h

/-- **C167 violation**: seeds that differ by a multiple of 256 give the same numbers, so there are no more than 256 sequences. -/
theorem C167_seed_violation {R : Type} (g : Gen R) (rng : Option R) (seed : UInt32) (n : Nat) :
    (rands g n (srand g rng (seed + 256))).1 = (rands g n (srand g rng seed)).1 := by
  have : (seed + 256).toUInt8 = seed.toUInt8 := by simp
  unfold srand; rw [this]

/-- **C167**: seeds that differ in their low byte can be told apart. -/
theorem C167_seed_partial (s t : UInt32) (h : s.toNat % 256 ≠ t.toNat % 256) :
    ∃ (R : Type) (g : Gen R), (rands g 1 (srand g none s)).1 ≠ (rands g 1 (srand g none t)).1 := by
  refine ⟨List UInt8, ⟨id, fun l => ((l.headD 0).toNat, l)⟩, ?_⟩
  intro e
  have e' : ((s.toUInt8.toNat : Nat) : Int) = t.toUInt8.toNat := by
    have := (List.cons.inj e).1
    exact this
  apply h
  have e2 := Int.ofNat.inj e'
  simpa using e2

/-- **C167**: `rand_r` gives a number that depends on the seed only, on all of it, and stores it as the next seed. -/
theorem C167_rand_r :
    (∀ {R : Type} (g : Gen R), (∀ r, 0 ≤ (g.sample r).1 ∧ (g.sample r).1 ≤ 2147483647) → ∀ s : UInt32,
      0 ≤ (randR g (some s)).1 ∧ (randR g (some s)).1 ≤ 2147483647 ∧ ∃ s', (randR g (some s)).2 = some s' ∧ (s'.toNat : Int) = (randR g (some s)).1) ∧
    (∀ s t : UInt32, s ≠ t → ∃ (R : Type) (g : Gen R), (randR g (some s)).1 ≠ (randR g (some t)).1) := by
  refine ⟨?_, ?_⟩
  · intro R g hg s
    refine ⟨(hg _).1, (hg _).2, _, rfl, ?_⟩
    have a := hg (g.fromSeed ([s.toUInt8, (s >>> 8).toUInt8, (s >>> 16).toUInt8, (s >>> 24).toUInt8] ++ [s.toUInt8, (s >>> 8).toUInt8, (s >>> 16).toUInt8, (s >>> 24).toUInt8] ++
      [s.toUInt8, (s >>> 8).toUInt8, (s >>> 16).toUInt8, (s >>> 24).toUInt8] ++ [s.toUInt8, (s >>> 8).toUInt8, (s >>> 16).toUInt8, (s >>> 24).toUInt8]))
    show ((UInt32.ofNat ((g.sample _).1 % 2 ^ 32).toNat).toNat : Int) = (g.sample _).1
    generalize (g.sample _).1 = v at a
    rw [UInt32.toNat_ofNat']
    omega
  · intro s t h
    refine ⟨List UInt8, ⟨id, fun l => ((l.getD 0 0).toNat + 256 * (l.getD 1 0).toNat + 65536 * (l.getD 2 0).toNat + 16777216 * (l.getD 3 0).toNat, l)⟩, ?_⟩
    intro e
    apply h
    have f : ∀ s : UInt32, ((s.toUInt8.toNat : Int) + 256 * ((s >>> 8).toUInt8.toNat : Int) + 65536 * ((s >>> 16).toUInt8.toNat : Int) + 16777216 * ((s >>> 24).toUInt8.toNat : Int)) = s.toNat := by
      intro s
      have := s.toNat_lt
      simp only [UInt32.toNat_toUInt8, UInt32.toNat_shiftRight, UInt32.toNat_ofNat, Nat.shiftRight_eq_div_pow]
      simp only [show 8 % 2 ^ 32 % 32 = 8 from rfl, show 16 % 2 ^ 32 % 32 = 16 from rfl, show 24 % 2 ^ 32 % 32 = 24 from rfl]
      omega
    have e' : ((s.toUInt8.toNat : Int) + 256 * ((s >>> 8).toUInt8.toNat : Int) + 65536 * ((s >>> 16).toUInt8.toNat : Int) + 16777216 * ((s >>> 24).toUInt8.toNat : Int)) =
      ((t.toUInt8.toNat : Int) + 256 * ((t >>> 8).toUInt8.toNat : Int) + 65536 * ((t >>> 16).toUInt8.toNat : Int) + 16777216 * ((t >>> 24).toUInt8.toNat : Int)) := e
    rw [f, f] at e'
    exact UInt32.toNat_inj.1 (by omega)

example : (rands (⟨fun l => l.length, fun n => (n, n + 1)⟩ : Gen Nat) 3 none).1 = [16, 17, 18] := by decide

/-! ## C168: cursors -/

/-- **C168**: a seek goes to the place counted from the start, the end or the position, if that is a place of 64 bits; otherwise nothing
moves. The bytes stay. -/
theorem C168_seek (c : Cursor) (hp : c.pos < 2 ^ 64) (hl : c.inner.length < 2 ^ 64) :
    (∀ n, c.seek (.start n) = (some n, ⟨c.inner, n⟩)) ∧
    (∀ (style : From) (base : Nat) (off : Int), (style = .end_ off ∧ base = c.inner.length) ∨ (style = .current off ∧ base = c.pos) →
      (∀ n : Nat, n < 2 ^ 64 → (base : Int) + off = n → c.seek style = (some n, ⟨c.inner, n⟩)) ∧
      ((base : Int) + off < 0 ∨ 2 ^ 64 ≤ (base : Int) + off → c.seek style = (none, c))) := by
  refine ⟨fun n => rfl, ?_⟩
  have key : ∀ (base : Nat) (off : Int), base < 2 ^ 64 →
      (∀ n : Nat, n < 2 ^ 64 → (base : Int) + off = n →
        (if off ≥ 0 then (if base + off.toNat < 2 ^ 64 then some (base + off.toNat) else none)
          else (if (-off).toNat ≤ base then some (base - (-off).toNat) else none)) = some n) ∧
      ((base : Int) + off < 0 ∨ 2 ^ 64 ≤ (base : Int) + off →
        (if off ≥ 0 then (if base + off.toNat < 2 ^ 64 then some (base + off.toNat) else none)
          else (if (-off).toNat ≤ base then some (base - (-off).toNat) else none)) = none) := by
    intro base off hb
    refine ⟨?_, ?_⟩
    · intro n hn e
      by_cases h : off ≥ 0
      · rw [if_pos h, if_pos (by omega)]; congr 1; omega
      · rw [if_neg h, if_pos (by omega)]; congr 1; omega
    · intro e
      by_cases h : off ≥ 0
      · rw [if_pos h, if_neg (by omega)]
      · rw [if_neg h, if_neg (by omega)]
  rintro style base off (⟨rfl, rfl⟩ | ⟨rfl, rfl⟩)
  · refine ⟨fun n hn e => ?_, fun e => ?_⟩
    · unfold Cursor.seek; dsimp only; rw [(key _ off hl).1 n hn e]
    · unfold Cursor.seek; dsimp only; rw [(key _ off hl).2 e]
  · refine ⟨fun n hn e => ?_, fun e => ?_⟩
    · unfold Cursor.seek; dsimp only; rw [(key _ off hp).1 n hn e]
    · unfold Cursor.seek; dsimp only; rw [(key _ off hp).2 e]

example : (Cursor.seek ⟨[1, 2, 3], 1⟩ (.end_ (-2))).1 = some 1 := by decide

/-- **C168**: a read gives the bytes from the position on, as many as there are and as the array holds, and moves by as many. -/
theorem C168_read (c : Cursor) (buf : List UInt8) :
    let r := c.read buf
    r.1 = min buf.length (c.inner.length - c.pos) ∧ r.2.2 = ⟨c.inner, c.pos + r.1⟩ ∧ r.2.1.length = buf.length ∧
    ∀ i, r.2.1[i]? = if i < r.1 then c.inner[c.pos + i]? else buf[i]? := by
  have e : c.getBuf = c.inner.drop c.pos := by
    unfold Cursor.getBuf
    by_cases h : c.pos ≤ c.inner.length
    · rw [Nat.min_eq_left h]
    · rw [Nat.min_eq_right (by omega), List.drop_eq_nil_of_le (Nat.le_refl _), List.drop_eq_nil_of_le (by omega)]
  have el : c.getBuf.length = c.inner.length - c.pos := by rw [e, List.length_drop]
  refine ⟨by show min _ c.getBuf.length = _; rw [el], rfl, ?_, ?_⟩
  · show (c.getBuf.take _ ++ buf.drop _).length = _
    rw [List.length_append, List.length_take, List.length_drop]
    omega
  · intro i
    show (c.getBuf.take (min buf.length c.getBuf.length) ++ buf.drop (min buf.length c.getBuf.length))[i]? = if i < min buf.length c.getBuf.length then _ else _
    have hl : (c.getBuf.take (min buf.length c.getBuf.length)).length = min buf.length c.getBuf.length := by rw [List.length_take]; omega
    split
    · rename_i h
      rw [List.getElem?_append_left (by omega), List.getElem?_take, if_pos h, e, List.getElem?_drop]
    · rename_i h
      rw [List.getElem?_append_right (by omega), hl, List.getElem?_drop]
      congr 1; omega

/-- **C168**: a write to a slice replaces the bytes at the position, as many as there is room for, and no others. -/
theorem C168_slice_write (c : Cursor) (buf : List UInt8) :
    let r := c.sliceWrite buf
    r.1 = min buf.length (c.inner.length - c.pos) ∧ r.2.pos = c.pos + r.1 ∧ r.2.inner.length = c.inner.length ∧
    ∀ i, r.2.inner[i]? = if c.pos ≤ i ∧ i < c.pos + r.1 then buf[i - c.pos]? else c.inner[i]? := by
  have hr : (c.inner.drop (min c.pos c.inner.length)).length = c.inner.length - c.pos := by rw [List.length_drop]; omega
  have e1 : (c.sliceWrite buf).1 = min buf.length (c.inner.length - c.pos) := by
    show min buf.length (List.length _) = _
    rw [hr]
  have e2 : (c.sliceWrite buf).2.inner = c.inner.take (min c.pos c.inner.length) ++
      (buf.take (c.sliceWrite buf).1 ++ (c.inner.drop (min c.pos c.inner.length)).drop (c.sliceWrite buf).1) := rfl
  refine ⟨e1, rfl, ?_, ?_⟩
  · rw [e2, List.length_append, List.length_append, List.length_take, List.length_take, List.length_drop, hr]
    omega
  · intro i
    rw [e2]
    generalize (c.sliceWrite buf).1 = n at e1
    have l1 : (c.inner.take (min c.pos c.inner.length)).length = min c.pos c.inner.length := by rw [List.length_take]; omega
    have l2 : (buf.take n).length = n := by rw [List.length_take]; omega
    rcases Nat.lt_or_ge i (min c.pos c.inner.length) with h | h
    · rw [if_neg (by omega), List.getElem?_append_left (by omega), List.getElem?_take, if_pos h]
    · rw [List.getElem?_append_right (by omega), l1]
      rcases Nat.lt_or_ge (i - min c.pos c.inner.length) n with h2 | h2
      · rw [List.getElem?_append_left (by omega), List.getElem?_take, if_pos h2, if_pos (by omega)]
        congr 1; omega
      · rw [List.getElem?_append_right (by omega), l2, if_neg (by omega), List.getElem?_drop, List.getElem?_drop]
        congr 1; omega

/-- **C168**: a write to a vector takes everything; a gap before the position is filled with zeros. -/
theorem C168_vec_write (c : Cursor) (buf : List UInt8) :
    let r := c.vecWrite buf
    r.1 = buf.length ∧ r.2.pos = c.pos + buf.length ∧
    ∀ i, r.2.inner[i]? = if c.pos ≤ i ∧ i < c.pos + buf.length then buf[i - c.pos]?
      else if i < c.inner.length then c.inner[i]? else if i < c.pos then some 0 else none := by
  refine ⟨rfl, rfl, ?_⟩
  intro i
  have hv : ∃ v, v = (if c.inner.length < c.pos then c.inner ++ List.replicate (c.pos - c.inner.length) 0 else c.inner) := ⟨_, rfl⟩
  obtain ⟨v, hv⟩ := hv
  have e : (c.vecWrite buf).2.inner = v.take c.pos ++ buf.take (min (v.length - c.pos) buf.length) ++
      v.drop (c.pos + (buf.take (min (v.length - c.pos) buf.length)).length) ++ buf.drop (min (v.length - c.pos) buf.length) := by
    subst hv; rfl
  have vl : v.length = max c.inner.length c.pos := by
    rw [hv]; split
    · rw [List.length_append, List.length_replicate]; omega
    · omega
  have vi : ∀ i, v[i]? = if i < c.inner.length then c.inner[i]? else if i < c.pos then some 0 else none := by
    intro i
    rw [hv]; split
    · rcases Nat.lt_or_ge i c.inner.length with h | h
      · rw [List.getElem?_append_left h, if_pos h]
      · rw [List.getElem?_append_right h, if_neg (by omega), List.getElem?_replicate]
        by_cases h2 : i < c.pos
        · rw [if_pos (by omega), if_pos h2]
        · rw [if_neg (by omega), if_neg h2]
    · by_cases h : i < c.inner.length
      · rw [if_pos h]
      · rw [if_neg h, if_neg (by omega)]; exact List.getElem?_eq_none (by omega)
  rw [← vi, e]
  have lt : (buf.take (min (v.length - c.pos) buf.length)).length = min (v.length - c.pos) buf.length := by rw [List.length_take]; omega
  have l1 : (v.take c.pos).length = c.pos := by rw [List.length_take]; omega
  rw [lt]
  have hk : ∃ k, k = min (v.length - c.pos) buf.length := ⟨_, rfl⟩
  obtain ⟨k, hk⟩ := hk
  rw [← hk] at lt ⊢
  rcases Nat.lt_or_ge i c.pos with h | h
  · rw [if_neg (by omega), List.append_assoc, List.append_assoc, List.getElem?_append_left (by omega), List.getElem?_take, if_pos h]
  · rw [List.append_assoc, List.append_assoc, List.getElem?_append_right (by omega), l1]
    rcases Nat.lt_or_ge (i - c.pos) k with h2 | h2
    · rw [List.getElem?_append_left (by omega), List.getElem?_take, if_pos h2, if_pos (by omega)]
    · rw [List.getElem?_append_right (by omega), lt]
      rcases Nat.lt_or_ge (i - c.pos - k) (v.length - (c.pos + k)) with h3 | h3
      · rw [List.getElem?_append_left (by rw [List.length_drop]; omega), List.getElem?_drop, if_neg (by omega)]
        congr 1; omega
      · rw [List.getElem?_append_right (by rw [List.length_drop]; omega), List.length_drop, List.getElem?_drop]
        by_cases h4 : i < c.pos + buf.length
        · rw [if_pos ⟨h, h4⟩]; congr 1; omega
        · rw [if_neg (by omega), List.getElem?_eq_none (by omega), List.getElem?_eq_none (by omega)]

example : ((Cursor.vecWrite ⟨[1, 2], 4⟩ [7, 8]).2.inner) = [1, 2, 0, 0, 7, 8] := by decide
example : ((Cursor.sliceWrite ⟨[1, 2, 3], 2⟩ [7, 8]).2.inner) = [1, 2, 7] := by decide

theorem sliceWrite_at (w rest buf : List UInt8) :
    Cursor.sliceWrite ⟨w ++ rest, w.length⟩ buf = (min buf.length rest.length, ⟨w ++ (buf.take rest.length ++ rest.drop buf.length), w.length + min buf.length rest.length⟩) := by
  have h1 : min w.length (w ++ rest).length = w.length := by rw [List.length_append]; omega
  unfold Cursor.sliceWrite
  dsimp only
  rw [h1, List.drop_left, List.take_left]
  rcases Nat.le_total buf.length rest.length with h | h
  · rw [Nat.min_eq_left h, List.take_of_length_le (Nat.le_refl _), List.take_of_length_le h]
  · rw [Nat.min_eq_right h, List.drop_eq_nil_of_le (Nat.le_refl _), List.drop_eq_nil_of_le h]

theorem writeAll_at (t : Nat) (w rest buf : List UInt8) :
    Cursor.writeAll (t + 2) ⟨w ++ rest, w.length⟩ buf =
      if buf.length ≤ rest.length then (true, ⟨w ++ (buf ++ rest.drop buf.length), w.length + buf.length⟩)
      else (false, ⟨w ++ buf.take rest.length, w.length + rest.length⟩) := by
  rw [Cursor.writeAll]
  by_cases hb : buf = []
  · subst hb
    rw [if_pos rfl]
    simp
  · have hpos : 0 < buf.length := List.length_pos_iff.2 hb
    rw [if_neg hb, sliceWrite_at]
    dsimp only
    by_cases h : buf.length ≤ rest.length
    · rw [if_pos h, Nat.min_eq_left h, if_neg (by omega), List.drop_eq_nil_of_le (Nat.le_refl _), Cursor.writeAll, if_pos rfl, List.take_of_length_le h]
    · rw [if_neg h, Nat.min_eq_right (by omega), List.drop_eq_nil_of_le (by omega : rest.length ≤ buf.length), List.append_nil]
      by_cases h0 : rest.length = 0
      · rw [if_pos h0]
      · rw [if_neg h0, Cursor.writeAll, if_neg (by
          intro e
          have := congrArg List.length e
          rw [List.length_drop, List.length_nil] at this; omega)]
        have hc : (⟨w ++ buf.take rest.length, w.length + rest.length⟩ : Cursor) = ⟨(w ++ buf.take rest.length) ++ [], (w ++ buf.take rest.length).length⟩ := by
          rw [List.append_nil, List.length_append, List.length_take, Nat.min_eq_left (by omega)]
        rw [hc, sliceWrite_at]
        simp

theorem writePieces_at (ps : List (List UInt8)) (w rest : List UInt8) :
    Cursor.writePieces ⟨w ++ rest, w.length⟩ ps =
      if ps.flatten.length ≤ rest.length then (true, ⟨w ++ (ps.flatten ++ rest.drop ps.flatten.length), w.length + ps.flatten.length⟩)
      else (false, ⟨w ++ ps.flatten.take rest.length, w.length + rest.length⟩) := by
  induction ps generalizing w rest with
  | nil => simp [Cursor.writePieces]
  | cons p l ih =>
    rw [Cursor.writePieces, List.flatten_cons, List.length_append]
    have hw : Cursor.writeAll (p.length + 1) ⟨w ++ rest, w.length⟩ p =
      if p.length ≤ rest.length then (true, ⟨w ++ (p ++ rest.drop p.length), w.length + p.length⟩)
      else (false, ⟨w ++ p.take rest.length, w.length + rest.length⟩) := by
      cases p with
      | nil => simp [Cursor.writeAll]
      | cons a p => exact writeAll_at p.length w rest (a :: p)
    rw [hw]
    by_cases h : p.length ≤ rest.length
    · rw [if_pos h]
      dsimp only
      rw [if_pos rfl, ← List.append_assoc, show w.length + p.length = (w ++ p).length by rw [List.length_append], ih, List.length_drop]
      by_cases h2 : l.flatten.length ≤ rest.length - p.length
      · rw [if_pos h2, if_pos (by omega), List.drop_drop, List.length_append]
        simp only [List.append_assoc, Nat.add_assoc]
      · rw [if_neg h2, if_neg (by omega), List.length_append, List.take_append, List.take_of_length_le h]
        simp only [List.append_assoc]
        rw [show w.length + p.length + (rest.length - p.length) = w.length + rest.length by omega]
    · rw [if_neg h]
      dsimp only
      rw [if_neg (by decide : ¬ false = true), if_neg (by omega : ¬ p.length + l.flatten.length ≤ rest.length), List.take_append, show rest.length - p.length = 0 by omega, List.take_zero, List.append_nil]

/-- The path that the user is to see: "/" and the reference for a file, "/scheme/" with the name of the scheme otherwise; slashes at the
beginning of the reference do not count. -/
def shown (scheme reference : List UInt8) : List UInt8 :=
  let r := reference.dropWhile (· = 0x2F)
  if scheme = [0x66, 0x69, 0x6C, 0x65] then 0x2F :: r
  else [0x2F, 0x73, 0x63, 0x68, 0x65, 0x6D, 0x65, 0x2F] ++ scheme ++ 0x2F :: r

/-- **C168**: `fpath` gives the whole path with its length if it fits the array, and otherwise `ENAMETOOLONG`; never a byte behind it. -/
theorem C168_fpath (scheme reference out : List UInt8) :
    let p := shown scheme reference
    (p.length ≤ out.length → fpath scheme reference out = (.ok p.length, p ++ out.drop p.length)) ∧
    (out.length < p.length → fpath scheme reference out = (.error 36, p.take out.length)) := by
  have key : ∀ ps : List (List UInt8), Cursor.writePieces ⟨out, 0⟩ ps =
      if ps.flatten.length ≤ out.length then (true, ⟨ps.flatten ++ out.drop ps.flatten.length, ps.flatten.length⟩)
      else (false, ⟨ps.flatten.take out.length, out.length⟩) := by
    intro ps
    have := writePieces_at ps [] out
    simpa using this
  have e : ∃ ps : List (List UInt8), ps.flatten = shown scheme reference ∧ (if scheme = fileScheme then Cursor.writePieces ⟨out, 0⟩ [[0x2F], trimSlashes reference]
    else Cursor.writePieces ⟨out, 0⟩ [slashScheme, scheme, [0x2F], trimSlashes reference]) = Cursor.writePieces ⟨out, 0⟩ ps := by
    by_cases h : scheme = fileScheme
    · refine ⟨[[0x2F], trimSlashes reference], ?_, by rw [if_pos h]⟩
      unfold shown; dsimp only; rw [if_pos (show scheme = [0x66, 0x69, 0x6C, 0x65] from h)]; simp [trimSlashes]
    · refine ⟨[slashScheme, scheme, [0x2F], trimSlashes reference], ?_, by rw [if_neg h]⟩
      unfold shown; dsimp only; rw [if_neg (show ¬ scheme = [0x66, 0x69, 0x6C, 0x65] from h)]; simp [trimSlashes, slashScheme]
  obtain ⟨ps, e1, e2⟩ := e
  refine ⟨fun h => ?_, fun h => ?_⟩
  · unfold fpath; dsimp only; rw [e2, key, e1, if_pos h]; rfl
  · unfold fpath; dsimp only; rw [e2, key, e1, if_neg (Nat.not_le.2 h : ¬ (shown scheme reference).length ≤ out.length)]; rfl

example : shown [0x70] [0x2F, 0x61] = [0x2F, 0x73, 0x63, 0x68, 0x65, 0x6D, 0x65, 0x2F, 0x70, 0x2F, 0x61] := by decide

/-! ## C169: `pathconf` -/

/-- The names with the least value POSIX allows (`_PC_LINK_MAX`, `_PC_MAX_CANON`, `_PC_MAX_INPUT`, `_PC_NAME_MAX`, `_PC_PATH_MAX`,
`_PC_PIPE_BUF`, `_PC_CHOWN_RESTRICTED`, `_PC_NO_TRUNC`, `_PC_FILESIZEBITS`, `_PC_SYMLINK_MAX`, `_PC_2_SYMLINKS`). -/
def minima : List (Int × Int) := [(0, 8), (1, 255), (2, 255), (3, 14), (4, 256), (5, 512), (6, 1), (7, 1), (13, 32), (19, 255), (20, 1)]

/-- **C169**: paths and descriptors have the same limits, none below what POSIX demands; a name that is known sets no `errno`, also if there
is no limit; any other gives −1 and `EINVAL`. -/
theorem C169_pathconf (path : List UInt8) (fd : Int) (name : Int) :
    pathconf path name = fpathconf fd name ∧
    (∀ m, (name, m) ∈ minima → m ≤ (pathconf path name).1) ∧
    (0 ≤ name ∧ name ≤ 20 → -1 ≤ (pathconf path name).1 ∧ (pathconf path name).2 = none) ∧
    (name < 0 ∨ 20 < name → pathconf path name = (-1, some 22)) := by
  have table : ∀ n : Fin 21, (∀ p ∈ minima, p.1 = (n.val : Int) → p.2 ≤ (pc n.val).1) ∧ -1 ≤ (pc n.val).1 ∧ (pc n.val).2 = none := by decide +kernel
  refine ⟨rfl, ?_, ?_, ?_⟩
  · intro m hm
    have hr : 0 ≤ name ∧ name ≤ 20 := by
      simp only [minima, List.mem_cons, Prod.mk.injEq, List.not_mem_nil, or_false] at hm
      omega
    have := (table ⟨name.toNat, by omega⟩).1 (name, m) hm (by show name = (name.toNat : Int); omega)
    dsimp only at this
    rw [show (name.toNat : Int) = name by omega] at this
    exact this
  · rintro ⟨h1, h2⟩
    have := (table ⟨name.toNat, by omega⟩).2
    dsimp only at this
    rw [show (name.toNat : Int) = name by omega] at this
    exact this
  · intro h
    show pc name = _
    unfold pc
    split <;> first | rfl | omega

/-- **C169**: the longest name has room, with its NUL, in the 256 bytes `dirent` has for it (`src/header/dirent/mod.rs`), and no byte is left over; the
longest path is the one `limits.h` says (`src/header/limits/mod.rs`). -/
theorem C169_name_max (path : List UInt8) : (pathconf path 3).1 + 1 = 256 ∧ (pathconf path 4).1 = 4096 := ⟨rfl, rfl⟩


example : pathconf [0x2F] 4 = (4096, none) := by decide

/-! ## C170: calls that open a descriptor; `remove`; `renameat2` -/

/-- **C170**: `truncate` and `statvfs` close what they open; they succeed exactly if the file can be opened and the call in the middle
succeeds; otherwise `errno` is that of the call that failed, whatever `close` says. -/
theorem C170_with_fd {A : Type} (s : Calls A) :
    let r := withFd s
    r.2.2.2.1 = r.2.2.2.2 ∧
    (∀ e, s.open_ = .error e → r = (-1, some e, none, [], [])) ∧
    (∀ fd e, s.open_ = .ok fd → s.act fd = .error e → r = (-1, some e, none, [fd], [fd])) ∧
    (∀ fd a, s.open_ = .ok fd → s.act fd = .ok a → r = (0, none, some a, [fd], [fd])) := by
  unfold withFd
  refine ⟨?_, ?_, ?_, ?_⟩
  · split
    · rfl
    · dsimp only; split <;> rfl
  · intro e h; rw [h]
  · intro fd e h h2; rw [h]; dsimp only; rw [h2]
  · intro fd a h h2; rw [h]; dsimp only; rw [h2]

/-- **C170**: `remove` succeeds exactly if `unlink` or else `rmdir` does, with its effect; otherwise nothing has changed. -/
theorem C170_remove_partial {F : Type} (unlink rmdir : F → Except Int F) (fs : F) :
    (∀ fs', unlink fs = .ok fs' → remove unlink rmdir fs = (0, none, fs')) ∧
    (∀ e fs', unlink fs = .error e → rmdir fs = .ok fs' → remove unlink rmdir fs = (0, none, fs')) ∧
    (∀ e e', unlink fs = .error e → rmdir fs = .error e' → (remove unlink rmdir fs).1 = -1 ∧ (remove unlink rmdir fs).2.2 = fs) := by
  unfold remove
  refine ⟨?_, ?_, ?_⟩
  · intro fs' h; rw [h]
  · intro e fs' h h2; rw [h]; dsimp only; rw [h2]
  · intro e e' h h2; rw [h]; dsimp only; rw [h2]; exact ⟨rfl, rfl⟩

/-- **C170 violation**: for a file that is not a directory `remove` is to fail as `unlink` does, but the reason is replaced by that of
`rmdir`, which is that it is not a directory (`ENOTDIR`, 20). -/
theorem C170_remove_violation {F : Type} (unlink rmdir : F → Except Int F) (fs : F) (e : Int) (h : unlink fs = .error e) (he : e ≠ 20)
    (hd : rmdir fs = .error 20) : (remove unlink rmdir fs).2.1 = some 20 ∧ (remove unlink rmdir fs).2.1 ≠ some e := by
  unfold remove
  rw [h]; dsimp only; rw [hd]
  exact ⟨rfl, fun h => he (Option.some.inj h).symm⟩

/-- **C170**: as long as nobody interferes, `renameat2` with `RENAME_NOREPLACE` (1) replaces nothing; flags it does not know do nothing; a
rename moves the file and touches no other name. -/
theorem C170_rename_partial (old new : List UInt8) (flags : Nat) (hf : flags < 2 ^ 32) (fs : Names) :
    (1 < flags → renameat2 old new flags id fs = (.error 95, fs)) ∧
    (∀ f, flags = 1 → fs new = some f → renameat2 old new flags id fs = (.error 17, fs)) ∧
    (flags ≤ 1 → (flags = 1 → fs new = none) → fs old = none → renameat2 old new flags id fs = (.error 2, fs)) ∧
    (∀ f, flags ≤ 1 → (flags = 1 → fs new = none) → fs old = some f → ∃ fs', renameat2 old new flags id fs = (.ok (), fs') ∧
      fs' new = some f ∧ (old ≠ new → fs' old = none) ∧ ∀ p, p ≠ old → p ≠ new → fs' p = fs p) := by
  have hm : 1 < flags → flags &&& (2 ^ 32 - 1 - 1) ≠ 0 := by
    intro h e
    have a : flags = (flags / 2) * 2 + flags % 2 := by omega
    have b : (flags &&& (2 ^ 32 - 1 - 1)) / 2 = flags / 2 := by
      have := Nat.and_div_two (a := flags) (b := 2 ^ 32 - 1 - 1)
      rw [this, show (2 ^ 32 - 1 - 1) / 2 = 2 ^ 31 - 1 from rfl, Nat.and_two_pow_sub_one_eq_mod, Nat.mod_eq_of_lt (by omega)]
    rw [e] at b; omega
  refine ⟨?_, ?_, ?_, ?_⟩
  · intro h; unfold renameat2; rw [if_pos (hm h)]
  · rintro f rfl h
    unfold renameat2
    rw [if_neg (by decide), if_pos ⟨by decide, by rw [h]; rfl⟩]
  · intro h1 h2 h3
    unfold renameat2
    rcases Nat.lt_or_ge flags 1 with h | h
    · have : flags = 0 := by omega
      subst this
      rw [if_neg (by decide), if_neg (fun h => absurd h.1 (by decide))]; dsimp only [id]; rw [if_pos h3]
    · have : flags = 1 := by omega
      subst this
      rw [if_neg (by decide), if_neg (fun h => by rw [h2 rfl] at h; exact absurd h.2 (by decide))]; dsimp only [id]; rw [if_pos h3]
  · intro f h1 h2 h3
    refine ⟨frename old new fs, ?_, ?_, ?_, ?_⟩
    · unfold renameat2
      rcases Nat.lt_or_ge flags 1 with h | h
      · have : flags = 0 := by omega
        subst this
        rw [if_neg (by decide), if_neg (fun h => absurd h.1 (by decide))]; dsimp only [id]; rw [if_neg (by rw [h3]; simp)]
      · have : flags = 1 := by omega
        subst this
        rw [if_neg (by decide), if_neg (fun h => by rw [h2 rfl] at h; exact absurd h.2 (by decide))]; dsimp only [id]; rw [if_neg (by rw [h3]; simp)]
    · unfold frename; rw [if_pos rfl, h3]
    · intro h; unfold frename; rw [if_neg h, if_pos rfl]
    · intro p h1 h2; unfold frename; rw [if_neg h2, if_neg h1]

/-- **C170 violation**: a file that another process creates under the new name after the look is replaced in spite of `RENAME_NOREPLACE`. -/
theorem C170_rename_violation (old new : List UInt8) (hne : old ≠ new) (f f' : Nat) (fs : Names) (ho : fs old = some f) (hn : fs new = none) :
    let create : Names → Names := fun g p => if p = new then some f' else g p
    ∃ fs', renameat2 old new 1 create fs = (.ok (), fs') ∧ fs' new = some f := by
  intro create
  have ho' : create fs old = some f := by show (if old = new then _ else _) = _; rw [if_neg hne, ho]
  refine ⟨frename old new (create fs), ?_, ?_⟩
  · unfold renameat2
    rw [if_neg (by decide), if_neg (fun h => by rw [hn] at h; exact absurd h.2 (by decide))]
    dsimp only
    rw [if_neg (by rw [ho']; simp)]
  · unfold frename; rw [if_pos rfl, ho']

example : (renameat2 [1] [2] 1 id (fun p => if p = [1] then some 5 else none)).2 [2] = some 5 := by decide

end Verif.Misc
