import Verif.Stdlib.Rand48Model
/-!
# The `drand48` family is the POSIX generator (C29)
-/

namespace Verif.Stdlib

/-! ## Specification -/

/-- The 48-bit number in an array, low part first. -/
def X3.value (v : X3) : Nat := v.x0.toNat + 2 ^ 16 * v.x1.toNat + 2 ^ 32 * v.x2.toNat

/-- The recurrence of POSIX. -/
def lcg (a c x : Nat) : Nat := (a * x + c) % 2 ^ 48

/-- The multiplier and addend that POSIX prescribes by default. -/
def posixA : Nat := 0x5DEECE66D
def posixC : Nat := 0xB

/-- The top 31 bits of a 48-bit number. -/
def high31 (x : Nat) : Int := (x / 2 ^ 17 : Nat)

/-- The top 32 bits of a 48-bit number, as a signed number. -/
def high32s (x : Nat) : Int := if x / 2 ^ 16 < 2 ^ 31 then (x / 2 ^ 16 : Nat) else (x / 2 ^ 16 : Nat) - 2 ^ 32

/-- The value of a finite double that is not negative, in units of 2^-1074, from its bit pattern (IEEE 754). -/
def scaled (b : UInt64) : Nat :=
  if b.toNat / 2 ^ 52 = 0 then b.toNat % 2 ^ 52
  else (2 ^ 52 + b.toNat % 2 ^ 52) * 2 ^ (b.toNat / 2 ^ 52 - 1)

/-- The bit pattern of a finite double that is not negative. -/
def FiniteDouble (b : UInt64) : Prop := b.toNat / 2 ^ 52 < 2047

/-- What IEEE 754 says on subtraction when the difference is a double. -/
def ExactSub (sub : UInt64 → UInt64 → UInt64) : Prop :=
  ∀ a b c, FiniteDouble a → FiniteDouble b → FiniteDouble c → scaled a = scaled b + scaled c →
    scaled (sub a b) = scaled c

/-- All arithmetic is on 48-bit numbers. -/
structure Rand48.Ok (r : Rand48) : Prop where
  x : r.x.toNat < 2 ^ 48
  a : r.params.a.toNat < 2 ^ 48

/-! ## Lemmas -/

theorem or_add (a b k : Nat) (h : a < 2 ^ k) : a ||| (b * 2 ^ k) = a + 2 ^ k * b := by
  rw [Nat.or_comm, ← Nat.shiftLeft_eq, ← Nat.shiftLeft_add_eq_or_of_lt h, Nat.shiftLeft_eq, Nat.mul_comm, Nat.add_comm]

theorem ofArray_toNat (v : X3) : (U48.ofArray v).toNat = v.value := by
  have h0 := v.x0.toNat_lt
  have h1 := v.x1.toNat_lt
  have h2 := v.x2.toNat_lt
  unfold U48.ofArray X3.value
  simp only [UInt64.toNat_or, UInt64.toNat_shiftLeft, UInt16.toNat_toUInt64, Nat.shiftLeft_eq]
  rw [show (16 : UInt64).toNat % 64 = 16 from rfl, show (32 : UInt64).toNat % 64 = 32 from rfl,
    Nat.mod_eq_of_lt (by omega : v.x1.toNat * 2 ^ 16 < 2 ^ 64), Nat.mod_eq_of_lt (by omega : v.x2.toNat * 2 ^ 32 < 2 ^ 64),
    or_add _ _ 16 h0, or_add _ _ 32 (by omega)]

theorem value_lt (v : X3) : v.value < 2 ^ 48 := by
  have h0 := v.x0.toNat_lt
  have h1 := v.x1.toNat_lt
  have h2 := v.x2.toNat_lt
  unfold X3.value
  omega

theorem toArray_value (v : U48) (h : v.toNat < 2 ^ 48) : v.toArray.value = v.toNat := by
  unfold U48.toArray X3.value
  simp only [UInt64.toNat_toUInt16, UInt64.toNat_shiftRight, Nat.shiftRight_eq_div_pow]
  rw [show (16 : UInt64).toNat % 64 = 16 from rfl, show (32 : UInt64).toNat % 64 = 32 from rfl]
  omega

theorem and_mask (n : Nat) : n &&& 0xffffffffffff = n % 2 ^ 48 := Nat.and_two_pow_sub_one_eq_mod n 48

/-- One step of the generator. -/
theorem step_eq (p : Params) (x : U48) :
    ∃ y : U48, p.step x = some y ∧ y.toNat = lcg p.a.toNat p.c.toNat x.toNat := by
  refine ⟨(p.a * x + p.c.toUInt64) &&& 0xffffffffffff, ?_, ?_⟩
  · unfold Params.step U48.tryFrom
    rw [if_pos]
    rw [UInt64.lt_iff_toNat_lt, UInt64.toNat_and]
    rw [show (0xffffffffffff : UInt64).toNat = 0xffffffffffff from rfl, and_mask]
    exact Nat.mod_lt _ (by decide)
  · rw [UInt64.toNat_and, show (0xffffffffffff : UInt64).toNat = 0xffffffffffff from rfl, and_mask, UInt64.toNat_add,
      UInt64.toNat_mul, UInt16.toNat_toUInt64]
    unfold lcg
    omega

theorem lcg_lt (a c x : Nat) : lcg a c x < 2 ^ 48 := Nat.mod_lt _ (by decide)

theorem getU31_eq (v : U48) (h : v.toNat < 2 ^ 48) : U48.getU31 v = some (high31 v.toNat) := by
  unfold U48.getU31 high31
  have e : (v >>> 17).toNat = v.toNat / 2 ^ 17 := by
    rw [UInt64.toNat_shiftRight, Nat.shiftRight_eq_div_pow, show (17 : UInt64).toNat % 64 = 17 from rfl]
  rw [e, if_pos (by omega)]

theorem getI32_eq (v : U48) (h : v.toNat < 2 ^ 48) : U48.getI32 v = high32s v.toNat := by
  unfold U48.getI32 high32s
  have e : (v >>> 16).toUInt32.toNat = v.toNat / 2 ^ 16 := by
    rw [UInt64.toNat_toUInt32, UInt64.toNat_shiftRight, Nat.shiftRight_eq_div_pow,
      show (16 : UInt64).toNat % 64 = 16 from rfl]
    omega
  generalize (v >>> 16).toUInt32 = u at e
  have : u.toInt32.toInt = u.toBitVec.toInt := rfl
  rw [this, BitVec.toInt_eq_toNat_cond]
  have e' : u.toBitVec.toNat = v.toNat / 2 ^ 16 := e
  rw [e']
  split <;> split <;> omega

/-! ## C29 -/

/-- C29: `lrand48` and `mrand48` step the global state by the recurrence and return its top bits. No panic. -/
theorem C29_global (r : Rand48) :
    ∃ r' : Rand48, r'.x.toNat = lcg r.params.a.toNat r.params.c.toNat r.x.toNat ∧ r'.params = r.params ∧ r'.buf = r.buf
      ∧ lrand48 r = some (high31 r'.x.toNat, r') ∧ mrand48 r = some (high32s r'.x.toNat, r') := by
  obtain ⟨y, h1, h2⟩ := step_eq r.params r.x
  refine ⟨{ r with x := y }, h2, rfl, rfl, ?_, ?_⟩
  · simp only [lrand48, Rand48.next, h1, Option.bind_eq_bind, Option.bind_some]
    rw [getU31_eq y (by rw [h2]; exact lcg_lt ..)]
    rfl
  · simp only [mrand48, Rand48.next, h1, Option.bind_eq_bind, Option.bind_some]
    rw [getI32_eq y (by rw [h2]; exact lcg_lt ..)]

/-- C29: `nrand48` and `jrand48` step the caller's array by the same recurrence. No panic. -/
theorem C29_array (r : Rand48) (xs : X3) :
    ∃ xs' : X3, xs'.value = lcg r.params.a.toNat r.params.c.toNat xs.value
      ∧ nrand48 r xs = some (high31 xs'.value, xs') ∧ jrand48 r xs = some (high32s xs'.value, xs') := by
  obtain ⟨y, h1, h2⟩ := step_eq r.params (U48.ofArray xs)
  have hy : y.toNat < 2 ^ 48 := by rw [h2]; exact lcg_lt ..
  rw [ofArray_toNat] at h2
  refine ⟨y.toArray, by rw [toArray_value y hy, h2], ?_, ?_⟩
  · simp only [nrand48, h1, Option.bind_eq_bind, Option.bind_some]
    rw [getU31_eq y hy, toArray_value y hy]
    simp only [Option.bind_some]
  · simp only [jrand48, h1, Option.bind_eq_bind, Option.bind_some]
    rw [getI32_eq y hy, toArray_value y hy]

theorem log2_spec (n : Nat) (h : 0 < n) : ∃ k, 2 ^ k ≤ n ∧ n < 2 ^ (k + 1) :=
  ⟨n.log2, Nat.log2_self_le (by omega), Nat.lt_log2_self⟩

/-- Every `x / 2^48` is a double. -/
theorem exists_double (x : Nat) (h : x < 2 ^ 48) : ∃ c, FiniteDouble c ∧ scaled c = x * 2 ^ 1026 := by
  by_cases h0 : x = 0
  · subst h0
    exact ⟨0, by simp [FiniteDouble], by simp [scaled]⟩
  · obtain ⟨k, h1, h2⟩ := log2_spec x (by omega)
    have hk : k < 48 := (Nat.pow_lt_pow_iff_right (by decide : 1 < 2)).1 (Nat.lt_of_le_of_lt h1 h)
    have hp : 2 ^ k * 2 ^ (52 - k) = 2 ^ 52 := by rw [← Nat.pow_add]; congr 1; omega
    have hf : (x - 2 ^ k) * 2 ^ (52 - k) < 2 ^ 52 := by
      rw [← hp]
      refine (Nat.mul_lt_mul_right (Nat.pow_pos (by decide))).2 ?_
      rw [Nat.pow_succ] at h2; omega
    have hsum : 2 ^ 52 + (x - 2 ^ k) * 2 ^ (52 - k) = x * 2 ^ (52 - k) := by
      rw [← hp, ← Nat.add_mul]; congr 1; omega
    generalize hfr : (x - 2 ^ k) * 2 ^ (52 - k) = fr at hf hsum
    have hc : (UInt64.ofNat ((975 + k) * 2 ^ 52 + fr)).toNat = (975 + k) * 2 ^ 52 + fr := by
      rw [UInt64.toNat_ofNat']
      exact Nat.mod_eq_of_lt (by omega)
    have hd : ((975 + k) * 2 ^ 52 + fr) / 2 ^ 52 = 975 + k := by omega
    have hm : ((975 + k) * 2 ^ 52 + fr) % 2 ^ 52 = fr := by omega
    refine ⟨UInt64.ofNat ((975 + k) * 2 ^ 52 + fr), ?_, ?_⟩
    · unfold FiniteDouble; rw [hc, hd]; omega
    · unfold scaled
      rw [hc, hd, hm, if_neg (by omega), hsum, Nat.mul_assoc, ← Nat.pow_add]
      congr 2
      omega

/-- C29: the double computed from a 48-bit number `x` is `x / 2^48`. -/
theorem C29_double {sub : UInt64 → UInt64 → UInt64} (hs : ExactSub sub) (x : U48) (h : x.toNat < 2 ^ 48) :
    2 ^ 48 * scaled (U48.getF64 sub x) = x.toNat * 2 ^ 1074 := by
  have e : ((0x3ff0000000000000 : UInt64) ||| (x <<< (4 : UInt64))).toNat = x.toNat * 2 ^ 4 + 2 ^ 52 * 1023 := by
    rw [UInt64.toNat_or, UInt64.toNat_shiftLeft, show (4 : UInt64).toNat % 64 = 4 from rfl, Nat.shiftLeft_eq,
      Nat.mod_eq_of_lt (by omega), Nat.or_comm,
      show (0x3ff0000000000000 : UInt64).toNat = 1023 * 2 ^ 52 from rfl, or_add _ _ 52 (by omega)]
  have e1 : (0x3ff0000000000000 : UInt64).toNat = 0 + 2 ^ 52 * 1023 := rfl
  have dec : ∀ (b : UInt64) (f : Nat), f < 2 ^ 52 → b.toNat = f + 2 ^ 52 * 1023 →
      FiniteDouble b ∧ scaled b = (2 ^ 52 + f) * 2 ^ 1022 := by
    intro b f hf hb
    have hd : (f + 2 ^ 52 * 1023) / 2 ^ 52 = 1023 := by omega
    have hm : (f + 2 ^ 52 * 1023) % 2 ^ 52 = f := by omega
    unfold FiniteDouble scaled
    rw [hb, hd, hm]
    exact ⟨by decide, by rw [if_neg (by decide)]⟩
  obtain ⟨f1, s1⟩ := dec _ _ (by omega) e
  obtain ⟨f2, s2⟩ := dec _ 0 (by decide) e1
  obtain ⟨c, f3, s3⟩ := exists_double x.toNat h
  have key : ∀ n, (2 ^ 52 + x.toNat * 2 ^ 4) * 2 ^ n = (2 ^ 52 + 0) * 2 ^ n + x.toNat * 2 ^ (4 + n) := by
    intro n
    rw [Nat.add_zero, Nat.add_mul, Nat.mul_assoc x.toNat, Nat.pow_add 2 4]
  have := hs _ _ c f1 f2 f3 (by rw [s1, s2, s3]; exact key 1022)
  unfold U48.getF64
  rw [this, s3, Nat.mul_comm, Nat.mul_assoc, ← Nat.pow_add]

/-- There is such a subtraction. -/
example : ∃ sub, ExactSub sub := by
  classical
  refine ⟨fun a b => if h : ∃ c, FiniteDouble c ∧ scaled a = scaled b + scaled c then h.choose else 0, ?_⟩
  intro a b c _ _ hc he
  have h : ∃ c, FiniteDouble c ∧ scaled a = scaled b + scaled c := ⟨c, hc, he⟩
  simp only [dif_pos h]
  have := h.choose_spec.2
  omega

/-- C29: `drand48` and `erand48` use the same numbers. -/
theorem C29_drand (sub : UInt64 → UInt64 → UInt64) (r : Rand48) (xs : X3) :
    (∃ r' : Rand48, r'.x.toNat = lcg r.params.a.toNat r.params.c.toNat r.x.toNat ∧ r'.params = r.params
      ∧ drand48 sub r = some (U48.getF64 sub r'.x, r'))
    ∧ ∃ (y : U48) (xs' : X3), y.toNat = lcg r.params.a.toNat r.params.c.toNat xs.value ∧ xs'.value = y.toNat
      ∧ erand48 sub r xs = some (U48.getF64 sub y, xs') := by
  constructor
  · obtain ⟨y, h1, h2⟩ := step_eq r.params r.x
    exact ⟨{ r with x := y }, h2, rfl, by simp [drand48, Rand48.next, h1]⟩
  · obtain ⟨y, h1, h2⟩ := step_eq r.params (U48.ofArray xs)
    have hy : y.toNat < 2 ^ 48 := by rw [h2]; exact lcg_lt ..
    rw [ofArray_toNat] at h2
    exact ⟨y, y.toArray, h2, toArray_value y hy, by simp [erand48, h1]⟩

/-- C29, `srand48`: the top 32 bits from the seed, the low 16 bits 0x330E, default parameters. -/
theorem C29_srand48 (seed : Int64) (r : Rand48) :
    ∃ r', srand48 seed r = some r' ∧ (r'.x.toNat : Int) = (seed.toInt % 2 ^ 32) * 2 ^ 16 + 0x330E
      ∧ r'.params.a.toNat = posixA ∧ r'.params.c.toNat = posixC ∧ r'.buf = r.buf := by
  have e1 : (seed.toUInt64.toUInt32.toUInt64.toNat : Int) = seed.toInt % 2 ^ 32 := by
    rw [UInt32.toNat_toUInt64, UInt64.toNat_toUInt32]
    have h : seed.toInt = seed.toUInt64.toBitVec.toInt := rfl
    have h2 : seed.toUInt64.toNat = seed.toUInt64.toBitVec.toNat := rfl
    rw [h, h2, BitVec.toInt_eq_toNat_cond]
    split <;> omega
  have hl : seed.toUInt64.toUInt32.toUInt64.toNat < 2 ^ 32 := by
    rw [UInt32.toNat_toUInt64]; exact UInt32.toNat_lt _
  have key : srand48 seed r = (U48.tryFrom ((seed.toUInt64.toUInt32.toUInt64 <<< 16) ||| 0x330e)).bind
    fun x => some { r with params := Params.new, x := x } := rfl
  rw [key]
  clear key
  generalize seed.toUInt64.toUInt32.toUInt64 = s at e1 hl ⊢
  have e2 : ((s <<< 16) ||| 0x330e).toNat = 0x330e + 2 ^ 16 * s.toNat := by
    rw [UInt64.toNat_or, UInt64.toNat_shiftLeft, show (16 : UInt64).toNat % 64 = 16 from rfl, Nat.shiftLeft_eq,
      Nat.mod_eq_of_lt (by omega), Nat.or_comm, show (0x330e : UInt64).toNat = 0x330e from rfl, or_add _ _ 16 (by omega)]
  refine ⟨{ r with params := Params.new, x := (s <<< 16) ||| 0x330e }, ?_, ?_, rfl, rfl, rfl⟩
  · unfold U48.tryFrom
    rw [if_pos]
    · rw [Option.bind_some]
    · rw [UInt64.lt_iff_toNat_lt, e2, show (0x1000000000000 : UInt64).toNat = 2 ^ 48 from rfl]
      omega
  · show (((s <<< 16) ||| 0x330e).toNat : Int) = _
    rw [e2]
    omega

/-- C29, `seed48`: sets the number, restores the default parameters, and hands out the previous number. -/
theorem C29_seed48 (v : X3) (r : Rand48) (h : r.Ok) :
    (seed48 v r).x.toNat = v.value ∧ (seed48 v r).params.a.toNat = posixA ∧ (seed48 v r).params.c.toNat = posixC
      ∧ (seed48 v r).buf.value = r.x.toNat :=
  ⟨ofArray_toNat v, rfl, rfl, toArray_value r.x h.x⟩

/-- C29, `lcong48`: sets number, multiplier and addend. -/
theorem C29_lcong48 (x a : X3) (c : UInt16) (r : Rand48) :
    (lcong48 x a c r).x.toNat = x.value ∧ (lcong48 x a c r).params.a.toNat = a.value
      ∧ (lcong48 x a c r).params.c = c ∧ (lcong48 x a c r).buf = r.buf :=
  ⟨ofArray_toNat x, ofArray_toNat a, rfl, rfl⟩

/-- A call of the family that changes the global state. -/
inductive Rand48.Step (r r' : Rand48) : Prop where
  | drand (sub d) (h : drand48 sub r = some (d, r'))
  | lrand (k) (h : lrand48 r = some (k, r'))
  | mrand (k) (h : mrand48 r = some (k, r'))
  | srand (s) (h : srand48 s r = some r')
  | seed (v) (h : r' = seed48 v r)
  | lcong (x a c) (h : r' = lcong48 x a c r)

/-- The states of the program. -/
inductive Rand48.Reach : Rand48 → Prop where
  | init : Reach Rand48.init
  | step {r r'} : Reach r → Rand48.Step r r' → Reach r'

/-- C29: before any seeding, the default parameters are in force; at all times number and multiplier have 48 bits. -/
theorem C29_state : Rand48.init.params.a.toNat = posixA ∧ Rand48.init.params.c.toNat = posixC
    ∧ ∀ r, Rand48.Reach r → r.Ok := by
  refine ⟨rfl, rfl, fun r h => ?_⟩
  induction h with
  | init => exact ⟨by decide, by decide⟩
  | @step r r' _ st ih =>
    cases st with
    | drand sub d h =>
      obtain ⟨⟨r'', h1, h2, h3⟩, -⟩ := C29_drand sub r ⟨0, 0, 0⟩
      rw [h3] at h
      obtain ⟨-, rfl⟩ : _ ∧ r'' = r' := by simpa using h
      exact ⟨by rw [h1]; exact lcg_lt .., by rw [h2]; exact ih.a⟩
    | lrand k h =>
      obtain ⟨r'', h1, h2, -, h3, -⟩ := C29_global r
      rw [h3] at h
      obtain ⟨-, rfl⟩ : _ ∧ r'' = r' := by simpa using h
      exact ⟨by rw [h1]; exact lcg_lt .., by rw [h2]; exact ih.a⟩
    | mrand k h =>
      obtain ⟨r'', h1, h2, -, -, h3⟩ := C29_global r
      rw [h3] at h
      obtain ⟨-, rfl⟩ : _ ∧ r'' = r' := by simpa using h
      exact ⟨by rw [h1]; exact lcg_lt .., by rw [h2]; exact ih.a⟩
    | srand s h =>
      obtain ⟨r'', h1, h2, h3, -, -⟩ := C29_srand48 s r
      rw [h1] at h
      obtain rfl : r'' = r' := by simpa using h
      refine ⟨by omega, by rw [h3]; decide⟩
    | seed v h =>
      subst h
      exact ⟨by rw [(C29_seed48 v r ih).1]; exact value_lt v, by rw [(C29_seed48 v r ih).2.1]; decide⟩
    | lcong x a c h =>
      subst h
      exact ⟨by rw [(C29_lcong48 x a c r).1]; exact value_lt x,
        by rw [(C29_lcong48 x a c r).2.1]; exact value_lt a⟩

-- `srand48(0); lrand48()` is 366850414
example : ((srand48 0 Rand48.init).bind lrand48).map (·.1) = some 366850414 := by decide +kernel

end Verif.Stdlib
