import Verif.Stdio.PrintfParse
/-!
# The two passes over a format
-/

namespace Verif.Stdio
open Verif.Mem Verif.Stdlib Verif.Wchar

/-! ## Arguments -/

/-- The argument proper of a conversion. -/
def Call.va (c : Call) : VaArg := (argOf c.dir.cv.kind c.dir.len.kind c.vWord).getD (.wint 0)

/-- The arguments a conversion fetches. -/
def Call.args (c : Call) : List VaArg :=
  (match c.dir.width with | .star => [.int c.wWord.toUInt32.toInt32] | _ => [])
    ++ ((match c.dir.prec with | .star => [.int c.pWord.toUInt32.toInt32] | _ => [])
      ++ (if c.dir.cv = .percent then [] else [c.va]))

theorem argOf_va {c : Call} (h : c.dir.cv ≠ .percent) : argOf c.dir.cv.kind c.dir.len.kind c.vWord = some c.va := by
  unfold Call.va
  cases hc : c.dir.cv <;> first | exact absurd hc h | (cases c.dir.len <;> rfl)

theorem trunc8 (w : UInt64) : (w % 256).toUInt8 = w.toUInt8 := by
  apply UInt8.toNat_inj.1; simp [UInt64.toNat_toUInt8]

theorem trunc16 (w : UInt64) : (w % 65536).toUInt16 = w.toUInt16 := by
  apply UInt16.toNat_inj.1; simp [UInt64.toNat_toUInt16]

theorem trunc32 (w : UInt64) : (w % 4294967296).toUInt32 = w.toUInt32 := by
  apply UInt32.toNat_inj.1; simp [UInt64.toNat_toUInt32]

theorem argOf_bits {fk : FmtKind} {ik : IntKind} {w : UInt64} {a : VaArg} (h : argOf fk ik w = some a) :
    argOf fk ik a.bits = some a := by
  cases fk <;> cases ik <;> simp only [argOf, Option.some.injEq, reduceCtorEq] at h <;> subst h <;>
    simp [argOf, VaArg.bits, trunc8, trunc16, trunc32]

theorem bmod_sval (b : Nat) (hb : 1 ≤ b) (w : UInt64) : ((w.toNat : Nat) : Int).bmod (2 ^ b) = sval b w := by
  obtain ⟨k, rfl⟩ : ∃ k, b = k + 1 := ⟨b - 1, by omega⟩
  unfold sval Int.bmod
  have h2 : (2 : Nat) ^ (k + 1) = 2 * 2 ^ k := by rw [Nat.pow_succ]; omega
  have h3 : (2 : Int) ^ (k + 1) = 2 * (2 ^ k : Nat) := by
    rw [Int.pow_succ]; simp; omega
  have h4 : ((w.toNat : Int) % ((2 ^ (k + 1) : Nat) : Int)) = ((w.toNat % 2 ^ (k + 1) : Nat) : Int) := by simp
  rw [h4, show k + 1 - 1 = k by omega]
  have hp : 0 < 2 ^ k := Nat.two_pow_pos k
  generalize hr : w.toNat % 2 ^ (k + 1) = r
  have hlt : r < 2 ^ (k + 1) := by rw [← hr]; exact Nat.mod_lt _ (Nat.two_pow_pos _)
  rw [h3]
  rw [h2] at hlt ⊢
  generalize 2 ^ k = K at *
  by_cases hk : r < K
  · rw [if_pos hk, if_pos (by omega)]
    have : (w.toNat : Int) % (2 * (K : Nat)) = r := by rw [← hr, h2]; simp
    rw [this]
  · rw [if_neg hk, if_neg (by omega)]
    omega

theorem sval8 (w : UInt64) : w.toUInt8.toInt8.toInt = sval 8 w := by
  have : w.toUInt8.toInt8.toInt = w.toUInt8.toBitVec.toInt := rfl
  rw [← bmod_sval 8 (by omega), this, BitVec.toInt_eq_toNat_bmod, UInt8.toNat_toBitVec, UInt64.toNat_toUInt8,
    Int.natCast_emod, Int.emod_bmod]

theorem sval16 (w : UInt64) : w.toUInt16.toInt16.toInt = sval 16 w := by
  have : w.toUInt16.toInt16.toInt = w.toUInt16.toBitVec.toInt := rfl
  rw [← bmod_sval 16 (by omega), this, BitVec.toInt_eq_toNat_bmod, UInt16.toNat_toBitVec, UInt64.toNat_toUInt16,
    Int.natCast_emod, Int.emod_bmod]

theorem sval32 (w : UInt64) : w.toUInt32.toInt32.toInt = sval 32 w := by
  have : w.toUInt32.toInt32.toInt = w.toUInt32.toBitVec.toInt := rfl
  rw [← bmod_sval 32 (by omega), this, BitVec.toInt_eq_toNat_bmod, UInt32.toNat_toBitVec, UInt64.toNat_toUInt32,
    Int.natCast_emod, Int.emod_bmod]

theorem sval64 (w : UInt64) : w.toInt64.toInt = sval 64 w := by
  have : w.toInt64.toInt = w.toBitVec.toInt := rfl
  rw [← bmod_sval 64 (by omega), this, BitVec.toInt_eq_toNat_bmod, UInt64.toNat_toBitVec]

theorem usize_int (i : Int32) : (i.toInt64.toUInt64.toNat : Int) = i.toInt % 2 ^ 64 := by
  have h1 : i.toInt64.toInt = i.toInt := by simp
  have h2 : i.toInt64.toInt = i.toInt64.toBitVec.toInt := rfl
  have h3 : i.toInt64.toUInt64.toNat = i.toInt64.toBitVec.toNat := rfl
  rw [h3, ← h1, h2, BitVec.toInt_eq_toNat_cond]
  have := i.toInt64.toBitVec.isLt
  generalize i.toInt64.toBitVec.toNat = n at *
  split <;> omega

theorem signedVal_va {c : Call} (h : c.dir.cv = .d ∨ c.dir.cv = .i) :
    c.va.signedVal = some (sval c.dir.len.bits c.vWord) := by
  unfold Call.va
  rcases h with h | h <;> rw [h] <;> cases c.dir.len <;>
    simp [argOf, Cv.kind, Len.kind, VaArg.signedVal, Len.bits, ← sval8, ← sval16, ← sval32, ← sval64]

theorem unsignedVal_va {c : Call} (h : c.dir.cv ∈ [Cv.o, .u, .x, .X, .b, .B]) :
    c.va.unsignedVal = some (uval c.dir.len.bits c.vWord) := by
  unfold Call.va uval
  have hk : c.dir.cv.kind = .unsigned := by
    simp only [List.mem_cons, List.not_mem_nil, or_false] at h
    rcases h with h | h | h | h | h | h <;> rw [h] <;> rfl
  rw [hk]
  have : c.vWord.toNat % 18446744073709551616 = c.vWord.toNat := Nat.mod_eq_of_lt c.vWord.toNat_lt
  cases c.dir.len <;> simp [argOf, Len.kind, VaArg.unsignedVal, Len.bits, this]

/-! ## Widths and precisions -/

/-- The width as the code resolves it. -/
def Call.rawWidth (c : Call) : Nat :=
  match c.dir.width with
  | .none => 0
  | .lit ds => litVal ds
  | .star => c.wWord.toUInt32.toInt32.toInt64.toUInt64.toNat

/-- The precision as the code resolves it. -/
def Call.rawPrec (c : Call) : Option Nat :=
  match c.dir.prec with
  | .none => none
  | .lit ds => some (litVal ds)
  | .star => some c.pWord.toUInt32.toInt32.toInt64.toUInt64.toNat

theorem sval32_bounds (w : UInt64) : -2 ^ 31 ≤ sval 32 w ∧ sval 32 w < 2 ^ 31 := by
  unfold sval
  split <;> omega

theorem rawWidth_eq {c : Call} (h : c.dir.Ok) :
    (c.rawWidth : Int) = c.width % 2 ^ 64 ∧ -2 ^ 31 ≤ c.width ∧ c.width < 2 ^ 31 := by
  unfold Call.rawWidth Call.width
  cases hw : c.dir.width with
  | none => simp
  | lit ds =>
    have := (h.width ds hw).2.2
    dsimp only
    omega
  | star =>
    dsimp only
    rw [usize_int, sval32]
    exact ⟨rfl, sval32_bounds _⟩

theorem rawPrec_eq {c : Call} (h : c.dir.Ok) : c.rawPrec.filter (fun n => n % 2 ^ 32 < 2 ^ 31) = c.prec := by
  unfold Call.rawPrec Call.prec
  cases hp : c.dir.prec with
  | none => rfl
  | lit ds =>
    have := (h.prec ds hp).2
    dsimp only
    rw [Option.filter_some, if_pos]
    simp only [decide_eq_true_eq]
    omega
  | star =>
    dsimp only
    have h1 := usize_int c.pWord.toUInt32.toInt32
    rw [sval32] at h1
    have h2 := sval32_bounds c.pWord
    generalize c.pWord.toUInt32.toInt32.toInt64.toUInt64.toNat = n at *
    generalize sval 32 c.pWord = v at *
    rw [Option.filter_some]
    by_cases hv : 0 ≤ v
    · rw [if_pos hv, if_pos]
      · congr 1; omega
      · simp only [decide_eq_true_eq]; omega
    · rw [if_neg hv, if_neg]
      simp only [decide_eq_true_eq]; omega

theorem layoutOf_eq {c : Call} (h : c.dir.Ok) (hneg : c.dir.arg.zero = true → 0 ≤ c.width) :
    layoutOf c.dir.arg c.rawWidth c.rawPrec = c.layout c.dir.arg.zero := by
  obtain ⟨h1, h2, h3⟩ := rawWidth_eq h
  unfold layoutOf Call.layout
  rw [rawPrec_eq h]
  generalize hz : c.dir.arg.zero = z at *
  have ha : c.dir.arg.alternate = c.has .alt := rfl
  have hl : c.dir.arg.left = c.has .left := rfl
  have hs : c.dir.arg.signReserve = c.has .space := rfl
  have hp : c.dir.arg.signAlways = c.has .plus := rfl
  rw [ha, hl, hs, hp]
  unfold Call.left
  generalize c.rawWidth = W at *
  generalize c.width = w at *
  by_cases hw : 0 ≤ w
  · have e1 : W = w.natAbs := by omega
    have e2 : decide (w < 0) = false := by simp; omega
    have e3 : W < 2 ^ 63 := by omega
    rw [e2, Bool.or_false, ← e1]
    cases z with
    | true =>
      simp only [if_true]
      rw [if_pos (by split <;> omega)]
      congr 1
      split <;> omega
    | false =>
      simp only [Bool.false_eq_true, if_false, if_true]
      rw [if_pos e3]
  · have hz' : z = false := by
      cases z with
      | true => exact absurd (hneg rfl) hw
      | false => rfl
    subst hz'
    have e2 : decide (w < 0) = true := by simp; omega
    simp only [Bool.false_eq_true, if_false, if_true]
    rw [if_neg (by omega), e2, Bool.or_true]
    congr 1
    omega

theorem arg_zero_int {c : Call} (h : isIntConv c.dir.cv.byte = true) :
    c.dir.arg.zero = (c.has .zero && decide (c.dir.prec = .none)) := by
  unfold Dir.arg Call.has
  rw [h]
  cases c.dir.prec <;> simp [Count.number]

theorem arg_zero_text {c : Call} (h : c.dir.Ok) (hc : c.dir.cv = .c ∨ c.dir.cv = .s) : c.dir.arg.zero = false := by
  have := h.zero hc
  unfold Dir.arg
  simp [this]

/-! ## First pass -/

theorem step_eq {c : Call} (hd : c.dir.Ok) (args : List VaArg) (ap : VaList) :
    (⟨args, [], c.words ++ ap⟩ : Pre).step c.dir.arg = some ⟨args ++ c.args, [], ap⟩ := by
  unfold Pre.step
  by_cases hc : c.dir.cv = .percent
  · obtain ⟨_, h2, h3, _⟩ := hd.percent hc
    have hk : c.dir.arg.fmtkind = .percent := by simp [Dir.arg, hc, Cv.kind]
    rw [if_pos hk]
    simp [Call.words, Call.args, h2, h3, hc]
  · have hk : ¬ c.dir.arg.fmtkind = .percent := by
      simp only [Dir.arg]
      cases hcv : c.dir.cv <;> simp [Cv.kind] <;> exact absurd hcv hc
    rw [if_neg hk]
    have hv : ∀ args ap, (⟨args, [], c.vWord :: ap⟩ : Pre).value c.dir.arg = some ⟨args ++ [c.va], [], ap⟩ := by
      intro args ap
      simp [Pre.value, Dir.arg, argFrom, argOf_va hc]
    have hw : c.dir.arg.minWidth = c.dir.width.number.getD (.static 0) := rfl
    have hp : c.dir.arg.precision = c.dir.prec.number := rfl
    rw [hw, hp]
    unfold Call.words Call.args
    cases c.dir.width <;> cases c.dir.prec <;> simp [Count.number, Pre.number, nextInt, hc, hv]

/-- The arguments of a format. -/
def Format.args (f : Format) : List VaArg := f.dirs.flatMap (fun x => x.2.args)

theorem prefetch_plain (s : Pre) (t : List UInt8) (l : List Item) : prefetch s (plainItem t ++ l) = prefetch s l := by
  unfold plainItem
  split
  · rfl
  · rfl

theorem prefetch_eq {dirs : List (List UInt8 × Call)} {tail : List UInt8} (hd : ∀ x ∈ dirs, x.2.dir.Ok)
    (args : List VaArg) (ap : VaList) :
    prefetch ⟨args, [], (⟨dirs, tail⟩ : Format).words ++ ap⟩ (⟨dirs, tail⟩ : Format).items
      = some (some ⟨args ++ (⟨dirs, tail⟩ : Format).args, [], ap⟩) := by
  induction dirs generalizing args with
  | nil =>
    simp only [Format.items, Format.words, Format.args, List.flatMap_nil, List.nil_append, List.append_nil]
    have := prefetch_plain ⟨args, [], ap⟩ tail []
    rw [List.append_nil] at this
    rw [this]; rfl
  | cons x l ih =>
    have hs := step_eq (hd x (by simp)) args ((⟨l, tail⟩ : Format).words ++ ap)
    have hi : (⟨x :: l, tail⟩ : Format).items = plainItem x.1 ++ .arg x.2.dir.arg :: (⟨l, tail⟩ : Format).items := by
      simp [Format.items]
    have hw : (⟨x :: l, tail⟩ : Format).words ++ ap = x.2.words ++ ((⟨l, tail⟩ : Format).words ++ ap) := by
      simp [Format.words]
    have ha : (⟨x :: l, tail⟩ : Format).args = x.2.args ++ (⟨l, tail⟩ : Format).args := by simp [Format.args]
    rw [hi, hw, ha, prefetch_plain, prefetch, hs]
    simp only [Option.bind_eq_bind, Option.bind_some]
    rw [ih (fun y hy => hd y (by simp [hy])), List.append_assoc]

/-! ## Main loop -/

theorem get_none {args : List VaArg} {i j : Nat} {a : VaArg} (h : args[j]? = some a) (ap : VaList) :
    (⟨args, i⟩ : Cache).get j ap none = some (a, ⟨args, i⟩, ap) := by
  unfold Cache.get
  dsimp only
  rw [h]

theorem get_some {args : List VaArg} {i j : Nat} {a : VaArg} {fk : FmtKind} {ik : IntKind} (h : args[j]? = some a)
    (ht : a.transmute fk ik = some a) (ap : VaList) :
    (⟨args, i⟩ : Cache).get j ap (some (fk, ik)) = some (a, ⟨args, i⟩, ap) := by
  unfold Cache.get
  dsimp only
  rw [h]
  simp [ht]

theorem resolve_width {c : Call} {args : List VaArg} {i : Nat} {post : List VaArg}
    (h : args.drop i = c.args ++ post) (ap : VaList) :
    c.dir.arg.minWidth.resolve ⟨args, i⟩ ap
      = some (c.rawWidth, ⟨args, i + (if c.dir.width = .star then 1 else 0)⟩, ap) := by
  have hw : c.dir.arg.minWidth = c.dir.width.number.getD (.static 0) := rfl
  rw [hw]
  unfold Call.rawWidth
  unfold Call.args at h
  cases hc : c.dir.width with
  | none => simp [Count.number, Number.resolve]
  | lit ds => simp [Count.number, Number.resolve]
  | star =>
    rw [hc] at h
    have h0 : args[i]? = some (.int c.wWord.toUInt32.toInt32) := by
      have : (args.drop i)[0]? = some (.int c.wWord.toUInt32.toInt32) := by rw [h]; rfl
      rwa [List.getElem?_drop] at this
    simp only [Count.number, Option.getD_some, Number.resolve, get_none h0]
    rfl

theorem resolve_prec {c : Call} {args : List VaArg} {i : Nat} {post : List VaArg}
    (h : args.drop i = c.args ++ post) (ap : VaList) :
    resolvePrecision c.dir.arg.precision ⟨args, i + (if c.dir.width = .star then 1 else 0)⟩ ap
      = some (c.rawPrec, ⟨args, i + (if c.dir.width = .star then 1 else 0) + (if c.dir.prec = .star then 1 else 0)⟩, ap) := by
  have hp : c.dir.arg.precision = c.dir.prec.number := rfl
  rw [hp]
  unfold Call.rawPrec
  unfold Call.args at h
  cases hc : c.dir.prec with
  | none => simp [Count.number, resolvePrecision]
  | lit ds => simp [Count.number, resolvePrecision, Number.resolve]
  | star =>
    rw [hc] at h
    have h0 : args[i + (if c.dir.width = .star then 1 else 0)]? = some (.int c.pWord.toUInt32.toInt32) := by
      have : (args.drop i)[if c.dir.width = .star then 1 else 0]? = some (.int c.pWord.toUInt32.toInt32) := by
        rw [h]
        cases c.dir.width <;> simp
      rwa [List.getElem?_drop] at this
    simp only [Count.number, resolvePrecision, Number.resolve, get_none h0]
    rfl

theorem argument_eq {c : Call} (hc : c.dir.cv ≠ .percent) {args : List VaArg} {i : Nat} {post : List VaArg}
    (h : args.drop i = c.args ++ post) (ap : VaList) :
    argument c.dir.arg
      ⟨args, i + (if c.dir.width = .star then 1 else 0) + (if c.dir.prec = .star then 1 else 0)⟩ ap
      = some (c.va, ⟨args, i + c.args.length⟩, ap) := by
  have h0 : args[i + (if c.dir.width = .star then 1 else 0) + (if c.dir.prec = .star then 1 else 0)]? = some c.va := by
    have : (args.drop i)[(if c.dir.width = .star then 1 else 0) + (if c.dir.prec = .star then 1 else 0)]? = some c.va := by
      rw [h]
      unfold Call.args
      cases c.dir.width <;> cases c.dir.prec <;> simp [hc]
    rw [List.getElem?_drop] at this
    rwa [← Nat.add_assoc] at this
  have hl : i + c.args.length
      = i + (if c.dir.width = .star then 1 else 0) + (if c.dir.prec = .star then 1 else 0) + 1 := by
    unfold Call.args
    cases c.dir.width <;> cases c.dir.prec <;> simp [hc]
  have hx : c.dir.arg.index = none := rfl
  unfold argument
  rw [hx, hl]
  exact get_some h0 (argOf_bits (argOf_va hc)) ap

/-- Where the code does what the standard says. -/
def Call.Good (c : Call) : Prop :=
  (c.dir.cv = .d ∨ c.dir.cv = .i → c.SignedOk (sval c.dir.len.bits c.vWord))
  ∧ (c.dir.cv ∈ [Cv.o, .u, .x, .X, .b, .B] → c.UnsignedOk (uval c.dir.len.bits c.vWord))

/-- A store as the model keeps it. -/
def Count.Store.toN (s : Count.Store) : NStore := ⟨s.ptr, s.bytes, s.value⟩

theorem strLenLoop_eq {m : Mem UInt8} {p : Nat} {s : List UInt8} (h : CStr m p s) (max len : Nat)
    (hl : len ≤ s.length) (hm : len ≤ max) : strLenLoop m p max len = some (min s.length max) := by
  obtain ⟨k, hk⟩ : ∃ k, k = s.length - len := ⟨_, rfl⟩
  induction k generalizing len with
  | zero =>
    have : len = s.length := by omega
    subst this
    rw [strLenLoop, h.2.1]
    simp
    omega
  | succ k ih =>
    have hlt : len < s.length := by omega
    have hb : m (p + len) = some s[len] := by
      rw [h.1.get len hlt, List.getElem?_eq_getElem hlt]
    have hne : s[len] ≠ 0 := fun h0 => h.2.2 (h0 ▸ List.getElem_mem hlt)
    rw [strLenLoop, hb]
    simp only [Option.bind_eq_bind, Option.bind_some]
    by_cases hx : len < max
    · rw [if_pos ⟨hne, hx⟩]
      exact ih (len + 1) (by omega) (by omega) (by omega)
    · rw [if_neg (fun h => hx h.2)]
      congr 1
      omega

theorem padded_flatten {c : Call} {z : Bool} (hz : z = false) (t : List UInt8) :
    (padded (c.layout z) t.length t).flatten = c.justify t := by
  subst hz
  unfold padded Call.justify Call.layout
  dsimp only
  cases c.left <;> simp [flatten_pad]

theorem prec_none {c : Call} (h : c.dir.prec = .none) : c.prec = none := by
  unfold Call.prec; rw [h]

theorem convert_eq {m : Mem UInt8} {c : Call} (hd : c.dir.Ok) (hg : c.Good) {w : Nat} {a : List UInt8}
    {sa : List Count.Store} (h : Prints m c w a sa) (hc : c.dir.cv ≠ .percent) :
    (∃ t, convert m c.dir.arg (layoutOf c.dir.arg c.rawWidth c.rawPrec) w c.va = some (.text t) ∧ t.flatten = a ∧ sa = [])
    ∨ (∃ s, convert m c.dir.arg (layoutOf c.dir.arg c.rawWidth c.rawPrec) w c.va = some (.store s) ∧ a = []
      ∧ sa.map Count.Store.toN = [s]) := by
  cases h with
  | percent h => exact absurd h hc
  | signed h =>
    left
    have hk : c.dir.arg.fmtkind = .signed := by rcases h with h | h <;> simp [Dir.arg, h, Cv.kind]
    have hi : isIntConv c.dir.cv.byte = true := by rcases h with h | h <;> rw [h] <;> rfl
    have hok := hg.1 h
    have hz := arg_zero_int hi
    have hL := layoutOf_eq hd (by
      intro h0
      rw [hz, Bool.and_eq_true, decide_eq_true_eq] at h0
      exact (hok.2.2.1 h0.1 (prec_none h0.2)).2.1)
    refine ⟨signedChunks (c.layout c.dir.arg.zero) (sval c.dir.len.bits c.vWord), ?_, signedChunks_eq hok hz prec_none, rfl⟩
    unfold convert
    rw [hk, hL]
    simp [signedVal_va h]
  | unsigned h =>
    left
    have hk : c.dir.arg.fmtkind = .unsigned := by
      simp only [List.mem_cons, List.not_mem_nil, or_false] at h
      rcases h with h | h | h | h | h | h <;> simp [Dir.arg, h, Cv.kind]
    have hi : isIntConv c.dir.cv.byte = true := by
      simp only [List.mem_cons, List.not_mem_nil, or_false] at h
      rcases h with h | h | h | h | h | h <;> rw [h] <;> rfl
    have hok := hg.2 h
    have hz := arg_zero_int hi
    have hL := layoutOf_eq hd (by
      intro h0
      rw [hz, Bool.and_eq_true, decide_eq_true_eq] at h0
      exact (hok.2 h0.1 (prec_none h0.2)).2.1)
    obtain ⟨cs, hcs, hfl⟩ := unsignedChunks_eq h hok hz prec_none
    refine ⟨cs, ?_, hfl, rfl⟩
    have hf : c.dir.arg.fmt = c.dir.cv.byte := rfl
    unfold convert
    rw [hk, hL, hf]
    simp [unsignedVal_va h, hcs]
  | char h hl =>
    left
    have hz := arg_zero_text hd (.inl h)
    have hL := layoutOf_eq hd (by rw [hz]; simp)
    have hk : c.dir.arg.fmtkind = .char := by simp [Dir.arg, h, Cv.kind]
    have hv : c.va = .char c.vWord.toUInt8.toInt8 := by simp [Call.va, h, hl, Cv.kind, Len.kind, argOf]
    refine ⟨padded (c.layout c.dir.arg.zero) 1 [c.vWord.toUInt8], ?_, ?_, rfl⟩
    · unfold convert
      rw [hk, hL, hv]
      simp [charChunks]
    · have := padded_flatten (c := c) hz [c.vWord.toUInt8]
      rw [List.length_singleton] at this
      rw [this]
      congr 2
      apply UInt8.toNat_inj.1
      simp
  | @string h hl s hp hs hn =>
    left
    have hz := arg_zero_text hd (.inr h)
    have hL := layoutOf_eq hd (by rw [hz]; simp)
    have hk : c.dir.arg.fmtkind = .string := by simp [Dir.arg, h, Cv.kind]
    have hv : c.va = .pointer c.vWord := by simp [Call.va, h, hl, Cv.kind, Len.kind, argOf]
    have hik : c.dir.arg.intkind = .int := by simp [Dir.arg, hl, Len.kind]
    have hp0 : c.vWord.toNat ≠ 0 := fun h0 => hp (UInt64.toNat_inj.1 h0)
    have hmin : min s.length (c.prec.getD (2 ^ 64 - 1)) = (s.take (c.prec.getD s.length)).length := by
      rw [List.length_take]
      cases c.prec with
      | none => simp only [Option.getD_none]; omega
      | some p => simp only [Option.getD_some]; omega
    have hlen := strLenLoop_eq hs (c.prec.getD (2 ^ 64 - 1)) 0 (by omega) (by omega)
    rw [hmin] at hlen
    have hb : Bytes m c.vWord.toNat (s.take (c.prec.getD s.length)) := by
      have := hs.1
      rw [← List.take_append_drop (c.prec.getD s.length) s, bytes_append] at this
      exact this.1
    refine ⟨padded (c.layout c.dir.arg.zero) _ (s.take (c.prec.getD s.length)), ?_, padded_flatten hz _, rfl⟩
    have hlp : (c.layout c.dir.arg.zero).precision = c.prec := rfl
    unfold convert
    rw [hk, hL, hv]
    dsimp only
    unfold stringChunks
    rw [if_neg hp0, hlp, hik]
    simp only [reduceCtorEq, or_self, if_false, hlen, Option.bind_eq_bind, Option.bind_some, hb.readN]
  | written h =>
    right
    have hk : c.dir.arg.fmtkind = .getWritten := by simp [Dir.arg, h, Cv.kind]
    have hv : c.va = .pointer c.vWord := by simp [Call.va, h, Cv.kind, argOf]
    refine ⟨_, ?_, rfl, rfl⟩
    unfold convert
    rw [hk, hv]
    have hik : c.dir.arg.intkind = c.dir.len.kind := rfl
    rw [hik]
    simp only [Option.some.injEq, Conv.store.injEq, Count.Store.toN]
    cases c.dir.len <;> rfl

theorem conv_eq {m : Mem UInt8} {c : Call} (hd : c.dir.Ok) (hg : c.Good) {args post : List VaArg} {i : Nat} {ap : VaList}
    {out : Chunks} {st : List NStore} (h : args.drop i = c.args ++ post) {a : List UInt8} {sa : List Count.Store}
    (hp : Prints m c out.flatten.length a sa) :
    ∃ t, (⟨⟨args, i⟩, ap, out, st⟩ : St).conv m c.dir.arg
      = some (some ⟨⟨args, i + c.args.length⟩, ap, out ++ t, st ++ sa.map Count.Store.toN⟩) ∧ t.flatten = a := by
  unfold St.conv
  simp only [resolve_width h, resolve_prec h, Option.bind_eq_bind, Option.bind_some]
  by_cases hc : c.dir.cv = .percent
  · have hk : c.dir.arg.fmtkind = .percent := by simp [Dir.arg, hc, Cv.kind]
    obtain ⟨_, h2, h3, _⟩ := hd.percent hc
    rw [if_pos hk]
    have hl : c.args.length = 0 := by simp [Call.args, h2, h3, hc]
    have ha : a = [0x25] ∧ sa = [] := by
      cases hp with
      | percent h => exact ⟨rfl, rfl⟩
      | signed h => simp [hc] at h
      | unsigned h => simp [hc] at h
      | char h => simp [hc] at h
      | string h => simp [hc] at h
      | written h => simp [hc] at h
    refine ⟨[[0x25]], ?_, by rw [ha.1]; rfl⟩
    simp [hl, h2, h3, ha.2]
  · have hk : ¬ c.dir.arg.fmtkind = .percent := by
      simp only [Dir.arg]
      cases hcv : c.dir.cv <;> simp [Cv.kind] <;> exact absurd hcv hc
    rw [if_neg hk]
    simp only [argument_eq hc h, Option.bind_some, St.written]
    rcases convert_eq hd hg hp hc with ⟨t, h1, h2, h3⟩ | ⟨s, h1, h2, h3⟩
    · refine ⟨t, ?_, h2⟩
      rw [h1]; simp [h3]
    · refine ⟨[], ?_, by rw [h2]; rfl⟩
      rw [h1]; simp [h3]

theorem mainLoop_plain (m : Mem UInt8) (s : St) (t : List UInt8) (l : List Item) :
    ∃ u, mainLoop m s (plainItem t ++ l) = mainLoop m { s with out := s.out ++ u } l ∧ u.flatten = t := by
  unfold plainItem
  split
  · rename_i h; exact ⟨[], by simp, h.symm⟩
  · exact ⟨[t], rfl, by simp⟩

theorem mainLoop_eq {m : Mem UInt8} {n : Nat} {f : Format} {o : List UInt8} {so : List Count.Store}
    (hout : Format.Out m n f o so) (hd : ∀ x ∈ f.dirs, x.2.dir.Ok) (hg : ∀ x ∈ f.dirs, x.2.Good)
    {args : List VaArg} {i : Nat} {ap : VaList} {out : Chunks} {st : List NStore} (h : args.drop i = f.args)
    (hn : out.flatten.length = n) :
    ∃ cs, mainLoop m ⟨⟨args, i⟩, ap, out, st⟩ f.items
      = some (out ++ cs, st ++ so.map Count.Store.toN, Int32.ofNat (n + o.length)) ∧ cs.flatten = o := by
  induction hout generalizing i out st with
  | @done n t =>
    obtain ⟨u, h1, h2⟩ := mainLoop_plain m ⟨⟨args, i⟩, ap, out, st⟩ t []
    refine ⟨u, ?_, h2⟩
    have : (⟨[], t⟩ : Format).items = plainItem t ++ [] := by simp [Format.items]
    rw [this, h1]
    simp [mainLoop, St.written, ← hn, h2]
  | @step n t c l u a b out' sa sb st' h1 h2 ho hs ih =>
    have hi : (⟨(t, c) :: l, u⟩ : Format).items = plainItem t ++ .arg c.dir.arg :: (⟨l, u⟩ : Format).items := by
      simp [Format.items]
    have ha : (⟨(t, c) :: l, u⟩ : Format).args = c.args ++ (⟨l, u⟩ : Format).args := by simp [Format.args]
    rw [ha] at h
    obtain ⟨v, e1, e2⟩ := mainLoop_plain m ⟨⟨args, i⟩, ap, out, st⟩ t (.arg c.dir.arg :: (⟨l, u⟩ : Format).items)
    have hlen : (out ++ v).flatten.length = n + t.length := by
      rw [List.flatten_append, List.length_append, e2, hn]
    obtain ⟨w, e3, e4⟩ := conv_eq (ap := ap) (st := st) (out := out ++ v) (hd (t, c) (by simp)) (hg (t, c) (by simp)) h
      (by rw [hlen]; exact h1)
    have hdrop : args.drop (i + c.args.length) = (⟨l, u⟩ : Format).args := by
      rw [← List.drop_drop, h, List.drop_left]
    obtain ⟨cs, e5, e6⟩ := ih (fun x hx => hd x (by simp [hx])) (fun x hx => hg x (by simp [hx]))
      (i := i + c.args.length) (out := out ++ v ++ w) (st := st ++ sa.map Count.Store.toN) hdrop
      (by rw [List.flatten_append, List.length_append, hlen, e4])
    refine ⟨v ++ w ++ cs, ?_, by simp [e2, e4, e6, ho]⟩
    rw [hi, e1, mainLoop, e3]
    simp only [Option.bind_eq_bind, Option.bind_some]
    rw [e5, ho, hs]
    simp [Nat.add_assoc]

/-- The text of a format, its arguments and possibly more: `printf` prints what it should. -/
theorem printf_eq {m : Mem UInt8} {f : Format} {o : List UInt8} {so : List Count.Store} (hf : f.Ok)
    (hg : ∀ x ∈ f.dirs, x.2.Good) (hout : Format.Out m 0 f o so) (e : List UInt8) (more : VaList) :
    ∃ cs, printf m e f.text (f.words ++ more) = some (cs, so.map Count.Store.toN, Int32.ofNat o.length)
      ∧ cs.flatten = o := by
  obtain ⟨cs, h1, h2⟩ := mainLoop_eq hout hf.dirs hg (args := f.args) (i := 0) (ap := more) (out := []) (st := []) rfl rfl
  refine ⟨cs, ?_, h2⟩
  obtain ⟨dirs, tail⟩ := f
  have hpre := prefetch_eq (tail := tail) hf.dirs [] more
  unfold printf
  simp only [items_text e hf, hpre, Option.bind_eq_bind, Option.bind_some, fetchPositional, List.nil_append]
  rw [h1]
  simp

/-- One conversion, whatever it prints. -/
theorem printf_one {m : Mem UInt8} {c : Call} (hd : c.dir.Ok) (hc : c.dir.cv ≠ .percent) (e : List UInt8) :
    printf m e c.dir.text c.words =
      match convert m c.dir.arg (layoutOf c.dir.arg c.rawWidth c.rawPrec) 0 c.va with
      | none => none
      | some (.text t) => some (t, [], Int32.ofNat t.flatten.length)
      | some (.store s) => some ([], [s], 0)
      | some .eilseq => some ([], [], -1) := by
  have hf : (⟨[([], c)], []⟩ : Format).Ok :=
    ⟨fun x hx => by simp at hx; subst hx; intro b hb; simp at hb, fun x hx => by simp at hx; subst hx; exact hd,
      fun b hb => by simp at hb⟩
  have h1 := items_text e hf
  have h2 := prefetch_eq (tail := []) hf.dirs [] []
  have e1 : (⟨[([], c)], []⟩ : Format).text = c.dir.text := by simp [Format.text]
  have e2 : (⟨[([], c)], []⟩ : Format).words = c.words := by simp [Format.words]
  have e3 : (⟨[([], c)], []⟩ : Format).args = c.args := by simp [Format.args]
  have e4 : (⟨[([], c)], []⟩ : Format).items = [.arg c.dir.arg] := by simp [Format.items, plainItem]
  rw [e1, e4] at h1
  rw [e2, e3, e4, List.append_nil, List.nil_append] at h2
  unfold printf
  simp only [h1, h2, Option.bind_eq_bind, Option.bind_some, fetchPositional, mainLoop]
  have hk : ¬ c.dir.arg.fmtkind = .percent := by
    simp only [Dir.arg]
    cases hcv : c.dir.cv <;> simp [Cv.kind] <;> exact absurd hcv hc
  have hx : c.args.drop 0 = c.args ++ [] := by simp
  have hconv : (⟨⟨c.args, 0⟩, [], [], []⟩ : St).conv m c.dir.arg
      = match convert m c.dir.arg (layoutOf c.dir.arg c.rawWidth c.rawPrec) 0 c.va with
        | none => none
        | some (.text t) => some (some ⟨⟨c.args, 0 + c.args.length⟩, [], t, []⟩)
        | some (.store s) => some (some ⟨⟨c.args, 0 + c.args.length⟩, [], [], [s]⟩)
        | some .eilseq => some none := by
    unfold St.conv
    simp only [resolve_width hx, resolve_prec hx, Option.bind_eq_bind, Option.bind_some]
    rw [if_neg hk]
    simp only [argument_eq hc hx, Option.bind_some, St.written]
    have h0 : List.length (List.flatten ([] : Chunks)) = 0 := rfl
    rw [h0]
    cases convert m c.dir.arg (layoutOf c.dir.arg c.rawWidth c.rawPrec) 0 c.va with
    | none => rfl
    | some r => cases r <;> rfl
  rw [hconv]
  cases convert m c.dir.arg (layoutOf c.dir.arg c.rawWidth c.rawPrec) 0 c.va with
  | none => rfl
  | some r => cases r <;> rfl

theorem printf_single {m : Mem UInt8} {c : Call} (hd : c.dir.Ok) (hc : c.dir.cv ≠ .percent) (e : List UInt8) {t : Chunks}
    (h : convert m c.dir.arg (layoutOf c.dir.arg c.rawWidth c.rawPrec) 0 c.va = some (.text t)) :
    printf m e c.dir.text c.words = some (t, [], Int32.ofNat t.flatten.length) := by
  rw [printf_one hd hc, h]

end Verif.Stdio
