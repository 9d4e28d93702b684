import Verif.Monetary.Model

/-!
# C124: `strfmon`
-/

namespace Verif.Monetary

/-! ## Specification -/

/-- The amount in units of `10⁻ᵈ`, rounded to the nearest, halves away from zero. -/
def units (v : Value) (d : Nat) : Nat := (2 * (v.m * 10 ^ d) + 2 ^ v.k) / (2 * 2 ^ v.k)

/-- The digits with a comma between groups of three, counted from the right. -/
def thousands (ds : List Char) : List Char :=
  (List.range ds.length).flatMap fun i => (if i > 0 ∧ (ds.length - i) % 3 = 0 then [','] else []) ++ ds[i]?.toList

/-- `s` with as many `c` in front as make it `n` long. -/
def padLeft (n : Nat) (c : Char) (s : List Char) : List Char := List.replicate (n - s.length) c ++ s

/-- The value of decimal digits. -/
def value (ds : List (Fin 10)) : Nat := ds.foldl (fun n c => 10 * n + c.val) 0

/-- Digits as characters. -/
def numerals (ds : List (Fin 10)) : List Char := ds.map fun d => Char.ofNat (48 + d.val)

/-- A part of a format: a character, a percent sign, or an amount: whether it is without symbol, whether `+` is given, the digits of the width and of the precision, whether it is international. -/
inductive Item
  | text (c : Char)
  | percent
  | amount (bang plus : Bool) (width : List (Fin 10)) (prec : Option (List (Fin 10))) (intl : Bool)

/-- How a part is written in a format. -/
def Item.show : Item → List Char
  | .text c => [c]
  | .percent => ['%', '%']
  | .amount bang plus width prec intl =>
    '%' :: (if bang then ['!'] else []) ++ (if plus then ['+'] else []) ++ numerals width
      ++ (match prec with
        | some ds => '.' :: numerals ds
        | none => [])
      ++ [if intl then 'i' else 'n']

/-- The digits after the point. -/
def places : Option (List (Fin 10)) → Nat
  | some ds => value ds
  | none => 2

/-- The text of an amount: the sign, the symbol, the whole part in groups, the digits after the point, filled up to the width. -/
def amountText (v : Value) (bang : Bool) (width d : Nat) (intl : Bool) : List Char :=
  padLeft width ' ' ((if v.neg then ['-'] else []) ++ (if bang then [] else if intl then ['U', 'S', 'D', ' '] else ['$'])
    ++ thousands (Nat.toDigits 10 (units v d / 10 ^ d))
    ++ (if d = 0 then [] else '.' :: padLeft d '0' (Nat.toDigits 10 (units v d % 10 ^ d))))

/-- The text of the whole. -/
def textOf : List Item → List Value → List Char
  | [], _ => []
  | .text c :: is, vs => c :: textOf is vs
  | .percent :: is, vs => '%' :: textOf is vs
  | .amount bang _ width prec intl :: is, v :: vs => amountText v bang (value width) (places prec) intl ++ textOf is vs
  | .amount .. :: _, [] => []

/-- What the theorem covers: characters are ASCII; there is an argument for every amount; the width and the precision fit `size_t`, the precision is not `.` alone and at most 18; the amount is below `2⁶³` units; the whole
part has at most three digits or a multiple of three. -/
def Fine : List Item → List Value → Prop
  | [], _ => True
  | .text c :: is, vs => c ≠ '%' ∧ c.toNat < 128 ∧ Fine is vs
  | .percent :: is, vs => Fine is vs
  | .amount _ _ width prec _ :: is, v :: vs =>
    value width < 2 ^ 64 ∧ prec ≠ some [] ∧ places prec ≤ 18 ∧ v.m * 10 ^ places prec < 2 ^ 63 * 2 ^ v.k
      ∧ (let n := (Nat.toDigits 10 (units v (places prec) / 10 ^ places prec)).length
         n ≤ 3 ∨ n % 3 = 0) ∧ Fine is vs
  | .amount .. :: _, [] => False

/-! ## Lemmas -/

theorem groupLoop_ext (n : Nat) : ∀ (ds : List Char) (count : Nat), count + ds.length ≤ 256 → (∀ i, count ≤ i → i < count + ds.length → (i > 0 ∧ i % 3 = 0 ↔ i > 0 ∧ (n - i) % 3 = 0)) →
    groupLoop count ds = (List.range ds.length).flatMap fun i => (if count + i > 0 ∧ (n - (count + i)) % 3 = 0 then [','] else []) ++ ds[i]?.toList := by
  intro ds
  induction ds with
  | nil => intros; rfl
  | cons c cs ih =>
    intro count hc hi
    rw [List.length_cons, List.range_succ_eq_map, List.flatMap_cons, List.flatMap_map]
    rw [show groupLoop count (c :: cs) = (if count > 0 ∧ count % 256 % 3 = 0 then [',', c] else [c]) ++ groupLoop (count + 1) cs from rfl]
    have h0 := hi count (Nat.le_refl _) (by simp)
    rw [show count % 256 = count from Nat.mod_eq_of_lt (by simp at hc; omega)]
    rw [ih (count + 1) (by simp at hc ⊢; omega) (fun i h1 h2 => hi i (by omega) (by simp at h2 ⊢; omega))]
    have e1 : (if count > 0 ∧ count % 3 = 0 then [',', c] else [c]) = (if count + 0 > 0 ∧ (n - (count + 0)) % 3 = 0 then [','] else []) ++ (c :: cs)[0]?.toList := by
      by_cases h : count > 0 ∧ count % 3 = 0
      · rw [if_pos h, Nat.add_zero, if_pos (h0.1 h)]
        rfl
      · rw [if_neg h, Nat.add_zero, if_neg (fun h' => h (h0.2 h'))]
        rfl
    rw [e1]
    congr 1
    congr 1
    funext i
    rw [show count + 1 + i = count + i.succ from by omega]
    rfl

theorem groupLoop_eq {ds : List Char} (h : ds.length ≤ 3 ∨ ds.length % 3 = 0) (hl : ds.length ≤ 256) : groupLoop 0 ds = thousands ds := by
  rw [groupLoop_ext ds.length ds 0 (by omega) (fun i h1 h2 => by omega)]
  unfold thousands
  congr 1
  funext i
  rw [Nat.zero_add]

theorem split_eq (v : Value) {d : Nat} (hd : d ≤ 18) (h : v.m * 10 ^ d < 2 ^ 63 * 2 ^ v.k) : split v d = some (units v d / 10 ^ d, units v d % 10 ^ d) := by
  unfold split units
  rw [if_neg (by omega)]
  dsimp only
  have hS : 0 < 10 ^ d := Nat.pow_pos (by omega)
  have hS2 : 10 ^ d ≤ 10 ^ 18 := Nat.pow_le_pow_right (by omega) hd
  have hK : 0 < 2 ^ v.k := Nat.pow_pos (by omega)
  generalize 10 ^ d = S at *
  generalize 2 ^ v.k = K at *
  generalize v.m = M at *
  have hm := Nat.div_add_mod M K
  have hr := Nat.mod_lt M hK
  generalize M / K = q at *
  generalize M % K = r at *
  subst hm
  have e : 2 * ((K * q + r) * S) + K = 2 * r * S + K + 2 * K * (q * S) := by
    rw [Nat.add_mul, Nat.mul_add, Nat.mul_assoc 2 r S, Nat.mul_assoc K q S, Nat.mul_assoc 2 K]
    omega
  rw [e, Nat.add_mul_div_left _ _ (by omega)]
  have hf : (2 * r * S + K) / (2 * K) ≤ S := by
    apply Nat.le_of_lt_succ
    apply (Nat.div_lt_iff_lt_mul (by omega)).2
    have : r * S ≤ K * S := Nat.mul_le_mul_right _ (by omega)
    have e2 : (S + 1) * (2 * K) = 2 * (K * S) + 2 * K := by rw [Nat.add_mul, Nat.one_mul, Nat.mul_comm S, Nat.mul_assoc]
    rw [e2, Nat.mul_assoc 2 r S]
    omega
  generalize (2 * r * S + K) / (2 * K) = f at *
  rw [show min f (2 ^ 63 - 1) = f by omega, show min S (2 ^ 63 - 1) = S by omega]
  by_cases hg : f ≥ S
  · rw [if_pos hg]
    have : f = S := by omega
    subst this
    have e3 : f + q * f = (q + 1) * f := by rw [Nat.add_mul, Nat.one_mul, Nat.add_comm]
    rw [e3, Nat.mul_div_cancel _ hS, Nat.mul_mod_left]
  · rw [if_neg hg, Nat.add_mul_div_right _ _ hS, Nat.div_eq_of_lt (by omega), Nat.add_mul_mod_self_right, Nat.mod_eq_of_lt (by omega), Nat.zero_add]

theorem toDigits_len {n : Nat} (h : n < 2 ^ 64) : (Nat.toDigits 10 n).length ≤ 256 := by
  have : ∀ k n, n < 10 ^ k → 1 ≤ k → (Nat.toDigits 10 n).length ≤ k := by
    intro k
    induction k with
    | zero => intros; omega
    | succ k ih =>
      intro n hn _
      rw [Nat.toDigits_eq_if (by omega)]
      split
      · simp
      · next hge =>
        cases k with
        | zero => simp at hn; omega
        | succ k =>
          have := ih (n / 10) (by rw [Nat.pow_succ] at hn; exact Nat.div_lt_of_lt_mul (by omega)) (by omega)
          simp
          omega
  exact Nat.le_trans (this 20 n (Nat.lt_of_lt_of_le h (by decide)) (by omega)) (by omega)

theorem units_small (v : Value) {d : Nat} (h : v.m * 10 ^ d < 2 ^ 63 * 2 ^ v.k) : units v d / 10 ^ d < 2 ^ 64 := by
  apply Nat.lt_of_le_of_lt (Nat.div_le_self _ _)
  unfold units
  have hK : 0 < 2 ^ v.k := Nat.pow_pos (by omega)
  apply (Nat.div_lt_iff_lt_mul (by omega)).2
  generalize v.m * 10 ^ d = a at *
  generalize 2 ^ v.k = K at *
  omega

/-! ### Reading the directive -/

theorem digit_table : ∀ d : Fin 10, (Char.ofNat (48 + d.val)).isDigit = true ∧ (Char.ofNat (48 + d.val)).toNat - 48 = d.val := by decide +kernel

theorem takeDigits_append (ds : List (Fin 10)) (c : Char) (cs : List Char) (hc : c.isDigit = false) : takeDigits (numerals ds ++ c :: cs) = (numerals ds, c :: cs) := by
  induction ds with
  | nil => simp [numerals, takeDigits, hc]
  | cons d ds ih =>
    show takeDigits (Char.ofNat (48 + d.val) :: (numerals ds ++ c :: cs)) = _
    unfold takeDigits
    rw [if_pos (digit_table d).1, ih]
    rfl

theorem fold_value (ds : List (Fin 10)) : ∀ n, (numerals ds).foldl (fun n c => 10 * n + (c.toNat - 48)) n = ds.foldl (fun n c => 10 * n + c.val) n := by
  induction ds with
  | nil => intro n; rfl
  | cons d ds ih =>
    intro n
    show (numerals ds).foldl _ (10 * n + ((Char.ofNat (48 + d.val)).toNat - 48)) = _
    rw [(digit_table d).2, ih]
    rfl

theorem parse_numerals {ds : List (Fin 10)} (h : value ds < 2 ^ 64) : parseUsize (numerals ds) = if ds = [] then none else some (value ds) := by
  unfold parseUsize
  cases ds with
  | nil => rfl
  | cons d ds =>
    have e := fold_value (d :: ds) 0
    rw [if_neg (show ¬ numerals (d :: ds) = [] by simp [numerals])]
    rw [if_neg (show ¬ d :: ds = [] by simp)]
    dsimp only
    rw [e]
    exact if_pos h

/-- No character that begins something but a conversion. -/
def Plain (cs : List Char) : Prop := ∃ c r, cs = c :: r ∧ c ≠ '=' ∧ c ≠ '+' ∧ c ≠ ' ' ∧ c ≠ '(' ∧ c ≠ '!' ∧ c ≠ '%'

theorem takeFlags_plain {cs : List Char} (h : Plain cs) (fl : Flags) : takeFlags cs fl = (fl, cs) := by
  obtain ⟨c, r, rfl, h1, h2, h3, h4, h5, _⟩ := h
  unfold takeFlags
  split <;> simp_all

theorem digit_plain : ∀ d : Fin 10, let c := Char.ofNat (48 + d.val); c ≠ '=' ∧ c ≠ '+' ∧ c ≠ ' ' ∧ c ≠ '(' ∧ c ≠ '!' ∧ c ≠ '%' := by decide +kernel

theorem plain_numerals (ds : List (Fin 10)) {cs : List Char} (h : Plain cs) : Plain (numerals ds ++ cs) := by
  cases ds with
  | nil => exact h
  | cons d ds => exact ⟨Char.ofNat (48 + d.val), numerals ds ++ cs, rfl, digit_plain d⟩

/-- The rest of a conversion after the width. -/
def tailOf (prec : Option (List (Fin 10))) (intl : Bool) (cs : List Char) : List Char :=
  (match prec with
    | some ds => '.' :: numerals ds
    | none => []) ++ (if intl then 'i' else 'n') :: cs

theorem tailOf_head (prec : Option (List (Fin 10))) (intl : Bool) (cs : List Char) : ∃ c r, tailOf prec intl cs = c :: r ∧ c.isDigit = false ∧ c ≠ '#' ∧ Plain (c :: r) := by
  cases prec with
  | some ds => exact ⟨'.', numerals ds ++ (if intl then 'i' else 'n') :: cs, rfl, by decide, by decide, _, _, rfl, by decide⟩
  | none => cases intl
            · exact ⟨'n', cs, rfl, by decide, by decide, _, _, rfl, by decide⟩
            · exact ⟨'i', cs, rfl, by decide, by decide, _, _, rfl, by decide⟩

theorem show_amount (bang plus : Bool) (width : List (Fin 10)) (prec : Option (List (Fin 10))) (intl : Bool) (cs : List Char) :
    (Item.amount bang plus width prec intl).show ++ cs = '%' :: ((if bang then ['!'] else []) ++ ((if plus then ['+'] else []) ++ (numerals width ++ tailOf prec intl cs))) := by
  cases prec <;> cases intl <;> simp [Item.show, tailOf]

/-- The flags of an amount. -/
def flagsOf (bang plus : Bool) (width : List (Fin 10)) (prec : Option (List (Fin 10))) (intl : Bool) : Flags :=
  { plus := plus, bang := bang, width := if width = [] then none else some (value width), rprec := prec.map value, intl := intl }

theorem value_places {prec : Option (List (Fin 10))} (h : places prec ≤ 18) : ∀ ds, prec = some ds → value ds < 2 ^ 64 := by
  intro ds e
  subst e
  have : value ds ≤ 18 := h
  omega

theorem directive_show (bang plus : Bool) (width : List (Fin 10)) (prec : Option (List (Fin 10))) (intl : Bool) (cs : List Char) (hw : value width < 2 ^ 64) (hp : prec ≠ some [])
    (hp' : places prec ≤ 18) :
    directive ((if bang then ['!'] else []) ++ ((if plus then ['+'] else []) ++ (numerals width ++ tailOf prec intl cs))) = some (flagsOf bang plus width prec intl, cs) := by
  obtain ⟨c, r, hc, hd, hh, hpl⟩ := tailOf_head prec intl cs
  have hplain : Plain (numerals width ++ tailOf prec intl cs) := plain_numerals _ (hc ▸ hpl)
  have hf : takeFlags ((if bang then ['!'] else []) ++ ((if plus then ['+'] else []) ++ (numerals width ++ tailOf prec intl cs))) {}
      = ({ plus := plus, bang := bang }, numerals width ++ tailOf prec intl cs) := by
    cases bang <;> cases plus <;> simp [takeFlags, takeFlags_plain hplain]
  unfold directive
  rw [hf]
  dsimp only
  rw [hc, takeDigits_append _ _ _ hd]
  dsimp only
  have hs : takePrec '#' (c :: r) = (none, c :: r) := by simp [takePrec, hh]
  rw [hs, parse_numerals hw]
  dsimp only
  rw [← hc]
  cases prec with
  | none => cases intl <;> rfl
  | some ds =>
    have h1 : ((if intl then 'i' else 'n' : Char)).isDigit = false := by cases intl <;> decide
    have h2 : takePrec '.' (tailOf (some ds) intl cs) = (some (value ds), (if intl then 'i' else 'n') :: cs) := by
      show takePrec '.' ('.' :: (numerals ds ++ (if intl then 'i' else 'n') :: cs)) = _
      unfold takePrec
      dsimp only
      rw [if_pos rfl, takeDigits_append _ _ _ h1, parse_numerals (value_places hp' ds rfl)]
      rw [if_neg (fun e => hp (by rw [e]))]
    rw [h2]
    cases intl <;> rfl

theorem formatMonetary_eq (room : Nat) (v : Value) (bang plus : Bool) (width : List (Fin 10)) (prec : Option (List (Fin 10))) (intl : Bool) (hp' : places prec ≤ 18)
    (hv : v.m * 10 ^ places prec < 2 ^ 63 * 2 ^ v.k)
    (hn : let n := (Nat.toDigits 10 (units v (places prec) / 10 ^ places prec)).length; n ≤ 3 ∨ n % 3 = 0) :
    formatMonetary room v (flagsOf bang plus width prec intl) =
      if (amountText v bang (value width) (places prec) intl).length > room then none else some (amountText v bang (value width) (places prec) intl) := by
  have hd : (flagsOf bang plus width prec intl).rprec.getD 2 = places prec := by cases prec <;> rfl
  unfold formatMonetary
  dsimp only
  rw [hd, split_eq v hp' hv]
  dsimp only [flagsOf]
  unfold formatMonetary.finish
  dsimp only
  rw [groupLoop_eq hn (toDigits_len (units_small v hv))]
  have hz : (if places prec > 0 then '.' :: zeros (places prec) (Nat.toDigits 10 (units v (places prec) % 10 ^ places prec)) else [])
      = (if places prec = 0 then [] else '.' :: padLeft (places prec) '0' (Nat.toDigits 10 (units v (places prec) % 10 ^ places prec))) := by
    by_cases h : places prec = 0
    · rw [if_neg (by omega), if_pos h]
    · rw [if_pos (by omega), if_neg h]
      rfl
  rw [hz]
  have hs : (if v.neg = true then ['-'] else if plus = true then [] else if false = true then [' '] else []) = (if v.neg then ['-'] else []) := by
    cases v.neg <;> cases plus <;> rfl
  rw [hs]
  by_cases hw : width = []
  · subst hw
    rw [if_pos rfl]
    have e : amountText v bang (value []) (places prec) intl = (if v.neg then ['-'] else []) ++ (if bang then [] else if intl then ['U', 'S', 'D', ' '] else ['$'])
        ++ thousands (Nat.toDigits 10 (units v (places prec) / 10 ^ places prec))
        ++ (if places prec = 0 then [] else '.' :: padLeft (places prec) '0' (Nat.toDigits 10 (units v (places prec) % 10 ^ places prec))) := by
      unfold amountText padLeft
      rw [show value [] = 0 from rfl, Nat.zero_sub]
      rfl
    rw [e]
  · rw [if_neg hw]
    simp only [Bool.false_eq_true, if_false]
    rfl

/-! ### The loop -/

theorem set_writeAt {buf : List UInt8} {pos : Nat} (b : UInt8) (h : pos < buf.length) : buf.set pos b = writeAt buf pos [b] := by
  rw [List.set_eq_take_append_cons_drop, if_pos h]
  simp [writeAt]

theorem writeAt_length {buf bs : List UInt8} {pos : Nat} (h : pos + bs.length ≤ buf.length) : (writeAt buf pos bs).length = buf.length := by
  simp [writeAt, Nat.min_def]
  split <;> omega

theorem writeAt_writeAt {buf as bs : List UInt8} {pos : Nat} (h : pos + as.length ≤ buf.length) : writeAt (writeAt buf pos as) (pos + as.length) bs = writeAt buf pos (as ++ bs) := by
  unfold writeAt
  have hl : (buf.take pos ++ as).length = pos + as.length := by simp; omega
  rw [List.take_append_of_le_length (by omega), List.take_of_length_le (by omega), List.drop_append, hl]
  rw [List.drop_of_length_le (by omega), List.drop_drop]
  simp only [List.append_assoc, List.length_append, List.nil_append]
  rw [show pos + as.length + (pos + as.length + bs.length - (pos + as.length)) = pos + (as.length + bs.length) from by omega]

theorem bytes_length (cs : List Char) : (bytes cs).length = cs.length := by simp [bytes]

theorem loop_eq : ∀ (is : List Item) (vs : List Value) (buf : List UInt8) (pos : Nat), Fine is vs → pos ≤ buf.length →
    (pos + (textOf is vs).length < buf.length →
      loop buf pos (is.flatMap Item.show) vs = some (((pos + (textOf is vs).length : Nat) : Int), writeAt buf pos (bytes (textOf is vs) ++ [0])))
    ∧ (buf.length ≤ pos + (textOf is vs).length → ∃ buf', loop buf pos (is.flatMap Item.show) vs = some (-1, buf')) := by
  intro is
  induction is with
  | nil =>
    intro vs buf pos _ hpos
    have e : loop buf pos ([].flatMap Item.show) vs = if pos ≥ buf.length then some (-1, buf) else some ((pos : Int), buf.set pos 0) := by
      rw [List.flatMap_nil]
      unfold loop
      rfl
    rw [e]
    show (pos + 0 < _ → _) ∧ (_ ≤ pos + 0 → _)
    constructor
    · intro h
      rw [if_neg (by omega), set_writeAt _ (by omega)]
      rfl
    · intro h
      rw [if_pos (by omega)]
      exact ⟨_, rfl⟩
  | cons i is ih =>
    intro vs buf pos hf hpos
    rw [List.flatMap_cons]
    have single : ∀ (b : UInt8) (t : List Char) (full : Option (Int × List UInt8)), Fine is vs →
        full = (if pos ≥ buf.length then some (-1, buf) else loop (buf.set pos b) (pos + 1) (is.flatMap Item.show) vs) →
        t.length = (textOf is vs).length + 1 → bytes t = b :: bytes (textOf is vs) →
        (pos + t.length < buf.length → full = some (((pos + t.length : Nat) : Int), writeAt buf pos (bytes t ++ [0])))
        ∧ (buf.length ≤ pos + t.length → ∃ buf', full = some (-1, buf')) := by
      intro b t full hfine hfull ht hbt
      by_cases hge : pos ≥ buf.length
      · rw [if_pos hge] at hfull
        exact ⟨fun h => by omega, fun _ => ⟨_, hfull⟩⟩
      · rw [if_neg hge, set_writeAt _ (by omega)] at hfull
        have hl := writeAt_length (buf := buf) (bs := [b]) (pos := pos) (by simp; omega)
        have := ih vs (writeAt buf pos [b]) (pos + 1) hfine (by omega)
        rw [hl] at this
        constructor
        · intro h
          rw [hfull, this.1 (by omega)]
          have hw := writeAt_writeAt (buf := buf) (as := [b]) (bs := bytes (textOf is vs) ++ [0]) (pos := pos) (by simp; omega)
          rw [show pos + [b].length = pos + 1 from rfl] at hw
          rw [hw, hbt, ht, show pos + 1 + (textOf is vs).length = pos + ((textOf is vs).length + 1) from by omega]
          rfl
        · intro h
          rw [hfull]
          exact this.2 (by omega)
    cases i with
    | text c =>
      obtain ⟨hc, hc', hfine⟩ := hf
      have e : loop buf pos (Item.show (.text c) ++ is.flatMap Item.show) vs
          = if pos ≥ buf.length then some (-1, buf) else loop (buf.set pos (UInt8.ofNat c.toNat)) (pos + 1) (is.flatMap Item.show) vs := by
        show loop buf pos (c :: is.flatMap Item.show) vs = _
        conv => lhs; unfold loop
        rw [if_pos hc]
      rw [e]
      exact single (UInt8.ofNat c.toNat) (c :: textOf is vs) _ hfine rfl rfl rfl
    | percent =>
      have e : loop buf pos (Item.show .percent ++ is.flatMap Item.show) vs
          = if pos ≥ buf.length then some (-1, buf) else loop (buf.set pos 0x25) (pos + 1) (is.flatMap Item.show) vs := by
        show loop buf pos ('%' :: '%' :: is.flatMap Item.show) vs = _
        conv => lhs; unfold loop
        rw [if_neg (by decide), if_pos (show ('%' :: is.flatMap Item.show).head? = some '%' from rfl)]
        rfl
      rw [e]
      exact single 0x25 ('%' :: textOf is vs) _ hf rfl rfl rfl
    | amount bang plus width prec intl =>
      cases vs with
      | nil => exact absurd hf (fun h => h)
      | cons v vs =>
        obtain ⟨hw, hp, hp', hv, hn, hfine⟩ := hf
        have hdir := directive_show bang plus width prec intl (is.flatMap Item.show) hw hp hp'
        have hfm := formatMonetary_eq (buf.length - pos) v bang plus width prec intl hp' hv hn
        rw [show_amount]
        have hhead : ((if bang then ['!'] else []) ++ ((if plus then ['+'] else []) ++ (numerals width ++ tailOf prec intl (is.flatMap Item.show)))).head? ≠ some '%' := by
          cases bang
          · cases plus
            · obtain ⟨c, r, hc, _, _, hpl⟩ := tailOf_head prec intl (is.flatMap Item.show)
              obtain ⟨c', r', e, _, _, _, _, _, h6⟩ := plain_numerals width (hc ▸ hpl : Plain (tailOf prec intl (is.flatMap Item.show)))
              simp only [Bool.false_eq_true, if_false, List.nil_append]
              rw [e]
              exact fun h => h6 (Option.some.inj h)
            · simp
          · simp
        have e : loop buf pos ('%' :: ((if bang then ['!'] else []) ++ ((if plus then ['+'] else []) ++ (numerals width ++ tailOf prec intl (is.flatMap Item.show))))) (v :: vs)
            = match formatMonetary (buf.length - pos) v (flagsOf bang plus width prec intl) with
              | none => some (-1, buf)
              | some s => loop (writeAt buf pos (bytes s)) (pos + s.length) (is.flatMap Item.show) vs := by
          conv => lhs; unfold loop
          rw [if_neg (by decide), if_neg hhead]
          split
          · next h => rw [hdir] at h; cases h
          · next fl r h =>
            rw [hdir] at h
            cases h
            rfl
        rw [e, hfm]
        show (pos + (amountText v bang (value width) (places prec) intl ++ textOf is vs).length < _ → _) ∧ (_ ≤ pos + (amountText v bang (value width) (places prec) intl ++ textOf is vs).length → _)
        rw [show textOf (.amount bang plus width prec intl :: is) (v :: vs) = amountText v bang (value width) (places prec) intl ++ textOf is vs from rfl]
        generalize amountText v bang (value width) (places prec) intl = t
        rw [List.length_append]
        by_cases hl : t.length > buf.length - pos
        · rw [if_pos hl]
          exact ⟨fun h => by omega, fun _ => ⟨_, rfl⟩⟩
        · rw [if_neg hl]
          dsimp only
          have hlen := writeAt_length (buf := buf) (bs := bytes t) (pos := pos) (by rw [bytes_length]; omega)
          have := ih vs (writeAt buf pos (bytes t)) (pos + t.length) hfine (by omega)
          rw [hlen] at this
          constructor
          · intro h
            rw [this.1 (by omega)]
            have hw := writeAt_writeAt (buf := buf) (as := bytes t) (bs := bytes (textOf is vs) ++ [0]) (pos := pos) (by rw [bytes_length]; omega)
            rw [bytes_length] at hw
            rw [hw, show pos + t.length + (textOf is vs).length = pos + (t.length + (textOf is vs).length) from by omega]
            simp [bytes]
          · intro h
            exact this.2 (by omega)

/-! ## C124 -/

/-- C124, part: **`strfmon` writes what the format describes**: characters as they are, `%%` as a percent sign, and for `%n` and `%i` the amount rounded to the nearest unit of the last place, with sign, symbol, groups of
three digits and the digits after the point, filled up to the width; then a NUL byte; the rest of the buffer is unchanged, and the result is the number of bytes before the NUL. If the text and
the NUL byte do not fit, the result is −1. Missing: whole parts of other numbers of digits, the flags `=f`, `^`, `(` and `-`, the precision on the left, characters that are not ASCII: there the code is wrong. -/
theorem C124_strfmon_partial (buf : List UInt8) (is : List Item) (vs : List Value) (hf : Fine is vs) :
    ((textOf is vs).length < buf.length →
      strfmon buf (is.flatMap Item.show) vs = some (((textOf is vs).length : Int), (textOf is vs).map (fun c => UInt8.ofNat c.toNat) ++ 0 :: buf.drop ((textOf is vs).length + 1)))
    ∧ (buf.length ≤ (textOf is vs).length → ∃ buf', strfmon buf (is.flatMap Item.show) vs = some (-1, buf')) := by
  have := loop_eq is vs buf 0 hf (by omega)
  rw [Nat.zero_add] at this
  unfold strfmon
  constructor
  · intro h
    rw [if_neg (by omega), this.1 h]
    simp [writeAt, bytes]
  · intro h
    by_cases h0 : buf.length = 0
    · rw [if_pos h0]
      exact ⟨_, rfl⟩
    · rw [if_neg h0]
      exact this.2 h

/-- The item `%8n`. -/
def item8 : Item := .amount false false [8] none false

example : Fine [.text 'a', item8, .percent] [⟨true, 3, 1⟩] := by
  refine ⟨by decide, by decide, by decide, by decide, by decide, by decide, .inl (by decide +kernel), trivial⟩

example : textOf [.text 'a', item8, .percent] [⟨true, 3, 1⟩] = ['a', ' ', ' ', '-', '$', '1', '.', '5', '0', '%'] := by decide +kernel

/-- C124: **the amount shown is nearest** to the value: no more than half a unit of the last place away. -/
theorem C124_nearest (v : Value) (d : Nat) (h : v.m * 10 ^ d < 2 ^ 63 * 2 ^ v.k) (hd : d ≤ 18) : ∃ int frac, split v d = some (int, frac) ∧ frac < 10 ^ d
    ∧ 2 * (2 ^ v.k * (int * 10 ^ d + frac)) ≤ 2 * (v.m * 10 ^ d) + 2 ^ v.k ∧ 2 * (v.m * 10 ^ d) < 2 * (2 ^ v.k * (int * 10 ^ d + frac)) + 2 ^ v.k := by
  refine ⟨_, _, split_eq v hd h, Nat.mod_lt _ (Nat.pow_pos (by omega)), ?_⟩
  rw [Nat.mul_comm (units v d / 10 ^ d), Nat.div_add_mod]
  unfold units
  have hK : 0 < 2 ^ v.k := Nat.pow_pos (by omega)
  have h1 := Nat.div_add_mod (2 * (v.m * 10 ^ d) + 2 ^ v.k) (2 * 2 ^ v.k)
  have h2 := Nat.mod_lt (2 * (v.m * 10 ^ d) + 2 ^ v.k) (show 2 * 2 ^ v.k > 0 by omega)
  rw [Nat.mul_assoc] at h1
  omega

example : split ⟨false, 3, 3⟩ 2 = some (0, 38) ∧ split ⟨false, 1023, 10⟩ 2 = some (1, 0) := by decide +kernel

/-- C124: **nothing outside the buffer**, whatever the format and the arguments: the buffer keeps its length, and if the result is not −1 there is a NUL byte at its place, inside the buffer. -/
theorem C124_bounds (buf : List UInt8) (fmt : List Char) (vs : List Value) (n : Int) (buf' : List UInt8) (h : strfmon buf fmt vs = some (n, buf')) :
    buf'.length = buf.length ∧ (n = -1 ∨ ∃ k : Nat, n = k ∧ k < buf.length ∧ buf'[k]? = some 0) := by
  have key : ∀ (len : Nat) (fmt : List Char), fmt.length = len → ∀ (vs : List Value) (buf : List UInt8) (pos : Nat), pos ≤ buf.length → loop buf pos fmt vs = some (n, buf') →
      buf'.length = buf.length ∧ (n = -1 ∨ ∃ k : Nat, n = k ∧ k < buf.length ∧ buf'[k]? = some 0) := by
    intro len
    induction len using Nat.strongRecOn with
    | ind len ih =>
      intro fmt hlen vs buf pos hpos h
      unfold loop at h
      split at h
      · split at h
        · cases h
          exact ⟨rfl, .inl rfl⟩
        · cases h
          refine ⟨by simp, .inr ⟨pos, rfl, by omega, ?_⟩⟩
          rw [List.getElem?_set_self (by omega)]
      · next c cs =>
        split at h
        · split at h
          · cases h
            exact ⟨rfl, .inl rfl⟩
          · have := ih cs.length (by simp at hlen; omega) cs rfl vs _ _ (by simp; omega) h
            simpa using this
        · split at h
          · split at h
            · cases h
              exact ⟨rfl, .inl rfl⟩
            · have := ih cs.tail.length (by simp at hlen ⊢; omega) cs.tail rfl vs _ _ (by simp; omega) h
              simpa using this
          · split at h
            · cases h
              exact ⟨rfl, .inl rfl⟩
            · next fl r hd =>
              split at h
              · cases h
              · next v vs =>
                split at h
                · cases h
                  exact ⟨rfl, .inl rfl⟩
                · next s hs =>
                  have hfit : s.length ≤ buf.length - pos := by
                    have hfin : ∀ d int frac, formatMonetary.finish (buf.length - pos) v fl d int frac = some s → s.length ≤ buf.length - pos := by
                      intro d int frac hx
                      unfold formatMonetary.finish at hx
                      dsimp only at hx
                      have gen : ∀ t : List Char, (if t.length > buf.length - pos then none else some t) = some s → s.length ≤ buf.length - pos := by
                        intro t ht
                        by_cases hle : t.length > buf.length - pos
                        · rw [if_pos hle] at ht
                          cases ht
                        · rw [if_neg hle] at ht
                          cases ht
                          omega
                      exact gen _ hx
                    unfold formatMonetary at hs
                    dsimp only at hs
                    split at hs
                    · cases hs
                    · split at hs
                      · split at hs
                        · cases hs
                        · exact hfin _ _ _ hs
                      · exact hfin _ _ _ hs
                  have hlt := directive_lt hd
                  have hl := writeAt_length (buf := buf) (bs := bytes s) (pos := pos) (by rw [bytes_length]; omega)
                  have := ih r.length (by simp at hlen; omega) r rfl vs _ _ (by omega) h
                  rw [hl] at this
                  exact this
  unfold strfmon at h
  split at h
  · cases h
    exact ⟨rfl, .inl rfl⟩
  · exact key _ _ rfl _ _ _ (by omega) h

/-- The text `strfmon` writes into a buffer of 40 bytes, and its result. -/
def written (fmt : List Char) (vs : List Value) : Option (Int × List Char) :=
  (strfmon (List.replicate 40 0) fmt vs).map fun p => (p.1, (p.2.takeWhile (· ≠ 0)).map fun b => Char.ofNat b.toNat)

/-- C124, violated by the code: **groups are counted from the left**. 1234567 is written as `$123,456,7.00`, 1000 as `$100,0.00`. -/
theorem C124_grouping_violation : written ['%', 'n'] [⟨false, 1234567, 0⟩] = some (13, ['$', '1', '2', '3', ',', '4', '5', '6', ',', '7', '.', '0', '0'])
    ∧ written ['%', 'n'] [⟨false, 1000, 0⟩] = some (9, ['$', '1', '0', '0', ',', '0', '.', '0', '0']) := by decide +kernel

/-- C124, violated by the code: **the flags**. `%(n` writes no parentheses around a negative amount, `%^n`, `%-9n` and `%=*#5n` are errors. -/
theorem C124_flags_violation : written ['%', '(', 'n'] [⟨true, 5, 0⟩] = some (6, ['-', '$', '5', '.', '0', '0'])
    ∧ (written ['%', '^', 'n'] [⟨false, 5, 0⟩]).map (·.1) = some (-1) ∧ (written ['%', '-', '9', 'n'] [⟨false, 5, 0⟩]).map (·.1) = some (-1)
    ∧ (written ['%', '=', '*', '#', '5', 'n'] [⟨false, 5, 0⟩]).map (·.1) = some (-1) := by decide +kernel

/-- C124, violated by the code: **the precision on the left** fills with zeros and not with spaces, with commas between them, and a number that is longer makes the call fail; POSIX ignores the precision then. -/
theorem C124_left_violation : written ['%', '#', '5', 'n'] [⟨false, 42, 0⟩] = some (10, ['$', '0', '0', '0', ',', '4', '2', '.', '0', '0'])
    ∧ (written ['%', '#', '1', 'n'] [⟨false, 42, 0⟩]).map (·.1) = some (-1) := by decide +kernel

/-- C124, violated by the code: **characters that are not ASCII** are cut to their low byte: `€` (U+20AC) is written as the byte 0xAC, which is not UTF-8. -/
theorem C124_utf8_violation : strfmon [1, 1, 1, 1, 1] [Char.ofNat 0x20ac] [] = some (1, [0xac, 0, 1, 1, 1]) := by decide +kernel

end Verif.Monetary
