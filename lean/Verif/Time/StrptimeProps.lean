import Verif.Time.StrptimeModel
import Verif.Time.StrftimeProps
import Verif.Wchar.MbsProps
/-!
# `strptime` (C95)
-/

namespace Verif.Time.Strptime
open Verif.Time
open Verif.Mem (byte_table)
open Verif.Wchar (utf8 utf8s Scalar)

/-! ## Specification -/

/-- A digit. -/
def IsDigit (b : UInt8) : Prop := 0x30 ≤ b ∧ b ≤ 0x39

/-- A decimal number. -/
def Decimal (s : List UInt8) (v : Nat) : Prop :=
  s ≠ [] ∧ (∀ b ∈ s, IsDigit b) ∧ v = s.foldl (fun n b => 10 * n + (b.toNat - 48)) 0

/-- A letter in lower case. -/
def fold (b : UInt8) : UInt8 := if 0x41 ≤ b ∧ b ≤ 0x5A then b + 0x20 else b

/-- The same text, but for the case of letters. -/
def SameText (s t : List UInt8) : Prop := s.map fold = t.map fold

/-- The characters that are white space in Unicode. -/
def unicodeSpaces : List Nat :=
  [9, 10, 11, 12, 13, 0x20, 0x85, 0xA0, 0x1680, 0x2000, 0x2001, 0x2002, 0x2003, 0x2004, 0x2005, 0x2006, 0x2007, 0x2008, 0x2009,
   0x200A, 0x2028, 0x2029, 0x202F, 0x205F, 0x3000]

/-- White space of the POSIX locale. -/
def IsSpace (b : UInt8) : Prop := b = 0x20 ∨ 9 ≤ b ∧ b ≤ 13

/-- What a conversion can stand for, and what it does to the structure. The hour on a dial is turned into the hour of the day
by `%p`, which may have white space in front. -/
def Means (c : Char) (s : List UInt8) (tm tm' : Tm) : Prop :=
  match c with
  | '%' => s = text "%" ∧ tm' = tm
  | 'n' | 't' => (∀ b ∈ s, IsSpace b) ∧ tm' = tm
  | 'd' | 'e' => ∃ v, Decimal s v ∧ s.length ≤ 2 ∧ 1 ≤ v ∧ v ≤ 31 ∧ tm' = { tm with mday := .ofNat v }
  | 'm' => ∃ v, Decimal s v ∧ s.length ≤ 2 ∧ 1 ≤ v ∧ v ≤ 12 ∧ tm' = { tm with mon := .ofNat (v - 1) }
  | 'y' => ∃ v, Decimal s v ∧ s.length ≤ 2 ∧ tm' = { tm with year := .ofNat (if v < 69 then 100 + v else v) }
  | 'Y' => ∃ v : Nat, Decimal s v ∧ v < 2 ^ 31 ∧ tm' = { tm with year := .ofInt (v - 1900) }
  | 'H' => ∃ v, Decimal s v ∧ s.length ≤ 2 ∧ v ≤ 23 ∧ tm' = { tm with hour := .ofNat v }
  | 'I' => ∃ v, Decimal s v ∧ s.length ≤ 2 ∧ 1 ≤ v ∧ v ≤ 12 ∧ tm' = { tm with hour := .ofNat v }
  | 'M' => ∃ v, Decimal s v ∧ s.length ≤ 2 ∧ v ≤ 59 ∧ tm' = { tm with min := .ofNat v }
  | 'S' => ∃ v, Decimal s v ∧ s.length ≤ 2 ∧ v ≤ 60 ∧ tm' = { tm with sec := .ofNat v }
  | 'j' => ∃ v, Decimal s v ∧ s.length ≤ 3 ∧ 1 ≤ v ∧ v ≤ 366 ∧ tm' = { tm with yday := .ofNat (v - 1) }
  | 'p' => ∃ (ws : List Nat) (t : List UInt8) (pm : Bool) (h : Int32), (∀ c ∈ ws, c ∈ unicodeSpaces) ∧ s = utf8s ws ++ t
      ∧ SameText t (text (if pm then "PM" else "AM"))
      ∧ (1 ≤ tm.hour.toInt ∧ tm.hour.toInt ≤ 12 → h.toInt = tm.hour.toInt % 12 + if pm then 12 else 0)
      ∧ tm' = { tm with hour := h }
  | 'a' | 'A' => ∃ i, i < 7 ∧ (SameText s (text (weekdays.getD i "")) ∨ SameText s ((text (weekdays.getD i "")).take 3))
      ∧ tm' = { tm with wday := .ofNat i }
  | 'b' | 'h' | 'B' => ∃ i, i < 12 ∧ (SameText s (text (months.getD i "")) ∨ SameText s ((text (months.getD i "")).take 3))
      ∧ tm' = { tm with mon := .ofNat i }
  | _ => False

/-- The conversions that stand for formats. -/
def abbreviates : Char → Option String
  | 'D' => some "%m/%d/%y"
  | 'F' => some "%Y-%m-%d"
  | 'T' => some "%H:%M:%S"
  | _ => none

/-- A conversion specification in the format; the modifiers make no difference in the POSIX locale. -/
def Specifies (p : List Char) (c : Char) : Prop := p = ['%', c] ∨ p = ['%', 'E', c] ∨ p = ['%', 'O', c]

/-- The text `s` is as the format says, and this is what it means for the structure. -/
inductive Matches : List Char → List UInt8 → Tm → Tm → Prop
  | done {tm} : Matches [] [] tm tm
  | byte {c f s tm tm'} : c ≠ '%' → Matches f s tm tm' → Matches (c :: f) (byteOf c :: s) tm tm'
  | conversion {p c f s s' tm t tm'} : Specifies p c → Means c s tm t → Matches f s' t tm' → Matches (p ++ f) (s ++ s') tm tm'
  | format {p c g f s s' tm t tm'} : Specifies p c → abbreviates c = some g → Matches g.toList s tm t → Matches f s' t tm' →
      Matches (p ++ f) (s ++ s') tm tm'

/-- The next byte, if there is one, is not such. -/
def NotNext (p : UInt8 → Prop) (i : List UInt8) : Prop := ∀ b, i.head? = some b → ¬ p b

/-- A letter. -/
def IsLetter (b : UInt8) : Prop := 0x41 ≤ fold b - 0x20 ∧ fold b - 0x20 ≤ 0x5A

/-- The text for a conversion ends here, with `i` following. This is where the function differs from POSIX: names have to be those of the conversion (the
abbreviation for `%a` and `%b`), a year is as long as there are digits, a vertical tab is not white space, `%p` has to follow `%I`. -/
def Ends (c : Char) (s i : List UInt8) (tm : Tm) : Prop :=
  match c with
  | 'd' | 'e' | 'm' | 'y' | 'H' | 'I' | 'M' | 'S' => s.length = 2 ∨ NotNext IsDigit i
  | 'j' => s.length = 3 ∨ NotNext IsDigit i
  | 'Y' => NotNext IsDigit i
  | 'a' | 'b' | 'h' => s.length = 3 ∧ NotNext IsLetter i
  | 'A' => ∃ name ∈ weekdays, SameText s (text name)
  | 'B' => ∃ name ∈ months, SameText s (text name)
  | 'n' | 't' => 0x0B ∉ s ∧ NotNext IsSpace i
  | 'p' => 1 ≤ tm.hour.toInt ∧ tm.hour.toInt ≤ 12
  | _ => True

/-- The input `i` begins with a text that is as the format says, which means this for the structure; `rest` is what follows. -/
inductive Reads : List Char → List UInt8 → List UInt8 → Tm → Tm → Prop
  | done {i tm} : Reads [] i i tm tm
  | byte {c f i rest tm tm'} : c ≠ '%' → Reads f i rest tm tm' → Reads (c :: f) (byteOf c :: i) rest tm tm'
  | conversion {p c f s i rest tm t tm'} : Specifies p c → Means c s tm t → Ends c s i tm → Reads f i rest t tm' →
      Reads (p ++ f) (s ++ i) rest tm tm'
  | format {p c g f i j rest tm t tm'} : Specifies p c → abbreviates c = some g → Reads g.toList i j tm t → Reads f j rest t tm' →
      Reads (p ++ f) i rest tm tm'

/-- A format in ASCII. -/
def Ascii (f : List Char) : Prop := ∀ c ∈ f, c.toNat < 0x80

/-! ## UTF-8 -/

/-- The bytes are UTF-8. -/
def Valid (i : List UInt8) : Prop := (toStr i).isSome

theorem valid_nil : Valid [] := rfl

theorem toStr_low {a : UInt8} (l : List UInt8) (h : a < 0x80) : toStr (a :: l) = (toStr l).map (Char.ofNat a.toNat :: ·) := by
  rw [toStr.eq_def]
  dsimp only
  rw [if_pos h]

theorem valid_ascii {a : UInt8} (l : List UInt8) (h : a < 0x80) : Valid (a :: l) ↔ Valid l := by
  unfold Valid
  rw [toStr_low l h]
  simp

theorem valid_append {w : List UInt8} (i : List UInt8) (h : ∀ b ∈ w, b < 0x80) : Valid (w ++ i) ↔ Valid i := by
  induction w with
  | nil => exact Iff.rfl
  | cons b w ih =>
    rw [List.cons_append, valid_ascii _ (h b (List.mem_cons_self ..)), ih fun x hx => h x (List.mem_cons_of_mem _ hx)]

theorem valid_head {b : UInt8} {l : List UInt8} (h : Valid (b :: l)) : cont b = false := by
  cases hb : cont b with
  | false => rfl
  | true =>
    exfalso
    unfold cont at hb
    simp only [Bool.and_eq_true, decide_eq_true_eq] at hb
    unfold Valid at h
    have h1 : ¬ b < 0x80 := UInt8.not_lt.2 hb.1
    have h2 : ¬ 0xC2 ≤ b := by rw [UInt8.le_iff_toNat_le]; have := UInt8.lt_iff_toNat_lt.1 hb.2; simp at this ⊢; omega
    have h3 : ¬ 0xE0 ≤ b := by rw [UInt8.le_iff_toNat_le]; have := UInt8.lt_iff_toNat_lt.1 hb.2; simp at this ⊢; omega
    have h4 : ¬ 0xF0 ≤ b := by rw [UInt8.le_iff_toNat_le]; have := UInt8.lt_iff_toNat_lt.1 hb.2; simp at this ⊢; omega
    rw [toStr.eq_def] at h
    dsimp only at h
    rw [if_neg h1] at h
    simp only [h2, h3, h4, decide_false, Bool.false_and, Bool.false_eq_true, if_false] at h
    cases l with
    | nil => simp at h
    | cons c l => cases l with
      | nil => simp at h
      | cons d l => cases l <;> simp at h

theorem slice_eq {i : List UInt8} (h : Valid i) : slice i = some i := by
  unfold slice
  cases i with
  | nil => rfl
  | cons b l => simp only [valid_head h]; rfl

theorem get_eq {t i : List UInt8} (h : Valid i) : get (t ++ i) t.length = some t := by
  unfold get
  rw [if_neg (by simp), List.drop_left]
  cases i with
  | nil => simp
  | cons b l => simp only [valid_head h, List.take_left]; rfl

theorem get_some {s t : List UInt8} {n : Nat} (h : get s n = some t) : t.length = n ∧ s = t ++ s.drop n := by
  unfold get at h
  split at h
  · cases h
  · rename_i hn
    have hd : s.take n = t ∨ s.drop n = [] ∧ s = t := by
      split at h
      · split at h
        · cases h
        · injection h with h; exact .inl h
      · rename_i hd
        injection h with h
        exact .inr ⟨hd, h⟩
    rcases hd with h | ⟨hd, h⟩
    · subst h
      exact ⟨by rw [List.length_take]; omega, (List.take_append_drop n s).symm⟩
    · subst h
      rw [hd, List.append_nil]
      have := congrArg List.length hd
      rw [List.length_drop, List.length_nil] at this
      exact ⟨by omega, rfl⟩

/-- The format's characters are its bytes. -/
theorem toStr_ascii {f : List Char} (h : Ascii f) : toStr (f.map byteOf) = some f := by
  induction f with
  | nil => rfl
  | cons c f ih =>
    have hc := h c (List.mem_cons_self ..)
    have hb : (byteOf c).toNat = c.toNat := by unfold byteOf; rw [UInt8.toNat_ofNat']; omega
    rw [List.map_cons, toStr_low _ (by rw [UInt8.lt_iff_toNat_lt, hb]; exact hc), ih fun x hx => h x (List.mem_cons_of_mem _ hx), hb,
      Char.ofNat_toNat]
    rfl

theorem cont_iff {b : UInt8} : cont b = true ↔ 0x80 ≤ b.toNat ∧ b.toNat < 0xC0 := by
  unfold cont
  rw [Bool.and_eq_true, decide_eq_true_eq, decide_eq_true_eq, UInt8.le_iff_toNat_le, UInt8.lt_iff_toNat_lt]
  exact Iff.rfl

/-- A character in front. -/
theorem valid_utf8 {c : Nat} (l : List UInt8) (h : Scalar c) : Valid (utf8 c ++ l) ↔ Valid l := by
  obtain ⟨bs, hf, he⟩ := Verif.Wchar.utf8_form h
  rw [he]
  cases hf with
  | one h1 =>
    exact valid_ascii l (by rw [UInt8.lt_iff_toNat_lt, UInt8.toNat_ofNat']; show _ < 128; omega)
  | @two x y h1 h2 hx hy =>
    change Valid (UInt8.ofNat x :: UInt8.ofNat y :: l) ↔ _
    unfold Valid
    rw [toStr.eq_def]
    have tx : (UInt8.ofNat x).toNat = x := by rw [UInt8.toNat_ofNat']; omega
    have ty : (UInt8.ofNat y).toNat = y := by rw [UInt8.toNat_ofNat']; omega
    have c1 : cont (UInt8.ofNat y) = true := by rw [cont_iff, ty]; omega
    dsimp only
    rw [if_neg (by rw [UInt8.lt_iff_toNat_lt, tx]; show ¬ _ < 128; omega), if_pos (by
      rw [c1, Bool.and_true, Bool.and_eq_true, decide_eq_true_eq, decide_eq_true_eq, UInt8.le_iff_toNat_le, UInt8.lt_iff_toNat_lt, tx]
      show 194 ≤ _ ∧ _ < 224
      omega)]
    simp
  | @three x y z h1 h2 hx hy hz =>
    change Valid (UInt8.ofNat x :: UInt8.ofNat y :: UInt8.ofNat z :: l) ↔ _
    unfold Valid
    rw [toStr.eq_def]
    have tx : (UInt8.ofNat x).toNat = x := by rw [UInt8.toNat_ofNat']; omega
    have ty : (UInt8.ofNat y).toNat = y := by rw [UInt8.toNat_ofNat']; omega
    have tz : (UInt8.ofNat z).toNat = z := by rw [UInt8.toNat_ofNat']; omega
    have c1 : cont (UInt8.ofNat y) = true := by rw [cont_iff, ty]; omega
    have c2 : cont (UInt8.ofNat z) = true := by rw [cont_iff, tz]; omega
    have hn : x % 16 * 4096 + y % 64 * 64 + z % 64 = c := by omega
    dsimp only
    rw [if_neg (by rw [UInt8.lt_iff_toNat_lt, tx]; show ¬ _ < 128; omega), if_neg (by
      rw [c1, Bool.and_true, Bool.and_eq_true, decide_eq_true_eq, decide_eq_true_eq, UInt8.le_iff_toNat_le, UInt8.lt_iff_toNat_lt, tx]
      show ¬ (194 ≤ _ ∧ _ < 224)
      omega), if_pos (by
      rw [c1, c2, tx, ty, tz, hn]
      simp only [Bool.and_true, Bool.and_eq_true, Bool.or_eq_true, decide_eq_true_eq, UInt8.le_iff_toNat_le, UInt8.lt_iff_toNat_lt, tx]
      refine ⟨⟨⟨?_, ?_⟩, h1⟩, ?_⟩
      · show 224 ≤ _; omega
      · show _ < 240; omega
      · unfold Scalar at h; omega)]
    simp
  | @four x y z w h1 h2 hx hy hz hw =>
    change Valid (UInt8.ofNat x :: UInt8.ofNat y :: UInt8.ofNat z :: UInt8.ofNat w :: l) ↔ _
    unfold Valid
    rw [toStr.eq_def]
    have tx : (UInt8.ofNat x).toNat = x := by rw [UInt8.toNat_ofNat']; omega
    have ty : (UInt8.ofNat y).toNat = y := by rw [UInt8.toNat_ofNat']; omega
    have tz : (UInt8.ofNat z).toNat = z := by rw [UInt8.toNat_ofNat']; omega
    have tw : (UInt8.ofNat w).toNat = w := by rw [UInt8.toNat_ofNat']; omega
    have c1 : cont (UInt8.ofNat y) = true := by rw [cont_iff, ty]; omega
    have c2 : cont (UInt8.ofNat z) = true := by rw [cont_iff, tz]; omega
    have c3 : cont (UInt8.ofNat w) = true := by rw [cont_iff, tw]; omega
    have hn : x % 8 * 262144 + y % 64 * 4096 + z % 64 * 64 + w % 64 = c := by omega
    dsimp only
    rw [if_neg (by rw [UInt8.lt_iff_toNat_lt, tx]; show ¬ _ < 128; omega), if_neg (by
      rw [c1, Bool.and_true, Bool.and_eq_true, decide_eq_true_eq, decide_eq_true_eq, UInt8.le_iff_toNat_le, UInt8.lt_iff_toNat_lt, tx]
      show ¬ (194 ≤ _ ∧ _ < 224)
      omega), if_neg (by
      simp only [Bool.and_eq_true, decide_eq_true_eq, UInt8.lt_iff_toNat_lt, tx]
      rintro ⟨⟨⟨⟨⟨_, h⟩, _⟩, _⟩, _⟩, _⟩
      change _ < 240 at h
      omega), if_pos (by
      rw [c1, c2, c3, tx, ty, tz, tw, hn]
      simp only [Bool.and_true, Bool.and_eq_true, decide_eq_true_eq, UInt8.le_iff_toNat_le, UInt8.lt_iff_toNat_lt, tx]
      refine ⟨⟨⟨?_, ?_⟩, h1⟩, h2⟩
      · show 240 ≤ _; omega
      · show _ < 245; omega)]
    simp

theorem valid_utf8s {cs : List Nat} (l : List UInt8) (h : ∀ c ∈ cs, Scalar c) : Valid (utf8s cs ++ l) ↔ Valid l := by
  induction cs with
  | nil => exact Iff.rfl
  | cons c cs ih =>
    unfold utf8s
    rw [List.flatMap_cons, List.append_assoc, valid_utf8 _ (h c (List.mem_cons_self ..))]
    exact ih fun x hx => h x (List.mem_cons_of_mem _ hx)

theorem spaces_scalar : ∀ c ∈ unicodeSpaces, Scalar c := by
  unfold Scalar
  decide

theorem trimStart_sound (i : List UInt8) : ∃ ws : List Nat, (∀ c ∈ ws, c ∈ unicodeSpaces) ∧ i = utf8s ws ++ trimStart i := by
  have step : ∀ (c : Nat) (l : List UInt8), c ∈ unicodeSpaces →
      (∃ ws : List Nat, (∀ c ∈ ws, c ∈ unicodeSpaces) ∧ l = utf8s ws ++ trimStart l) →
      ∃ ws : List Nat, (∀ c ∈ ws, c ∈ unicodeSpaces) ∧ utf8 c ++ l = utf8s ws ++ trimStart l := by
    rintro c l hc ⟨ws, h1, h2⟩
    refine ⟨c :: ws, fun x hx => ?_, ?_⟩
    · rcases List.mem_cons.1 hx with h | h
      · rw [h]; exact hc
      · exact h1 x h
    · show utf8 c ++ l = (utf8 c ++ utf8s ws) ++ trimStart l
      rw [List.append_assoc, ← h2]
  have stop : ∀ l : List UInt8, ∃ ws : List Nat, (∀ c ∈ ws, c ∈ unicodeSpaces) ∧ l = utf8s ws ++ l :=
    fun l => ⟨[], by simp, rfl⟩
  fun_induction trimStart i with
  | case1 b l hb ih =>
    rcases hb with h | h <;> subst h
    · exact step 0x85 l (by decide) ih
    · exact step 0xA0 l (by decide) ih
  | case3 l ih => exact step 0x1680 l (by decide) ih
  | case4 b l hb ih =>
    have key : ∀ b : UInt8, (0x80 ≤ b ∧ b ≤ 0x8A ∨ b = 0xA8 ∨ b = 0xA9 ∨ b = 0xAF) →
        (0x2000 + (b.toNat - 0x80)) ∈ unicodeSpaces ∧ utf8 (0x2000 + (b.toNat - 0x80)) = [0xE2, 0x80, b] :=
      byte_table (by decide +kernel)
    have := step _ l (key b hb).1 ih
    rw [(key b hb).2] at this
    exact this
  | case6 l ih => exact step 0x205F l (by decide) ih
  | case7 l ih => exact step 0x3000 l (by decide) ih
  | case8 b l _ _ _ _ _ hb ih =>
    have key : ∀ b : UInt8, (b = 0x20 ∨ 9 ≤ b ∧ b ≤ 13) → b.toNat ∈ unicodeSpaces ∧ utf8 b.toNat = [b] := byte_table (by decide +kernel)
    have := step _ l (key b hb).1 ih
    rw [(key b hb).2] at this
    exact this
  | case10 => exact stop _
  | _ => exact stop _

/-! ## Numbers -/

def value (v : Nat) (t : List UInt8) : Nat := t.foldl (fun n b => 10 * n + (b.toNat - 48)) v

theorem digit_iff {c : UInt8} : (decide (0x30 ≤ c) && decide (c ≤ 0x39)) = true ↔ IsDigit c := by
  unfold IsDigit
  simp

theorem parseIntLoop_sound {w : Nat} {var : Bool} {s : List UInt8} {v n v' n' : Nat} (h : parseIntLoop w var s v n = some (v', n')) :
    ∃ t, s = t ++ s.drop (n' - n) ∧ n' = n + t.length ∧ v' = value v t ∧ (∀ b ∈ t, IsDigit b) ∧ (v < 2 ^ 31 → v' < 2 ^ 31)
      ∧ (var = false → n < w → n' ≤ w) := by
  induction s generalizing v n with
  | nil =>
    unfold parseIntLoop at h
    injection h with h; injection h with h1 h2
    subst h1 h2
    exact ⟨[], by simp, by simp, rfl, by simp, id, fun _ h => by omega⟩
  | cons c s ih =>
    unfold parseIntLoop at h
    split at h
    · rename_i hd
      rw [digit_iff] at hd
      dsimp only at h
      split at h
      · cases h
      · rename_i hlt
        have hv : v * 10 + (c.toNat - 0x30) = 10 * v + (c.toNat - 48) := by omega
        split at h
        · injection h with h; injection h with h1 h2
          subst h1 h2
          rename_i hw
          simp only [Bool.and_eq_true, decide_eq_true_eq] at hw
          refine ⟨[c], ?_, rfl, by unfold value; rw [hv]; rfl, by simpa using hd, fun _ => by omega, fun _ _ => by omega⟩
          rw [show n + 1 - n = 1 by omega]
          rfl
        · rename_i hw
          obtain ⟨t, h1, h2, h3, h4, h5, h6⟩ := ih h
          refine ⟨c :: t, ?_, by rw [List.length_cons]; omega, ?_, ?_, fun _ => h5 (by omega), fun e hn => ?_⟩
          · have : n' - n = (n' - (n + 1)) + 1 := by omega
            rw [this, List.drop_succ_cons, List.cons_append, ← h1]
          · rw [h3, hv]; rfl
          · intro b hb
            rcases List.mem_cons.1 hb with h | h
            · rw [h]; exact hd
            · exact h4 b h
          · apply h6 e
            rw [e] at hw
            simp only [Bool.not_false, Bool.and_true, decide_eq_true_eq] at hw
            omega
    · injection h with h; injection h with h1 h2
      subst h1 h2
      exact ⟨[], by simp, by simp, rfl, by simp, id, fun _ h => by omega⟩

theorem parseInt_sound {w : Nat} {var : Bool} {s : List UInt8} {v n : Nat} (h : parseInt s w var = some (v, n)) (hw : 0 < w) :
    ∃ t, s = t ++ s.drop n ∧ Decimal t v ∧ v < 2 ^ 31 ∧ (var = false → t.length ≤ w) := by
  unfold parseInt at h
  split at h
  · cases h
  · rename_i v' n' hl
    split at h
    · cases h
    · rename_i hn
      injection h with h; injection h with h1 h2
      subst h1 h2
      obtain ⟨t, h1, h2, h3, h4, h5, h6⟩ := parseIntLoop_sound hl
      refine ⟨t, h1, ⟨?_, h4, h3⟩, h5 (by decide), fun e => by have := h6 e hw; omega⟩
      rintro rfl
      simp at h2
      exact hn h2

theorem digit_ascii {b : UInt8} (h : IsDigit b) : b < 0x80 := by
  have := h.2
  rw [UInt8.le_iff_toNat_le] at this
  rw [UInt8.lt_iff_toNat_lt]
  change _ ≤ 57 at this
  show _ < 128
  omega

/-! ## Names -/

theorem eqIgnoreCase_iff {s t : List UInt8} : eqIgnoreCase s t = true ↔ SameText s t := by
  unfold eqIgnoreCase
  rw [beq_iff_eq]
  exact Iff.rfl

theorem fold_low (b : UInt8) : fold b < 0x80 ↔ b < 0x80 := by
  revert b
  exact byte_table (by decide +kernel)

theorem SameText.ascii {s t : List UInt8} (h : SameText s t) (ht : ∀ b ∈ t, b < 0x80) : ∀ b ∈ s, b < 0x80 := by
  intro b hb
  have : fold b ∈ t.map fold := by
    rw [← show s.map fold = t.map fold from h]
    exact List.mem_map_of_mem hb
  obtain ⟨x, hx, e⟩ := List.mem_map.1 this
  rw [← fold_low, ← e, fold_low]
  exact ht x hx

theorem parseName_sound {s : List UInt8} {table : List String} {j i n : Nat} (h : parseName s table j = some (i, n)) :
    ∃ k name, table[k]? = some name ∧ i = j + k ∧ ∃ t, s = t ++ s.drop n ∧ SameText t (text name) := by
  induction table generalizing j with
  | nil => cases h
  | cons name table ih =>
    unfold parseName at h
    have next : parseName s table (j + 1) = some (i, n) →
        ∃ k name', (name :: table)[k]? = some name' ∧ i = j + k ∧ ∃ t, s = t ++ s.drop n ∧ SameText t (text name') := by
      intro h
      obtain ⟨k, nm, h1, h2, h3⟩ := ih h
      exact ⟨k + 1, nm, h1, by omega, h3⟩
    split at h
    · rename_i sub hg
      split at h
      · rename_i he
        injection h with h; injection h with h1 h2
        subst h1 h2
        exact ⟨0, name, rfl, rfl, sub, (get_some hg).2, eqIgnoreCase_iff.1 he⟩
      · exact next h
    · exact next h

/-! ## Soundness -/

/-- What a conversion does is right if it succeeds. -/
def ConvSound (c : Char) (i : List UInt8) (tm : Tm) (r : Res) : Prop :=
  ∃ p, r = some p ∧ ∀ rest, p.2 = some rest → Valid rest ∧ ∃ s, i = s ++ rest ∧
    (Means c s tm p.1 ∨ ∃ g, abbreviates c = some g ∧ Matches g.toList s tm p.1)

/-- The same for a format. -/
def Sound (f : List Char) (i : List UInt8) (tm : Tm) (r : Res) : Prop :=
  ∃ p, r = some p ∧ ∀ rest, p.2 = some rest → Valid rest ∧ ∃ s, i = s ++ rest ∧ Matches f s tm p.1

theorem fail_sound (c : Char) (i : List UInt8) (tm t : Tm) : ConvSound c i tm (some (t, none)) :=
  ⟨_, rfl, fun _ h => by cases h⟩

theorem number_sound {c : Char} {i : List UInt8} {w : Nat} {var : Bool} {tm : Tm} {store : Nat → Tm × Bool} (hi : Valid i) (hw : 0 < w)
    (h : ∀ t v, Decimal t v → v < 2 ^ 31 → (var = false → t.length ≤ w) → (store v).2 = true → Means c t tm (store v).1) :
    ConvSound c i tm (number i w var tm store) := by
  unfold number
  rw [slice_eq hi]
  show ConvSound c i tm (match parseInt i w var with
    | none => some (tm, none)
    | some (val, len) => _)
  cases hp : parseInt i w var with
  | none => exact fail_sound c i tm tm
  | some r =>
    obtain ⟨v, n⟩ := r
    obtain ⟨t, h1, h2, h3, h4⟩ := parseInt_sound hp hw
    refine ⟨_, rfl, fun rest hr => ?_⟩
    dsimp only at hr ⊢
    split at hr
    · rename_i hok
      injection hr with hr
      rw [hr] at h1
      rw [h1, valid_append _ fun b hb => digit_ascii (h2.2.1 b hb)] at hi
      exact ⟨hi, t, h1, .inl (h t v h2 h3 h4 hok)⟩
    · cases hr

theorem named_sound {c : Char} {i : List UInt8} {table : List String} {tm : Tm} {store : Nat → Tm} (hi : Valid i)
    (ht : ∀ name ∈ table, ∀ b ∈ text name, b < 0x80)
    (h : ∀ (k : Nat) (name : String) t, table[k]? = some name → SameText t (text name) → Means c t tm (store k)) :
    ConvSound c i tm (named i table tm store) := by
  unfold named
  rw [slice_eq hi]
  show ConvSound c i tm (match parseName i table 0 with
    | none => some (tm, none)
    | some (k, len) => _)
  cases hp : parseName i table 0 with
  | none => exact fail_sound c i tm tm
  | some r =>
    obtain ⟨k, n⟩ := r
    obtain ⟨k', name, h1, h2, t, h3, h4⟩ := parseName_sound hp
    rw [Nat.zero_add] at h2
    subst h2
    refine ⟨_, rfl, fun rest hr => ?_⟩
    injection hr with hr
    rw [hr] at h3
    rw [h3, valid_append _ (h4.ascii (ht name (List.mem_of_getElem? h1)))] at hi
    exact ⟨hi, t, h3, .inl (h _ name t h1 h4)⟩

theorem subformat_sound {nested : List Char → List UInt8 → Tm → Res} {c : Char} {i : List UInt8} {g : String} {tm : Tm} (hi : Valid i)
    (hc : abbreviates c = some g) (hn : Sound g.toList i tm (nested g.toList i tm)) : ConvSound c i tm (applySubformat nested i g tm) := by
  unfold applySubformat
  rw [slice_eq hi]
  obtain ⟨⟨t, r⟩, h1, h2⟩ := hn
  show ConvSound c i tm ((nested g.toList i tm).bind _)
  rw [h1]
  cases r with
  | none => exact fail_sound c i tm tm
  | some rest =>
    refine ⟨_, rfl, fun r hr => ?_⟩
    obtain ⟨h3, s, h4, h5⟩ := h2 r hr
    exact ⟨h3, s, h4, .inr ⟨g, hc, h5⟩⟩

theorem tables_ascii : (∀ name ∈ shortDays, ∀ b ∈ text name, b < 0x80) ∧ (∀ name ∈ longDays, ∀ b ∈ text name, b < 0x80)
    ∧ (∀ name ∈ shortMonths, ∀ b ∈ text name, b < 0x80) ∧ (∀ name ∈ longMonths, ∀ b ∈ text name, b < 0x80) := by decide +kernel

theorem tables_eq : (∀ k : Fin 7, shortDays[k.val]?.map text = some ((text (weekdays.getD k.val "")).take 3))
    ∧ (∀ k : Fin 7, longDays[k.val]?.map text = some (text (weekdays.getD k.val "")))
    ∧ (∀ k : Fin 12, shortMonths[k.val]?.map text = some ((text (months.getD k.val "")).take 3))
    ∧ (∀ k : Fin 12, longMonths[k.val]?.map text = some (text (months.getD k.val ""))) := by decide +kernel

theorem table_get {l : List String} {n : Nat} {f : Nat → List UInt8} (hl : l.length = n) (h : ∀ k : Fin n, l[k.val]?.map text = some (f k.val))
    {k : Nat} {name : String} (hk : l[k]? = some name) : k < n ∧ text name = f k := by
  obtain ⟨h1, h2⟩ := List.getElem?_eq_some_iff.1 hk
  have := h ⟨k, by omega⟩
  rw [hk] at this
  injection this with this
  exact ⟨by omega, this⟩

theorem ofNat_pred {v : Nat} (h1 : 1 ≤ v) (h2 : v < 2 ^ 31) : Int32.ofNat v - 1 = Int32.ofNat (v - 1) := by
  rw [← Int32.toInt_inj, i32_sub, Int32.toInt_ofNat_of_lt h2, Int32.toInt_ofNat_of_lt (by omega), lit1] <;>
  · try rw [Int32.toInt_ofNat_of_lt h2, lit1]
    omega

theorem ofNat_year {v : Nat} (h2 : v < 2 ^ 31) : Int32.ofNat v - 1900 = Int32.ofInt (v - 1900) := by
  rw [← Int32.toInt_inj, i32_sub, Int32.toInt_ofNat_of_lt h2, Int32.toInt_ofInt_of_le (by omega) (by omega), lit1900] <;>
  · try rw [Int32.toInt_ofNat_of_lt h2, lit1900]
    omega

/-- `%p` and the hour. -/
theorem hour_eq {h : Int32} (pm : Bool) (h1 : 1 ≤ h.toInt) (h2 : h.toInt ≤ 12) :
    (if h = 12 then (if pm then 12 else 0) else if pm then h + 12 else h).toInt = h.toInt % 12 + if pm then 12 else 0 := by
  have key : ∀ (n : Fin 13) (pm : Bool), 1 ≤ n.val →
      (if Int32.ofNat n = 12 then (if pm then (12 : Int32) else 0) else if pm then Int32.ofNat n + 12 else Int32.ofNat n).toInt
        = ((n.val : Int) % 12 + if pm then 12 else 0) := by decide +kernel
  have := key ⟨h.toInt.toNat, by omega⟩ pm (by dsimp only; omega)
  dsimp only at this
  rw [← i32_nat (by omega), Int.toNat_of_nonneg (by omega)] at this
  exact this

theorem am_sound {i : List UInt8} {pm : Bool} {n : Nat} (hi : Valid i) (h : parseAmPm i = some (pm, n)) :
    Valid (i.drop n) ∧ ∃ (ws : List Nat) (t : List UInt8), (∀ c ∈ ws, c ∈ unicodeSpaces) ∧ i = (utf8s ws ++ t) ++ i.drop n
      ∧ SameText t (text (if pm then "PM" else "AM")) := by
  unfold parseAmPm at h
  obtain ⟨ws, h1, h2⟩ := trimStart_sound i
  generalize trimStart i = r at *
  have hlen : i.length - r.length = (utf8s ws).length := by
    rw [h2, List.length_append]
    omega
  dsimp only at h
  rw [hlen] at h
  have hr : Valid r := by
    rw [h2, valid_utf8s _ fun c hc => spaces_scalar c (h1 c hc)] at hi
    exact hi
  split at h
  · cases h
  · rename_i t hg
    obtain ⟨g1, g2⟩ := get_some hg
    have fin : ∀ b : Bool, SameText t (text (if b then "PM" else "AM")) → some (b, (utf8s ws).length + 2) = some (pm, n) →
        Valid (i.drop n) ∧ ∃ (ws : List Nat) (t : List UInt8), (∀ c ∈ ws, c ∈ unicodeSpaces) ∧ i = (utf8s ws ++ t) ++ i.drop n
          ∧ SameText t (text (if pm then "PM" else "AM")) := by
      intro b hb he
      injection he with he; injection he with e1 e2
      subst e1 e2
      have hd : i.drop ((utf8s ws).length + 2) = r.drop 2 := by
        rw [h2, List.drop_length_add_append]
      rw [hd]
      refine ⟨?_, ws, t, h1, ?_, hb⟩
      · rw [g2, valid_append _ (hb.ascii (by cases b <;> decide))] at hr
        exact hr
      · rw [List.append_assoc, ← g2]
        exact h2
    split at h
    · rename_i he
      exact fin false (eqIgnoreCase_iff.1 he) h
    · split at h
      · rename_i he
        exact fin true (eqIgnoreCase_iff.1 he) h
      · cases h

theorem asciiWhitespace_iff {b : UInt8} (h : asciiWhitespace b = true) : IsSpace b ∧ b < 0x80 := by
  unfold IsSpace
  exact byte_table (P := fun b => asciiWhitespace b = true → (b = 0x20 ∨ 9 ≤ b ∧ b ≤ 13) ∧ b < 0x80) (by decide +kernel) b h

theorem Decimal.lt {t : List UInt8} {v k : Nat} (h : Decimal t v) (hk : t.length ≤ k) : v < 10 ^ k := by
  obtain ⟨_, h2, h3⟩ := h
  have key : ∀ (t : List UInt8) (a m : Nat), (∀ b ∈ t, IsDigit b) → a < 10 ^ m →
      t.foldl (fun n b => 10 * n + (b.toNat - 48)) a < 10 ^ (m + t.length) := by
    intro t
    induction t with
    | nil => intro a m _ h; exact h
    | cons b t ih =>
      intro a m hd ha
      rw [List.foldl_cons, List.length_cons, show m + (t.length + 1) = (m + 1) + t.length by omega]
      apply ih _ _ fun x hx => hd x (List.mem_cons_of_mem _ hx)
      have hb := (hd b (List.mem_cons_self ..)).2
      rw [UInt8.le_iff_toNat_le] at hb
      change _ ≤ 57 at hb
      rw [Nat.pow_succ]
      omega
  have := key t 0 0 h2 (by decide)
  rw [← h3, Nat.zero_add] at this
  exact Nat.lt_of_lt_of_le this (Nat.pow_le_pow_right (by decide) hk)

theorem conversion_sound {nested : List Char → List UInt8 → Tm → Res} {c : Char} {i : List UInt8} {tm : Tm} (hi : Valid i)
    (hn : ∀ g, abbreviates c = some g → Sound g.toList i tm (nested g.toList i tm)) :
    ConvSound c i tm (conversion nested c i tm) := by
  obtain ⟨a1, a2, a3, a4⟩ := tables_ascii
  obtain ⟨t1, t2, t3, t4⟩ := tables_eq
  have hws : Valid (i.dropWhile asciiWhitespace) ∧ ∃ s, i = s ++ i.dropWhile asciiWhitespace ∧ ∀ b ∈ s, IsSpace b := by
    have h1 : ∀ b ∈ i.takeWhile asciiWhitespace, asciiWhitespace b = true := fun b hb => by
      have := List.all_takeWhile (p := asciiWhitespace) (l := i)
      exact List.all_eq_true.1 this b hb
    refine ⟨?_, _, List.takeWhile_append_dropWhile.symm, fun b hb => (asciiWhitespace_iff (h1 b hb)).1⟩
    rw [← List.takeWhile_append_dropWhile (p := asciiWhitespace) (l := i),
      valid_append _ fun b hb => (asciiWhitespace_iff (h1 b hb)).2] at hi
    exact hi
  unfold conversion
  split
  · exact ⟨_, rfl, fun rest hr => by
      injection hr with hr
      subst hr
      exact ⟨hws.1, _, hws.2.choose_spec.1, .inl ⟨hws.2.choose_spec.2, rfl⟩⟩⟩
  · exact ⟨_, rfl, fun rest hr => by
      injection hr with hr
      subst hr
      exact ⟨hws.1, _, hws.2.choose_spec.1, .inl ⟨hws.2.choose_spec.2, rfl⟩⟩⟩
  · split
    · exact ⟨_, rfl, fun rest hr => by
        injection hr with hr
        subst hr
        rw [valid_ascii _ (by decide)] at hi
        exact ⟨hi, [0x25], rfl, .inl ⟨by decide, rfl⟩⟩⟩
    · exact fail_sound _ _ _ _
  · refine number_sound hi (by decide) fun t v h1 _ h3 h4 => ?_
    simp only [Bool.and_eq_true, decide_eq_true_eq] at h4
    exact ⟨v, h1, h3 rfl, h4.1, h4.2, rfl⟩
  · refine number_sound hi (by decide) fun t v h1 _ h3 h4 => ?_
    simp only [Bool.and_eq_true, decide_eq_true_eq] at h4
    exact ⟨v, h1, h3 rfl, h4.1, h4.2, rfl⟩
  · refine number_sound hi (by decide) fun t v h1 h2 h3 h4 => ?_
    simp only [Bool.and_eq_true, decide_eq_true_eq] at h4
    refine ⟨v, h1, h3 rfl, h4.1, h4.2, ?_⟩
    dsimp only
    rw [ofNat_pred h4.1 h2]
  · refine number_sound hi (by decide) fun t v h1 h2 h3 h4 => ?_
    refine ⟨v, h1, h3 rfl, ?_⟩
    dsimp only
    have : (if 69 ≤ v then v + 1900 else v + 2000) - 1900 = if v < 69 then 100 + v else v := by split <;> split <;> omega
    rw [this]
  · refine number_sound hi (by decide) fun t v h1 h2 h3 h4 => ?_
    refine ⟨v, h1, h2, ?_⟩
    dsimp only
    rw [ofNat_year h2]
  · refine number_sound hi (by decide) fun t v h1 h2 h3 h4 => ?_
    split at h4
    · cases h4
    · exact ⟨v, h1, h3 rfl, by omega, by rw [if_neg (by omega)]⟩
  · refine number_sound hi (by decide) fun t v h1 h2 h3 h4 => ?_
    split at h4
    · cases h4
    · exact ⟨v, h1, h3 rfl, by omega, by omega, by rw [if_neg (by omega)]⟩
  · refine number_sound hi (by decide) fun t v h1 h2 h3 h4 => ?_
    split at h4
    · cases h4
    · exact ⟨v, h1, h3 rfl, by omega, by rw [if_neg (by omega)]⟩
  · refine number_sound hi (by decide) fun t v h1 h2 h3 h4 => ?_
    split at h4
    · cases h4
    · exact ⟨v, h1, h3 rfl, by omega, by rw [if_neg (by omega)]⟩
  · rw [slice_eq hi]
    show ConvSound 'p' i tm (match parseAmPm i with
      | none => some (tm, none)
      | some (isPm, used) => _)
    cases hp : parseAmPm i with
    | none => exact fail_sound _ _ _ _
    | some r =>
      obtain ⟨pm, n⟩ := r
      obtain ⟨h1, ws, t, h2, h3, h4⟩ := am_sound hi hp
      refine ⟨_, rfl, fun rest hr => ?_⟩
      injection hr with hr
      rw [← hr]
      exact ⟨h1, _, h3, .inl ⟨ws, t, pm, _, h2, rfl, h4, fun h => hour_eq pm h.1 h.2, rfl⟩⟩
  · exact named_sound hi a1 fun k name t hk ht => by
      obtain ⟨h1, h2⟩ := table_get (f := fun k => (text (weekdays.getD k "")).take 3) (n := 7) rfl t1 hk
      exact ⟨k, h1, .inr (by rw [h2] at ht; exact ht), rfl⟩
  · exact named_sound hi a2 fun k name t hk ht => by
      obtain ⟨h1, h2⟩ := table_get (f := fun k => text (weekdays.getD k "")) (n := 7) rfl t2 hk
      exact ⟨k, h1, .inl (by rw [h2] at ht; exact ht), rfl⟩
  · exact named_sound hi a3 fun k name t hk ht => by
      obtain ⟨h1, h2⟩ := table_get (f := fun k => (text (months.getD k "")).take 3) (n := 12) rfl t3 hk
      exact ⟨k, h1, .inr (by rw [h2] at ht; exact ht), rfl⟩
  · exact named_sound hi a3 fun k name t hk ht => by
      obtain ⟨h1, h2⟩ := table_get (f := fun k => (text (months.getD k "")).take 3) (n := 12) rfl t3 hk
      exact ⟨k, h1, .inr (by rw [h2] at ht; exact ht), rfl⟩
  · exact named_sound hi a4 fun k name t hk ht => by
      obtain ⟨h1, h2⟩ := table_get (f := fun k => text (months.getD k "")) (n := 12) rfl t4 hk
      exact ⟨k, h1, .inl (by rw [h2] at ht; exact ht), rfl⟩
  · refine number_sound hi (by decide) fun t v h1 h2 h3 h4 => ?_
    split at h4
    · cases h4
    · exact ⟨v, h1, h3 rfl, by omega, by omega, by rw [if_neg (by omega)]⟩
  · exact subformat_sound hi rfl (hn _ rfl)
  · exact subformat_sound hi rfl (hn _ rfl)
  · exact subformat_sound hi rfl (hn _ rfl)
  · exact fail_sound _ _ _ _

theorem byteOf_char {b : UInt8} {c : Char} (hc : c.toNat < 0x80) (h : Char.ofNat b.toNat = c) : b = byteOf c := by
  subst h
  have key : ∀ b : UInt8, b = byteOf (Char.ofNat b.toNat) := byte_table (by decide +kernel)
  exact key b

theorem loop_sound {nested : List Char → List UInt8 → Tm → Res} : ∀ (n : Nat) (f : List Char) (i : List UInt8) (tm : Tm), f.length ≤ n → Ascii f →
    Valid i → (∀ c ∈ f, ∀ g, abbreviates c = some g → ∀ i tm, Valid i → Sound g.toList i tm (nested g.toList i tm)) →
    Sound f i tm (loop nested f i tm) := by
  intro n
  induction n with
  | zero =>
    intro f i tm hl _ hi _
    have : f = [] := List.length_eq_zero_iff.1 (by omega)
    subst this
    exact ⟨_, rfl, fun rest hr => by
      injection hr with hr
      subst hr
      exact ⟨hi, [], rfl, .done⟩⟩
  | succ n ih =>
    intro f i tm hl hf hi hn
    cases f with
    | nil => exact ih [] i tm (by simp) hf hi hn
    | cons fc f =>
      have hl' : f.length ≤ n := by rw [List.length_cons] at hl; omega
      have hnull : ∀ (f : List Char) (t : Tm), Sound f i tm (some (t, none)) := fun f t => ⟨_, rfl, fun _ h => by cases h⟩
      have run : ∀ (p : List Char) (c : Char) (f : List Char), Specifies p c → f.length ≤ n → Ascii f →
          (∀ d ∈ c :: f, ∀ g, abbreviates d = some g → ∀ i tm, Valid i → Sound g.toList i tm (nested g.toList i tm)) →
          Sound (p ++ f) i tm (match conversion nested c i tm with
            | none => none
            | some (tm, none) => some (tm, none)
            | some (tm, some input) => loop nested f input tm) := by
        intro p c f hp hfl hfa hfn
        obtain ⟨⟨t, r⟩, h1, h2⟩ := conversion_sound (c := c) (tm := tm) (nested := nested) hi
          fun g hg => hfn c (List.mem_cons_self ..) g hg i tm hi
        rw [h1]
        cases r with
        | none => exact hnull _ t
        | some r =>
          obtain ⟨h3, s, h4, h5⟩ := h2 r rfl
          obtain ⟨q, g1, g2⟩ := ih f r t hfl hfa h3 fun d hd => hfn d (List.mem_cons_of_mem _ hd)
          refine ⟨q, g1, fun rest hr => ?_⟩
          obtain ⟨g3, s', g4, g5⟩ := g2 rest hr
          refine ⟨g3, s ++ s', by rw [h4, g4, List.append_assoc], ?_⟩
          rcases h5 with h5 | ⟨g, h5, h6⟩
          · exact .conversion hp h5 g5
          · exact .format hp h5 h6 g5
      unfold loop
      split
      · rename_i hp
        split
        · exact hnull _ tm
        · rename_i b l
          split
          · exact ⟨_, rfl, fun _ h => by cases h⟩
          · rename_i hb
            have hb := byteOf_char (hf fc (List.mem_cons_self ..)) (Classical.not_not.1 hb)
            have hlow : b < 0x80 := by
              rw [hb, UInt8.lt_iff_toNat_lt]
              unfold byteOf
              rw [UInt8.toNat_ofNat']
              have := hf fc (List.mem_cons_self ..)
              show _ < 128
              omega
            obtain ⟨q, g1, g2⟩ := ih f l tm hl' (fun x hx => hf x (List.mem_cons_of_mem _ hx)) ((valid_ascii l hlow).1 hi)
              fun d hd => hn d (List.mem_cons_of_mem _ hd)
            refine ⟨q, g1, fun rest hr => ?_⟩
            obtain ⟨g3, s', g4, g5⟩ := g2 rest hr
            exact ⟨g3, b :: s', by rw [g4]; rfl, by rw [hb]; exact .byte hp g5⟩
      · rename_i hp
        have hp : fc = '%' := Classical.not_not.1 hp
        subst hp
        split
        · exact hnull _ tm
        · rename_i spec f
          split
          · rename_i he
            split
            · exact hnull _ tm
            · rename_i c f
              refine run ['%', spec, c] c f ?_ ?_ ?_ ?_
              · rcases he with h | h <;> subst h
                · exact .inr (.inl rfl)
                · exact .inr (.inr rfl)
              · simp only [List.length_cons] at hl; omega
              · exact fun x hx => hf x (List.mem_cons_of_mem _ (List.mem_cons_of_mem _ (List.mem_cons_of_mem _ hx)))
              · exact fun x hx => hn x (List.mem_cons_of_mem _ (List.mem_cons_of_mem _ hx))
          · refine run ['%', spec] spec f (.inl rfl) ?_ ?_ ?_
            · simp only [List.length_cons] at hl; omega
            · exact fun x hx => hf x (List.mem_cons_of_mem _ (List.mem_cons_of_mem _ hx))
            · exact fun x hx => hn x (List.mem_cons_of_mem _ hx)

theorem abbreviates_plain {c : Char} {g : String} (h : abbreviates c = some g) :
    Ascii g.toList ∧ ∀ d ∈ g.toList, abbreviates d = none := by
  have key : ∀ g ∈ ["%m/%d/%y", "%Y-%m-%d", "%H:%M:%S"], (∀ d ∈ g.toList, d.toNat < 0x80) ∧ ∀ d ∈ g.toList, abbreviates d = none := by
    decide +kernel
  apply key
  unfold abbreviates at h
  split at h <;> first | (injection h with h; subst h; decide) | cases h

theorem inner_sound {f : List Char} {i : List UInt8} (tm : Tm) (hf : Ascii f) (hi : Valid i) : Sound f i tm (inner 1 f i tm) := by
  refine loop_sound f.length f i tm (Nat.le_refl _) hf hi fun c _ g hg i tm hi => ?_
  obtain ⟨h1, h2⟩ := abbreviates_plain hg
  exact loop_sound _ _ i tm (Nat.le_refl _) h1 hi fun d hd g' hg' => by rw [h2 d hd] at hg'; cases hg'

/-- C95: for a format in ASCII, `strptime` never crashes, whatever the input is. If it returns a pointer, this points into the input or at its end,
what lies in front of it is as the format says, and the structure is as this text means it: numbers are in their ranges, names exist, and no field is
changed that the format does not name. -/
theorem C95_sound (buf : List UInt8) {f : List Char} (tm : Tm) (hf : Ascii f) :
    ∃ tm' r, strptime buf (f.map byteOf) tm = some (tm', r) ∧
      ∀ rest, r = some rest → ∃ s, buf = s ++ rest ∧ Matches f s tm tm' := by
  unfold strptime
  rw [toStr_ascii hf]
  cases h : toStr buf with
  | none => exact ⟨tm, none, rfl, fun _ h => by cases h⟩
  | some cs =>
    obtain ⟨⟨t, r⟩, h1, h2⟩ := inner_sound tm hf (i := buf) (by unfold Valid; rw [h]; rfl)
    exact ⟨t, r, h1, fun rest hr => (h2 rest hr).2⟩

/-! ## Completeness -/

theorem value_ge (t : List UInt8) (v : Nat) : v ≤ value v t := by
  induction t generalizing v with
  | nil => exact Nat.le_refl _
  | cons b t ih =>
    have := ih (10 * v + (b.toNat - 48))
    show v ≤ value (10 * v + (b.toNat - 48)) t
    omega

theorem parseIntLoop_complete {w : Nat} {var : Bool} {t i : List UInt8} {v n : Nat} (hd : ∀ b ∈ t, IsDigit b) (hv : value v t < 2 ^ 31)
    (hw : var = false → n + t.length ≤ w) (he : NotNext IsDigit i ∨ var = false ∧ n + t.length = w ∧ t ≠ []) :
    parseIntLoop w var (t ++ i) v n = some (value v t, n + t.length) := by
  induction t generalizing v n with
  | nil =>
    rcases he with he | ⟨_, _, h⟩
    · cases i with
      | nil => rfl
      | cons b i =>
        show parseIntLoop w var (b :: i) v n = _
        unfold parseIntLoop
        rw [if_neg fun h => he b rfl (digit_iff.1 h)]
        rfl
    · exact absurd rfl h
  | cons c t ih =>
    rw [List.cons_append]
    unfold parseIntLoop
    rw [if_pos (digit_iff.2 (hd c (List.mem_cons_self ..)))]
    dsimp only
    have hval : v * 10 + (c.toNat - 0x30) = 10 * v + (c.toNat - 48) := by omega
    rw [hval]
    have hv' : value (10 * v + (c.toNat - 48)) t < 2 ^ 31 := hv
    have := value_ge t (10 * v + (c.toNat - 48))
    rw [if_neg (by omega)]
    rw [List.length_cons] at hw he
    by_cases hc : (decide (n + 1 = w) && !var) = true
    · rw [if_pos hc]
      simp only [Bool.and_eq_true, decide_eq_true_eq, Bool.not_eq_true'] at hc
      have := hw hc.2
      have : t = [] := List.length_eq_zero_iff.1 (by omega)
      subst this
      rfl
    · rw [if_neg hc]
      rw [ih (fun x hx => hd x (List.mem_cons_of_mem _ hx)) hv' (fun h => by have := hw h; omega)]
      · rw [List.length_cons]
        exact congrArg some (Prod.ext rfl (by dsimp only; omega))
      · rcases he with he | ⟨h1, h2, _⟩
        · exact .inl he
        · refine .inr ⟨h1, by omega, ?_⟩
          rintro rfl
          apply hc
          rw [h1]
          simp only [List.length_nil] at h2
          simp [← h2]

theorem number_complete {s i : List UInt8} {w v : Nat} {var : Bool} {tm : Tm} {store : Nat → Tm × Bool} (hi : Valid i) (hd : Decimal s v)
    (hv : v < 2 ^ 31) (hw : var = false → s.length ≤ w) (he : NotNext IsDigit i ∨ var = false ∧ s.length = w)
    (hs : (store v).2 = true) : number (s ++ i) w var tm store = some ((store v).1, some i) := by
  have hvalid : Valid (s ++ i) := (valid_append i fun b hb => digit_ascii (hd.2.1 b hb)).2 hi
  have hp : parseInt (s ++ i) w var = some (v, s.length) := by
    unfold parseInt
    rw [parseIntLoop_complete hd.2.1 (by rw [hd.2.2] at hv; exact hv) (by rw [Nat.zero_add]; exact hw)
      (by rw [Nat.zero_add]; exact he.imp_right fun h => ⟨h.1, h.2, hd.1⟩)]
    dsimp only
    rw [if_neg (by have := List.length_pos_iff.2 hd.1; omega), Nat.zero_add, hd.2.2]
    rfl
  unfold number
  rw [slice_eq hvalid]
  show (match parseInt (s ++ i) w var with
    | none => some (tm, none)
    | some (val, len) => _) = _
  rw [hp]
  dsimp only
  rw [hs, if_pos rfl, List.drop_left]

theorem parseName_complete {t i : List UInt8} {table : List String} {k j : Nat} {name : String} (hi : Valid i) (hk : table[k]? = some name)
    (ht : SameText t (text name)) (h3 : ∀ n ∈ table, 3 ≤ (text n).length)
    (hp : table.Pairwise fun a b => ((text a).take 3).map fold ≠ ((text b).take 3).map fold) :
    parseName (t ++ i) table j = some (j + k, t.length) := by
  have hlen : t.length = (text name).length := by
    have := congrArg List.length (show t.map fold = (text name).map fold from ht)
    simpa using this
  induction table generalizing k j with
  | nil => simp at hk
  | cons n0 table ih =>
    unfold parseName
    cases k with
    | zero =>
      injection hk with hk
      subst hk
      rw [← hlen, get_eq hi]
      dsimp only
      rw [if_pos (eqIgnoreCase_iff.2 ht)]
      rfl
    | succ k =>
      have hk : table[k]? = some name := hk
      have hmem := List.mem_of_getElem? hk
      have next := ih (j := j + 1) hk (fun n hn => h3 n (List.mem_cons_of_mem _ hn)) (List.pairwise_cons.1 hp).2
      rw [show j + (k + 1) = j + 1 + k by omega]
      split
      · rename_i sub hg
        rw [if_neg]
        · exact next
        · intro he
          have he := eqIgnoreCase_iff.1 he
          obtain ⟨g1, g2⟩ := get_some hg
          apply (List.pairwise_cons.1 hp).1 name hmem
          have l1 := h3 n0 (List.mem_cons_self ..)
          have l2 := h3 name (List.mem_cons_of_mem _ hmem)
          have e1 : sub.take 3 = t.take 3 := by
            have := congrArg (List.take 3) g2
            rw [List.take_append_of_le_length (by omega), List.take_append_of_le_length (by omega)] at this
            exact this.symm
          have e2 : (sub.take 3).map fold = ((text n0).take 3).map fold := by
            rw [List.map_take, List.map_take, show sub.map fold = (text n0).map fold from he]
          have e3 : (t.take 3).map fold = ((text name).take 3).map fold := by
            rw [List.map_take, List.map_take, show t.map fold = (text name).map fold from ht]
          rw [← e2, ← e3, e1]
      · exact next

theorem named_complete {s i : List UInt8} {table : List String} {tm : Tm} {store : Nat → Tm} {k : Nat} {name : String} (hi : Valid i)
    (hk : table[k]? = some name) (ht : SameText s (text name)) (ha : ∀ n ∈ table, ∀ b ∈ text n, b < 0x80)
    (h3 : ∀ n ∈ table, 3 ≤ (text n).length)
    (hp : table.Pairwise fun a b => ((text a).take 3).map fold ≠ ((text b).take 3).map fold) :
    named (s ++ i) table tm store = some (store k, some i) := by
  have hvalid : Valid (s ++ i) := (valid_append i (ht.ascii (ha name (List.mem_of_getElem? hk)))).2 hi
  unfold named
  rw [slice_eq hvalid]
  show (match parseName (s ++ i) table 0 with
    | none => some (tm, none)
    | some (i, len) => _) = _
  rw [parseName_complete hi hk ht h3 hp]
  dsimp only
  rw [List.drop_left, Nat.zero_add]

theorem tables_distinct : (∀ t ∈ [shortDays, longDays, shortMonths, longMonths], (∀ n ∈ t, 3 ≤ (text n).length)
    ∧ t.Pairwise fun a b => ((text a).take 3).map fold ≠ ((text b).take 3).map fold) := by decide +kernel

theorem trimStart_space {c : Nat} (l : List UInt8) (h : c ∈ unicodeSpaces) : trimStart (utf8 c ++ l) = trimStart l := by
  simp only [unicodeSpaces, List.mem_cons, List.not_mem_nil, or_false] at h
  rcases h with h | h | h | h | h | h | h | h | h | h | h | h | h | h | h | h | h | h | h | h | h | h | h | h | h <;> subst h <;> rfl

theorem trimStart_letter {b : UInt8} (l : List UInt8) (h : b = 0x41 ∨ b = 0x61 ∨ b = 0x50 ∨ b = 0x70) : trimStart (b :: l) = b :: l := by
  rcases h with h | h | h | h <;> subst h <;> rfl

theorem am_complete {ws : List Nat} {t i : List UInt8} {pm : Bool} (hi : Valid i) (hw : ∀ c ∈ ws, c ∈ unicodeSpaces)
    (ht : SameText t (text (if pm then "PM" else "AM"))) :
    Valid ((utf8s ws ++ t) ++ i) ∧ parseAmPm ((utf8s ws ++ t) ++ i) = some (pm, (utf8s ws ++ t).length) := by
  have hlen : t.length = 2 := by
    have := congrArg List.length (show t.map fold = _ from ht)
    rw [List.length_map, List.length_map] at this
    rw [this]
    cases pm <;> decide
  have hhead : trimStart (t ++ i) = t ++ i := by
    cases t with
    | nil => cases hlen
    | cons b t =>
      refine trimStart_letter _ ?_
      have hb : fold b = 0x61 ∨ fold b = 0x70 := by
        have := congrArg List.head? (show (b :: t).map fold = _ from ht)
        cases pm <;> simp only [List.map_cons, List.head?_cons] at this
        · left; injection this
        · right; injection this
      have key : ∀ b : UInt8, (fold b = 0x61 ∨ fold b = 0x70) → b = 0x41 ∨ b = 0x61 ∨ b = 0x50 ∨ b = 0x70 := byte_table (by decide +kernel)
      exact key b hb
  have htrim : trimStart (utf8s ws ++ (t ++ i)) = t ++ i := by
    clear ht
    induction ws with
    | nil => exact hhead
    | cons c ws ih =>
      show trimStart ((utf8 c ++ utf8s ws) ++ (t ++ i)) = _
      rw [List.append_assoc, trimStart_space _ (hw c (List.mem_cons_self ..))]
      exact ih fun x hx => hw x (List.mem_cons_of_mem _ hx)
  have hasc : ∀ b ∈ t, b < 0x80 := ht.ascii (by cases pm <;> decide)
  rw [List.append_assoc]
  refine ⟨(valid_utf8s _ fun c hc => spaces_scalar c (hw c hc)).2 ((valid_append i hasc).2 hi), ?_⟩
  unfold parseAmPm
  rw [htrim]
  dsimp only
  have hg : get (t ++ i) 2 = some t := by rw [← hlen]; exact get_eq hi
  have hdiff : (utf8s ws ++ (t ++ i)).length - (t ++ i).length = (utf8s ws).length := by rw [List.length_append]; omega
  rw [hg, hdiff, List.length_append, hlen]
  dsimp only
  cases pm with
  | false => rw [if_pos (show eqIgnoreCase t (text "AM") = true from eqIgnoreCase_iff.2 ht)]
  | true =>
    rw [if_neg, if_pos (show eqIgnoreCase t (text "PM") = true from eqIgnoreCase_iff.2 ht)]
    intro h
    have h := eqIgnoreCase_iff.1 h
    have := (show t.map fold = _ from ht).symm.trans h
    revert this
    decide

theorem space_complete {s i : List UInt8} (hs : ∀ b ∈ s, IsSpace b) (hv : (0x0B : UInt8) ∉ s) (he : NotNext IsSpace i) :
    (s ++ i).dropWhile asciiWhitespace = i := by
  induction s with
  | nil =>
    cases i with
    | nil => rfl
    | cons b i =>
      rw [List.nil_append, List.dropWhile_cons, if_neg]
      intro h
      exact he b rfl (asciiWhitespace_iff h).1
  | cons b s ih =>
    rw [List.cons_append, List.dropWhile_cons, if_pos]
    · exact ih (fun x hx => hs x (List.mem_cons_of_mem _ hx)) fun h => hv (List.mem_cons_of_mem _ h)
    · have key : ∀ b : UInt8, (b = 0x20 ∨ 9 ≤ b ∧ b ≤ 13) → b ≠ 0x0B → asciiWhitespace b = true := byte_table (by decide +kernel)
      exact key b (hs b (List.mem_cons_self ..)) fun h => hv (h ▸ List.mem_cons_self ..)

theorem table_of {l : List String} {n : Nat} {f : Nat → List UInt8} (h : ∀ k : Fin n, l[k.val]?.map text = some (f k.val)) {k : Nat} (hk : k < n) :
    ∃ name, l[k]? = some name ∧ text name = f k := by
  have := h ⟨k, hk⟩
  dsimp only at this
  cases hl : l[k]? with
  | none => rw [hl] at this; cases this
  | some name =>
    rw [hl] at this
    injection this with this
    exact ⟨name, rfl, this⟩

/-- The text of a conversion is the one of the table with abbreviations. -/
theorem abbreviation {s : List UInt8} {name : String} (hs : s.length = 3)
    (h : SameText s (text name) ∨ SameText s ((text name).take 3)) : SameText s ((text name).take 3) := by
  rcases h with h | h
  · have := congrArg List.length (show s.map fold = _ from h)
    rw [List.length_map, List.length_map, hs] at this
    rw [List.take_of_length_le (by omega)]
    exact h
  · exact h

/-- Names are different in the first three letters. -/
theorem names_distinct : ∀ t ∈ [weekdays, months], ∀ k ∈ List.range t.length, ∀ j ∈ List.range t.length,
    ((text (t.getD k "")).take 3).map fold = ((text (t.getD j "")).take 3).map fold → k = j := by decide +kernel

theorem full_name {s : List UInt8} {l : List String} {k : Nat} (hl : l ∈ [weekdays, months]) (hk : k < l.length)
    (h : SameText s (text (l.getD k "")) ∨ SameText s ((text (l.getD k "")).take 3)) (he : ∃ name ∈ l, SameText s (text name)) :
    SameText s (text (l.getD k "")) := by
  obtain ⟨name, h1, h2⟩ := he
  obtain ⟨j, hj, e⟩ := List.getElem_of_mem h1
  have e : l.getD j "" = name := by rw [List.getD_eq_getElem?_getD, List.getElem?_eq_getElem hj, e]; rfl
  rw [← e] at h2
  have t1 : (s.take 3).map fold = ((text (l.getD k "")).take 3).map fold := by
    rw [List.map_take, List.map_take]
    rcases h with h | h
    · rw [show s.map fold = _ from h]
    · rw [show s.map fold = _ from h, List.map_take, List.take_take]; rfl
  have t2 : (s.take 3).map fold = ((text (l.getD j "")).take 3).map fold := by
    rw [List.map_take, List.map_take, show s.map fold = _ from h2]
  have := names_distinct l hl k (List.mem_range.2 hk) j (List.mem_range.2 hj) (t1.symm.trans t2)
  subst this
  exact h2

theorem conversion_complete {nested : List Char → List UInt8 → Tm → Res} {c : Char} {s i : List UInt8} {tm t : Tm} (hi : Valid i)
    (hm : Means c s tm t) (he : Ends c s i tm) : Valid (s ++ i) ∧ conversion nested c (s ++ i) tm = some (t, some i) := by
  obtain ⟨a1, a2, a3, a4⟩ := tables_ascii
  obtain ⟨t1, t2, t3, t4⟩ := tables_eq
  have d1 := tables_distinct shortDays (by simp)
  have d2 := tables_distinct longDays (by simp)
  have d3 := tables_distinct shortMonths (by simp)
  have d4 := tables_distinct longMonths (by simp)
  have vdec : ∀ {s : List UInt8} {v : Nat}, Decimal s v → Valid (s ++ i) := fun h => (valid_append i fun b hb => digit_ascii (h.2.1 b hb)).2 hi
  have vname : ∀ {s : List UInt8} {l : List String} {k : Nat} {name : String}, (∀ n ∈ l, ∀ b ∈ text n, b < 0x80) → l[k]? = some name →
      SameText s (text name) → Valid (s ++ i) := fun ha hk h => (valid_append i (h.ascii (ha _ (List.mem_of_getElem? hk)))).2 hi
  have vspace : ∀ {s : List UInt8}, (∀ b ∈ s, IsSpace b) → Valid (s ++ i) := fun h =>
    (valid_append i fun b hb => by
      have key : ∀ b : UInt8, (b = 0x20 ∨ 9 ≤ b ∧ b ≤ 13) → b < 0x80 := byte_table (by decide +kernel)
      exact key b (h b hb)).2 hi
  have two : ∀ {s : List UInt8}, s.length = 2 ∨ NotNext IsDigit i → NotNext IsDigit i ∨ false = false ∧ s.length = 2 := fun h =>
    h.elim (fun h => .inr ⟨rfl, h⟩) .inl
  have small : ∀ {s : List UInt8} {v k : Nat}, Decimal s v → s.length ≤ k → k ≤ 3 → v < 2 ^ 31 := fun h hk h3 =>
    Nat.lt_of_lt_of_le (h.lt hk) (Nat.le_trans (Nat.pow_le_pow_right (by decide) h3) (by decide))
  unfold Means at hm
  unfold Ends at he
  split at hm
  · obtain ⟨h1, h2⟩ := hm
    subst h1 h2
    exact ⟨(valid_ascii i (by decide)).2 hi, rfl⟩
  · obtain ⟨h1, h2⟩ := hm
    subst h2
    refine ⟨vspace h1, ?_⟩
    show some (t, some ((s ++ i).dropWhile asciiWhitespace)) = _
    rw [space_complete h1 he.1 he.2]
  · obtain ⟨h1, h2⟩ := hm
    subst h2
    refine ⟨vspace h1, ?_⟩
    show some (t, some ((s ++ i).dropWhile asciiWhitespace)) = _
    rw [space_complete h1 he.1 he.2]
  · obtain ⟨v, h1, h2, h3, h4, rfl⟩ := hm
    exact ⟨vdec h1, number_complete (tm := tm) (store := fun val => ({ tm with mday := .ofNat val }, decide (1 ≤ val) && decide (val ≤ 31)))
      hi h1 (small h1 h2 (by decide)) (fun _ => h2) (two he) (by simp [h3, h4])⟩
  · obtain ⟨v, h1, h2, h3, h4, rfl⟩ := hm
    exact ⟨vdec h1, number_complete (tm := tm) (store := fun val => ({ tm with mday := .ofNat val }, decide (1 ≤ val) && decide (val ≤ 31)))
      hi h1 (small h1 h2 (by decide)) (fun _ => h2) (two he) (by simp [h3, h4])⟩
  · obtain ⟨v, h1, h2, h3, h4, rfl⟩ := hm
    refine ⟨vdec h1, ?_⟩
    have := number_complete (tm := tm) (store := fun val => ({ tm with mon := .ofNat val - 1 }, decide (1 ≤ val) && decide (val ≤ 12)))
      hi h1 (small h1 h2 (by decide)) (fun _ => h2) (two he) (by simp [h3, h4])
    dsimp only at this
    rw [ofNat_pred h3 (by omega)] at this
    exact this
  · obtain ⟨v, h1, h2, rfl⟩ := hm
    refine ⟨vdec h1, ?_⟩
    have := number_complete (tm := tm)
      (store := fun val => ({ tm with year := .ofNat ((if 69 ≤ val then val + 1900 else val + 2000) - 1900) }, true))
      hi h1 (small h1 h2 (by decide)) (fun _ => h2) (two he) rfl
    dsimp only at this
    rw [show (if 69 ≤ v then v + 1900 else v + 2000) - 1900 = if v < 69 then 100 + v else v by split <;> split <;> omega] at this
    exact this
  · obtain ⟨v, h1, h2, rfl⟩ := hm
    refine ⟨vdec h1, ?_⟩
    have := number_complete (tm := tm) (w := 4) (var := true) (store := fun val => ({ tm with year := .ofNat val - 1900 }, true))
      hi h1 h2 (fun h => by cases h) (.inl he) rfl
    dsimp only at this
    rw [ofNat_year h2] at this
    exact this
  · obtain ⟨v, h1, h2, h3, rfl⟩ := hm
    refine ⟨vdec h1, ?_⟩
    have := number_complete (tm := tm) (store := fun val => if val > 23 then (tm, false) else ({ tm with hour := .ofNat val }, true))
      hi h1 (small h1 h2 (by decide)) (fun _ => h2) (two he) (by rw [if_neg (by omega)])
    rw [if_neg (by omega)] at this
    exact this
  · obtain ⟨v, h1, h2, h3, h4, rfl⟩ := hm
    refine ⟨vdec h1, ?_⟩
    have := number_complete (tm := tm)
      (store := fun val => if ¬(1 ≤ val ∧ val ≤ 12) then (tm, false) else ({ tm with hour := .ofNat val }, true))
      hi h1 (small h1 h2 (by decide)) (fun _ => h2) (two he) (by rw [if_neg (by omega)])
    rw [if_neg (by omega)] at this
    exact this
  · obtain ⟨v, h1, h2, h3, rfl⟩ := hm
    refine ⟨vdec h1, ?_⟩
    have := number_complete (tm := tm) (store := fun val => if val > 59 then (tm, false) else ({ tm with min := .ofNat val }, true))
      hi h1 (small h1 h2 (by decide)) (fun _ => h2) (two he) (by rw [if_neg (by omega)])
    rw [if_neg (by omega)] at this
    exact this
  · obtain ⟨v, h1, h2, h3, rfl⟩ := hm
    refine ⟨vdec h1, ?_⟩
    have := number_complete (tm := tm) (store := fun val => if val > 60 then (tm, false) else ({ tm with sec := .ofNat val }, true))
      hi h1 (small h1 h2 (by decide)) (fun _ => h2) (two he) (by rw [if_neg (by omega)])
    rw [if_neg (by omega)] at this
    exact this
  · obtain ⟨v, h1, h2, h3, h4, rfl⟩ := hm
    refine ⟨vdec h1, ?_⟩
    have := number_complete (tm := tm)
      (store := fun val => if ¬(1 ≤ val ∧ val ≤ 366) then (tm, false) else ({ tm with yday := .ofNat (val - 1) }, true))
      hi h1 (small h1 h2 (by decide)) (fun _ => h2) (he.elim (fun h => .inr ⟨rfl, h⟩) .inl) (by rw [if_neg (by omega)])
    rw [if_neg (by omega)] at this
    exact this
  · obtain ⟨ws, u, pm, h, h1, rfl, h3, h4, rfl⟩ := hm
    obtain ⟨g1, g2⟩ := am_complete hi h1 h3
    refine ⟨g1, ?_⟩
    show (slice ((utf8s ws ++ u) ++ i)).bind (fun s => match parseAmPm s with
      | none => some (tm, none)
      | some (isPm, used) => some ({ tm with hour := if tm.hour = 12 then (if isPm then 12 else 0) else if isPm then tm.hour + 12 else tm.hour },
          some (s.drop used))) = _
    rw [slice_eq g1, Option.bind_some, g2]
    dsimp only
    rw [List.drop_left]
    have := (hour_eq pm he.1 he.2).trans (h4 he).symm
    rw [Int32.toInt_inj] at this
    rw [this]
  · obtain ⟨k, hk, h2, rfl⟩ := hm
    obtain ⟨name, g1, g2⟩ := table_of (f := fun k => (text (weekdays.getD k "")).take 3) t1 hk
    have h2 := abbreviation he.1 h2
    rw [← g2] at h2
    exact ⟨vname a1 g1 h2, named_complete hi g1 h2 a1 d1.1 d1.2⟩
  · obtain ⟨k, hk, h2, rfl⟩ := hm
    obtain ⟨name, g1, g2⟩ := table_of (f := fun k => text (weekdays.getD k "")) t2 hk
    have h2 := full_name (by simp) hk h2 he
    rw [← g2] at h2
    exact ⟨vname a2 g1 h2, named_complete hi g1 h2 a2 d2.1 d2.2⟩
  · obtain ⟨k, hk, h2, rfl⟩ := hm
    obtain ⟨name, g1, g2⟩ := table_of (f := fun k => (text (months.getD k "")).take 3) t3 hk
    have h2 := abbreviation he.1 h2
    rw [← g2] at h2
    exact ⟨vname a3 g1 h2, named_complete hi g1 h2 a3 d3.1 d3.2⟩
  · obtain ⟨k, hk, h2, rfl⟩ := hm
    obtain ⟨name, g1, g2⟩ := table_of (f := fun k => (text (months.getD k "")).take 3) t3 hk
    have h2 := abbreviation he.1 h2
    rw [← g2] at h2
    exact ⟨vname a3 g1 h2, named_complete hi g1 h2 a3 d3.1 d3.2⟩
  · obtain ⟨k, hk, h2, rfl⟩ := hm
    obtain ⟨name, g1, g2⟩ := table_of (f := fun k => text (months.getD k "")) t4 hk
    have h2 := full_name (by simp) hk h2 he
    rw [← g2] at h2
    exact ⟨vname a4 g1 h2, named_complete hi g1 h2 a4 d4.1 d4.2⟩
  · exact hm.elim

theorem loop_specifies {nested : List Char → List UInt8 → Tm → Res} {p f : List Char} {c : Char} {i j : List UInt8} {tm t : Tm}
    (hp : Specifies p c) (hE : c ≠ 'E') (hO : c ≠ 'O') (h : conversion nested c i tm = some (t, some j)) :
    loop nested (p ++ f) i tm = loop nested f j t := by
  rcases hp with hp | hp | hp <;> subst hp
  · show loop nested ('%' :: c :: f) i tm = _
    rw [loop.eq_def]
    dsimp only
    rw [if_neg (by decide), if_neg (by rintro (h | h); exact hE h; exact hO h), h]
  · show loop nested ('%' :: 'E' :: c :: f) i tm = _
    rw [loop.eq_def]
    dsimp only
    rw [if_neg (by decide), if_pos (.inl rfl), h]
  · show loop nested ('%' :: 'O' :: c :: f) i tm = _
    rw [loop.eq_def]
    dsimp only
    rw [if_neg (by decide), if_pos (.inr rfl), h]

theorem byteOf_low {c : Char} (h : c.toNat < 0x80) : byteOf c < 0x80 ∧ Char.ofNat (byteOf c).toNat = c := by
  have hb : (byteOf c).toNat = c.toNat := by unfold byteOf; rw [UInt8.toNat_ofNat']; omega
  refine ⟨?_, by rw [hb, Char.ofNat_toNat]⟩
  rw [UInt8.lt_iff_toNat_lt, hb]
  exact h

theorem loop_complete {nested : List Char → List UInt8 → Tm → Res} {f : List Char} {i rest : List UInt8} {tm tm' : Tm} (h : Reads f i rest tm tm')
    (hf : Ascii f) (hr : Valid rest)
    (hn : ∀ c ∈ f, ∀ g, abbreviates c = some g → ∀ i j tm t, Reads g.toList i j tm t → Valid j →
      Valid i ∧ nested g.toList i tm = some (t, some j)) :
    Valid i ∧ loop nested f i tm = some (tm', some rest) := by
  induction h with
  | done => exact ⟨hr, rfl⟩
  | @byte c f i rest tm tm' hc hm ih =>
    obtain ⟨h1, h2⟩ := ih (fun x hx => hf x (List.mem_cons_of_mem _ hx)) hr fun x hx => hn x (List.mem_cons_of_mem _ hx)
    obtain ⟨b1, b2⟩ := byteOf_low (hf c (List.mem_cons_self ..))
    refine ⟨(valid_ascii i b1).2 h1, ?_⟩
    unfold loop
    rw [if_pos hc]
    dsimp only
    rw [if_neg (by rw [b2]; simp)]
    exact h2
  | @conversion p c f s i rest tm t tm' hp hm he _ ih =>
    obtain ⟨h1, h2⟩ := ih (fun x hx => hf x (List.mem_append_right _ hx)) hr fun x hx => hn x (List.mem_append_right _ hx)
    obtain ⟨h3, h4⟩ := conversion_complete (nested := nested) h1 hm he
    refine ⟨h3, ?_⟩
    rw [loop_specifies hp (by rintro rfl; exact hm) (by rintro rfl; exact hm) h4]
    exact h2
  | @format p c g f i j rest tm t tm' hp hg hm _ _ ih =>
    obtain ⟨h1, h2⟩ := ih (fun x hx => hf x (List.mem_append_right _ hx)) hr fun x hx => hn x (List.mem_append_right _ hx)
    have hc : c ∈ p ++ f := by rcases hp with hp | hp | hp <;> subst hp <;> simp
    obtain ⟨h3, h4⟩ := hn c hc g hg i j tm t hm h1
    refine ⟨h3, ?_⟩
    have : conversion nested c i tm = some (t, some j) := by
      have sub : applySubformat nested i g tm = some (t, some j) := by
        unfold applySubformat
        rw [slice_eq h3]
        show (nested g.toList i tm).bind _ = _
        rw [h4]
        rfl
      unfold abbreviates at hg
      split at hg <;> first | (injection hg with hg; subst hg; exact sub) | cases hg
    rw [loop_specifies hp (by rintro rfl; cases hg) (by rintro rfl; cases hg) this]
    exact h2

/-- C95, partial (`Ends` says which texts are recognized, and the format and what follows the text have to be ASCII and UTF-8): an input that begins with a
text as the format describes it is accepted. The pointer returned is the one behind this text, and the structure is as the text means it. -/
theorem C95_reads_partial {buf rest : List UInt8} {f : List Char} {tm tm' : Tm} (h : Reads f buf rest tm tm') (hf : Ascii f)
    (hr : ∃ cs : List Nat, (∀ c ∈ cs, Scalar c) ∧ rest = utf8s cs) :
    strptime buf (f.map byteOf) tm = some (tm', some rest) := by
  obtain ⟨cs, h1, h2⟩ := hr
  have hv : Valid rest := by
    have := (valid_utf8s [] h1).2 valid_nil
    rw [List.append_nil, ← h2] at this
    exact this
  obtain ⟨g1, g2⟩ := loop_complete (nested := inner 0) h hf hv fun c _ g hg i j tm t hm hj => by
    obtain ⟨k1, k2⟩ := abbreviates_plain hg
    exact loop_complete hm k1 hj fun d hd g' hg' => by rw [k2 d hd] at hg'; cases hg'
  unfold strptime
  rw [toStr_ascii hf]
  unfold Valid at g1
  cases hb : toStr buf with
  | none => rw [hb] at g1; cases g1
  | some x => exact g2

/-! ## Concrete cases -/

/-- A structure. -/
def someTime : Tm := ⟨0, 0, 0, 1, 0, 70, 4, 0, -1, 0, none⟩

/-- The result for texts: day, month, year, hour, day of the week, and how many bytes are left. -/
def reading (i f : String) : Option (Option (List Int × Nat)) :=
  (strptime (text i) (text f) someTime).map fun r =>
    r.2.map fun rest => ([r.1.mday.toInt, r.1.mon.toInt, r.1.year.toInt, r.1.hour.toInt, r.1.wday.toInt], rest.length)

example : reading "29 feb 2024, 9 pm." "%d %b %Y, %I %p" = some (some ([29, 1, 124, 21, 4], 1)) := by decide +kernel
example : reading "Wednesday" "%A" = some (some ([1, 0, 70, 0, 3], 0)) := by decide +kernel
example : reading "31/12" "%d/%m" = some (some ([31, 11, 70, 0, 4], 0)) := by decide +kernel
example : reading "32/12" "%d/%m" = some none := by decide +kernel
example : reading "12/31/68x" "%D" = some (some ([31, 11, 168, 0, 4], 1)) := by decide +kernel

/-- The hypotheses of `C95_reads_partial` can be met: "7-" and the format "%d-". -/
example : Reads "%d-".toList [0x37, 0x2D] [] someTime { someTime with mday := 7 } :=
  .conversion (p := ['%', 'd']) (c := 'd') (s := [0x37]) (.inl rfl)
    ⟨7, ⟨by decide, by unfold IsDigit; decide, by decide⟩, by decide, by decide, by decide, rfl⟩
    (.inr (fun b hb => by injection hb with hb; subst hb; unfold IsDigit; decide)) (.byte (c := '-') (by decide) .done)

/-- C95 is violated: a blank in the format is not any white space. -/
theorem C95_space_violation : reading "1  2" "%d %m" = some none ∧ reading "12" "%n%d %n" = some none := by decide +kernel

/-- C95 is violated: `%a` takes only a part of a full name, `%A` and `%B` do not take an abbreviation. -/
theorem C95_name_violation : reading "Monday" "%a" = some (some ([1, 0, 70, 0, 1], 3)) ∧ reading "Mon" "%A" = some none
    ∧ reading "Feb" "%B" = some none := by decide +kernel

/-- C95 is violated: `%p` in front of `%I` has no effect. -/
theorem C95_order_violation : reading "PM 03" "%p %I" = some (some ([1, 0, 70, 3, 4], 0)) := by decide +kernel

/-- C95 is violated: these conversions of POSIX are unknown. -/
theorem C95_unknown_violation : ∀ f ∈ ["%c", "%C", "%r", "%R", "%u", "%U", "%V", "%w", "%W", "%x", "%X", "%z", "%Z"], ∀ i ∈ ["", "0", "1", "12:00", "UTC", "+0000"],
    reading i f = some none := by decide +kernel

/-- C95 is violated: a literal character of the format that is not ASCII does not fit itself, but others, and a conversion behind it crashes the program.
(The format is "Ã%d", the inputs are "Ã5" and "é5".) -/
theorem C95_literal_violation : (strptime [0xC3, 0x83, 0x35] [0xC3, 0x83, 0x25, 0x64] someTime).isNone
    ∧ (strptime [0xC3, 0xA9, 0x35] [0xC3, 0x83, 0x25, 0x64] someTime).isNone
    ∧ strptime [0xC3, 0xA9] [0xC3, 0x83] someTime = some (someTime, some [0xA9]) := by decide +kernel

/-- C95 is violated: an input that is not UTF-8 somewhere behind the text is refused. -/
theorem C95_utf8_violation : strptime [0x35, 0x20, 0xE9] [0x25, 0x64] someTime = some (someTime, none) := by decide +kernel

/-- C95 is violated: on failure a number that is out of range is in the structure. -/
theorem C95_failure_violation : strptime [0x39, 0x39] [0x25, 0x64] someTime = some ({ someTime with mday := 99 }, none) := by decide +kernel

end Verif.Time.Strptime
