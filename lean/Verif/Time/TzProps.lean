import Verif.Time.TzModel
import Verif.Time.StrptimeProps
/-!
# C94: `tzset`
-/

namespace Verif.Time.Tz
open Verif.Time

/-! ## What POSIX says about `TZ` -/

/-- A name: three letters or more. -/
def Name (l : List Char) : Prop := 3 ≤ l.length ∧ ∀ c ∈ l, c.isAlpha = true

/-- Digits and their number. -/
def Decimal (l : List Char) (n : Nat) : Prop :=
  l ≠ [] ∧ (∀ c ∈ l, '0' ≤ c ∧ c ≤ '9') ∧ n = l.foldl (fun v c => v * 10 + (c.toNat - 48)) 0

/-- `hh[:mm[:ss]]`. -/
inductive Clock : List Char → Nat → Nat → Nat → Prop
  | hours {h : Nat} {a : List Char} : Decimal a h → h ≤ 24 → Clock a h 0 0
  | minutes {h m : Nat} {a b : List Char} : Decimal a h → Decimal b m → h ≤ 24 → m ≤ 59 → Clock (a ++ ':' :: b) h m 0
  | seconds {h m s : Nat} {a b c : List Char} : Decimal a h → Decimal b m → Decimal c s → h ≤ 24 → m ≤ 59 → s ≤ 59 →
      Clock (a ++ ':' :: (b ++ ':' :: c)) h m s

/-- The offset, in seconds to be added to local time to get UTC. -/
inductive Offset : List Char → Int → Prop
  | none {l : List Char} {h m s : Nat} : Clock l h m s → Offset l (3600 * h + 60 * m + s)
  | plus {l : List Char} {h m s : Nat} : Clock l h m s → Offset ('+' :: l) (3600 * h + 60 * m + s)
  | minus {l : List Char} {h m s : Nat} : Clock l h m s → Offset ('-' :: l) (-(3600 * h + 60 * m + s))

/-- A value of `TZ` of the form `std offset [dst [offset] [,rule]]`: both names (the name of daylight saving time, if there is one),
and the offset. -/
inductive Posix : List Char → List Char → Option (List Char) → Int → Prop
  | plain {std off : List Char} {v : Int} : Name std → Offset off v → Posix (std ++ off) std none v
  | summer {std off dst more : List Char} {v : Int} : Name std → Offset off v → Name dst → (∀ c ∈ more.head?, c.isAlpha = false) →
      Posix (std ++ (off ++ (dst ++ more))) std (some dst) v

/-! ## Lemmas -/

theorem splitOn_none {sep : Char} : ∀ {l : List Char}, sep ∉ l → splitOn sep l = [l]
  | [], _ => rfl
  | c :: l, h => by
    have hc : c ≠ sep := fun e => h (e ▸ List.mem_cons_self)
    rw [splitOn, if_neg hc, splitOn_none fun e => h (List.mem_cons_of_mem _ e)]

theorem splitOn_ne (sep : Char) (l : List Char) : splitOn sep l ≠ [] := by
  cases l with
  | nil => exact List.cons_ne_nil _ _
  | cons c l =>
    rw [splitOn]
    split
    · exact List.cons_ne_nil _ _
    · split <;> exact List.cons_ne_nil _ _

theorem splitOn_append {sep : Char} (b : List Char) : ∀ {a : List Char}, sep ∉ a → splitOn sep (a ++ sep :: b) = a :: splitOn sep b
  | [], _ => by rw [List.nil_append, splitOn, if_pos rfl]
  | c :: a, h => by
    have hc : c ≠ sep := fun e => h (e ▸ List.mem_cons_self)
    rw [List.cons_append, splitOn, if_neg hc, splitOn_append b fun e => h (List.mem_cons_of_mem _ e)]

/-- A string is cut at the first comma. -/
theorem split_cases (sep : Char) (l : List Char) :
    (sep ∉ l ∧ splitOn sep l = [l]) ∨ ∃ a b, l = a ++ sep :: b ∧ sep ∉ a ∧ splitOn sep l = a :: splitOn sep b := by
  by_cases h : sep ∈ l
  · obtain ⟨a, b, rfl, ha⟩ := List.eq_append_cons_of_mem h
    exact .inr ⟨a, b, rfl, ha, splitOn_append b ha⟩
  · exact .inl ⟨h, splitOn_none h⟩

theorem digits_decimal : ∀ {l : List Char} (v : Nat), (∀ c ∈ l, '0' ≤ c ∧ c ≤ '9') →
    digits l v = some (l.foldl (fun v c => v * 10 + (c.toNat - 48)) v)
  | [], _, _ => rfl
  | c :: l, v, h => by
    have hc := h c List.mem_cons_self
    rw [digits, if_pos (by simp [hc]), digits_decimal _ fun x hx => h x (List.mem_cons_of_mem _ hx), List.foldl_cons]

theorem digit_nat {c : Char} (h : '0' ≤ c ∧ c ≤ '9') : 48 ≤ c.toNat ∧ c.toNat ≤ 57 := by
  obtain ⟨h0, h9⟩ := h
  rw [Char.le_def, UInt32.le_iff_toNat_le] at h0 h9
  exact ⟨h0, h9⟩

theorem digit_not_alpha {c : Char} (h : '0' ≤ c ∧ c ≤ '9') : c.isAlpha = false := by
  obtain ⟨h0, h9⟩ := digit_nat h
  have e : c.val.toNat = c.toNat := rfl
  have a : 'A'.val.toNat = 65 := rfl
  have a' : 'a'.val.toNat = 97 := rfl
  cases hc : c.isAlpha with
  | false => rfl
  | true =>
    simp only [Char.isAlpha, Char.isUpper, Char.isLower, Bool.or_eq_true, Bool.and_eq_true, decide_eq_true_eq, ge_iff_le,
      UInt32.le_iff_toNat_le, e] at hc
    omega

theorem digit_ne {c d : Char} (h : '0' ≤ c ∧ c ≤ '9') (hd : d.toNat < 48 ∨ 57 < d.toNat) : c ≠ d := by
  rintro rfl
  have := digit_nat h
  omega

theorem decimal_colon {l : List Char} {n : Nat} (h : Decimal l n) : ':' ∉ l :=
  fun hm => digit_ne (h.2.1 _ hm) (.inr (by decide)) rfl

theorem parseI32_decimal {l : List Char} {n : Nat} (h : Decimal l n) (hn : n < 2 ^ 31) : parseI32 l = some (n : Int) := by
  obtain ⟨hne, hd, rfl⟩ := h
  cases l with
  | nil => exact absurd rfl hne
  | cons c l =>
    have hc := digit_nat (hd c List.mem_cons_self)
    have e : parseI32 (c :: l) = (digits (c :: l) 0).bind fun v => if v < 2 ^ 31 then some (v : Int) else none := by
      rw [parseI32.eq_def]
      split
      · next h => exact absurd h (List.cons_ne_nil _ _)
      · next h => injection h with h _; subst h; exact absurd hc.1 (by decide)
      · next h => injection h with h _; subst h; exact absurd hc.1 (by decide)
      · rfl
    rw [e, digits_decimal 0 hd, Option.bind_some, if_pos hn]

theorem parseI32_plus {l : List Char} {n : Nat} (h : Decimal l n) (hn : n < 2 ^ 31) : parseI32 ('+' :: l) = some (n : Int) := by
  obtain ⟨hne, hd, rfl⟩ := h
  rw [parseI32, if_neg hne, digits_decimal 0 hd, Option.bind_some, if_pos hn]

theorem parseI32_minus {l : List Char} {n : Nat} (h : Decimal l n) (hn : n < 2 ^ 31) : parseI32 ('-' :: l) = some (-(n : Int)) := by
  obtain ⟨hne, hd, rfl⟩ := h
  rw [parseI32, if_neg hne, digits_decimal 0 hd, Option.bind_some, if_pos (by omega)]

theorem part_decimal {l : List Char} {n : Nat} (k : Nat) (h : Decimal l n) (hn : n ≤ 59) :
    part (Int32.ofInt k) (some l) = some (Int32.ofInt ((n * k : Nat) : Int)) := by
  rw [part, parseI32_decimal h (by omega), Option.map_some, ← Int32.ofInt_mul, Int.natCast_mul]

/-- The parts between the colons. -/
theorem clock_split {l p : List Char} {h m s : Nat} (hc : Clock l h m s) (hp : ':' ∉ p) :
    ∃ a rest, splitOn ':' (p ++ l) = (p ++ a) :: rest ∧ Decimal a h ∧ part 60 rest[0]? = some (Int32.ofInt ((m * 60 : Nat) : Int))
      ∧ part 1 rest[1]? = some (Int32.ofInt ((s * 1 : Nat) : Int)) ∧ h ≤ 24 ∧ m ≤ 59 ∧ s ≤ 59 := by
  cases hc with
  | hours ha hh =>
    refine ⟨l, [], splitOn_none ?_, ha, rfl, rfl, hh, by omega, by omega⟩
    rw [List.mem_append]
    rintro (h | h)
    · exact hp h
    · exact decimal_colon ha h
  | @minutes _ _ a b ha hb hh hm =>
    refine ⟨a, [b], ?_, ha, part_decimal 60 hb hm, rfl, hh, hm, by omega⟩
    rw [← List.append_assoc, splitOn_append, splitOn_none (decimal_colon hb)]
    rw [List.mem_append]
    rintro (h | h)
    · exact hp h
    · exact decimal_colon ha h
  | @seconds _ _ _ a b c ha hb hc hh hm hs =>
    refine ⟨a, [b, c], ?_, ha, part_decimal 60 hb hm, part_decimal 1 hc hs, hh, hm, hs⟩
    rw [← List.append_assoc, splitOn_append, splitOn_append _ (decimal_colon hb), splitOn_none (decimal_colon hc)]
    rw [List.mem_append]
    rintro (h | h)
    · exact hp h
    · exact decimal_colon ha h

theorem ofInt_toInt {x : Int} (h : -2147483648 ≤ x) (h' : x < 2147483648) : (Int32.ofInt x).toInt = x :=
  Int32.toInt_ofInt_of_le (by simpa using h) (by simpa using h')

theorem ofInt_neg_iff {x : Int} (h : -2147483648 ≤ x) (h' : x < 2147483648) : Int32.ofInt x < 0 ↔ x < 0 := by
  rw [Int32.lt_iff_toInt_lt, ofInt_toInt h h']
  exact Iff.rfl

theorem seconds_of {l : List Char} {v : Int} (h : Offset l v) (hv : 0 ≤ v ∨ v ≤ -3600) :
    ∃ t : Int32, timeToSeconds l = some t ∧ t.toInt = v := by
  have go : ∀ {p l : List Char} {h m s : Nat} {σ : Int}, Clock l h m s → ':' ∉ p → (σ = 1 ∨ σ = -1 ∧ h ≠ 0 ∨ σ = -1 ∧ h = 0 ∧ m = 0 ∧ s = 0) →
      (∀ a, Decimal a h → h < 2 ^ 31 → parseI32 (p ++ a) = some (σ * h)) →
      ∃ t : Int32, timeToSeconds (p ++ l) = some t ∧ t.toInt = σ * (3600 * h + 60 * m + s) := by
    intro p l h m s σ hc hp hσ hparse
    obtain ⟨a, rest, e, ha, h0, h1, hh, hm, hs⟩ := clock_split hc hp
    have lit60 : (60 : Int32) = Int32.ofInt 60 := rfl
    have lit0 : (-1 : Int32) = Int32.ofInt (-1) := rfl
    simp only [timeToSeconds, e, hparse a ha (by omega), h0, h1]
    rw [lit60, ← Int32.ofInt_mul, ← Int32.ofInt_mul, ← Int32.ofInt_neg]
    have hneg := ofInt_neg_iff (x := σ * h * 60 * 60) (by rcases hσ with rfl | ⟨rfl, _⟩ | ⟨rfl, _⟩ <;> omega)
      (by rcases hσ with rfl | ⟨rfl, _⟩ | ⟨rfl, _⟩ <;> omega)
    refine ⟨_, rfl, ?_⟩
    by_cases hx : σ * h * 60 * 60 < 0
    · rw [if_pos (hneg.mpr hx), if_pos (hneg.mpr hx), ← Int32.ofInt_add, ← Int32.ofInt_add, lit0, ← Int32.ofInt_mul, ofInt_toInt]
      all_goals rcases hσ with rfl | ⟨rfl, _⟩ | ⟨rfl, _⟩ <;> omega
    · rw [if_neg (mt hneg.mp hx), if_neg (mt hneg.mp hx), ← Int32.ofInt_add, ← Int32.ofInt_add, ofInt_toInt]
      all_goals rcases hσ with rfl | ⟨rfl, _⟩ | ⟨rfl, _⟩ <;> omega
  cases h with
  | none hc =>
    obtain ⟨t, e, ht⟩ := go (p := []) hc (by simp) (σ := 1) (.inl rfl) fun a ha hh => by rw [List.nil_append, parseI32_decimal ha hh, Int.one_mul]
    exact ⟨t, e, by rw [ht]; omega⟩
  | plus hc =>
    obtain ⟨t, e, ht⟩ := go (p := ['+']) hc (by decide) (σ := 1) (.inl rfl) fun a ha hh => by
      rw [List.singleton_append, parseI32_plus ha hh, Int.one_mul]
    exact ⟨t, e, by rw [ht]; omega⟩
  | @minus l h m s hc =>
    have hb : m ≤ 59 ∧ s ≤ 59 := by
      obtain ⟨_, _, _, _, _, _, _, hm, hs⟩ := clock_split (p := []) hc (by simp)
      exact ⟨hm, hs⟩
    obtain ⟨t, e, ht⟩ := go (p := ['-']) hc (by decide) (σ := -1) (by omega) fun a ha hh => by
      rw [List.singleton_append, parseI32_minus ha hh]; congr 1; omega
    exact ⟨t, e, by rw [ht]; omega⟩

theorem decimal_head {l : List Char} {n : Nat} (h : Decimal l n) : ∃ c t, l = c :: t ∧ '0' ≤ c ∧ c ≤ '9' := by
  cases l with
  | nil => exact absurd rfl h.1
  | cons c t => exact ⟨c, t, rfl, h.2.1 c List.mem_cons_self⟩

/-- An offset has digits, colons and signs only, and is not empty. -/
theorem clock_chars {l : List Char} {h m s : Nat} (hc : Clock l h m s) : l ≠ [] ∧ ∀ c ∈ l, ('0' ≤ c ∧ c ≤ '9') ∨ c = ':' := by
  cases hc with
  | hours ha _ => exact ⟨ha.1, fun c hc => .inl (ha.2.1 c hc)⟩
  | minutes ha hb _ _ =>
    refine ⟨by simp, fun c hc => ?_⟩
    simp only [List.mem_append, List.mem_cons] at hc
    rcases hc with hc | hc | hc
    · exact .inl (ha.2.1 c hc)
    · exact .inr hc
    · exact .inl (hb.2.1 c hc)
  | seconds ha hb hc' _ _ _ =>
    refine ⟨by simp, fun c hc => ?_⟩
    simp only [List.mem_append, List.mem_cons] at hc
    rcases hc with hc | hc | hc | hc | hc
    · exact .inl (ha.2.1 c hc)
    · exact .inr hc
    · exact .inl (hb.2.1 c hc)
    · exact .inr hc
    · exact .inl (hc'.2.1 c hc)

theorem clock_char {c : Char} (h : ('0' ≤ c ∧ c ≤ '9') ∨ c = ':') : c.isAlpha = false ∧ c ≠ ',' ∧ c.toNat < 0x80 := by
  rcases h with h | rfl
  · exact ⟨digit_not_alpha h, digit_ne h (.inl (by decide)), by have := digit_nat h; omega⟩
  · decide

theorem offset_chars {l : List Char} {v : Int} (h : Offset l v) : l ≠ [] ∧ ∀ c ∈ l, c.isAlpha = false ∧ c ≠ ',' ∧ c.toNat < 0x80 := by
  cases h with
  | none hc => exact ⟨(clock_chars hc).1, fun c h => clock_char ((clock_chars hc).2 c h)⟩
  | plus hc =>
    refine ⟨List.cons_ne_nil _ _, fun c h => ?_⟩
    rcases List.mem_cons.mp h with rfl | h
    · decide
    · exact clock_char ((clock_chars hc).2 c h)
  | minus hc =>
    refine ⟨List.cons_ne_nil _ _, fun c h => ?_⟩
    rcases List.mem_cons.mp h with rfl | h
    · decide
    · exact clock_char ((clock_chars hc).2 c h)

theorem alpha_nat {c : Char} (h : c.isAlpha = true) : c ≠ ',' ∧ c.toNat < 0x80 := by
  refine ⟨by rintro rfl; exact absurd h (by decide), ?_⟩
  have e : c.val.toNat = c.toNat := rfl
  simp only [Char.isAlpha, Char.isUpper, Char.isLower, Bool.or_eq_true, Bool.and_eq_true, decide_eq_true_eq, ge_iff_le,
    UInt32.le_iff_toNat_le, e] at h
  rcases h with ⟨_, h⟩ | ⟨_, h⟩
  · have : c.toNat ≤ 90 := h
    omega
  · have : c.toNat ≤ 122 := h
    omega

theorem take_while {p : Char → Bool} {a b : List Char} (ha : ∀ c ∈ a, p c = true) (hb : ∀ c ∈ b.head?, p c = false) :
    (a ++ b).takeWhile p = a ∧ (a ++ b).dropWhile p = b := by
  rw [List.takeWhile_append_of_pos ha, List.dropWhile_append_of_pos ha]
  cases b with
  | nil => simp
  | cons c b =>
    have := hb c rfl
    simp [this]

/-- `collect_tz_and_offset` on a name, an offset and something that begins with a letter. -/
theorem collect {std off r : List Char} {v : Int} (hs : Name std) (ho : Offset off v) (hv : 0 ≤ v ∨ v ≤ -3600)
    (hr : ∀ c ∈ r.head?, c.isAlpha = true) : ∃ t : Int32, collectTzAndOffset (std ++ (off ++ r)) = (std, some t, r) ∧ t.toInt = v := by
  obtain ⟨t, e, ht⟩ := seconds_of ho hv
  obtain ⟨hne, hc⟩ := offset_chars ho
  have h1 := take_while (p := Char.isAlpha) (b := off ++ r) hs.2 (by
    cases off with
    | nil => exact absurd rfl hne
    | cons c off => intro d hd; injection hd with hd; subst hd; exact (hc _ List.mem_cons_self).1)
  have h2 := take_while (p := fun c : Char => !c.isAlpha) (a := off) (b := r) (fun c h => by rw [(hc c h).1]; rfl)
    (fun c h => by rw [hr c h]; rfl)
  refine ⟨t, ?_, ht⟩
  simp only [collectTzAndOffset, h1.1, h1.2, h2.1, h2.2, e]
  rw [if_pos hs.1]

theorem collect_name {dst more : List Char} (hs : Name dst) (hm : ∀ c ∈ more.head?, c.isAlpha = false) :
    (collectTzAndOffset (dst ++ more)).1 = dst := by
  have h1 := take_while (p := Char.isAlpha) hs.2 hm
  simp only [collectTzAndOffset, h1.1]
  rw [if_pos hs.1]

theorem name_ne {l : List Char} (h : Name l) : l ≠ [] := by
  rintro rfl
  exact absurd h.1 (by decide)

/-- `parse` on a value that POSIX defines. -/
theorem parse_posix {l std : List Char} {dst : Option (List Char)} {v : Int} (h : Posix l std dst v) (hv : 0 ≤ v ∨ v ≤ -3600)
    (hmin : -86400 ≤ v) (hmax : v ≤ 86400) :
    (parse l).std = std ∧ (parse l).dst = dst.getD std ∧ (parse l).daylight = dst.isSome ∧ (parse l).timezone = some v := by
  have hclamp : clamp v (-86400) 86400 = v := by unfold clamp; split; omega; split <;> omega
  cases h with
  | plain hs ho =>
    rename_i off
    obtain ⟨t, e, ht⟩ := collect (r := []) hs ho hv (by simp)
    rw [List.append_nil] at e
    have hcomma : ',' ∉ std ++ off := by
      rw [List.mem_append]
      rintro (h | h)
      · exact (alpha_nat (hs.2 _ h)).1 rfl
      · exact ((offset_chars ho).2 _ h).2.1 rfl
    have hne : std ++ off ≠ [] := by simp [name_ne hs]
    have hn := name_ne hs
    have e0 : (collectTzAndOffset []).1 = [] := rfl
    rw [parse, if_neg hne]
    simp only [splitOn_none hcomma, List.headD_cons, e]
    simp [hn, e0, ht, hclamp]
  | @summer _ off dst more _ hs ho hd hm =>
    have hne : std ++ (off ++ (dst ++ more)) ≠ [] := by simp [name_ne hs]
    have hns := name_ne hs
    have hnd := name_ne hd
    have front : ∃ m, (∀ c ∈ m.head?, c.isAlpha = false)
        ∧ (splitOn ',' (std ++ (off ++ (dst ++ more)))).headD [] = std ++ (off ++ (dst ++ m)) := by
      have hno : ',' ∉ std ++ (off ++ dst) := by
        simp only [List.mem_append]
        rintro (h | h | h)
        · exact (alpha_nat (hs.2 _ h)).1 rfl
        · exact ((offset_chars ho).2 _ h).2.1 rfl
        · exact (alpha_nat (hd.2 _ h)).1 rfl
      rcases split_cases ',' more with ⟨h, _⟩ | ⟨a, b, rfl, ha, _⟩
      · refine ⟨more, hm, ?_⟩
        rw [splitOn_none]
        · rfl
        · simp only [List.mem_append, not_or] at hno ⊢
          exact ⟨hno.1, hno.2.1, hno.2.2, h⟩
      · refine ⟨a, fun c hc => hm c (by cases a with | nil => cases hc | cons x a => exact hc), ?_⟩
        have e : std ++ (off ++ (dst ++ (a ++ ',' :: b))) = (std ++ (off ++ (dst ++ a))) ++ ',' :: b := by simp
        rw [e, splitOn_append]
        · rfl
        · simp only [List.mem_append, not_or] at hno ⊢
          exact ⟨hno.1, hno.2.1, hno.2.2, ha⟩
    obtain ⟨m, hm', hf⟩ := front
    obtain ⟨t, e, ht⟩ := collect (r := dst ++ m) hs ho hv (by
      cases dst with
      | nil => exact absurd rfl hnd
      | cons c dst => intro d hd'; injection hd' with hd'; subst hd'; exact hd.2 _ List.mem_cons_self)
    rw [parse, if_neg hne]
    simp only [hf, e, collect_name hd hm']
    by_cases hp : (splitOn ',' (std ++ (off ++ (dst ++ more)))).length > 1
    · simp [hns, hnd, hp, ht, hclamp]
    · simp [hns, hnd, hp, ht, hclamp]

theorem parse_any (l : List Char) : (∀ t, (parse l).timezone = some t → -86400 ≤ t ∧ t ≤ 86400)
    ∧ ((parse l).std = [] ∨ Name (parse l).std) ∧ ((parse l).dst = [] ∨ Name (parse l).dst) := by
  have hclamp : ∀ v, -86400 ≤ clamp v (-86400) 86400 ∧ clamp v (-86400) 86400 ≤ 86400 := by
    intro v; unfold clamp; split; omega; split <;> omega
  have hname : ∀ s, (collectTzAndOffset s).1 = [] ∨ Name (collectTzAndOffset s).1 := by
    intro s
    simp only [collectTzAndOffset]
    split
    · next h => exact .inr ⟨h, fun c hc => List.all_eq_true.mp List.all_takeWhile c hc⟩
    · exact .inl rfl
  by_cases hl : l = []
  · subst hl
    refine ⟨fun t ht => (nomatch (show (none : Option Int) = some t from ht)), .inr ⟨by decide, by decide⟩, .inr ⟨by decide, by decide⟩⟩
  · rw [parse, if_neg hl]
    dsimp only
    generalize ((splitOn ',' l).headD []) = front
    have hstd := hname front
    have hdst := hname (collectTzAndOffset front).2.2
    generalize (splitOn ',' l).length = k
    rcases hc : collectTzAndOffset front with ⟨std, off, rem⟩
    rw [hc] at hstd hdst
    dsimp only at hstd hdst ⊢
    generalize (collectTzAndOffset rem).1 = dst at *
    have h0 := hclamp (off.getD 0).toInt
    by_cases hk : k > 1
    · by_cases hs : std = [] <;> by_cases hd : dst = [] <;> cases off <;> simp_all
    · by_cases hs : std = [] <;> by_cases hd : dst = [] <;> cases off <;> simp only [hk, if_false] <;> simp_all

/-! ## C94 -/

/-- **C94** (partial): for the values of `TZ` that POSIX defines (and that are not names in the database of time zones), the names,
the difference and whether there is daylight saving time are those given. Missing: names in angle brackets, offsets between -1:00
and 0:00 (the sign of the hour 0 is lost), offsets beyond 24 hours, values beginning with a colon. -/
theorem C94_posix_partial (iana : List Char → Option Zone) (link : Option (List UInt8)) (now : Int) {l std : List Char} {dst : Option (List Char)}
    {v : Int} (h : Posix l std dst v) (hascii : ∀ c ∈ l, c.toNat < 0x80) (hname : iana l = none) (hsign : 0 ≤ v ∨ v ≤ -3600)
    (hmin : -86400 ≤ v) (hmax : v ≤ 86400) :
    tzset iana (some (l.map byteOf)) link now
      = some ⟨if dst.isSome then 1 else 0, v, some (String.ofList std), some (String.ofList (dst.getD std))⟩ := by
  obtain ⟨h1, h2, h3, h4⟩ := parse_posix h hsign hmin hmax
  have e : currentTimeZone (some (l.map byteOf)) link = some l := by
    rw [currentTimeZone, Option.bind_some, Strptime.toStr_ascii hascii]
  rw [tzset, e, Option.map_some, hname]
  simp only [h1, h2, h3, h4, Option.getD_some]

/-- **C94**: whatever `TZ` is, unless it names a zone of the database, the call sets both names, to an empty string or to a name, and the
difference is a day at most. -/
theorem C94_bounded (iana : List Char → Option Zone) (link : Option (List UInt8)) (now : Int) {env : List UInt8} {l : List Char}
    (h : Strptime.toStr env = some l) (hname : iana l = none) :
    ∃ g a b, tzset iana (some env) link now = some g ∧ g.tzname = (some (String.ofList a), some (String.ofList b)) ∧ (a = [] ∨ Name a) ∧ (b = [] ∨ Name b)
      ∧ -86400 ≤ g.timezone ∧ g.timezone ≤ 86400 ∧ (g.daylight = 0 ∨ g.daylight = 1) := by
  obtain ⟨ht, ha, hb⟩ := parse_any l
  have e : currentTimeZone (some env) link = some l := by rw [currentTimeZone, Option.bind_some, h]
  rw [tzset, e, Option.map_some, hname]
  refine ⟨_, _, _, rfl, rfl, ha, hb, ?_⟩
  dsimp only
  cases hz : (parse l).timezone with
  | none => exact ⟨by decide, by decide, by split <;> simp⟩
  | some t => exact ⟨(ht t hz).1, (ht t hz).2, by split <;> simp⟩

/-- **C94** (partial): a zone of the database without daylight saving time gives its abbreviation and its offset. Missing: zones with daylight
saving time. -/
theorem C94_zone_partial (iana : List Char → Option Zone) (link : Option (List UInt8)) (now : Int) {env : List UInt8} {l : List Char} {z : Zone}
    {o : Int} {a : String} (h : Strptime.toStr env = some l) (hname : iana l = some z) (ho : ∀ t, z.off t = o) (ha : ∀ t, z.abbr t = a)
    (hz : ∀ t, z.fromLocal t = .single (t - o)) :
    tzset iana (some env) link now = some ⟨0, -o, some a, some a⟩ := by
  have e : currentTimeZone (some env) link = some l := by rw [currentTimeZone, Option.bind_some, h]
  rw [tzset, e, Option.map_some, hname]
  simp only [hz, setTimezone, ho, ha]

/-- **C94**: without `TZ` it is the zone that `/etc/localtime` links to, and UTC if there is no such link. -/
theorem C94_default_partial (iana : List Char → Option Zone) (now : Int) {name : List UInt8} {l : List Char}
    (hl : name.length < 80) (hz : 0 ∉ name) (h : Strptime.toStr name = some l) :
    tzset iana none (some (text "/usr/share/zoneinfo/" ++ name)) now = tzset iana (some name) none now
    ∧ tzset iana none none now = tzset iana (some (text "UTC")) none now := by
  constructor
  · have e : currentTimeZone none (some (text "/usr/share/zoneinfo/" ++ name)) = currentTimeZone (some name) none := by
      have hlen : (text "/usr/share/zoneinfo/" ++ name).length < 100 := by
        rw [List.length_append]
        have : (text "/usr/share/zoneinfo/").length = 20 := by decide +kernel
        omega
      have htw : (text "/usr/share/zoneinfo/" ++ name).takeWhile (fun b => decide (b ≠ 0)) = text "/usr/share/zoneinfo/" ++ name := by
        have self : ∀ (q : UInt8 → Bool) (l : List UInt8), (∀ b ∈ l, q b = true) → l.takeWhile q = l := by
          intro q l hl
          have := List.takeWhile_append_of_pos (l₂ := []) hl
          simpa using this
        apply self
        intro b hb
        rw [List.mem_append] at hb
        rw [decide_eq_true_eq]
        rcases hb with hb | hb
        · exact (show ∀ b ∈ text "/usr/share/zoneinfo/", b ≠ 0 by decide +kernel) b hb
        · exact fun e => hz (e ▸ hb)
      have hs : Strptime.toStr (text "/usr/share/zoneinfo/" ++ name) = some ("/usr/share/zoneinfo/".toList ++ l) := by
        have : ∀ {p : List UInt8} {q : List Char}, (∀ b ∈ p, b < 0x80) → q = p.map (fun b => Char.ofNat b.toNat) → Strptime.toStr (p ++ name) = some (q ++ l) := by
          intro p
          induction p with
          | nil => intro q _ e; subst e; exact h
          | cons b p ih =>
            intro q hp e
            subst e
            rw [List.cons_append, Strptime.toStr_low _ (hp b List.mem_cons_self), ih (fun x hx => hp x (List.mem_cons_of_mem _ hx)) rfl]
            rfl
        exact this (by decide +kernel) (by decide +kernel)
      have hp : ∀ p q : List Char, stripPrefix p (p ++ q) = some q := by
        intro p q
        induction p with
        | nil => rfl
        | cons c p ih => rw [List.cons_append, stripPrefix, if_pos rfl, ih]
      rw [currentTimeZone, currentTimeZone, Option.bind_none, Option.bind_some, h]
      simp only [systemTimeZone]
      rw [if_pos hlen, htw, hs]
      simp only [hp]
      rfl
    rw [tzset, tzset, e]
  · rw [tzset, tzset]
    congr 1

/-! ## Concrete cases and violations -/

/-- No database. -/
def noZones : List Char → Option Zone := fun _ => none

/-- `tzset` with a text in `TZ`: `daylight`, `timezone` and `tzname`. -/
def shownTz (s : String) : Option Globals := tzset noZones (some (text s)) none 0

example : Posix "CET-1CEST,M3.5.0,M10.5.0/3".toList "CET".toList (some "CEST".toList) (-3600) :=
  .summer (std := ['C', 'E', 'T']) (off := ['-', '1']) (dst := ['C', 'E', 'S', 'T']) ⟨by decide, by decide⟩
    (.minus (h := 1) (m := 0) (s := 0) (.hours ⟨by decide, by decide, by decide⟩ (by decide))) ⟨by decide, by decide⟩ (by decide)

example : shownTz "CET-1CEST,M3.5.0,M10.5.0/3" = some ⟨1, -3600, some "CET", some "CEST"⟩ := by decide +kernel
example : shownTz "NST3:30" = some ⟨0, 12600, some "NST", some "NST"⟩ := by decide +kernel
example : shownTz "" = some ⟨0, 0, some "UTC", some "UTC"⟩ := by decide +kernel
example : shownTz "EST99999999999EDT" = some ⟨1, 0, some "EST", some "EDT"⟩ := by decide +kernel

/-- C94 is violated: the sign of an offset between -1:00 and 0:00 is lost. -/
theorem C94_sign_violation : Posix "ABC-0:30".toList "ABC".toList none (-1800) ∧ shownTz "ABC-0:30" = some ⟨0, 1800, some "ABC", some "ABC"⟩ :=
  ⟨.plain (std := ['A', 'B', 'C']) (off := ['-', '0', ':', '3', '0']) ⟨by decide, by decide⟩
    (.minus (h := 0) (m := 30) (s := 0) (.minutes (a := ['0']) (b := ['3', '0']) ⟨by decide, by decide, by decide⟩ ⟨by decide, by decide, by decide⟩ (by decide) (by decide))),
    by decide +kernel⟩

/-- C94 is violated: an offset of more than 24 hours is cut. -/
theorem C94_day_violation : Posix "ABC24:30".toList "ABC".toList none 88200 ∧ shownTz "ABC24:30" = some ⟨0, 86400, some "ABC", some "ABC"⟩ :=
  ⟨.plain (std := ['A', 'B', 'C']) (off := ['2', '4', ':', '3', '0']) ⟨by decide, by decide⟩
    (.none (h := 24) (m := 30) (s := 0) (.minutes (a := ['2', '4']) (b := ['3', '0']) ⟨by decide, by decide, by decide⟩ ⟨by decide, by decide, by decide⟩ (by decide) (by decide))),
    by decide +kernel⟩

/-- C94 is violated: names in angle brackets are not understood, and neither is the colon in front of the name of a zone. -/
theorem C94_quoted_violation : shownTz "<+03>-3" = some ⟨0, 0, some "", some ""⟩ ∧ shownTz ":CET-1" = some ⟨0, 0, some "", some ""⟩ := by decide +kernel

/-- A zone with daylight saving time: the clocks go forward at 100000 and back at 200000. -/
def summerZone : Zone :=
  ⟨"X", fun t => if 100000 ≤ t ∧ t < 200000 then 3600 else 0, fun t => if 100000 ≤ t ∧ t < 200000 then 3600 else 0,
    fun t => if 100000 ≤ t ∧ t < 200000 then "SUM" else "STD",
    fun t => if t < 100000 then .single t else if t < 103600 then .none else if t < 200000 then .single (t - 3600) else if t < 203600 then .ambiguous (t - 3600) t
      else .single t⟩

/-- C94 is violated: a zone of the database with daylight saving time is said to have none in winter; in summer the standard time is said to be that of
summer; and in the hour after the clocks go forward the names are null pointers. -/
theorem C94_summer_violation :
    tzset (fun _ => some summerZone) (some (text "X")) none 0 = some ⟨0, 0, some "STD", some "STD"⟩
    ∧ tzset (fun _ => some summerZone) (some (text "X")) none 150000 = some ⟨0, -3600, some "SUM", some "SUM"⟩
    ∧ tzset (fun _ => some summerZone) (some (text "X")) none 101000 = some ⟨0, 0, none, none⟩ := by decide +kernel

/-- C94 is violated: a long link is read beyond the end of the buffer. -/
theorem C94_link_violation (iana : List Char → Option Zone) (now : Int) {target : List UInt8} (h : 100 ≤ target.length) :
    tzset iana none (some target) now = none := by
  rw [tzset, currentTimeZone]
  simp only [Option.bind_none, systemTimeZone]
  rw [if_neg (by omega)]
  rfl

end Verif.Time.Tz
