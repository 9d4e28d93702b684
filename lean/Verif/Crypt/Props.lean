import Verif.Crypt.Lemmas
/-!
# `crypt`: the theorems
-/

namespace Verif.Crypt

/-- What the hashes are written with: the letters, digits, "." and "/" of base 64. -/
structure Kdf.Base64 (K : Kdf) : Prop where
  md5 : ∀ p s, Text (K.md5 p s) ∧ 0x24 ∉ K.md5 p s
  sha : ∀ l n p s o, K.sha l n p s = some o → Text o ∧ 0x24 ∉ o
  bcrypt : ∀ p s c o, K.bcrypt p s c = some o → Text o ∧ 0x24 ∉ o
  pbkdf2 : ∀ p s n, Text (K.pbkdf2 p s n) ∧ 0x24 ∉ K.pbkdf2 p s n
  scrypt : ∀ n r p k s o, K.scrypt n r p k s = some o → Text o ∧ 0x24 ∉ o

theorem text_append {a b : Bytes} (ha : Text a) (hb : Text b) : Text (a ++ b) := fun c hc => (List.mem_append.1 hc).elim (ha c) (hb c)

theorem crypt_of_encoded (K : Kdf) (k' s h : Bytes) (hs : Text s) (hh : Text h) (he : encoded K k' h = encoded K k' s) :
    crypt K k' h = crypt K k' s := by
  unfold crypt
  rw [utf8_text s hs, utf8_text h hh, he]

theorem ret_encoded (K : Kdf) (k s h : Bytes) (hr : (crypt K k s).ret = some h) : encoded K k s = some (some h) := by
  unfold crypt at hr
  split at hr
  · exact absurd hr (by simp)
  · split at hr
    · exact absurd hr (by simp)
    · exact absurd hr (by simp)
    · rename_i inner hi
      split at hr
      · exact absurd hr (by simp)
      · rw [hi]; exact congrArg some hr

theorem take_one {s p : Bytes} {n : Nat} (h : s.take (n + 1) = 0x24 :: p) : s.take 1 = [0x24] := by
  cases s with
  | nil => exact absurd h (by simp)
  | cons c s => rw [List.take_succ_cons] at h; simp [(List.cons.inj h).1]

theorem encoded_md5 (K : Kdf) (k s : Bytes) (h : s.take 3 = [0x24, 0x31, 0x24]) : encoded K k s = some (cryptMd5 K k s) := by
  unfold encoded; rw [if_pos (take_one h), if_pos h]

theorem not_two {s : Bytes} {x : UInt8} (h : s.take 3 = [0x24, x, 0x24]) (hx : x ≠ 0x32) : ¬ (s.take 2 = [0x24, 0x32] ∧ s[3]? = some 0x24) := by
  rintro ⟨h2, -⟩
  have : s.take 2 = (s.take 3).take 2 := by rw [List.take_take]; rfl
  rw [this, h] at h2
  exact hx (List.cons.inj (List.cons.inj h2).2).1

theorem encoded_sha (K : Kdf) (k s : Bytes) (long : Bool) (h : s.take 3 = if long then [0x24, 0x36, 0x24] else [0x24, 0x35, 0x24]) :
    encoded K k s = some (cryptSha K long k s) := by
  unfold encoded
  cases long
  · rw [if_pos (take_one h), if_neg (by rw [h]; decide), if_neg (not_two h (by decide)), if_pos (show s.take 3 = [0x24, 0x35, 0x24] from h)]
  · rw [if_pos (take_one h), if_neg (by rw [h]; decide), if_neg (not_two h (by decide)), if_neg (by rw [h]; decide), if_pos (show s.take 3 = [0x24, 0x36, 0x24] from h)]

theorem encoded_scrypt (K : Kdf) (k s : Bytes) (h : s.take 3 = [0x24, 0x37, 0x24]) : encoded K k s = some (cryptScrypt K k s) := by
  unfold encoded
  rw [if_pos (take_one h), if_neg (by rw [h]; decide), if_neg (not_two h (by decide)), if_neg (by rw [h]; decide), if_neg (by rw [h]; decide), if_pos h]

theorem encoded_pbkdf2 (K : Kdf) (k s : Bytes) (h : s.take 3 = [0x24, 0x38, 0x24]) : encoded K k s = some (cryptPbkdf2 K k s) := by
  unfold encoded
  rw [if_pos (take_one h), if_neg (by rw [h]; decide), if_neg (not_two h (by decide)), if_neg (by rw [h]; decide), if_neg (by rw [h]; decide), if_neg (by rw [h]; decide), if_pos h]

theorem encoded_bcrypt (K : Kdf) (k s : Bytes) (h : s.take 2 = [0x24, 0x32]) (h3 : s[3]? = some 0x24) : encoded K k s = some (cryptBlowfish K k s) := by
  have h1 : s.take 1 = [0x24] := take_one h
  unfold encoded
  rw [if_pos h1, if_neg, if_pos ⟨h, h3⟩]
  intro h'
  have : s.take 2 = (s.take 3).take 2 := by rw [List.take_take]; rfl
  rw [this, h'] at h
  exact absurd h (by decide)

theorem text_of_subset {a b : Bytes} (hb : Text b) (h : ∀ c ∈ a, c ∈ b) : Text a := fun c hc => hb c (h c hc)

/-- **C171**: a password that was hashed with MD5 or SHA is verified by hashing it with the result as the setting: that gives, for every
password, what the original setting gives; in particular the right one gives the result again. -/
theorem C171_verify_partial (K : Kdf) (hK : K.Base64) (k s h : Bytes) (hs : Text s)
    (hp : s.take 3 ∈ ([[0x24, 0x31, 0x24], [0x24, 0x35, 0x24], [0x24, 0x36, 0x24]] : List Bytes)) (hr : (crypt K k s).ret = some h) :
    (∀ k', crypt K k' h = crypt K k' s) ∧ (crypt K k h).ret = some h := by
  have key : ∀ k', crypt K k' h = crypt K k' s := by
    intro k'
    have he := ret_encoded K k s h hr
    have sub : ∀ c ∈ s.drop 3, c ∈ s := fun c hc => List.mem_of_mem_drop hc
    have sha : ∀ long : Bool, s.take 3 = (if long then [0x24, 0x36, 0x24] else [0x24, 0x35, 0x24]) → crypt K k' h = crypt K k' s := by
      intro long h3
      rw [encoded_sha K k s long h3, Option.some.injEq] at he
      unfold cryptSha at he
      split at he
      · exact absurd he (by simp)
      · dsimp only at he
        rw [if_neg (by rw [h3]; simp)] at he
        split at he
        · exact absurd he (by simp)
        · rename_i has n rest hro
          split at he
          · exact absurd he (by simp)
          · rename_i salt hsa
            split at he
            · exact absurd he (by simp)
            · rename_i enc henc
              have he := Option.some.inj he
              have h3' : h.take 3 = if long then [0x24, 0x36, 0x24] else [0x24, 0x35, 0x24] := by
                rw [← he]; cases long <;> rfl
              have hd : h.drop 3 = (if has then rstring ++ Stdio.digitsOf 10 false n ++ [0x24] else []) ++ salt ++ [0x24] ++ enc := by
                rw [← he]; cases long <;> simp
              have hsalt : Text salt := by
                obtain ⟨⟨t, ht⟩, -⟩ := scan_prefix _ _ _ hsa
                have hrest : ∀ c ∈ rest, c ∈ s := by
                  unfold rounds at hro
                  intro c hc
                  split at hro
                  · dsimp only at hro
                    split at hro
                    · exact absurd hro (by simp)
                    · split at hro
                      · exact absurd hro (by simp)
                      · simp only [Option.some.injEq, Prod.mk.injEq] at hro
                        obtain ⟨-, -, rfl⟩ := hro
                        exact List.mem_of_mem_drop (List.mem_of_mem_drop (List.mem_of_mem_drop hc))
                  · simp only [Option.some.injEq, Prod.mk.injEq] at hro
                    obtain ⟨-, -, rfl⟩ := hro
                    exact sub c hc
                exact text_of_subset hs fun c hc => hrest c (by rw [← ht]; exact List.mem_append_left _ hc)
              have hh : Text h := by
                rw [← he]
                refine text_append (text_append (text_append (text_append ?_ ?_) hsalt) (by unfold Text; decide)) (hK.sha _ _ _ _ _ henc).1
                · cases long <;> (unfold Text; decide)
                · cases has
                  · unfold Text; simp
                  · exact text_append (text_append (by unfold Text rstring; decide) fun c hc => (digits_mem n c hc).2.2) (by unfold Text; decide)
              refine crypt_of_encoded K k' s h hs hh ?_
              rw [encoded_sha K k' s long h3, encoded_sha K k' h long h3']
              congr 1
              unfold cryptSha
              rw [hd, rounds_again _ _ _ enc _ _ hro hsa, hro]
              dsimp only
              rw [scan_again 16 rest salt enc hsa, hsa, h3', h3]
    simp only [List.mem_cons, List.not_mem_nil, or_false] at hp
    rcases hp with h3 | h3 | h3
    · rw [encoded_md5 K k s h3, Option.some.injEq] at he
      unfold cryptMd5 at he
      split at he
      · exact absurd he (by simp)
      · rw [if_neg (by rw [h3]; simp)] at he
        have he := Option.some.inj he
        generalize hsalt : ((s.drop 3).take 8).takeWhile (· ≠ 0x24) = salt at he
        have hm : ∀ c ∈ salt, c ≠ 0x24 ∧ c ∈ s := by
          intro c hc
          rw [← hsalt] at hc
          have := takeWhile_mem _ c hc
          exact ⟨this.1, sub c (List.mem_of_mem_take this.2)⟩
        have hl : salt.length ≤ 8 := by
          rw [← hsalt]
          exact Nat.le_trans (List.takeWhile_prefix _).length_le (by rw [List.length_take]; omega)
        have h3' : h.take 3 = [0x24, 0x31, 0x24] := by rw [← he]; rfl
        have hd : h.drop 3 = salt ++ 0x24 :: K.md5 k salt := by rw [← he]; simp
        have hh : Text h := by
          rw [← he]
          exact text_append (text_append (text_append (by unfold Text; decide) (text_of_subset hs fun c hc => (hm c hc).2)) (by unfold Text; decide)) (hK.md5 _ _).1
        refine crypt_of_encoded K k' s h hs hh ?_
        rw [encoded_md5 K k' s h3, encoded_md5 K k' h h3']
        congr 1
        unfold cryptMd5
        rw [hd, takeWhile_take salt _ 8 hl fun c hc => (hm c hc).1, hsalt, h3, h3']
    · exact sha false h3
    · exact sha true h3
  exact ⟨key, by rw [key, hr]⟩

/-- Hashes that only repeat the salt, for the examples. -/
def echo : Kdf := ⟨fun _ s => s, fun _ _ p _ => some p, fun p s _ => some (p ++ s), fun p _ _ => p, fun _ _ _ p _ => some p, fun _ _ => true, none⟩

example : encoded echo [0x6B] [0x24, 0x31, 0x24, 0x61, 0x62] = some (some [0x24, 0x31, 0x24, 0x61, 0x62, 0x24, 0x61, 0x62]) := by decide

/-- **C171 violation**: a hash that was made with PBKDF2 ("$8$") is not accepted as a setting, so that no password is ever verified. -/
theorem C171_pbkdf2_violation (K : Kdf) (k k' s h : Bytes) (hp : s.take 3 = [0x24, 0x38, 0x24]) (hr : (crypt K k s).ret = some h) :
    (crypt K k' h).ret = none := by
  have he := ret_encoded K k s h hr
  rw [encoded_pbkdf2 K k s hp, Option.some.injEq] at he
  have hn : encoded K k' h = some none := by
    unfold cryptPbkdf2 at he
    dsimp only at he
    split at he
    · exact absurd he (by simp)
    · split at he
      · exact absurd he (by simp)
      · split at he
        · exact absurd he (by simp)
        · split at he
          · exact absurd he (by simp)
          · rename_i actual _ _ n _
            have he := Option.some.inj he
            generalize hi : (s.drop 3).takeWhile (· ≠ 0x24) = iter at he
            generalize (s.drop 3).drop (iter.length + 1) = salt at he
            have hm : ∀ c ∈ iter, c ≠ 0x24 := fun c hc => (takeWhile_mem _ c (by rw [hi]; exact hc)).1
            have h3 : h.take 3 = [0x24, 0x38, 0x24] := by rw [← he]; rfl
            have hd : h.drop 3 = iter ++ 0x24 :: (salt ++ 0x24 :: K.pbkdf2 k actual n) := by rw [← he]; simp
            rw [encoded_pbkdf2 K k' h h3]
            congr 1
            unfold cryptPbkdf2
            dsimp only
            rw [hd, takeWhile_stop _ _ hm, if_neg (by rw [List.length_append, List.length_cons]; omega),
              show iter ++ 0x24 :: (salt ++ 0x24 :: K.pbkdf2 k actual n) = (iter ++ [0x24]) ++ (salt ++ 0x24 :: K.pbkdf2 k actual n) by simp,
              show iter.length + 1 = (iter ++ [0x24]).length by simp, List.drop_left, if_pos (by simp)]
  unfold crypt
  split
  · rfl
  · rw [hn]

example : (encoded echo [0x6B] [0x24, 0x38, 0x24, 0x31, 0x24, 0x61]) = some (some [0x24, 0x38, 0x24, 0x31, 0x24, 0x61, 0x24, 0x6B]) := by decide

/-- **C171 violation**: with a hash that was made with scrypt ("$7$") as the setting, no password gives that hash. -/
theorem C171_scrypt_violation (K : Kdf) (hK : ∀ n r p k s o k' s' o', K.scrypt n r p k s = some o → K.scrypt n r p k' s' = some o' → o.length = o'.length)
    (k k' s h : Bytes) (hp : s.take 3 = [0x24, 0x37, 0x24]) (hr : (crypt K k s).ret = some h) : (crypt K k' h).ret ≠ some h := by
  intro hr'
  have he := ret_encoded K k s h hr
  have he' := ret_encoded K k' h h hr'
  rw [encoded_scrypt K k s hp, Option.some.injEq] at he
  unfold cryptScrypt at he
  split at he
  · exact absurd he (by simp)
  · rename_i hl
    split at he
    · exact absurd he (by simp)
    · rename_i n r p salt hs
      split at he
      · exact absurd he (by simp)
      · rename_i enc henc
        have he := Option.some.inj he
        generalize hq : (s.drop 3).take 11 = par at he
        have pl : par.length = 11 := by rw [← hq, List.length_take, List.length_drop]; omega
        have h3 : h.take 3 = [0x24, 0x37, 0x24] := by rw [← he]; rfl
        have hd : h.drop 3 = par ++ (0x24 :: (salt ++ 0x24 :: enc)) := by rw [← he]; simp
        have hlen : h.length = 16 + salt.length + enc.length := by rw [← he]; simp; omega
        rw [encoded_scrypt K k' h h3, Option.some.injEq] at he'
        unfold cryptScrypt at he'
        rw [if_neg (by omega)] at he'
        split at he'
        · exact absurd he' (by simp)
        · rename_i n' r' p' salt' hs'
          split at he'
          · exact absurd he' (by simp)
          · rename_i enc' henc'
            have he' := Option.some.inj he'
            have hsl : (s.drop 3).take 11 = (h.drop 3).take 11 := by
              rw [hq, hd, List.take_append_of_le_length (by omega), List.take_of_length_le (by omega)]
            have same : n' = n ∧ r' = r ∧ p' = p ∧ salt' = 0x24 :: (salt ++ 0x24 :: enc) := by
              have q1 : (h.drop 3).headD 0 = (s.drop 3).headD 0 := by
                have a : ∀ l : Bytes, l.headD 0 = (l.take 11).headD 0 := fun l => by cases l <;> rfl
                rw [a (h.drop 3), a (s.drop 3), hsl]
              have q2 : ((h.drop 3).drop 1).take 5 = ((s.drop 3).drop 1).take 5 := by
                have a : ∀ l : Bytes, (l.drop 1).take 5 = ((l.take 11).drop 1).take 5 := fun l => by
                  rw [List.drop_take, List.take_take]; rfl
                rw [a (h.drop 3), a (s.drop 3), hsl]
              have q3 : ((h.drop 3).drop 6).take 5 = ((s.drop 3).drop 6).take 5 := by
                have a : ∀ l : Bytes, (l.drop 6).take 5 = ((l.take 11).drop 6).take 5 := fun l => by
                  rw [List.drop_take, List.take_take]; rfl
                rw [a (h.drop 3), a (s.drop 3), hsl]
              have q4 : (h.drop 3).drop 11 = 0x24 :: (salt ++ 0x24 :: enc) := by
                rw [hd, ← pl, List.drop_left]
              unfold readSetting at hs hs'
              rw [q1, q2, q3, q4] at hs'
              cases a1 : scryptDigit ((s.drop 3).headD 0) with
              | none => rw [a1] at hs; exact absurd hs (by simp)
              | some x1 =>
                cases a2 : dencode 0 0 (((s.drop 3).drop 1).take 5) with
                | none => rw [a1, a2] at hs; exact absurd hs (by simp)
                | some x2 =>
                  cases a3 : dencode 0 0 (((s.drop 3).drop 6).take 5) with
                  | none => rw [a1, a2, a3] at hs; exact absurd hs (by simp)
                  | some x3 =>
                    rw [a1, a2, a3] at hs hs'
                    have hs'' : (some (x1, x2, x3, 0x24 :: (salt ++ 0x24 :: enc)) : Option (Nat × Nat × Nat × Bytes)) = some (n', r', p', salt') := hs'
                    have hs3 : (if (s.drop 3).drop 11 ≠ [] then (some ((s.drop 3).drop 11)).bind fun a => some (x1, x2, x3, a)
                        else K.genSalt.bind fun a => some (x1, x2, x3, a)) = some (n, r, p, salt) := hs
                    have hs4 : ∃ a, (some (x1, x2, x3, a) : Option (Nat × Nat × Nat × Bytes)) = some (n, r, p, salt) := by
                      split at hs3
                      · exact ⟨_, hs3⟩
                      · obtain ⟨a, -, ha⟩ := Option.bind_eq_some_iff.1 hs3
                        exact ⟨a, ha⟩
                    obtain ⟨a, ha⟩ := hs4
                    cases hs''; cases ha
                    exact ⟨rfl, rfl, rfl, rfl⟩
            obtain ⟨rfl, rfl, rfl, rfl⟩ := same
            have := hK _ _ _ _ _ _ _ _ _ henc henc'
            have l2 := congrArg List.length he'
            rw [hlen] at l2
            simp only [List.length_append, List.length_cons, List.length_nil, List.length_take, List.length_drop] at l2
            omega

/-- **C171 violation**: a hash that was made with Blowfish ("$2b$" …) does not contain the salt: used as the setting it is taken for the salt
itself, so that the right password gives the same hash only if that is a fixed point. -/
theorem C171_bcrypt_violation (K : Kdf) (hK : K.Base64) (hfix : ∀ p c o, K.bcrypt p o c ≠ some o) (k s h : Bytes)
    (hp : s.take 2 = [0x24, 0x32]) (hp3 : s[3]? = some 0x24) (hr : (crypt K k s).ret = some h) : (crypt K k h).ret ≠ some h := by
  intro hr'
  have he := ret_encoded K k s h hr
  have he' := ret_encoded K k h h hr'
  rw [encoded_bcrypt K k s hp hp3, Option.some.injEq] at he
  unfold cryptBlowfish at he
  split at he
  · exact absurd he (by simp)
  · rename_i pre salt cost hsp
    split at he
    · rename_i hc
      split at he
      · exact absurd he (by simp)
      · rename_i enc henc
        have he := Option.some.inj he
        have hpre : pre ∈ ([[0x32, 0x79], [0x32, 0x62], [0x32, 0x61], [0x32, 0x78]] : List Bytes) := by
          unfold splitWithPrefix at hsp
          split at hsp
          · split at hsp
            · rename_i hm
              obtain ⟨c, -, hc⟩ := Option.map_eq_some_iff.1 hsp
              cases hc; exact hm
            · exact absurd hsp (by simp)
          · exact absurd hsp (by simp)
        have hx : (∀ c ∈ pre, c ≠ 0x24) ∧ ([0x24] ++ pre).take 2 = [0x24, 0x32] ∧ pre.length = 2 := by
          simp only [List.mem_cons, List.not_mem_nil, or_false] at hpre
          rcases hpre with rfl | rfl | rfl | rfl <;> decide
        have h2 : h.take 2 = [0x24, 0x32] := by
          rw [← he, List.append_assoc, List.append_assoc, List.append_assoc, List.take_append_of_le_length (by simp [hx.2.2])]
          exact hx.2.1
        have h3 : h[3]? = some 0x24 := by
          rw [← he, List.append_assoc, List.append_assoc, List.append_assoc, List.getElem?_append_right (by simp [hx.2.2])]
          simp [hx.2.2]
        have hsplit : split h = [] :: [pre, Stdio.digitsOf 10 false cost, enc] := by
          rw [← he]
          have : [0x24] ++ pre ++ [0x24] ++ Stdio.digitsOf 10 false cost ++ [0x24] ++ enc = [] ++ 0x24 :: (pre ++ 0x24 :: (Stdio.digitsOf 10 false cost ++ 0x24 :: enc)) := by simp
          rw [this, split_cons [] _ (by simp), split_cons pre _ hx.1, split_cons _ _ fun c hc => (digits_mem cost c hc).2.1, split_one]
          intro c hc e
          exact (hK.bcrypt _ _ _ _ henc).2 (e ▸ hc)
        rw [encoded_bcrypt K k h h2 h3, Option.some.injEq] at he'
        have hsp' : splitWithPrefix h = some (pre, enc, cost) := by
          unfold splitWithPrefix
          rw [hsplit]
          show (if pre ∈ _ then _ else _) = _
          rw [if_pos hpre, parse_digits _ _ (by omega)]; rfl
        unfold cryptBlowfish at he'
        rw [hsp'] at he'
        dsimp only at he'
        rw [if_pos hc] at he'
        split at he'
        · exact absurd he' (by simp)
        · rename_i enc' henc'
          have he' := Option.some.inj he'
          rw [← he] at he'
          have : enc' = enc := List.append_cancel_left he'
          subst this
          exact hfix _ _ _ henc'
    · exact absurd he (by simp)

/-- Hashes of one letter that satisfy all that is asked of them above. -/
def toy : Kdf :=
  ⟨fun _ _ => [0x61], fun _ _ _ _ => some [0x61], fun _ s _ => some (if s = [0x61] then [0x62] else [0x61]), fun _ _ _ => [0x61],
   fun _ _ _ _ _ => some [0x61], fun _ _ => true, none⟩

example : toy.Base64 := by
  refine ⟨?_, ?_, ?_, ?_, ?_⟩
  · intro p s; show Text [0x61] ∧ (0x24 : UInt8) ∉ ([0x61] : Bytes); unfold Text; decide
  · intro l n p s o h; cases h; unfold Text; decide
  · intro p s c o h
    simp only [toy, Option.some.injEq] at h
    subst h
    split <;> (unfold Text; decide)
  · intro p s n; show Text [0x61] ∧ (0x24 : UInt8) ∉ ([0x61] : Bytes); unfold Text; decide
  · intro n r p k s o h; cases h; unfold Text; decide

example : ∀ p c o, toy.bcrypt p o c ≠ some o := by
  intro p c o h
  simp only [toy, Option.some.injEq] at h
  split at h
  · rename_i e; rw [e] at h; exact absurd h (by decide)
  · rename_i e; exact e h.symm

/-- "$2b$10$b" and its hash. -/
example : encoded toy [0x6B] [0x24, 0x32, 0x62, 0x24, 0x31, 0x30, 0x24, 0x62] = some (some [0x24, 0x32, 0x62, 0x24, 0x31, 0x30, 0x24, 0x61]) := by
  decide +kernel

/-- "$7$C6..../....ab" and its hash. -/
example : encoded toy [0x6B] [0x24, 0x37, 0x24, 0x43, 0x36, 0x2E, 0x2E, 0x2E, 0x2E, 0x2F, 0x2E, 0x2E, 0x2E, 0x2E, 0x61, 0x62] =
    some (some [0x24, 0x37, 0x24, 0x43, 0x36, 0x2E, 0x2E, 0x2E, 0x2E, 0x2F, 0x2E, 0x2E, 0x2E, 0x2E, 0x24, 0x61, 0x62, 0x24, 0x61]) := by
  decide +kernel

/-- **C171**: an Argon2 setting is itself the hash; it is returned exactly for the passwords that belong to it. -/
theorem C171_argon2 (K : Kdf) (k s : Bytes) (hs : Text s) (hp : s.take 7 = [0x24, 0x61, 0x72, 0x67, 0x6F, 0x6E, 0x32]) :
    (crypt K k s).ret = if K.argon2 k s then some s else none := by
  have h3 : s.take 3 = [0x24, 0x61, 0x72] := by
    have : s.take 3 = (s.take 7).take 3 := by rw [List.take_take]; rfl
    rw [this, hp]; rfl
  have h2 : ¬ (s.take 2 = [0x24, 0x32] ∧ s[3]? = some 0x24) := by
    rintro ⟨h2, -⟩
    have : s.take 2 = (s.take 7).take 2 := by rw [List.take_take]; rfl
    rw [this, hp] at h2
    exact absurd h2 (by decide)
  have he : encoded K k s = some (cryptArgon2 K k s) := by
    unfold encoded
    rw [if_pos (take_one hp), if_neg (by rw [h3]; decide), if_neg h2, if_neg (by rw [h3]; decide), if_neg (by rw [h3]; decide), if_neg (by rw [h3]; decide),
      if_neg (by rw [h3]; decide), if_pos (show s.take 7 = argonPrefix from hp)]
  unfold crypt
  rw [utf8_text s hs, if_neg (by decide), he]
  unfold cryptArgon2
  by_cases h : K.argon2 k s
  · simp only [h, if_true]
    rw [if_neg fun h0 => (hs 0 h0).1 rfl]
  · simp only [h]; rfl

/-- **C171**: a setting that begins with "$" and is of no known kind is refused with `EINVAL`. -/
theorem C171_unknown (K : Kdf) (k : Bytes) (x : UInt8) (s : Bytes) (hx : x ∉ ([0x31, 0x32, 0x35, 0x36, 0x37, 0x38, 0x61] : List UInt8)) :
    (crypt K k (0x24 :: x :: s)).ret = none ∧ (crypt K k (0x24 :: x :: s)).errno = some 22 := by
  simp only [List.mem_cons, List.not_mem_nil, or_false, not_or] at hx
  have he : encoded K k (0x24 :: x :: s) = none := by
    unfold encoded argonPrefix
    simp [hx]
  unfold crypt
  split
  · exact ⟨rfl, rfl⟩
  · rw [he]; exact ⟨rfl, rfl⟩

/-- **C171 violation**: a setting without "$", as of the traditional `crypt` of POSIX, gives a null pointer and no `errno`. -/
theorem C171_traditional_violation (K : Kdf) (k s : Bytes) (hs : Text s) (h : s.head? ≠ some 0x24) : crypt K k s = ⟨none, none, []⟩ := by
  have he : encoded K k s = some none := by
    unfold encoded
    rw [if_neg]
    intro h1
    apply h
    cases s with
    | nil => exact absurd h1 (by simp)
    | cons c s => simpa using h1
  unfold crypt
  rw [utf8_text s hs, if_neg (by decide), he]

/-- **C171 violation**: the result is also written to the 256 bytes of `crypt_data`, of any length. -/
theorem C171_overflow_violation (K : Kdf) (k s : Bytes) (hs : Text s) (hp : s.take 7 = [0x24, 0x61, 0x72, 0x67, 0x6F, 0x6E, 0x32])
    (hv : K.argon2 k s) (hl : 256 < s.length) : 256 < (crypt K k s).written.length := by
  have h := C171_argon2 K k s hs hp
  rw [if_pos hv] at h
  have he := ret_encoded K k s s h
  unfold crypt
  rw [utf8_text s hs, if_neg (by decide), he]
  dsimp only
  rw [if_neg fun h0 => (hs 0 h0).1 rfl]
  exact hl

end Verif.Crypt
