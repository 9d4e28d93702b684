import Verif.Temp.Model
import Verif.Str.StrLemmas

/-!
# Temporary files: lemmas
-/

namespace Verif.Temp

open Verif.Mem Verif.Str

theorem sub_toInt {a b : Int32} (h1 : -2 ^ 31 ≤ a.toInt - b.toInt) (h2 : a.toInt - b.toInt < 2 ^ 31) : (a - b).toInt = a.toInt - b.toInt := by
  rw [Int32.toInt_sub]
  exact Int.bmod_eq_of_le (by omega) (by omega)

theorem ofNat_toInt {n : Nat} (h : n < 2 ^ 31) : (Int32.ofNat n).toInt = n := Int32.toInt_ofNat_of_lt h

theorem patch_patch (m : M) (q : Nat) (a b : List UInt8) (h : a.length = b.length) : patch (patch m q a) q b = patch m q b := by
  funext x
  unfold patch
  by_cases hx : q ≤ x ∧ x < q + b.length
  · rw [if_pos hx, if_pos hx]
  · rw [if_neg hx, if_neg hx, if_neg (by rw [h]; exact hx)]

theorem cstr_ext {m m' : M} {p : Nat} {s : List UInt8} (h : CStr m p s) (e : ∀ a, p ≤ a → a ≤ p + s.length → m' a = m a) : CStr m' p s := by
  rw [cstr_iff] at *
  refine ⟨bytes_iff.2 ?_, h.2⟩
  intro i hi
  rw [e _ (by omega) (by simp at hi; omega)]
  exact bytes_iff.1 h.1 i hi

/-- The string after a piece in the middle of it has been overwritten. -/
theorem cstr_patch {m : M} {p : Nat} {pre x r suf : List UInt8} (h : CStr m p (pre ++ x ++ suf)) (hl : r.length = x.length) (h0 : (0 : UInt8) ∉ r) :
    CStr (patch m (p + pre.length) r) p (pre ++ r ++ suf) := by
  rw [cstr_iff] at *
  refine ⟨bytes_iff.2 ?_, ?_⟩
  · intro i hi
    have hb := bytes_iff.1 h.1
    simp only [List.length_append, List.length_cons, List.length_nil, hl] at hi
    by_cases h1 : i < pre.length
    · rw [patch_out (by omega), hb i (by simp; omega)]
      simp only [List.append_assoc]
      rw [List.getElem?_append_left h1, List.getElem?_append_left h1]
    · by_cases h2 : i < pre.length + r.length
      · rw [show p + i = p + pre.length + (i - pre.length) by omega, patch_in (by omega)]
        simp only [List.append_assoc]
        rw [List.getElem?_append_right (by omega), List.getElem?_append_left (by omega)]
      · rw [patch_out (by omega), hb i (by simp; omega)]
        have e1 : (pre ++ x ++ (suf ++ [0]))[i]? = (suf ++ [0])[i - (pre ++ x).length]? := List.getElem?_append_right (by simp; omega)
        have e2 : (pre ++ r ++ (suf ++ [0]))[i]? = (suf ++ [0])[i - (pre ++ r).length]? := List.getElem?_append_right (by simp; omega)
        rw [List.append_assoc (pre ++ x), List.append_assoc (pre ++ r), e1, e2, List.length_append, List.length_append, hl]
  · have := h.2
    simp only [List.mem_append, not_or] at *
    exact ⟨⟨this.1.1, h0⟩, this.2⟩

theorem cname_eq {m : M} {p : Nat} {s : List UInt8} (h : CStr m p s) : cname m p = some s := by
  simp [cname, strlen_eq h, h.1.readN]

/-- The letters of the i-th try, from left to right. -/
def letters (d : Nat → Fin 62) : List UInt8 := [alnum (d 5), alnum (d 4), alnum (d 3), alnum (d 2), alnum (d 1), alnum (d 0)]

theorem alnum_ne (k : Fin 62) : alnum k ≠ 0 := by
  revert k; decide +kernel

theorem letters_ne (d : Nat → Fin 62) : (0 : UInt8) ∉ letters d := by
  simp [letters, (alnum_ne _).symm]

theorem poke_patch {m : M} {a : Nat} (h : (m a).isSome) (b : UInt8) : poke m a b = some (patch m a [b]) := by
  unfold poke
  rw [if_neg (by omega)]
  exact store_patch h b

theorem fill_eq {m : M} {q : Nat} (h : Mapped m q 6) (d : Nat → Fin 62) : fill m ((q + 5 : Nat) : Int) d 0 6 = some (patch m q (letters d)) := by
  have key : ∀ (k : Nat) (l : List UInt8), l.length = k → k ≤ 6 → ∀ n, n = 6 - k → fill (patch m (q + n) l) ((q + 5 : Nat) : Int) d k n =
      some (patch m q ((List.range n).map (fun j => alnum (d (5 - j))) ++ l)) := by
    intro k l hl hk n
    induction n generalizing k l with
    | zero => intro _; simp [fill]
    | succ n ih =>
      intro hn
      simp only [fill]
      rw [show ((q + 5 : Nat) : Int) - k = ((q + n : Nat) : Int) by omega]
      rw [poke_patch (isSome_patch (h n (by omega)))]
      have e : patch (patch m (q + (n + 1)) l) (q + n) [alnum (d k)] = patch m (q + n) (alnum (d k) :: l) := by
        have := patch_before m (q + n) (alnum (d k)) l
        rw [← Nat.add_assoc]
        first | exact this | exact this.symm
      simp only [Option.bind_eq_bind, Option.bind_some]
      rw [e, ih (k + 1) (alnum (d k) :: l) (by simp [hl]) (by omega) (by omega), List.range_succ, List.map_append]
      simp only [List.append_assoc, List.map_cons, List.map_nil, List.cons_append, List.nil_append]
      rw [show 5 - n = k by omega]
  have := key 0 [] rfl (by omega) 6 rfl
  rw [patch_nil] at this
  rw [this]
  rfl

theorem checkX_true {m : M} {q n : Nat} (h : Bytes m q (List.replicate n 0x58)) : checkX m q n = some true := by
  induction n generalizing q with
  | zero => rfl
  | succ n ih =>
    rw [List.replicate_succ] at h
    have := ih h.2
    simp only [checkX, peek]
    rw [if_neg (by omega), Int.toNat_natCast, h.1]
    simpa using this

theorem checkX_false {m : M} {q n : Nat} {x : List UInt8} (h : Bytes m q x) (hl : x.length = n) (hx : x ≠ List.replicate n 0x58) : checkX m q n = some false := by
  induction n generalizing q x with
  | zero => simp at hl; simp [hl] at hx
  | succ n ih =>
    cases x with
    | nil => simp at hl
    | cons b x =>
      simp only [checkX, peek]
      rw [if_neg (by omega), Int.toNat_natCast, h.1]
      simp only [Option.bind_eq_bind, Option.bind_some]
      by_cases hb : b = 0x58
      · rw [if_neg (by simp [hb])]
        apply ih h.2 (by simpa using hl)
        intro e
        apply hx
        rw [hb, e, List.replicate_succ]
      · rw [if_pos hb]

/-- What the other processes have made of the files before the i-th try, if this process has not changed them. -/
def drift (w : World) (fs : Files) : Nat → Files
  | 0 => fs
  | i + 1 => w.others i (drift w fs i)

/-- A try that fails changes neither the files nor the descriptors. -/
def Harmless {T : Type} (attempt : Attempt T) : Prop :=
  ∀ d name s s', attempt d name s = (none, s') → s'.files = s.files ∧ s'.fds = s.fds ∧ s'.umask = s.umask

theorem tries_spec {T : Type} {w : World} {attempt : Attempt T} (hh : Harmless attempt) {p : Nat} {pre suf : List UInt8} {m0 : M} {fs0 : Files} :
    ∀ (n i : Nat) (m : M) (s : St) (x : List UInt8), x.length = 6 → m = patch m0 (p + pre.length) x → CStr m p (pre ++ x ++ suf) →
      s.files = drift w fs0 i →
      ∃ r m' s', tries w attempt p ((pre.length : Int) + 5) i m s n = some (r, m', s') ∧
        ((r = none ∧ s'.errno = some .EEXIST ∧ s'.files = drift w fs0 (i + n) ∧ s'.fds = s.fds ∧
            (∃ x', x'.length = 6 ∧ (0 : UInt8) ∉ x' ∧ m' = patch m0 (p + pre.length) x') ∧
            ∀ k, k < n → ∃ s2 s3, s2.files = drift w fs0 (i + k + 1) ∧
              attempt (w.deny (i + k) (pre ++ letters (w.draw (i + k)) ++ suf)) (pre ++ letters (w.draw (i + k)) ++ suf) s2 = (none, s3)) ∨
          ∃ t k s2, r = some t ∧ k < n ∧ s2.files = drift w fs0 (i + k + 1) ∧ s2.fds = s.fds ∧ s2.umask = s.umask ∧
            attempt (w.deny (i + k) (pre ++ letters (w.draw (i + k)) ++ suf)) (pre ++ letters (w.draw (i + k)) ++ suf) s2 = (some t, s') ∧
            m' = patch m0 (p + pre.length) (letters (w.draw (i + k)))) := by
  intro n
  induction n with
  | zero =>
    intro i m s x hx hm hc hs
    refine ⟨none, m, _, rfl, Or.inl ⟨rfl, rfl, hs, rfl, ⟨x, hx, ?_, hm⟩, by omega⟩⟩
    have := hc.2.2
    simp only [List.mem_append, not_or] at this
    exact this.1.2
  | succ n ih =>
    intro i m s x hx hm hc hs
    have hmap : Mapped m (p + pre.length) 6 := by
      have := (bytes_append.1 (bytes_append.1 hc.1).1).2.mapped
      rwa [hx] at this
    have hf := fill_eq hmap (w.draw i)
    rw [show ((p + pre.length + 5 : Nat) : Int) = (p : Int) + ((pre.length : Int) + 5) by omega] at hf
    have hc' := cstr_patch hc (r := letters (w.draw i)) (by rw [hx]; rfl) (letters_ne _)
    have hm' : patch m (p + pre.length) (letters (w.draw i)) = patch m0 (p + pre.length) (letters (w.draw i)) := by
      rw [hm]; exact patch_patch _ _ _ _ (by rw [hx]; rfl)
    simp only [tries, hf, Option.bind_eq_bind, Option.bind_some, cname_eq hc']
    cases ha : attempt (w.deny i (pre ++ letters (w.draw i) ++ suf)) (pre ++ letters (w.draw i) ++ suf) { s with files := w.others i s.files } with
    | mk r s1 =>
      cases r with
      | some t =>
        refine ⟨some t, _, s1, rfl, Or.inr ⟨t, 0, { s with files := w.others i s.files }, rfl, by omega, ?_, rfl, rfl, ha, hm'⟩⟩
        show w.others i s.files = _
        rw [hs]; rfl
      | none =>
        have h1 := hh _ _ _ _ ha
        obtain ⟨r, m', s', e, hr⟩ := ih (i + 1) _ s1 _ (by rfl) hm' hc' (by rw [h1.1, hs]; rfl)
        refine ⟨r, m', s', e, ?_⟩
        rcases hr with ⟨a, b, c, d, f, g⟩ | ⟨t, k, s2, a, b, c, d, e1, f, g⟩
        · refine Or.inl ⟨a, b, ?_, by rw [d, h1.2.1], f, ?_⟩
          · rw [c]; congr 1; omega
          · intro k hk
            cases k with
            | zero => exact ⟨{ s with files := w.others i s.files }, s1, by show w.others i s.files = _; rw [hs]; rfl, ha⟩
            | succ k =>
              obtain ⟨s2, s3, g1, g2⟩ := g k (by omega)
              refine ⟨s2, s3, ?_, ?_⟩
              · rw [g1]; congr 1; omega
              · rw [show i + (k + 1) = i + 1 + k by omega]; exact g2
        · refine Or.inr ⟨t, k + 1, s2, a, by omega, ?_, by rw [d, h1.2.1], by rw [e1, h1.2.2], ?_, ?_⟩
          · rw [c]; congr 1; omega
          · rw [show i + (k + 1) = i + 1 + k by omega]; exact f
          · rw [show i + (k + 1) = i + 1 + k by omega]; exact g

/-- Six times `X`. -/
def six : List UInt8 := List.replicate 6 0x58

theorem inner_spec {T : Type} {w : World} {attempt : Attempt T} (hh : Harmless attempt) {p : Nat} {pre suf : List UInt8} {m : M} {s : St}
    (hc : CStr m p (pre ++ six ++ suf)) (hl : (pre ++ six ++ suf).length < 2 ^ 31) :
    ∃ r m' s', innerMktemp w attempt p (Int32.ofNat suf.length) m s = some (r, m', s') ∧
        ((r = none ∧ s'.errno = some .EEXIST ∧ s'.files = drift w s.files 100 ∧ s'.fds = s.fds ∧
            (∃ x', x'.length = 6 ∧ (0 : UInt8) ∉ x' ∧ m' = patch m (p + pre.length) x') ∧
            ∀ k, k < 100 → ∃ s2 s3, s2.files = drift w s.files (k + 1) ∧
              attempt (w.deny k (pre ++ letters (w.draw k) ++ suf)) (pre ++ letters (w.draw k) ++ suf) s2 = (none, s3)) ∨
          ∃ t k s2, r = some t ∧ k < 100 ∧ s2.files = drift w s.files (k + 1) ∧ s2.fds = s.fds ∧ s2.umask = s.umask ∧
            attempt (w.deny k (pre ++ letters (w.draw k) ++ suf)) (pre ++ letters (w.draw k) ++ suf) s2 = (some t, s') ∧
            m' = patch m (p + pre.length) (letters (w.draw k))) := by
  have hx := (bytes_append.1 (bytes_append.1 hc.1).1).2
  have hself : m = patch m (p + pre.length) six := (patch_same hx).symm
  have hlen : (pre ++ six ++ suf).length = pre.length + 6 + suf.length := by simp [six]; omega
  have hsl : suf.length < 2 ^ 31 := by omega
  unfold innerMktemp
  rw [strlen_eq hc]
  simp only [Option.bind_eq_bind, Option.bind_some]
  have t1 : (Int32.ofNat (pre ++ six ++ suf).length).toInt = pre.length + 6 + suf.length := by rw [ofNat_toInt hl, hlen]; omega
  have t2 := ofNat_toInt hsl
  have t6 : (6 : Int32).toInt = 6 := rfl
  have b : pre.length + 6 + suf.length < 2147483648 := by rw [← hlen]; exact hl
  have e1 : (Int32.ofNat (pre ++ six ++ suf).length - 6).toInt = pre.length + suf.length := by
    rw [sub_toInt (by omega) (by omega)]; omega
  have e2 : (Int32.ofNat (pre ++ six ++ suf).length - Int32.ofNat suf.length).toInt = pre.length + 6 := by
    rw [sub_toInt (by omega) (by omega)]; omega
  have e3 : (Int32.ofNat (pre ++ six ++ suf).length - Int32.ofNat suf.length - 6).toInt = pre.length := by
    rw [sub_toInt (by omega) (by omega)]; omega
  rw [if_neg (by
    rw [Int32.lt_iff_toInt_lt, gt_iff_lt, Int32.lt_iff_toInt_lt, e1]
    omega)]
  rw [e3, e2, t1, t2]
  have hck : checkX m ((p : Int) + pre.length) ((pre.length : Int) + 6 - pre.length).toNat = some true := by
    rw [show ((pre.length : Int) + 6 - pre.length).toNat = 6 by omega, show (p : Int) + pre.length = ((p + pre.length : Nat) : Int) by omega]
    exact checkX_true hx
  rw [hck]
  simp only [Option.bind_some, Bool.not_true]
  rw [if_neg (by simp)]
  rw [show (pre.length : Int) + 6 + suf.length - suf.length - 1 = pre.length + 5 by omega]
  obtain ⟨r, m', s', e, hr⟩ := tries_spec hh 100 0 m s six (by rfl) hself hc (fs0 := s.files) (w := w) rfl
  refine ⟨r, m', s', e, ?_⟩
  simpa only [Nat.zero_add] using hr

/-- A name that is not a template. -/
theorem inner_einval {T : Type} {w : World} {attempt : Attempt T} {p k : Nat} {name : List UInt8} {m : M} {s : St}
    (hc : CStr m p name) (hl : name.length < 2 ^ 31) (hk : k < 2 ^ 31)
    (h : ¬ ∃ pre suf, name = pre ++ six ++ suf ∧ suf.length = k) :
    innerMktemp w attempt p (Int32.ofNat k) m s = some (none, m, { s with errno := some .EINVAL }) := by
  unfold innerMktemp
  rw [strlen_eq hc]
  simp only [Option.bind_eq_bind, Option.bind_some]
  have t1 := ofNat_toInt hl
  have t2 := ofNat_toInt hk
  have t6 : (6 : Int32).toInt = 6 := rfl
  have b : name.length < 2147483648 := hl
  have b2 : k < 2147483648 := hk
  have e1 : (Int32.ofNat name.length - 6).toInt = name.length - 6 := by
    rw [sub_toInt (by omega) (by omega)]; omega
  by_cases hs : k + 6 ≤ name.length
  · have e2 : (Int32.ofNat name.length - Int32.ofNat k).toInt = name.length - k := by
      rw [sub_toInt (by omega) (by omega)]; omega
    have e3 : (Int32.ofNat name.length - Int32.ofNat k - 6).toInt = name.length - k - 6 := by
      rw [sub_toInt (by omega) (by omega)]; omega
    rw [if_neg (by
      rw [Int32.lt_iff_toInt_lt, gt_iff_lt, Int32.lt_iff_toInt_lt, e1]
      omega)]
    rw [e3, e2]
    have hsplit : name = name.take (name.length - k - 6) ++ (name.drop (name.length - k - 6)).take 6 ++ name.drop (name.length - k) := by
      conv => lhs; rw [← List.take_append_drop (name.length - k - 6) name]
      rw [List.append_assoc]
      congr 1
      conv => lhs; rw [← List.take_append_drop 6 (name.drop (name.length - k - 6))]
      rw [List.drop_drop]
      congr 2; omega
    have hb := hc.1
    rw [hsplit] at hb
    have hx := (bytes_append.1 (bytes_append.1 hb).1).2
    rw [show (name.take (name.length - k - 6)).length = name.length - k - 6 by simp; omega] at hx
    have hck : checkX m ((p : Int) + ((name.length : Int) - k - 6)) ((name.length : Int) - k - ((name.length : Int) - k - 6)).toNat = some false := by
      rw [show ((name.length : Int) - k - ((name.length : Int) - k - 6)).toNat = 6 by omega,
        show (p : Int) + ((name.length : Int) - k - 6) = ((p + (name.length - k - 6) : Nat) : Int) by omega]
      refine checkX_false hx (by simp; omega) ?_
      intro e
      apply h
      refine ⟨name.take (name.length - k - 6), name.drop (name.length - k), ?_, ?_⟩
      · rw [six, ← e]; exact hsplit
      · simp; omega
    rw [hck]
    simp
  · rw [if_pos (by
      rw [Int32.lt_iff_toInt_lt, gt_iff_lt, Int32.lt_iff_toInt_lt, e1]
      omega)]
    rfl

theorem open_harmless (flags mode : UInt32) : Harmless (fun deny name s => match sysOpen deny name flags mode s with
    | (.ok fd, s) => (some fd, s)
    | (.error e, s) => (none, { s with errno := some e })) := by
  intro d name s s' h
  unfold sysOpen at h
  cases d with
  | some e => simp at h; simp [← h]
  | none =>
    simp only at h
    cases hf : s.files name with
    | none =>
      simp only [hf] at h
      split at h
      · rename_i x fd s1 heq
        simp at h
      · rename_i x e s1 heq
        split at heq
        · simp at heq
        · simp at heq h; rw [← h, ← heq.2]; simp
    | some f =>
      simp only [hf] at h
      split at h
      · simp at h
      · rename_i x e s1 heq
        split at heq
        · simp at heq h; rw [← h, ← heq.2]; simp
        · simp at heq

theorem mkdir_harmless (p : Nat) (mode : UInt32) : Harmless (fun deny name s => match sysMkdir deny name mode s with
    | (.ok _, s) => (some p, s)
    | (.error _, s) => (none, s)) := by
  intro d name s s' h
  unfold sysMkdir at h
  cases d with
  | some e => simp at h; simp [← h]
  | none =>
    simp only at h
    cases hf : s.files name with
    | none => simp [hf] at h
    | some f => simp [hf] at h; simp [← h]

theorem access_harmless : Harmless accessAttempt := by
  intro d name s s' h
  unfold accessAttempt at h
  split at h
  · simp at h
  · simp at h; simp [← h]

theorem newFd_gt (l : List (Nat × Desc)) : ∀ d ∈ l, d.1 < newFd l := by
  induction l with
  | nil => simp
  | cons a l ih =>
    intro d hd
    simp only [newFd, List.foldr_cons] at *
    rcases List.mem_cons.1 hd with rfl | h
    · omega
    · have := ih d h; omega

theorem copy_eq {m : M} {l : List UInt8} : ∀ {p : Nat}, Mapped m p l.length → copy m p l = some (patch m p l) := by
  induction l generalizing m with
  | nil => intro p _; simp [copy]
  | cons b l ih =>
    intro p h
    simp only [copy]
    rw [store_patch h.head]
    simp only [Option.bind_eq_bind, Option.bind_some]
    rw [ih (mapped_patch (Mapped.shift h))]
    have := patch_cons m p b l
    first | rw [this] | rw [← this]

end Verif.Temp
