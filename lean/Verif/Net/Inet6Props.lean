import Verif.Net.Inet6Model
import Verif.Net.InetProps
/-!
# IPv6 addresses as text (C90)
-/

namespace Verif.Net
open Verif.Mem Verif.Stdlib

/-! ## Specification -/

/-- A group: one to four hexadecimal digits; its two bytes, the more significant first. -/
def Group (s bs : List UInt8) : Prop :=
  s.length ≤ 4 ∧ ∃ v, Numeral 16 s v ∧ bs = [UInt8.ofNat (v / 256), UInt8.ofNat (v % 256)]

/-- A dotted quad at the end of an IPv6 address (without zeros in front of the octets), and its four bytes. -/
def Quad6 (s bs : List UInt8) : Prop :=
  ∃ wa wb wc wd a b c d, s = wa ++ [0x2E] ++ wb ++ [0x2E] ++ wc ++ [0x2E] ++ wd
    ∧ Octet wa a ∧ Octet wb b ∧ Octet wc c ∧ Octet wd d
    ∧ (∀ w ∈ [wa, wb, wc, wd], w.head? = some 0x30 → w = [0x30])
    ∧ bs = [UInt8.ofNat a, UInt8.ofNat b, UInt8.ofNat c, UInt8.ofNat d]

/-- Texts with their bytes, all of them groups. -/
def Groups (l : List (List UInt8 × List UInt8)) : Prop := ∀ x ∈ l, Group x.1 x.2

/-- Groups, of which the last two may be written as a dotted quad. -/
def Pieces (l : List (List UInt8 × List UInt8)) : Prop :=
  Groups l ∨ ∃ k q, l = k ++ [q] ∧ Groups k ∧ Quad6 q.1 q.2

/-- The texts, separated by colons. -/
def colonText (l : List (List UInt8 × List UInt8)) : List UInt8 := List.intercalate [0x3A] (l.map (·.1))

/-- `s` is an IPv6 address, of which `bs` are the sixteen bytes: either everything is written down, or at least one group of
zeros is replaced by `::` (RFC 4291, 2.2). -/
def Address6 (s bs : List UInt8) : Prop :=
  bs.length = 16 ∧
  ((∃ l, Pieces l ∧ s = colonText l ∧ bs = l.flatMap (·.2))
  ∨ ∃ l r k, Groups l ∧ Pieces r ∧ 2 ≤ k ∧ s = colonText l ++ [0x3A, 0x3A] ++ colonText r
    ∧ bs = l.flatMap (·.2) ++ List.replicate k 0 ++ r.flatMap (·.2))

/-! ## Memory -/

/-- Only addresses from `p` to `p + n` were written. -/
def OnlyWithin (m m' : Mem UInt8) (p n : Nat) : Prop :=
  (∀ a, a < p ∨ p + n ≤ a → m' a = m a) ∧ ∀ a, (m a).isSome → (m' a).isSome

theorem OnlyWithin.refl (m : Mem UInt8) (p n : Nat) : OnlyWithin m m p n := ⟨fun _ _ => rfl, fun _ h => h⟩

theorem OnlyWithin.trans {m m' m'' : Mem UInt8} {p n q k r j : Nat} (h : OnlyWithin m m' p n) (h' : OnlyWithin m' m'' q k)
    (h1 : r ≤ p) (h2 : p + n ≤ r + j) (h3 : r ≤ q) (h4 : q + k ≤ r + j) : OnlyWithin m m'' r j :=
  ⟨fun a ha => by rw [h'.1 a (by omega), h.1 a (by omega)], fun a ha => h'.2 a (h.2 a ha)⟩

theorem OnlyWithin.mapped {m m' : Mem UInt8} {p n q k : Nat} (h : OnlyWithin m m' p n) (hm : Mapped m q k) :
    Mapped m' q k := fun i hi => h.2 _ (hm i hi)

theorem within_patch (m : Mem UInt8) (p n : Nat) (l : List UInt8) (h : l.length ≤ n) : OnlyWithin m (patch m p l) p n :=
  ⟨fun _ ha => patch_out (by omega), fun _ ha => isSome_patch ha⟩

/-- One patch over another. -/
theorem patch_over (m : Mem UInt8) (p i : Nat) (l k : List UInt8) (h : i + k.length ≤ l.length) :
    patch (patch m p l) (p + i) k = patch m p (l.take i ++ k ++ l.drop (i + k.length)) := by
  have hlen : (l.take i ++ k ++ l.drop (i + k.length)).length = l.length := by
    simp only [List.length_append, List.length_take, List.length_drop]
    omega
  funext a
  simp only [patch, hlen]
  by_cases h1 : p ≤ a ∧ a < p + l.length
  · rw [if_pos h1, if_pos h1]
    by_cases h2 : p + i ≤ a ∧ a < p + i + k.length
    · rw [if_pos h2, List.append_assoc, List.getElem?_append_right (by rw [List.length_take]; omega),
        List.getElem?_append_left (by rw [List.length_take]; omega), List.length_take]
      congr 1
      omega
    · rw [if_neg h2]
      by_cases h3 : a < p + i
      · rw [List.append_assoc, List.getElem?_append_left (by rw [List.length_take]; omega), List.getElem?_take,
          if_pos (by omega)]
      · rw [List.getElem?_append_right (by simp only [List.length_append, List.length_take]; omega), List.getElem?_drop]
        simp only [List.length_append, List.length_take]
        congr 1
        omega
  · rw [if_neg h1, if_neg h1, if_neg (by omega)]

/-! ## Splitting -/

theorem split_length (c : UInt8) (s : List UInt8) : (split c s).length = s.count c + 1 := by
  induction s with
  | nil => rfl
  | cons b t ih =>
    rw [split]
    split
    · rename_i h
      subst h
      simp [ih]
    · rename_i h
      rw [List.count_cons_of_ne (by exact fun e => h (by simpa using e))]
      split
      · rename_i e
        exact absurd e (split_ne c t)
      · rename_i w ws e
        rw [e] at ih
        exact ih

theorem findPair_some {s : List UInt8} {i : Nat} (h : findPair s = some i) :
    s = s.take i ++ [0x3A, 0x3A] ++ s.drop (i + 2) := by
  induction s generalizing i with
  | nil => cases h
  | cons a t ih =>
    cases t with
    | nil => cases h
    | cons b t =>
      rw [findPair] at h
      split at h
      · rename_i e
        cases h
        rw [e.1, e.2]
        rfl
      · obtain ⟨j, hj, rfl⟩ := Option.map_eq_some_iff.1 h
        have := ih hj
        simp only [List.take_succ_cons, List.cons_append, List.drop_succ_cons]
        exact congrArg (a :: ·) this

/-! ## Bounds -/

theorem octetLoop_range : ∀ (n : Nat) {m : Mem UInt8} {p : Nat} (ws : List (List UInt8)), Mapped m p n →
    ∃ ok m', octetLoop m p n ws = some (ok, m') ∧ OnlyWithin m m' p n
  | 0, m, p, ws, _ => ⟨true, m, rfl, .refl ..⟩
  | n + 1, m, p, [], _ => ⟨true, m, rfl, .refl ..⟩
  | n + 1, m, p, w :: ws, hm => by
    rw [octetLoop]
    split
    · exact ⟨_, _, rfl, .refl ..⟩
    · split
      · exact ⟨_, _, rfl, .refl ..⟩
      · rename_i v _
        rw [store_patch hm.head]
        simp only [Option.bind_eq_bind, Option.bind_some]
        obtain ⟨ok, m', e, h⟩ := octetLoop_range n ws (m := patch m p [UInt8.ofNat v]) (p := p + 1)
          (mapped_patch hm.shift)
        exact ⟨ok, m', e, (within_patch m p 1 _ (by simp)).trans h (by omega) (by omega) (by omega) (by omega)⟩

theorem wordLoop_range : ∀ (left : Nat) {m : Mem UInt8} {p : Nat} (ws : List (List UInt8)), Mapped m p (2 * left) →
    (∀ w ∈ ws, 0x2E ∈ w → ws.length + 1 ≤ left) →
    ∃ ok m', wordLoop m p left ws = some (ok, m') ∧ OnlyWithin m m' p (2 * left)
  | left, m, p, [], _, _ => ⟨true, m, by cases left <;> rfl, .refl ..⟩
  | 0, m, p, _ :: _, _, _ => ⟨true, m, rfl, .refl ..⟩
  | left + 1, m, p, w :: ws, hm, hd => by
    have hnext : ∀ m', OnlyWithin m m' p (2 * (left + 1)) →
        ∃ ok m'', wordLoop m' (p + 2) left ws = some (ok, m'') ∧ OnlyWithin m m'' p (2 * (left + 1)) := by
      intro m' hw
      have hm' : Mapped m' (p + 2) (2 * left) := by
        intro i hi
        have := hw.2 _ (hm (i + 2) (by omega))
        rwa [show p + (i + 2) = p + 2 + i by omega] at this
      obtain ⟨ok, m'', e, h⟩ := wordLoop_range left ws hm' (fun x hx hx2 => by
        have := hd x (List.mem_cons_of_mem _ hx) hx2
        simp only [List.length_cons] at this
        omega)
      exact ⟨ok, m'', e, hw.trans h (by omega) (by omega) (by omega) (by omega)⟩
    rw [wordLoop]
    split
    · exact ⟨_, _, rfl, .refl ..⟩
    · split
      · rename_i n _
        have hl : (leBytes 2 (be16 (UInt16.ofNat n)).toNat).length = 2 := leBytes_length ..
        rw [writeN_eq (by rw [hl]; exact hm.mono (by omega))]
        simp only [Option.bind_eq_bind, Option.bind_some]
        exact hnext _ (within_patch _ _ _ _ (by omega))
      · split
        · rename_i hdot
          have := hd w (List.mem_cons_self ..) hdot
          simp only [List.length_cons] at this
          obtain ⟨ok, m', e, h⟩ := octetLoop_range 4 (split 0x2E w) (hm.mono (by omega))
          rw [e]
          simp only [Option.bind_eq_bind, Option.bind_some]
          have h' : OnlyWithin m m' p (2 * (left + 1)) :=
            h.trans (.refl m' p 0) (by omega) (by omega) (by omega) (by omega)
          cases ok
          · exact ⟨_, _, rfl, h'⟩
          · exact hnext _ h'
        · exact ⟨_, _, rfl, .refl ..⟩

/-- One chunk. -/
theorem chunk_range {m : Mem UInt8} {dst dots count : Nat} {chunk : List UInt8} {rest : List (List UInt8)}
    (hm : Mapped m dst 16) (hc : count ≤ 1) (h8 : chunk.count 0x3A + 1 + dots / 3 ≤ 8) (hd : 0x2E ∈ chunk → dots = 3)
    (hrest : ∀ m', OnlyWithin m m' dst 16 → ∃ ok m'', chunkLoop m' dst dots (count + 1) rest = some (ok, m'')
      ∧ OnlyWithin m m'' dst 16) :
    ∃ ok m', chunkLoop m dst dots count (chunk :: rest) = some (ok, m') ∧ OnlyWithin m m' dst 16 := by
  rw [chunkLoop]
  split
  · exact hrest m (.refl ..)
  · simp only [split_length]
    rw [if_neg (by omega)]
    have hcase : count = 0 ∨ count = 1 := by omega
    have hk : count * (8 - (chunk.count 0x3A + 1) - dots / 3) ≤ 8 - (chunk.count 0x3A + 1) - dots / 3 := by
      rcases hcase with rfl | rfl <;> omega
    generalize hs : count * (8 - (chunk.count 0x3A + 1) - dots / 3) = skip at *
    have hm' : Mapped m (dst + 2 * skip) (2 * (8 - skip)) := by
      intro i hi
      have := hm (2 * skip + i) (by omega)
      rwa [show dst + (2 * skip + i) = dst + 2 * skip + i by omega] at this
    obtain ⟨ok, m', e, h⟩ := wordLoop_range (8 - skip) (split 0x3A chunk) hm' (fun w hw hx => by
      have hd := hd (split_subset _ _ hw hx)
      rw [split_length]
      subst hd
      omega)
    rw [e]
    simp only [Option.bind_eq_bind, Option.bind_some]
    have h' : OnlyWithin m m' dst 16 := h.trans (.refl m' dst 0) (by omega) (by omega) (by omega) (by omega)
    cases ok
    · exact ⟨_, _, rfl, h'⟩
    · exact hrest m' h'

theorem bounds6 {m : Mem UInt8} {src dst : Nat} {s : List UInt8} (h : CStr m src s) (hm : Mapped m dst 16) :
    ∃ r m', inetPton6 m src dst = some (r, m') ∧ (r = 0 ∨ r = 1)
      ∧ ∀ a, a < dst ∨ dst + 16 ≤ a → m' a = m a := by
  unfold inetPton6
  simp only [Str.strlen_eq h, h.1.readN, Option.bind_eq_bind, Option.bind_some]
  split
  · exact ⟨_, _, rfl, .inl rfl, fun _ _ => rfl⟩
  · split
    · exact ⟨_, _, rfl, .inl rfl, fun _ _ => rfl⟩
    · split
      · exact ⟨_, _, rfl, .inl rfl, fun _ _ => rfl⟩
      · split
        · exact ⟨_, _, rfl, .inl rfl, fun _ _ => rfl⟩
        · split
          · exact ⟨_, _, rfl, .inl rfl, fun _ _ => rfl⟩
          · rename_i h1 h2 h3 h4 h5
            rw [writeN_eq (by simpa using hm)]
            simp only [Option.bind_some]
            have hw := within_patch m dst 16 (List.replicate 16 0) (by simp)
            have hm0 := hw.mapped hm
            have hdots : ∀ t : List UInt8, (∀ b ∈ t, b ∈ s) → 0x2E ∈ t → s.count 0x2E = 3 := by
              intro t ht hx
              have := List.count_pos_iff.2 (ht _ hx)
              omega
            have key : ∃ ok m', chunkLoop (patch m dst (List.replicate 16 0)) dst (s.count 0x2E) 0
                (chunksOf s) = some (ok, m') ∧ OnlyWithin (patch m dst (List.replicate 16 0)) m' dst 16 := by
              unfold chunksOf
              cases hf : findPair s with
              | none =>
                simp only [hf, Option.isNone_none, true_and] at h3
                refine chunk_range hm0 (by omega) (by omega) (hdots _ (fun _ h => h)) ?_
                exact fun m' hm' => ⟨true, m', rfl, hm'⟩
              | some i =>
                simp only [hf, Option.isSome_some, true_and] at h3
                have hs := findPair_some hf
                have hcount : s.count 0x3A = (s.take i).count 0x3A + 2 + (s.drop (i + 2)).count 0x3A := by
                  conv => lhs; rw [hs]
                  rw [List.count_append, List.count_append]
                  rfl
                refine chunk_range hm0 (by omega) (by omega) (hdots _ (fun _ h => List.mem_of_mem_take h)) ?_
                intro m' hm'
                obtain ⟨ok, m'', e, h⟩ := chunk_range (rest := []) (hm'.mapped hm0) (Nat.le_refl 1) (dots := s.count 0x2E)
                  (chunk := s.drop (i + 2)) (by omega) (hdots _ (fun _ h => List.mem_of_mem_drop h))
                  (fun m' hm' => ⟨true, m', rfl, hm'⟩)
                exact ⟨ok, m'', e, hm'.trans h (by omega) (by omega) (by omega) (by omega)⟩
            obtain ⟨ok, m', e, h⟩ := key
            rw [e]
            refine ⟨_, m', rfl, ?_, fun a ha => by rw [h.1 a ha, hw.1 a ha]⟩
            cases ok
            · exact .inl rfl
            · exact .inr rfl

/-! ## Words -/

theorem Numeral.lt {base : Nat} {s : List UInt8} {v : Nat} (h : Numeral base s v) : v < base ^ s.length := by
  induction h with
  | one h => simpa using h.1
  | @snoc s v b d _ h ih =>
    rw [List.length_append, List.length_cons, List.length_nil, Nat.pow_add, Nat.zero_add, Nat.pow_one]
    have h1 := h.1
    have h2 := Nat.mul_le_mul_right base (Nat.succ_le_of_lt ih)
    rw [Nat.succ_mul] at h2
    omega

theorem Group.length {s bs : List UInt8} (h : Group s bs) : bs.length = 2 := by
  obtain ⟨_, v, _, rfl⟩ := h
  rfl

theorem Group.ne {s bs : List UInt8} (h : Group s bs) : s ≠ [] := by
  obtain ⟨_, v, h, _⟩ := h
  exact h.ne

theorem Numeral.no_colon {base : Nat} (hb : base ≤ 16) {s : List UInt8} {v : Nat} (h : Numeral base s v) : 0x3A ∉ s := by
  intro hx
  obtain ⟨d, hd⟩ := h.mem hx
  have e : (0x3A : UInt8).toNat = 0x3A := rfl
  unfold Digit at hd
  omega

theorem Group.no_colon {s bs : List UInt8} (h : Group s bs) : 0x3A ∉ s := by
  obtain ⟨_, v, h, _⟩ := h
  exact h.no_colon (by decide)

theorem Group.no_dot {s bs : List UInt8} (h : Group s bs) : 0x2E ∉ s := by
  obtain ⟨_, v, h, _⟩ := h
  exact h.not_mem (by decide)

theorem Group.parse {s bs : List UInt8} (h : Group s bs) :
    ∃ n, (if s.length ≤ 4 then fromStrRadix 16 16 s else none) = some n
      ∧ leBytes 2 (be16 (UInt16.ofNat n)).toNat = bs := by
  obtain ⟨h4, v, h, rfl⟩ := h
  have hv : v < 16 ^ s.length := h.lt
  have h16 : (16 : Nat) ^ s.length ≤ 16 ^ 4 := Nat.pow_le_pow_right (by decide) h4
  refine ⟨v, ?_, ?_⟩
  · rw [if_pos h4]
    exact fromStr_of (by decide) (by decide) h (by omega)
  · rw [be16_toNat, leBytes_swap, UInt16.toNat_ofNat', Nat.mod_eq_of_lt (by omega)]
    simp only [leBytes, List.reverse_cons, List.reverse_nil, List.nil_append, List.cons_append]
    rw [Nat.mod_eq_of_lt (a := v / 256) (by omega)]

theorem groups_length {l : List (List UInt8 × List UInt8)} (h : Groups l) : (l.flatMap (·.2)).length = 2 * l.length := by
  induction l with
  | nil => rfl
  | cons x l ih =>
    rw [List.flatMap_cons, List.length_append, ih (fun y hy => h y (List.mem_cons_of_mem _ hy)),
      (h x (List.mem_cons_self ..)).length, List.length_cons]
    omega

theorem wordLoop_groups {l : List (List UInt8 × List UInt8)} (h : Groups l) {m : Mem UInt8} {p left : Nat}
    (hl : l.length ≤ left) (hm : Mapped m p (2 * left)) (ws : List (List UInt8)) :
    wordLoop m p left (l.map (·.1) ++ ws)
      = wordLoop (patch m p (l.flatMap (·.2))) (p + 2 * l.length) (left - l.length) ws := by
  induction l generalizing m p left with
  | nil => simp
  | cons x l ih =>
    cases left with
    | zero => simp at hl
    | succ left =>
      have hx := h x (List.mem_cons_self ..)
      obtain ⟨n, h1, h2⟩ := hx.parse
      rw [List.map_cons, List.cons_append, wordLoop, if_neg hx.ne]
      simp only [h1, h2]
      rw [writeN_eq (by rw [hx.length]; exact hm.mono (by omega))]
      simp only [Option.bind_eq_bind, Option.bind_some]
      rw [ih (fun y hy => h y (List.mem_cons_of_mem _ hy)) (by simpa using hl)
        (mapped_patch (fun i hi => by rw [Nat.add_assoc]; exact hm (2 + i) (by omega)))]
      have e := patch_append m p x.2 (l.flatMap (·.2))
      rw [hx.length] at e
      rw [e, List.flatMap_cons, List.length_cons, show left + 1 - (l.length + 1) = left - l.length by omega,
        show p + 2 * (l.length + 1) = p + 2 + 2 * l.length by omega]

theorem octetLoop_step {m : Mem UInt8} {p n v : Nat} {w : List UInt8} {ws : List (List UInt8)} (h : Octet w v)
    (hz : w.head? = some 0x30 → w = [0x30]) (hm : (m p).isSome) :
    octetLoop m p (n + 1) (w :: ws) = octetLoop (patch m p [UInt8.ofNat v]) (p + 1) n ws := by
  have hp := (octet_iff (h.not_mem (b := 0x2B) (by decide))).2 h
  unfold octet? at hp
  rw [if_pos h.2.1] at hp
  rw [octetLoop, if_neg (by
    rintro ⟨h1, h2⟩
    rw [hz h2] at h1
    simp at h1)]
  simp only [hp, store_patch hm, Option.bind_eq_bind, Option.bind_some]

theorem Quad6.loop {s bs : List UInt8} (h : Quad6 s bs) {m : Mem UInt8} {p : Nat} (hm : Mapped m p 4) :
    octetLoop m p 4 (split 0x2E s) = some (true, patch m p bs) := by
  obtain ⟨wa, wb, wc, wd, a, b, c, d, rfl, ha, hb, hc, hd, hz, rfl⟩ := h
  have z : (0x2E : UInt8).toNat < 0x30 := by decide
  have hsplit : split 0x2E (wa ++ [0x2E] ++ wb ++ [0x2E] ++ wc ++ [0x2E] ++ wd) = [wa, wb, wc, wd] := by
    simp only [List.append_assoc, List.cons_append, List.nil_append]
    rw [split_cons (ha.not_mem z), split_cons (hb.not_mem z), split_cons (hc.not_mem z), split_word (hd.not_mem z)]
  have g : ∀ i, i < 4 → (m (p + i)).isSome := hm
  have g0 : (m p).isSome := g 0 (by omega)
  rw [hsplit, octetLoop_step ha (hz _ (by simp)) g0, octetLoop_step hb (hz _ (by simp)) (isSome_patch (g 1 (by omega))),
    octetLoop_step hc (hz _ (by simp)) (isSome_patch (isSome_patch (g 2 (by omega)))),
    octetLoop_step hd (hz _ (by simp)) (isSome_patch (isSome_patch (isSome_patch (g 3 (by omega)))))]
  have e1 := patch_append m p [UInt8.ofNat a] [UInt8.ofNat b]
  have e2 := patch_append m p [UInt8.ofNat a, UInt8.ofNat b] [UInt8.ofNat c]
  have e3 := patch_append m p [UInt8.ofNat a, UInt8.ofNat b, UInt8.ofNat c] [UInt8.ofNat d]
  simp only [List.length_cons, List.length_nil, List.cons_append, List.nil_append, Nat.zero_add] at e1 e2 e3
  rw [e1, show p + 1 + 1 = p + (1 + 1) by omega, e2, show p + (1 + 1) + 1 = p + (1 + 1 + 1) by omega, e3]
  rfl

theorem Quad6.count {s bs : List UInt8} (h : Quad6 s bs) : s.count 0x2E = 3 := by
  obtain ⟨wa, wb, wc, wd, a, b, c, d, rfl, ha, hb, hc, hd, hz, rfl⟩ := h
  have z : (0x2E : UInt8).toNat < 0x30 := by decide
  simp only [List.count_append, List.count_eq_zero_of_not_mem (ha.not_mem z), List.count_eq_zero_of_not_mem (hb.not_mem z),
    List.count_eq_zero_of_not_mem (hc.not_mem z), List.count_eq_zero_of_not_mem (hd.not_mem z)]
  rfl

theorem Quad6.length {s bs : List UInt8} (h : Quad6 s bs) : bs.length = 4 := by
  obtain ⟨wa, wb, wc, wd, a, b, c, d, rfl, ha, hb, hc, hd, hz, rfl⟩ := h
  rfl

theorem Quad6.no_colon {s bs : List UInt8} (h : Quad6 s bs) : 0x3A ∉ s := by
  obtain ⟨wa, wb, wc, wd, a, b, c, d, rfl, ha, hb, hc, hd, hz, rfl⟩ := h
  have z : (10 : Nat) ≤ 16 := by decide
  simp [ha.1.no_colon z, hb.1.no_colon z, hc.1.no_colon z, hd.1.no_colon z]

theorem Quad6.no_plus {s bs : List UInt8} (h : Quad6 s bs) : 0x2B ∉ s := by
  obtain ⟨wa, wb, wc, wd, a, b, c, d, rfl, ha, hb, hc, hd, hz, rfl⟩ := h
  have z : (0x2B : UInt8).toNat < 0x30 := by decide
  simp [ha.not_mem z, hb.not_mem z, hc.not_mem z, hd.not_mem z]

theorem Quad6.dot {s bs : List UInt8} (h : Quad6 s bs) : 0x2E ∈ s :=
  List.count_pos_iff.1 (by rw [h.count]; decide)

theorem wordLoop_quad {s bs : List UInt8} (h : Quad6 s bs) {m : Mem UInt8} {p left : Nat} (hl : 2 ≤ left)
    (hm : Mapped m p (2 * left)) : wordLoop m p left [s] = some (true, patch m p bs) := by
  match left, hl with
  | left + 2, _ =>
    have hp : (if s.length ≤ 4 then fromStrRadix 16 16 s else none) = none := by
      split
      · cases hx : fromStrRadix 16 16 s with
        | none => rfl
        | some v =>
          have := ((fromStr_iff (by decide) (by decide) h.no_plus).1 hx).1
          exact absurd h.dot (this.not_mem (by decide))
      · rfl
    rw [wordLoop, if_neg (List.ne_nil_of_mem h.dot)]
    simp only [hp]
    rw [if_pos h.dot, h.loop (hm.mono (by omega))]
    simp only [Option.bind_eq_bind, Option.bind_some, if_true]
    rw [wordLoop]

/-! ## Pieces -/

theorem colonText_append {k r : List (List UInt8 × List UInt8)} (hk : k ≠ []) (hr : r ≠ []) :
    colonText (k ++ r) = colonText k ++ 0x3A :: colonText r := by
  unfold colonText
  induction k with
  | nil => exact absurd rfl hk
  | cons x k ih =>
    cases k with
    | nil =>
      cases r with
      | nil => exact absurd rfl hr
      | cons y r => simp [List.intercalate_cons_cons, List.intercalate_singleton]
    | cons y k =>
      simp only [List.cons_append, List.map_cons, List.intercalate_cons_cons]
      have := ih (by simp)
      simp only [List.cons_append, List.map_cons] at this
      rw [this]
      simp

theorem colonText_one (x : List UInt8 × List UInt8) : colonText [x] = x.1 := by
  simp [colonText, List.intercalate_singleton]

theorem Pieces.words {l : List (List UInt8 × List UInt8)} (h : Pieces l) : ∀ x ∈ l, x.1 ≠ [] ∧ 0x3A ∉ x.1 := by
  rcases h with h | ⟨k, q, rfl, h, hq⟩
  · exact fun x hx => ⟨(h x hx).ne, (h x hx).no_colon⟩
  · intro x hx
    rcases List.mem_append.1 hx with hx | hx
    · exact ⟨(h x hx).ne, (h x hx).no_colon⟩
    · rw [List.mem_singleton.1 hx]
      exact ⟨List.ne_nil_of_mem hq.dot, hq.no_colon⟩

theorem split_colonText {l : List (List UInt8 × List UInt8)} (hne : l ≠ []) (h : ∀ x ∈ l, x.1 ≠ [] ∧ 0x3A ∉ x.1) :
    split 0x3A (colonText l) = l.map (·.1) := by
  apply split_intercalate (by simpa using hne)
  intro w hw
  obtain ⟨x, hx, rfl⟩ := List.mem_map.1 hw
  exact (h x hx).2

theorem colonText_count {l : List (List UInt8 × List UInt8)} (hne : l ≠ []) (h : ∀ x ∈ l, x.1 ≠ [] ∧ 0x3A ∉ x.1) :
    (colonText l).count 0x3A + 1 = l.length := by
  rw [← split_length, split_colonText hne h, List.length_map]

theorem colonText_ne {l : List (List UInt8 × List UInt8)} (hne : l ≠ []) (h : ∀ x ∈ l, x.1 ≠ [] ∧ 0x3A ∉ x.1) :
    colonText l ≠ [] := by
  intro e
  have := split_colonText hne h
  rw [e] at this
  cases l with
  | nil => exact hne rfl
  | cons x l =>
    simp only [split, List.map_cons, List.cons.injEq] at this
    exact (h x (List.mem_cons_self ..)).1 this.1.symm

theorem Groups.no_dot {l : List (List UInt8 × List UInt8)} (h : Groups l) : 0x2E ∉ colonText l := by
  intro hx
  rcases mem_intercalate hx with e | ⟨w, hw, hb⟩
  · revert e; decide
  · obtain ⟨x, hx, rfl⟩ := List.mem_map.1 hw
    exact (h x hx).no_dot hb

theorem Pieces.dots {l : List (List UInt8 × List UInt8)} (h : Pieces l) :
    ((colonText l).count 0x2E = 0 ∧ Groups l ∨ (colonText l).count 0x2E = 3 ∧ l ≠ [])
      ∧ (l.flatMap (·.2)).length = 2 * (l.length + (colonText l).count 0x2E / 3) := by
  rcases h with h | ⟨k, q, rfl, h, hq⟩
  · have := List.count_eq_zero_of_not_mem h.no_dot
    refine ⟨.inl ⟨this, h⟩, ?_⟩
    rw [this, groups_length h]
    simp
  · have hc : (colonText (k ++ [q])).count 0x2E = 3 := by
      cases hk : k with
      | nil => rw [List.nil_append, colonText_one, hq.count]
      | cons x t =>
        rw [← hk, colonText_append (by rw [hk]; simp) (by simp), List.count_append, List.count_cons_of_ne (by decide),
          colonText_one, hq.count, List.count_eq_zero_of_not_mem h.no_dot]
    refine ⟨.inr ⟨hc, by simp⟩, ?_⟩
    rw [hc, List.flatMap_append, List.length_append, groups_length h]
    simp only [List.flatMap_cons, List.flatMap_nil, List.append_nil, hq.length, List.length_append, List.length_cons,
      List.length_nil]
    omega

theorem Pieces.loop {l : List (List UInt8 × List UInt8)} (h : Pieces l) {m : Mem UInt8} {p left : Nat}
    (hl : (l.flatMap (·.2)).length ≤ 2 * left) (hm : Mapped m p (2 * left)) :
    wordLoop m p left (l.map (·.1)) = some (true, patch m p (l.flatMap (·.2))) := by
  rcases h with h | ⟨k, q, rfl, h, hq⟩
  · rw [groups_length h] at hl
    have := wordLoop_groups h (by omega) hm []
    rw [List.append_nil] at this
    rw [this]
    cases left - l.length <;> rfl
  · rw [List.flatMap_append, List.length_append, groups_length h] at hl
    simp only [List.flatMap_cons, List.flatMap_nil, List.append_nil, hq.length] at hl
    rw [List.map_append, wordLoop_groups h (by omega) hm, List.map_cons, List.map_nil, wordLoop_quad hq (by omega)]
    · have e := patch_append m p (k.flatMap (·.2)) q.2
      rw [groups_length h] at e
      rw [e, List.flatMap_append]
      simp
    · apply mapped_patch
      intro i hi
      rw [Nat.add_assoc]
      exact hm _ (by omega)

/-! ## Pairs of colons -/

theorem findPair_append {a : List UInt8} (t : List UInt8) (h : findPair a = none) (hl : a.getLast? ≠ some 0x3A) :
    findPair (a ++ t) = (findPair t).map (· + a.length) := by
  induction a with
  | nil => simp
  | cons x a ih =>
    cases a with
    | nil =>
      have hx : x ≠ 0x3A := by simpa using hl
      cases t with
      | nil => rfl
      | cons y t => simp [findPair, hx]
    | cons y a =>
      rw [findPair] at h
      split at h
      · cases h
      · rename_i hxy
        simp only [List.cons_append]
        rw [findPair, if_neg hxy]
        rw [List.cons_append] at ih
        rw [ih (by simpa using h) (by simpa using hl), Option.map_map]
        congr 1

theorem rfindPair_append {t : List UInt8} {i : Nat} (h : rfindPair t = some i) (a : List UInt8) :
    rfindPair (a ++ t) = some (i + a.length) := by
  induction a with
  | nil => simpa using h
  | cons x a ih =>
    cases hat : a ++ t with
    | nil =>
      rw [hat] at ih
      cases ih
    | cons y u =>
      rw [hat] at ih
      rw [List.cons_append, hat, rfindPair, ih]
      simp [Nat.add_assoc]

theorem rfindPair_none {s : List UInt8} (h : findPair s = none) : rfindPair s = none := by
  induction s with
  | nil => rfl
  | cons a t ih =>
    cases t with
    | nil => rfl
    | cons b t =>
      rw [findPair] at h
      split at h
      · cases h
      · rename_i hab
        rw [rfindPair, ih (by simpa using h)]
        simp only [if_neg hab]

theorem findPair_word {w : List UInt8} (h : 0x3A ∉ w) : findPair w = none := by
  induction w with
  | nil => rfl
  | cons a t ih =>
    cases t with
    | nil => rfl
    | cons b t =>
      rw [findPair, if_neg (by rintro ⟨rfl, _⟩; simp at h), ih (by simp_all)]
      rfl

theorem findPair_colon {b : List UInt8} (h : b.head? ≠ some 0x3A) : findPair (0x3A :: b) = (findPair b).map (· + 1) := by
  cases b with
  | nil => rfl
  | cons y b => rw [findPair, if_neg (by rintro ⟨_, rfl⟩; simp at h)]

/-- No pair of colons, and no colon at either end. -/
def Clean (s : List UInt8) : Prop := findPair s = none ∧ s.head? ≠ some 0x3A ∧ s.getLast? ≠ some 0x3A

theorem colonText_clean {l : List (List UInt8 × List UInt8)} (h : ∀ x ∈ l, x.1 ≠ [] ∧ 0x3A ∉ x.1) : Clean (colonText l) := by
  induction l with
  | nil => exact ⟨rfl, by simp [colonText], by simp [colonText]⟩
  | cons x l ih =>
    have hx := h x (List.mem_cons_self ..)
    have hl := fun y hy => h y (List.mem_cons_of_mem x hy)
    have hhead : x.1.head? ≠ some 0x3A := fun e => hx.2 (List.mem_of_head? e)
    have hlast : x.1.getLast? ≠ some 0x3A := fun e => hx.2 (List.mem_of_getLast? e)
    by_cases hne : l = []
    · subst hne
      rw [colonText_one]
      exact ⟨findPair_word hx.2, hhead, hlast⟩
    · have e := colonText_append (k := [x]) (by simp) hne
      rw [List.singleton_append, colonText_one] at e
      have ih := ih hl
      have hc := colonText_ne hne hl
      rw [e]
      refine ⟨?_, ?_, ?_⟩
      · rw [findPair_append _ (findPair_word hx.2) hlast, findPair_colon ih.2.1, ih.1]
        rfl
      · rw [List.head?_append]
        cases hh : x.1.head? with
        | none => exact absurd (List.head?_eq_none_iff.1 hh) hx.1
        | some b =>
          rw [hh] at hhead
          exact hhead
      · rw [List.getLast?_append, List.getLast?_cons]
        cases hh : (colonText l).getLast? with
        | none => exact absurd (List.getLast?_eq_none_iff.1 hh) hc
        | some b =>
          have := ih.2.2
          rw [hh] at this
          simpa using this

theorem pair_found {a b : List UInt8} (ha : Clean a) (hb : Clean b) :
    findPair (a ++ [0x3A, 0x3A] ++ b) = some a.length ∧ rfindPair (a ++ [0x3A, 0x3A] ++ b) = some a.length := by
  rw [List.append_assoc]
  constructor
  · rw [findPair_append _ ha.1 ha.2.2]
    simp [findPair]
  · have : rfindPair ([0x3A, 0x3A] ++ b) = some 0 := by
      simp only [List.cons_append, List.nil_append]
      rw [rfindPair, rfindPair_none (by rw [findPair_colon hb.2.1, hb.1]; rfl)]
      simp
    rw [rfindPair_append this]
    simp

theorem idx_le {s a t : List UInt8} (h : s = a ++ 0x3A :: t) (hd : 0x2E ∉ a) : ¬ s.idxOf 0x3A > s.idxOf 0x2E := by
  subst h
  induction a with
  | nil => simp
  | cons x a ih =>
    have hx : x ≠ 0x2E := by rintro rfl; simp at hd
    have := ih (by simp_all)
    simp only [List.cons_append, List.idxOf_cons]
    have e : (x == 0x2E) = false := by simpa using hx
    rw [e]
    cases x == 0x3A
    · simp only [cond_false]
      omega
    · simp

/-- The loop over a chunk that consists of pieces. -/
theorem chunk_pieces {m : Mem UInt8} {dst dots count : Nat} {l : List (List UInt8 × List UInt8)} {rest : List (List UInt8)}
    (hl : Pieces l) (hm : Mapped m dst 16) (h8 : l.length + dots / 3 ≤ 8)
    (hd : count = 0 ∧ (l.flatMap (·.2)).length ≤ 16 ∨ count = 1 ∧ (l.flatMap (·.2)).length = 2 * (l.length + dots / 3)) :
    chunkLoop m dst dots count (colonText l :: rest)
      = chunkLoop (patch m (dst + count * (16 - (l.flatMap (·.2)).length)) (l.flatMap (·.2))) dst dots (count + 1) rest := by
  rw [chunkLoop]
  by_cases hne : l = []
  · subst hne
    rw [if_pos (by simp [colonText])]
    simp
  · rw [if_neg (colonText_ne hne hl.words)]
    simp only [split_colonText hne hl.words, List.length_map]
    rw [if_neg (by omega)]
    have e : 2 * (count * (8 - l.length - dots / 3)) = count * (16 - (l.flatMap (·.2)).length) := by
      rcases hd with ⟨rfl, _⟩ | ⟨rfl, h⟩ <;> omega
    have hs : count * (8 - l.length - dots / 3) ≤ 8 - l.length - dots / 3 := by
      rcases hd with ⟨rfl, _⟩ | ⟨rfl, _⟩ <;> omega
    have hb : (l.flatMap (·.2)).length ≤ 2 * (8 - count * (8 - l.length - dots / 3)) := by
      rcases hd with ⟨rfl, _⟩ | ⟨rfl, h⟩ <;> omega
    rw [hl.loop hb (by
      intro i hi
      rw [Nat.add_assoc]
      exact hm _ (by omega)), e]
    simp

theorem accept6 {m : Mem UInt8} {src dst : Nat} {s bs : List UInt8} (h : CStr m src s) (hm : Mapped m dst 16)
    (ha : Address6 s bs) (hc : s.count 0x3A ≤ if 0x2E ∈ s then 6 else 7) :
    inetPton6 m src dst = some (1, patch m dst bs) := by
  have hdot : 0x2E ∈ s ↔ s.count 0x2E ≠ 0 := by rw [← List.count_pos_iff]; omega
  unfold inetPton6
  simp only [Str.strlen_eq h, h.1.readN, Option.bind_eq_bind, Option.bind_some]
  rw [writeN_eq (by simpa using hm)]
  simp only [Option.bind_some]
  have hm0 : Mapped (patch m dst (List.replicate 16 0)) dst 16 := mapped_patch hm
  obtain ⟨h16, ⟨l, hl, rfl, rfl⟩ | ⟨l, r, k, hl, hr, hk, rfl, rfl⟩⟩ := ha
  · have hne : l ≠ [] := by rintro rfl; simp at h16
    have hcl := colonText_clean hl.words
    have hcount := colonText_count hne hl.words
    obtain ⟨hd, hlen⟩ := hl.dots
    have hnum : (colonText l).count 0x2E = 0 ∧ (colonText l).count 0x3A = 7
        ∨ (colonText l).count 0x2E = 3 ∧ (colonText l).count 0x3A = 6 := by
      rcases hd with ⟨h0, _⟩ | ⟨h3, _⟩
      · rw [h0] at hlen
        omega
      · rw [h3] at hlen
        omega
    have hidx : ¬ ((colonText l).count 0x2E = 3 ∧ (colonText l).idxOf 0x3A > (colonText l).idxOf 0x2E) := by
      rintro ⟨h3, hi⟩
      rcases hl with hg | ⟨k, q, rfl, hk, hq⟩
      · rw [List.count_eq_zero_of_not_mem hg.no_dot] at h3
        cases h3
      · by_cases hk0 : k = []
        · subst hk0
          have : (colonText ([] ++ [q])).count 0x3A + 1 = 1 := hcount
          omega
        · exact idx_le (colonText_append hk0 (by simp)) hk.no_dot hi
    rw [if_neg (by omega), if_neg (by omega), if_neg (by simp only [hcl.1, Option.isSome_none, Option.isNone_none]; omega),
      if_neg hidx, if_neg (by simp [hcl.1])]
    unfold chunksOf
    simp only [hcl.1]
    rw [chunk_pieces hl hm0 (by omega) (.inl ⟨rfl, by omega⟩), chunkLoop]
    simp only [Nat.zero_mul, Nat.add_zero, Option.bind_some, if_true]
    have := patch_over m dst 0 (List.replicate 16 0) (l.flatMap (·.2)) (by simp [h16])
    rw [Nat.add_zero] at this
    rw [this, h16]
    simp
  · have hlp : Pieces l := .inl hl
    have hcl := colonText_clean hlp.words
    have hcr := colonText_clean hr.words
    obtain ⟨hf, hrf⟩ := pair_found hcl hcr
    have hl0 := List.count_eq_zero_of_not_mem hl.no_dot
    have hlg := groups_length hl
    obtain ⟨hd, hlen⟩ := hr.dots
    have hdots : (colonText l ++ [0x3A, 0x3A] ++ colonText r).count 0x2E = (colonText r).count 0x2E := by
      simp only [List.count_append, hl0]
      simp
    have hcolons : (colonText l ++ [0x3A, 0x3A] ++ colonText r).count 0x3A
        = (colonText l).count 0x3A + 2 + (colonText r).count 0x3A := by
      simp only [List.count_append]
      rfl
    simp only [List.length_append, List.length_replicate] at h16
    have hidx : ¬ ((colonText l ++ [0x3A, 0x3A] ++ colonText r).count 0x2E = 3
        ∧ (colonText l ++ [0x3A, 0x3A] ++ colonText r).idxOf 0x3A
          > (colonText l ++ [0x3A, 0x3A] ++ colonText r).idxOf 0x2E) := fun hi =>
      idx_le (a := colonText l) (t := 0x3A :: colonText r) (by simp) hl.no_dot hi.2
    have hd' : (colonText r).count 0x2E = 0 ∨ (colonText r).count 0x2E = 3 := by
      rcases hd with hd | hd <;> omega
    simp only [hdot, hdots] at hc
    rw [hdots, hcolons] at *
    have hc' : (colonText l).count 0x3A + 2 + (colonText r).count 0x3A ≤ 7
        ∧ ((colonText r).count 0x2E = 3 → (colonText l).count 0x3A + 2 + (colonText r).count 0x3A ≤ 6) := by
      rcases hd' with e | e <;> simp [e] at hc <;> omega
    rw [if_neg (by omega), if_neg (by omega), if_neg (by simp only [hf, Option.isSome_some, Option.isNone_some]; simp; omega),
      if_neg hidx, if_neg (fun hx => hx.2 (hf.trans hrf.symm))]
    unfold chunksOf
    simp only [hf]
    have ht : List.take (colonText l).length (colonText l ++ [0x3A, 0x3A] ++ colonText r) = colonText l := by simp
    have hdr : List.drop ((colonText l).length + 2) (colonText l ++ [0x3A, 0x3A] ++ colonText r) = colonText r := by
      rw [show (colonText l).length + 2 = (colonText l ++ [0x3A, 0x3A]).length by simp]
      exact List.drop_left
    rw [ht, hdr, chunk_pieces hlp hm0 (by omega) (.inl ⟨rfl, by omega⟩),
      chunk_pieces hr (mapped_patch hm0) (by omega) (.inr ⟨rfl, hlen⟩), chunkLoop]
    simp only [Nat.zero_mul, Nat.add_zero, Nat.zero_add, Nat.one_mul, Option.bind_some, if_true]
    have e1 := patch_over m dst 0 (List.replicate 16 0) (l.flatMap (·.2)) (by rw [List.length_replicate]; omega)
    simp only [Nat.add_zero, List.take_zero, List.nil_append, Nat.zero_add, List.drop_replicate] at e1
    rw [e1, patch_over _ _ _ _ _ (by simp only [List.length_append, List.length_replicate]; omega)]
    congr 3
    have hk' : 16 - (r.flatMap (·.2)).length = (l.flatMap (·.2)).length + k := by omega
    rw [hk', List.take_append]
    simp only [Nat.add_sub_cancel_left, List.take_replicate, List.drop_append, List.drop_replicate]
    rw [List.take_of_length_le (by omega), List.drop_eq_nil_of_le (by omega),
      show min k (16 - (l.flatMap (·.2)).length) = k by omega,
      show 16 - (l.flatMap (·.2)).length - ((l.flatMap (·.2)).length + k + (r.flatMap (·.2)).length
        - (l.flatMap (·.2)).length) = 0 by omega]
    simp

/-! ## What is accepted -/

theorem octetLoop_true {m m' : Mem UInt8} {p n : Nat} {w : List UInt8} {ws : List (List UInt8)} (hp : 0x2B ∉ w)
    (h : octetLoop m p (n + 1) (w :: ws) = some (true, m')) :
    ∃ v m1, Octet w v ∧ (w.head? = some 0x30 → w = [0x30]) ∧ octetLoop m1 (p + 1) n ws = some (true, m') := by
  rw [octetLoop] at h
  split at h
  · cases h
  · rename_i hz
    split at h
    · cases h
    · rename_i v hv
      rw [Option.bind_eq_bind, Option.bind_eq_some_iff] at h
      obtain ⟨m1, _, h⟩ := h
      have hn := (fromStr_iff (by decide) (by decide) hp).1 hv
      have hz' : w.head? = some 0x30 → w = [0x30] := by
        intro e
        match w, e with
        | [b], e => simp_all
        | b :: c :: t, e => exact absurd ⟨by simp, e⟩ hz
      refine ⟨v, m1, ⟨hn.1, ?_, by omega⟩, hz', h⟩
      have key : ∀ {s : List UInt8} {v : Nat}, Numeral 10 s v → s.head? ≠ some 0x30 → 10 ^ s.length ≤ 10 * v := by
        intro s v hs
        induction hs with
        | @one b d hd =>
          intro h0
          have : d ≠ 0 := by
            rintro rfl
            unfold Digit at hd
            apply h0
            have e : (0x30 : UInt8).toNat = 0x30 := rfl
            simp only [List.head?_cons, Option.some.injEq, ← UInt8.toNat_inj, e]
            omega
          simp
          omega
        | @snoc s v b d hs hd ih =>
          intro h0
          have : s.head? ≠ some 0x30 := by
            intro e
            rw [List.head?_append, e] at h0
            exact h0 rfl
          have := ih this
          rw [List.length_append, List.length_singleton, Nat.pow_succ]
          omega
      by_cases h0 : w.head? = some 0x30
      · rw [hz' h0]
        simp
      · have h1 := key hn.1 h0
        have h2 := hn.2
        apply Decidable.byContradiction
        intro h4
        have h3 : (10 : Nat) ^ 4 ≤ 10 ^ w.length := Nat.pow_le_pow_right (by decide) (by omega)
        omega

theorem quad_of_loop {m m' : Mem UInt8} {p : Nat} {w : List UInt8} (hp : 0x2B ∉ w) (hc : w.count 0x2E = 3)
    (h : octetLoop m p 4 (split 0x2E w) = some (true, m')) : ∃ bs, Quad6 w bs := by
  have hl := split_length 0x2E w
  rw [hc] at hl
  have hj := intercalate_split 0x2E w
  have hs := fun x hx (hb : (0x2B : UInt8) ∈ x) => hp (split_subset 0x2E w hx hb)
  match hsp : split 0x2E w, hl with
  | [wa, wb, wc, wd], _ =>
    rw [hsp] at h hj hs
    obtain ⟨a, _, ha, za, h⟩ := octetLoop_true (hs _ (by simp)) h
    obtain ⟨b, _, hb, zb, h⟩ := octetLoop_true (hs _ (by simp)) h
    obtain ⟨c, _, hc, zc, h⟩ := octetLoop_true (hs _ (by simp)) h
    obtain ⟨d, _, hd, zd, h⟩ := octetLoop_true (hs _ (by simp)) h
    refine ⟨_, wa, wb, wc, wd, a, b, c, d, ?_, ha, hb, hc, hd, ?_, rfl⟩
    · rw [← hj]
      simp [List.intercalate_cons_cons, List.intercalate_singleton]
    · intro x hx
      simp only [List.mem_cons, List.not_mem_nil, or_false] at hx
      rcases hx with rfl | rfl | rfl | rfl <;> assumption

theorem pieces_of_loop {ws : List (List UInt8)} {m m' : Mem UInt8} {p left : Nat} (hne : ∀ w ∈ ws, w ≠ [])
    (hp : ∀ w ∈ ws, 0x2B ∉ w) (hl : ws.length ≤ left) (hd : ∀ w ∈ ws.dropLast, 0x2E ∉ w)
    (hc : ∀ w ∈ ws, 0x2E ∈ w → w.count 0x2E = 3) (h : wordLoop m p left ws = some (true, m')) :
    ∃ l, Pieces l ∧ l.map (·.1) = ws := by
  induction ws generalizing m p left with
  | nil => exact ⟨[], .inl (fun x hx => by cases hx), rfl⟩
  | cons w ws ih =>
    cases left with
    | zero => simp at hl
    | succ left =>
      have hw := List.mem_cons_self (a := w) (l := ws)
      rw [wordLoop, if_neg (hne w hw)] at h
      split at h
      · rename_i n hn
        rw [Option.bind_eq_bind, Option.bind_eq_some_iff] at h
        obtain ⟨m1, _, h⟩ := h
        split at hn
        · rename_i h4
          have hnum := (fromStr_iff (by decide) (by decide) (hp w hw)).1 hn
          obtain ⟨l, h1, h2⟩ := ih (fun x hx => hne x (List.mem_cons_of_mem _ hx))
            (fun x hx => hp x (List.mem_cons_of_mem _ hx)) (by simpa using hl)
            (fun x hx => hd x (by
              cases ws with
              | nil => cases hx
              | cons y ws => exact List.mem_cons_of_mem _ hx))
            (fun x hx => hc x (List.mem_cons_of_mem _ hx)) h
          have hg : Group w [UInt8.ofNat (n / 256), UInt8.ofNat (n % 256)] := ⟨h4, n, hnum.1, rfl⟩
          refine ⟨(w, [UInt8.ofNat (n / 256), UInt8.ofNat (n % 256)]) :: l, ?_, by rw [List.map_cons, h2]⟩
          rcases h1 with h1 | ⟨k, q, rfl, h1, hq⟩
          · left
            intro x hx
            rcases List.mem_cons.1 hx with rfl | hx
            · exact hg
            · exact h1 x hx
          · right
            refine ⟨_ :: k, q, rfl, ?_, hq⟩
            intro x hx
            rcases List.mem_cons.1 hx with rfl | hx
            · exact hg
            · exact h1 x hx
        · cases hn
      · split at h
        · rename_i hdot
          have hws : ws = [] := by
            cases ws with
            | nil => rfl
            | cons y ws => exact absurd hdot (hd w (List.mem_cons_self ..))
          subst hws
          rw [Option.bind_eq_bind, Option.bind_eq_some_iff] at h
          obtain ⟨⟨ok, m1⟩, h1, h2⟩ := h
          cases ok
          · simp at h2
          · obtain ⟨bs, hq⟩ := quad_of_loop (hp w hw) (hc w hw hdot) h1
            exact ⟨[(w, bs)], .inr ⟨[], (w, bs), rfl, fun x hx => (by cases hx), hq⟩, rfl⟩
        · cases h

theorem split_dropLast {c : UInt8} {s w : List UInt8} (h : w ∈ (split c s).dropLast) :
    ∃ a b, s = a ++ c :: b ∧ ∀ x ∈ w, x ∈ a := by
  induction s generalizing w with
  | nil => simp [split] at h
  | cons x t ih =>
    rw [split] at h
    split at h
    · rename_i hx
      subst hx
      cases hs : split x t with
      | nil => exact absurd hs (split_ne _ _)
      | cons u us =>
        rw [hs, List.dropLast_cons₂] at h
        rcases List.mem_cons.1 h with rfl | h
        · exact ⟨[], t, rfl, by simp⟩
        · rw [hs] at ih
          obtain ⟨a, b, rfl, hw⟩ := ih h
          exact ⟨x :: a, b, rfl, fun y hy => List.mem_cons_of_mem _ (hw y hy)⟩
    · split at h
      · simp at h
      · rename_i u us hs
        rw [hs] at ih
        cases us with
        | nil => simp at h
        | cons v us =>
          rw [List.dropLast_cons₂] at h
          rcases List.mem_cons.1 h with rfl | h
          · obtain ⟨a, b, rfl, hw⟩ := ih (w := u) (by rw [List.dropLast_cons₂]; exact List.mem_cons_self ..)
            refine ⟨x :: a, b, rfl, fun y hy => ?_⟩
            rcases List.mem_cons.1 hy with rfl | hy
            · exact List.mem_cons_self ..
            · exact List.mem_cons_of_mem _ (hw y hy)
          · obtain ⟨a, b, rfl, hw⟩ := ih (w := w) (by rw [List.dropLast_cons₂]; exact List.mem_cons_of_mem _ h)
            exact ⟨x :: a, b, rfl, fun y hy => List.mem_cons_of_mem _ (hw y hy)⟩

theorem split_nonempty {s : List UInt8} (h : findPair s = none) (hl : s.getLast? ≠ some 0x3A) :
    (∀ w ∈ (split 0x3A s).tail, w ≠ []) ∧ (s ≠ [] → s.head? ≠ some 0x3A → ∀ w ∈ split 0x3A s, w ≠ []) := by
  induction s with
  | nil => simp [split]
  | cons x t ih =>
    have ht : findPair t = none := by
      cases t with
      | nil => rfl
      | cons y t =>
        rw [findPair] at h
        split at h
        · cases h
        · simpa using h
    have hlt : t.getLast? ≠ some 0x3A := by
      cases t with
      | nil => simp
      | cons y t => simpa using hl
    obtain ⟨ih1, ih2⟩ := ih ht hlt
    rw [split]
    split
    · rename_i hx
      subst hx
      refine ⟨?_, fun _ h => absurd rfl h⟩
      rw [List.tail_cons]
      apply ih2
      · rintro rfl
        simp at hl
      · intro e
        cases t with
        | nil => cases e
        | cons y t =>
          simp only [List.head?_cons, Option.some.injEq] at e
          subst e
          simp [findPair] at h
    · split
      · rename_i e
        exact absurd e (split_ne _ _)
      · rename_i w ws e
        rw [e] at ih1
        refine ⟨ih1, fun _ _ u hu => ?_⟩
        rcases List.mem_cons.1 hu with rfl | hu
        · simp
        · exact ih1 u hu

theorem findPair_left {a : List UInt8} {j : Nat} (h : findPair a = some j) (t : List UInt8) :
    findPair (a ++ t) = some j ∧ j + 2 ≤ a.length := by
  induction a generalizing j with
  | nil => cases h
  | cons x a ih =>
    cases a with
    | nil => cases h
    | cons y a =>
      rw [findPair] at h
      split at h
      · rename_i hxy
        cases h
        exact ⟨by simp [findPair, hxy], by simp⟩
      · rename_i hxy
        obtain ⟨k, hk, rfl⟩ := Option.map_eq_some_iff.1 h
        obtain ⟨h1, h2⟩ := ih hk
        refine ⟨?_, by simp only [List.length_cons] at *; omega⟩
        simp only [List.cons_append] at *
        rw [findPair, if_neg hxy, h1]
        rfl

theorem pair_ne (a t : List UInt8) : findPair (a ++ 0x3A :: 0x3A :: t) ≠ none := by
  induction a with
  | nil => simp [findPair]
  | cons x a ih =>
    cases hat : a ++ 0x3A :: 0x3A :: t with
    | nil => simp at hat
    | cons y u =>
      rw [hat] at ih
      rw [List.cons_append, hat, findPair]
      split
      · simp
      · simpa using ih

/-- The parts before and after the only pair of colons. -/
theorem parts_clean {s : List UInt8} {i : Nat} (h : findPair s = some i) (hr : rfindPair s = some i)
    (hfirst : s.head? = some 0x3A → ∃ t, s = 0x3A :: 0x3A :: t) (hlast : s.getLast? = some 0x3A → ∃ t, s = t ++ [0x3A, 0x3A]) :
    ∃ a b, s = a ++ [0x3A, 0x3A] ++ b ∧ s.take i = a ∧ s.drop (i + 2) = b ∧ Clean a ∧ Clean b := by
  have hs := findPair_some h
  have hlen : i + 2 ≤ s.length := (findPair_left h []).2
  refine ⟨_, _, hs, rfl, rfl, ⟨?_, ?_, ?_⟩, ?_, ?_, ?_⟩
  · cases hf : findPair (s.take i) with
    | none => rfl
    | some j =>
      obtain ⟨h1, h2⟩ := findPair_left hf (s.drop i)
      rw [List.take_append_drop, h] at h1
      cases h1
      rw [List.length_take] at h2
      omega
  · intro e
    rw [List.head?_take] at e
    split at e
    · cases e
    · rename_i hi
      obtain ⟨t, rfl⟩ := hfirst e
      simp [findPair] at h
      omega
  · intro e
    obtain ⟨a, ha⟩ := List.getLast?_eq_some_iff.1 e
    rw [ha] at hs
    have hs' : s = (a ++ [0x3A, 0x3A]) ++ (0x3A :: s.drop (i + 2)) := by
      conv => lhs; rw [hs]
      simp
    have hf : findPair (a ++ [0x3A, 0x3A]) ≠ none := pair_ne a []
    obtain ⟨j, hj⟩ := Option.ne_none_iff_exists'.1 hf
    obtain ⟨h1, h2⟩ := findPair_left hj (0x3A :: s.drop (i + 2))
    rw [← hs', h] at h1
    cases h1
    have : (s.take i).length = (a ++ [0x3A]).length := by rw [ha]
    simp only [List.length_take, List.length_append, List.length_cons, List.length_nil] at this h2
    omega
  all_goals
    have hb : rfindPair (0x3A :: s.drop (i + 2)) = none := by
      cases hf : rfindPair (0x3A :: s.drop (i + 2)) with
      | none => rfl
      | some j =>
        have := rfindPair_append hf (s.take i ++ [0x3A])
        rw [show (s.take i ++ [0x3A]) ++ (0x3A :: s.drop (i + 2)) = s by
          conv => rhs; rw [hs]
          simp, hr] at this
        simp only [List.length_append, List.length_take, List.length_singleton, Option.some.injEq] at this
        omega
    have hb' : findPair (0x3A :: s.drop (i + 2)) = none := by
      cases hf : findPair (0x3A :: s.drop (i + 2)) with
      | none => rfl
      | some j =>
        exfalso
        have hx := findPair_some hf
        generalize 0x3A :: s.drop (i + 2) = u at *
        have h0 : ∀ v : List UInt8, ∃ k, rfindPair (0x3A :: 0x3A :: v) = some k := by
          intro v
          rw [rfindPair]
          split
          · exact ⟨_, rfl⟩
          · exact ⟨0, by simp⟩
        obtain ⟨k, hk⟩ := h0 (u.drop (j + 2))
        have := rfindPair_append hk (u.take j)
        rw [show u.take j ++ 0x3A :: 0x3A :: u.drop (j + 2) = u by
          conv => rhs; rw [hx]
          simp, hb] at this
        cases this
    have hhead : (s.drop (i + 2)).head? ≠ some 0x3A := by
      intro e
      obtain ⟨t, ht⟩ := List.head?_eq_some_iff.1 e
      rw [ht] at hb'
      simp [findPair] at hb'
    have hnone : findPair (s.drop (i + 2)) = none := by
      rw [findPair_colon hhead] at hb'
      simpa using hb'
  · exact hnone
  · exact hhead
  · intro e
    obtain ⟨t, ht⟩ := List.getLast?_eq_some_iff.1 e
    have hsl : s.getLast? = some 0x3A := by
      rw [hs, ht, ← List.append_assoc]
      exact List.getLast?_concat
    obtain ⟨v, hv⟩ := hlast hsl
    cases t with
    | nil =>
      rw [ht] at hhead
      simp at hhead
    | cons y t =>
      have : (y :: t).getLast? = some 0x3A := by
        have e1 : (s.take i ++ [0x3A, 0x3A]) ++ (y :: t) ++ [0x3A] = v ++ [0x3A] ++ [0x3A] := by
          rw [List.append_assoc, ← ht, ← hs, hv]
          simp
        have e2 := (List.append_inj' e1 rfl).1
        have e3 := congrArg List.getLast? e2
        rw [List.getLast?_append] at e3
        cases hy : (y :: t).getLast? with
        | none => simp at hy
        | some z =>
          rw [hy] at e3
          simpa using e3
      obtain ⟨u, hu⟩ := List.getLast?_eq_some_iff.1 this
      rw [ht, hu] at hnone
      exact pair_ne u [] (by simpa using hnone)

/-- A chunk that is worked off without an error consists of pieces. -/
theorem chunk_accept {m m' : Mem UInt8} {dst dots count : Nat} {chunk : List UInt8} {rest : List (List UInt8)}
    (hcl : Clean chunk) (hp : 0x2B ∉ chunk) (hc : count ≤ 1) (hd : ∀ a b, chunk = a ++ 0x3A :: b → 0x2E ∉ a)
    (hdots : chunk.count 0x2E = 0 ∨ chunk.count 0x2E = 3)
    (h : chunkLoop m dst dots count (chunk :: rest) = some (true, m')) :
    (∃ l, Pieces l ∧ chunk = colonText l) ∧ ∃ m1, chunkLoop m1 dst dots (count + 1) rest = some (true, m') := by
  rw [chunkLoop] at h
  split at h
  · rename_i e
    exact ⟨⟨[], .inl (fun x hx => by cases hx), e⟩, m, h⟩
  · rename_i hne
    dsimp only at h
    split at h
    · cases h
    · rename_i h8
      rw [Option.bind_eq_bind, Option.bind_eq_some_iff] at h
      obtain ⟨⟨ok, m1⟩, h1, h2⟩ := h
      cases ok
      · simp at h2
      · refine ⟨?_, m1, by simpa using h2⟩
        have hle : (split 0x3A chunk).length ≤ 8 - count * (8 - (split 0x3A chunk).length - dots / 3) := by
          have : count = 0 ∨ count = 1 := by omega
          rcases this with rfl | rfl <;> omega
        have hdl : ∀ w ∈ (split 0x3A chunk).dropLast, 0x2E ∉ w := by
          intro w hw hx
          obtain ⟨a, b, e, hs⟩ := split_dropLast hw
          exact hd a b e (hs _ hx)
        obtain ⟨l, hl, e⟩ := pieces_of_loop ((split_nonempty hcl.1 hcl.2.2).2 hne hcl.2.1)
          (fun w hw hx => hp (split_subset _ _ hw hx)) hle hdl (by
            intro w hw hx
            have hj := intercalate_split 0x3A chunk
            have hlast : (split 0x3A chunk).dropLast ++ [w] = split 0x3A chunk := by
              have hne := split_ne 0x3A chunk
              have h0 := List.dropLast_concat_getLast hne
              have hw' := hw
              rw [← h0] at hw'
              rcases List.mem_append.1 hw' with hw' | hw'
              · exact absurd hx (hdl w hw')
              · rw [List.mem_singleton.1 hw', h0]
            have hcw : w.count 0x2E = chunk.count 0x2E := by
              rw [← hj, ← hlast]
              generalize hk : (split 0x3A chunk).dropLast = k at *
              by_cases hk0 : k = []
              · subst hk0
                simp [List.intercalate_singleton]
              · have := colonText_append (k := k.map fun x => (x, [])) (r := [(w, [])]) (by simpa using hk0) (by simp)
                simp only [colonText, List.map_append, List.map_map, List.map_cons, List.map_nil,
                  List.intercalate_singleton] at this
                rw [show ((fun x => x.1) ∘ fun x : List UInt8 => (x, ([] : List UInt8))) = id from rfl, List.map_id] at this
                have hz : 0x2E ∉ List.intercalate [0x3A] k := by
                  intro hm
                  rcases mem_intercalate hm with e | ⟨u, hu, hb⟩
                  · revert e; decide
                  · exact hdl u hu hb
                rw [this, List.count_append, List.count_cons_of_ne (by decide), List.count_eq_zero_of_not_mem hz, Nat.zero_add]
            have := List.count_pos_iff.2 hx
            omega) h1
        refine ⟨l, hl, ?_⟩
        rw [colonText, e, intercalate_split]

theorem refuse6 {m m' : Mem UInt8} {src dst : Nat} {s : List UInt8} (h : CStr m src s) (hm : Mapped m dst 16)
    (hplus : 0x2B ∉ s) (hdot : ∀ a b, s = a ++ 0x3A :: b → 0x2E ∉ a)
    (hfirst : s.head? = some 0x3A → ∃ t, s = 0x3A :: 0x3A :: t)
    (hlast : s.getLast? = some 0x3A → ∃ t, s = t ++ [0x3A, 0x3A]) (hr : inetPton6 m src dst = some (1, m')) :
    ∃ bs, Address6 s bs ∧ m' = patch m dst bs := by
  suffices hx : ∃ bs, Address6 s bs ∧ s.count 0x3A ≤ if 0x2E ∈ s then 6 else 7 by
    obtain ⟨bs, ha, hc⟩ := hx
    refine ⟨bs, ha, ?_⟩
    have := accept6 h hm ha hc
    rw [this] at hr
    cases hr
    rfl
  have hmem : 0x2E ∈ s ↔ s.count 0x2E ≠ 0 := by rw [← List.count_pos_iff]; omega
  have hn1 : (some ((0 : Int32), m) = some (1, m')) → False := by
    intro e
    simp only [Option.some.injEq, Prod.mk.injEq] at e
    exact absurd e.1 (by decide)
  unfold inetPton6 at hr
  simp only [Str.strlen_eq h, h.1.readN, Option.bind_eq_bind, Option.bind_some] at hr
  rw [writeN_eq (by simpa using hm)] at hr
  simp only [Option.bind_some] at hr
  split at hr
  · exact (hn1 hr).elim
  · split at hr
    · exact (hn1 hr).elim
    · split at hr
      · exact (hn1 hr).elim
      · split at hr
        · exact (hn1 hr).elim
        · split at hr
          · exact (hn1 hr).elim
          · rename_i h1 h2 h3 h4 h5
            rw [Option.bind_eq_some_iff] at hr
            obtain ⟨⟨ok, m1⟩, hr, e⟩ := hr
            have hok : ok = true := by
              cases ok
              · simp at e
              · rfl
            subst hok
            unfold chunksOf at hr
            cases hf : findPair s with
            | none =>
              simp only [hf, Option.isSome_none, Option.isNone_none, true_and] at h3 hr
              have hcl : Clean s := by
                refine ⟨hf, ?_, ?_⟩
                · intro e
                  obtain ⟨t, rfl⟩ := hfirst e
                  exact pair_ne [] t hf
                · intro e
                  obtain ⟨t, rfl⟩ := hlast e
                  exact pair_ne t [] hf
              obtain ⟨⟨l, hl, e⟩, _⟩ := chunk_accept hcl hplus (by omega) hdot (by omega) hr
              have hne : l ≠ [] := by
                rintro rfl
                rw [e] at h1
                simp [colonText] at h1
              have hcount := colonText_count hne hl.words
              obtain ⟨_, hlen⟩ := hl.dots
              rw [← e] at hcount hlen
              refine ⟨l.flatMap (·.2), ⟨?_, .inl ⟨l, hl, e, rfl⟩⟩, ?_⟩
              · have : s.count 0x2E = 0 ∨ s.count 0x2E = 3 := by omega
                rcases this with e0 | e0 <;> rw [e0] at hlen h3 <;> omega
              · split <;> rename_i hx <;> rw [hmem] at hx <;> omega
            | some i =>
              simp only [hf, Option.isSome_some, true_and] at h3 h5 hr
              have hrf : rfindPair s = some i := by
                have := Decidable.not_not.1 h5
                exact this.symm
              obtain ⟨a, b, hs, ea, eb, hca, hcb⟩ := parts_clean hf hrf hfirst hlast
              rw [ea, eb] at hr
              have hda : 0x2E ∉ a := hdot a (0x3A :: b) (by rw [hs]; simp)
              have hpa : 0x2B ∉ a := fun hx => hplus (by rw [hs]; simp [hx])
              have hpb : 0x2B ∉ b := fun hx => hplus (by rw [hs]; simp [hx])
              have hcount : s.count 0x3A = a.count 0x3A + 2 + b.count 0x3A := by
                rw [hs, List.count_append, List.count_append]
                rfl
              have hd : s.count 0x2E = b.count 0x2E := by
                rw [hs, List.count_append, List.count_append, List.count_eq_zero_of_not_mem hda]
                simp
              obtain ⟨⟨l, hl, el⟩, m2, hr⟩ := chunk_accept hca hpa (by omega)
                (fun u v e hx => hda (by rw [e]; exact List.mem_append_left _ hx))
                (.inl (List.count_eq_zero_of_not_mem hda)) hr
              obtain ⟨⟨r, hrp, er⟩, _⟩ := chunk_accept hcb hpb (by omega)
                (fun u v e hx => hdot (a ++ [0x3A, 0x3A] ++ u) v (by rw [hs, e]; simp) (by simp [hx]))
                (by omega) hr
              have hlg : Groups l := by
                obtain ⟨hx, _⟩ := hl.dots
                rcases hx with hx | hx
                · exact hx.2
                · rw [← el, List.count_eq_zero_of_not_mem hda] at hx
                  omega
              obtain ⟨_, hlenr⟩ := hrp.dots
              have hlenl := groups_length hlg
              rw [← er] at hlenr
              have hcl : l ≠ [] → a.count 0x3A + 1 = l.length := fun hne => by
                rw [el]; exact colonText_count hne hl.words
              have hcr : r ≠ [] → b.count 0x3A + 1 = r.length := fun hne => by
                rw [er]; exact colonText_count hne hrp.words
              have hll : l.length ≤ a.count 0x3A + 1 := by
                by_cases hx : l = []
                · subst hx; simp
                · have := hcl hx; omega
              have hlr : r.length ≤ b.count 0x3A + 1 := by
                by_cases hx : r = []
                · subst hx; simp
                · have := hcr hx; omega
              have hdd : s.count 0x2E = 0 ∨ s.count 0x2E = 3 := by omega
              have hbound : (l.flatMap (·.2)).length + (r.flatMap (·.2)).length ≤ 14 := by
                rw [hlenl, hlenr, ← hd]
                rcases hdd with e0 | e0 <;> rw [e0] at h3 ⊢ <;> omega
              refine ⟨l.flatMap (·.2) ++ List.replicate (16 - (l.flatMap (·.2)).length - (r.flatMap (·.2)).length) 0
                ++ r.flatMap (·.2), ⟨?_, .inr ⟨l, r, _, hlg, hrp, ?_, ?_, rfl⟩⟩, ?_⟩
              · simp only [List.length_append, List.length_replicate]
                omega
              · omega
              · rw [← el, ← er]
                exact hs
              · split <;> rename_i hx <;> rw [hmem] at hx <;> omega

/-! ## Theorems -/

/-- C90, safety: whatever the text, `inet_pton` with `AF_INET6` returns 0 or 1 and writes nothing but the sixteen bytes of
the destination. -/
theorem C90_bounds {m : Mem UInt8} {src dst : Nat} {s : List UInt8} (h : CStr m src s) (hm : Mapped m dst 16) :
    ∃ r m', inetPton m 10 src dst = some (.ok r, m') ∧ (r = 0 ∨ r = 1) ∧ ∀ a, a < dst ∨ dst + 16 ≤ a → m' a = m a := by
  obtain ⟨r, m', e, h1⟩ := bounds6 h hm
  exact ⟨r, m', by rw [inetPton, if_neg (by decide), if_pos (by decide), e]; rfl, h1⟩

/-- C90: an IPv6 address is accepted, and its sixteen bytes are stored (and nothing else). Missing: addresses in which `::` at
the beginning or the end stands for one group only, so that there are eight colons, or seven in front of a dotted quad
(`C90_accept_violation`). -/
theorem C90_accept_partial {m : Mem UInt8} {src dst : Nat} {s bs : List UInt8} (h : CStr m src s) (hm : Mapped m dst 16)
    (ha : Address6 s bs) (hc : s.count 0x3A ≤ if 0x2E ∈ s then 6 else 7) :
    inetPton m 10 src dst = some (.ok 1, patch m dst bs) := by
  rw [inetPton, if_neg (by decide), if_pos (by decide), accept6 h hm ha hc]
  rfl

/-- C90: what is accepted is an IPv6 address, and its bytes are stored. Missing: texts with a `+`, with a dot in front of a
colon, or with a single colon at the beginning or the end (`C90_plus_violation`, `C90_dots_violation`,
`C90_colon_violation`). -/
theorem C90_refuse_partial {m m' : Mem UInt8} {src dst : Nat} {s : List UInt8} (h : CStr m src s) (hm : Mapped m dst 16)
    (hplus : 0x2B ∉ s) (hdot : ∀ a b, s = a ++ 0x3A :: b → 0x2E ∉ a)
    (hfirst : s.head? = some 0x3A → ∃ t, s = 0x3A :: 0x3A :: t)
    (hlast : s.getLast? = some 0x3A → ∃ t, s = t ++ [0x3A, 0x3A]) (hr : inetPton m 10 src dst = some (.ok 1, m')) :
    ∃ bs, Address6 s bs ∧ m' = patch m dst bs := by
  rw [inetPton, if_neg (by decide), if_pos (by decide)] at hr
  obtain ⟨⟨r, m1⟩, h1, h2⟩ := Option.map_eq_some_iff.1 hr
  simp only [Prod.mk.injEq, Except.ok.injEq] at h2
  obtain ⟨rfl, rfl⟩ := h2
  exact refuse6 h hm hplus hdot hfirst hlast h1

/-! ## Violations and examples -/

/-- The text at 0, followed by a destination. -/
def mem6 (t : List UInt8) : Mem UInt8 := ofList 0 (t ++ 0 :: List.replicate 16 0xAA)

/-- What `inet_pton` returns for the text `t`, and the sixteen bytes of the destination afterwards. -/
def run6 (t : List UInt8) : Option (Int32 × List UInt8) :=
  (inetPton6 (mem6 t) 0 (t.length + 1)).bind fun r => (readN r.2 (t.length + 1) 16).map fun l => (r.1, l)

theorem mem6_cstr {t : List UInt8} (h : (0 : UInt8) ∉ t) : CStr (mem6 t) 0 t := by
  have hb := bytes_ofList 0 (t ++ 0 :: List.replicate 16 0xAA)
  rw [bytes_append] at hb
  exact ⟨hb.1, hb.2.1, h⟩

theorem mem6_mapped (t : List UInt8) : Mapped (mem6 t) (t.length + 1) 16 := by
  have hb := bytes_ofList 0 (t ++ 0 :: List.replicate 16 0xAA)
  rw [bytes_append] at hb
  have := hb.2.2.mapped
  rw [List.length_replicate, Nat.zero_add] at this
  exact this

/-- ASCII text. -/
def ascii (s : String) : List UInt8 := s.toList.map fun c => UInt8.ofNat c.toNat

example : run6 (ascii "2001:db8::ff00:42:8329") = some (1, [0x20, 1, 0x0d, 0xb8, 0, 0, 0, 0, 0, 0, 0xff, 0, 0, 0x42, 0x83, 0x29]) := by
  unfold run6 inetPton6
  rw [Str.strlen_eq (mem6_cstr (by decide +kernel))]
  decide +kernel

example : run6 (ascii "64:ff9b::192.0.2.33") = some (1, [0, 0x64, 0xff, 0x9b, 0, 0, 0, 0, 0, 0, 0, 0, 192, 0, 2, 33]) := by
  unfold run6 inetPton6
  rw [Str.strlen_eq (mem6_cstr (by decide +kernel))]
  decide +kernel

-- the hypotheses of the theorems can be met: "::1"
example : Address6 [0x3A, 0x3A, 0x31] [0, 0, 0, 0, 0, 0, 0, 0, 0, 0, 0, 0, 0, 0, 0, 1] := by
  refine ⟨rfl, .inr ⟨[], [([0x31], [0, 1])], 14, fun x hx => (by cases hx), .inl ?_, by decide, rfl, rfl⟩⟩
  intro x hx
  rw [List.mem_singleton.1 hx]
  exact ⟨by decide, 1, .one ⟨by decide, .inl (by decide)⟩, rfl⟩

theorem Pieces.no_plus {l : List (List UInt8 × List UInt8)} (h : Pieces l) : 0x2B ∉ colonText l := by
  have hg : ∀ {s bs : List UInt8}, Group s bs → 0x2B ∉ s := by
    rintro s bs ⟨_, v, h, _⟩
    exact h.not_mem (by decide)
  intro hx
  rcases mem_intercalate hx with e | ⟨w, hw, hb⟩
  · revert e; decide
  · obtain ⟨x, hx, rfl⟩ := List.mem_map.1 hw
    rcases h with h | ⟨k, q, rfl, h, hq⟩
    · exact hg (h x hx) hb
    · rcases List.mem_append.1 hx with hx | hx
      · exact hg (h x hx) hb
      · rw [List.mem_singleton.1 hx] at hb
        exact hq.no_plus hb

theorem Pieces.quad_last {l : List (List UInt8 × List UInt8)} (h : Pieces l) (hd : 0x2E ∈ colonText l) :
    ∃ n, 0x2E ∈ (colonText l).drop n ∧ 0x3A ∉ (colonText l).drop n := by
  rcases h with h | ⟨k, q, rfl, h, hq⟩
  · exact absurd hd h.no_dot
  · by_cases hk : k = []
    · subst hk
      rw [List.nil_append, colonText_one]
      exact ⟨0, hq.dot, hq.no_colon⟩
    · rw [colonText_append hk (by simp), colonText_one]
      refine ⟨(colonText k ++ [0x3A]).length, ?_⟩
      rw [show colonText k ++ 0x3A :: q.1 = (colonText k ++ [0x3A]) ++ q.1 by simp, List.drop_left]
      exact ⟨hq.dot, hq.no_colon⟩

/-- How the text of an address looks. -/
theorem Address6.shape {s bs : List UInt8} (h : Address6 s bs) :
    0x2B ∉ s ∧ (s.head? = some 0x3A → s[1]? = some 0x3A) ∧ (s.getLast? = some 0x3A → ∃ t, s = t ++ [0x3A, 0x3A])
      ∧ (0x2E ∈ s → ∃ n, 0x2E ∈ s.drop n ∧ 0x3A ∉ s.drop n) := by
  obtain ⟨_, ⟨l, hl, rfl, _⟩ | ⟨l, r, k, hl, hr, _, rfl, _⟩⟩ := h
  · have hc := colonText_clean hl.words
    exact ⟨hl.no_plus, fun e => absurd e hc.2.1, fun e => absurd e hc.2.2, hl.quad_last⟩
  · have hlp : Pieces l := .inl hl
    have hc := colonText_clean hlp.words
    have hcr := colonText_clean hr.words
    refine ⟨?_, ?_, ?_, ?_⟩
    · have h1 := hlp.no_plus
      have h2 := hr.no_plus
      simp [h1, h2]
    · intro e
      cases hx : colonText l with
      | nil => simp
      | cons b t =>
        rw [hx] at e hc
        exact absurd (by simpa using e) hc.2.1
    · intro e
      cases hx : (colonText r).getLast? with
      | none =>
        rw [List.getLast?_eq_none_iff.1 hx]
        exact ⟨colonText l, by simp⟩
      | some b =>
        rw [List.getLast?_append, hx] at e
        exact absurd (hx.trans e) hcr.2.2
    · intro hd
      have : 0x2E ∈ colonText r := by
        have h1 := hl.no_dot
        simpa [h1] using hd
      obtain ⟨n, h1, h2⟩ := hr.quad_last this
      refine ⟨(colonText l ++ [0x3A, 0x3A]).length + n, ?_⟩
      rw [List.drop_append]
      have hz : List.drop ((colonText l ++ [0x3A, 0x3A]).length + n) (colonText l ++ [0x3A, 0x3A]) = [] :=
        List.drop_eq_nil_of_le (by omega)
      rw [hz, Nat.add_sub_cancel_left, List.nil_append]
      exact ⟨h1, h2⟩

/-- C90 fails for "1:2:3:4:5:6:7::", an address that is refused. -/
theorem C90_accept_violation :
    Address6 (ascii "1:2:3:4:5:6:7::") [0, 1, 0, 2, 0, 3, 0, 4, 0, 5, 0, 6, 0, 7, 0, 0]
    ∧ run6 (ascii "1:2:3:4:5:6:7::") = some (0, List.replicate 16 0xAA) := by
  constructor
  · refine ⟨rfl, .inr ⟨[([0x31], [0, 1]), ([0x32], [0, 2]), ([0x33], [0, 3]), ([0x34], [0, 4]), ([0x35], [0, 5]),
      ([0x36], [0, 6]), ([0x37], [0, 7])], [], 2, ?_, .inl (fun x hx => (by cases hx)), by decide, by decide +kernel, rfl⟩⟩
    intro x hx
    simp only [List.mem_cons, List.not_mem_nil, or_false] at hx
    rcases hx with rfl | rfl | rfl | rfl | rfl | rfl | rfl
    · exact ⟨by decide, 1, .one ⟨by decide, .inl (by decide)⟩, rfl⟩
    · exact ⟨by decide, 2, .one ⟨by decide, .inl (by decide)⟩, rfl⟩
    · exact ⟨by decide, 3, .one ⟨by decide, .inl (by decide)⟩, rfl⟩
    · exact ⟨by decide, 4, .one ⟨by decide, .inl (by decide)⟩, rfl⟩
    · exact ⟨by decide, 5, .one ⟨by decide, .inl (by decide)⟩, rfl⟩
    · exact ⟨by decide, 6, .one ⟨by decide, .inl (by decide)⟩, rfl⟩
    · exact ⟨by decide, 7, .one ⟨by decide, .inl (by decide)⟩, rfl⟩
  · unfold run6 inetPton6
    rw [Str.strlen_eq (mem6_cstr (by decide +kernel))]
    decide +kernel

/-- C90 fails for "::+1", which is no address but accepted. -/
theorem C90_plus_violation : (∀ bs, ¬ Address6 (ascii "::+1") bs)
    ∧ run6 (ascii "::+1") = some (1, [0, 0, 0, 0, 0, 0, 0, 0, 0, 0, 0, 0, 0, 0, 0, 1]) := by
  constructor
  · intro bs h
    exact h.shape.1 (by decide +kernel)
  · unfold run6 inetPton6
    rw [Str.strlen_eq (mem6_cstr (by decide +kernel))]
    decide +kernel

/-- C90 fails for "::1.2.3.4:5", which is no address but accepted; half of the dotted quad is overwritten by the group. -/
theorem C90_dots_violation : (∀ bs, ¬ Address6 (ascii "::1.2.3.4:5") bs)
    ∧ run6 (ascii "::1.2.3.4:5") = some (1, [0, 0, 0, 0, 0, 0, 0, 0, 0, 0, 1, 2, 0, 5, 0, 0]) := by
  constructor
  · intro bs h
    obtain ⟨n, h1, h2⟩ := h.shape.2.2.2 (by decide +kernel)
    have hn : n < 11 := by
      apply Decidable.byContradiction
      intro hn
      rw [List.drop_eq_nil_of_le (by
        have : (ascii "::1.2.3.4:5").length = 11 := by decide +kernel
        omega)] at h1
      cases h1
    have : ∀ n : Fin 11, 0x3A ∉ (ascii "::1.2.3.4:5").drop n → 0x2E ∉ (ascii "::1.2.3.4:5").drop n := by decide +kernel
    exact this ⟨n, hn⟩ h2 h1
  · unfold run6 inetPton6
    rw [Str.strlen_eq (mem6_cstr (by decide +kernel))]
    decide +kernel

/-- C90 fails for texts with a single colon at the beginning or the end: ":not:hex:at:all:but:zero:?" is accepted as the
address `::`, and "1:2:3:4:5:6:7:" too. -/
theorem C90_colon_violation : (∀ bs, ¬ Address6 (ascii ":not:hex:at:all:but:zero:?") bs)
    ∧ run6 (ascii ":not:hex:at:all:but:zero:?") = some (1, List.replicate 16 0)
    ∧ (∀ bs, ¬ Address6 (ascii "1:2:3:4:5:6:7:") bs)
    ∧ run6 (ascii "1:2:3:4:5:6:7:") = some (1, [0, 1, 0, 2, 0, 3, 0, 4, 0, 5, 0, 6, 0, 7, 0, 0]) := by
  refine ⟨?_, ?_, ?_, ?_⟩
  · intro bs h
    exact absurd (h.shape.2.1 (by decide +kernel)) (by decide +kernel)
  · unfold run6 inetPton6
    rw [Str.strlen_eq (mem6_cstr (by decide +kernel))]
    decide +kernel
  · intro bs h
    obtain ⟨t, ht⟩ := h.shape.2.2.1 (by decide +kernel)
    have := congrArg (fun l => l.reverse[1]?) ht
    simp only [List.reverse_append] at this
    revert this
    simp only [List.reverse_cons, List.reverse_nil, List.nil_append, List.cons_append]
    simp
    decide +kernel
  · unfold run6 inetPton6
    rw [Str.strlen_eq (mem6_cstr (by decide +kernel))]
    decide +kernel

/-- C90: other address families are refused with `EAFNOSUPPORT`. -/
theorem C90_family (m : Mem UInt8) (af : Int32) (src dst : Nat) (h4 : af ≠ 2) (h6 : af ≠ 10) :
    inetPton m af src dst = some (.error .EAFNOSUPPORT, m) := by
  unfold inetPton AF_INET AF_INET6
  rw [if_neg h4, if_neg h6]

end Verif.Net
