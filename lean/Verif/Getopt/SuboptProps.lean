import Verif.Getopt.SuboptModel
import Verif.Str.StrSearchProps
import Verif.Str.StrCopyProps
/-!
# C136: getsubopt
-/

namespace Verif.Subopt
open Verif.Mem Verif.Str

/-! ## Specification -/

/-- The option `opt` is the key, or the key, `=` and a value. -/
def Suits (key opt : List UInt8) : Option (List UInt8) → Prop
  | none => opt = key
  | some v => opt = key ++ 61 :: v

/-- The answer for an option: the number of the first key it suits with its value; if there is none, -1 and the option itself. -/
def Answer (keys : List (List UInt8)) (opt : List UInt8) (ret : Int) (value : Option (List UInt8)) : Prop :=
  (∃ (i : Nat) (k : List UInt8), keys[i]? = some k ∧ ret = i ∧ Suits k opt value ∧ ∀ j, j < i → ∀ k', keys[j]? = some k' → ∀ v, ¬ Suits k' opt v) ∨
  (ret = -1 ∧ value = some opt ∧ ∀ k ∈ keys, ∀ v, ¬ Suits k opt v)

/-- The pointer is null, or the string is there. -/
def ValueAt (m : Mem UInt8) (p : Option Nat) (value : Option (List UInt8)) : Prop :=
  match p, value with
  | none, none => True
  | some p, some v => CStr m p v
  | _, _ => False

/-- The keys are in memory at the pointers, and none of them in the `n` bytes at `p`. -/
def Keys (m : Mem UInt8) (p n : Nat) (ptrs : List Nat) (keys : List (List UInt8)) : Prop :=
  ptrs.length = keys.length ∧ ∀ (i q : Nat) (k : List UInt8), ptrs[i]? = some q → keys[i]? = some k → CStr m q k ∧ Disjoint q (k.length + 1) p n

/-- As many calls of `getsubopt` as said, each with `*optionp` as the last one left it. -/
def calls (keys : List Nat) : Nat → Mem UInt8 → Nat → Option (List (Int × Option Nat) × Nat × Mem UInt8)
  | 0, m, p => some ([], p, m)
  | n + 1, m, p =>
    match getsubopt m p keys with
    | none => none
    | some s =>
      match calls keys n s.mem s.option with
      | none => none
      | some (l, q, m) => some ((s.ret, s.value) :: l, q, m)

/-- The options with commas between them. -/
def commas : List (List UInt8) → List UInt8
  | [] => []
  | [o] => o
  | o :: os => o ++ 44 :: commas os

/-! ## Lemmas -/

theorem cut_end (m : Mem UInt8) (o : List UInt8) : ∀ p, CStr m p o → (44 : UInt8) ∉ o → cut m p = some (p + o.length, m) := by
  induction o with
  | nil => intro p h _; rw [cut, h.nul]; rfl
  | cons b o ih =>
    intro p h hc
    rw [cut, h.head.1]
    dsimp only
    rw [if_neg h.head.2, if_neg (fun e : b = 44 => hc (e ▸ List.mem_cons_self ..)), ih _ h.tail (fun e => hc (List.mem_cons_of_mem _ e))]
    simp only [List.length_cons]
    rw [show p + 1 + o.length = p + (o.length + 1) by omega]

theorem cut_comma (m : Mem UInt8) (rest o : List UInt8) : ∀ p, CStr m p (o ++ 44 :: rest) → (44 : UInt8) ∉ o →
    cut m p = some (p + o.length + 1, patch m (p + o.length) [0]) := by
  induction o with
  | nil =>
    intro p h _
    rw [cut, h.head.1]
    dsimp only
    rw [if_neg (by decide), if_pos rfl, store_patch (by rw [h.head.1]; rfl)]
    rfl
  | cons b o ih =>
    intro p h hc
    rw [cut, h.head.1]
    dsimp only
    rw [if_neg h.head.2, if_neg (fun e : b = 44 => hc (e ▸ List.mem_cons_self ..)), ih _ h.tail (fun e => hc (List.mem_cons_of_mem _ e))]
    simp only [List.length_cons]
    rw [show p + 1 + o.length = p + (o.length + 1) by omega]

/-- After the comma has been overwritten: the option, the rest behind it. -/
theorem after_comma {m : Mem UInt8} {p : Nat} {o rest : List UInt8} (h : CStr m p (o ++ 44 :: rest)) :
    CStr (patch m (p + o.length) [0]) p o ∧ CStr (patch m (p + o.length) [0]) (p + o.length + 1) rest := by
  have hd : CStr m (p + o.length) (44 :: rest) := h.drop
  constructor
  · refine ⟨?_, ?_, fun hm => h.2.2 (List.mem_append_left _ hm)⟩
    · exact (bytes_append.1 h.1).1.congr fun a x y => patch_out (by omega)
    · have := patch_in (m := m) (p := p + o.length) (l := [(0 : UInt8)]) (i := 0) (by decide)
      simpa using this
  · exact hd.tail.congr fun a x y => patch_out (by simp only [List.length_singleton]; omega)

theorem tryKeys_eq (m : Mem UInt8) (start : Nat) (opt : List UInt8) (ho : CStr m start opt) (ptrs : List Nat) :
    ∀ (keys : List (List UInt8)) (n : Nat), ptrs.length = keys.length →
      (∀ (i q : Nat) (k : List UInt8), ptrs[i]? = some q → keys[i]? = some k → CStr m q k) →
      ∃ r p v, tryKeys m start ptrs n = some (r, p) ∧ ValueAt m p v ∧ (∀ x w, p = some x → v = some w → start ≤ x ∧ x + w.length = start + opt.length) ∧
        ((∃ i k, keys[i]? = some k ∧ r = (n + i : Nat) ∧ Suits k opt v ∧ ∀ j, j < i → ∀ k', keys[j]? = some k' → ∀ v, ¬ Suits k' opt v) ∨
          (r = -1 ∧ v = some opt ∧ ∀ k ∈ keys, ∀ v, ¬ Suits k opt v)) := by
  induction ptrs with
  | nil =>
    intro keys n hl _
    cases keys with
    | cons => cases hl
    | nil => exact ⟨-1, some start, some opt, rfl, ho, by rintro x w h1 h2; cases h1; cases h2; omega, Or.inr ⟨rfl, rfl, nofun⟩⟩
  | cons q ptrs ih =>
    intro keys n hl hk
    cases keys with
    | nil => cases hl
    | cons k keys =>
      have hq : CStr m q k := hk 0 q k rfl rfl
      have hb := hq.bstr k.length
      rw [List.take_length] at hb
      obtain ⟨c, hc, hs⟩ := C18_strncmp m start q k.length _ _ (ho.bstr k.length) hb
      have next : (∀ v, ¬ Suits k opt v) → ∃ r p v, tryKeys m start ptrs (n + 1) = some (r, p) ∧ ValueAt m p v ∧
          (∀ x w, p = some x → v = some w → start ≤ x ∧ x + w.length = start + opt.length) ∧
          ((∃ i k', (k :: keys)[i]? = some k' ∧ r = (n + i : Nat) ∧ Suits k' opt v ∧
              ∀ j, j < i → ∀ k'', (k :: keys)[j]? = some k'' → ∀ v, ¬ Suits k'' opt v) ∨
            (r = -1 ∧ v = some opt ∧ ∀ k' ∈ k :: keys, ∀ v, ¬ Suits k' opt v)) := by
        intro hno
        obtain ⟨r, p, v, h1, h2, h2', h3⟩ := ih keys (n + 1) (by simpa using hl) (fun i q' k' => hk (i + 1) q' k')
        refine ⟨r, p, v, h1, h2, h2', ?_⟩
        rcases h3 with ⟨i, k', h4, h5, h6, h7⟩ | ⟨h4, h5, h6⟩
        · refine Or.inl ⟨i + 1, k', h4, by rw [h5]; omega, h6, ?_⟩
          intro j hj k'' hk''
          cases j with
          | zero => injection hk'' with hk''; subst hk''; exact hno
          | succ j => exact h7 j (by omega) k'' hk''
        · refine Or.inr ⟨h4, h5, ?_⟩
          intro k' hk'
          rcases List.mem_cons.1 hk' with rfl | hk'
          · exact hno
          · exact h6 k' hk'
      unfold tryKeys
      rw [strlen_eq hq]
      dsimp only
      rw [hc]
      dsimp only
      by_cases h0 : c = 0
      · rw [if_pos h0]
        have he : opt.take k.length = k := hs.2.1.1 h0
        have hopt : opt = k ++ opt.drop k.length := by
          conv => lhs; rw [← List.take_append_drop k.length opt, he]
        generalize opt.drop k.length = rest at hopt
        have hr : CStr m (start + k.length) rest := by
          rw [hopt] at ho
          exact ho.drop
        cases rest with
        | nil =>
          rw [hr.nul]
          dsimp only
          rw [if_neg (by decide), if_pos rfl]
          rw [List.append_nil] at hopt
          exact ⟨n, none, none, rfl, trivial, nofun, Or.inl ⟨0, k, rfl, rfl, hopt, by intro j hj; omega⟩⟩
        | cons b rest =>
          rw [hr.head.1]
          dsimp only
          by_cases hb : b = 61
          · rw [if_pos hb]
            subst hb
            exact ⟨n, some (start + (k.length + 1)), some rest, rfl, hr.tail, by
              rintro x w h1 h2
              cases h1
              cases h2
              rw [hopt, List.length_append, List.length_cons]
              omega, Or.inl ⟨0, k, rfl, rfl, hopt, by intro j hj; omega⟩⟩
          · rw [if_neg hb, if_neg hr.head.2]
            refine next ?_
            intro v hv
            cases v with
            | none =>
              have h' : opt = k := hv
              have := congrArg List.length (hopt.symm.trans h')
              simp at this
            | some v =>
              have h' : opt = k ++ 61 :: v := hv
              have := List.append_cancel_left (hopt.symm.trans h')
              injection this with h1
              exact hb h1
      · rw [if_neg h0]
        refine next ?_
        intro v hv
        refine h0 (hs.2.1.2 ?_)
        cases v with
        | none =>
          have h' : opt = k := hv
          rw [h', List.take_length]
        | some v =>
          have h' : opt = k ++ 61 :: v := hv
          rw [h', List.take_left]

theorem keys_patch {m : Mem UInt8} {p n a : Nat} {ptrs : List Nat} {keys : List (List UInt8)} (h : Keys m p n ptrs keys) (ha : p ≤ a) (hb : a < p + n) :
    Keys (patch m a [0]) p n ptrs keys := by
  refine ⟨h.1, fun i q k hq hk => ?_⟩
  obtain ⟨h1, h2⟩ := h.2 i q k hq hk
  refine ⟨h1.congr fun x hx hy => patch_out ?_, h2⟩
  simp only [List.length_singleton]
  unfold Disjoint at h2
  omega

theorem Keys.sub {m : Mem UInt8} {p n p' n' : Nat} {ptrs : List Nat} {keys : List (List UInt8)} (h : Keys m p n ptrs keys) (h1 : p ≤ p')
    (h2 : p' + n' ≤ p + n) : Keys m p' n' ptrs keys := by
  refine ⟨h.1, fun i q k hq hk => ?_⟩
  obtain ⟨h3, h4⟩ := h.2 i q k hq hk
  refine ⟨h3, ?_⟩
  unfold Disjoint at h4 ⊢
  omega

/-! ## C136 -/

/-- **C136.** One call, on a string with a comma: it takes the option before the comma, overwrites the comma and nothing else, leaves
`*optionp` behind it, and gives the answer for the option. -/
theorem C136_option (m : Mem UInt8) (p : Nat) (opt rest : List UInt8) (hc : (44 : UInt8) ∉ opt) (hs : CStr m p (opt ++ 44 :: rest)) (ptrs : List Nat)
    (keys : List (List UInt8)) (hk : Keys m p (opt.length + 1 + rest.length + 1) ptrs keys) :
    ∃ s value, getsubopt m p ptrs = some s ∧ s.mem = patch m (p + opt.length) [0] ∧ s.option = p + opt.length + 1 ∧
      CStr s.mem s.option rest ∧ ValueAt s.mem s.value value ∧ Answer keys opt s.ret value ∧
      ∀ x w, s.value = some x → value = some w → p ≤ x ∧ x + w.length = p + opt.length := by
  obtain ⟨h1, h2⟩ := after_comma hs
  have hk' := keys_patch hk (a := p + opt.length) (by omega) (by omega)
  obtain ⟨r, q, v, h3, h4, h4', h5⟩ := tryKeys_eq _ p opt h1 ptrs keys 0 hk'.1 (fun i q k hq hk => (hk'.2 i q k hq hk).1)
  refine ⟨⟨r, q, p + opt.length + 1, patch m (p + opt.length) [0]⟩, v, ?_, rfl, rfl, h2, h4, ?_, h4'⟩
  · unfold getsubopt
    rw [cut_comma m rest opt p hs hc]
    dsimp only
    rw [h3]
  · simpa [Answer] using h5

/-- **C136.** One call, on a string without a comma: nothing is written, `*optionp` is left at the end. -/
theorem C136_last (m : Mem UInt8) (p : Nat) (opt : List UInt8) (hc : (44 : UInt8) ∉ opt) (hs : CStr m p opt) (ptrs : List Nat)
    (keys : List (List UInt8)) (hk : Keys m p (opt.length + 1) ptrs keys) :
    ∃ s value, getsubopt m p ptrs = some s ∧ s.mem = m ∧ s.option = p + opt.length ∧ m s.option = some 0 ∧
      ValueAt m s.value value ∧ Answer keys opt s.ret value := by
  obtain ⟨r, q, v, h3, h4, h4', h5⟩ := tryKeys_eq _ p opt hs ptrs keys 0 hk.1 (fun i q k hq hk' => (hk.2 i q k hq hk').1)
  refine ⟨⟨r, q, p + opt.length, m⟩, v, ?_, rfl, rfl, hs.2.1, h4, ?_⟩
  · unfold getsubopt
    rw [cut_end m opt p hs hc]
    dsimp only
    rw [h3]
  · simpa [Answer] using h5

/-- What the calls do: every answer holds in the memory at the end, which differs from the first one only in the string. -/
theorem calls_all (ptrs : List Nat) (keys : List (List UInt8)) (opts : List (List UInt8)) (hne : opts ≠ []) (hc : ∀ o ∈ opts, (44 : UInt8) ∉ o) :
    ∀ (m : Mem UInt8) (p : Nat), CStr m p (commas opts) → Keys m p ((commas opts).length + 1) ptrs keys →
      ∃ rs q m', calls ptrs opts.length m p = some (rs, q, m') ∧ q = p + (commas opts).length ∧ m' q = some 0 ∧
        (∀ a, a < p ∨ p + (commas opts).length ≤ a → m' a = m a) ∧ rs.length = opts.length ∧
        ∀ (j : Nat) (o : List UInt8), opts[j]? = some o → ∃ r v value, rs[j]? = some (r, v) ∧ ValueAt m' v value ∧ Answer keys o r value := by
  induction opts with
  | nil => exact absurd rfl hne
  | cons o os ih =>
    intro m p hs hk
    cases os with
    | nil =>
      obtain ⟨s, v, h1, h2, h3, h4, h5, h6⟩ := C136_last m p o (hc o (List.mem_cons_self ..)) hs ptrs keys hk
      refine ⟨[(s.ret, s.value)], s.option, m, ?_, h3, h4, fun _ _ => rfl, rfl, ?_⟩
      · simp only [List.length_singleton, calls, h1, h2]
      · intro j o' hj
        cases j with
        | zero =>
          injection hj with hj
          subst hj
          exact ⟨s.ret, s.value, v, rfl, h5, h6⟩
        | succ j => exact absurd hj (by simp)
    | cons o2 os =>
      have hlen : (commas (o :: o2 :: os)).length = o.length + 1 + (commas (o2 :: os)).length := by
        simp only [commas, List.length_append, List.length_cons]
        omega
      have hs' : CStr m p (o ++ 44 :: commas (o2 :: os)) := hs
      rw [hlen] at hk ⊢
      obtain ⟨s, v, h1, h2, h3, h4, h5, h6, h7⟩ := C136_option m p o _ (hc o (List.mem_cons_self ..)) hs' ptrs keys hk
      have hk2 : Keys s.mem s.option ((commas (o2 :: os)).length + 1) ptrs keys := by
        rw [h2, h3]
        exact (keys_patch hk (by omega) (by omega)).sub (by omega) (by omega)
      obtain ⟨rs, q, m', g1, g2, g3, g4, g5, g6⟩ := ih (by simp) (fun o' ho' => hc o' (List.mem_cons_of_mem _ ho')) s.mem s.option h4 hk2
      refine ⟨(s.ret, s.value) :: rs, q, m', ?_, by rw [g2, h3]; omega, g3, ?_, by simp [g5], ?_⟩
      · rw [List.length_cons, calls, h1]
        dsimp only
        rw [g1]
      · intro a ha
        rw [g4 a (by omega), h2]
        exact patch_out (by simp only [List.length_singleton]; omega)
      · intro j o' hj
        cases j with
        | succ j => exact g6 j o' hj
        | zero =>
          injection hj with hj
          subst hj
          refine ⟨s.ret, s.value, v, rfl, ?_, h6⟩
          cases hx : s.value with
          | none =>
            rw [hx] at h5
            cases v with
            | none => exact h5
            | some v => exact h5.elim
          | some x =>
            rw [hx] at h5
            cases v with
            | none => exact h5.elim
            | some w =>
              have hw : CStr s.mem x w := h5
              have := h7 x w hx rfl
              exact CStr.congr hw fun a _ hb => g4 a (Or.inl (by omega))

/-- **C136.** The usual loop: for any options (without commas in them), given with commas between them, the calls take them one after the other,
each with its answer; the values are still there in the end, `*optionp` is at the end of the string, and nothing but bytes of the
string has been changed. -/
theorem C136_getsubopt (m : Mem UInt8) (p : Nat) (opts : List (List UInt8)) (hne : opts ≠ []) (hc : ∀ o ∈ opts, (44 : UInt8) ∉ o)
    (hs : CStr m p (commas opts)) (ptrs : List Nat) (keys : List (List UInt8)) (hk : Keys m p ((commas opts).length + 1) ptrs keys) :
    ∃ rs q m', calls ptrs opts.length m p = some (rs, q, m') ∧ q = p + (commas opts).length ∧ m' q = some 0 ∧
      (∀ a, a < p ∨ p + (commas opts).length ≤ a → m' a = m a) ∧ rs.length = opts.length ∧
      ∀ (j : Nat) (o : List UInt8), opts[j]? = some o → ∃ r v value, rs[j]? = some (r, v) ∧ ValueAt m' v value ∧ Answer keys o r value :=
  calls_all ptrs keys opts hne hc m p hs hk

/-- **C136.** An option has one answer only. -/
theorem C136_unique (keys : List (List UInt8)) (opt : List UInt8) (r r' : Int) (v v' : Option (List UInt8)) (h : Answer keys opt r v)
    (h' : Answer keys opt r' v') : r = r' ∧ v = v' := by
  have key : ∀ k v v', Suits k opt v → Suits k opt v' → v = v' := by
    intro k v v' h h'
    cases v with
    | none =>
      cases v' with
      | none => rfl
      | some v' =>
        have := congrArg List.length (show k = k ++ 61 :: v' from (show opt = k from h).symm.trans h')
        simp at this
    | some v =>
      cases v' with
      | none =>
        have := congrArg List.length (show k = k ++ 61 :: v from (show opt = k from h').symm.trans h)
        simp at this
      | some v' =>
        have := List.append_cancel_left (show k ++ 61 :: v = k ++ 61 :: v' from (show opt = k ++ 61 :: v from h).symm.trans h')
        injection this with _ this
        rw [this]
  rcases h with ⟨i, k, h1, h2, h3, h4⟩ | ⟨h1, h2, h3⟩
  · rcases h' with ⟨j, k', g1, g2, g3, g4⟩ | ⟨g1, g2, g3⟩
    · rcases Nat.lt_trichotomy i j with hij | hij | hij
      · exact absurd h3 (g4 i hij k h1 v)
      · subst hij
        rw [h1] at g1
        injection g1 with g1
        subst g1
        exact ⟨by rw [h2, g2], key k v v' h3 g3⟩
      · exact absurd g3 (h4 j hij k' g1 v')
    · exact absurd h3 (g3 k (List.mem_of_getElem? h1) v)
  · rcases h' with ⟨j, k', g1, g2, g3, g4⟩ | ⟨g1, g2, g3⟩
    · exact absurd g3 (h3 k' (List.mem_of_getElem? g1) v')
    · exact ⟨by rw [h1, g1], by rw [h2, g2]⟩

/-! ## Examples -/

/-- `ro,size=2,x` with the keys `size` and `ro`. -/
def exampleMem : Mem UInt8 := fun a =>
  if a < 100 then ofList 10 [114, 111, 44, 115, 105, 122, 101, 61, 50, 44, 120, 0] a else ofList 100 [115, 105, 122, 101, 0, 114, 111, 0] a

example : ∃ rs q m', calls [100, 105] 3 exampleMem 10 = some (rs, q, m') ∧ q = 21 ∧
    (∃ v, rs[0]? = some (1, v) ∧ ValueAt m' v none) ∧
    (∃ v, rs[1]? = some (0, v) ∧ ValueAt m' v (some [50])) ∧
    (∃ v, rs[2]? = some (-1, v) ∧ ValueAt m' v (some [120])) := by
  obtain ⟨rs, q, m', h1, h2, -, -, -, h6⟩ := C136_getsubopt exampleMem 10 [[114, 111], [115, 105, 122, 101, 61, 50], [120]] (by simp)
    (by decide) ⟨bytes_iff.2 (by decide +kernel), by decide +kernel, by decide +kernel⟩ [100, 105] [[115, 105, 122, 101], [114, 111]]
    ⟨rfl, by
      intro i q k hq hk
      match i, hq, hk with
      | 0, hq, hk =>
        injection hq with hq
        injection hk with hk
        subst hq hk
        exact ⟨⟨bytes_iff.2 (by decide +kernel), by decide +kernel, by decide +kernel⟩, Or.inr (by decide)⟩
      | 1, hq, hk =>
        injection hq with hq
        injection hk with hk
        subst hq hk
        exact ⟨⟨bytes_iff.2 (by decide +kernel), by decide +kernel, by decide +kernel⟩, Or.inr (by decide)⟩
      | _ + 2, hq, _ => exact absurd hq nofun⟩
  refine ⟨rs, q, m', h1, h2, ?_, ?_, ?_⟩
  · obtain ⟨r, v, value, e1, e2, e3⟩ := h6 0 _ rfl
    have := C136_unique _ _ r 1 value none e3 (Or.inl ⟨1, _, rfl, rfl, rfl, by
      intro j hj k hk w
      obtain rfl : j = 0 := by omega
      injection hk with hk
      subst hk
      cases w <;> simp [Suits]⟩)
    rw [this.1] at e1
    rw [this.2] at e2
    exact ⟨v, e1, e2⟩
  · obtain ⟨r, v, value, e1, e2, e3⟩ := h6 1 _ rfl
    have := C136_unique _ _ r 0 value (some [50]) e3 (Or.inl ⟨0, _, rfl, rfl, rfl, by intro j hj; omega⟩)
    rw [this.1] at e1
    rw [this.2] at e2
    exact ⟨v, e1, e2⟩
  · obtain ⟨r, v, value, e1, e2, e3⟩ := h6 2 _ rfl
    have := C136_unique _ _ r (-1) value (some [120]) e3 (Or.inr ⟨rfl, rfl, by
      intro k hk w
      rcases List.mem_cons.1 hk with rfl | hk
      · cases w <;> simp [Suits]
      · rw [List.mem_singleton] at hk
        subst hk
        cases w <;> simp [Suits]⟩)
    rw [this.1] at e1
    rw [this.2] at e2
    exact ⟨v, e1, e2⟩

end Verif.Subopt
