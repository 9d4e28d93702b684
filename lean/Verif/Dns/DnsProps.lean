import Verif.Dns.DnsModel
import Verif.Net.InetProps
/-!
# C47: DNS messages

The format is that of RFC 1035, section 4.
-/

namespace Verif.Dns

/-! ## Specification -/

/-- The bytes at position `i` are `l`. -/
def Sub (data : List UInt8) (i : Nat) (l : List UInt8) : Prop := ∃ r, data.drop i = l ++ r

/-- A 16-bit number in network order. -/
def Word (data : List UInt8) (i : Nat) (v : UInt16) : Prop := ∃ a b, Sub data i [a, b] ∧ v.toNat = a.toNat * 256 + b.toNat

/-- A pointer to position `p`. -/
def Pointer (data : List UInt8) (i p : Nat) : Prop := p < 0x4000 ∧ Sub data i [UInt8.ofNat (0xC0 + p / 256), UInt8.ofNat p]

/-- The labels of a name without pointers at position `i`, which ends at `k`. -/
inductive Labels (data : List UInt8) : Nat → List (List UInt8) → Nat → Prop
  | root {i : Nat} : Sub data i [0] → Labels data i [] (i + 1)
  | label {i k : Nat} {l : List UInt8} {ls : List (List UInt8)} : l ≠ [] → l.length ≤ 63 →
      Sub data i (UInt8.ofNat l.length :: l) → Labels data (i + 1 + l.length) ls k → Labels data i (l :: ls) k

/-- The labels of any name at position `i`, with pointers; the last byte read is the one before `e`. -/
inductive Expand (data : List UInt8) : Nat → List (List UInt8) → Nat → Prop
  | root {i : Nat} : Sub data i [0] → Expand data i [] (i + 1)
  | label {i e : Nat} {l : List UInt8} {ls : List (List UInt8)} : l ≠ [] → l.length ≤ 63 →
      Sub data i (UInt8.ofNat l.length :: l) → Expand data (i + 1 + l.length) ls e → Expand data i (l :: ls) e
  | jump {i p e : Nat} {ls : List (List UInt8)} : Pointer data i p → Expand data p ls e → Expand data i ls e

/-- A name at position `i`, which ends at `k`: its labels, or a pointer to a name whose parts are all before `i`. -/
inductive NameAt (data : List UInt8) : Nat → List (List UInt8) → Nat → Prop
  | inline {i k : Nat} {ls : List (List UInt8)} : Labels data i ls k → NameAt data i ls k
  | pointer {i p e : Nat} {ls : List (List UInt8)} : Pointer data i p → Expand data p ls e → e ≤ i → NameAt data i ls (i + 2)

/-- A name as text. -/
def dots (ls : List (List UInt8)) : List UInt8 := List.intercalate [0x2E] ls

/-- The question section. -/
inductive Queries (data : List UInt8) : Nat → List Query → Nat → Prop
  | nil (i : Nat) : Queries data i [] i
  | cons {i k e : Nat} {ls : List (List UInt8)} {t c : UInt16} {qs : List Query} : NameAt data i ls k → Word data k t →
      Word data (k + 2) c → Queries data (k + 4) qs e → Queries data i (⟨dots ls, t, c⟩ :: qs) e

/-- The answer section. -/
inductive Answers (data : List UInt8) : Nat → List Answer → Nat → Prop
  | nil (i : Nat) : Answers data i [] i
  | cons {i k e : Nat} {ls : List (List UInt8)} {t c a b n : UInt16} {d : List UInt8} {as : List Answer} :
      NameAt data i ls k → Word data k t → Word data (k + 2) c → Word data (k + 4) a → Word data (k + 6) b →
      Word data (k + 8) n → d.length = n.toNat → Sub data (k + 10) d → Answers data (k + 10 + d.length) as e →
      Answers data i (⟨dots ls, t, c, a, b, d⟩ :: as) e

/-- The bytes are the message, perhaps with more behind the answers. -/
structure Message (data : List UInt8) (d : Dns) : Prop where
  len : 12 ≤ data.length
  id : Word data 0 d.id
  flags : Word data 2 d.flags
  nq : ∃ n, Word data 4 n ∧ n.toNat = d.queries.length
  na : ∃ n, Word data 6 n ∧ n.toNat = d.answers.length
  body : ∃ k e, Queries data 12 d.queries k ∧ Answers data k d.answers e

/-- A query that can be sent: an ASCII name of labels of 1 to 63 bytes. -/
def Query.Good (q : Query) : Prop :=
  ∃ ls, q.name = dots ls ∧ ls ≠ [] ∧ ∀ l ∈ ls, l ≠ [] ∧ l.length ≤ 63 ∧ 0x2E ∉ l ∧ ∀ b ∈ l, b < 0x80

/-! ## Lemmas -/

theorem sub_cons {data : List UInt8} {i : Nat} {b : UInt8} {l : List UInt8} (h : Sub data i (b :: l)) :
    data[i]? = some b ∧ Sub data (i + 1) l ∧ i + 1 ≤ data.length := by
  obtain ⟨r, h⟩ := h
  have h1 : data[i]? = some b := by
    rw [← Nat.add_zero i, ← List.getElem?_drop, h]
    rfl
  refine ⟨h1, ⟨r, ?_⟩, (List.getElem?_eq_some_iff.1 h1).1⟩
  rw [← List.drop_drop, h]
  rfl

theorem pop8_of {data : List UInt8} {i : Nat} {b : UInt8} {l : List UInt8} (h : Sub data i (b :: l)) :
    pop8 data i = .ok (b, i + 1) := by
  obtain ⟨h1, _, h3⟩ := sub_cons h
  unfold pop8
  rw [if_neg (by omega), h1]

theorem pop16_of {data : List UInt8} {i : Nat} {v : UInt16} (h : Word data i v) : pop16 data i = .ok (v, i + 2) := by
  obtain ⟨a, b, h, hv⟩ := h
  obtain ⟨h1, h2, _⟩ := sub_cons h
  obtain ⟨h3, _, h5⟩ := sub_cons h2
  unfold pop16
  rw [if_neg (by omega), h1, h3]
  simp only [← hv, UInt16.ofNat_toNat]

theorem popN_of {data : List UInt8} {i : Nat} {l : List UInt8} (h : Sub data i l) :
    popN data l.length i = .ok (l, i + l.length) := by
  induction l generalizing i with
  | nil => rfl
  | cons b l ih =>
    rw [List.length_cons, popN, pop8_of h]
    simp only [bind, Except.bind]
    rw [ih (sub_cons h).2.1]
    simp only
    congr 2
    omega

/-- The text with the dots between the labels. -/
def joinTo (name : List UInt8) : List (List UInt8) → List UInt8
  | [] => name
  | l :: ls => joinTo ((if name ≠ [] then name ++ [0x2E] else name) ++ l) ls

theorem joinTo_ne {name : List UInt8} (hn : name ≠ []) {ls : List (List UInt8)} (h : ∀ l ∈ ls, l ≠ []) :
    joinTo name ls = name ++ ls.flatMap (fun l => 0x2E :: l) := by
  induction ls generalizing name with
  | nil => simp [joinTo]
  | cons l ls ih =>
    rw [joinTo, if_pos hn, ih (by simp) (fun x hx => h x (by simp [hx]))]
    simp

theorem dots_cons (l : List UInt8) (ls : List (List UInt8)) : dots (l :: ls) = l ++ ls.flatMap (fun l => 0x2E :: l) := by
  unfold dots
  induction ls generalizing l with
  | nil => simp [List.intercalate]
  | cons l' ls ih =>
    have := ih l'
    simp only [List.intercalate, List.intersperse_cons_cons, List.flatten_cons] at this ⊢
    rw [this]
    simp

theorem joinTo_nil {ls : List (List UInt8)} (h : ∀ l ∈ ls, l ≠ []) : joinTo [] ls = dots ls := by
  cases ls with
  | nil => rfl
  | cons l ls =>
    rw [joinTo, if_neg (by simp), List.nil_append, joinTo_ne (h l (by simp)) (fun x hx => h x (by simp [hx])), dots_cons]

theorem pointer_byte {p : Nat} (h : p < 0x4000) : UInt8.ofNat (0xC0 + p / 256) &&& 0xC0 = 0xC0 := by
  have : ∀ q < 64, UInt8.ofNat (0xC0 + q) &&& 0xC0 = 0xC0 := by decide
  exact this _ (by omega)

theorem label_byte {n : Nat} (h0 : n ≠ 0) (h : n ≤ 63) :
    ¬ UInt8.ofNat n &&& 0xC0 = 0xC0 ∧ ¬ UInt8.ofNat n = 0 ∧ (UInt8.ofNat n).toNat = n := by
  have : ∀ q < 64, q ≠ 0 → ¬ UInt8.ofNat q &&& 0xC0 = 0xC0 ∧ ¬ UInt8.ofNat q = 0 ∧ (UInt8.ofNat q).toNat = q := by decide
  exact this n (by omega) h0

theorem nameLoop_expand {data : List UInt8} {i e : Nat} {ls : List (List UInt8)} (h : Expand data i ls e) (name : List UInt8) :
    nameLoop data name i = some (.ok (joinTo name ls, e)) := by
  induction h generalizing name with
  | root h =>
    rw [nameLoop]
    unfold nameStep
    rw [pop8_of h]
    rfl
  | @label i e l ls hl h63 h _ ih =>
    obtain ⟨b1, b2, b3⟩ := label_byte (by simpa using hl) h63
    rw [nameLoop]
    unfold nameStep
    rw [pop8_of h]
    simp only [bind, Except.bind]
    rw [if_neg b1, if_neg b2, b3, popN_of (sub_cons h).2.1]
    exact ih _
  | @jump i p e ls hp _ ih =>
    obtain ⟨hlt, h⟩ := hp
    rw [nameLoop]
    unfold nameStep
    rw [pop8_of h]
    simp only [bind, Except.bind]
    rw [if_pos (pointer_byte hlt), Nat.add_sub_cancel]
    have hw : Word data i (UInt16.ofNat (0xC000 + p)) := by
      refine ⟨_, _, h, ?_⟩
      rw [UInt16.toNat_ofNat', UInt8.toNat_ofNat', UInt8.toNat_ofNat']
      omega
    rw [pop16_of hw]
    simp only
    have : (UInt16.ofNat (0xC000 + p) - 0xC000).toNat = p := by
      rw [UInt16.toNat_sub_of_le]
      · rw [UInt16.toNat_ofNat']
        simp
        omega
      · rw [UInt16.le_iff_toNat_le, UInt16.toNat_ofNat']
        simp
        omega
    rw [this]
    exact ih name

theorem Labels.expand {data : List UInt8} {i k : Nat} {ls : List (List UInt8)} (h : Labels data i ls k) :
    Expand data i ls k ∧ i < k := by
  induction h with
  | root h => exact ⟨.root h, by omega⟩
  | label h1 h2 h3 _ ih => exact ⟨.label h1 h2 h3 ih.1, by omega⟩

theorem Expand.ne {data : List UInt8} {i e : Nat} {ls : List (List UInt8)} (h : Expand data i ls e) : ∀ l ∈ ls, l ≠ [] := by
  induction h with
  | root => simp
  | label h1 _ _ _ ih =>
    intro x hx
    rcases List.mem_cons.1 hx with rfl | hx
    · exact h1
    · exact ih x hx
  | jump _ _ ih => exact ih

theorem popName_of {data : List UInt8} {i k : Nat} {ls : List (List UInt8)} (h : NameAt data i ls k) :
    popName data i = some (.ok (dots ls, k)) := by
  unfold popName
  cases h with
  | inline h =>
    rw [nameLoop_expand h.expand.1, joinTo_nil h.expand.1.ne]
    have := h.expand.2
    simp only [if_neg (show ¬ k ≤ i by omega)]
  | pointer hp h he =>
    rw [nameLoop_expand (.jump hp h), joinTo_nil h.ne]
    simp only [if_pos he]

theorem queryRest_of {data : List UInt8} {k : Nat} {t c : UInt16} (name : List UInt8) (ht : Word data k t)
    (hc : Word data (k + 2) c) : queryRest data name k = .ok (⟨name, t, c⟩, k + 4) := by
  unfold queryRest
  rw [pop16_of ht]
  simp only [bind, Except.bind]
  rw [pop16_of hc]

theorem answerRest_of {data : List UInt8} {k : Nat} {t c a b n : UInt16} {d : List UInt8} (name : List UInt8)
    (ht : Word data k t) (hc : Word data (k + 2) c) (ha : Word data (k + 4) a) (hb : Word data (k + 6) b)
    (hl : Word data (k + 8) n) (hd : d.length = n.toNat) (hs : Sub data (k + 10) d) :
    answerRest data name k = .ok (⟨name, t, c, a, b, d⟩, k + 10 + d.length) := by
  unfold answerRest popData
  rw [pop16_of ht]
  simp only [bind, Except.bind]
  rw [pop16_of hc]
  simp only [Nat.add_assoc, Nat.reduceAdd]
  rw [pop16_of ha]
  simp only [Nat.add_assoc, Nat.reduceAdd]
  rw [pop16_of hb]
  simp only [Nat.add_assoc, Nat.reduceAdd]
  rw [pop16_of hl]
  simp only [Nat.add_assoc, Nat.reduceAdd]
  rw [← hd, popN_of hs]
  simp only [Nat.add_assoc]

theorem queries_of {data : List UInt8} {i e : Nat} {qs : List Query} (h : Queries data i qs e) :
    records data queryRest qs.length i = some (.ok (qs, e)) := by
  induction h with
  | nil i => rfl
  | cons hn ht hc _ ih =>
    rw [List.length_cons, records, popName_of hn]
    simp only
    rw [queryRest_of _ ht hc]
    simp only [ih]

theorem answers_of {data : List UInt8} {i e : Nat} {as : List Answer} (h : Answers data i as e) :
    records data answerRest as.length i = some (.ok (as, e)) := by
  induction h with
  | nil i => rfl
  | cons hn ht hc ha hb hl hd hs _ ih =>
    rw [List.length_cons, records, popName_of hn]
    simp only
    rw [answerRest_of _ ht hc ha hb hl hd hs]
    simp only [ih]

/-! ## C47 -/

/-- C47: bytes that are a message in the format of the RFC are parsed as that message, names being given by their labels or
by a pointer to what stands before. Missing: labels followed by a pointer (`C47_suffix_violation`). -/
theorem C47_parse_partial {data : List UInt8} {d : Dns} (h : Message data d) : parse data = some (.ok d) := by
  obtain ⟨nq, q1, q2⟩ := h.nq
  obtain ⟨na, a1, a2⟩ := h.na
  obtain ⟨k, e, b1, b2⟩ := h.body
  have hw : ∀ i, i + 2 ≤ 12 → ∃ v, Word data i v := by
    intro i hi
    have hlen := h.len
    refine ⟨UInt16.ofNat (data[i].toNat * 256 + data[i + 1].toNat), data[i], data[i + 1], ⟨data.drop (i + 2), ?_⟩, ?_⟩
    · rw [List.drop_eq_getElem_cons (by omega), List.drop_eq_getElem_cons (by omega)]
      rfl
    · rw [UInt16.toNat_ofNat']
      have := data[i].toNat_lt
      have := data[i + 1].toNat_lt
      omega
  obtain ⟨v8, w8⟩ := hw 8 (by omega)
  obtain ⟨v10, w10⟩ := hw 10 (by omega)
  unfold parse header
  rw [pop16_of h.id]
  simp only [bind, Except.bind, Nat.zero_add]
  rw [pop16_of h.flags]
  simp only [Nat.reduceAdd]
  rw [pop16_of q1]
  simp only [Nat.reduceAdd]
  rw [pop16_of a1]
  simp only [Nat.reduceAdd]
  rw [pop16_of w8]
  simp only [Nat.reduceAdd]
  rw [pop16_of w10]
  simp only [Nat.reduceAdd]
  rw [q2, queries_of b1]
  simp only
  rw [a2, answers_of b2]

/-! ## Compiling -/

theorem sub_append (pre l post : List UInt8) : Sub (pre ++ (l ++ post)) pre.length l := ⟨post, by simp⟩

theorem word_append (pre : List UInt8) (v : UInt16) (post : List UInt8) :
    Word (pre ++ (be16Bytes v ++ post)) pre.length v := by
  refine ⟨_, _, sub_append pre (be16Bytes v) post, ?_⟩
  rw [UInt8.toNat_ofNat', UInt8.toNat_ofNat']
  have := v.toNat_lt
  omega

theorem labels_append {ls : List (List UInt8)} (h : ∀ l ∈ ls, l ≠ [] ∧ l.length ≤ 63) (pre post : List UInt8) :
    Labels (pre ++ (ls.flatMap (fun l => UInt8.ofNat l.length :: l) ++ [0] ++ post)) pre.length ls
      (pre ++ (ls.flatMap (fun l : List UInt8 => UInt8.ofNat l.length :: l) ++ [0])).length := by
  induction ls generalizing pre with
  | nil =>
    have := Labels.root (sub_append pre [0] post)
    simpa using this
  | cons l ls ih =>
    obtain ⟨h1, h2⟩ := h l (by simp)
    have hs := sub_append pre (UInt8.ofNat l.length :: l) (ls.flatMap (fun l => UInt8.ofNat l.length :: l) ++ [0] ++ post)
    have hr := ih (fun x hx => h x (by simp [hx])) (pre ++ (UInt8.ofNat l.length :: l))
    rw [show (pre ++ (UInt8.ofNat l.length :: l : List UInt8)).length = pre.length + 1 + l.length by simp; omega] at hr
    have := Labels.label (ls := ls) h1 h2 (i := pre.length) (by simpa using hs) (by simpa using hr)
    simpa using this

theorem compileName_dots {ls : List (List UInt8)} (hne : ls ≠ []) (h : ∀ l ∈ ls, 0x2E ∉ l) :
    compileName (dots ls) = ls.flatMap (fun l => UInt8.ofNat l.length :: l) ++ [0] := by
  unfold compileName dots
  rw [Net.split_intercalate hne h]

theorem queries_append {qs : List Query} (h : ∀ q ∈ qs, q.Good) (pre : List UInt8) :
    ∃ e, Queries (pre ++ qs.flatMap fun q => compileName q.name ++ be16Bytes q.qtype ++ be16Bytes q.qclass) pre.length qs e := by
  induction qs generalizing pre with
  | nil => exact ⟨_, .nil _⟩
  | cons q qs ih =>
    obtain ⟨name, t, c⟩ := q
    obtain ⟨ls, hn, hne, hls⟩ := h _ (by simp : (⟨name, t, c⟩ : Query) ∈ (⟨name, t, c⟩ : Query) :: qs)
    simp only at hn
    subst hn
    obtain ⟨e, he⟩ := ih (fun x hx => h x (by simp [hx])) (pre ++ (compileName (dots ls) ++ be16Bytes t ++ be16Bytes c))
    have hl := labels_append (fun l hl => ⟨(hls l hl).1, (hls l hl).2.1⟩) pre
      (be16Bytes t ++ (be16Bytes c ++ qs.flatMap fun q => compileName q.name ++ be16Bytes q.qtype ++ be16Bytes q.qclass))
    rw [← compileName_dots hne (fun l hl => (hls l hl).2.2.1)] at hl
    have ht := word_append (pre ++ compileName (dots ls)) t
      (be16Bytes c ++ qs.flatMap fun q => compileName q.name ++ be16Bytes q.qtype ++ be16Bytes q.qclass)
    have hc := word_append (pre ++ compileName (dots ls) ++ be16Bytes t) c
      (qs.flatMap fun q => compileName q.name ++ be16Bytes q.qtype ++ be16Bytes q.qclass)
    rw [show (pre ++ compileName (dots ls) ++ be16Bytes t).length = (pre ++ compileName (dots ls)).length + 2 by
      simp [be16Bytes, Nat.add_assoc]] at hc
    rw [show (pre ++ (compileName (dots ls) ++ be16Bytes t ++ be16Bytes c)).length = (pre ++ compileName (dots ls)).length + 4 by
      simp [be16Bytes, Nat.add_assoc]] at he
    refine ⟨e, ?_⟩
    rw [List.flatMap_cons]
    simp only [List.append_assoc] at hl ht hc he ⊢
    exact .cons (.inline hl) ht hc he

/-- C47: a message without answers is compiled to the format of the RFC. Missing: answers (`C47_answers_violation`), the root
name (`C47_root_violation`). -/
theorem C47_compile_partial {d : Dns} (hq : ∀ q ∈ d.queries, q.Good) (hn : d.queries.length < 65536) (ha : d.answers = []) :
    Message (compile d) d := by
  obtain ⟨e, he⟩ := queries_append hq (be16Bytes d.id ++ be16Bytes d.flags ++ be16Bytes (UInt16.ofNat d.queries.length) ++
    be16Bytes (UInt16.ofNat d.answers.length) ++ be16Bytes 0 ++ be16Bytes 0)
  refine ⟨?_, ?_, ?_, ⟨UInt16.ofNat d.queries.length, ?_, ?_⟩, ⟨UInt16.ofNat d.answers.length, ?_, ?_⟩, ⟨e, e, he, ?_⟩⟩
  · simp [compile, be16Bytes]
  · have := word_append [] d.id (compile d |>.drop 2)
    simpa [compile, be16Bytes] using this
  · have := word_append (be16Bytes d.id) d.flags (compile d |>.drop 4)
    simpa [compile, be16Bytes] using this
  · have := word_append (be16Bytes d.id ++ be16Bytes d.flags) (UInt16.ofNat d.queries.length) (compile d |>.drop 6)
    simpa [compile, be16Bytes] using this
  · rw [UInt16.toNat_ofNat']
    omega
  · have := word_append (be16Bytes d.id ++ be16Bytes d.flags ++ be16Bytes (UInt16.ofNat d.queries.length))
      (UInt16.ofNat d.answers.length) (compile d |>.drop 8)
    simpa [compile, be16Bytes] using this
  · rw [ha]
    rfl
  · rw [ha]
    exact .nil e

/-- C47: what `compile` makes of a message without answers, `parse` reads back. -/
theorem C47_roundtrip_partial {d : Dns} (hq : ∀ q ∈ d.queries, q.Good) (hn : d.queries.length < 65536) (ha : d.answers = []) :
    parse (compile d) = some (.ok d) :=
  C47_parse_partial (C47_compile_partial hq hn ha)

/-! ## Any bytes -/

theorem pop8_safe (data : List UInt8) (i : Nat) :
    pop8 data i = .error .err ∨ ∃ b, pop8 data i = .ok (b, i + 1) ∧ data[i]? = some b := by
  unfold pop8
  split
  · exact .inl rfl
  · rename_i h
    rw [List.getElem?_eq_getElem (by omega)]
    exact .inr ⟨_, rfl, rfl⟩

theorem pop16_safe (data : List UInt8) (i : Nat) :
    pop16 data i = .error .err ∨ ∃ v, pop16 data i = .ok (v, i + 2) := by
  unfold pop16
  split
  · exact .inl rfl
  · rename_i h
    rw [List.getElem?_eq_getElem (by omega), List.getElem?_eq_getElem (by omega)]
    exact .inr ⟨_, rfl⟩

theorem popN_safe (data : List UInt8) (n i : Nat) :
    popN data n i = .error .err ∨ ∃ l, popN data n i = .ok (l, i + n) := by
  induction n generalizing i with
  | zero => exact .inr ⟨[], rfl⟩
  | succ n ih =>
    rw [popN]
    rcases pop8_safe data i with e | ⟨b, e, _⟩
    · exact .inl (by rw [e]; rfl)
    · rw [e]
      simp only [bind, Except.bind]
      rcases ih (i + 1) with e | ⟨l, e⟩
      · exact .inl (by rw [e])
      · exact .inr ⟨b :: l, by rw [e]; simp only; congr 2; omega⟩

theorem nameStep_safe (data name : List UInt8) (i : Nat) :
    nameStep data name i = .error .err ∨ ∃ n j m, nameStep data name i = .ok (n, j, m) ∧
      ∃ b, data[i]? = some b ∧ (¬ b &&& 0xC0 = 0xC0 → i < j) := by
  unfold nameStep
  rcases pop8_safe data i with e | ⟨b, e, hb⟩
  · exact .inl (by rw [e]; rfl)
  rw [e]
  simp only [bind, Except.bind]
  split
  · rename_i h
    rcases pop16_safe data (i + 1 - 1) with e | ⟨v, e⟩
    · exact .inl (by rw [e])
    · exact .inr ⟨_, _, _, by rw [e], b, hb, fun hn => absurd h hn⟩
  · split
    · exact .inr ⟨_, _, _, rfl, b, hb, fun _ => by omega⟩
    · rcases popN_safe data b.toNat (i + 1) with e | ⟨l, e⟩
      · exact .inl (by rw [e])
      · exact .inr ⟨_, _, _, by rw [e], b, hb, fun _ => by omega⟩

theorem nameLoop_safe (data : List UInt8) : ∀ (name : List UInt8) (i : Nat) (r : Except Fail (List UInt8 × Nat)),
    nameLoop data name i = some r → r ≠ .error .panic := by
  apply nameLoop.partial_correctness data (motive := fun _ _ r => r ≠ .error .panic)
  intro f ih name i r e
  rcases nameStep_safe data name i with h | ⟨n, j, m, h, _⟩
  · rw [h] at e
    simp only [Option.some.injEq] at e
    subst e
    simp
  · rw [h] at e
    cases m with
    | true => exact ih n j r e
    | false =>
      simp only [Option.some.injEq] at e
      subst e
      simp

theorem popName_safe (data : List UInt8) (i : Nat) : popName data i ≠ some (.error .panic) := by
  unfold popName
  cases h : nameLoop data [] i with
  | none => simp
  | some r =>
    have := nameLoop_safe data [] i r h
    cases r with
    | error e => simpa using this
    | ok x => simp

theorem queryRest_safe (data name : List UInt8) (i : Nat) :
    queryRest data name i = .error .err ∨ ∃ r, queryRest data name i = .ok (r, i + 4) := by
  unfold queryRest
  rcases pop16_safe data i with e | ⟨t, e⟩
  · exact .inl (by rw [e]; rfl)
  rw [e]
  simp only [bind, Except.bind]
  rcases pop16_safe data (i + 2) with e | ⟨c, e⟩
  · exact .inl (by rw [e])
  rw [e]
  exact .inr ⟨_, rfl⟩

theorem answerRest_safe (data name : List UInt8) (i : Nat) :
    answerRest data name i = .error .err ∨ ∃ r j, answerRest data name i = .ok (r, j) ∧ i ≤ j := by
  unfold answerRest popData
  rcases pop16_safe data i with e | ⟨t, e⟩
  · exact .inl (by rw [e]; rfl)
  rw [e]
  simp only [bind, Except.bind]
  rcases pop16_safe data (i + 2) with e | ⟨c, e⟩
  · exact .inl (by rw [e])
  rw [e]
  simp only
  rcases pop16_safe data (i + 2 + 2) with e | ⟨c, e⟩
  · exact .inl (by rw [e])
  rw [e]
  simp only
  rcases pop16_safe data (i + 2 + 2 + 2) with e | ⟨c, e⟩
  · exact .inl (by rw [e])
  rw [e]
  simp only
  rcases pop16_safe data (i + 2 + 2 + 2 + 2) with e | ⟨c, e⟩
  · exact .inl (by rw [e])
  rw [e]
  simp only
  rcases popN_safe data c.toNat (i + 2 + 2 + 2 + 2 + 2) with e | ⟨l, e⟩
  · exact .inl (by rw [e])
  rw [e]
  exact .inr ⟨_, _, rfl, by omega⟩

theorem records_safe {α : Type} {data : List UInt8} {rest : List UInt8 → List UInt8 → Nat → Except Fail (α × Nat)}
    (hr : ∀ name i, rest data name i = .error .err ∨ ∃ r j, rest data name i = .ok (r, j) ∧ i ≤ j) (n i : Nat) :
    records data rest n i ≠ some (.error .panic) := by
  induction n generalizing i with
  | zero => simp [records]
  | succ n ih =>
    rw [records]
    have hp := popName_safe data i
    generalize popName data i = x at hp
    rcases x with _ | (e | ⟨name, j⟩)
    · simp
    · simpa using hp
    · simp only
      rcases hr name j with e | ⟨r, k, e, _⟩
      · rw [e]
        simp
      · rw [e]
        simp only
        have := ih k
        generalize records data rest n k = y at this
        rcases y with _ | (e | ⟨l, j⟩)
        · simp
        · simpa using this
        · simp

theorem header_safe (data : List UInt8) :
    header data = .error .err ∨ ∃ a b c d, header data = .ok (a, b, c, d, 12) := by
  unfold header
  rcases pop16_safe data 0 with e | ⟨a, e⟩
  · exact .inl (by rw [e]; rfl)
  rw [e]
  simp only [bind, Except.bind, Nat.zero_add]
  rcases pop16_safe data 2 with e | ⟨b, e⟩
  · exact .inl (by rw [e])
  rw [e]
  simp only [Nat.reduceAdd]
  rcases pop16_safe data 4 with e | ⟨c, e⟩
  · exact .inl (by rw [e])
  rw [e]
  simp only [Nat.reduceAdd]
  rcases pop16_safe data 6 with e | ⟨d, e⟩
  · exact .inl (by rw [e])
  rw [e]
  simp only [Nat.reduceAdd]
  rcases pop16_safe data 8 with e | ⟨v, e⟩
  · exact .inl (by rw [e])
  rw [e]
  simp only [Nat.reduceAdd]
  rcases pop16_safe data 10 with e | ⟨w, e⟩
  · exact .inl (by rw [e])
  rw [e]
  exact .inr ⟨_, _, _, _, rfl⟩

theorem queryRest_safe' (data name : List UInt8) (i : Nat) :
    queryRest data name i = .error .err ∨ ∃ r j, queryRest data name i = .ok (r, j) ∧ i ≤ j := by
  rcases queryRest_safe data name i with e | ⟨r, e⟩
  · exact .inl e
  · exact .inr ⟨r, _, e, by omega⟩

/-- C47: no answer of a server makes `parse` read outside the packet or panic. -/
theorem C47_no_panic (data : List UInt8) : parse data ≠ some (.error .panic) := by
  unfold parse
  rcases header_safe data with e | ⟨a, b, c, d, e⟩
  · rw [e]
    simp
  rw [e]
  simp only
  have h1 := records_safe (queryRest_safe' data) c.toNat 12
  generalize records data queryRest c.toNat 12 = x at h1
  rcases x with _ | (e | ⟨qs, j⟩)
  · simp
  · simpa using h1
  · simp only
    have h2 := records_safe (answerRest_safe data) d.toNat j
    generalize records data answerRest d.toNat j = y at h2
    rcases y with _ | (e | ⟨as, k⟩)
    · simp
    · simpa using h2
    · simp

theorem small_byte {b : UInt8} (h : b < 0xC0) : ¬ b &&& 0xC0 = 0xC0 := by
  intro e
  have h1 : b.toNat &&& 0xC0 = 0xC0 := by
    have := congrArg UInt8.toNat e
    simpa using this
  have h2 : b.toNat &&& 0xC0 ≤ b.toNat := Nat.and_le_left
  have h3 := UInt8.lt_iff_toNat_lt.1 h
  simp at h3
  omega

theorem nameLoop_ends {data : List UInt8} (h : ∀ i, 12 ≤ i → ∀ b, data[i]? = some b → b < 0xC0) :
    ∀ (n i : Nat) (name : List UInt8), data.length - i ≤ n → 12 ≤ i →
      ∃ r, nameLoop data name i = some r ∧ ∀ x, r = .ok x → i < x.2 := by
  intro n
  induction n with
  | zero =>
    intro i name hl hi
    rw [nameLoop]
    rcases nameStep_safe data name i with e | ⟨m, j, c, e, b, hb, _⟩
    · rw [e]
      exact ⟨_, rfl, by simp⟩
    · have := (List.getElem?_eq_some_iff.1 hb).1
      omega
  | succ n ih =>
    intro i name hl hi
    rw [nameLoop]
    rcases nameStep_safe data name i with e | ⟨m, j, c, e, b, hb, hj⟩
    · rw [e]
      exact ⟨_, rfl, by simp⟩
    · have hlt := hj (small_byte (h i hi b hb))
      rw [e]
      cases c with
      | false => exact ⟨_, rfl, by rintro _ ⟨⟩; exact hlt⟩
      | true =>
        obtain ⟨r, e1, e2⟩ := ih j m (by omega) (by omega)
        exact ⟨r, e1, fun x hx => Nat.lt_trans hlt (e2 x hx)⟩

theorem records_ends {α : Type} {data : List UInt8} {rest : List UInt8 → List UInt8 → Nat → Except Fail (α × Nat)}
    (h : ∀ i, 12 ≤ i → ∀ b, data[i]? = some b → b < 0xC0)
    (hr : ∀ name i, rest data name i = .error .err ∨ ∃ r j, rest data name i = .ok (r, j) ∧ i ≤ j) (n i : Nat) (hi : 12 ≤ i) :
    ∃ r, records data rest n i = some r ∧ ∀ x, r = .ok x → i ≤ x.2 := by
  induction n generalizing i with
  | zero => exact ⟨_, rfl, by rintro _ ⟨⟩; exact Nat.le_refl _⟩
  | succ n ih =>
    rw [records]
    obtain ⟨r, e1, e2⟩ := nameLoop_ends h _ i [] (Nat.le_refl _) hi
    unfold popName
    rw [e1]
    rcases r with e | ⟨name, j⟩
    · exact ⟨_, rfl, by simp⟩
    have hj := e2 _ rfl
    simp only at hj
    simp only [if_neg (Nat.not_le.2 hj)]
    rcases hr name j with e | ⟨r, k, e, hk⟩
    · rw [e]
      exact ⟨_, rfl, by simp⟩
    rw [e]
    simp only
    obtain ⟨r, e3, e4⟩ := ih k (by omega)
    rw [e3]
    rcases r with e | ⟨l, m⟩
    · exact ⟨_, rfl, by simp⟩
    · have := e4 _ rfl
      exact ⟨_, rfl, by rintro _ ⟨⟩; simp only at this ⊢; omega⟩

/-- C47: `parse` ends on any packet without pointer bytes behind the header. It does not end on all packets, see
`C47_loop_violation`. -/
theorem C47_terminates_partial {data : List UInt8} (h : ∀ b ∈ data.drop 12, b < 0xC0) : parse data ≠ none := by
  have hb : ∀ i, 12 ≤ i → ∀ b, data[i]? = some b → b < 0xC0 := by
    intro i hi b hb
    refine h b (List.mem_iff_getElem?.2 ⟨i - 12, ?_⟩)
    rw [List.getElem?_drop, ← hb]
    congr 1
    omega
  unfold parse
  rcases header_safe data with e | ⟨a, b, c, d, e⟩
  · rw [e]
    simp
  rw [e]
  simp only
  obtain ⟨r, e1, e2⟩ := records_ends hb (queryRest_safe' data) c.toNat 12 (Nat.le_refl _)
  rw [e1]
  rcases r with e | ⟨qs, j⟩
  · simp
  have := e2 _ rfl
  obtain ⟨r, e1, _⟩ := records_ends hb (answerRest_safe data) d.toNat j this
  simp only
  rw [e1]
  rcases r with e | ⟨as, k⟩ <;> simp

/-! ## What is wrong -/

/-- A packet with one query, whose name is a pointer to itself. -/
def selfPointer : List UInt8 := [0, 0, 0x80, 0, 0, 1, 0, 0, 0, 0, 0, 0, 0xC0, 0x0C]

/-- C47 fails for a pointer to itself: `parse` does not end. -/
theorem C47_loop_violation : parse selfPointer = none := by
  have hdiv : ∀ (name : List UInt8) (i : Nat) (x : Except Fail (List UInt8 × Nat)), nameLoop selfPointer name i = some x →
      ¬ (name = [] ∧ i = 12) := by
    apply nameLoop.partial_correctness selfPointer (motive := fun name i _ => ¬ (name = [] ∧ i = 12))
    rintro f ih name i x e ⟨rfl, rfl⟩
    exact ih [] 12 x e ⟨rfl, rfl⟩
  have hn : nameLoop selfPointer [] 12 = none := by
    cases h : nameLoop selfPointer [] 12 with
    | none => rfl
    | some x => exact absurd ⟨rfl, rfl⟩ (hdiv _ _ _ h)
  have hh : header selfPointer = .ok (0, 0x8000, 1, 0, 12) := rfl
  unfold parse
  rw [hh]
  simp only [UInt16.reduceToNat]
  rw [show records selfPointer queryRest 1 12 = none by rw [records, popName, hn]]

/-- The answer to a query for "a", which names "b.a" by a label and a pointer, as servers do; the type is 1 (an address), the
class 1, the time to live 0, and the address 1.2.3.4. -/
def suffixPointer : List UInt8 :=
  [0, 0, 0x80, 0, 0, 1, 0, 1, 0, 0, 0, 0, 1, 0x61, 0, 0, 1, 0, 1,
   1, 0x62, 0xC0, 0x0C, 0, 1, 0, 1, 0, 0, 0, 0, 0, 4, 1, 2, 3, 4]

/-- C47 fails for a name of labels followed by a pointer: the name at 19 ends at 23, but the parser goes on at 21, so that it
reads the pointer as the type of the answer. -/
theorem C47_suffix_violation :
    Expand suffixPointer 19 [[0x62], [0x61]] 15 ∧ Pointer suffixPointer 21 12 ∧
      parse suffixPointer = some (.ok ⟨0, 0x8000, [⟨[0x61], 1, 1⟩], [⟨[0x62, 0x2E, 0x61], 0xC00C, 1, 1, 0, []⟩]⟩) := by
  have h1 : Expand suffixPointer 12 [[0x61]] 15 :=
    .label (by simp) (by simp) ⟨suffixPointer.drop 14, rfl⟩ (.root ⟨suffixPointer.drop 15, rfl⟩)
  have hp : Pointer suffixPointer 21 12 := ⟨by omega, suffixPointer.drop 23, rfl⟩
  have h2 : Expand suffixPointer 19 [[0x62], [0x61]] 15 :=
    .label (by simp) (by simp) ⟨suffixPointer.drop 21, rfl⟩ (.jump hp h1)
  refine ⟨h2, hp, ?_⟩
  have n1 : popName suffixPointer 12 = some (.ok ([0x61], 15)) := by
    unfold popName
    rw [nameLoop_expand h1]
    rfl
  have n2 : popName suffixPointer 19 = some (.ok ([0x62, 0x2E, 0x61], 21)) := by
    unfold popName
    rw [nameLoop_expand h2]
    rfl
  have hh : header suffixPointer = .ok (0, 0x8000, 1, 1, 12) := rfl
  have q : records suffixPointer queryRest 1 12 = some (.ok ([⟨[0x61], 1, 1⟩], 19)) := by
    rw [records, n1]
    rfl
  have a : records suffixPointer answerRest 1 19 = some (.ok ([⟨[0x62, 0x2E, 0x61], 0xC00C, 1, 1, 0, []⟩], 31)) := by
    rw [records, n2]
    rfl
  unfold parse
  rw [hh]
  simp only [UInt16.reduceToNat]
  rw [q]
  simp only
  rw [a]

/-- C47 fails for the root name: two zero bytes are sent, so that the server reads the type 0 and the class 0x100 for an
address query (type 1, class 1). -/
theorem C47_root_violation :
    compile ⟨0, 0, [⟨[], 1, 1⟩], []⟩ = [0, 0, 0, 0, 0, 1, 0, 0, 0, 0, 0, 0, 0, 0, 0, 1, 0, 1] ∧
      Queries (compile ⟨0, 0, [⟨[], 1, 1⟩], []⟩) 12 [⟨[], 0, 0x100⟩] 17 := by
  refine ⟨by decide, ?_⟩
  exact .cons (ls := []) (k := 13) (.inline (.root ⟨_, rfl⟩)) ⟨0, 0, ⟨_, rfl⟩, rfl⟩ ⟨1, 0, ⟨_, rfl⟩, rfl⟩ (.nil _)

/-- C47 fails for messages with answers: they are counted in the header, but not sent. -/
theorem C47_answers_violation (a : Answer) : compile ⟨0, 0, [], [a]⟩ = [0, 0, 0, 0, 0, 0, 0, 1, 0, 0, 0, 0] := by
  simp [compile, be16Bytes]

/-! ## Examples -/

/-- A query for the address of "a.bc". -/
example : parse (compile ⟨7, 0x100, [⟨[0x61, 0x2E, 0x62, 0x63], 1, 1⟩], []⟩) =
    some (.ok ⟨7, 0x100, [⟨[0x61, 0x2E, 0x62, 0x63], 1, 1⟩], []⟩) := by
  refine C47_roundtrip_partial ?_ (by decide) rfl
  intro q hq
  rw [List.mem_singleton] at hq
  subst hq
  exact ⟨[[0x61], [0x62, 0x63]], rfl, by simp, by simp⟩

example : compile ⟨7, 0x100, [⟨[0x61, 0x2E, 0x62, 0x63], 1, 1⟩], []⟩ =
    [0, 7, 1, 0, 0, 1, 0, 0, 0, 0, 0, 0, 1, 0x61, 2, 0x62, 0x63, 0, 0, 1, 0, 1] := by decide

/-- The answer to a query for "a", which names it by a pointer. -/
def reply : List UInt8 :=
  [0, 0, 0x80, 0, 0, 1, 0, 1, 0, 0, 0, 0, 1, 0x61, 0, 0, 1, 0, 1, 0xC0, 0x0C, 0, 1, 0, 1, 0, 0, 0, 0, 0, 4, 1, 2, 3, 4]

example : parse reply = some (.ok ⟨0, 0x8000, [⟨[0x61], 1, 1⟩], [⟨[0x61], 1, 1, 0, 0, [1, 2, 3, 4]⟩]⟩) := by
  have h1 : Labels reply 12 [[0x61]] 15 := .label (by simp) (by simp) ⟨reply.drop 14, rfl⟩ (.root ⟨reply.drop 15, rfl⟩)
  refine C47_parse_partial ⟨by decide, ⟨0, 0, ⟨_, rfl⟩, rfl⟩, ⟨0x80, 0, ⟨_, rfl⟩, rfl⟩, ⟨1, ⟨0, 1, ⟨_, rfl⟩, rfl⟩, rfl⟩,
    ⟨1, ⟨0, 1, ⟨_, rfl⟩, rfl⟩, rfl⟩, 19, 35, ?_, ?_⟩
  · exact .cons (ls := [[0x61]]) (.inline h1) ⟨0, 1, ⟨_, rfl⟩, rfl⟩ ⟨0, 1, ⟨_, rfl⟩, rfl⟩ (.nil _)
  · exact .cons (ls := [[0x61]]) (n := 4) (.pointer ⟨by omega, ⟨_, rfl⟩⟩ h1.expand.1 (by omega)) ⟨0, 1, ⟨_, rfl⟩, rfl⟩ ⟨0, 1, ⟨_, rfl⟩, rfl⟩
      ⟨0, 0, ⟨_, rfl⟩, rfl⟩ ⟨0, 0, ⟨_, rfl⟩, rfl⟩ ⟨0, 4, ⟨_, rfl⟩, rfl⟩ rfl ⟨_, rfl⟩ (.nil _)

end Verif.Dns
