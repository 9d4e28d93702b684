import Verif.Shm.Model
/-!
# System V shared memory (C139)
-/

namespace Verif.Shm

/-! ## Specification -/

/-- What the program should see: the contents of the segments made so far, the segment of each identifier, and the addresses at which segments are attached. -/
structure Abs where
  segs : List (List UInt8)
  ids : Nat → Option Nat
  atts : List (Nat × Nat)

/-- The address is byte `off` of the attached segment `g`. -/
def At (a : Abs) (addr g off : Nat) (bytes : List UInt8) : Prop :=
  ∃ start, (start, g) ∈ a.atts ∧ a.segs[g]? = some bytes ∧ addr = start + off ∧ off < bytes.length

/-- What a correct program does: it uses identifiers it has, and addresses in segments it has attached. -/
def Allowed (a : Abs) : Op → Prop
  | .get _ size _ _ => size + 8 < 2 ^ 63
  | .att id _ => ∃ g, a.ids id = some g
  | .det addr => ∃ g, (addr, g) ∈ a.atts
  | .remove id => ∃ g, a.ids id = some g
  | .segsz id => ∃ g, a.ids id = some g
  | .read addr => ∃ g off bytes, At a addr g off bytes
  | .write addr _ => ∃ g off bytes, At a addr g off bytes

/-- What may be answered, and how things are afterwards. -/
def Spec (a : Abs) (op : Op) (r : Res) (a' : Abs) : Prop := match op with
  | .get _ size _ _ =>
    ((∃ e, r = .err e) ∧ a' = a) ∨
    ∃ id, r = .ok id ∧ a.ids id = none ∧ a' = ⟨a.segs ++ [List.replicate size 0], update a.ids id (some a.segs.length), a.atts⟩
  | .att id _ =>
    ((∃ e, r = .err e) ∧ a' = a) ∨
    ∃ g bytes start, a.ids id = some g ∧ a.segs[g]? = some bytes ∧ r = .ok start ∧ start ≠ 0 ∧
      (∀ s' g' b', (s', g') ∈ a.atts → a.segs[g']? = some b' → start + bytes.length ≤ s' ∨ s' + b'.length ≤ start) ∧
      a' = { a with atts := (start, g) :: a.atts }
  | .det addr => r = .ok 0 ∧ a' = { a with atts := a.atts.filter fun x => x.1 ≠ addr }
  | .remove id => r = .ok 0 ∧ a' = { a with ids := update a.ids id none }
  | .segsz id => ∃ g bytes, a.ids id = some g ∧ a.segs[g]? = some bytes ∧ r = .ok bytes.length ∧ a' = a
  | .read addr => ∃ g off bytes, At a addr g off bytes ∧ r = .ok (bytes.getD off 0).toNat ∧ a' = a
  | .write addr b => ∃ g off bytes, At a addr g off bytes ∧ r = .ok 0 ∧ a' = { a with segs := a.segs.set g (bytes.set off b) }

/-- The states a correct program can get into. -/
inductive Reach (pid : Nat) : K → Abs → Prop where
  | init : Reach pid (K.init pid) ⟨[], fun _ => none, []⟩
  | step {k k' : K} {a a' : Abs} {op : Op} {r : Res} : Reach pid k a → Allowed a op → Shm.step k op = some (r, k') → Spec a op r a' → Reach pid k' a'

/-! ## Bytes -/

theorem de_le (w n : Nat) : de (le w n) = n % 256 ^ w := by
  induction w generalizing n with
  | zero => simp [le, de, Nat.mod_one]
  | succ w ih =>
    rw [le, de, ih, Nat.pow_succ, Nat.mul_comm (256 ^ w) 256, Nat.mod_mul]
    simp

theorem le_length (w n : Nat) : (le w n).length = w := by
  induction w generalizing n with
  | zero => rfl
  | succ w ih => rw [le, List.length_cons, ih]

theorem header_de {n : Nat} (h : n < 2 ^ 63) : de (le 8 n) = n := by
  rw [de_le, Nat.mod_eq_of_lt]
  omega

/-! ## The header -/

/-- Bytes written over a list. -/
def over (d : List UInt8) (i : Nat) : List UInt8 → List UInt8
  | [] => d
  | b :: l => over (d.set i b) (i + 1) l

theorem over_append (l pre d : List UInt8) (h : l.length ≤ d.length) : over (pre ++ d) pre.length l = pre ++ l ++ d.drop l.length := by
  induction l generalizing pre d with
  | nil => simp [over]
  | cons b l ih =>
    cases d with
    | nil => simp at h
    | cons x d =>
      have e : (pre ++ x :: d).set pre.length b = (pre ++ [b]) ++ d := by
        rw [List.set_append_right _ _ (Nat.le_refl _)]
        simp
      have hl : pre.length + 1 = (pre ++ [b]).length := by simp
      rw [over, e, hl, ih]
      · simp
      · simpa using h

theorem storeAll_eq (l : List UInt8) (k : K) (p i o : Nat) (d : List UInt8) (hi : i + l.length ≤ 4096) (hp : k.page p = some (o, 0, true)) (ho : k.objs[o]? = some d) :
    storeAll k (p * 4096 + i) l = some { k with objs := k.objs.set o (over d i l) } := by
  induction l generalizing k i d with
  | nil =>
    rw [storeAll, over]
    have : k.objs.set o d = k.objs := by
      obtain ⟨h1, h2⟩ := List.getElem?_eq_some_iff.1 ho
      rw [← h2]
      exact List.set_getElem_self h1
    rw [this]
  | cons b l ih =>
    rw [List.length_cons] at hi
    have e1 : (p * 4096 + i) / 4096 = p := by omega
    have e2 : (p * 4096 + i) % 4096 = i := by omega
    have hs : store k (p * 4096 + i) b = some { k with objs := k.objs.set o (d.set i b) } := by
      unfold store
      rw [e1, e2, hp]
      dsimp only
      rw [ho]
      dsimp only
      rw [if_pos rfl, Nat.zero_mul, Nat.zero_add]
    have hlt : o < k.objs.length := (List.getElem?_eq_some_iff.1 ho).1
    rw [storeAll, hs]
    dsimp only
    rw [Nat.add_assoc, ih { k with objs := k.objs.set o (d.set i b) } (i + 1) (d.set i b) (by omega) hp (by simp [hlt]), over]
    simp

theorem loadAll_eq (n : Nat) (k : K) (p i o : Nat) (d : List UInt8) (hi : i + n ≤ 4096) (hd : i + n ≤ d.length) (w : Bool) (hp : k.page p = some (o, 0, w))
    (ho : k.objs[o]? = some d) : loadAll k (p * 4096 + i) n = some ((d.drop i).take n) := by
  induction n generalizing i with
  | zero => simp [loadAll]
  | succ n ih =>
    have e1 : (p * 4096 + i) / 4096 = p := by omega
    have e2 : (p * 4096 + i) % 4096 = i := by omega
    have hl : load k (p * 4096 + i) = some (d[i]'(by omega)) := by
      unfold load
      rw [e1, e2, hp]
      dsimp only
      rw [ho]
      dsimp only
      rw [Nat.zero_mul, Nat.zero_add, List.getD_eq_getElem?_getD, List.getElem?_eq_getElem (by omega)]
      rfl
    rw [loadAll, hl]
    dsimp only
    rw [Nat.add_assoc, ih (i + 1) (by omega) (by omega)]
    dsimp only
    rw [List.drop_eq_getElem_cons (i := i) (by omega), List.take_succ_cons]

/-! ## The invariant -/

/-- An attachment: whole pages, of which the first begins with the header. -/
structure Attached (k : K) (a : Abs) (start g : Nat) (p n : Nat) : Prop where
  pos : p ≠ 0
  start : start = p * 4096 + 8
  seg : ∃ bytes, a.segs[g]? = some bytes ∧ n = pages (bytes.length + 8)
  page : ∀ j < n, k.page (p + j) = some (g, j, true)

/-- The kernel's state is what the program should see. -/
structure Good (k : K) (a : Abs) : Prop where
  names : k.names = []
  ids : k.fds = a.ids
  len : k.objs.length = a.segs.length
  id : ∀ id g, a.ids id = some g → g < a.segs.length
  seg : ∀ (g : Nat) (bytes : List UInt8), a.segs[g]? = some bytes → bytes.length + 8 < 2 ^ 63 ∧
    ∃ hdr : List UInt8, k.objs[g]? = some (hdr ++ bytes) ∧ hdr.length = 8 ∧ ∀ start, (start, g) ∈ a.atts → hdr = le 8 (bytes.length + 8)
  att : ∀ start g, (start, g) ∈ a.atts → ∃ p n, Attached k a start g p n

theorem pages_pos (n : Nat) : 0 < pages (n + 8) := by unfold pages; omega

theorem pages_le {n i : Nat} (h : i < n) : i / 4096 < pages n := by unfold pages; omega

theorem set_seg {segs : List (List UInt8)} {g : Nat} {b : List UInt8} (h : segs[g]? = some b) : g < segs.length := (List.getElem?_eq_some_iff.1 h).1

/-- Where the byte of an attached segment is. -/
theorem at_place {k : K} {a : Abs} (hg : Good k a) {addr g off : Nat} {bytes : List UInt8} (h : At a addr g off bytes) :
    ∃ j hdr, k.page (addr / 4096) = some (g, j, true) ∧ j * 4096 + addr % 4096 = off + 8 ∧ k.objs[g]? = some (hdr ++ bytes) ∧ hdr.length = 8 := by
  obtain ⟨start, hm, hs, he, ho⟩ := h
  obtain ⟨p, n, hp⟩ := hg.att _ _ hm
  obtain ⟨b', hb', hn⟩ := hp.seg
  rw [hs] at hb'
  cases hb'
  obtain ⟨_, hdr, h1, h2, _⟩ := hg.seg _ _ hs
  have hst := hp.start
  have hj : (8 + off) / 4096 < n := by
    rw [hn]
    exact pages_le (by omega)
  have e1 : addr / 4096 = p + (8 + off) / 4096 := by omega
  refine ⟨(8 + off) / 4096, hdr, ?_, by omega, h1, h2⟩
  rw [e1]
  exact hp.page _ hj

theorem at_unique {k : K} {a : Abs} (hg : Good k a) {addr g off g' off' : Nat} {bytes bytes' : List UInt8} (h : At a addr g off bytes) (h' : At a addr g' off' bytes') :
    g = g' ∧ off = off' ∧ bytes = bytes' := by
  obtain ⟨j, hdr, h1, h2, _⟩ := at_place hg h
  obtain ⟨j', hdr', h1', h2', _⟩ := at_place hg h'
  rw [h1] at h1'
  simp only [Option.some.injEq, Prod.mk.injEq, and_true] at h1'
  obtain ⟨rfl, rfl⟩ := h1'
  obtain ⟨_, _, hs, _⟩ := h
  obtain ⟨_, _, hs', _⟩ := h'
  rw [hs] at hs'
  cases hs'
  exact ⟨rfl, by omega, rfl⟩

/-- The answer determines how things are afterwards. -/
theorem spec_unique {k : K} {a : Abs} (hg : Good k a) {op : Op} {r : Res} {a1 a2 : Abs} (h1 : Spec a op r a1) (h2 : Spec a op r a2) : a1 = a2 := by
  cases op with
  | get key size flags fd =>
    rcases h1 with ⟨⟨e, h1⟩, h1'⟩ | ⟨i, h1, _, h1'⟩ <;> rcases h2 with ⟨⟨e', h2⟩, h2'⟩ | ⟨i', h2, _, h2'⟩
    · rw [h1', h2']
    · rw [h1] at h2; cases h2
    · rw [h1] at h2; cases h2
    · rw [h1] at h2
      cases h2
      rw [h1', h2']
  | att id place =>
    rcases h1 with ⟨⟨e, h1⟩, h1'⟩ | ⟨g, b, s, hi, _, h1, _, _, h1'⟩ <;> rcases h2 with ⟨⟨e', h2⟩, h2'⟩ | ⟨g', b', s', hi', _, h2, _, _, h2'⟩
    · rw [h1', h2']
    · rw [h1] at h2; cases h2
    · rw [h1] at h2; cases h2
    · rw [h1] at h2
      cases h2
      rw [hi] at hi'
      cases hi'
      rw [h1', h2']
  | det addr => rw [h1.2, h2.2]
  | remove id => rw [h1.2, h2.2]
  | segsz id =>
    obtain ⟨_, _, _, _, _, h1⟩ := h1
    obtain ⟨_, _, _, _, _, h2⟩ := h2
    rw [h1, h2]
  | read addr =>
    obtain ⟨_, _, _, _, _, h1⟩ := h1
    obtain ⟨_, _, _, _, _, h2⟩ := h2
    rw [h1, h2]
  | write addr b =>
    obtain ⟨g, off, bytes, ha, _, h1⟩ := h1
    obtain ⟨g', off', bytes', ha', _, h2⟩ := h2
    obtain ⟨rfl, rfl, rfl⟩ := at_unique hg ha ha'
    rw [h1, h2]

/-! ## The steps -/

theorem lookup_nil (n : Name) : List.lookup n ([] : List (Name × Nat)) = none := rfl

theorem good_get {k : K} {a : Abs} (hg : Good k a) (key : Int32) (size : Nat) (flags : Int32) (fd : Option Nat) (hs : size + 8 < 2 ^ 63) :
    ∃ a', Spec a (.get key size flags fd) (shmget k key size flags fd true).1 a' ∧ Good (shmget k key size flags fd true).2 a' := by
  unfold shmget
  dsimp only
  generalize decide (flags &&& 0o1000 ≠ 0) = creat
  generalize decide (flags &&& 0o2000 ≠ 0) = excl
  generalize nameOf k key = name
  unfold shmOpen
  cases fd with
  | none => exact ⟨a, .inl ⟨⟨24, rfl⟩, rfl⟩, hg⟩
  | some fd =>
    dsimp only
    by_cases hf : (k.fds fd).isSome = true
    · rw [if_pos hf]
      exact ⟨a, .inl ⟨⟨24, rfl⟩, rfl⟩, hg⟩
    · rw [if_neg hf, hg.names, lookup_nil]
      dsimp only
      cases creat with
      | false => exact ⟨a, .inl ⟨⟨2, rfl⟩, rfl⟩, hg⟩
      | true =>
        rw [if_pos rfl]
        dsimp only
        rw [if_pos rfl, if_pos (show size + 8 < 2 ^ 64 by omega)]
        have hft : ftruncate { k with objs := k.objs ++ [[]], names := [(name, k.objs.length)], fds := update k.fds fd (some k.objs.length) } fd (size + 8) true =
            (.ok 0, { k with objs := k.objs ++ [List.replicate (size + 8) 0], names := [(name, k.objs.length)], fds := update k.fds fd (some k.objs.length) }) := by
          unfold ftruncate
          simp [update, hs]
        rw [hft]
        dsimp only [shmUnlink]
        have hnone : a.ids fd = none := by
          rw [← hg.ids]
          simpa using hf
        refine ⟨_, .inr ⟨fd, rfl, hnone, rfl⟩, ?_⟩
        refine ⟨?_, ?_, ?_, ?_, ?_, ?_⟩
        · simp
        · show update k.fds fd (some k.objs.length) = update a.ids fd (some a.segs.length)
          rw [hg.ids, hg.len]
        · simp [hg.len]
        · intro id g h
          dsimp only [update] at h
          rw [List.length_append, List.length_singleton]
          split at h
          · cases h
            omega
          · have := hg.id id g h
            omega
        · intro g bytes h
          dsimp only at h
          by_cases hlt : g < a.segs.length
          · rw [List.getElem?_append_left hlt] at h
            obtain ⟨h0, hdr, h1, h2, h3⟩ := hg.seg g bytes h
            refine ⟨h0, hdr, ?_, h2, h3⟩
            show (k.objs ++ [List.replicate (size + 8) 0])[g]? = _
            rw [List.getElem?_append_left (by rw [hg.len]; exact hlt)]
            exact h1
          · have hge : g = a.segs.length := by
              have := (List.getElem?_eq_some_iff.1 h).1
              rw [List.length_append, List.length_singleton] at this
              omega
            subst hge
            rw [List.getElem?_append_right (Nat.le_refl _)] at h
            simp at h
            subst h
            refine ⟨by rw [List.length_replicate]; exact hs, List.replicate 8 0, ?_, by simp, ?_⟩
            · show (k.objs ++ [List.replicate (size + 8) 0])[a.segs.length]? = _
              rw [List.getElem?_append_right (by rw [hg.len]; exact Nat.le_refl _), hg.len, Nat.sub_self, List.replicate_append_replicate, Nat.add_comm 8]
              rfl
            · intro start hm
              obtain ⟨p, n, hp⟩ := hg.att _ _ hm
              obtain ⟨b, hb, _⟩ := hp.seg
              have := set_seg hb
              omega
        · intro start g hm
          obtain ⟨p, n, hp⟩ := hg.att _ _ hm
          refine ⟨p, n, hp.pos, hp.start, ?_, hp.page⟩
          obtain ⟨b, hb, hn⟩ := hp.seg
          refine ⟨b, ?_, hn⟩
          show (a.segs ++ [List.replicate size 0])[g]? = _
          rw [List.getElem?_append_left (set_seg hb)]
          exact hb

theorem good_att {k : K} {a : Abs} (hg : Good k a) (id : Nat) (place : Option Nat) {g : Nat} (hid : a.ids id = some g) :
    ∃ r k' a', shmat k id 0 place = some (r, k') ∧ Spec a (.att id place) r a' ∧ Good k' a' := by
  have hlt := hg.id id g hid
  obtain ⟨bytes, hb⟩ : ∃ b, a.segs[g]? = some b := ⟨a.segs[g], List.getElem?_eq_getElem hlt⟩
  obtain ⟨hsz, hdr, h1, h2, h3⟩ := hg.seg g bytes hb
  have hlen : (hdr ++ bytes).length = bytes.length + 8 := by
    rw [List.length_append]
    omega
  unfold shmat
  rw [hg.ids, hid]
  dsimp only
  rw [h1]
  dsimp only
  rw [hlen]
  unfold mmap
  rw [if_neg (by omega)]
  cases place with
  | none => exact ⟨_, _, a, rfl, .inl ⟨⟨0, rfl⟩, rfl⟩, hg⟩
  | some p =>
    dsimp only
    by_cases hfree : p ≠ 0 ∧ (∀ j < pages (bytes.length + 8), k.page (p + j) = none)
    · rw [if_pos hfree]
      dsimp only
      obtain ⟨hp0, hfree⟩ := hfree
      have hpp := pages_pos bytes.length
      generalize hn : pages (bytes.length + 8) = n at hfree hpp ⊢
      have hst := storeAll_eq (le 8 (bytes.length + 8))
        { k with page := fun q => if p ≤ q ∧ q < p + n then some (g, q - p, decide ((0 : Int32) &&& 0o10000 = 0)) else k.page q } p 0 g (hdr ++ bytes)
        (by rw [le_length]; omega) (by
          show (if p ≤ p ∧ p < p + n then some (g, p - p, decide ((0 : Int32) &&& 0o10000 = 0)) else k.page p) = _
          rw [if_pos ⟨Nat.le_refl _, by omega⟩, Nat.sub_self]
          rfl) h1
      rw [Nat.add_zero] at hst
      rw [hst]
      have hov : over (hdr ++ bytes) 0 (le 8 (bytes.length + 8)) = le 8 (bytes.length + 8) ++ bytes := by
        have := over_append (le 8 (bytes.length + 8)) [] (hdr ++ bytes) (by rw [le_length]; omega)
        rw [List.nil_append, List.nil_append, List.length_nil, le_length] at this
        rw [this, ← h2, List.drop_left]
      rw [hov]
      have hapart : ∀ s' g' p' n', Attached k a s' g' p' n' → p' + n' ≤ p ∨ p + n ≤ p' := by
        intro s' g' p' n' h
        by_cases hx : p' + n' ≤ p ∨ p + n ≤ p'
        · exact hx
        · exfalso
          obtain ⟨b', _, hn'⟩ := h.seg
          have hpp' := pages_pos b'.length
          rw [← hn'] at hpp'
          by_cases hle : p ≤ p'
          · have e1 := h.page 0 hpp'
            have e2 := hfree (p' - p) (by omega)
            rw [Nat.add_zero] at e1
            rw [show p + (p' - p) = p' by omega, e1] at e2
            cases e2
          · have e1 := h.page (p - p') (by omega)
            have e2 := hfree 0 hpp
            rw [Nat.add_zero] at e2
            rw [show p' + (p - p') = p by omega, e2] at e1
            cases e1
      refine ⟨_, _, { a with atts := (p * 4096 + 8, g) :: a.atts }, rfl, .inr ⟨g, bytes, p * 4096 + 8, hid, hb, rfl, by omega, ?_, rfl⟩, ?_⟩
      · intro s' g' b' hm hb'
        obtain ⟨p', n', hp'⟩ := hg.att _ _ hm
        have := hapart _ _ _ _ hp'
        obtain ⟨b'', hb'', hn'⟩ := hp'.seg
        rw [hb'] at hb''
        cases hb''
        have hs' := hp'.start
        unfold pages at hn hn'
        omega
      · refine ⟨hg.names, hg.ids, ?_, hg.id, ?_, ?_⟩
        · simp [hg.len]
        · intro g' b' hb'
          dsimp only at hb' ⊢
          obtain ⟨hsz', hdr', h1', h2', h3'⟩ := hg.seg g' b' hb'
          by_cases hgg : g' = g
          · subst hgg
            rw [hb] at hb'
            cases hb'
            refine ⟨hsz, le 8 (bytes.length + 8), ?_, le_length _ _, fun _ _ => rfl⟩
            rw [List.getElem?_set_self (by rw [hg.len]; exact hlt)]
          · refine ⟨hsz', hdr', ?_, h2', ?_⟩
            · rw [List.getElem?_set_ne (fun h => hgg h.symm)]
              exact h1'
            · intro start hm
              rw [List.mem_cons] at hm
              rcases hm with hm | hm
              · cases hm
                exact absurd rfl hgg
              · exact h3' start hm
        · intro start g' hm
          rw [List.mem_cons] at hm
          rcases hm with hm | hm
          · cases hm
            refine ⟨p, n, hp0, rfl, ⟨bytes, hb, hn.symm⟩, ?_⟩
            intro j hj
            show (if p ≤ p + j ∧ p + j < p + n then some (g, p + j - p, decide ((0 : Int32) &&& 0o10000 = 0)) else k.page (p + j)) = _
            rw [if_pos ⟨by omega, by omega⟩, Nat.add_sub_cancel_left]
            rfl
          · obtain ⟨p', n', hp'⟩ := hg.att _ _ hm
            have hap := hapart _ _ _ _ hp'
            refine ⟨p', n', hp'.pos, hp'.start, hp'.seg, ?_⟩
            intro j hj
            show (if p ≤ p' + j ∧ p' + j < p + n then some (g, p' + j - p, decide ((0 : Int32) &&& 0o10000 = 0)) else k.page (p' + j)) = _
            rw [if_neg (by omega)]
            exact hp'.page j hj
    · rw [if_neg hfree]
      exact ⟨_, _, a, rfl, .inl ⟨⟨0, rfl⟩, rfl⟩, hg⟩

theorem apart {k : K} {a : Abs} {s g p n s' g' p' n' : Nat} (h : Attached k a s g p n) (h' : Attached k a s' g' p' n') (hne : s ≠ s') : p + n ≤ p' ∨ p' + n' ≤ p := by
  by_cases hx : p + n ≤ p' ∨ p' + n' ≤ p
  · exact hx
  · exfalso
    have hs := h.start
    have hs' := h'.start
    have hn : 0 < n := by
      obtain ⟨b, _, e⟩ := h.seg
      rw [e]
      exact pages_pos _
    have hn' : 0 < n' := by
      obtain ⟨b, _, e⟩ := h'.seg
      rw [e]
      exact pages_pos _
    by_cases hle : p ≤ p'
    · have e1 := h.page (p' - p) (by omega)
      have e2 := h'.page 0 (by omega)
      rw [show p + (p' - p) = p' by omega] at e1
      rw [Nat.add_zero, e1] at e2
      simp at e2
      omega
    · have e1 := h'.page (p - p') (by omega)
      have e2 := h.page 0 (by omega)
      rw [show p' + (p - p') = p by omega] at e1
      rw [Nat.add_zero, e1] at e2
      simp at e2
      omega

theorem good_det {k : K} {a : Abs} (hg : Good k a) (addr : Nat) {g : Nat} (hm : (addr, g) ∈ a.atts) :
    ∃ k', shmdt k addr = some (.ok 0, k') ∧ Good k' { a with atts := a.atts.filter fun x => x.1 ≠ addr } := by
  obtain ⟨p, n, hp⟩ := hg.att _ _ hm
  obtain ⟨bytes, hb, hn⟩ := hp.seg
  obtain ⟨hsz, hdr, h1, h2, h3⟩ := hg.seg g bytes hb
  have hst := hp.start
  have hpp := pages_pos bytes.length
  have hl := loadAll_eq 8 k p 0 g (hdr ++ bytes) (by omega) (by rw [List.length_append]; omega) true (by
    have := hp.page 0 (by omega)
    rwa [Nat.add_zero] at this) h1
  rw [List.drop_zero, List.take_left' h2, Nat.add_zero] at hl
  unfold shmdt
  rw [if_neg (by omega)]
  dsimp only
  rw [show addr - 8 = p * 4096 by omega, hl]
  dsimp only
  rw [h3 _ hm, header_de hsz]
  unfold munmap
  rw [if_neg (by omega), if_neg (by omega), Nat.mul_div_cancel _ (by omega), ← hn]
  refine ⟨_, rfl, hg.names, hg.ids, hg.len, hg.id, ?_, ?_⟩
  · intro g' b' hb'
    obtain ⟨hsz', hdr', h1', h2', h3'⟩ := hg.seg g' b' hb'
    exact ⟨hsz', hdr', h1', h2', fun start hs => h3' start (List.mem_filter.1 hs).1⟩
  · intro s' g' hm'
    obtain ⟨hm', hne⟩ := List.mem_filter.1 hm'
    have hne : s' ≠ addr := by simpa using hne
    obtain ⟨p', n', hp'⟩ := hg.att _ _ hm'
    have hap := apart hp' hp hne
    refine ⟨p', n', hp'.pos, hp'.start, hp'.seg, ?_⟩
    intro j hj
    show (if p ≤ p' + j ∧ p' + j < p + n then none else k.page (p' + j)) = _
    rw [if_neg (by omega)]
    exact hp'.page j hj

theorem load_at {k : K} {a : Abs} (hg : Good k a) {addr g off : Nat} {bytes : List UInt8} (h : At a addr g off bytes) : load k addr = some (bytes.getD off 0) := by
  obtain ⟨j, hdr, h1, h2, h3, h4⟩ := at_place hg h
  unfold load
  rw [h1]
  dsimp only
  rw [h3]
  dsimp only
  rw [h2, List.getD_eq_getElem?_getD, List.getElem?_append_right (by omega), h4, Nat.add_sub_cancel, ← List.getD_eq_getElem?_getD]

theorem good_write {k : K} {a : Abs} (hg : Good k a) {addr g off : Nat} {bytes : List UInt8} (b : UInt8) (h : At a addr g off bytes) :
    ∃ k', store k addr b = some k' ∧ Good k' { a with segs := a.segs.set g (bytes.set off b) } := by
  obtain ⟨j, hdr, h1, h2, h3, h4⟩ := at_place hg h
  obtain ⟨start, hm, hs, _, ho⟩ := h
  have hlt := set_seg hs
  unfold store
  rw [h1]
  dsimp only
  rw [h3]
  dsimp only
  rw [if_pos rfl, h2]
  have e : (hdr ++ bytes).set (off + 8) b = hdr ++ bytes.set off b := by
    rw [List.set_append_right _ _ (by omega), h4, Nat.add_sub_cancel]
  rw [e]
  refine ⟨_, rfl, hg.names, hg.ids, ?_, ?_, ?_, ?_⟩
  · simp [hg.len]
  · intro id g' hi
    show g' < (a.segs.set g (bytes.set off b)).length
    rw [List.length_set]
    exact hg.id id g' hi
  · intro g' b' hb'
    dsimp only at hb' ⊢
    by_cases hgg : g' = g
    · subst hgg
      rw [List.getElem?_set_self hlt] at hb'
      cases hb'
      obtain ⟨hsz, hdr', h1', h2', h3'⟩ := hg.seg g' bytes hs
      rw [h3] at h1'
      have hh : hdr = hdr' := List.append_inj_left (Option.some.inj h1') (by omega)
      subst hh
      refine ⟨by rw [List.length_set]; exact hsz, hdr, ?_, h4, ?_⟩
      · rw [List.getElem?_set_self (by rw [hg.len]; exact hlt)]
      · intro s hs'
        rw [List.length_set]
        exact h3' s hs'
    · rw [List.getElem?_set_ne (fun h => hgg h.symm)] at hb'
      obtain ⟨hsz', hdr', h1', h2', h3'⟩ := hg.seg g' b' hb'
      refine ⟨hsz', hdr', ?_, h2', h3'⟩
      rw [List.getElem?_set_ne (fun h => hgg h.symm)]
      exact h1'
  · intro s' g' hm'
    obtain ⟨p', n', hp'⟩ := hg.att _ _ hm'
    refine ⟨p', n', hp'.pos, hp'.start, ?_, hp'.page⟩
    obtain ⟨b', hb', hn'⟩ := hp'.seg
    dsimp only
    by_cases hgg : g' = g
    · subst hgg
      rw [hs] at hb'
      cases hb'
      exact ⟨_, List.getElem?_set_self hlt, by rw [List.length_set]; exact hn'⟩
    · exact ⟨b', by rw [List.getElem?_set_ne (fun h => hgg h.symm)]; exact hb', hn'⟩

theorem good_step {k : K} {a : Abs} (hg : Good k a) (op : Op) (hop : Allowed a op) : ∃ r k' a', step k op = some (r, k') ∧ Spec a op r a' ∧ Good k' a' := by
  cases op with
  | get key size flags fd =>
    obtain ⟨a', h1, h2⟩ := good_get hg key size flags fd hop
    exact ⟨_, _, a', rfl, h1, h2⟩
  | att id place =>
    obtain ⟨g, hid⟩ := hop
    exact good_att hg id place hid
  | det addr =>
    obtain ⟨g, hm⟩ := hop
    obtain ⟨k', h1, h2⟩ := good_det hg addr hm
    exact ⟨_, k', _, h1, ⟨rfl, rfl⟩, h2⟩
  | remove id =>
    obtain ⟨g, hid⟩ := hop
    refine ⟨.ok 0, { k with fds := update k.fds id none }, { a with ids := update a.ids id none }, ?_, ⟨rfl, rfl⟩, ?_⟩
    · show some (shmRemove k id) = _
      unfold shmRemove
      rw [hg.ids, hid]
    · refine ⟨hg.names, ?_, hg.len, ?_, hg.seg, ?_⟩
      · show update k.fds id none = update a.ids id none
        rw [hg.ids]
      · intro i g' h
        dsimp only [update] at h
        split at h
        · cases h
        · exact hg.id i g' h
      · intro s g' hm
        obtain ⟨p, n, hp⟩ := hg.att _ _ hm
        exact ⟨p, n, hp.pos, hp.start, hp.seg, hp.page⟩
  | segsz id =>
    obtain ⟨g, hid⟩ := hop
    have hlt := hg.id id g hid
    have hb : a.segs[g]? = some a.segs[g] := List.getElem?_eq_getElem hlt
    obtain ⟨_, hdr, h1, h2, _⟩ := hg.seg g _ hb
    refine ⟨_, k, a, rfl, ⟨g, _, hid, hb, ?_, rfl⟩, hg⟩
    unfold shmSegsz
    rw [hg.ids, hid]
    dsimp only
    rw [h1]
    dsimp only
    rw [List.length_append, h2, Nat.add_sub_cancel_left]
  | read addr =>
    obtain ⟨g, off, bytes, h⟩ := hop
    refine ⟨_, k, a, ?_, ⟨g, off, bytes, h, rfl, rfl⟩, hg⟩
    show (match load k addr with | none => none | some b => some (Res.ok b.toNat, k)) = _
    rw [load_at hg h]
  | write addr b =>
    obtain ⟨g, off, bytes, h⟩ := hop
    obtain ⟨k', h1, h2⟩ := good_write hg b h
    refine ⟨.ok 0, k', _, ?_, ⟨g, off, bytes, h, rfl, rfl⟩, h2⟩
    show (match store k addr b with | none => none | some k => some (Res.ok 0, k)) = _
    rw [h1]

theorem reach_good {pid : Nat} {k : K} {a : Abs} (h : Reach pid k a) : Good k a := by
  induction h with
  | init =>
    refine ⟨rfl, rfl, rfl, ?_, ?_, ?_⟩
    · intro id g h
      cases h
    · intro g b h
      simp at h
    · intro s g h
      simp at h
  | step _ hop hst hsp ih =>
    obtain ⟨r, k', a', h1, h2, h3⟩ := good_step ih _ hop
    rw [hst] at h1
    cases h1
    rwa [spec_unique ih hsp h2]

/-! ## The theorems -/

/-- **C139, partial.** In every state that a program which uses only its own identifiers and attached segments can get into, each of its steps is without a fault and answered as it should be:
a new segment is zero and as large as asked for; an attached segment has all its bytes, apart from every other; what is written at one address of a segment is read at all others, and nothing
else changes; detaching detaches this one only; a segment whose identifier was removed stays until it is detached. Missing: that `shmget` gives the existing segment of the key
(`C139_key_violation`), and `SHM_RDONLY` (`C139_readonly_violation`). -/
theorem C139_segments_partial {pid : Nat} {k : K} {a : Abs} (h : Reach pid k a) (op : Op) (hop : Allowed a op) :
    ∃ r k', step k op = some (r, k') ∧ ∃ a', Spec a op r a' := by
  obtain ⟨r, k', a', h1, h2, _⟩ := good_step (reach_good h) op hop
  exact ⟨r, k', h1, a', h2⟩

/-- **C139.** With `IPC_CREAT`, a descriptor and memory `shmget` succeeds, and with `IPC_EXCL` as well. -/
theorem C139_create {pid : Nat} {k : K} {a : Abs} (h : Reach pid k a) (key : Int32) (size : Nat) (flags : Int32) (fd : Nat) (hf : flags &&& 0o1000 ≠ 0) (hs : size + 8 < 2 ^ 63)
    (hfd : a.ids fd = none) : (shmget k key size flags (some fd) true).1 = .ok fd := by
  have hg := reach_good h
  unfold shmget
  dsimp only
  rw [decide_eq_true hf]
  generalize decide (flags &&& 0o2000 ≠ 0) = excl
  unfold shmOpen
  dsimp only
  rw [hg.ids, hfd, hg.names, lookup_nil]
  dsimp only [Option.isSome]
  rw [if_neg (by simp), if_pos rfl]
  dsimp only
  rw [if_pos rfl, if_pos (show size + 8 < 2 ^ 64 by omega)]
  unfold ftruncate
  simp [update, hs]

/-- **C139, violated.** The segment of a key is never found again, in any state: a second `shmget` with the same key and `IPC_CREAT` gives a new segment, also with `IPC_EXCL`, and without
`IPC_CREAT` it fails. Two programs cannot share a segment by its key. -/
theorem C139_key_violation {pid : Nat} {k : K} {a : Abs} (h : Reach pid k a) (key : Int32) (size : Nat) (fd fd' : Nat) (hs : size + 8 < 2 ^ 63) (hfd : a.ids fd = none)
    (hfd' : a.ids fd' = none) (hne : fd ≠ fd') :
    let k1 := (shmget k key size 0o1000 (some fd) true).2
    let k2 := (shmget k1 key size 0o3000 (some fd') true).2
    (shmget k1 key size 0 (some fd') true).1 = .err 2 ∧
    (shmget k1 key size 0o3000 (some fd') true).1 = .ok fd' ∧ k2.fds fd ≠ k2.fds fd' := by
  dsimp only
  have hg := reach_good h
  have hok := C139_create h key size 0o1000 fd (by decide) hs hfd
  have hr : Reach pid (shmget k key size 0o1000 (some fd) true).2 ⟨a.segs ++ [List.replicate size 0], update a.ids fd (some a.segs.length), a.atts⟩ := by
    refine Reach.step (op := .get key size 0o1000 (some fd)) h hs rfl (.inr ⟨fd, hok, hfd, rfl⟩)
  have hfd2 : update a.ids fd (some a.segs.length) fd' = none := by
    unfold update
    rw [if_neg (fun q => hne q.symm)]
    exact hfd'
  have hg1 := reach_good hr
  have hok2 := C139_create hr key size 0o3000 fd' (by decide) hs hfd2
  have hr2 : Reach pid (shmget (shmget k key size 0o1000 (some fd) true).2 key size 0o3000 (some fd') true).2
      ⟨(a.segs ++ [List.replicate size 0]) ++ [List.replicate size 0], update (update a.ids fd (some a.segs.length)) fd' (some (a.segs ++ [List.replicate size 0]).length), a.atts⟩ := by
    refine Reach.step (op := .get key size 0o3000 (some fd')) hr hs rfl (.inr ⟨fd', hok2, hfd2, rfl⟩)
  have hg2 := reach_good hr2
  refine ⟨?_, hok2, ?_⟩
  · generalize (shmget k key size 0o1000 (some fd) true).2 = k1 at hg1
    have hk1 : k1.fds fd' = none := by
      rw [hg1.ids]
      exact hfd2
    unfold shmget shmOpen
    dsimp only
    rw [hk1, hg1.names, lookup_nil]
    rfl
  · rw [hg2.ids]
    simp [update, hne]

/-- **C139, violated.** Attaching with `SHM_RDONLY` is a fault: the header is written through the read-only pages. -/
theorem C139_readonly_violation {pid : Nat} {k : K} {a : Abs} (h : Reach pid k a) (id g : Nat) (hid : a.ids id = some g) (p : Nat) (hp : p ≠ 0) (hfree : ∀ q, p ≤ q → k.page q = none) :
    shmat k id 0o10000 (some p) = none := by
  have hg := reach_good h
  have hlt := hg.id id g hid
  have hb : a.segs[g]? = some a.segs[g] := List.getElem?_eq_getElem hlt
  obtain ⟨hsz, hdr, h1, h2, h3⟩ := hg.seg g _ hb
  unfold shmat
  rw [hg.ids, hid]
  dsimp only
  rw [h1]
  dsimp only
  have hlen : (hdr ++ a.segs[g]).length = a.segs[g].length + 8 := by
    rw [List.length_append]
    omega
  rw [hlen]
  unfold mmap
  rw [if_neg (by omega)]
  dsimp only
  rw [if_pos ⟨hp, fun j _ => hfree _ (by omega)⟩]
  dsimp only
  have hpp := pages_pos a.segs[g].length
  have : ∀ b l kk, kk.page p = some (g, 0, false) → kk.objs[g]? = some (hdr ++ a.segs[g]) → storeAll kk (p * 4096) (b :: l) = none := by
    intro b l kk q1 q2
    unfold storeAll store
    rw [Nat.mul_div_cancel _ (by omega), q1]
    dsimp only
    rw [q2]
    rfl
  rw [show le 8 (a.segs[g].length + 8) = UInt8.ofNat (a.segs[g].length + 8) :: le 7 ((a.segs[g].length + 8) / 256) from rfl]
  have hst := this (UInt8.ofNat (a.segs[g].length + 8)) (le 7 ((a.segs[g].length + 8) / 256))
    { k with page := fun q => if p ≤ q ∧ q < p + pages (a.segs[g].length + 8) then some (g, q - p, decide ((0o10000 : Int32) &&& 0o10000 = 0)) else k.page q } (by
      show (if p ≤ p ∧ p < p + pages (a.segs[g].length + 8) then some (g, p - p, decide ((0o10000 : Int32) &&& 0o10000 = 0)) else k.page p) = _
      rw [if_pos ⟨Nat.le_refl _, by omega⟩, Nat.sub_self]
      rfl) h1
  rw [hst]

/-- **C139, violated.** A `shmget` that fails for lack of memory leaves a descriptor behind that nobody knows, and an empty segment under the key. -/
theorem C139_leak_violation {pid : Nat} {k : K} {a : Abs} (h : Reach pid k a) (key : Int32) (size fd : Nat) (hs : size + 8 < 2 ^ 63) (hfd : a.ids fd = none) :
    ∃ k', shmget k key size 0o1000 (some fd) false = (.err 22, k') ∧ (k'.fds fd).isSome ∧ k'.names = [(nameOf k key, k.objs.length)] ∧ k'.objs = k.objs ++ [[]] := by
  have hg := reach_good h
  unfold shmget
  dsimp only
  rw [decide_eq_true (show (0o1000 : Int32) &&& 0o1000 ≠ 0 by decide)]
  unfold shmOpen
  dsimp only
  rw [hg.ids, hfd, hg.names, lookup_nil]
  dsimp only [Option.isSome]
  rw [if_neg (by simp), if_pos rfl]
  dsimp only
  rw [if_pos rfl, if_pos (show size + 8 < 2 ^ 64 by omega)]
  unfold ftruncate
  simp [update]

/-- **C139, violated.** A `shmat` that finds no place does not set `errno`. -/
theorem C139_errno_violation {pid : Nat} {k : K} {a : Abs} (h : Reach pid k a) (id g : Nat) (hid : a.ids id = some g) (flags : Int32) : shmat k id flags none = some (.err 0, k) := by
  have hg := reach_good h
  have hlt := hg.id id g hid
  have hb : a.segs[g]? = some a.segs[g] := List.getElem?_eq_getElem hlt
  obtain ⟨hsz, hdr, h1, h2, h3⟩ := hg.seg g _ hb
  unfold shmat
  rw [hg.ids, hid]
  dsimp only
  rw [h1]
  dsimp only
  unfold mmap
  rw [List.length_append, if_neg (by omega)]

/-! ## Examples -/

/-- A segment of 5000 bytes is attached twice; a byte written through one address is read through the other, also after the first is detached and the identifier removed. -/
def exOps : List Op :=
  [.get 7 5000 0o1000 (some 3), .att 3 (some 16), .att 3 (some 32), .write (16 * 4096 + 8 + 4999) 65, .det (16 * 4096 + 8), .remove 3, .read (32 * 4096 + 8 + 4999), .read (32 * 4096 + 8)]

set_option maxRecDepth 30000 in
example : (run (K.init 1) exOps).map (·.1) = some [.ok 3, .ok (16 * 4096 + 8), .ok (32 * 4096 + 8), .ok 0, .ok 0, .ok 0, .ok 65, .ok 0] := by decide +kernel

/-- A state with a segment is reached. -/
example : Reach 1 (shmget (K.init 1) 7 10 0o1000 (some 3) true).2 ⟨[List.replicate 10 0], update (fun _ => none) 3 (some 0), []⟩ :=
  Reach.step (op := .get 7 10 0o1000 (some 3)) Reach.init (show 10 + 8 < 2 ^ 63 by decide) rfl (.inr ⟨3, C139_create (Reach.init (pid := 1)) 7 10 0o1000 3 (by decide) (by decide) rfl, rfl, rfl⟩)

end Verif.Shm
