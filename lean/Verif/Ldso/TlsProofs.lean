import Verif.Ldso.TlsModel
/-!
# Thread-local storage: invariants
-/

namespace Verif.Ldso

open Verif.Mem

/-- The states of a process with the program's segments `segs`. -/
inductive TRuns (segs : List Seg) : List TOp → Proc → Prop
  | start {base p} : (∀ g ∈ segs, g.image.length ≤ g.size) → 0 < base → base % 4096 = 0 → startTls segs base = some p →
      TRuns segs [] p
  | step {ops p op p'} : TRuns segs ops p → op.Valid p → op.step p = some p' → TRuns segs (ops ++ [op]) p'

theorem align16_ge (n : Nat) : n ≤ align16 n := by unfold align16; omega
theorem align16_dvd (n : Nat) : align16 n % 16 = 0 := by unfold align16; omega
theorem pageUp_ge (n : Nat) : n ≤ pageUp n := by unfold pageUp; omega
theorem pageUp_dvd (n : Nat) : pageUp n % 4096 = 0 := by unfold pageUp; omega
theorem pageUp_idem (n : Nat) (h : n % 4096 = 0) : pageUp n = n := by unfold pageUp; omega

theorem layoutSize_ge (gs : List Seg) : ∀ s, s ≤ layoutSize s gs := by
  induction gs with
  | nil => intro s; exact Nat.le_refl s
  | cons g gs ih =>
    intro s
    have h1 := ih (align16 s + g.size)
    have h2 := align16_ge s
    simp only [layoutSize]; omega

@[simp] theorem layout_length (gs : List Seg) : ∀ s, (layout s gs).length = gs.length := by
  induction gs with
  | nil => intro s; rfl
  | cons g gs ih => intro s; simp [layout, ih]

theorem layout_get (gs : List Seg) : ∀ (s i : Nat) (m : TMaster), (layout s gs)[i]? = some m →
    ∃ g : Seg, gs[i]? = some g ∧ m.image = g.image ∧ m.size = g.size ∧ s + m.size ≤ m.offset ∧ m.offset ≤ layoutSize s gs ∧
      (m.offset - m.size) % 16 = 0 := by
  induction gs with
  | nil => intro s i m h; simp [layout] at h
  | cons g gs ih =>
    intro s i m h
    have h2 := align16_ge s
    cases i with
    | zero =>
      simp only [layout, List.getElem?_cons_zero, Option.some.injEq] at h
      subst h
      refine ⟨g, rfl, rfl, rfl, by dsimp only; omega, layoutSize_ge gs _, ?_⟩
      have := align16_dvd s
      dsimp only
      rw [Nat.add_sub_cancel]; exact this
    | succ i =>
      simp only [layout, List.getElem?_cons_succ] at h
      obtain ⟨g', h1, h2', h3, h4, h5, h6⟩ := ih _ i m h
      exact ⟨g', by simpa using h1, h2', h3, by omega, h5, h6⟩

theorem layout_apart (gs : List Seg) : ∀ (s i j : Nat) (m m' : TMaster), i < j → (layout s gs)[i]? = some m → (layout s gs)[j]? = some m' →
    m.offset + m'.size ≤ m'.offset := by
  induction gs with
  | nil => intro s i j m m' _ h; simp [layout] at h
  | cons g gs ih =>
    intro s i j m m' hij h h'
    cases j with
    | zero => omega
    | succ j =>
      simp only [layout, List.getElem?_cons_succ] at h'
      cases i with
      | zero =>
        simp only [layout, List.getElem?_cons_zero, Option.some.injEq] at h
        obtain ⟨g', _, _, _, h4, _⟩ := layout_get gs _ j m' h'
        rw [← h]; exact h4
      | succ i =>
        simp only [layout, List.getElem?_cons_succ] at h
        exact ih _ i j m m' (by omega) h h'

/-! ### Copying the images -/

theorem copyLoop_append {E L : Nat} : ∀ (xs ys : List TMaster) (mem : Mem UInt8),
    copyLoop E L (xs ++ ys) mem = (copyLoop E L xs mem).bind (copyLoop E L ys) := by
  intro xs
  induction xs with
  | nil => intro ys mem; rfl
  | cons x xs ih =>
    intro ys mem
    simp only [List.cons_append, copyLoop]
    split
    · exact ih ys mem
    · split
      · exact ih ys _
      · rfl

theorem copyLoop_other {E L : Nat} : ∀ (ms : List TMaster) (mem mem' : Mem UInt8) (a : Nat),
    copyLoop E L ms mem = some mem' →
    (∀ m ∈ ms, m.image ≠ [] → m.offset ≤ L → a < E - m.offset ∨ E - m.offset + m.image.length ≤ a) →
    mem' a = mem a := by
  intro ms
  induction ms with
  | nil => intro mem mem' a h _; cases h; rfl
  | cons m ms ih =>
    intro mem mem' a h ha
    simp only [copyLoop] at h
    split at h
    · exact ih _ _ a h fun x hx => ha x (List.mem_cons_of_mem _ hx)
    · rename_i hne
      split at h
      · rename_i hc
        rw [ih _ _ a h fun x hx => ha x (List.mem_cons_of_mem _ hx)]
        have := ha m List.mem_cons_self hne hc.1
        unfold patch
        rw [if_neg (by omega)]
      · exact absurd h (by simp)

theorem copyLoop_ok {E L : Nat} : ∀ (ms : List TMaster) (mem : Mem UInt8),
    (∀ m ∈ ms, m.offset ≤ L ∧ m.image.length ≤ m.offset) → ∃ mem', copyLoop E L ms mem = some mem' := by
  intro ms
  induction ms with
  | nil => intro mem _; exact ⟨mem, rfl⟩
  | cons m ms ih =>
    intro mem h
    have ih := fun mem => ih mem fun x hx => h x (List.mem_cons_of_mem _ hx)
    simp only [copyLoop]
    split
    · exact ih _
    · rw [if_pos (h m List.mem_cons_self)]; exact ih _

/-- The masters of a thread: those of the program, then those of libraries it has opened, which lie below. -/
structure MastersOk (segs : List Seg) (ms : List TMaster) : Prop where
  split : ∃ extra, ms = layout 0 segs ++ extra ∧
    ∀ m ∈ extra, m.image.length ≤ m.size ∧ m.offset = align16 (layoutSize 0 segs) + m.size

/-- What a thread finds in its static blocks after `copy_masters`. -/
theorem copy_static {segs : List Seg} {ms : List TMaster} {E L : Nat} {mem mem' : Mem UInt8}
    (hv : ∀ g ∈ segs, g.image.length ≤ g.size) (hm : MastersOk segs ms) (hL : layoutSize 0 segs ≤ L) (hE : L ≤ E)
    (h : copyMasters E L ms mem = some mem') (hz : ∀ a, E - L ≤ a → a < E → mem a = some 0) (i : Nat) (m : TMaster)
    (hi : (layout 0 segs)[i]? = some m) :
    Bytes mem' (E - m.offset) (m.image ++ List.replicate (m.size - m.image.length) 0) := by
  obtain ⟨extra, rfl, hx⟩ := hm.split
  obtain ⟨g, hg, e1, e2, e3, e4, _⟩ := layout_get segs 0 i m hi
  have hvg : m.image.length ≤ m.size := by rw [e1, e2]; exact hv g (List.mem_of_getElem? hg)
  have hlen : (m.image ++ List.replicate (m.size - m.image.length) (0 : UInt8)).length = m.size := by
    simp; omega
  unfold copyMasters at h
  split at h
  · rename_i h0
    rw [bytes_iff]
    intro k hk
    rw [hlen] at hk
    omega
  · obtain ⟨hlt, hieq⟩ := List.getElem?_eq_some_iff.1 hi
    have hs : layout 0 segs = (layout 0 segs).take i ++ m :: (layout 0 segs).drop (i + 1) := by
      rw [← hieq, List.getElem_cons_drop, List.take_append_drop]
    rw [hs, List.append_assoc, copyLoop_append] at h
    -- the other ranges
    have away : ∀ x, (x ∈ (layout 0 segs).take i ∨ x ∈ (layout 0 segs).drop (i + 1) ∨ x ∈ extra) → ∀ a, E - m.offset ≤ a →
        a < E - m.offset + m.size → x.offset ≤ L → a < E - x.offset ∨ E - x.offset + x.image.length ≤ a := by
      intro x hx' a ha1 ha2 hxL
      rcases hx' with hx' | hx' | hx'
      · obtain ⟨j, hj⟩ := List.mem_iff_getElem?.1 hx'
        have hji : j < i := by
          rcases Nat.lt_or_ge j i with h | h
          · exact h
          · rw [List.getElem?_eq_none (by simp; omega)] at hj; exact absurd hj (by simp)
        rw [List.getElem?_take_of_lt hji] at hj
        obtain ⟨g', hg', f1, f2, f3, f4, _⟩ := layout_get segs 0 j x hj
        have := layout_apart segs 0 j i x m hji hj hi
        left; omega
      · obtain ⟨j, hj⟩ := List.mem_iff_getElem?.1 hx'
        rw [List.getElem?_drop] at hj
        obtain ⟨g', hg', f1, f2, f3, f4, _⟩ := layout_get segs 0 _ x hj
        have hvx : x.image.length ≤ x.size := by rw [f1, f2]; exact hv g' (List.mem_of_getElem? hg')
        have := layout_apart segs 0 i _ m x (by omega) hi hj
        right; omega
      · obtain ⟨f1, f2⟩ := hx x hx'
        have := align16_ge (layoutSize 0 segs)
        right; omega
    cases h1 : copyLoop E L ((layout 0 segs).take i) mem with
    | none => rw [h1] at h; exact absurd h (by simp)
    | some mem1 =>
      rw [h1, Option.bind_some] at h
      have k1 := fun a => copyLoop_other _ _ _ a h1
      rw [bytes_iff]
      intro k hk
      rw [hlen] at hk
      have hmem1 : mem1 (E - m.offset + k) = some 0 := by
        rw [k1 _ fun x hx' _ => away x (.inl hx') _ (by omega) (by omega)]
        exact hz _ (by omega) (by omega)
      simp only [List.cons_append, copyLoop] at h
      split at h
      · rename_i hnil
        rw [copyLoop_other _ _ _ _ h fun x hx' _ => away x (.inr (List.mem_append.1 hx')) _ (by omega) (by omega), hmem1, hnil]
        simp [hk]
      · split at h
        · rw [copyLoop_other _ _ _ _ h fun x hx' _ => away x (.inr (List.mem_append.1 hx')) _ (by omega) (by omega)]
          unfold patch
          split
          · rename_i hc
            rw [List.getElem?_append_left (by omega)]
            congr 1; omega
          · rw [hmem1, List.getElem?_append_right (by omega), List.getElem?_replicate, if_pos (by omega)]
        · exact absurd h (by simp)

theorem copyMasters_below {ms : List TMaster} {E L : Nat} {mem mem' : Mem UInt8}
    (h : copyMasters E L ms mem = some mem') (a : Nat) (ha : a < E - L) : mem' a = mem a := by
  unfold copyMasters at h
  split at h
  · cases h; rfl
  · refine copyLoop_other _ _ _ a h ?_
    intro m _ _ hm
    left; omega

/-! ### The invariant -/

structure ThOk (segs : List Seg) (brk : Nat) (th : Thread) : Prop where
  len : th.tlsLen = pageUp (layoutSize 0 segs)
  page : th.tlsEnd % 4096 = 0
  pos : th.tlsLen < th.tlsEnd
  below : th.tlsEnd ≤ brk
  masters : MastersOk segs th.masters
  dtv : ∀ l, th.dtv = some l → segs.length ≤ l.length ∧ l.length ≤ th.masters.length ∧
    ∀ (i : Nat) (m : TMaster), (layout 0 segs)[i]? = some m → l[i]? = some (th.tlsEnd - m.offset)

structure TInv (segs : List Seg) (p : Proc) : Prop where
  valid : ∀ g ∈ segs, g.image.length ≤ g.size
  size : p.tlsSize = layoutSize 0 segs
  threads : ∀ (t : Nat) (th : Thread), p.threads[t]? = some th → ThOk segs p.brk th
  apart : ∀ (t t' : Nat) (th th' : Thread), t < t' → p.threads[t]? = some th → p.threads[t']? = some th' → th.tlsEnd + th'.tlsLen ≤ th'.tlsEnd
  own : ∀ i, i < segs.length → p.own (i + 1) = segs[i]?
  next : segs.length < p.nextTls

theorem growDtv_ok {segs : List Seg} {brk : Nat} {th : Thread} (h : ThOk segs brk th) :
    (growDtv th).length = th.masters.length ∧ ∀ (i : Nat) (m : TMaster), (layout 0 segs)[i]? = some m →
      (growDtv th)[i]? = some (th.tlsEnd - m.offset) := by
  obtain ⟨extra, hx, _⟩ := h.masters.split
  unfold growDtv
  split
  · refine ⟨by simp, ?_⟩
    intro i m hm
    rw [hx, List.getElem?_map, List.getElem?_append_left (by
      rw [layout_length]; have := (List.getElem?_eq_some_iff.1 hm).1; simpa using this), hm]
    rfl
  · rename_i l hl
    obtain ⟨h1, h2, h3⟩ := h.dtv l hl
    refine ⟨by simp; omega, ?_⟩
    intro i m hm
    rw [List.getElem?_append_left (by
      have := (List.getElem?_eq_some_iff.1 hm).1; rw [layout_length] at this; omega)]
    exact h3 i m hm

theorem static_pos {segs : List Seg} {brk : Nat} {th : Thread} (h : ThOk segs brk th) {i : Nat} {m : TMaster}
    (hm : (layout 0 segs)[i]? = some m) : m.offset ≤ th.tlsLen ∧ 0 < th.tlsEnd - m.offset := by
  obtain ⟨_, _, _, _, _, h1, _⟩ := layout_get segs 0 i m hm
  have := pageUp_ge (layoutSize 0 segs)
  have := h.pos
  have := h.len
  omega

/-- The cases of `__tls_get_addr`. -/
theorem tlsGetAddr_cases {p p' : Proc} {t m off base r : Nat} (h : tlsGetAddr p t m off base = some (r, p')) :
    ∃ th : Thread, p.threads[t]? = some th ∧ th.masters ≠ [] ∧
      ((r = 0 ∧ p' = { p with threads := p.threads.set t { th with dtv := some (growDtv th) } }) ∨
       (∃ (i a : Nat) (ms : TMaster), m = i + 1 ∧ (growDtv th)[i]? = some a ∧ th.masters[i]? = some ms ∧ a ≠ 0 ∧ r = a + off ∧
         p' = { p with threads := p.threads.set t { th with dtv := some (growDtv th) } }) ∨
       (∃ (i : Nat) (ms : TMaster), m = i + 1 ∧ (growDtv th)[i]? = some 0 ∧ th.masters[i]? = some ms ∧ r = base + off ∧
         p' = { p with mem := patch p.mem base (ms.image ++ List.replicate (ms.size - ms.image.length) 0),
                       threads := p.threads.set t { th with dtv := some ((growDtv th).set i base) },
                       brk := base + ms.size })) := by
  unfold tlsGetAddr at h
  split at h
  · exact absurd h (by simp)
  · rename_i th hth
    split at h
    · exact absurd h (by simp)
    · rename_i hne
      refine ⟨th, hth, hne, ?_⟩
      cases m with
      | zero =>
        simp only [Option.some.injEq, Prod.mk.injEq] at h
        exact .inl ⟨h.1.symm, h.2.symm⟩
      | succ i =>
        dsimp only at h
        split at h
        · rename_i a ms ha hms
          split at h
          · rename_i h0
            subst h0
            simp only [Option.some.injEq, Prod.mk.injEq] at h
            exact .inr (.inr ⟨i, ms, rfl, ha, hms, h.1.symm, h.2.symm⟩)
          · rename_i h0
            simp only [Option.some.injEq, Prod.mk.injEq] at h
            exact .inr (.inl ⟨i, a, ms, rfl, ha, hms, h0, h.1.symm, h.2.symm⟩)
        · simp only [Option.some.injEq, Prod.mk.injEq] at h
          exact .inl ⟨h.1.symm, h.2.symm⟩

/-- Setting the `dtv` of one thread keeps the invariant. -/
theorem TInv.setDtv {segs : List Seg} {p : Proc} (h : TInv segs p) {t : Nat} {th : Thread} (ht : p.threads[t]? = some th)
    {l : List Nat} (hl : l.length = th.masters.length)
    (hs : ∀ (i : Nat) (m : TMaster), (layout 0 segs)[i]? = some m → l[i]? = some (th.tlsEnd - m.offset)) (mem : Mem UInt8) (brk : Nat)
    (hb : p.brk ≤ brk) :
    TInv segs { p with mem, threads := p.threads.set t { th with dtv := some l }, brk } := by
  have hth := h.threads t th ht
  have get : ∀ (k : Nat) (x : Thread), (p.threads.set t { th with dtv := some l })[k]? = some x →
      ∃ y, p.threads[k]? = some y ∧ x.tlsEnd = y.tlsEnd ∧ x.tlsLen = y.tlsLen ∧
        ((k = t ∧ x = { th with dtv := some l }) ∨ x = y) := by
    intro k x hx
    rw [List.getElem?_set] at hx
    split at hx
    · rename_i he
      subst he
      split at hx
      · cases hx; exact ⟨th, ht, rfl, rfl, .inl ⟨rfl, rfl⟩⟩
      · exact absurd hx (by simp)
    · exact ⟨x, hx, rfl, rfl, .inr rfl⟩
  refine ⟨h.valid, h.size, ?_, ?_, h.own, h.next⟩
  · intro k x hx
    obtain ⟨y, hy, _, _, ⟨_, rfl⟩ | rfl⟩ := get k x hx
    · refine ⟨hth.len, hth.page, hth.pos, ?_, hth.masters, ?_⟩
      · have := hth.below; dsimp only; omega
      · intro l' hl'
        cases hl'
        obtain ⟨extra, hx', _⟩ := hth.masters.split
        refine ⟨?_, by dsimp only; omega, hs⟩
        rw [hl, hx']; simp
    · have h1 := h.threads k x hy
      refine ⟨h1.len, h1.page, h1.pos, ?_, h1.masters, h1.dtv⟩
      have := h1.below; dsimp only; omega
  · intro k k' x x' hk hx hx'
    obtain ⟨y, hy, e1, e2, _⟩ := get k x hx
    obtain ⟨y', hy', e1', e2', _⟩ := get k' x' hx'
    rw [e1, e1', e2']
    exact h.apart k k' y y' hk hy hy'

theorem access_inv {segs : List Seg} {p p' : Proc} (h : TInv segs p) {t m off base r : Nat} (hb : p.brk ≤ base)
    (ha : tlsGetAddr p t m off base = some (r, p')) : TInv segs p' := by
  obtain ⟨th, ht, _, c⟩ := tlsGetAddr_cases ha
  obtain ⟨g1, g2⟩ := growDtv_ok (h.threads t th ht)
  rcases c with ⟨_, rfl⟩ | ⟨i, a, ms, _, _, _, _, _, rfl⟩ | ⟨i, ms, rfl, g3, g4, _, rfl⟩
  · exact h.setDtv ht g1 g2 p.mem p.brk (Nat.le_refl _)
  · exact h.setDtv ht g1 g2 p.mem p.brk (Nat.le_refl _)
  · refine h.setDtv ht (by rw [List.length_set]; exact g1) ?_ _ _ (by omega)
    intro j m' hm
    rw [List.getElem?_set, if_neg]
    · exact g2 j m' hm
    · rintro rfl
      rw [g2 _ m' hm] at g3
      have := (static_pos (h.threads t th ht) hm).2
      simp only [Option.some.injEq] at g3
      omega

theorem start_inv {segs : List Seg} {base : Nat} {p : Proc} (hv : ∀ g ∈ segs, g.image.length ≤ g.size) (h0 : 0 < base)
    (h1 : base % 4096 = 0) (h : startTls segs base = some p) : TInv segs p := by
  unfold startTls at h
  dsimp only at h
  split at h
  · exact absurd h (by simp)
  · simp only [Option.some.injEq] at h
    subst h
    have hp := pageUp_dvd (layoutSize 0 segs)
    refine ⟨hv, rfl, ?_, ?_, ?_, by simp⟩
    · intro t th ht
      cases t with
      | zero =>
        simp only [List.getElem?_cons_zero, Option.some.injEq] at ht
        subst ht
        refine ⟨rfl, by dsimp only; omega, by dsimp only; omega, Nat.le_refl _, ⟨[], by simp, by simp⟩, ?_⟩
        intro l hl
        cases hl
        refine ⟨by simp, by simp, ?_⟩
        intro i m hm
        simp [hm]
      | succ t => simp at ht
    · intro t t' th th' htt ht ht'
      cases t' with
      | zero => omega
      | succ t' => simp at ht'
    · intro i hi
      simp

theorem create_inv {segs : List Seg} {p p' : Proc} (h : TInv segs p) {t base : Nat} (hb : p.brk ≤ base)
    (hp : base % 4096 = 0) (hc : createThread p t base = some p') : TInv segs p' := by
  unfold createThread at hc
  split at hc
  · exact absurd hc (by simp)
  · rename_i th ht
    dsimp only at hc
    split at hc
    · exact absurd hc (by simp)
    · rename_i mem hm
      simp only [Option.some.injEq] at hc
      subst hc
      have hth := h.threads t th ht
      have e1 : pageUp th.tlsLen = pageUp (layoutSize 0 segs) := by
        rw [hth.len]; exact pageUp_idem _ (pageUp_dvd _)
      have e2 := pageUp_dvd (layoutSize 0 segs)
      have e3 := hth.below
      have e4 := hth.pos
      have get : ∀ (k : Nat) (x : Thread), (p.threads ++ [⟨base + pageUp th.tlsLen, pageUp th.tlsLen, th.masters, none⟩])[k]? = some x →
          p.threads[k]? = some x ∨ k = p.threads.length ∧
            x = ⟨base + pageUp th.tlsLen, pageUp th.tlsLen, th.masters, none⟩ := by
        intro k x hx
        rcases Nat.lt_or_ge k p.threads.length with hk | hk
        · rw [List.getElem?_append_left hk] at hx; exact .inl hx
        · rw [List.getElem?_append_right hk] at hx
          cases hkk : k - p.threads.length with
          | zero => rw [hkk] at hx; simp at hx; exact .inr ⟨by omega, hx.symm⟩
          | succ j => rw [hkk] at hx; simp at hx
      refine ⟨h.valid, h.size, ?_, ?_, h.own, h.next⟩
      · intro k x hx
        rcases get k x hx with hx | ⟨_, rfl⟩
        · have h1 := h.threads k x hx
          refine ⟨h1.len, h1.page, h1.pos, ?_, h1.masters, h1.dtv⟩
          have := h1.below; dsimp only; omega
        · refine ⟨e1, by dsimp only; omega, by dsimp only; omega, Nat.le_refl _, hth.masters, ?_⟩
          intro l hl; exact absurd hl (by simp)
      · intro k k' x x' hk hx hx'
        rcases get k x hx with hx | ⟨hk1, rfl⟩
        · rcases get k' x' hx' with hx' | ⟨_, rfl⟩
          · exact h.apart k k' x x' hk hx hx'
          · have := (h.threads k x hx).below
            dsimp only; omega
        · rcases get k' x' hx' with hx' | ⟨_, rfl⟩
          · have := (List.getElem?_eq_some_iff.1 hx').1
            omega
          · omega

theorem open_inv {segs : List Seg} {p : Proc} (h : TInv segs p) (t : Nat) (gs : List Seg)
    (hv : ∀ g ∈ gs, g.image.length ≤ g.size) : TInv segs (openTls p t gs) := by
  have get : ∀ (k : Nat) (x : Thread), (openTls p t gs).threads[k]? = some x → ∃ y, p.threads[k]? = some y ∧ x.tlsEnd = y.tlsEnd ∧
      x.tlsLen = y.tlsLen ∧ x.dtv = y.dtv ∧ (x.masters = y.masters ∨
        x.masters = y.masters ++ gs.map fun g => ⟨g.image, g.size, align16 p.tlsSize + g.size⟩) := by
    intro k x hx
    simp only [openTls, List.getElem?_modify] at hx
    cases hy : p.threads[k]? with
    | none => rw [hy] at hx; simp at hx
    | some y =>
      rw [hy] at hx
      simp only [Option.map_eq_map, Option.map_some, Option.some.injEq] at hx
      refine ⟨y, rfl, ?_⟩
      split at hx
      · rw [← hx]; exact ⟨rfl, rfl, rfl, .inr rfl⟩
      · rw [← hx]; exact ⟨rfl, rfl, rfl, .inl rfl⟩
  refine ⟨h.valid, h.size, ?_, ?_, ?_, ?_⟩
  · intro k x hx
    obtain ⟨y, hy, e1, e2, e3, e4⟩ := get k x hx
    have hy := h.threads k y hy
    have hlen : y.masters.length ≤ x.masters.length := by
      rcases e4 with e | e <;> rw [e] <;> simp
    refine ⟨e2.trans hy.len, by rw [e1]; exact hy.page, by rw [e1, e2]; exact hy.pos, by rw [e1]; exact hy.below, ?_, ?_⟩
    · obtain ⟨extra, h1, h2⟩ := hy.masters.split
      rcases e4 with e | e
      · exact ⟨extra, by rw [e]; exact h1, h2⟩
      · refine ⟨extra ++ gs.map fun g => ⟨g.image, g.size, align16 p.tlsSize + g.size⟩, by rw [e, h1, List.append_assoc], ?_⟩
        intro m hm
        rcases List.mem_append.1 hm with hm | hm
        · exact h2 m hm
        · obtain ⟨g, hg, rfl⟩ := List.mem_map.1 hm
          exact ⟨hv g hg, by rw [h.size]⟩
    · intro l hl
      rw [e3] at hl
      obtain ⟨d1, d2, d3⟩ := hy.dtv l hl
      exact ⟨d1, by omega, by rw [e1]; exact d3⟩
  · intro k k' x x' hk hx hx'
    obtain ⟨y, hy, e1, _⟩ := get k x hx
    obtain ⟨y', hy', e1', e2', _⟩ := get k' x' hx'
    rw [e1, e1', e2']
    exact h.apart k k' y y' hk hy hy'
  · intro i hi
    have := h.next
    simp only [openTls]
    rw [if_neg (by omega)]
    exact h.own i hi
  · have := h.next
    simp only [openTls]; omega

theorem runs_tinv {segs : List Seg} {ops : List TOp} {p : Proc} (h : TRuns segs ops p) : TInv segs p := by
  induction h with
  | start hv h0 h1 h => exact start_inv hv h0 h1 h
  | @step ops p op p' hr hv hs ih =>
    cases op with
    | create t base => exact create_inv ih hv.1 hv.2 hs
    | dlopen t gs => simp only [TOp.step, Option.some.injEq] at hs; subst hs; exact open_inv ih t gs hv
    | failed n =>
      simp only [TOp.step, Option.some.injEq] at hs
      subst hs
      exact ⟨ih.valid, ih.size, ih.threads, ih.apart, ih.own, by have := ih.next; simp only [failTls]; omega⟩
    | access t m off base =>
      simp only [TOp.step, Option.map_eq_some_iff] at hs
      obtain ⟨⟨r, q⟩, hq, rfl⟩ := hs
      exact access_inv ih hv.1 hq
    | write mem =>
      simp only [TOp.step, Option.some.injEq] at hs
      subst hs
      exact ⟨ih.valid, ih.size, ih.threads, ih.apart, ih.own, ih.next⟩

end Verif.Ldso
