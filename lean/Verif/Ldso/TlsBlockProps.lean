import Verif.Ldso.TlsProofs
/-!
# C83: thread-local variables
-/

namespace Verif.Ldso

open Verif.Mem

/-- In the thread `t`, the block of the module `m` is at `a`: `__tls_get_addr` returns addresses in it, and changes nothing. -/
def BlockAt (p : Proc) (t m a : Nat) : Prop :=
  a ≠ 0 ∧ ∀ off base, ∃ p', tlsGetAddr p t m off base = some (a + off, p') ∧ p'.mem = p.mem

/-- The first contents of a block: the initialised part, then zeros. -/
def fresh (g : Seg) : List UInt8 := g.image ++ List.replicate (g.size - g.image.length) 0

theorem blockAt_of {p : Proc} {t i a : Nat} {th : Thread} {ms : TMaster} (ht : p.threads[t]? = some th)
    (hl : (growDtv th)[i]? = some a) (hm : th.masters[i]? = some ms) (ha : a ≠ 0) : BlockAt p t (i + 1) a := by
  refine ⟨ha, ?_⟩
  intro off base
  refine ⟨{ p with threads := p.threads.set t { th with dtv := some (growDtv th) } }, ?_, rfl⟩
  unfold tlsGetAddr
  rw [ht]
  have : th.masters ≠ [] := by rintro h; rw [h] at hm; simp at hm
  simp only [if_neg this, hl, hm, if_neg ha]

theorem static_block {segs : List Seg} {p : Proc} (h : TInv segs p) {t i : Nat} {th : Thread} {m : TMaster}
    (ht : p.threads[t]? = some th) (hm : (layout 0 segs)[i]? = some m) : BlockAt p t (i + 1) (th.tlsEnd - m.offset) := by
  have hth := h.threads t th ht
  obtain ⟨extra, hx, _⟩ := hth.masters.split
  refine blockAt_of ht ((growDtv_ok hth).2 i m hm) (ms := m) ?_ ?_
  · rw [hx, List.getElem?_append_left (List.getElem?_eq_some_iff.1 hm).1, hm]
  · have := (static_pos hth hm).2; omega

/-- The variables of the program and the libraries loaded with it: in each thread, each module has a block of its own, apart from
all others, whatever threads are created and libraries opened. It has the alignment asked for, if that is at most 16 and divides
the size. -/
theorem C83_static {segs : List Seg} {ops : List TOp} {p : Proc} (h : TRuns segs ops p) :
    ∃ addr : Nat → Nat → Nat,
      (∀ t m, t < p.threads.length → 1 ≤ m → m ≤ segs.length → BlockAt p t m (addr t m)) ∧
      (∀ t m g t' m' g', t < p.threads.length → t' < p.threads.length → 1 ≤ m → 1 ≤ m' → segs[m - 1]? = some g →
        segs[m' - 1]? = some g' → (t ≠ t' ∨ m ≠ m') → Disjoint (addr t m) g.size (addr t' m') g'.size) ∧
      (∀ t m g, t < p.threads.length → 1 ≤ m → segs[m - 1]? = some g → g.align ∣ 16 → g.align ∣ g.size →
        g.align ∣ addr t m) := by
  have hi := runs_tinv h
  have some_m : ∀ m, 1 ≤ m → m ≤ segs.length → ∃ x, (layout 0 segs)[m - 1]? = some x := by
    intro m h1 h2
    have : m - 1 < (layout 0 segs).length := by rw [layout_length]; omega
    exact ⟨_, List.getElem?_eq_getElem this⟩
  have some_t : ∀ t, t < p.threads.length → ∃ th, p.threads[t]? = some th := fun t ht => ⟨_, List.getElem?_eq_getElem ht⟩
  let addr : Nat → Nat → Nat := fun t m =>
    match p.threads[t]?, (layout 0 segs)[m - 1]? with
    | some th, some x => th.tlsEnd - x.offset
    | _, _ => 0
  have addr_eq : ∀ t m th x, p.threads[t]? = some th → (layout 0 segs)[m - 1]? = some x → addr t m = th.tlsEnd - x.offset := by
    intro t m th x h1 h2
    simp only [addr, h1, h2]
  refine ⟨addr, ?_, ?_, ?_⟩
  · intro t m ht h1 h2
    obtain ⟨th, hth⟩ := some_t t ht
    obtain ⟨x, hx⟩ := some_m m h1 h2
    rw [addr_eq t m th x hth hx]
    have := static_block hi hth hx
    rwa [show m - 1 + 1 = m by omega] at this
  · intro t m g t' m' g' ht ht' h1 h1' hg hg' hne
    obtain ⟨th, hth⟩ := some_t t ht
    obtain ⟨th', hth'⟩ := some_t t' ht'
    obtain ⟨x, hx⟩ := some_m m h1 (by have := (List.getElem?_eq_some_iff.1 hg).1; omega)
    obtain ⟨x', hx'⟩ := some_m m' h1' (by have := (List.getElem?_eq_some_iff.1 hg').1; omega)
    rw [addr_eq t m th x hth hx, addr_eq t' m' th' x' hth' hx']
    obtain ⟨y, hy, _, e2, e3, e4, _⟩ := layout_get segs 0 _ x hx
    obtain ⟨y', hy', _, e2', e3', e4', _⟩ := layout_get segs 0 _ x' hx'
    rw [hg] at hy; cases hy
    rw [hg'] at hy'; cases hy'
    have q1 := (static_pos (hi.threads t th hth) hx)
    have q2 := (static_pos (hi.threads t' th' hth') hx')
    have l1 := (hi.threads t th hth).len
    have l2 := (hi.threads t' th' hth').len
    unfold Disjoint
    rcases Nat.lt_trichotomy t t' with hlt | rfl | hlt
    · have := hi.apart t t' th th' hlt hth hth'
      omega
    · rw [hth] at hth'; cases hth'
      rcases Nat.lt_trichotomy m m' with hlt | rfl | hlt
      · have := layout_apart segs 0 (m - 1) (m' - 1) x x' (by omega) hx hx'
        omega
      · simp at hne
      · have := layout_apart segs 0 (m' - 1) (m - 1) x' x (by omega) hx' hx
        omega
    · have := hi.apart t' t th' th hlt hth' hth
      omega
  · intro t m g ht h1 hg ha hs
    obtain ⟨th, hth⟩ := some_t t ht
    obtain ⟨x, hx⟩ := some_m m h1 (by have := (List.getElem?_eq_some_iff.1 hg).1; omega)
    rw [addr_eq t m th x hth hx]
    obtain ⟨y, hy, _, e2, e3, e4, e5⟩ := layout_get segs 0 _ x hx
    rw [hg] at hy; cases hy
    have hp := (hi.threads t th hth).page
    have q := static_pos (hi.threads t th hth) hx
    have d1 : g.align ∣ th.tlsEnd := Nat.dvd_trans ha (Nat.dvd_of_mod_eq_zero (by omega))
    have d2 : g.align ∣ x.offset := by
      have : x.offset = (x.offset - x.size) + x.size := by omega
      rw [this]
      exact Nat.dvd_add (Nat.dvd_trans ha (Nat.dvd_of_mod_eq_zero e5)) (by rw [e2]; exact hs)
    exact Nat.dvd_sub d1 d2

/-- In a new thread the variables of the program and the libraries loaded with it have their initial values, and creating the
thread changes no memory in use. -/
theorem C83_new_thread {segs : List Seg} {ops : List TOp} {p p' : Proc} (h : TRuns segs ops p) {t base : Nat}
    (hb : p.brk ≤ base) (hp : base % 4096 = 0) (hc : createThread p t base = some p') :
    p'.threads.length = p.threads.length + 1 ∧ (∀ a, a < p.brk → p'.mem a = p.mem a) ∧
    ∀ m g, 1 ≤ m → segs[m - 1]? = some g → ∃ a, BlockAt p' p.threads.length m a ∧ Bytes p'.mem a (fresh g) := by
  have hi := runs_tinv h
  have hi' := create_inv hi hb hp hc
  unfold createThread at hc
  split at hc
  · exact absurd hc (by simp)
  · rename_i th ht
    dsimp only at hc
    split at hc
    · exact absurd hc (by simp)
    · rename_i mem hm
      simp only [Option.some.injEq] at hc
      subst hc
      have hth := hi.threads t th ht
      have hlen : pageUp th.tlsLen = pageUp (layoutSize 0 segs) := by rw [hth.len]; exact pageUp_idem _ (pageUp_dvd _)
      refine ⟨by simp, ?_, ?_⟩
      · intro a ha
        show mem a = p.mem a
        rw [copyMasters_below hm a (by omega)]
        unfold mapZero patch
        rw [if_neg (by omega)]
      · intro m g h1 hg
        have hml : m - 1 < (layout 0 segs).length := by
          rw [layout_length]; exact (List.getElem?_eq_some_iff.1 hg).1
        have hx := List.getElem?_eq_getElem hml
        obtain ⟨y, hy, e1, e2, _⟩ := layout_get segs 0 _ _ hx
        rw [hg] at hy; cases hy
        have hth' : (p.threads ++ [(⟨base + pageUp th.tlsLen, pageUp th.tlsLen, th.masters, none⟩ : Thread)])[p.threads.length]? =
            some ⟨base + pageUp th.tlsLen, pageUp th.tlsLen, th.masters, none⟩ := by simp
        refine ⟨base + pageUp th.tlsLen - (layout 0 segs)[m - 1].offset, ?_, ?_⟩
        · have := static_block hi' hth' hx
          rwa [show m - 1 + 1 = m by omega] at this
        · have := copy_static hi.valid hth.masters (by rw [hlen]; exact pageUp_ge _) (by omega) hm ?_ _ _ hx
          · unfold fresh; rw [← e1, ← e2]; exact this
          · intro a ha1 ha2
            unfold mapZero patch
            rw [if_pos (by simp; omega), List.getElem?_replicate, if_pos (by omega)]

/-- So they have in the first thread. -/
theorem C83_start {segs : List Seg} {base : Nat} (hv : ∀ g ∈ segs, g.image.length ≤ g.size) (h0 : 0 < base)
    (hp : base % 4096 = 0) : ∃ p, startTls segs base = some p ∧ p.threads.length = 1 ∧
    ∀ m g, 1 ≤ m → segs[m - 1]? = some g → ∃ a, BlockAt p 0 m a ∧ Bytes p.mem a (fresh g) := by
  have ok : ∃ mem', copyMasters (base + pageUp (layoutSize 0 segs)) (pageUp (layoutSize 0 segs)) (layout 0 segs)
      (mapZero (fun _ => none) base (pageUp (layoutSize 0 segs))) = some mem' := by
    unfold copyMasters
    split
    · exact ⟨_, rfl⟩
    · refine copyLoop_ok _ _ ?_
      intro m hm
      obtain ⟨i, hi⟩ := List.mem_iff_getElem?.1 hm
      obtain ⟨g, hg, e1, e2, e3, e4, _⟩ := layout_get segs 0 i m hi
      have := hv g (List.mem_of_getElem? hg)
      have := pageUp_ge (layoutSize 0 segs)
      rw [e1]; omega
  obtain ⟨mem', hm⟩ := ok
  have hs : ∃ p, startTls segs base = some p ∧ p.mem = mem' ∧ p.threads =
      [⟨base + pageUp (layoutSize 0 segs), pageUp (layoutSize 0 segs), layout 0 segs,
        some ((layout 0 segs).map fun m => base + pageUp (layoutSize 0 segs) - m.offset)⟩] := by
    unfold startTls
    dsimp only
    rw [hm]
    exact ⟨_, rfl, rfl, rfl⟩
  obtain ⟨p, hs, e1, e2⟩ := hs
  refine ⟨p, hs, by rw [e2]; rfl, ?_⟩
  intro m g h1 hg
  have hi := start_inv hv h0 hp hs
  have hml : m - 1 < (layout 0 segs).length := by
    rw [layout_length]; exact (List.getElem?_eq_some_iff.1 hg).1
  have hx := List.getElem?_eq_getElem hml
  obtain ⟨y, hy, f1, f2, _⟩ := layout_get segs 0 _ _ hx
  rw [hg] at hy; cases hy
  have hth : p.threads[0]? = some ⟨base + pageUp (layoutSize 0 segs), pageUp (layoutSize 0 segs), layout 0 segs,
        some ((layout 0 segs).map fun m => base + pageUp (layoutSize 0 segs) - m.offset)⟩ := by rw [e2]; rfl
  refine ⟨base + pageUp (layoutSize 0 segs) - (layout 0 segs)[m - 1].offset, ?_, ?_⟩
  · have := static_block hi hth hx
    rwa [show m - 1 + 1 = m by omega] at this
  · have := copy_static hv (hi.threads 0 _ hth).masters (pageUp_ge _) (by omega) hm ?_ _ _ hx
    · unfold fresh; rw [← f1, ← f2, e1]; exact this
    · intro a ha1 ha2
      unfold mapZero patch
      rw [if_pos (by simp; omega), List.getElem?_replicate, if_pos (by omega)]

/-- An address a thread has got stays: whatever happens afterwards, the block of the module is where it was. -/
theorem C83_stable {p p1 : Proc} {t m off base r : Nat} (h0 : 0 < base) (ha : tlsGetAddr p t m off base = some (r, p1)) (hr : r ≠ 0) (ops' : List TOp) (p2 : Proc)
    (hs : ops'.foldlM TOp.step p1 = some p2) : off ≤ r ∧ BlockAt p2 t m (r - off) := by
  -- what the table of the thread says
  let Held (p : Proc) (a : Nat) : Prop := ∃ (i : Nat) (th : Thread) (l : List Nat) (ms : TMaster), m = i + 1 ∧
    p.threads[t]? = some th ∧ th.dtv = some l ∧ l[i]? = some a ∧ th.masters[i]? = some ms
  have grow : ∀ (th : Thread) (l : List Nat) (i a : Nat), th.dtv = some l → l[i]? = some a → (growDtv th)[i]? = some a := by
    intro th l i a h1 h2
    unfold growDtv
    rw [h1]
    dsimp only
    rw [List.getElem?_append_left (List.getElem?_eq_some_iff.1 h2).1]; exact h2
  have step : ∀ (q q' : Proc) (op : TOp) (a : Nat), a ≠ 0 → Held q a → op.step q = some q' → Held q' a := by
    intro q q' op a ha ⟨i, th, l, ms, e0, e1, e2, e3, e4⟩ hq
    cases op with
    | create t' b =>
      simp only [TOp.step] at hq
      unfold createThread at hq
      split at hq
      · exact absurd hq (by simp)
      · dsimp only at hq
        split at hq
        · exact absurd hq (by simp)
        · simp only [Option.some.injEq] at hq
          subst hq
          refine ⟨i, th, l, ms, e0, ?_, e2, e3, e4⟩
          show (q.threads ++ _)[t]? = _
          rw [List.getElem?_append_left (List.getElem?_eq_some_iff.1 e1).1]; exact e1
    | dlopen t' gs =>
      simp only [TOp.step, Option.some.injEq] at hq
      subst hq
      by_cases htt : t' = t
      · refine ⟨i, { th with masters := th.masters ++ gs.map fun g => ⟨g.image, g.size, align16 q.tlsSize + g.size⟩ }, l, ms,
          e0, ?_, e2, e3, ?_⟩
        · simp [openTls, e1, htt]
        · show (th.masters ++ _)[i]? = _
          rw [List.getElem?_append_left (List.getElem?_eq_some_iff.1 e4).1]; exact e4
      · refine ⟨i, th, l, ms, e0, ?_, e2, e3, e4⟩
        simp [openTls, e1, htt]
    | failed n =>
      simp only [TOp.step, Option.some.injEq] at hq
      subst hq
      exact ⟨i, th, l, ms, e0, e1, e2, e3, e4⟩
    | access t' m' off' b =>
      simp only [TOp.step, Option.map_eq_some_iff] at hq
      obtain ⟨⟨r', q''⟩, hq, rfl⟩ := hq
      obtain ⟨th', ht', _, c⟩ := tlsGetAddr_cases hq
      have key : ∀ l' mem brk, (t' = t → l'[i]? = some a) →
          Held { q with mem, threads := q.threads.set t' { th' with dtv := some l' }, brk } a := by
        intro l' mem brk hl'
        by_cases htt : t' = t
        · subst htt
          rw [e1] at ht'; cases ht'
          refine ⟨i, { th with dtv := some l' }, l', ms, e0, ?_, rfl, hl' rfl, e4⟩
          show (q.threads.set t' _)[t']? = _
          rw [List.getElem?_set, if_pos rfl, if_pos (List.getElem?_eq_some_iff.1 e1).1]
        · refine ⟨i, th, l, ms, e0, ?_, e2, e3, e4⟩
          show (q.threads.set t' _)[t]? = _
          rw [List.getElem?_set, if_neg htt]; exact e1
      have hgrow : t' = t → (growDtv th')[i]? = some a := by
        rintro rfl
        rw [e1] at ht'; cases ht'
        exact grow th l i a e2 e3
      rcases c with ⟨_, rfl⟩ | ⟨j, b', ms', _, _, _, _, _, rfl⟩ | ⟨j, ms', _, g3, _, _, rfl⟩
      · exact key _ q.mem q.brk hgrow
      · exact key _ q.mem q.brk hgrow
      · refine key _ _ _ ?_
        intro htt
        rw [List.getElem?_set, if_neg]
        · exact hgrow htt
        · rintro rfl
          rw [hgrow htt] at g3
          exact ha (by simpa using g3)
    | write mem =>
      simp only [TOp.step, Option.some.injEq] at hq
      subst hq
      exact ⟨i, th, l, ms, e0, e1, e2, e3, e4⟩
  have steps : ∀ (ops : List TOp) (q q' : Proc) (a : Nat), a ≠ 0 → Held q a → ops.foldlM TOp.step q = some q' → Held q' a := by
    intro ops
    induction ops with
    | nil => intro q q' a _ hq h; simp at h; subst h; exact hq
    | cons op ops ih =>
      intro q q' a h0 hq h
      rw [List.foldlM_cons] at h
      cases h1 : op.step q with
      | none => rw [h1] at h; simp at h
      | some q1 =>
        rw [h1] at h
        exact ih q1 q' a h0 (step q q1 op a h0 hq h1) (by simpa using h)
  -- after the call
  have first : ∃ a, a ≠ 0 ∧ r = a + off ∧ Held p1 a := by
    obtain ⟨th, ht, _, c⟩ := tlsGetAddr_cases ha
    have hset : ∀ x : Thread, (p.threads.set t x)[t]? = some x := by
      intro x
      rw [List.getElem?_set, if_pos rfl, if_pos (List.getElem?_eq_some_iff.1 ht).1]
    rcases c with ⟨h1, _⟩ | ⟨i, a, ms, h1, h2, h3, h4, h5, rfl⟩ | ⟨i, ms, h1, g3, h3, h5, rfl⟩
    · exact absurd h1 hr
    · exact ⟨a, h4, h5, i, _, growDtv th, ms, h1, hset _, rfl, h2, h3⟩
    · refine ⟨base, by omega, h5, i, _, (growDtv th).set i base, ms, h1, hset _, rfl, ?_, h3⟩
      rw [List.getElem?_set, if_pos rfl, if_pos (List.getElem?_eq_some_iff.1 g3).1]
  obtain ⟨a, a0, ra, hh⟩ := first
  obtain ⟨i, th, l, ms, e0, e1, e2, e3, e4⟩ := steps ops' p1 p2 a a0 hh hs
  refine ⟨by omega, ?_⟩
  rw [show r - off = a by omega, e0]
  exact blockAt_of e1 (grow th l i a e2 e3) e4 a0

/-! ### The first thread, as long as only it opens libraries -/

/-- Only the first thread opens libraries, and always with success. -/
def OnlyMain (ops : List TOp) : Prop := ∀ op ∈ ops, match op with
  | .dlopen t _ => t = 0
  | .failed _ => False
  | _ => True

structure MInv (segs : List Seg) (p : Proc) (th : Thread) (l : List Nat) : Prop where
  first : p.threads[0]? = some th
  next : p.nextTls = th.masters.length + 1
  own : ∀ (i : Nat) (ms : TMaster), th.masters[i]? = some ms → ∃ g, p.own (i + 1) = some g ∧ ms.image = g.image ∧
    ms.size = g.size ∧ g.image.length ≤ g.size
  dtv : th.dtv = some l
  block : ∀ (i a : Nat) (ms : TMaster), segs.length ≤ i → l[i]? = some a → th.masters[i]? = some ms → a ≠ 0 →
    a + ms.size ≤ p.brk ∧
    (∀ (t : Nat) (th' : Thread), p.threads[t]? = some th' → Disjoint a ms.size (th'.tlsEnd - th'.tlsLen) th'.tlsLen) ∧
    ∀ (j b : Nat) (ms' : TMaster), segs.length ≤ j → j ≠ i → l[j]? = some b → b ≠ 0 → th.masters[j]? = some ms' →
      Disjoint a ms.size b ms'.size

theorem MInv.grow {segs : List Seg} {p : Proc} {th : Thread} {l : List Nat} (h : MInv segs p th l) :
    MInv segs { p with threads := p.threads.set 0 { th with dtv := some (growDtv th) } } { th with dtv := some (growDtv th) }
      (growDtv th) := by
  have hg : growDtv th = l ++ List.replicate (th.masters.length - l.length) 0 := by unfold growDtv; rw [h.dtv]
  have back : ∀ (i a : Nat), (growDtv th)[i]? = some a → a ≠ 0 → l[i]? = some a := by
    intro i a hi ha
    rw [hg] at hi
    rcases Nat.lt_or_ge i l.length with hlt | hge
    · rwa [List.getElem?_append_left hlt] at hi
    · rw [List.getElem?_append_right hge, List.getElem?_replicate] at hi
      split at hi
      · simp at hi; omega
      · exact absurd hi (by simp)
  have get : ∀ (k : Nat) (x : Thread), (p.threads.set 0 { th with dtv := some (growDtv th) })[k]? = some x →
      ∃ y : Thread, p.threads[k]? = some y ∧ x.tlsEnd = y.tlsEnd ∧ x.tlsLen = y.tlsLen := by
    intro k x hx
    rw [List.getElem?_set] at hx
    split at hx
    · rename_i hk
      subst hk
      split at hx
      · cases hx; exact ⟨th, h.first, rfl, rfl⟩
      · exact absurd hx (by simp)
    · exact ⟨x, hx, rfl, rfl⟩
  refine ⟨?_, h.next, h.own, rfl, ?_⟩
  · show (p.threads.set 0 _)[0]? = _
    rw [List.getElem?_set, if_pos rfl, if_pos (List.getElem?_eq_some_iff.1 h.first).1]
  · intro i a ms hi ha hms h0
    obtain ⟨b1, b2, b3⟩ := h.block i a ms hi (back i a ha h0) hms h0
    refine ⟨b1, ?_, ?_⟩
    · intro t th' ht'
      obtain ⟨y, hy, e1, e2⟩ := get t th' ht'
      rw [e1, e2]; exact b2 t y hy
    · intro j b ms' hj hji hb h0' hms'
      exact b3 j b ms' hj hji (back j b hb h0') h0' hms'

theorem runs_minv {segs : List Seg} {ops : List TOp} {p : Proc} (h : TRuns segs ops p) (ho : OnlyMain ops) :
    ∃ th l, MInv segs p th l := by
  induction h with
  | @start base p hv h0 h1 h =>
    unfold startTls at h
    dsimp only at h
    split at h
    · exact absurd h (by simp)
    · simp only [Option.some.injEq] at h
      subst h
      refine ⟨_, _, rfl, by simp, ?_, rfl, ?_⟩
      · intro i ms hi
        obtain ⟨g, hg, e1, e2, _⟩ := layout_get segs 0 i ms hi
        exact ⟨g, by simpa using hg, e1, e2, hv g (List.mem_of_getElem? hg)⟩
      · intro i a ms hi ha
        rw [List.getElem?_eq_none (by simpa using hi)] at ha
        exact absurd ha (by simp)
  | @step ops p op p' hr hv hs ih =>
    obtain ⟨th, l, hm⟩ := ih fun x hx => ho x (List.mem_append_left _ hx)
    have hop := ho op (List.mem_append_right _ (List.mem_singleton_self _))
    have hi := runs_tinv hr
    cases op with
    | create t base =>
      have hi' := create_inv hi hv.1 hv.2 hs
      simp only [TOp.step] at hs
      unfold createThread at hs
      split at hs
      · exact absurd hs (by simp)
      · rename_i tht htt
        dsimp only at hs
        split at hs
        · exact absurd hs (by simp)
        · simp only [Option.some.injEq] at hs
          subst hs
          have hlt := (List.getElem?_eq_some_iff.1 hm.first).1
          refine ⟨th, l, ?_, hm.next, hm.own, hm.dtv, ?_⟩
          · show (p.threads ++ _)[0]? = _
            rw [List.getElem?_append_left hlt]; exact hm.first
          · intro i a ms hi ha hms h0
            obtain ⟨b1, b2, b3⟩ := hm.block i a ms hi ha hms h0
            have hb := hv.1
            refine ⟨by dsimp only; omega, ?_, b3⟩
            intro t' th' ht'
            rcases Nat.lt_or_ge t' p.threads.length with hk | hk
            · rw [List.getElem?_append_left hk] at ht'; exact b2 t' th' ht'
            · rw [List.getElem?_append_right hk] at ht'
              cases hkk : t' - p.threads.length with
              | zero =>
                rw [hkk] at ht'
                simp at ht'
                subst ht'
                left
                dsimp only; omega
              | succ j => rw [hkk] at ht'; simp at ht'
    | dlopen t gs =>
      simp only [TOp.step, Option.some.injEq] at hs
      subst hs
      have ht0 : t = 0 := hop
      subst ht0
      have hget : ∀ (k : Nat) (x : Thread), (openTls p 0 gs).threads[k]? = some x →
          ∃ y : Thread, p.threads[k]? = some y ∧ x.tlsEnd = y.tlsEnd ∧ x.tlsLen = y.tlsLen := by
        intro k x hx
        simp only [openTls, List.getElem?_modify] at hx
        cases hy : p.threads[k]? with
        | none => rw [hy] at hx; simp at hx
        | some y =>
          rw [hy] at hx
          simp only [Option.map_eq_map, Option.map_some, Option.some.injEq] at hx
          refine ⟨y, rfl, ?_⟩
          split at hx <;> (rw [← hx]; exact ⟨rfl, rfl⟩)
      have hl : l.length ≤ th.masters.length := ((hi.threads 0 th hm.first).dtv l hm.dtv).2.1
      refine ⟨{ th with masters := th.masters ++ gs.map fun g => ⟨g.image, g.size, align16 p.tlsSize + g.size⟩ }, l, ?_, ?_, ?_,
        hm.dtv, ?_⟩
      · simp [openTls, hm.first]
      · simp only [openTls, List.length_append, List.length_map]
        rw [hm.next]; omega
      · intro i ms hms
        dsimp only at hms
        rcases Nat.lt_or_ge i th.masters.length with hlt | hge
        · rw [List.getElem?_append_left hlt] at hms
          obtain ⟨g, hg⟩ := hm.own i ms hms
          refine ⟨g, ?_, hg.2⟩
          simp only [openTls]
          rw [if_neg (by rw [hm.next]; omega)]; exact hg.1
        · rw [List.getElem?_append_right hge, List.getElem?_map] at hms
          simp only [Option.map_eq_some_iff] at hms
          obtain ⟨g, hg, rfl⟩ := hms
          refine ⟨g, ?_, rfl, rfl, hv g (List.mem_of_getElem? hg)⟩
          have := (List.getElem?_eq_some_iff.1 hg).1
          simp only [openTls]
          rw [hm.next, if_pos (by omega), show i + 1 - (th.masters.length + 1) = i - th.masters.length by omega]
          exact hg
      · intro i a ms hi' ha hms h0
        have hil := (List.getElem?_eq_some_iff.1 ha).1
        dsimp only at hms
        rw [List.getElem?_append_left (by omega)] at hms
        obtain ⟨b1, b2, b3⟩ := hm.block i a ms hi' ha hms h0
        refine ⟨b1, ?_, ?_⟩
        · intro t' th' ht'
          obtain ⟨y, hy, e1, e2⟩ := hget t' th' ht'
          rw [e1, e2]; exact b2 t' y hy
        · intro j b ms' hj hji hb h0' hms'
          have hjl := (List.getElem?_eq_some_iff.1 hb).1
          dsimp only at hms'
          rw [List.getElem?_append_left (by omega)] at hms'
          exact b3 j b ms' hj hji hb h0' hms'
    | failed n => exact absurd hop (by simp)
    | access t m off base =>
      simp only [TOp.step, Option.map_eq_some_iff] at hs
      obtain ⟨⟨r, q⟩, hq, rfl⟩ := hs
      obtain ⟨th', ht', _, c⟩ := tlsGetAddr_cases hq
      by_cases ht0 : t = 0
      · subst ht0
        rw [hm.first] at ht'; cases ht'
        have hg := hm.grow
        rcases c with ⟨_, rfl⟩ | ⟨j, b', ms', _, _, _, _, _, rfl⟩ | ⟨j, ms', rfl, g3, g4, _, rfl⟩
        · exact ⟨_, _, hg⟩
        · exact ⟨_, _, hg⟩
        · have hb := hv.1
          have get : ∀ (k : Nat) (x : Thread), (p.threads.set 0 { th with dtv := some ((growDtv th).set j base) })[k]? = some x →
              ∃ y : Thread, p.threads[k]? = some y ∧ x.tlsEnd = y.tlsEnd ∧ x.tlsLen = y.tlsLen := by
            intro k x hx
            rw [List.getElem?_set] at hx
            split at hx
            · rename_i hk
              subst hk
              split at hx
              · cases hx; exact ⟨th, hm.first, rfl, rfl⟩
              · exact absurd hx (by simp)
            · exact ⟨x, hx, rfl, rfl⟩
          have get' : ∀ (k : Nat) (y : Thread), p.threads[k]? = some y → y.tlsEnd ≤ p.brk :=
            fun k y hy => (hi.threads k y hy).below
          -- blocks got before
          have old : ∀ (i a : Nat) (ms : TMaster), segs.length ≤ i → (growDtv th)[i]? = some a → th.masters[i]? = some ms → a ≠ 0 →
              a + ms.size ≤ p.brk ∧
              (∀ (t : Nat) (th' : Thread), p.threads[t]? = some th' → Disjoint a ms.size (th'.tlsEnd - th'.tlsLen) th'.tlsLen) ∧
              ∀ (j b : Nat) (ms' : TMaster), segs.length ≤ j → j ≠ i → (growDtv th)[j]? = some b → b ≠ 0 →
                th.masters[j]? = some ms' → Disjoint a ms.size b ms'.size := by
            intro i a ms h1 h2 h3 h4
            obtain ⟨b1, b2, b3⟩ := hg.block i a ms h1 h2 h3 h4
            refine ⟨b1, ?_, b3⟩
            intro t th' ht'
            by_cases ht : t = 0
            · subst ht
              rw [hm.first] at ht'; cases ht'
              exact b2 0 { th with dtv := some (growDtv th) } hg.first
            · refine b2 t th' ?_
              show (p.threads.set 0 _)[t]? = _
              rw [List.getElem?_set, if_neg (fun e => ht e.symm)]; exact ht'
          refine ⟨{ th with dtv := some ((growDtv th).set j base) }, (growDtv th).set j base, ?_, hm.next, hm.own, rfl, ?_⟩
          · show (p.threads.set 0 _)[0]? = _
            rw [List.getElem?_set, if_pos rfl, if_pos (List.getElem?_eq_some_iff.1 hm.first).1]
          · intro i a ms hi' ha hms h0
            dsimp only at hms
            rw [List.getElem?_set] at ha
            split at ha
            · rename_i hij
              subst hij
              split at ha
              · simp only [Option.some.injEq] at ha
                subst ha
                rw [g4] at hms; cases hms
                refine ⟨Nat.le_refl _, ?_, ?_⟩
                · intro t' th' ht'
                  obtain ⟨y, hy, e1, e2⟩ := get t' th' ht'
                  have := get' t' y hy
                  have := (hi.threads t' y hy).pos
                  rw [e1, e2]
                  right; omega
                · intro k b ms' hk hkj hb' h0' hms'
                  rw [List.getElem?_set, if_neg (fun e => hkj e.symm)] at hb'
                  have := (old k b ms' hk hb' hms' h0').1
                  right; omega
              · exact absurd ha (by simp)
            · rename_i hij
              obtain ⟨b1, b2, b3⟩ := old i a ms hi' ha hms h0
              refine ⟨by dsimp only; omega, ?_, ?_⟩
              · intro t' th' ht'
                obtain ⟨y, hy, e1, e2⟩ := get t' th' ht'
                rw [e1, e2]; exact b2 t' y hy
              · intro k b ms' hk hki hb' h0' hms'
                rw [List.getElem?_set] at hb'
                split at hb'
                · split at hb'
                  · simp only [Option.some.injEq] at hb'
                    subst hb'
                    left; omega
                  · exact absurd hb' (by simp)
                · exact b3 k b ms' hk hki hb' h0' hms'
      · have keep : ∀ (l' : List Nat) (mem : Mem UInt8) (brk : Nat), p.brk ≤ brk →
            MInv segs { p with mem, threads := p.threads.set t { th' with dtv := some l' }, brk } th l := by
          intro l' mem brk hb
          refine ⟨?_, hm.next, hm.own, hm.dtv, ?_⟩
          · show (p.threads.set t _)[0]? = _
            rw [List.getElem?_set, if_neg ht0]; exact hm.first
          · intro i a ms hi' ha hms h0
            obtain ⟨b1, b2, b3⟩ := hm.block i a ms hi' ha hms h0
            refine ⟨by dsimp only; omega, ?_, b3⟩
            intro k x hx
            change (p.threads.set t { th' with dtv := some l' })[k]? = some x at hx
            rw [List.getElem?_set] at hx
            split at hx
            · rename_i hk
              subst hk
              split at hx
              · cases hx; exact b2 t th' ht'
              · exact absurd hx (by simp)
            · exact b2 k x hx
        have hb := hv.1
        rcases c with ⟨_, rfl⟩ | ⟨j, b', ms', _, _, _, _, _, rfl⟩ | ⟨j, ms', _, g3, _, _, rfl⟩
        · exact ⟨th, l, keep _ p.mem p.brk (Nat.le_refl _)⟩
        · exact ⟨th, l, keep _ p.mem p.brk (Nat.le_refl _)⟩
        · exact ⟨th, l, keep _ _ _ (by omega)⟩
    | write mem =>
      simp only [TOp.step, Option.some.injEq] at hs
      subst hs
      exact ⟨th, l, hm.first, hm.next, hm.own, hm.dtv, hm.block⟩

/-- In the first thread, a variable of any module has an address, at the first use that of a new block with the initial contents.
Partial: only as long as no other thread opens libraries and no `dlopen` fails. -/
theorem C83_main_partial {segs : List Seg} {ops : List TOp} {p : Proc} (h : TRuns segs ops p) (ho : OnlyMain ops) (m : Nat)
    (h1 : 1 ≤ m) (h2 : m < p.nextTls) : ∃ g, p.own m = some g ∧ ∀ off base, p.brk ≤ base → ∃ a p',
      tlsGetAddr p 0 m off base = some (a + off, p') ∧ (∀ x, x < p.brk → p'.mem x = p.mem x) ∧
      (BlockAt p 0 m a ∨ a = base ∧ Bytes p'.mem a (fresh g)) := by
  obtain ⟨th, l, hm⟩ := runs_minv h ho
  have hi := runs_tinv h
  have hg := growDtv_ok (hi.threads 0 th hm.first)
  have hml : m - 1 < th.masters.length := by have := hm.next; omega
  have hms := List.getElem?_eq_getElem hml
  obtain ⟨g, e1, e2, e3, e4⟩ := hm.own (m - 1) _ hms
  have hm1 : m - 1 + 1 = m := by omega
  rw [hm1] at e1
  refine ⟨g, e1, ?_⟩
  intro off base hb
  have hll : m - 1 < (growDtv th).length := by rw [hg.1]; exact hml
  have hl := List.getElem?_eq_getElem hll
  have hne : th.masters ≠ [] := by intro hc; rw [hc] at hml; simp at hml
  by_cases h0 : (growDtv th)[m - 1] = 0
  · refine ⟨base, { p with
      mem := patch p.mem base (th.masters[m - 1].image ++
        List.replicate (th.masters[m - 1].size - th.masters[m - 1].image.length) 0),
      threads := p.threads.set 0 { th with dtv := some ((growDtv th).set (m - 1) base) },
      brk := base + th.masters[m - 1].size }, ?_, ?_, ?_⟩
    · unfold tlsGetAddr
      rw [hm.first]
      dsimp only
      rw [if_neg hne]
      obtain ⟨i, rfl⟩ : ∃ i, m = i + 1 := ⟨m - 1, hm1.symm⟩
      simp only [Nat.add_sub_cancel] at hl hms h0 ⊢
      rw [hl, hms]
      simp only [h0, if_true]
    · intro x hx
      show patch _ _ _ x = _
      unfold patch
      rw [if_neg (by omega)]
    · right
      refine ⟨rfl, ?_⟩
      show Bytes (patch _ _ _) _ _
      rw [bytes_iff]
      intro i hi'
      unfold fresh at hi' ⊢
      rw [e2, e3]
      unfold patch
      rw [if_pos (by omega)]
      congr 1; omega
  · have hb := blockAt_of hm.first hl hms h0
    rw [hm1] at hb
    obtain ⟨p', q1, q2⟩ := hb.2 off base
    exact ⟨_, p', q1, by intro x _; rw [q2], .inl hb⟩

/-- Different modules have blocks apart from each other in the first thread, and apart from the static blocks of other threads
(those are within the area that begins at `tlsEnd - tlsLen`). -/
theorem C83_main_apart_partial {segs : List Seg} {ops : List TOp} {p : Proc} (h : TRuns segs ops p) (ho : OnlyMain ops)
    {m m' a a' : Nat} {g g' : Seg} (hne : m ≠ m') (hg : p.own m = some g) (hg' : p.own m' = some g')
    (hb : BlockAt p 0 m a) (hb' : BlockAt p 0 m' a') : Disjoint a g.size a' g'.size := by
  obtain ⟨th, l, hm⟩ := runs_minv h ho
  have hi := runs_tinv h
  have hth := hi.threads 0 th hm.first
  have gr := hm.grow
  have held : ∀ n x, BlockAt p 0 n x → ∃ i ms, n = i + 1 ∧ (growDtv th)[i]? = some x ∧ th.masters[i]? = some ms := by
    intro n x hx
    obtain ⟨p', q1, _⟩ := hx.2 0 (x + 1)
    obtain ⟨th', ht', _, c⟩ := tlsGetAddr_cases q1
    rw [hm.first] at ht'; cases ht'
    rcases c with ⟨c1, _⟩ | ⟨i, b, ms, c1, c2, c3, _, c5, _⟩ | ⟨i, ms, _, _, _, c5, _⟩
    · exact absurd c1 hx.1
    · exact ⟨i, ms, c1, by rw [c2]; congr 1; omega, c3⟩
    · omega
  obtain ⟨i, ms, rfl, e1, e2⟩ := held m a hb
  obtain ⟨i', ms', rfl, e1', e2'⟩ := held m' a' hb'
  obtain ⟨g0, o1, _, o2, _⟩ := hm.own i ms e2
  rw [hg] at o1; cases o1
  obtain ⟨g0, o1', _, o2', _⟩ := hm.own i' ms' e2'
  rw [hg'] at o1'; cases o1'
  rw [← o2, ← o2']
  have hii : i ≠ i' := by omega
  obtain ⟨extra, hx, _⟩ := hth.masters.split
  have stat : ∀ (k b : Nat) (x : TMaster), k < segs.length → (growDtv th)[k]? = some b → th.masters[k]? = some x →
      (layout 0 segs)[k]? = some x ∧ b = th.tlsEnd - x.offset := by
    intro k b x hk hb hx'
    rw [hx, List.getElem?_append_left (by rw [layout_length]; exact hk)] at hx'
    refine ⟨hx', ?_⟩
    rw [(growDtv_ok hth).2 k x hx'] at hb
    simpa using hb.symm
  rcases Nat.lt_or_ge i segs.length with h1 | h1
  · obtain ⟨s1, s2⟩ := stat i a ms h1 e1 e2
    have p1 := static_pos hth s1
    obtain ⟨_, _, _, z1, z2, _⟩ := layout_get segs 0 i ms s1
    rcases Nat.lt_or_ge i' segs.length with h2 | h2
    · obtain ⟨s1', s2'⟩ := stat i' a' ms' h2 e1' e2'
      have p1' := static_pos hth s1'
      obtain ⟨_, _, _, z1', z2', _⟩ := layout_get segs 0 i' ms' s1'
      unfold Disjoint
      rcases Nat.lt_or_ge i i' with hlt | hge
      · have := layout_apart segs 0 i i' ms ms' hlt s1 s1'
        omega
      · have := layout_apart segs 0 i' i ms' ms (by omega) s1' s1
        omega
    · have := (gr.block i' a' ms' h2 e1' e2' hb'.1).2.1 0 _ gr.first
      have hp := hth.pos
      unfold Disjoint at this ⊢
      dsimp only at this
      omega
  · rcases Nat.lt_or_ge i' segs.length with h2 | h2
    · obtain ⟨s1', s2'⟩ := stat i' a' ms' h2 e1' e2'
      have p1' := static_pos hth s1'
      obtain ⟨_, _, _, z1', z2', _⟩ := layout_get segs 0 i' ms' s1'
      have := (gr.block i a ms h1 e1 e2 hb.1).2.1 0 _ gr.first
      have hp := hth.pos
      unfold Disjoint at this ⊢
      dsimp only at this
      omega
    · exact (gr.block i a ms h1 e1 e2 hb.1).2.2 i' a' ms' h2 (fun e => hii e.symm) e1' hb'.1 e2'

end Verif.Ldso
