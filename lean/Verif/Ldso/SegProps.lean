import Verif.Ldso.MapModel
/-!
# C85: the segments of an object and their protections
-/

namespace Verif.Ldso

open Verif.Mem

/-- A well-formed object: segments are in the file and not larger in the file than in memory, and do not overlap; alignments
are not 0. -/
structure ObjOk (data : List UInt8) (phs : List Ph) : Prop where
  align : ∀ ph ∈ phs, 0 < ph.align
  some : ∃ ph ∈ phs, ph.type = .load
  file : ∀ ph ∈ phs, ph.type = .load → ph.offset + ph.filesz ≤ data.length ∧ ph.filesz ≤ ph.memsz
  apart : phs.Pairwise fun p q => p.type = .load → q.type = .load → p.vaddr + p.memsz ≤ q.vaddr ∨ q.vaddr + q.memsz ≤ p.vaddr

theorem upTo_le (n a : Nat) (h : 0 < a) : n ≤ upTo n a := by
  unfold upTo
  have h1 := Nat.div_add_mod (n + a - 1) a
  have h2 := Nat.mod_lt (n + a - 1) h
  rw [Nat.mul_comm] at h1
  omega

theorem bounds_spec : ∀ (phs : List Ph) (b : Option (Nat × Nat)), (∀ ph ∈ phs, 0 < ph.align) →
    ∃ r, boundsLoop phs b = some r ∧
      (∀ lo hi, b = some (lo, hi) → ∃ lo' hi', r = some (lo', hi') ∧ lo' ≤ lo ∧ hi ≤ hi') ∧
      (∀ ph ∈ phs, ph.type = .load → ∃ lo' hi', r = some (lo', hi') ∧ lo' ≤ ph.vaddr - ph.vaddr % ph.align ∧
        ph.vaddr + ph.memsz ≤ hi') ∧
      (∀ lo' hi', r = some (lo', hi') → (∃ hi, b = some (lo', hi)) ∨
        ∃ ph ∈ phs, ph.type = .load ∧ lo' = ph.vaddr - ph.vaddr % ph.align) := by
  intro phs
  induction phs with
  | nil =>
    intro b _
    refine ⟨b, rfl, fun lo hi h => ⟨lo, hi, h, Nat.le_refl _, Nat.le_refl _⟩, by simp, ?_⟩
    intro lo hi h; exact .inl ⟨hi, h⟩
  | cons ph phs ih =>
    intro b ha
    have ha1 := ha ph List.mem_cons_self
    have ha2 : ∀ q ∈ phs, 0 < q.align := fun q hq => ha q (List.mem_cons_of_mem _ hq)
    have hm := Nat.mod_le ph.vaddr ph.align
    have hu := upTo_le (ph.memsz + ph.vaddr % ph.align) ph.align ha1
    unfold boundsLoop
    rw [if_neg (by omega)]
    dsimp only
    cases ht : ph.type with
    | other =>
      obtain ⟨r, h1, h2, h3, h4⟩ := ih b ha2
      refine ⟨r, h1, h2, ?_, ?_⟩
      · intro q hq hl
        rcases List.mem_cons.1 hq with rfl | hq
        · rw [ht] at hl; exact absurd hl (by simp)
        · exact h3 q hq hl
      · intro lo hi h
        rcases h4 lo hi h with h | ⟨q, hq, h⟩
        · exact .inl h
        · exact .inr ⟨q, List.mem_cons_of_mem _ hq, h⟩
    | load =>
      cases b with
      | none =>
        dsimp only
        obtain ⟨r, h1, h2, h3, h4⟩ := ih (some (ph.vaddr - ph.vaddr % ph.align, ph.vaddr - ph.vaddr % ph.align +
          upTo (ph.memsz + ph.vaddr % ph.align) ph.align)) ha2
        refine ⟨r, h1, by simp, ?_, ?_⟩
        · intro q hq hl
          rcases List.mem_cons.1 hq with rfl | hq
          · obtain ⟨lo, hi, e, l1, l2⟩ := h2 _ _ rfl
            exact ⟨lo, hi, e, l1, by omega⟩
          · exact h3 q hq hl
        · intro lo hi h
          rcases h4 lo hi h with ⟨hi', h⟩ | ⟨q, hq, h⟩
          · exact .inr ⟨ph, List.mem_cons_self, ht, by simp at h; exact h.1.symm⟩
          · exact .inr ⟨q, List.mem_cons_of_mem _ hq, h⟩
      | some b =>
        obtain ⟨lo0, hi0⟩ := b
        dsimp only
        obtain ⟨r, h1, h2, h3, h4⟩ := ih (some (if ph.vaddr - ph.vaddr % ph.align < lo0 then ph.vaddr - ph.vaddr % ph.align else lo0,
          if ph.vaddr - ph.vaddr % ph.align + upTo (ph.memsz + ph.vaddr % ph.align) ph.align > hi0 then
            ph.vaddr - ph.vaddr % ph.align + upTo (ph.memsz + ph.vaddr % ph.align) ph.align else hi0)) ha2
        obtain ⟨lo, hi, e, l1, l2⟩ := h2 _ _ rfl
        refine ⟨r, h1, ?_, ?_, ?_⟩
        · intro lo' hi' h
          cases h
          refine ⟨lo, hi, e, ?_, ?_⟩
          · split at l1 <;> omega
          · split at l2 <;> omega
        · intro q hq hl
          rcases List.mem_cons.1 hq with rfl | hq
          · refine ⟨lo, hi, e, ?_, ?_⟩
            · split at l1 <;> omega
            · split at l2 <;> omega
          · exact h3 q hq hl
        · intro lo' hi' h
          rcases h4 lo' hi' h with ⟨hi'', h⟩ | ⟨q, hq, h⟩
          · simp only [Option.some.injEq, Prod.mk.injEq] at h
            split at h
            · exact .inr ⟨ph, List.mem_cons_self, ht, h.1.symm⟩
            · exact .inl ⟨hi0, by rw [h.1]⟩
          · exact .inr ⟨q, List.mem_cons_of_mem _ hq, h⟩

theorem copySegs_spec (data : List UInt8) (pie : Bool) (ptr size : Nat) : ∀ (phs : List Ph) (mem : Mem UInt8),
    (∀ ph ∈ phs, ph.type = .load → ph.offset + ph.filesz ≤ data.length ∧ ph.filesz ≤ ph.memsz) →
    (phs.Pairwise fun p q => p.type = .load → q.type = .load → p.vaddr + p.memsz ≤ q.vaddr ∨ q.vaddr + q.memsz ≤ p.vaddr) →
    (∀ ph ∈ phs, ph.type = .load → if pie then ph.vaddr + ph.memsz ≤ size else ptr ≤ ph.vaddr ∧ ph.vaddr + ph.memsz ≤ ptr + size) →
    ∃ mem', copySegs data pie ptr size phs mem = some mem' ∧
      (∀ x, (∀ ph ∈ phs, ph.type = .load → ¬ ((if pie then ptr else 0) + ph.vaddr ≤ x ∧
        x < (if pie then ptr else 0) + ph.vaddr + ph.filesz)) → mem' x = mem x) ∧
      (∀ ph ∈ phs, ph.type = .load → ∀ k, k < ph.filesz → mem' ((if pie then ptr else 0) + ph.vaddr + k) = data[ph.offset + k]?) := by
  intro phs
  induction phs with
  | nil => intro mem _ _ _; exact ⟨mem, rfl, fun _ _ => rfl, by simp⟩
  | cons ph phs ih =>
    intro mem hf hp hb
    have hf2 : ∀ q ∈ phs, q.type = .load → q.offset + q.filesz ≤ data.length ∧ q.filesz ≤ q.memsz :=
      fun q hq => hf q (List.mem_cons_of_mem _ hq)
    have hb2 := fun q hq => hb q (List.mem_cons_of_mem _ hq)
    rw [List.pairwise_cons] at hp
    unfold copySegs
    cases ht : ph.type with
    | other =>
      obtain ⟨mem', h1, h2, h3⟩ := ih mem hf2 hp.2 hb2
      refine ⟨mem', h1, ?_, ?_⟩
      · intro x hx
        exact h2 x fun q hq hl => hx q (List.mem_cons_of_mem _ hq) hl
      · intro q hq hl
        rcases List.mem_cons.1 hq with rfl | hq
        · rw [ht] at hl; exact absurd hl (by simp)
        · exact h3 q hq hl
    | load =>
      obtain ⟨f1, f2⟩ := hf ph List.mem_cons_self ht
      have hb1 := hb ph List.mem_cons_self ht
      dsimp only
      rw [if_pos f1]
      have hlen : ((data.drop ph.offset).take ph.filesz).length = ph.filesz := by simp; omega
      -- where it is written
      have hat : ∃ i, (if pie = true then some ph.vaddr else if ptr ≤ ph.vaddr then some (ph.vaddr - ptr) else none) = some i ∧
          ptr + i = (if pie then ptr else 0) + ph.vaddr ∧ i + ph.filesz ≤ size := by
        cases pie with
        | true => exact ⟨ph.vaddr, rfl, rfl, by simp at hb1; omega⟩
        | false =>
          simp only [Bool.false_eq_true, if_false] at hb1 ⊢
          exact ⟨ph.vaddr - ptr, by rw [if_pos hb1.1], by omega, by omega⟩
      obtain ⟨i, hi, hpi, hsz⟩ := hat
      rw [hi]
      dsimp only
      rw [hlen, if_pos hsz, hpi]
      obtain ⟨mem', h1, h2, h3⟩ := ih (patch mem ((if pie then ptr else 0) + ph.vaddr) ((data.drop ph.offset).take ph.filesz)) hf2 hp.2 hb2
      refine ⟨mem', h1, ?_, ?_⟩
      · intro x hx
        rw [h2 x fun q hq hl => hx q (List.mem_cons_of_mem _ hq) hl]
        have := hx ph List.mem_cons_self ht
        exact patch_out (by rw [hlen]; omega)
      · intro q hq hl
        rcases List.mem_cons.1 hq with rfl | hq
        · intro k hk
          rw [h2 _ (by
            intro r hr hrl
            have := hp.1 r hr ht hrl
            have := (hf2 r hr hrl).2
            omega)]
          rw [patch_in (by rw [hlen]; exact hk)]
          rw [List.getElem?_take_of_lt hk, List.getElem?_drop]
        · exact h3 q hq hl

/-- A well-formed object, position independent from address 0 on or not position independent with addresses above 0, is mapped:
each segment has the bytes of the file at its address, zeros up to its size in memory, and nothing outside the mapping changes. -/
theorem C85_mapped_partial (data : List UInt8) (phs : List Ph) (pie : Bool) (chosen : Nat) (mem : Mem UInt8) (hok : ObjOk data phs)
    (hpie : if pie then ∃ ph ∈ phs, ph.type = .load ∧ ph.vaddr < ph.align
      else ∀ ph ∈ phs, ph.type = .load → ph.align ≤ ph.vaddr) :
    ∃ ptr size mem', mapObject data phs pie chosen mem = some (.ok ptr size mem') ∧ (pie = true → ptr = chosen) ∧
      (∀ ph ∈ phs, ph.type = .load →
        ptr ≤ (if pie then ptr else 0) + ph.vaddr ∧ (if pie then ptr else 0) + ph.vaddr + ph.memsz ≤ ptr + size ∧
        Bytes mem' ((if pie then ptr else 0) + ph.vaddr)
          ((data.drop ph.offset).take ph.filesz ++ List.replicate (ph.memsz - ph.filesz) 0)) ∧
      ∀ x, x < ptr ∨ ptr + size ≤ x → mem' x = mem x := by
  obtain ⟨r, h1, _, h3, h4⟩ := bounds_spec phs none hok.align
  obtain ⟨p0, hp0, hl0⟩ := hok.some
  obtain ⟨lo, hi, rfl, _, _⟩ := h3 p0 hp0 hl0
  have hb : ∀ ph ∈ phs, ph.type = .load → lo ≤ ph.vaddr - ph.vaddr % ph.align ∧ ph.vaddr + ph.memsz ≤ hi := by
    intro ph hm hl
    obtain ⟨lo', hi', e, l1, l2⟩ := h3 ph hm hl
    simp at e
    exact ⟨by omega, by omega⟩
  have hlo : if pie then lo = 0 else lo ≠ 0 := by
    cases pie with
    | true =>
      simp only [if_true] at hpie ⊢
      obtain ⟨ph, hm, hl, hv⟩ := hpie
      have := (hb ph hm hl).1
      rw [Nat.mod_eq_of_lt hv] at this
      omega
    | false =>
      simp only [Bool.false_eq_true, if_false] at hpie ⊢
      rcases h4 lo hi rfl with ⟨_, h⟩ | ⟨ph, hm, hl, he⟩
      · exact absurd h (by simp)
      · have h1 := hpie ph hm hl
        have h2 := Nat.mod_lt ph.vaddr (hok.align ph hm)
        omega
  -- the address of the mapping
  obtain ⟨ptr, hptr⟩ : ∃ ptr, ptr = if lo = 0 then chosen else lo := ⟨_, rfl⟩
  have hplace : ∀ ph ∈ phs, ph.type = .load → ptr ≤ (if pie then ptr else 0) + ph.vaddr ∧
      (if pie then ptr else 0) + ph.vaddr + ph.memsz ≤ ptr + (hi - lo) := by
    intro ph hm hl
    obtain ⟨b1, b2⟩ := hb ph hm hl
    have := Nat.mod_le ph.vaddr ph.align
    cases pie with
    | true => simp only [if_true] at hlo ⊢; subst hlo; omega
    | false =>
      simp only [Bool.false_eq_true, if_false] at hlo ⊢
      rw [if_neg hlo] at hptr
      omega
  obtain ⟨mem', g1, g2, g3⟩ := copySegs_spec data pie ptr (hi - lo) phs (patch mem ptr (List.replicate (hi - lo) 0)) hok.file hok.apart (by
    intro ph hm hl
    have := hplace ph hm hl
    cases pie with
    | true => simp only [if_true] at this ⊢; omega
    | false => simp only [Bool.false_eq_true, if_false] at this ⊢; omega)
  refine ⟨ptr, hi - lo, mem', ?_, ?_, ?_, ?_⟩
  · unfold mapObject
    rw [h1]
    dsimp only
    rw [← hptr, g1]
  · intro hp
    subst hp
    simp only [if_true] at hlo
    rw [hptr, if_pos hlo]
  · intro ph hm hl
    obtain ⟨b1, b2⟩ := hplace ph hm hl
    refine ⟨b1, b2, ?_⟩
    obtain ⟨f1, f2⟩ := hok.file ph hm hl
    have hlen : ((data.drop ph.offset).take ph.filesz).length = ph.filesz := by simp; omega
    rw [bytes_iff]
    intro k hk
    rw [List.length_append, hlen, List.length_replicate] at hk
    rcases Nat.lt_or_ge k ph.filesz with hk' | hk'
    · rw [g3 ph hm hl k hk', List.getElem?_append_left (by omega), List.getElem?_take_of_lt hk', List.getElem?_drop]
    · have hz : ((data.drop ph.offset).take ph.filesz ++ List.replicate (ph.memsz - ph.filesz) (0 : UInt8))[k]? = some 0 := by
        rw [List.getElem?_append_right (by omega), hlen, List.getElem?_replicate, if_pos (by omega)]
      rw [hz, g2]
      · obtain ⟨d, hd⟩ : ∃ d, (if pie then ptr else 0) + ph.vaddr + k = ptr + d :=
          ⟨(if pie then ptr else 0) + ph.vaddr + k - ptr, by omega⟩
        rw [hd, patch_in (by rw [List.length_replicate]; omega), List.getElem?_replicate, if_pos (by omega)]
      · intro q hq hql
        by_cases hqp : q = ph
        · subst hqp; omega
        · have hd : ph.vaddr + ph.memsz ≤ q.vaddr ∨ q.vaddr + q.memsz ≤ ph.vaddr := by
            have key : ∀ (l : List Ph), (l.Pairwise fun p q => p.type = .load → q.type = .load →
                p.vaddr + p.memsz ≤ q.vaddr ∨ q.vaddr + q.memsz ≤ p.vaddr) → q ∈ l → ph ∈ l →
                ph.vaddr + ph.memsz ≤ q.vaddr ∨ q.vaddr + q.memsz ≤ ph.vaddr := by
              intro l
              induction l with
              | nil => simp
              | cons a l ihl =>
                intro hp h1 h2
                rw [List.pairwise_cons] at hp
                rcases List.mem_cons.1 h1 with rfl | h3 <;> rcases List.mem_cons.1 h2 with rfl | h4
                · exact absurd rfl hqp
                · exact (hp.1 ph h4 hql hl).symm
                · exact hp.1 q h3 hl hql
                · exact ihl hp.2 h3 h4
            exact key phs hok.apart hq hm
          have := (hok.file q hq hql).2
          omega
  · intro x hx
    rw [g2 x (by
      intro ph hm hl
      have := hplace ph hm hl
      have := (hok.file ph hm hl).2
      omega)]
    exact patch_out (by rw [List.length_replicate]; omega)

/-- A file of two segments; the second has 2 bytes in the file and 4 in memory. -/
def twoSegs : List Ph :=
  [⟨.load, 5, 0, 0, 3, 3, 4096⟩, ⟨.load, 6, 3, 0x1003, 2, 4, 4096⟩]

/-- What is at an address after mapping. -/
def after (r : Option MapRes) (x : Nat) : Option (Option UInt8) :=
  match r with
  | some (.ok _ _ m) => some (m x)
  | _ => none

def nowhere : Mem UInt8 := fun _ => none

example : ObjOk [1, 2, 3, 4, 5] twoSegs where
  align := by decide
  some := by decide
  file := by decide
  apart := by simp [twoSegs]

example : [after (mapObject [1, 2, 3, 4, 5] twoSegs true 0x700000 nowhere) 0x700001,
    after (mapObject [1, 2, 3, 4, 5] twoSegs true 0x700000 nowhere) 0x701004,
    after (mapObject [1, 2, 3, 4, 5] twoSegs true 0x700000 nowhere) 0x701005] = [some (some 2), some (some 5), some (some 0)] := by
  decide +kernel

/-- A header with alignment 0, which is allowed and means no alignment, makes the loader panic, even if it is not a segment to be
loaded (`PT_GNU_STACK` has alignment 0 with some linkers). -/
theorem C85_align_violation : ∃ phs : List Ph, (∀ ph ∈ phs, ph.type = .load → ph.align = 4096) ∧
    mapObject [1, 2, 3, 4, 5] phs true 0x700000 nowhere = none :=
  ⟨twoSegs ++ [⟨.other, 6, 0, 0, 0, 0, 0⟩], by decide, by decide +kernel⟩

/-- A position independent object whose lowest segment is not at 0 is well formed, but cannot be loaded: the mapping begins at the
lowest segment, but segments are written at their address counted from the beginning of the mapping. -/
theorem C85_base_violation : ∃ (data : List UInt8) (phs : List Ph), ObjOk data phs ∧
    mapObject data phs true 0x700000 nowhere = some .err :=
  ⟨[1, 2, 3], [⟨.load, 5, 0, 0x10000, 3, 3, 4096⟩], ⟨by decide, by decide, by decide, by simp⟩, rfl⟩

/-! ### Protections -/

/-- The segment has a byte in the page at `a`. -/
def InPage (ph : Ph) (a : Nat) : Prop := ∃ x, a ≤ x ∧ x < a + 4096 ∧ ph.vaddr ≤ x ∧ x < ph.vaddr + ph.memsz

/-- A page is writable or executable, never both. -/
theorem C85_wx (phs : List Ph) (prot : Nat → Prot) (h : ∀ a, ¬ ((prot a).write = true ∧ (prot a).exec = true)) (a : Nat) :
    ¬ ((protect phs prot a).write = true ∧ (protect phs prot a).exec = true) := by
  induction phs generalizing prot with
  | nil => exact h a
  | cons ph phs ih =>
    unfold protect
    cases ht : ph.type with
    | other => exact ih prot h
    | load =>
      dsimp only
      refine ih _ ?_
      intro b
      split
      · unfold protOf
        simp
        omega
      · exact h b

theorem covers (ph : Ph) (a : Nat) (ha : a % 4096 = 0) (hs : 0 < ph.memsz) :
    (ph.vaddr - ph.vaddr % 4096 ≤ a ∧ a < ph.vaddr - ph.vaddr % 4096 + upTo (ph.memsz + ph.vaddr % 4096) 4096) ↔ InPage ph a := by
  unfold upTo InPage
  constructor
  · rintro ⟨h1, h2⟩
    refine ⟨if a ≤ ph.vaddr then ph.vaddr else a, ?_⟩
    split <;> omega
  · rintro ⟨x, h1, h2, h3, h4⟩
    omega

/-- The pages of a segment can be read and executed as its header says, and written as its header says unless they can be executed,
if no other segment of the object has bytes in the page; other pages stay as they are. -/
theorem C85_prot_partial (phs : List Ph) (hs : ∀ ph ∈ phs, ph.type = .load → 0 < ph.memsz) (prot : Nat → Prot) (a : Nat)
    (ha : a % 4096 = 0) :
    (∀ ph ∈ phs, ph.type = .load → InPage ph a → (∀ q ∈ phs, q.type = .load → InPage q a → q = ph) →
      (protect phs prot a).read = ph.flags.testBit 2 ∧ (protect phs prot a).exec = ph.flags.testBit 0 ∧
      (protect phs prot a).write = (ph.flags.testBit 1 && !ph.flags.testBit 0)) ∧
    ((∀ ph ∈ phs, ph.type = .load → ¬ InPage ph a) → protect phs prot a = prot a) := by
  have none' : ∀ (phs : List Ph) (prot : Nat → Prot), (∀ ph ∈ phs, ph.type = .load → 0 < ph.memsz) →
      (∀ ph ∈ phs, ph.type = .load → ¬ InPage ph a) → protect phs prot a = prot a := by
    intro phs
    induction phs with
    | nil => intro _ _ _; rfl
    | cons ph phs ih =>
      intro prot hs h
      unfold protect
      cases ht : ph.type with
      | other => exact ih prot (fun q hq => hs q (List.mem_cons_of_mem _ hq)) (fun q hq => h q (List.mem_cons_of_mem _ hq))
      | load =>
        dsimp only
        rw [ih _ (fun q hq => hs q (List.mem_cons_of_mem _ hq)) (fun q hq => h q (List.mem_cons_of_mem _ hq))]
        rw [if_neg]
        rw [covers ph a ha (hs ph List.mem_cons_self ht)]
        exact h ph List.mem_cons_self ht
  refine ⟨?_, none' phs prot hs⟩
  intro ph hm hl hin huniq
  have key : ∀ (phs : List Ph) (prot : Nat → Prot), (∀ ph ∈ phs, ph.type = .load → 0 < ph.memsz) → ph ∈ phs →
      (∀ q ∈ phs, q.type = .load → InPage q a → q = ph) → protect phs prot a = protOf ph.flags := by
    intro phs
    induction phs with
    | nil => intro _ _ h; exact absurd h (by simp)
    | cons q phs ih =>
      intro prot hs h hu
      have hs2 : ∀ ph ∈ phs, ph.type = .load → 0 < ph.memsz := fun q hq => hs q (List.mem_cons_of_mem _ hq)
      have hu2 : ∀ q ∈ phs, q.type = .load → InPage q a → q = ph := fun q hq => hu q (List.mem_cons_of_mem _ hq)
      unfold protect
      by_cases hlater : ph ∈ phs
      · cases ht : q.type with
        | other => exact ih prot hs2 hlater hu2
        | load => exact ih _ hs2 hlater hu2
      · have : ph = q := by
          rcases List.mem_cons.1 h with h | h
          · exact h
          · exact absurd h hlater
        subst this
        rw [hl]
        dsimp only
        rw [none' phs _ hs2 (by
          intro r hr hrl hrin
          exact hlater (hu2 r hr hrl hrin ▸ hr))]
        rw [if_pos ((covers ph a ha (hs ph List.mem_cons_self hl)).2 hin)]
  rw [key phs prot hs hm huniq]
  unfold protOf
  have t0 : ph.flags.testBit 0 = decide (ph.flags % 2 = 1) := Nat.testBit_zero _
  have t1 : ph.flags.testBit 1 = decide (ph.flags / 2 % 2 = 1) := by rw [Nat.testBit_succ, Nat.testBit_zero]
  have t2 : ph.flags.testBit 2 = decide (ph.flags / 4 % 2 = 1) := by
    rw [Nat.testBit_succ, Nat.testBit_succ, Nat.testBit_zero, Nat.div_div_eq_div_mul]
  rw [t0, t1, t2]
  refine ⟨rfl, rfl, ?_⟩
  by_cases h1 : ph.flags % 2 = 1 <;> by_cases h2 : ph.flags / 2 % 2 = 1 <;> simp [h1, h2]

example : protect twoSegs (fun _ => ⟨true, true, false⟩) 0x1000 = ⟨true, true, false⟩ := by decide +kernel
example : protect twoSegs (fun _ => ⟨true, true, false⟩) 0 = ⟨true, false, true⟩ := by decide +kernel

/-- Two segments with bytes in one page: the page has the protection of the later one only. Code in the page of a later data segment
cannot be executed. -/
theorem C85_shared_page_violation : ∃ (phs : List Ph) (ph : Ph), ph ∈ phs ∧ ph.type = .load ∧ ph.flags = 5 ∧ InPage ph 0 ∧
    (protect phs (fun _ => ⟨true, true, false⟩) 0).exec = false :=
  ⟨[⟨.load, 5, 0, 0, 0x800, 0x800, 16⟩, ⟨.load, 6, 0x800, 0x800, 0x100, 0x100, 16⟩], ⟨.load, 5, 0, 0, 0x800, 0x800, 16⟩, by decide,
    rfl, rfl, ⟨0, by decide, by decide, by decide, by decide⟩, by decide +kernel⟩

end Verif.Ldso
