import Verif.Stdio.ReadLemmas
/-!
# Reading from a stream (C36, C38)
-/

namespace Verif.Stdio
open Verif.Mem Verif.Stdlib

/-! ## C36 -/

theorem fdopen_ok (k : Kernel) (flags : UInt32) : (fdopen k flags).ReadOk := ⟨Nat.le_refl _, Nat.le_refl _, .inl rfl⟩

theorem standard_ok (k : Kernel) (flags : UInt32) : (standard k flags).ReadOk := ⟨Nat.le_refl _, Nat.le_refl _, .inl rfl⟩

/-- C36, a new stream gives the bytes of the file from the offset of the descriptor on. -/
theorem C36_new (k : Kernel) (flags : UInt32) :
    (fdopen k flags).rest = k.data.drop k.pos ∧ (standard k flags).rest = k.data.drop k.pos := by
  constructor <;> simp [FILE.rest, FILE.slice, fdopen, standard, Buffer.bytes]

/-- C36, `getc`, `fgetc`: either the next byte is returned and taken from the stream, or `EOF` is returned, nothing is
taken, and the stream is at its end or the kernel reported an error; `feof` or `ferror` tells. -/
theorem C36_getc {f : FILE} (h : f.ReadOk) :
    ∃ r f', getc f = some (r, f') ∧
      ((∃ b : UInt8, r = b.toNat ∧ Took f [b] f' ∧ f'.flags = f.flags) ∨ r = -1 ∧ Took f [] f' ∧ Stopped f f') := by
  unfold getc
  obtain ⟨r, g, e, t, hl, hs, hfl⟩ := read_spec h (n := 1) (by omega)
  simp only [e, Option.bind_eq_bind, Option.bind_some]
  match r, t, hl, hs, hfl with
  | none, t, _, hs, _ => exact ⟨-1, g, rfl, .inr ⟨rfl, t, hs rfl⟩⟩
  | some [], t, _, hs, _ => exact ⟨-1, g, rfl, .inr ⟨rfl, t, hs rfl⟩⟩
  | some (b :: l), t, hl, _, hfl =>
    simp only [Option.getD_some, List.length_cons] at hl t hfl
    have : l = [] := List.length_eq_zero_iff.1 (by omega)
    subst this
    exact ⟨b.toNat, g, rfl, .inl ⟨b, rfl, t, hfl (List.cons_ne_nil _ _)⟩⟩

/-- C36, `ungetc` of a character: it is the next byte of the stream, and all the others follow it. -/
theorem C36_ungetc {f : FILE} (h : f.ReadOk) (c : Int32) (b : UInt8) (hc : c.toInt = b.toNat) :
    (ungetc f c).1 = c ∧ (ungetc f c).2.rest = b :: f.rest ∧ (ungetc f c).2.ReadOk ∧ (ungetc f c).2.k = f.k
      ∧ (ungetc f c).2.offset = f.offset - 1 := by
  have hb : c.toUInt32.toUInt8 = b := by
    apply UInt8.toNat_inj.1
    have h1 : c.toUInt32.toNat = b.toNat := by
      have h2 : ((c.toUInt32.toNat : Nat) : Int) = c.toInt % 2 ^ 32 := by
        have h4 : ((c.toBitVec.toNat : Nat) : Int) = (c.toBitVec.toNat : Int).bmod (2 ^ 32) % (2 ^ 32 : Nat) := by
          rw [Int.bmod_emod, Int.emod_eq_of_lt (by omega) (by have := c.toBitVec.isLt; omega)]
        change ((c.toBitVec.toNat : Nat) : Int) = c.toBitVec.toInt % 2 ^ 32
        rw [BitVec.toInt_eq_toNat_bmod]
        exact h4
      have := b.toNat_lt
      omega
    have h3 : c.toUInt32.toUInt8.toNat = c.toUInt32.toNat % 256 := rfl
    have := b.toNat_lt
    omega
  refine ⟨rfl, ?_, ⟨h.order, h.bound, h.room⟩, rfl, ?_⟩
  · change _ :: f.unget ++ f.slice ++ _ = _
    rw [hb]
    rfl
  · change (f.k.pos : Int) - f.slice.length - (_ :: f.unget).length = (f.k.pos : Int) - f.slice.length - f.unget.length - 1
    rw [List.length_cons]
    omega

/-- C36, `fread`: the bytes stored at `ptr` are the next ones of the stream; nothing else in memory changes. All of them
are delivered unless the stream is at its end or the kernel reported an error. -/
theorem C36_fread {f : FILE} (h : f.ReadOk) {m : Mem UInt8} {ptr : Nat} (size nitems : UInt64)
    (hn : size.toNat * nitems.toNat < 2 ^ 64) (hm : Mapped m ptr (size.toNat * nitems.toNat)) :
    ∃ out f', fread m ptr size nitems f = some (out.length / size.toNat, patch m ptr out, f') ∧ Took f out f'
      ∧ out.length ≤ size.toNat * nitems.toNat ∧ (out.length < size.toNat * nitems.toNat → Stopped f f') := by
  unfold fread
  by_cases hz : size = 0 ∨ nitems = 0
  · rw [if_pos hz]
    have : size.toNat * nitems.toNat = 0 := by
      rcases hz with e | e <;> rw [e] <;> simp
    exact ⟨[], f, by simp, .refl h, Nat.zero_le _, fun e => by simp [this] at e⟩
  · rw [if_neg hz]
    have e : (size * nitems).toNat = size.toNat * nitems.toNat := by rw [UInt64.toNat_mul, Nat.mod_eq_of_lt hn]
    rw [e]
    obtain ⟨out, f', e1, t, l1, s1⟩ := freadLoop_spec _ h (Nat.le_refl _) (Nat.zero_le _) hm
    simp only [Nat.zero_add, Nat.add_zero] at e1 l1 s1
    exact ⟨out, f', by simp [e1], t, l1, s1⟩

theorem int32_usize {n : Int32} (h : 0 < n.toInt) : n.toInt64.toUInt64.toNat = n.toInt.toNat := by
  have h1 : ((n.toInt64.toUInt64.toNat : Nat) : Int) = n.toInt64.toInt % 2 ^ 64 := by
    have h4 : ((n.toInt64.toBitVec.toNat : Nat) : Int) = (n.toInt64.toBitVec.toNat : Int).bmod (2 ^ 64) % (2 ^ 64 : Nat) := by
      rw [Int.bmod_emod, Int.emod_eq_of_lt (by omega) (by have := n.toInt64.toBitVec.isLt; omega)]
    change ((n.toInt64.toBitVec.toNat : Nat) : Int) = n.toInt64.toBitVec.toInt % 2 ^ 64
    rw [BitVec.toInt_eq_toNat_bmod]
    exact h4
  rw [Int32.toInt_toInt64] at h1
  have := Int32.toInt_lt n
  omega

theorem fgets_spec {f : FILE} (h : f.ReadOk) {m : Mem UInt8} {s : Nat} (max : Int32) (hn : 0 < max.toInt)
    (hm : Mapped m s max.toInt.toNat) {P : List UInt8} (hP : P = f.unget.take (min (max.toInt.toNat - 1) f.unget.length)) :
    ∃ out ret m' f', fgets m s max f = some (ret, m', f') ∧ Took f (P ++ out) f'
      ∧ (P ++ out).length ≤ max.toInt.toNat - 1 ∧ 0x0A ∉ out.dropLast
      ∧ (ret = false ∧ KernelError f f' ∧ ferror f' ≠ 0 ∧ m' = patch m s (P ++ out)
        ∨ ret = !out.isEmpty ∧ m' = patch m s (P ++ out ++ [0])
          ∧ ((P ++ out).length = max.toInt.toNat - 1 ∨ out.getLast? = some 0x0A ∨ f'.rest = [] ∧ feof f' ≠ 0)) := by
  unfold fgets
  simp only [int32_usize hn]
  generalize hnn : max.toInt.toNat = n at *
  have hn1 : 1 ≤ n := by omega
  have hPl : P.length = min (n - 1) f.unget.length := by
    rw [hP, List.length_take]
    omega
  rw [← hP]
  have hwr := writeN_eq (m := m) (p := s) (l := P) (hm.mono (by omega))
  simp only [hwr, Option.bind_eq_bind, Option.bind_some]
  generalize hf1 : ({ f with unget := f.unget.drop (min (n - 1) f.unget.length) } : FILE) = f1
  have t1 : Took f P f1 := by
    subst hf1
    refine ⟨⟨h.order, h.bound, h.room⟩, ?_, rfl, rfl, rfl, rfl, rfl, Nat.le_refl _, ?_, fun s => ⟨s.before, s.same⟩,
      List.drop_suffix _ _⟩
    · change f.unget ++ f.slice ++ _ = P ++ (f.unget.drop _ ++ f.slice ++ _)
      rw [hP, ← List.append_assoc, ← List.append_assoc, List.take_append_drop]
    · change (f.k.pos : Int) - f.slice.length - (f.unget.drop _).length = (f.k.pos : Int) - f.slice.length - f.unget.length + P.length
      rw [List.length_drop]
      omega
  have hu1 : n - 1 - P.length = 0 ∨ f1.unget = [] := by
    by_cases hc : n - 1 ≤ f.unget.length
    · left
      omega
    · right
      rw [← hf1]
      simp only [List.drop_eq_nil_iff]
      omega
  rw [← hPl]
  obtain ⟨out, r, f', e1, t2, l2, n2, x2⟩ := fgetsLoop_spec _ (m := patch m s P) (o := s + P.length)
    (left := n - 1 - P.length) (w := false) t1.ok hu1 (Nat.le_refl _) (mapped_patch (hm.part (by omega)))
  rw [e1, patch_step]
  simp only [Option.bind_some]
  have hlen : (P ++ out).length ≤ n - 1 := by
    rw [List.length_append]
    omega
  rcases x2 with ⟨q1, q2, q3⟩ | ⟨q1, q2⟩
  · subst q1
    exact ⟨out, false, _, f', rfl, t1.trans t2, hlen, n2, .inl ⟨rfl, q2.after t1, q3, rfl⟩⟩
  · subst q1
    simp only [ge_iff_le, if_pos hn1]
    have hst : store (patch m s (P ++ out)) (s + P.length + out.length) 0 = some (patch m s (P ++ out ++ [0])) := by
      have hmm : Mapped (patch m s (P ++ out)) s n := mapped_patch hm
      have := store_patch (m := patch m s (P ++ out)) (p := s + (P ++ out).length) (b := 0)
        (hmm (P ++ out).length (by omega))
      rw [List.length_append, ← Nat.add_assoc] at this
      rw [this, ← patch_step (b := [0]), List.length_append, ← Nat.add_assoc]
    rw [hst]
    refine ⟨out, _, _, f', rfl, t1.trans t2, hlen, n2, .inr ⟨by simp, rfl, ?_⟩⟩
    refine q2.imp_left fun q => ?_
    rw [List.length_append]
    omega

/-- C36, `fgets`, whatever was pushed back: the bytes stored are the next ones of the stream, at most `max - 1`, with a
NUL after them unless the kernel reported an error. -/
theorem C36_fgets {f : FILE} (h : f.ReadOk) {m : Mem UInt8} {s : Nat} (max : Int32) (hn : 0 < max.toInt)
    (hm : Mapped m s max.toInt.toNat) :
    ∃ ret out m' f', fgets m s max f = some (ret, m', f') ∧ Took f out f' ∧ out.length ≤ max.toInt.toNat - 1
      ∧ (ret = false ∧ KernelError f f' ∧ ferror f' ≠ 0 ∧ m' = patch m s out ∨ m' = patch m s (out ++ [0])) := by
  obtain ⟨out, ret, m', f', e, t, l, _, x⟩ := fgets_spec h max hn hm rfl
  exact ⟨ret, _, m', f', e, t, l, x.imp id fun q => q.2.1⟩

/-! ## C38 -/

/-- C38, full statement for one call: with room for `max` bytes at `s`, the string stored is the first line of what the
stream has to give, at most `max - 1` bytes; null is returned exactly if there is none; after an error of the kernel null
is returned. -/
def FgetsOk (f : FILE) (m : Mem UInt8) (s : Nat) (max : Int32) (r : Option (Bool × Mem UInt8 × FILE)) : Prop :=
  ∃ ret out m' f', r = some (ret, m', f') ∧ Took f out f'
    ∧ (ret = false ∧ KernelError f f' ∧ ferror f' ≠ 0 ∧ out.length < max.toInt.toNat ∧ m' = patch m s out
      ∨ LineOf (max.toInt.toNat - 1) f.rest out ∧ m' = patch m s (out ++ [0]) ∧ (ret = true ↔ out ≠ []))

/-- C38 holds if nothing was pushed back; or if what was pushed back has no newline, there is room for more, and the
file has more. Missing: other pushed-back bytes (`C38_newline_violation`, `C38_pushed_back_violation`). -/
theorem C38_fgets_partial {f : FILE} (h : f.ReadOk) {m : Mem UInt8} {s : Nat} (max : Int32) (hn : 0 < max.toInt)
    (hm : Mapped m s max.toInt.toNat)
    (hu : f.unget = [] ∨ (0x0A ∉ f.unget ∧ f.unget.length < max.toInt.toNat - 1 ∧ f.unget.length < f.rest.length)) :
    FgetsOk f m s max (fgets m s max f) := by
  obtain ⟨out, ret, m', f', e, t, l, nl, x⟩ := fgets_spec h max hn hm rfl
  generalize hP : f.unget.take (min (max.toInt.toNat - 1) f.unget.length) = P at *
  have hPnl : 0x0A ∉ P := by
    rw [← hP]
    intro hc
    have := List.mem_of_mem_take hc
    rcases hu with hu | hu
    · rw [hu] at this
      cases this
    · exact hu.1 this
  refine ⟨ret, P ++ out, m', f', e, t, ?_⟩
  rcases x with ⟨q1, q2, q3, q4⟩ | ⟨q1, q2, q3⟩
  · exact .inl ⟨q1, q2, q3, by omega, q4⟩
  · have hr := t.rest
    refine .inr ⟨⟨⟨f'.rest, hr.symm⟩, l, not_mem_dropLast_append hPnl nl, ?_⟩, q2, ?_⟩
    · rcases q3 with q3 | q3 | q3
      · exact .inl q3
      · right
        left
        rw [getLast?_append' (by intro z; rw [z] at q3; cases q3), q3]
      · right
        right
        rw [hr, q3.1, List.append_nil]
    · have hPe : P ≠ [] → out ≠ [] := by
        intro hp ho
        have hu : 0x0A ∉ f.unget ∧ f.unget.length < max.toInt.toNat - 1 ∧ f.unget.length < f.rest.length := by
          refine hu.resolve_left fun hz => hp ?_
          rw [← hP, hz]
          exact List.take_nil
        obtain ⟨_, hu2, hu3⟩ := hu
        have hPl : P.length = f.unget.length := by
          rw [← hP, List.length_take]
          omega
        rw [ho, List.append_nil] at q3 hr
        rcases q3 with q3 | q3 | q3
        · omega
        · cases q3
        · rw [hr, q3.1, List.append_nil] at hu3
          omega
      rw [q1]
      cases out with
      | nil =>
        have : P = [] := Classical.byContradiction fun z => hPe z rfl
        simp [this]
      | cons b l => simp

/-! ## `getdelim` -/

/-- `getdelim` stored the line `out`: `*lineptr` is a live block of `*n` bytes with the line and a NUL, the return value
is its length; `*lineptr` may have been moved, all other blocks are as before. -/
structure GotLine (h : Heap) (line : Nat) (out : List UInt8) (res : LineRes) : Prop where
  ret : res.ret = out.length
  n : res.n = out.length + 1
  live : res.heap.live = fun x => if x = res.line then some (out.length + 1) else if x = line then none else h.live x
  bytes : Bytes res.heap.mem res.line (out ++ [0])
  nonnull : res.line ≠ 0
  others : SameBytes (fun r => r ≠ line) h res.heap

theorem storeLine_spec {al : Allocator} (hal : al.Sound) {h : Heap} {line : Nat}
    (hl : h.live 0 = none) (hline : line = 0 ∨ ∃ old, h.live line = some old) (out : List UInt8) (f : FILE) :
    ∃ res, storeLine al h line out f = some res ∧ res.f = f ∧
      (GotLine h line out res ∨ (res.ret = -1 ∧ res.line = 0 ∧ Stdlib.Failed h 0 res.heap ∧ res.heap.errno = some .enomem)
        ∧ (realloc al h line (out.length + 1)).1 = 0) := by
  unfold storeLine
  simp only
  have hr : Stdlib.Failed h (platformRealloc al h line (out.length + 1)).1 (platformRealloc al h line (out.length + 1)).2
      ∨ ((platformRealloc al h line (out.length + 1)).1 ≠ 0
        ∧ (∀ r k, r ≠ line → h.live r = some k → (platformRealloc al h line (out.length + 1)).1 ≠ r
            ∧ Disjoint (platformRealloc al h line (out.length + 1)).1 (out.length + 1) r k)
        ∧ (platformRealloc al h line (out.length + 1)).2.live = (fun x => if x = (platformRealloc al h line (out.length + 1)).1
            then some (out.length + 1) else if x = line then none else h.live x)
        ∧ Mapped (platformRealloc al h line (out.length + 1)).2.mem (platformRealloc al h line (out.length + 1)).1 (out.length + 1)
        ∧ SameBytes (fun r => r ≠ line) h (platformRealloc al h line (out.length + 1)).2) := by
    unfold platformRealloc
    by_cases h0 : line = 0
    · subst h0
      rw [if_pos rfl]
      rcases hal.malloc h (out.length + 1) with q | q
      · exact .inl q
      · refine .inr ⟨q.nonnull, fun r k _ hk => q.fresh r k hk, ?_, q.mapped, fun r k hk _ => q.same r k hk trivial⟩
        rw [q.live]
        funext x
        by_cases hx : x = 0
        · simp [hx, hl]
        · simp [hx]
    · rw [if_neg h0]
      obtain ⟨old, hold⟩ := hline.resolve_left h0
      rcases hal.realloc h line old (out.length + 1) h0 hold with q | q
      · exact .inl q
      · exact .inr ⟨q.nonnull, q.fresh, q.live, q.mapped, q.same⟩
  unfold realloc
  generalize platformRealloc al h line (out.length + 1) = r at hr
  obtain ⟨q, h1⟩ := r
  simp only at hr ⊢
  by_cases hq : q = 0
  · subst hq
    simp only [↓reduceIte]
    rcases hr with hr | hr
    · exact ⟨_, rfl, rfl, .inr ⟨⟨rfl, rfl, ⟨rfl, hr.live, hr.same⟩, rfl⟩, trivial⟩⟩
    · exact absurd rfl hr.1
  · rcases hr with hr | ⟨r1, r2, r3, r4, r5⟩
    · exact absurd hr.null hq
    simp only [if_neg hq]
    have hw : writeN h1.mem q out = some (patch h1.mem q out) := writeN_eq (r4.mono (by omega))
    have hst : store (patch h1.mem q out) (q + out.length) 0 = some (patch h1.mem q (out ++ [0])) := by
      have hmm : Mapped (patch h1.mem q out) q (out.length + 1) := mapped_patch r4
      rw [store_patch (hmm out.length (by omega)), patch_step]
    simp only [hw, Option.bind_eq_bind, Option.bind_some, hst]
    refine ⟨_, rfl, rfl, .inl ⟨rfl, rfl, r3, bytes_patch .., hq, ?_⟩⟩
    intro r k hk hne a h1' h2'
    have hd := (r2 r k hne hk).2
    unfold Disjoint at hd
    rw [← r5 r k hk hne a h1' h2']
    exact patch_out (by rw [List.length_append]; simp only [List.length_cons, List.length_nil]; omega)

/-- C36, `getdelim` and `getline`, when nothing was pushed back: the line delivered is the next part of the stream up to
and including the first delimiter, or all the rest if there is none. -1 is returned, and nothing stored, at the end of
the stream and after an error of the kernel; and if there is no memory. Missing: pushed-back bytes
(`C36_getdelim_violation`), and after an error the bytes read before it are lost. -/
theorem C36_getdelim_partial {al : Allocator} (hal : al.Sound) {h : Heap} {line : Nat} (hl : h.live 0 = none)
    (hline : line = 0 ∨ ∃ old, h.live line = some old) (n : Nat) (d : UInt8) {f : FILE} (ok : f.ReadOk)
    (hu : f.unget = []) (he : feof f = 0) (her : ferror f = 0) :
    ∃ out res, getdelim al h line n d f = some res ∧ Took f out res.f ∧
      (res.ret = -1 ∧ res.heap = h ∧ res.line = line ∧ res.n = n
          ∧ (f.rest = [] ∧ feof res.f ≠ 0 ∨ KernelError f res.f ∧ ferror res.f ≠ 0)
        ∨ out ≠ [] ∧ d ∉ out.dropLast ∧ (out.getLast? = some d ∨ res.f.rest = [] ∧ feof res.f ≠ 0)
          ∧ (GotLine h line out res
            ∨ res.ret = -1 ∧ res.line = 0 ∧ Stdlib.Failed h 0 res.heap ∧ res.heap.errno = some .enomem)) := by
  have took_flags : ∀ {g : FILE} {out : List UInt8} (fl : UInt32), Took f out g → Took f out { g with flags := fl } :=
    fun fl t => ⟨⟨t.ok.order, t.ok.bound, t.ok.room⟩, t.rest, t.writer, t.data, t.log, t.answer, t.seekable, t.time, t.offset,
      fun s => ⟨(t.synced s).before, (t.synced s).same⟩, t.unget⟩
  have and_self : ∀ x b : UInt32, (x &&& b) &&& b = x &&& b := fun x b => by rw [UInt32.and_assoc, UInt32.and_self]
  unfold getdelim
  unfold feof at he
  unfold ferror at her
  rw [if_neg (by rw [he, her]; simp)]
  obtain ⟨out, r, g, e, t, x⟩ := readUntil_spec (f.rest.length + 1) (d := d) (acc := []) ok hu (by omega)
  simp only [e, Option.bind_eq_bind, Option.bind_some]
  rcases x with ⟨q1, q2, q3⟩ | ⟨q1, q2, q3, q4⟩
  · subst q1
    refine ⟨out, _, rfl, took_flags _ t, .inl ⟨rfl, rfl, rfl, rfl, .inr ⟨q2, ?_⟩⟩⟩
    unfold ferror at q3 ⊢
    simp only
    rwa [and_self]
  · subst q1
    simp only [List.nil_append]
    by_cases ho : out = []
    · subst ho
      have q3 := q3.resolve_left (by simp)
      refine ⟨[], _, if_pos rfl, took_flags _ t, .inl ⟨rfl, rfl, rfl, rfl, .inl ⟨?_, ?_⟩⟩⟩
      · rw [t.rest, q3.1]
        rfl
      · have := q3.2
        unfold feof at this ⊢
        simp only
        rwa [and_self]
    · rw [if_neg ho]
      by_cases hd : out.getLast? = some d
      · rw [if_pos hd]
        obtain ⟨res, e1, e2, e3⟩ := storeLine_spec hal hl hline out { g with flags := g.flags &&& F_EOF }
        refine ⟨out, res, e1, by rw [e2]; exact took_flags _ t, .inr ⟨ho, q2, .inl hd, e3.imp_right And.left⟩⟩
      · rw [if_neg hd]
        obtain ⟨res, e1, e2, e3⟩ := storeLine_spec hal hl hline out g
        refine ⟨out, res, e1, by rw [e2]; exact t, .inr ⟨ho, q2, .inr ?_, e3.imp_right And.left⟩⟩
        rw [e2]
        exact q3.resolve_left hd

/-! ## Histories -/

/-- A call on an input stream; `fread` into a fixed buffer. -/
inductive InCall where
  | getc
  | ungetc (b : UInt8)
  | fread (n : UInt64)

/-- What the program sees: the bytes it got, or the byte it pushed back. -/
inductive Event where
  | got (l : List UInt8)
  | pushed (b : UInt8)

/-- A call of the program, with what it learns from the result and from its buffer at `ptr`. -/
def InCall.run (ptr : Nat) (m : Mem UInt8) (f : FILE) : InCall → Option (Event × Mem UInt8 × FILE)
  | .getc => do
    let (r, f) ← Stdio.getc f
    some (.got (if r = -1 then [] else [UInt8.ofNat r.toNat]), m, f)
  | .ungetc b =>
    let (_, f) := Stdio.ungetc f (Int32.ofNat b.toNat)
    some (.pushed b, m, f)
  | .fread n => do
    let (r, m, f) ← Stdio.fread m ptr 1 n f
    let l ← readN m ptr r
    some (.got l, m, f)

def runIn (ptr : Nat) (m : Mem UInt8) (f : FILE) : List InCall → Option (List Event × Mem UInt8 × FILE)
  | [] => some ([], m, f)
  | c :: cs => do
    let (e, m, f) ← c.run ptr m f
    let (es, m, f) ← runIn ptr m f cs
    some (e :: es, m, f)

/-- What remains of the sequence `q` after the events, if they agree with it: the bytes the program got are its first
ones, and a byte pushed back is put in front. -/
def replay : List Event → List UInt8 → Option (List UInt8)
  | [], q => some q
  | .got l :: es, q => if l <+: q then replay es (q.drop l.length) else none
  | .pushed b :: es, q => replay es (b :: q)

theorem run_spec {ptr N : Nat} {m : Mem UInt8} {f : FILE} (h : f.ReadOk) (hm : Mapped m ptr N) (c : InCall)
    (hc : ∀ n, c = .fread n → n.toNat ≤ N) :
    ∃ e m' f', c.run ptr m f = some (e, m', f') ∧ f'.ReadOk ∧ Mapped m' ptr N
      ∧ ∀ es, replay (e :: es) f.rest = replay es f'.rest := by
  have got : ∀ {out : List UInt8} {f' : FILE}, Took f out f' → ∀ es, replay (.got out :: es) f.rest = replay es f'.rest := by
    intro out f' t es
    rw [replay, if_pos ⟨f'.rest, t.rest.symm⟩, t.rest, List.drop_left]
  cases c with
  | getc =>
    obtain ⟨r, f', e, x⟩ := C36_getc h
    unfold InCall.run
    simp only [e, Option.bind_eq_bind, Option.bind_some]
    rcases x with ⟨b, q1, q2, _⟩ | ⟨q1, q2, _⟩
    · refine ⟨_, _, _, rfl, q2.ok, hm, ?_⟩
      rw [q1, if_neg (by omega)]
      have : UInt8.ofNat (b.toNat : Int).toNat = b := by simp
      rw [this]
      exact got q2
    · refine ⟨_, _, _, rfl, q2.ok, hm, ?_⟩
      rw [q1, if_pos rfl]
      exact got q2
  | ungetc b =>
    have hb : (Int32.ofNat b.toNat).toInt = b.toNat := by
      have := b.toNat_lt
      rw [Int32.toInt_ofNat_of_lt (by omega)]
    obtain ⟨_, q1, q2, _⟩ := C36_ungetc h (Int32.ofNat b.toNat) b hb
    refine ⟨_, _, _, rfl, q2, hm, fun es => ?_⟩
    rw [replay, ← q1]
    rfl
  | fread n =>
    have hn := hc n rfl
    have h1 : (1 : UInt64).toNat = 1 := rfl
    obtain ⟨out, f', e, t, _⟩ := C36_fread h (m := m) (ptr := ptr) 1 n (by rw [h1]; have := n.toNat_lt; omega)
      (hm.mono (by rw [h1]; omega))
    unfold InCall.run
    rw [h1, Nat.div_one] at e
    simp only [e, Option.bind_eq_bind, Option.bind_some]
    rw [readN_of (bytes_patch ..) rfl]
    exact ⟨_, _, _, rfl, t.ok, mapped_patch hm, got t⟩

/-- C36, for every sequence of `getc`, `fread` and `ungetc` calls and all answers of the kernel: no call faults, and the
bytes the program gets are exactly the bytes of the file from its offset on, with pushed-back bytes re-read first, last
one first. -/
theorem C36_history {ptr N : Nat} (cs : List InCall) {m : Mem UInt8} (k : Kernel) (flags : UInt32) (hm : Mapped m ptr N)
    (hc : ∀ n, .fread n ∈ cs → n.toNat ≤ N) :
    ∃ es m' f', runIn ptr m (fdopen k flags) cs = some (es, m', f')
      ∧ replay es (k.data.drop k.pos) = some f'.rest := by
  have main : ∀ {m : Mem UInt8} {f : FILE}, f.ReadOk → Mapped m ptr N → ∃ es m' f', runIn ptr m f cs = some (es, m', f')
      ∧ replay es f.rest = some f'.rest := by
    clear hm
    induction cs with
    | nil => exact fun {m f} _ _ => ⟨[], m, f, rfl, rfl⟩
    | cons c cs ih =>
      intro m f h hm
      obtain ⟨e, m1, f1, e1, ok1, hm1, r1⟩ := run_spec h hm c (fun n hn => hc n (by rw [hn]; exact List.mem_cons_self))
      obtain ⟨es, m2, f2, e2, r2⟩ := ih (fun n hn => hc n (List.mem_cons_of_mem _ hn)) ok1 hm1
      refine ⟨e :: es, m2, f2, ?_, by rw [r1, r2]⟩
      simp [runIn, e1, e2]
  rw [← (C36_new k flags).1]
  exact main (fdopen_ok k flags) hm

/-- `n` calls of `getc`. -/
def getcs : Nat → FILE → Option (List Int × FILE)
  | 0, f => some ([], f)
  | n + 1, f => do
    let (r, f) ← getc f
    let (rs, f) ← getcs n f
    some (r :: rs, f)

/-- C36, if the kernel reports no error: reading one byte after the other gives all the bytes, then `EOF` with `feof`
set. -/
theorem C36_read_all {f : FILE} (h : f.ReadOk) (hk : ∀ t, f.k.answer t ≠ .err) :
    ∃ f', getcs (f.rest.length + 1) f = some (f.rest.map (fun b => (b.toNat : Int)) ++ [-1], f') ∧ feof f' ≠ 0 := by
  have noerr : ∀ g g' : FILE, g.k.answer = f.k.answer → ¬ KernelError g g' := by
    rintro g g' e ⟨t, _, _, x⟩
    exact hk t (by rw [← e]; exact x)
  suffices ∀ (l : List UInt8) (g : FILE), g.ReadOk → g.k.answer = f.k.answer → g.rest = l →
      ∃ f', getcs (l.length + 1) g = some (l.map (fun b => (b.toNat : Int)) ++ [-1], f') ∧ feof f' ≠ 0 from
    this f.rest f h rfl rfl
  intro l
  induction l with
  | nil =>
    intro g ok ha hr
    obtain ⟨r, f', e, x⟩ := C36_getc ok
    rcases x with ⟨b, _, q2, _⟩ | ⟨q1, q2, q3⟩
    · have := q2.rest
      rw [hr] at this
      cases this
    · rcases q3 with q3 | q3
      · exact ⟨f', by simp [getcs, e, q1], q3.2⟩
      · exact absurd q3.1 (noerr _ _ ha)
  | cons b l ih =>
    intro g ok ha hr
    obtain ⟨r, f1, e, x⟩ := C36_getc ok
    rcases x with ⟨c, q1, q2, _⟩ | ⟨q1, q2, q3⟩
    · have hr1 := q2.rest
      rw [hr] at hr1
      injection hr1 with hb hr1
      obtain ⟨f', e2, hf⟩ := ih f1 q2.ok (q2.answer.trans ha) hr1.symm
      refine ⟨f', ?_, hf⟩
      rw [List.length_cons, getcs]
      simp [e, e2, q1, hb]
    · rcases q3 with q3 | q3
      · have := q2.rest
        rw [q3.1, hr] at this
        cases this
      · exact absurd q3.1 (noerr _ _ ha)

/-! ## What does not hold -/

/-- C36 fails for `ungetc(EOF)`, which must not change the stream: a byte 0xFF is pushed back. -/
theorem C36_ungetc_eof_violation (f : FILE) : (ungetc f (-1)).2.rest = 0xFF :: f.rest := rfl

/-- C36 fails for a stream made unbuffered by `setvbuf(f, NULL, _IONBF, 0)`: it reports the end of the file at once,
without asking the kernel for a single byte. -/
theorem C36_unbuffered_violation (k : Kernel) (flags : UInt32) (hk : ∀ t, k.answer t ≠ .err) :
    ∃ f', getc (setvbuf (fdopen k flags) none 2 0) = some (-1, f') ∧ feof f' ≠ 0 ∧ f'.k.pos = k.pos
      ∧ f'.k.data = k.data := by
  have hs : ∃ g, setvbuf (fdopen k flags) none 2 0 = g ∧ g.k = k ∧ g.buffer = .unbuffered ∧ g.readPos = 0 ∧ g.readSize = 0
      ∧ g.unget = [] := by
    refine ⟨_, rfl, ?_⟩
    simp [setvbuf, fdopen, Writer.convert, BufWriter.flush, flushLoop]
  obtain ⟨g, hg, g1, g2, g3, g4, g5⟩ := hs
  rw [hg]
  unfold getc FILE.read
  simp only [g5, List.length_nil, Nat.min_zero, ne_eq, not_true_eq_false, ↓reduceIte]
  have hi : g.initBuffer = g := by
    unfold FILE.initBuffer
    rw [g2]
  unfold FILE.fillBuf
  rw [hi]
  unfold FILE.refill
  rw [if_pos (by rw [g3, g4])]
  unfold Kernel.read
  cases ha : k.answer k.time with
  | err => exact absurd ha (hk _)
  | upTo n =>
    rw [g1, ha, g2]
    simp only [Buffer.bytes, List.length_nil, Nat.zero_min, List.take_zero, Nat.add_zero]
    refine ⟨_, rfl, ?_, rfl, rfl⟩
    change (g.flags ||| F_EOF) &&& F_EOF ≠ 0
    rw [flag_or]
    decide

theorem FgetsOk.unique {f : FILE} {m : Mem UInt8} {s : Nat} {max : Int32} {ret : Bool} {m' : Mem UInt8} {f' : FILE}
    {out : List UInt8} (hk : ∀ t, f.k.answer t ≠ .err) (e : fgets m s max f = some (ret, m', f')) (t : Took f out f')
    (h : FgetsOk f m s max (fgets m s max f)) :
    LineOf (max.toInt.toNat - 1) f.rest out ∧ (ret = true ↔ out ≠ []) := by
  obtain ⟨ret1, out1, m1, f1, e1, t1, x⟩ := h
  rw [e] at e1
  cases e1
  have := t1.rest
  rw [t.rest] at this
  have := List.append_cancel_right this
  subst this
  rcases x with x | x
  · obtain ⟨t, _, _, ht⟩ := x.2.1
    exact absurd ht (hk t)
  · exact ⟨x.1, x.2.2⟩

/-- C38 fails for a stream at the end of its file to which bytes were pushed back: `fgets` takes them, stores them, and
returns null. -/
theorem C38_pushed_back_violation {f : FILE} (h : f.ReadOk) {m : Mem UInt8} {s : Nat} {max : Int32} (hn : 1 < max.toInt)
    (hm : Mapped m s max.toInt.toNat) (hk : ∀ t, f.k.answer t ≠ .err) (hu : f.unget ≠ []) (hr : f.rest = f.unget)
    (hlen : f.unget.length < max.toInt.toNat) : ¬ FgetsOk f m s max (fgets m s max f) := by
  intro hok
  obtain ⟨out, ret, m', f', e, t, l, nl, x⟩ := fgets_spec h max (by omega) hm rfl
  generalize hP : f.unget.take (min (max.toInt.toNat - 1) f.unget.length) = P at *
  have hP2 : P = f.unget := by
    rw [← hP, Nat.min_eq_right (by omega), List.take_length]
  subst hP2
  have hout : out = [] := by
    have := t.rest
    rw [hr, List.append_assoc] at this
    have := List.self_eq_append_right.1 this
    exact (List.append_eq_nil_iff.1 this).1
  subst hout
  obtain ⟨_, y⟩ := hok.unique hk e t
  rw [List.append_nil] at y
  rcases x with x | x
  · obtain ⟨t, _, _, ht⟩ := x.2.1
    exact hk t ht
  · have := y.2 hu
    rw [x.1] at this
    cases this

/-- At the end of the file ISO C leaves the array alone; here its first byte becomes NUL, so that a line read before is
lost. -/
theorem C38_end_violation {f : FILE} (h : f.ReadOk) {m : Mem UInt8} {s : Nat} {max : Int32} (hn : 1 < max.toInt)
    (hm : Mapped m s max.toInt.toNat) (hk : ∀ t, f.k.answer t ≠ .err) (hr : f.rest = []) {b : UInt8} (hb : m s = some b)
    (hb0 : b ≠ 0) : ∃ m' f', fgets m s max f = some (false, m', f') ∧ m' s = some 0 ∧ m' s ≠ m s := by
  have hu : f.unget = [] := by
    unfold FILE.rest at hr
    exact (List.append_eq_nil_iff.1 (List.append_eq_nil_iff.1 hr).1).1
  obtain ⟨ret, out, m', f', e, t, x⟩ := C38_fgets_partial h max (by omega) hm (.inl hu)
  rcases x with ⟨_, ⟨t, _, _, ht⟩, _⟩ | ⟨l, rfl, hret⟩
  · exact absurd ht (hk t)
  · have ho : out = [] := by
      have := l.front
      rw [hr] at this
      exact List.prefix_nil.1 this
    subst ho
    have : ret = false := by
      cases ret with
      | false => rfl
      | true => exact absurd rfl (hret.1 rfl)
    subst this
    have h0 : patch m s ([] ++ [(0 : UInt8)]) s = some 0 := by simp [patch]
    refine ⟨_, f', e, h0, ?_⟩
    rw [h0, hb]
    intro z
    injection z with z
    exact hb0 z.symm

/-- C38 fails if the newline that ends the line was pushed back: `fgets` does not stop there. -/
theorem C38_newline_violation {f : FILE} (h : f.ReadOk) {m : Mem UInt8} {s : Nat} {max : Int32} (hn : 2 < max.toInt)
    (hm : Mapped m s max.toInt.toNat) (hk : ∀ t, f.k.answer t ≠ .err) (hu : f.unget.head? = some 0x0A)
    (hr : 1 < f.rest.length) : ¬ FgetsOk f m s max (fgets m s max f) := by
  intro hok
  obtain ⟨out, ret, m', f', e, t, l, nl, x⟩ := fgets_spec h max (by omega) hm rfl
  generalize hP : f.unget.take (min (max.toInt.toNat - 1) f.unget.length) = P at *
  have hP2 : ∃ Q, P = 0x0A :: Q := by
    cases hc : f.unget with
    | nil =>
      rw [hc] at hu
      cases hu
    | cons b u =>
      rw [hc] at hu hP
      simp only [List.head?_cons, Option.some.injEq] at hu
      subst hu
      obtain ⟨j, hj⟩ : ∃ j, min (max.toInt.toNat - 1) (0x0A :: u).length = j + 1 :=
        ⟨min (max.toInt.toNat - 1) (0x0A :: u).length - 1, by simp only [List.length_cons]; omega⟩
      rw [hj, List.take_succ_cons] at hP
      exact ⟨_, hP.symm⟩
  obtain ⟨Q, hQ⟩ := hP2
  obtain ⟨y, _⟩ := hok.unique hk e t
  have hlong : Q ++ out ≠ [] := by
    intro hz
    obtain ⟨z1, z2⟩ := List.append_eq_nil_iff.1 hz
    rw [hQ, z1, z2] at x
    rcases x with x | ⟨_, _, x | x | x⟩
    · obtain ⟨t, _, _, ht⟩ := x.2.1
      exact hk t ht
    · simp only [List.append_nil, List.length_cons, List.length_nil] at x
      omega
    · cases x
    · have := t.rest
      rw [hQ, z1, z2, x.1] at this
      rw [this] at hr
      simp at hr
  apply y.newline
  rw [hQ, List.cons_append, List.dropLast_cons_of_ne_nil hlong]
  exact List.mem_cons_self

/-- A descriptor with these contents, at its start; every transfer is of at most two bytes. -/
def file (l : List UInt8) : Kernel := ⟨l, 0, true, [], 0, fun _ => .upTo 1⟩

/-- A stream with a buffer of four bytes given by the program. -/
def smallStream (l : List UInt8) : FILE := setvbuf (fdopen (file l) 0) (some [0, 0, 0, 0]) 0 4

theorem smallStream_ok (l : List UInt8) : (smallStream l).ReadOk := by
  refine ⟨Nat.le_refl _, Nat.zero_le _, .inr ?_⟩
  simp [smallStream, setvbuf, Buffer.bytes]

/-- C36 fails for `getdelim` and `getline` after `ungetc`: `x` is pushed back to a stream whose file is `a\n`, and the
line delivered is `a\n` and not `xa\n`; the byte pushed back stays in front of what follows. -/
theorem C36_getdelim_violation {al : Allocator} (hal : al.Sound) {h : Heap} (hl : h.live 0 = none)
    (hmem : (realloc al h 0 3).1 ≠ 0) :
    ∃ f : FILE, (ungetc (smallStream [97, 10]) 120).2 = f ∧ f.rest = [120, 97, 10]
      ∧ ∃ res, getdelim al h 0 0 10 f = some res ∧ GotLine h 0 [97, 10] res ∧ res.f.rest = [120] := by
  refine ⟨_, rfl, by decide +kernel, ?_⟩
  have hr : readUntil 10 [] (ungetc (smallStream [97, 10]) 120).2
      = some (some [97, 10], { (ungetc (smallStream [97, 10]) 120).2 with
          k := { file [97, 10] with pos := 2, time := 1 }, buffer := .mem [97, 10, 0, 0], readPos := 2, readSize := 2 }) := by
    unfold readUntil
    rfl
  unfold getdelim
  rw [if_neg (by decide +kernel)]
  simp only [hr, Option.bind_eq_bind, Option.bind_some]
  rw [if_neg (by decide), if_pos (by decide)]
  obtain ⟨res, e1, e2, e3⟩ := storeLine_spec hal hl (.inl rfl) [97, 10]
    { ({ (ungetc (smallStream [97, 10]) 120).2 with
          k := { file [97, 10] with pos := 2, time := 1 }, buffer := .mem [97, 10, 0, 0], readPos := 2, readSize := 2 } : FILE) with
      flags := (ungetc (smallStream [97, 10]) 120).2.flags &&& F_EOF }
  refine ⟨res, e1, e3.resolve_right fun q => hmem q.2, ?_⟩
  · rw [e2]
    decide +kernel

/-! ## Examples -/

/-- Reads of two bytes at a time; the first two bytes are read again after being pushed back. -/
example : (smallStream [1, 2, 3, 10, 5]).rest = [1, 2, 3, 10, 5] := by decide +kernel

example : ∃ f', getcs 6 (smallStream [1, 2, 3, 10, 5]) = some ([1, 2, 3, 10, 5, -1], f') ∧ feof f' ≠ 0 :=
  C36_read_all (smallStream_ok _) (by intro t; simp [smallStream, setvbuf, fdopen, Writer.convert, file])

example : replay [.got [1, 2], .pushed 7, .got [7, 3]] [1, 2, 3, 4] = some [4] := by decide

example : replay [.got [2]] [1, 2, 3, 4] = none := by decide

/-- A line of a stream: `fgets` with room for 8 stops after the newline, with room for 3 before it. -/
example : LineOf 7 [1, 2, 3, 10, 5] [1, 2, 3, 10] ∧ LineOf 2 [1, 2, 3, 10, 5] [1, 2] ∧ ¬ LineOf 7 [1, 2, 3, 10, 5] [1, 2] := by
  refine ⟨⟨by decide, by decide, by decide, by decide⟩, ⟨by decide, by decide, by decide, by decide⟩, fun h => ?_⟩
  have := h.most
  revert this
  decide

example (m : Mem UInt8) (s : Nat) (hm : Mapped m s 8) :
    FgetsOk (smallStream [1, 2, 3, 10, 5]) m s 8 (fgets m s 8 (smallStream [1, 2, 3, 10, 5])) :=
  C38_fgets_partial (smallStream_ok _) 8 (by decide) hm (.inl rfl)

end Verif.Stdio
