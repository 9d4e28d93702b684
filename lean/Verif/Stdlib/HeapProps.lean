import Verif.Stdlib.AllocProps
/-!
# C65: the blocks handed out by the allocation functions behave as private arrays

The specification is a ledger: for every block the program owns, its contents. It says what each call may do to the
ledger, knowing only the call and the pointer it returned.
-/

namespace Verif.Stdlib
open Verif.Mem

/-! ## Specification -/

/-- What the program does: call an allocation function, or write byte `i` of its block at `p`. -/
inductive HeapCall where
  | malloc (size : Nat)
  | calloc (nelem elsize : UInt64)
  | realloc (p size : Nat)
  | reallocarray (p : Nat) (m n : UInt64)
  | alignedAlloc (align size : UInt64)
  | posixMemalign (align size : UInt64)
  | free (p : Nat)
  | write (p i : Nat) (b : UInt8)

/-- The blocks the program owns and their contents. -/
abbrev Ledger := Nat → Option (List UInt8)

def Ledger.put (B : Ledger) (p : Nat) (l : Option (List UInt8)) : Ledger := fun x => if x = p then l else B x

/-- What the program may do: give back or resize what it owns, or null; write inside its blocks. -/
def HeapCall.Valid (B : Ledger) : HeapCall → Prop
  | .realloc p _ => p = 0 ∨ (B p).isSome
  | .reallocarray p _ _ => p = 0 ∨ (B p).isSome
  | .free p => p = 0 ∨ (B p).isSome
  | .write p i _ => ∃ l, B p = some l ∧ i < l.length
  | _ => True

/-- A call that asks for a new block of a number of bytes. -/
def HeapCall.Asks : HeapCall → Nat → Prop
  | .malloc size, n => n = size
  | .calloc a b, n => n = a.toNat * b.toNat
  | .realloc p size, n => p = 0 ∧ n = size
  | .reallocarray p a b, n => p = 0 ∧ n = a.toNat * b.toNat
  | .alignedAlloc _ size, n => n = size.toNat
  | .posixMemalign _ size, n => n = size.toNat
  | _, _ => False

/-- A call that asks for the block at `p` to be resized. -/
def HeapCall.Resizes : HeapCall → Nat → Nat → Prop
  | .realloc p size, q, n => p ≠ 0 ∧ q = p ∧ n = size
  | .reallocarray p a b, q, n => p ≠ 0 ∧ q = p ∧ n = a.toNat * b.toNat
  | _, _, _ => False

/-- The ledger before, the call, the pointer it returned (0 for the calls that return none), the ledger after. -/
inductive LedgerStep : Ledger → HeapCall → Nat → Ledger → Prop
  /-- a request for memory may be refused; then nothing changes -/
  | refused {B : Ledger} {c : HeapCall} {n : Nat} : (c.Asks n ∨ ∃ p, c.Resizes p n) → LedgerStep B c 0 B
  /-- a new block, apart from all others; `calloc` clears it -/
  | provided {B : Ledger} {c : HeapCall} {n r : Nat} {l : List UInt8} : c.Asks n → r ≠ 0 → l.length = n →
      (∀ a b, c = .calloc a b → l = List.replicate n 0) → (∀ q k, B q = some k → q ≠ r ∧ Disjoint r n q k.length) →
      LedgerStep B c r (B.put r (some l))
  /-- a resized block, at the old or a new address, with the old contents up to the smaller size -/
  | resized {B : Ledger} {c : HeapCall} {p n r : Nat} {old l : List UInt8} : c.Resizes p n → B p = some old → r ≠ 0 →
      l.length = n → (∀ i, i < old.length → i < n → l[i]? = old[i]?) →
      (∀ q k, q ≠ p → B q = some k → q ≠ r ∧ Disjoint r n q k.length) →
      LedgerStep B c r ((B.put p none).put r (some l))
  | freed {B : Ledger} {p : Nat} : p ≠ 0 → LedgerStep B (.free p) 0 (B.put p none)
  | freedNull {B : Ledger} : LedgerStep B (.free 0) 0 B
  | wrote {B : Ledger} {p i : Nat} {b : UInt8} {l : List UInt8} : B p = some l →
      LedgerStep B (.write p i b) 0 (B.put p (some (l.set i b)))

/-- The heap agrees with the ledger: the same blocks, with these contents, all apart from each other. -/
structure Agrees (h : Heap) (B : Ledger) : Prop where
  live : ∀ p, h.live p = (B p).map List.length
  nonnull : B 0 = none
  bytes : ∀ p l, B p = some l → Bytes h.mem p l
  apart : ∀ p q l k, B p = some l → B q = some k → p ≠ q → Disjoint p l.length q k.length

/-! ## The program runs -/

/-- One call on the modelled heap: the pointer returned, the new heap. -/
def HeapCall.exec (al : Allocator) (h : Heap) : HeapCall → Option (Nat × Heap)
  | .malloc size => some (Stdlib.malloc al h size)
  | .calloc a b => Stdlib.calloc al h a b
  | .realloc p size => some (Stdlib.realloc al h p size)
  | .reallocarray p a b => some (Stdlib.reallocarray al h p a b)
  | .alignedAlloc a size => some (Stdlib.alignedAlloc al h a size)
  | .posixMemalign a size =>
    let (_, p, h) := Stdlib.posixMemalign al h a size
    some (p, h)
  | .free p => some (0, Stdlib.free al h p)
  | .write p i b => do
    let m ← store h.mem (p + i) b
    some (0, { h with mem := m })

/-! ## Proofs -/

theorem Agrees.keep {h h' : Heap} {B : Ledger} (ha : Agrees h B) (q : Nat) (k : List UInt8) (hq : B q = some k)
    (hs : ∀ a, q ≤ a → a < q + k.length → h'.mem a = h.mem a) : Bytes h'.mem q k :=
  (ha.bytes q k hq).congr (fun a h1 h2 => hs a h1 h2)

theorem Agrees.liveOf {h : Heap} {B : Ledger} (ha : Agrees h B) {q : Nat} {k : List UInt8} (hq : B q = some k) :
    h.live q = some k.length := by rw [ha.live, hq]; rfl

theorem agrees_failed {h h' : Heap} {B : Ledger} {p : Nat} (ha : Agrees h B) (hf : Failed h p h') : Agrees h' B := by
  refine ⟨fun q => by rw [hf.live]; exact ha.live q, ha.nonnull, fun q k hq => ?_, ha.apart⟩
  exact ha.keep q k hq (fun a h1 h2 => hf.same q k.length (ha.liveOf hq) trivial a h1 h2)

theorem agrees_provided {h h' : Heap} {B : Ledger} {p n : Nat} (ha : Agrees h B) (hf : Provided h p h' n)
    {l : List UInt8} (hl : Bytes h'.mem p l) (hn : l.length = n) :
    Agrees h' (B.put p (some l)) ∧ ∀ q k, B q = some k → q ≠ p ∧ Disjoint p n q k.length := by
  have hd : ∀ q k, B q = some k → q ≠ p ∧ Disjoint p n q k.length := by
    intro q k hq
    have := hf.fresh q k.length (ha.liveOf hq)
    exact ⟨Ne.symm this.1, this.2⟩
  refine ⟨⟨fun q => ?_, ?_, fun q k hq => ?_, fun a b la lb h1 h2 hab => ?_⟩, hd⟩
  · rw [hf.live]
    simp only [Ledger.put]
    split
    · simp [hn]
    · exact ha.live q
  · simp only [Ledger.put]
    rw [if_neg (Ne.symm hf.nonnull)]
    exact ha.nonnull
  · simp only [Ledger.put] at hq
    split at hq
    · next e => subst e; rw [← Option.some.inj hq]; exact hl
    · exact ha.keep q k hq (fun a h1 h2 => hf.same q k.length (ha.liveOf hq) trivial a h1 h2)
  · simp only [Ledger.put] at h1 h2
    split at h1 <;> split at h2
    · next e1 e2 => exact absurd (e1.trans e2.symm) hab
    · next e1 e2 =>
      subst e1
      rw [← Option.some.inj h1, hn]
      exact (hd b lb h2).2
    · next e1 e2 =>
      subst e2
      rw [← Option.some.inj h2, hn]
      have := (hd a la h1).2
      unfold Disjoint at this ⊢
      omega
    · exact ha.apart a b la lb h1 h2 hab

theorem agrees_moved {h h' : Heap} {B : Ledger} {p n r : Nat} {old : List UInt8} (ha : Agrees h B) (hp : B p = some old)
    (hf : Moved h p old.length r h' n) {l : List UInt8} (hl : Bytes h'.mem r l) (hn : l.length = n) :
    Agrees h' ((B.put p none).put r (some l)) ∧ (∀ q k, q ≠ p → B q = some k → q ≠ r ∧ Disjoint r n q k.length) ∧
    ∀ i, i < old.length → i < n → l[i]? = old[i]? := by
  have hd : ∀ q k, q ≠ p → B q = some k → q ≠ r ∧ Disjoint r n q k.length := by
    intro q k hqp hq
    have := hf.fresh q k.length hqp (ha.liveOf hq)
    exact ⟨Ne.symm this.1, this.2⟩
  refine ⟨⟨fun q => ?_, ?_, fun q k hq => ?_, fun a b la lb h1 h2 hab => ?_⟩, hd, fun i h1 h2 => ?_⟩
  · rw [hf.live]
    simp only [Ledger.put]
    split
    · simp [hn]
    · split
      · rfl
      · exact ha.live q
  · simp only [Ledger.put]
    rw [if_neg (Ne.symm hf.nonnull), ha.nonnull, ite_self]
  · simp only [Ledger.put] at hq
    split at hq
    · next e => subst e; rw [← Option.some.inj hq]; exact hl
    · split at hq
      · cases hq
      · next e => exact ha.keep q k hq (fun a h1 h2 => hf.same q k.length (ha.liveOf hq) e a h1 h2)
  · simp only [Ledger.put] at h1 h2
    split at h1
    · next e1 =>
      subst e1
      split at h2
      · next e2 => exact absurd e2.symm hab
      · split at h2
        · cases h2
        · next e3 =>
          rw [← Option.some.inj h1, hn]
          exact (hd b lb e3 h2).2
    · split at h1
      · cases h1
      · next e1 =>
        split at h2
        · next e2 =>
          subst e2
          rw [← Option.some.inj h2, hn]
          have := (hd a la e1 h1).2
          unfold Disjoint at this ⊢
          omega
        · split at h2
          · cases h2
          · exact ha.apart a b la lb h1 h2 hab
  · have e1 := hl.get i (by omega)
    have e2 := (ha.bytes p old hp).get i h1
    rw [← e1, ← e2]
    exact hf.contents i h1 h2

theorem malloc_outcome {al : Allocator} (hal : al.Sound) (h : Heap) (size : Nat) :
    Failed h (Stdlib.malloc al h size).1 (Stdlib.malloc al h size).2 ∨
    Provided h (Stdlib.malloc al h size).1 (Stdlib.malloc al h size).2 size := by
  have hm := hal.malloc h size
  unfold Stdlib.malloc
  generalize al.malloc h size = r at hm ⊢
  obtain ⟨p, h'⟩ := r
  simp only at hm ⊢
  by_cases hp : p = 0
  · subst hp
    rw [if_pos rfl]
    rcases hm with hf | hf
    · exact .inl ⟨rfl, hf.live, hf.same⟩
    · exact absurd rfl hf.nonnull
  · rw [if_neg hp]; exact hm

theorem realloc_null_outcome {al : Allocator} (hal : al.Sound) (h : Heap) (size : Nat) :
    Failed h (Stdlib.realloc al h 0 size).1 (Stdlib.realloc al h 0 size).2 ∨
    Provided h (Stdlib.realloc al h 0 size).1 (Stdlib.realloc al h 0 size).2 size :=
  malloc_outcome hal h size

theorem realloc_outcome {al : Allocator} (hal : al.Sound) (h : Heap) {p old : Nat} (hp : p ≠ 0) (hl : h.live p = some old)
    (size : Nat) : Failed h (Stdlib.realloc al h p size).1 (Stdlib.realloc al h p size).2 ∨
    Moved h p old (Stdlib.realloc al h p size).1 (Stdlib.realloc al h p size).2 size := by
  have hm := hal.realloc h p old size hp hl
  unfold Stdlib.realloc platformRealloc
  rw [if_neg hp]
  generalize al.realloc h p size = r at hm ⊢
  obtain ⟨q, h'⟩ := r
  simp only at hm ⊢
  by_cases hq : q = 0
  · subst hq
    rw [if_pos rfl]
    rcases hm with hf | hf
    · exact .inl ⟨rfl, hf.live, hf.same⟩
    · exact absurd rfl hf.nonnull
  · rw [if_neg hq]; exact hm

theorem step_asks {h h' : Heap} {B : Ledger} {c : HeapCall} {r n : Nat} (ha : Agrees h B) (hc : c.Asks n)
    (hz : ∀ a b, c ≠ .calloc a b) (hf : Failed h r h' ∨ Provided h r h' n) :
    ∃ B', LedgerStep B c r B' ∧ Agrees h' B' := by
  rcases hf with hf | hf
  · obtain rfl := hf.null
    exact ⟨B, .refused (.inl hc), agrees_failed ha hf⟩
  · obtain ⟨l, h1, h2⟩ := hf.mapped.exists_bytes
    obtain ⟨a1, a2⟩ := agrees_provided ha hf h2 h1
    exact ⟨_, .provided hc hf.nonnull h1 (fun a b e => absurd e (hz a b)) a2, a1⟩

theorem step_resizes {h h' : Heap} {B : Ledger} {c : HeapCall} {p r n : Nat} {old : List UInt8} (ha : Agrees h B)
    (hc : c.Resizes p n) (hp : B p = some old) (hf : Failed h r h' ∨ Moved h p old.length r h' n) :
    ∃ B', LedgerStep B c r B' ∧ Agrees h' B' := by
  rcases hf with hf | hf
  · obtain rfl := hf.null
    exact ⟨B, .refused (.inr ⟨p, hc⟩), agrees_failed ha hf⟩
  · obtain ⟨l, h1, h2⟩ := hf.mapped.exists_bytes
    obtain ⟨a1, a2, a3⟩ := agrees_moved ha hp hf h2 h1
    exact ⟨_, .resized hc hp hf.nonnull h1 a3 a2, a1⟩

/-! ## C65 -/

/-- **C65**, one call. Whatever the heap, a permitted call does not fault, does to the ledger what the specification
allows, and leaves heap and ledger in agreement. -/
theorem C65_step {al : Allocator} (hal : al.Sound) (h : Heap) (B : Ledger) (ha : Agrees h B) (c : HeapCall)
    (hv : c.Valid B) : ∃ r h' B', c.exec al h = some (r, h') ∧ LedgerStep B c r B' ∧ Agrees h' B' := by
  cases c with
  | malloc size =>
    obtain ⟨B', h1, h2⟩ := step_asks (c := .malloc size) ha rfl (by simp) (malloc_outcome hal h size)
    exact ⟨_, _, B', rfl, h1, h2⟩
  | calloc a b =>
    obtain ⟨p, h', e, h1, -⟩ := C48_calloc hal h a b
    rcases h1 with ⟨hf, -⟩ | ⟨hf, hz⟩
    · obtain rfl := hf.null
      exact ⟨_, _, B, e, .refused (n := a.toNat * b.toNat) (.inl rfl), agrees_failed ha hf⟩
    · obtain ⟨a1, a2⟩ := agrees_provided ha hf hz (List.length_replicate ..)
      exact ⟨_, _, _, e, .provided (n := a.toNat * b.toNat) rfl hf.nonnull (List.length_replicate ..)
        (fun _ _ _ => rfl) a2, a1⟩
  | realloc p size =>
    by_cases hp : p = 0
    · subst hp
      obtain ⟨B', h1, h2⟩ := step_asks (c := .realloc 0 size) ha ⟨rfl, rfl⟩ (by simp) (realloc_null_outcome hal h size)
      exact ⟨_, _, B', rfl, h1, h2⟩
    · obtain ⟨old, ho⟩ := Option.isSome_iff_exists.mp (hv.resolve_left hp)
      obtain ⟨B', h1, h2⟩ := step_resizes (c := .realloc p size) ha ⟨hp, rfl, rfl⟩ ho
        (realloc_outcome hal h hp (ha.liveOf ho) size)
      exact ⟨_, _, B', rfl, h1, h2⟩
  | reallocarray p a b =>
    by_cases hp : p = 0
    · subst hp
      obtain ⟨q, h', e, h1, -⟩ := C48_reallocarray_null hal h a b
      obtain ⟨B', h1, h2⟩ := step_asks (c := .reallocarray 0 a b) ha ⟨rfl, rfl⟩ (by simp) (h1.imp_left And.left)
      exact ⟨_, _, B', congrArg some e, h1, h2⟩
    · obtain ⟨old, ho⟩ := Option.isSome_iff_exists.mp (hv.resolve_left hp)
      obtain ⟨q, h', e, h1, -⟩ := C48_reallocarray hal h hp (ha.liveOf ho) a b
      obtain ⟨B', h1, h2⟩ := step_resizes (c := .reallocarray p a b) ha ⟨hp, rfl, rfl⟩ ho (h1.imp_left And.left)
      exact ⟨_, _, B', congrArg some e, h1, h2⟩
  | alignedAlloc a size =>
    obtain ⟨h1, h2⟩ := C48_aligned_alloc hal h a size
    have : Failed h (Stdlib.alignedAlloc al h a size).1 (Stdlib.alignedAlloc al h a size).2 ∨
        Provided h (Stdlib.alignedAlloc al h a size).1 (Stdlib.alignedAlloc al h a size).2 size.toNat := by
      by_cases hk : (∃ k, a.toNat = 2 ^ k) ∧ a.toNat ∣ size.toNat
      · exact (h1 hk).imp And.left And.left
      · rw [h2 hk]; exact .inl ⟨rfl, rfl, fun _ _ _ _ _ _ _ => rfl⟩
    obtain ⟨B', h1, h2⟩ := step_asks (c := .alignedAlloc a size) ha rfl (by simp) this
    exact ⟨_, _, B', rfl, h1, h2⟩
  | posixMemalign a size =>
    obtain ⟨h1, h2⟩ := C48_posix_memalign hal h a size
    have : Failed h (Stdlib.posixMemalign al h a size).2.1 (Stdlib.posixMemalign al h a size).2.2 ∨
        Provided h (Stdlib.posixMemalign al h a size).2.1 (Stdlib.posixMemalign al h a size).2.2 size.toNat := by
      by_cases hk : (∃ k, a.toNat = 2 ^ k) ∧ 8 ∣ a.toNat
      · obtain ⟨e, p, h', e1, e2⟩ := h1 hk
        rw [e1]
        exact e2.imp And.right (fun x => x.2.1)
      · rw [h2 hk]; exact .inl ⟨rfl, rfl, fun _ _ _ _ _ _ _ => rfl⟩
    obtain ⟨B', h1, h2⟩ := step_asks (c := .posixMemalign a size) ha rfl (by simp) this
    exact ⟨_, _, B', rfl, h1, h2⟩
  | free p =>
    by_cases hp : p = 0
    · subst hp
      exact ⟨_, _, B, rfl, .freedNull, by unfold Stdlib.free; rw [if_pos rfl]; exact ha⟩
    · refine ⟨_, _, _, rfl, .freed hp, ?_⟩
      unfold Stdlib.free
      rw [if_neg hp]
      obtain ⟨f1, f2⟩ := hal.free h p
      refine ⟨fun q => ?_, ?_, fun q k hq => ?_, fun x y lx ly h1 h2 hxy => ?_⟩
      · rw [f1]; simp only [Ledger.put]; split
        · rfl
        · exact ha.live q
      · simp only [Ledger.put]; rw [ha.nonnull, ite_self]
      · simp only [Ledger.put] at hq
        split at hq
        · cases hq
        · next e => exact ha.keep q k hq (fun a h1 h2 => f2 q k.length (ha.liveOf hq) e a h1 h2)
      · simp only [Ledger.put] at h1 h2
        split at h1
        · cases h1
        · split at h2
          · cases h2
          · exact ha.apart x y lx ly h1 h2 hxy
  | write p i b =>
    obtain ⟨l, hl, hi⟩ := hv
    have hb := ha.bytes p l hl
    have hm : h.mem (p + i) = some l[i] := by rw [hb.get i hi, List.getElem?_eq_getElem hi]
    have hs : store h.mem (p + i) b = some (patch h.mem (p + i) [b]) := store_patch (m := h.mem) (by rw [hm]; rfl) b
    refine ⟨0, { h with mem := patch h.mem (p + i) [b] }, _, by simp [HeapCall.exec, hs], .wrote hl, ?_⟩
    refine ⟨fun q => ?_, ?_, fun q k hq => ?_, fun x y lx ly h1 h2 hxy => ?_⟩
    · simp only [Ledger.put]
      split
      · next e => subst e; rw [ha.live, hl]; simp
      · exact ha.live q
    · simp only [Ledger.put]
      split
      · next e => subst e; rw [ha.nonnull] at hl; cases hl
      · exact ha.nonnull
    · simp only [Ledger.put] at hq
      split at hq
      · next e =>
        subst e
        rw [← Option.some.inj hq]
        have hsplit : l.set i b = l.take i ++ [b] ++ l.drop (i + 1) := by
          rw [List.set_eq_take_append_cons_drop]; simp [hi]
        have hl' : l = l.take i ++ [l[i]] ++ l.drop (i + 1) := by simp
        rw [hl'] at hb
        rw [hsplit]
        have hlen : (l.take i).length = i := by rw [List.length_take]; omega
        simp only [bytes_append, List.length_append, hlen, List.length_singleton] at hb ⊢
        refine ⟨⟨?_, ?_⟩, ?_⟩
        · exact hb.1.1.patch_disjoint (by unfold Disjoint; simp [hlen]; )
        · exact bytes_patch _ _ _
        · exact hb.2.patch_disjoint (by unfold Disjoint; simp; omega)
      · next e =>
        refine (ha.bytes q k hq).patch_disjoint ?_
        have := ha.apart p q l k hl hq (Ne.symm e)
        unfold Disjoint at this ⊢
        simp only [List.length_singleton]
        omega
    · have hlen : ∀ z lz, (B.put p (some (l.set i b))) z = some lz → ∃ lz', B z = some lz' ∧ lz'.length = lz.length := by
        intro z lz hz
        simp only [Ledger.put] at hz
        split at hz
        · next e => subst e; exact ⟨l, hl, by rw [← Option.some.inj hz]; simp⟩
        · exact ⟨lz, hz, rfl⟩
      obtain ⟨lx', e1, e2⟩ := hlen x lx h1
      obtain ⟨ly', e3, e4⟩ := hlen y ly h2
      rw [← e2, ← e4]
      exact ha.apart x y lx' ly' e1 e3 hxy

/-- `n` calls of a program that decides on its next call knowing the ledger; every call returned, did to the ledger
what the specification allows, and left heap and ledger in agreement. -/
inductive Played (al : Allocator) (prog : Nat → Ledger → HeapCall) (h : Heap) : Nat → Heap → Ledger → Prop
  | start : Played al prog h 0 h (fun _ => none)
  | call {n r : Nat} {h1 h2 : Heap} {B1 B2 : Ledger} : Played al prog h n h1 B1 →
      (prog n B1).exec al h1 = some (r, h2) → LedgerStep B1 (prog n B1) r B2 → Agrees h2 B2 →
      Played al prog h (n + 1) h2 B2

/-- **C65.** Every program that starts without blocks and only gives back, resizes and writes blocks it owns can go on
for any number of calls: all its blocks are apart from each other and hold what it wrote into them. -/
theorem C65_history {al : Allocator} (hal : al.Sound) (prog : Nat → Ledger → HeapCall)
    (hv : ∀ n B, (prog n B).Valid B) (h : Heap) (h0 : ∀ p, h.live p = none) (n : Nat) :
    ∃ h' B, Played al prog h n h' B ∧ Agrees h' B := by
  induction n with
  | zero =>
    exact ⟨h, _, .start, ⟨fun p => by rw [h0]; rfl, rfl, fun _ _ e => (by cases e), fun _ _ _ _ e => (by cases e)⟩⟩
  | succ n ih =>
    obtain ⟨h1, B1, p1, a1⟩ := ih
    obtain ⟨r, h2, B2, e, s, a2⟩ := C65_step hal h1 B1 a1 (prog n B1) (hv n B1)
    exact ⟨h2, B2, .call p1 e s a2, a2⟩

/-! ## Non-vacuity -/

/-- A heap with one block of two bytes agrees with a ledger. -/
theorem agrees_one : Agrees ⟨fun _ => some 7, fun x => if x = 100 then some 2 else none, none⟩
    (fun x => if x = 100 then some [7, 7] else none) := by
  refine ⟨fun p => ?_, rfl, fun p l h => ?_, fun p q l k h1 h2 h3 => ?_⟩
  · simp only []
    split <;> rfl
  · split at h
    · rw [← Option.some.inj h]; exact ⟨rfl, rfl, trivial⟩
    · cases h
  · split at h1
    · split at h2
      · omega
      · cases h2
    · cases h1

-- the allocator that succeeds whenever it can, with memory everywhere, provides a second block apart from the first
example : ∃ r h' B', HeapCall.exec bestAllocator ⟨fun _ => some 7, fun x => if x = 100 then some 2 else none, none⟩
    (.malloc 3) = some (r, h') ∧ Agrees h' B' ∧ B' 100 = some [7, 7] ∧ (∃ l, B' r = some l ∧ l.length = 3) ∧ r ≠ 100 := by
  obtain ⟨r, h', B', e, s, a⟩ := C65_step bestAllocator_sound _ _ agrees_one (.malloc 3) trivial
  have hr : r ≠ 0 := by
    rintro rfl
    have ex : ∃ r : Nat × Heap, Provided ⟨fun _ => some 7, fun x => if x = 100 then some 2 else none, none⟩ r.1 r.2 3 := by
      refine ⟨⟨200, ⟨fun _ => some 7, fun x => if x = 200 then some 3 else if x = 100 then some 2 else none, none⟩⟩,
        by decide, ?_, rfl, fun _ _ => rfl, fun _ _ _ _ _ _ _ => rfl⟩
      intro q k hq
      simp only at hq
      split at hq
      · obtain rfl := Option.some.inj hq; subst q; exact ⟨by decide, by unfold Disjoint; omega⟩
      · cases hq
    have hb : Provided ⟨fun _ => some 7, fun x => if x = 100 then some 2 else none, none⟩
        (bestAllocator.malloc ⟨fun _ => some 7, fun x => if x = 100 then some 2 else none, none⟩ 3).1
        (bestAllocator.malloc ⟨fun _ => some 7, fun x => if x = 100 then some 2 else none, none⟩ 3).2 3 := by
      simp only [bestAllocator]
      rw [dif_pos ex]
      exact ex.choose_spec
    simp only [HeapCall.exec, Stdlib.malloc, if_neg hb.nonnull, Option.some.injEq] at e
    exact hb.nonnull (congrArg Prod.fst e)
  cases s with
  | refused h => exact absurd rfl hr
  | provided h1 h2 h3 h4 h5 =>
    have := h5 100 [7, 7] rfl
    refine ⟨r, h', _, e, a, ?_, ⟨_, if_pos rfl, by rw [h3]; exact h1⟩, Ne.symm this.1⟩
    simp only [Ledger.put]
    rw [if_neg this.1]; rfl
  | resized h1 => exact absurd h1 (by simp [HeapCall.Resizes])

end Verif.Stdlib
