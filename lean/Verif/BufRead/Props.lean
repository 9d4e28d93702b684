import Verif.BufRead.Model
/-!
# `BufReader`: the theorems
-/

namespace Verif.BufRead

/-! ## Specification -/

/-- What a user of a reader calls. -/
inductive Op where
  | read (n : Nat)
  | until (delim : UInt8)
  | seekCur (n : Int)
  | seekSet (n : Nat)
  | skip (n : Int)

/-- What comes of it: whether the call succeeded, the bytes delivered, the position reported by a seek. -/
structure Outcome where
  ok : Bool
  bytes : Bytes
  at? : Option Nat

/-- The outcomes of some calls, as of a file that is read without a buffer from position `pos` on. -/
def Unbuffered (data : Bytes) : Nat → List (Op × Outcome) → Prop
  | _, [] => True
  | pos, (.read n, o) :: t =>
    if o.ok then
      o.bytes = (data.drop pos).take o.bytes.length ∧ o.bytes.length ≤ n ∧ (o.bytes = [] → n = 0 ∨ data.length ≤ pos) ∧
        Unbuffered data (pos + o.bytes.length) t
    else o.bytes = [] ∧ Unbuffered data pos t
  | pos, (.until d, o) :: t =>
    o.bytes = (data.drop pos).take o.bytes.length ∧
      (if o.ok then (∃ p, o.bytes = p ++ [d] ∧ d ∉ p) ∨ (d ∉ o.bytes ∧ data.length ≤ pos + o.bytes.length) else d ∉ o.bytes) ∧
      Unbuffered data (pos + o.bytes.length) t
  | pos, (.seekCur n, o) :: t =>
    if o.ok then ∃ p : Nat, o.at? = some p ∧ (p : Int) = pos + n ∧ Unbuffered data p t
    else (pos + n < 0 ∨ 2 ^ 63 ≤ pos + n) ∧ Unbuffered data pos t
  | pos, (.seekSet n, o) :: t =>
    if o.ok then o.at? = some n ∧ Unbuffered data n t else 2 ^ 63 ≤ n ∧ Unbuffered data pos t
  | pos, (.skip n, o) :: t =>
    if o.ok then ∃ p : Nat, (p : Int) = pos + n ∧ Unbuffered data p t
    else (pos + n < 0 ∨ 2 ^ 63 ≤ pos + n) ∧ Unbuffered data pos t

/-! ## The calls on the reader -/

def Res.isOk {α : Type} : Res α → Bool
  | .ok _ => true
  | _ => false

def Res.get {α : Type} : Res α → Option α
  | .ok a => some a
  | _ => none

def call (r : Reader) : Op → Outcome × Reader
  | .read n => let x := r.read n; (⟨x.1.isOk, x.1.get.getD [], none⟩, x.2)
  | .until d => let x := r.readUntil d; (⟨x.1.isOk, x.2.1, none⟩, x.2.2)
  | .seekCur n => let x := r.seekCur n; (⟨x.1.isOk, [], x.1.get⟩, x.2)
  | .seekSet n => let x := r.seekSet n; (⟨x.1.isOk, [], x.1.get⟩, x.2)
  | .skip n => let x := r.seekRelative n; (⟨x.1.isOk, [], none⟩, x.2)

def run (r : Reader) : List Op → List (Op × Outcome)
  | [] => []
  | o :: ops => (o, (call r o).1) :: run (call r o).2 ops

/-! ## Lemmas -/

/-- The reader is at position `p` of `d`. -/
structure At (d : Bytes) (p : Nat) (r : Reader) : Prop where
  data : r.inner.data = d
  le : r.pos ≤ r.buf.length
  pos : p + (r.buf.length - r.pos) = r.inner.pos
  buf : r.buf.drop r.pos = (d.drop p).take (r.buf.length - r.pos)
  size : 0 < r.size
  bound : d.length < 2 ^ 63 ∧ r.inner.pos < 2 ^ 63

theorem File.read_ok (f : File) (n : Nat) (l : Bytes) (f' : File) (h : f.read n = (.ok l, f')) :
    l = (f.data.drop f.pos).take l.length ∧ l.length ≤ n ∧ (l = [] → n = 0 ∨ f.data.length ≤ f.pos) ∧ f'.data = f.data ∧ f'.pos = f.pos + l.length := by
  unfold File.read at h
  split at h
  · cases h
  · cases h
  · cases h
    refine ⟨?_, ?_, ?_, rfl, rfl⟩
    · rw [List.length_take]; exact List.take_length_min
    · rw [List.length_take]; omega
    · intro h
      have := congrArg List.length h
      rw [List.length_take, List.length_drop, List.length_nil] at this
      omega
  · cases h
    refine ⟨?_, ?_, ?_, rfl, rfl⟩
    · rw [List.length_take]; exact List.take_length_min
    · rw [List.length_take]; omega
    · intro h
      have := congrArg List.length h
      rw [List.length_take, List.length_drop, List.length_nil] at this
      omega
where
  List.take_length_min {n : Nat} {l : Bytes} : l.take n = l.take (min n l.length) := by
    rcases Nat.le_total n l.length with h | h
    · rw [Nat.min_eq_left h]
    · rw [Nat.min_eq_right h, List.take_of_length_le h, List.take_length]

theorem File.read_bad (f : File) (n : Nat) (x : Res Bytes) (f' : File) (h : f.read n = (x, f')) (hx : ∀ l, x ≠ .ok l) :
    f'.data = f.data ∧ f'.pos = f.pos := by
  unfold File.read at h
  split at h
  · cases h; exact ⟨rfl, rfl⟩
  · cases h; exact ⟨rfl, rfl⟩
  · cases h; exact absurd rfl (hx _)
  · cases h; exact absurd rfl (hx _)

theorem bound_read {d l : Bytes} {p : Nat} (hd : d.length < 2 ^ 63) (hp : p < 2 ^ 63) (h : l = (d.drop p).take l.length) : p + l.length < 2 ^ 63 := by
  have := congrArg List.length h
  rw [List.length_take, List.length_drop] at this
  omega

theorem fill_at {data : Bytes} {pos : Nat} {r : Reader} (h : At data pos r) :
    At data pos r.fillBuf.2 ∧ r.fillBuf.2.size = r.size ∧
    ∀ l, r.fillBuf.1 = .ok l → l = r.fillBuf.2.buf.drop r.fillBuf.2.pos ∧ (l = [] → data.length ≤ pos) := by
  have h1 := h.data; have h2 := h.le; have h3 := h.pos; have h4 := h.buf; have h5 := h.size; have h6 := h.bound
  unfold Reader.fillBuf
  split
  · rename_i hp
    have e : r.inner.pos = pos := by omega
    split
    · rename_i l f hr
      obtain ⟨a, b, c, d, g⟩ := File.read_ok _ _ _ _ hr
      rw [h1, e] at a c
      refine ⟨⟨d.trans h1, Nat.zero_le _, ?_, ?_, h5, h6.1, by rw [g, e]; exact bound_read h6.1 (e ▸ h6.2) a⟩, rfl, fun l' hl => ?_⟩
      · show pos + (l.length - 0) = f.pos
        rw [g, e]; omega
      · show l.drop 0 = (data.drop pos).take (l.length - 0)
        rw [List.drop_zero, Nat.sub_zero]; exact a
      · cases hl
        exact ⟨rfl, fun h => (c h).resolve_left (by omega)⟩
    · rename_i f hr
      obtain ⟨a, b⟩ := File.read_bad _ _ _ _ hr fun l => by simp
      exact ⟨⟨a.trans h1, h2, h3.trans b.symm, h4, h5, h6.1, by rw [b]; exact h6.2⟩, rfl, fun l hl => by cases hl⟩
    · rename_i e' f hr
      obtain ⟨a, b⟩ := File.read_bad _ _ _ _ hr fun l => by simp
      exact ⟨⟨a.trans h1, h2, h3.trans b.symm, h4, h5, h6.1, by rw [b]; exact h6.2⟩, rfl, fun l hl => by cases hl⟩
  · rename_i hp
    refine ⟨h, rfl, fun l hl => ?_⟩
    cases hl
    refine ⟨rfl, fun he => ?_⟩
    have := congrArg List.length he
    rw [List.length_drop, List.length_nil] at this
    omega

theorem consume_at {data : Bytes} {pos : Nat} {r : Reader} (h : At data pos r) (k : Nat) (hk : k ≤ r.buf.length - r.pos) :
    At data (pos + k) (r.consume k) ∧ (r.buf.drop r.pos).take k = (data.drop pos).take k := by
  have h2 := h.le; have h3 := h.pos; have h4 := h.buf
  unfold Reader.consume
  rw [Nat.min_eq_left (by omega)]
  refine ⟨⟨h.data, ?_, ?_, ?_, h.size, h.bound⟩, ?_⟩
  · show r.pos + k ≤ r.buf.length
    omega
  · show pos + k + (r.buf.length - (r.pos + k)) = r.inner.pos
    omega
  · show r.buf.drop (r.pos + k) = (data.drop (pos + k)).take (r.buf.length - (r.pos + k))
    rw [← List.drop_drop, h4, List.drop_take, List.drop_drop, show r.buf.length - (r.pos + k) = r.buf.length - r.pos - k by omega]
  · rw [h4, List.take_take, Nat.min_eq_left hk]

theorem read_at {data : Bytes} {pos : Nat} {r : Reader} (h : At data pos r) (n : Nat) :
    match r.read n with
    | (.ok l, r') => l = (data.drop pos).take l.length ∧ l.length ≤ n ∧ (l = [] → n = 0 ∨ data.length ≤ pos) ∧ At data (pos + l.length) r'
    | (_, r') => At data pos r' := by
  have h1 := h.data; have h2 := h.le; have h3 := h.pos; have h4 := h.buf; have h5 := h.size; have h6 := h.bound
  unfold Reader.read
  by_cases hb : r.pos = r.buf.length ∧ n ≥ r.size
  · rw [if_pos hb]
    have e : r.inner.pos = pos := by omega
    generalize hr : r.inner.read n = q
    obtain ⟨x, f⟩ := q
    cases x with
    | ok l =>
      obtain ⟨a, b, c, d, g⟩ := File.read_ok _ _ _ _ hr
      rw [h1, e] at a c
      refine ⟨a, b, c, ⟨d.trans h1, h2, ?_, ?_, h5, h6.1, by rw [g, e]; exact bound_read h6.1 (e ▸ h6.2) a⟩⟩
      · show pos + l.length + (r.buf.length - r.pos) = f.pos
        omega
      · show r.buf.drop r.pos = (data.drop _).take (r.buf.length - r.pos)
        rw [hb.1, Nat.sub_self, List.take_zero, List.drop_length]
    | intr =>
      obtain ⟨a, b⟩ := File.read_bad _ _ _ _ hr fun l => by simp
      exact ⟨a.trans h1, h2, h3.trans b.symm, h4, h5, h6.1, by rw [b]; exact h6.2⟩
    | fail e =>
      obtain ⟨a, b⟩ := File.read_bad _ _ _ _ hr fun l => by simp
      exact ⟨a.trans h1, h2, h3.trans b.symm, h4, h5, h6.1, by rw [b]; exact h6.2⟩
  · rw [if_neg hb]
    obtain ⟨fa, -, fo⟩ := fill_at h
    generalize hf : r.fillBuf = q at fa fo
    obtain ⟨x, r'⟩ := q
    cases x with
    | ok l =>
      obtain ⟨e1, e2⟩ := fo l rfl
      dsimp only at e1 e2 fa ⊢
      have hk : (l.take n).length ≤ r'.buf.length - r'.pos := by
        rw [e1, List.length_take, List.length_drop]; omega
      obtain ⟨c1, c2⟩ := consume_at fa _ hk
      refine ⟨?_, by rw [List.length_take]; omega, fun he => ?_, c1⟩
      · rw [← c2, ← e1, List.length_take]
        rcases Nat.le_total n l.length with h | h
        · rw [Nat.min_eq_left h]
        · rw [Nat.min_eq_right h, List.take_of_length_le h, List.take_length]
      · cases n with
        | zero => exact Or.inl rfl
        | succ n =>
          right
          apply e2
          cases l with
          | nil => rfl
          | cons a l => rw [List.take_succ_cons] at he; cases he
    | intr => exact fa
    | fail e => exact fa

theorem takeWhile_not_mem (d : UInt8) : ∀ l : Bytes, d ∉ l.takeWhile (· ≠ d)
  | [] => by simp
  | c :: l => by
    rw [List.takeWhile_cons]
    split
    · rename_i hc
      intro hm
      rcases List.mem_cons.1 hm with h | h
      · subst h; simp at hc
      · exact takeWhile_not_mem d l h
    · simp

theorem takeWhile_next (d : UInt8) : ∀ l : Bytes, d ∈ l → l.take (l.takeWhile (· ≠ d) ++ [d]).length = l.takeWhile (· ≠ d) ++ [d]
  | [], h => absurd h (by simp)
  | c :: l, h => by
    rw [List.takeWhile_cons]
    by_cases hc : c = d
    · subst hc; simp
    · rw [if_pos (by simpa using hc)]
      have := takeWhile_next d l ((List.mem_cons.1 h).resolve_left fun e => hc e.symm)
      rw [List.cons_append, List.length_cons, List.take_succ_cons, this]

theorem until_at (d : UInt8) {data : Bytes} (r : Reader) : ∀ {pos : Nat}, At data pos r →
    let q := r.readUntil d
    q.2.1 = (data.drop pos).take q.2.1.length ∧ At data (pos + q.2.1.length) q.2.2 ∧
      (if q.1.isOk then (∃ p, q.2.1 = p ++ [d] ∧ d ∉ p) ∨ (d ∉ q.2.1 ∧ data.length ≤ pos + q.2.1.length) else d ∉ q.2.1) := by
  induction r using Reader.readUntil.induct (delim := d) with
  | case1 r r' hf ih =>
    intro pos h
    obtain ⟨fa, -, -⟩ := fill_at h
    rw [hf] at fa
    have e : r.readUntil d = r'.readUntil d := by
      rw [Reader.readUntil]; split
      · rename_i r2 h2; rw [hf] at h2; cases h2; rfl
      · rename_i h2; rw [hf] at h2; cases h2
      · rename_i h2; rw [hf] at h2; cases h2
    rw [e]
    exact ih fa
  | case2 r e r' hf =>
    intro pos h
    obtain ⟨fa, -, -⟩ := fill_at h
    rw [hf] at fa
    have e : r.readUntil d = (.fail e, [], r') := by
      rw [Reader.readUntil]; split
      · rename_i h2; rw [hf] at h2; cases h2
      · rename_i h2; rw [hf] at h2; cases h2; rfl
      · rename_i h2; rw [hf] at h2; cases h2
    rw [e]
    exact ⟨by simp, fa, by simp [Res.isOk]⟩
  | case3 r av r' hf hd =>
    intro pos h
    obtain ⟨fa, -, fo⟩ := fill_at h
    rw [hf] at fa fo
    obtain ⟨e1, e2⟩ := fo av rfl
    dsimp only at e1 fa
    have e : r.readUntil d = (.ok (av.takeWhile (· ≠ d) ++ [d]), av.takeWhile (· ≠ d) ++ [d], r'.consume (av.takeWhile (· ≠ d) ++ [d]).length) := by
      rw [Reader.readUntil]; split
      · rename_i h2; rw [hf] at h2; cases h2
      · rename_i h2; rw [hf] at h2; cases h2
      · rename_i h2; rw [hf] at h2; cases h2; rw [if_pos hd]
    rw [e]
    have ht := takeWhile_next d av hd
    have hk : (av.takeWhile (· ≠ d) ++ [d]).length ≤ r'.buf.length - r'.pos := by
      have := congrArg List.length ht
      rw [List.length_take] at this
      rw [← List.length_drop, ← e1]; omega
    obtain ⟨c1, c2⟩ := consume_at fa _ hk
    refine ⟨?_, c1, ?_⟩
    · dsimp only
      rw [← c2, ← e1, ht]
    · show (if true = true then _ else _)
      rw [if_pos rfl]
      exact Or.inl ⟨_, rfl, takeWhile_not_mem d av⟩
  | case4 r r' hf hd =>
    intro pos h
    obtain ⟨fa, -, fo⟩ := fill_at h
    rw [hf] at fa fo
    obtain ⟨e1, e2⟩ := fo [] rfl
    dsimp only at e1 fa
    have e : r.readUntil d = (.ok [], [], r'.consume 0) := by
      rw [Reader.readUntil]; split
      · rename_i h2; rw [hf] at h2; cases h2
      · rename_i h2; rw [hf] at h2; cases h2
      · rename_i h2; rw [hf] at h2; cases h2; rw [if_neg hd, dif_pos rfl]
    rw [e]
    obtain ⟨c1, -⟩ := consume_at fa 0 (Nat.zero_le _)
    refine ⟨by simp, c1, ?_⟩
    show (if true = true then _ else _)
    rw [if_pos rfl]
    exact Or.inr ⟨by simp, e2 rfl⟩
  | case5 r av r' hf hd h0 _ _ _ _ ih =>
    intro pos h
    obtain ⟨fa, -, fo⟩ := fill_at h
    rw [hf] at fa fo
    obtain ⟨e1, e2⟩ := fo av rfl
    dsimp only at e1 fa
    have hl : av.length = r'.buf.length - r'.pos := by rw [e1, List.length_drop]
    obtain ⟨c1, c2⟩ := consume_at fa av.length (by omega)
    rw [← e1, List.take_length] at c2
    have e : r.readUntil d = (((r'.consume av.length).readUntil d).1, av ++ ((r'.consume av.length).readUntil d).2.1, ((r'.consume av.length).readUntil d).2.2) := by
      rw [Reader.readUntil]; split
      · rename_i h2; rw [hf] at h2; cases h2
      · rename_i h2; rw [hf] at h2; cases h2
      · rename_i h2; rw [hf] at h2; cases h2; rw [if_neg hd, dif_neg h0]
    rw [e]
    obtain ⟨i1, i2, i3⟩ := ih c1
    generalize (r'.consume av.length).readUntil d = q at i1 i2 i3
    dsimp only
    refine ⟨?_, by rw [List.length_append, ← Nat.add_assoc]; exact i2, ?_⟩
    · rw [List.length_append, List.take_add, ← c2, List.drop_drop, ← i1]
    · split at i3
      · rename_i hq
        rw [if_pos hq]
        rcases i3 with ⟨p, a, b⟩ | ⟨a, b⟩
        · exact Or.inl ⟨av ++ p, by rw [a, List.append_assoc], by simp [hd, b]⟩
        · exact Or.inr ⟨by simp [hd, a], by rw [List.length_append]; omega⟩
      · rename_i hq
        rw [if_neg hq]
        simp [hd, i3]

theorem empty_at {data : Bytes} {p : Nat} {r : Reader} {f : File} (hd : f.data = data) (hp : f.pos = p) (hs : 0 < r.size) (hb : data.length < 2 ^ 63) (hq : f.pos < 2 ^ 63) :
    At data p { r with inner := f, pos := r.buf.length } :=
  ⟨hd, Nat.le_refl _, by simp [hp], by simp, hs, hb, hq⟩

theorem seekCur_at {data : Bytes} {pos : Nat} {r : Reader} (h : At data pos r) (n : Int) :
    match r.seekCur n with
    | (.ok p, r') => (p : Int) = pos + n ∧ At data p r'
    | (_, r') => (pos + n < 0 ∨ 2 ^ 63 ≤ pos + n) ∧ At data pos r' := by
  have h1 := h.data; have h2 := h.le; have h3 := h.pos; have h4 := h.buf; have h5 := h.size; have h6 := h.bound
  unfold Reader.seekCur
  dsimp only
  by_cases hn : -2 ^ 63 ≤ n - ((r.buf.length - r.pos : Nat) : Int)
  · rw [if_pos hn]
    unfold File.seekCur
    by_cases hs : 0 ≤ (r.inner.pos : Int) + (n - ((r.buf.length - r.pos : Nat) : Int)) ∧ (r.inner.pos : Int) + (n - ((r.buf.length - r.pos : Nat) : Int)) < 2 ^ 63
    · rw [if_pos hs]
      exact ⟨by omega, empty_at h1 rfl h5 h6.1 (by dsimp only; omega)⟩
    · rw [if_neg hs]
      exact ⟨by omega, h⟩
  · rw [if_neg hn]
    unfold File.seekCur
    by_cases hs : 0 ≤ (r.inner.pos : Int) + -((r.buf.length - r.pos : Nat) : Int) ∧ (r.inner.pos : Int) + -((r.buf.length - r.pos : Nat) : Int) < 2 ^ 63
    · rw [if_pos hs]
      dsimp only
      have e : ((r.inner.pos : Int) + -((r.buf.length - r.pos : Nat) : Int)).toNat = pos := by omega
      rw [e]
      by_cases hs2 : 0 ≤ (pos : Int) + n ∧ (pos : Int) + n < 2 ^ 63
      · rw [if_pos hs2]
        exact ⟨by omega, empty_at h1 rfl h5 h6.1 (by dsimp only; omega)⟩
      · rw [if_neg hs2]
        exact ⟨by omega, empty_at h1 rfl h5 h6.1 (by dsimp only; omega)⟩
    · rw [if_neg hs]
      exact ⟨by omega, h⟩

theorem seekSet_at {data : Bytes} {pos : Nat} {r : Reader} (h : At data pos r) (n : Nat) :
    match r.seekSet n with
    | (.ok p, r') => p = n ∧ At data n r'
    | (_, r') => 2 ^ 63 ≤ n ∧ At data pos r' := by
  unfold Reader.seekSet File.seekSet
  by_cases hn : n < 2 ^ 63
  · rw [if_pos hn]; exact ⟨rfl, empty_at h.data rfl h.size h.bound.1 hn⟩
  · rw [if_neg hn]; exact ⟨by omega, h⟩

theorem skip_at {data : Bytes} {pos : Nat} {r : Reader} (h : At data pos r) (n : Int) (hn : 0 ≤ n) :
    match r.seekRelative n with
    | (.ok _, r') => ∃ p : Nat, (p : Int) = pos + n ∧ At data p r'
    | (_, r') => (pos + n < 0 ∨ 2 ^ 63 ≤ pos + n) ∧ At data pos r' := by
  have h2 := h.le
  have hs := seekCur_at h n
  unfold Reader.seekRelative
  dsimp only
  rw [if_neg (by omega)]
  by_cases hb : r.pos + n.toNat ≤ r.buf.length
  · rw [if_pos hb]
    have := (consume_at h n.toNat (by omega)).1
    unfold Reader.consume at this
    rw [Nat.min_eq_left hb] at this
    exact ⟨pos + n.toNat, by omega, this⟩
  · rw [if_neg hb]
    generalize r.seekCur n = q at hs
    obtain ⟨x, r'⟩ := q
    cases x with
    | ok p => exact ⟨p, hs.1, hs.2⟩
    | intr => exact hs
    | fail e => exact hs

/-! ## The theorems -/

/-- **C173**: a buffered reader is a reader: whatever is read, searched and sought, and however the reads of the file below are cut short,
interrupted or fail, the outcomes are those of a file without a buffer: the bytes from the position on, none lost, none twice. It holds
if `seek_relative` is used to go forward only. -/
theorem C173_reader_partial (data : Bytes) (sched : List Event) (size : Nat) (hs : 0 < size) (hd : data.length < 2 ^ 63) (ops : List Op)
    (hf : ∀ n, Op.skip n ∈ ops → 0 ≤ n) :
    Unbuffered data 0 (run (Reader.new size ⟨data, 0, sched⟩) ops) := by
  suffices ∀ (ops : List Op) (r : Reader) (pos : Nat), (∀ n, Op.skip n ∈ ops → 0 ≤ n) → At data pos r → Unbuffered data pos (run r ops) from
    this ops _ 0 hf ⟨rfl, Nat.le_refl _, rfl, rfl, hs, hd, by show 0 < 2 ^ 63; decide⟩
  intro ops
  induction ops with
  | nil => intro r pos _ _; exact trivial
  | cons o ops ih =>
    intro r pos hf h
    have hf' : ∀ n, Op.skip n ∈ ops → 0 ≤ n := fun n hm => hf n (List.mem_cons_of_mem _ hm)
    cases o with
    | read n =>
      have := read_at h n
      simp only [run, call, Unbuffered]
      generalize r.read n = q at this
      obtain ⟨x, r'⟩ := q
      cases x with
      | ok l => exact ⟨this.1, this.2.1, this.2.2.1, ih _ _ hf' this.2.2.2⟩
      | intr => exact ⟨rfl, ih _ _ hf' this⟩
      | fail e => exact ⟨rfl, ih _ _ hf' this⟩
    | «until» d =>
      have := until_at d r h
      simp only [run, call, Unbuffered]
      exact ⟨this.1, this.2.2, ih _ _ hf' this.2.1⟩
    | seekCur n =>
      have := seekCur_at h n
      simp only [run, call, Unbuffered]
      generalize r.seekCur n = q at this
      obtain ⟨x, r'⟩ := q
      cases x with
      | ok p => exact ⟨p, rfl, this.1, ih _ _ hf' this.2⟩
      | intr => exact ⟨this.1, ih _ _ hf' this.2⟩
      | fail e => exact ⟨this.1, ih _ _ hf' this.2⟩
    | seekSet n =>
      have := seekSet_at h n
      simp only [run, call, Unbuffered]
      generalize r.seekSet n = q at this
      obtain ⟨x, r'⟩ := q
      cases x with
      | ok p => exact ⟨congrArg some this.1, ih _ _ hf' this.2⟩
      | intr => exact ⟨this.1, ih _ _ hf' this.2⟩
      | fail e => exact ⟨this.1, ih _ _ hf' this.2⟩
    | skip n =>
      have := skip_at h n (hf n List.mem_cons_self)
      simp only [run, call, Unbuffered]
      generalize r.seekRelative n = q at this
      obtain ⟨x, r'⟩ := q
      cases x with
      | ok p => obtain ⟨p, a, b⟩ := this; exact ⟨p, a, ih _ _ hf' b⟩
      | intr => exact ⟨this.1, ih _ _ hf' this.2⟩
      | fail e => exact ⟨this.1, ih _ _ hf' this.2⟩

/-- Six bytes through a buffer of four: a short read, a seek. -/
example : (run (Reader.new 4 ⟨[1, 2, 3, 4, 5, 6], 0, [.give 1, .intr]⟩) [.read 1, .read 3, .read 3, .read 3, .seekCur (-5), .read 2]).map (fun p => (p.2.ok, p.2.bytes)) =
    [(true, [1]), (true, [2]), (false, []), (true, [3, 4, 5]), (true, []), (true, [1, 2])] := by decide +kernel

/-- **C173 violation**: the buffer is not given up by a large read that goes past it: to go back then leads to the bytes that were in the
buffer before. Of a file 1, 2, 3, 4 through a buffer of two, the byte before the end is 4, and 2 is read. -/
theorem C173_back_violation : ¬ ∀ (data : Bytes) (sched : List Event) (size : Nat), 0 < size → data.length < 2 ^ 63 → ∀ ops : List Op,
    Unbuffered data 0 (run (Reader.new size ⟨data, 0, sched⟩) ops) := by
  intro h
  have h := h [1, 2, 3, 4] [] 2 (by decide) (by decide) [.read 1, .read 1, .read 2, .skip (-1), .read 1]
  have e : run (Reader.new 2 ⟨[1, 2, 3, 4], 0, []⟩) [.read 1, .read 1, .read 2, .skip (-1), .read 1] =
      [(.read 1, ⟨true, [1], none⟩), (.read 1, ⟨true, [2], none⟩), (.read 2, ⟨true, [3, 4], none⟩), (.skip (-1), ⟨true, [], none⟩), (.read 1, ⟨true, [2], none⟩)] := by
    rfl
  rw [e] at h
  simp only [Unbuffered, if_true] at h
  obtain ⟨-, -, -, -, -, -, -, -, -, p, hp, hr, -⟩ := h
  have : p = 3 := by simp at hp; omega
  subst this
  exact absurd hr (by decide)

end Verif.BufRead
