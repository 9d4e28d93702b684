/-!
# `BufReader`

`src/io/buffered.rs:53-237` and `read_until` of `src/io/mod.rs:398-424`, the reader behind the parsers of the system files. Underneath is a
file of fixed contents: what a call of it does is taken from a list (an interruption, an error, or a read that may be short), and when the
list is used up it delivers all that is asked for and there is. That the contents of the internal buffer beyond `cap` and after a failed
read are undefined is not modelled: nothing reads them.
-/

namespace Verif.BufRead

abbrev Bytes := List UInt8

/-- How a call of the file ends. -/
inductive Event where
  | intr
  | fail (e : Int32)
  | give (max : Nat)

/-- The file: contents, position, and how the next calls end. -/
structure File where
  data : Bytes
  pos : Nat
  sched : List Event

inductive Res (α : Type) where
  | ok (a : α)
  | intr
  | fail (e : Int32)
deriving DecidableEq

/-- `read` of the file (`src/fs.rs:83-90`). -/
def File.read (f : File) (n : Nat) : Res Bytes × File :=
  match f.sched with
  | .intr :: s => (.intr, { f with sched := s })
  | .fail e :: s => (.fail e, { f with sched := s })
  | .give m :: s =>
    let l := (f.data.drop f.pos).take (min n (m + 1))
    (.ok l, { f with pos := f.pos + l.length, sched := s })
  | [] =>
    let l := (f.data.drop f.pos).take n
    (.ok l, { f with pos := f.pos + l.length })

/-- `lseek` with `SEEK_CUR` (`src/fs.rs:108-118`): positions are from 0 to 2⁶³ - 1, 22 is `EINVAL`. -/
def File.seekCur (f : File) (off : Int) : Res Nat × File :=
  if 0 ≤ f.pos + off ∧ f.pos + off < 2 ^ 63 then (.ok (f.pos + off).toNat, { f with pos := (f.pos + off).toNat }) else (.fail 22, f)

/-- `lseek` with `SEEK_SET`. -/
def File.seekSet (f : File) (off : Nat) : Res Nat × File := if off < 2 ^ 63 then (.ok off, { f with pos := off }) else (.fail 22, f)

/-- `BufReader` (`src/io/buffered.rs:53-58`): `buf` are the first `cap` bytes of the buffer, `size` is its length. -/
structure Reader where
  inner : File
  buf : Bytes
  size : Nat
  pos : Nat

/-- `with_capacity` (`src/io/buffered.rs:97-109`). -/
def Reader.new (size : Nat) (inner : File) : Reader := ⟨inner, [], size, 0⟩

/-- `fill_buf` (`src/io/buffered.rs:179-190`). -/
def Reader.fillBuf (r : Reader) : Res Bytes × Reader :=
  if r.pos ≥ r.buf.length then
    match r.inner.read r.size with
    | (.ok l, f) => (.ok l, { r with inner := f, buf := l, pos := 0 })
    | (.intr, f) => (.intr, { r with inner := f })
    | (.fail e, f) => (.fail e, { r with inner := f })
  else (.ok (r.buf.drop r.pos), r)

/-- `consume` (`src/io/buffered.rs:192-194`). -/
def Reader.consume (r : Reader) (amt : Nat) : Reader := { r with pos := min (r.pos + amt) r.buf.length }

/-- `read` (`src/io/buffered.rs:157-170`). -/
def Reader.read (r : Reader) (n : Nat) : Res Bytes × Reader :=
  if r.pos = r.buf.length ∧ n ≥ r.size then
    match r.inner.read n with
    | (x, f) => (x, { r with inner := f })
  else
    match r.fillBuf with
    | (.ok rem, r) => (.ok (rem.take n), r.consume (rem.take n).length)
    | (x, r) => (x, r)

/-- `seek` with `SeekFrom::Current` (`src/io/buffered.rs:218-237`). -/
def Reader.seekCur (r : Reader) (n : Int) : Res Nat × Reader :=
  let remainder : Int := (r.buf.length - r.pos : Nat)
  if -2 ^ 63 ≤ n - remainder then
    match r.inner.seekCur (n - remainder) with
    | (.ok p, f) => (.ok p, { r with inner := f, pos := r.buf.length })
    | (x, f) => (x, { r with inner := f })
  else
    match r.inner.seekCur (-remainder) with
    | (.ok _, f) =>
      match f.seekCur n with
      | (.ok p, f) => (.ok p, { r with inner := f, pos := r.buf.length })
      | (x, f) => (x, { r with inner := f, pos := r.buf.length })
    | (x, f) => (x, { r with inner := f })

/-- `seek` with `SeekFrom::Start` (`src/io/buffered.rs:232-237`). -/
def Reader.seekSet (r : Reader) (n : Nat) : Res Nat × Reader :=
  match r.inner.seekSet n with
  | (.ok p, f) => (.ok p, { r with inner := f, pos := r.buf.length })
  | (x, f) => (x, { r with inner := f })

/-- `seek_relative` (`src/io/buffered.rs:139-153`): the result of `seek` is dropped, here it is kept where there is one. -/
def Reader.seekRelative (r : Reader) (n : Int) : Res Unit × Reader :=
  let fall := match r.seekCur n with
    | (.ok _, r) => (Res.ok (), r)
    | (.intr, r) => (.intr, r)
    | (.fail e, r) => (.fail e, r)
  if n < 0 then if (-n).toNat ≤ r.pos then (.ok (), { r with pos := r.pos - (-n).toNat }) else fall
  else if r.pos + n.toNat ≤ r.buf.length then (.ok (), { r with pos := r.pos + n.toNat })
  else fall

theorem File.read_measure (f : File) (n : Nat) : (f.read n).2.sched.length + ((f.read n).2.data.length - (f.read n).2.pos) ≤ f.sched.length + (f.data.length - f.pos) ∧
    ((f.read n).1 = .intr → (f.read n).2.sched.length + ((f.read n).2.data.length - (f.read n).2.pos) < f.sched.length + (f.data.length - f.pos)) ∧
    (∀ l, (f.read n).1 = .ok l → (f.read n).2.sched.length + ((f.read n).2.data.length - (f.read n).2.pos) + l.length ≤ f.sched.length + (f.data.length - f.pos)) := by
  unfold File.read
  split
  · rename_i s h
    rw [h]
    exact ⟨by simp, fun _ => (by simp), fun l h => (by cases h)⟩
  · rename_i e s h
    rw [h]
    exact ⟨by simp, fun h => (by cases h), fun l h => (by cases h)⟩
  · rename_i m s h
    rw [h]
    refine ⟨by simp; omega, fun h => (by cases h), fun l h => ?_⟩
    cases h
    simp
    omega
  · rename_i h
    rw [h]
    refine ⟨by simp; omega, fun h => (by cases h), fun l h => ?_⟩
    cases h
    simp
    omega

/-- What bounds the rest of a loop over the reader. -/
def Reader.fuel (r : Reader) : Nat := r.inner.sched.length + (r.inner.data.length - r.inner.pos) + (r.buf.length - r.pos)

theorem Reader.fill_measure (r : Reader) : (r.fillBuf.1 = .intr → r.fillBuf.2.fuel < r.fuel) ∧
    (∀ l, r.fillBuf.1 = .ok l → r.fillBuf.2.fuel ≤ r.fuel ∧ r.fillBuf.2.buf.drop r.fillBuf.2.pos = l) := by
  have := File.read_measure r.inner r.size
  unfold Reader.fillBuf
  split
  · split
    · rename_i l f h
      rw [h] at this
      refine ⟨fun h => (by cases h), fun l' h' => ?_⟩
      cases h'
      have := this.2.2 _ rfl
      unfold fuel
      dsimp only at this ⊢
      exact ⟨by omega, rfl⟩
    · rename_i f h
      rw [h] at this
      refine ⟨fun _ => ?_, fun l h => by cases h⟩
      have := this.2.1 rfl
      unfold fuel
      dsimp only at this ⊢
      omega
    · exact ⟨fun h => (by cases h), fun l h => by cases h⟩
  · exact ⟨fun h => (by cases h), fun l h => by cases h; exact ⟨Nat.le_refl _, rfl⟩⟩

theorem Reader.consume_measure (r : Reader) (k : Nat) (hk : 0 < k) (hb : k ≤ (r.buf.drop r.pos).length) : (r.consume k).fuel < r.fuel := by
  rw [List.length_drop] at hb
  unfold consume fuel
  dsimp only
  omega

/-- `read_until` (`src/io/mod.rs:398-424`): what is appended to the buffer of the caller. -/
def Reader.readUntil (r : Reader) (delim : UInt8) : Res Bytes × Bytes × Reader :=
  match _h : r.fillBuf with
  | (.intr, r') => r'.readUntil delim
  | (.fail e, r') => (.fail e, [], r')
  | (.ok available, r') =>
    if delim ∈ available then
      let l := available.takeWhile (· ≠ delim) ++ [delim]
      (.ok l, l, r'.consume l.length)
    else if _h0 : available = [] then (.ok [], [], r'.consume 0)
    else
      match (r'.consume available.length).readUntil delim with
      | (x, l, r) => (x, available ++ l, r)
termination_by r.fuel
decreasing_by
  · have := (r.fill_measure).1; rw [_h] at this; exact this rfl
  · have := (r.fill_measure).2; rw [_h] at this
    have := this _ rfl
    refine Nat.lt_of_lt_of_le (Reader.consume_measure r' _ (List.length_pos_iff.2 _h0) (by rw [this.2]; exact Nat.le_refl _)) this.1

end Verif.BufRead
