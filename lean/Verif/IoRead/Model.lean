import Verif.BufRead.Model
/-!
# Readers built from readers, and the loops of `Read` and `Write` (`src/io/mod.rs`)

A reader is a file (the one of `Verif.BufRead`: short reads, interruptions and errors as a list says), the first bytes of a reader (`Take`), or
one reader after another (`Chain`), in any nesting.
-/

namespace Verif.IoRead
open Verif.BufRead (File Res Event)

abbrev Bytes := List UInt8

/-- `Take` (`src/io/mod.rs:1441-1444`) and `Chain` (`src/io/mod.rs:1281-1285`) over files. -/
inductive Src where
  | file (f : File)
  | take (limit : Nat) (s : Src)
  | chain (first second : Src) (doneFirst : Bool)

/-- `read`: of a file (`src/fs.rs:83-90`), of `Take` (`src/io/mod.rs:1573-1583`), of `Chain` (`src/io/mod.rs:1380-1390`). `n` is the length of the
buffer. -/
def Src.read : Src → Nat → Res Bytes × Src
  | .file f, n => ((f.read n).1, .file (f.read n).2)
  | .take limit s, n =>
    if limit = 0 then (.ok [], .take limit s)
    else
      match s.read (min n limit) with
      | (.ok l, s') => (.ok l, .take (limit - l.length) s')
      | (.intr, s') => (.intr, .take limit s')
      | (.fail e, s') => (.fail e, .take limit s')
  | .chain a b done, n =>
    if done then ((b.read n).1, .chain a (b.read n).2 true)
    else
      match a.read n with
      | (.ok l, a') => if l = [] ∧ n ≠ 0 then ((b.read n).1, .chain a' (b.read n).2 true) else (.ok l, .chain a' b false)
      | (.intr, a') => (.intr, .chain a' b false)
      | (.fail e, a') => (.fail e, .chain a' b false)

/-- A measure that decreases with every call that is not the end. -/
def Src.weight : Src → Nat
  | .file f => f.sched.length + (f.data.length - f.pos)
  | .take _ s => s.weight
  | .chain a b _ => a.weight + b.weight

theorem file_weight (f : File) (n : Nat) : (f.read n).1 = .ok [] ∨ (f.read n).2.sched.length + ((f.read n).2.data.length - (f.read n).2.pos) < f.sched.length + (f.data.length - f.pos) := by
  unfold File.read
  split
  · rename_i s h
    right
    simp only [h, List.length_cons]
    omega
  · rename_i s h
    right
    simp only [h, List.length_cons]
    omega
  · rename_i s h
    right
    simp only [h, List.length_cons]
    omega
  · by_cases h : (f.data.drop f.pos).take n = []
    · left
      simp only [h]
    · right
      have h1 := List.length_pos_iff.2 h
      have h2 : ((f.data.drop f.pos).take n).length ≤ f.data.length - f.pos := by
        rw [List.length_take, List.length_drop]
        omega
      simp only
      omega

theorem file_weight_le (f : File) (n : Nat) : (f.read n).2.sched.length + ((f.read n).2.data.length - (f.read n).2.pos) ≤ f.sched.length + (f.data.length - f.pos) := by
  unfold File.read
  split
  · rename_i s h
    simp only [h, List.length_cons]
    omega
  · rename_i s h
    simp only [h, List.length_cons]
    omega
  · rename_i s h
    simp only [h, List.length_cons]
    omega
  · simp only
    omega

theorem Src.read_weight : ∀ (s : Src) (n : Nat), (s.read n).2.weight ≤ s.weight ∧ ((s.read n).1 = .ok [] ∨ (s.read n).2.weight < s.weight) := by
  intro s
  induction s with
  | file f => intro n; exact ⟨file_weight_le f n, file_weight f n⟩
  | take limit s ih =>
    intro n
    by_cases h0 : limit = 0
    · simp [Src.read, h0, Src.weight]
    · have := ih (min n limit)
      simp only [Src.read, if_neg h0]
      generalize s.read (min n limit) = r at *
      obtain ⟨x, s'⟩ := r
      cases x <;> simpa [Src.weight] using this
  | chain a b done iha ihb =>
    intro n
    have ha := iha n
    have hb := ihb n
    cases done with
    | true =>
      simp only [Src.read, if_true, Src.weight]
      refine ⟨by omega, hb.2.imp id (fun h => by omega)⟩
    | false =>
      simp only [Src.read, Bool.false_eq_true, if_false]
      generalize a.read n = r at *
      obtain ⟨x, a'⟩ := r
      cases x with
      | ok l =>
        simp only at ha ⊢
        by_cases h : l = [] ∧ n ≠ 0
        · rw [if_pos h]
          simp only [Src.weight]
          refine ⟨by omega, hb.2.imp id (fun h => by omega)⟩
        · rw [if_neg h]
          simp only [Src.weight]
          refine ⟨by omega, ha.2.imp id (fun h => by omega)⟩
      | intr =>
        simp only [Src.weight] at ha ⊢
        exact ⟨by omega, ha.2.imp (fun h => by cases h) (fun h => by omega)⟩
      | fail e =>
        simp only [Src.weight] at ha ⊢
        exact ⟨by omega, ha.2.imp (fun h => by cases h) (fun h => by omega)⟩

/-- How many bytes fit before the next call: the vector grows when it is full (`src/io/mod.rs:373-380`). -/
def grown (reservation : Nat) (extra : Nat → Nat) (len room : Nat) : Nat := if room = 0 then reservation + extra len else room

/-- The loop of `read_to_end_with_reservation` (`src/io/mod.rs:372-396`). `acc` are the bytes the vector holds, `room` is how many more fit; when none
does, the vector grows by `reservation` and `extra`, which the allocator chooses. -/
def toEndLoop (reservation : Nat) (extra : Nat → Nat) (s : Src) (acc : Bytes) (room : Nat) : Res Unit × Bytes × Src :=
  match h : s.read (grown reservation extra acc.length room) with
  | (.ok [], s') => (.ok (), acc, s')
  | (.ok (b :: l), s') => toEndLoop reservation extra s' (acc ++ b :: l) ((grown reservation extra acc.length room) - (l.length + 1))
  | (.intr, s') => toEndLoop reservation extra s' acc (grown reservation extra acc.length room)
  | (.fail e, s') => (.fail e, acc, s')
termination_by s.weight
decreasing_by
  all_goals
    have := (s.read_weight (grown reservation extra acc.length room)).2
    rw [h] at this
    rcases this with h1 | h1
    · cases h1
    · exact h1

/-- `read_to_end` (`src/io/mod.rs:356-396`; of `Take`: `src/io/mod.rs:1589-1593`): the result with the number of bytes, the vector, the reader. -/
def Src.readToEnd (extra : Nat → Nat) (s : Src) (buf : Bytes) : Res Nat × Bytes × Src :=
  let reservation := match s with
    | .take limit _ => min limit 32
    | _ => 32
  match toEndLoop reservation extra s buf 0 with
  | (.ok _, acc, s') => (.ok (acc.length - buf.length), acc, s')
  | (.intr, acc, s') => (.intr, acc, s')
  | (.fail e, acc, s') => (.fail e, acc, s')

/-- What `read_exact` ends with. -/
inductive Exact where
  | ok
  | eof
  | fail (e : Int32)
deriving DecidableEq

/-- `read_exact` (`src/io/mod.rs:739-759`): `left` bytes of the buffer are to be filled, `acc` are those filled. -/
def exactLoop (s : Src) (acc : Bytes) (left : Nat) : Exact × Bytes × Src :=
  if left = 0 then (.ok, acc, s)
  else
    match h : s.read left with
    | (.ok [], s') => (.eof, acc, s')
    | (.ok (b :: l), s') => exactLoop s' (acc ++ b :: l) (left - (l.length + 1))
    | (.intr, s') => exactLoop s' acc left
    | (.fail e, s') => (.fail e, acc, s')
termination_by s.weight
decreasing_by
  all_goals
    have := (s.read_weight left).2
    rw [h] at this
    rcases this with h1 | h1
    · cases h1
    · exact h1

def Src.readExact (s : Src) (n : Nat) : Exact × Bytes × Src := exactLoop s [] n

/-- What `read_to_string` ends with; `invalid` is `InvalidData`. -/
inductive Text where
  | ok (n : Nat)
  | invalid
  | intr
  | fail (e : Int32)
deriving DecidableEq

/-- `read_to_string` with `append_to_string` (`src/io/mod.rs:323-345`, `src/io/mod.rs:677-`); `utf8` is `str::from_utf8(…).is_ok()`. The guard cuts
the string back to its old length if the new bytes are not text. -/
def Src.readToString (utf8 : Bytes → Bool) (extra : Nat → Nat) (s : Src) (buf : Bytes) : Text × Bytes × Src :=
  let (ret, all, s') := s.readToEnd extra buf
  if utf8 (all.drop buf.length) then
    (match ret with | .ok n => .ok n | .intr => .intr | .fail e => .fail e, all, s')
  else
    (match ret with | .ok _ => .invalid | .intr => .intr | .fail e => .fail e, buf, s')

/-- How a call of `write` ends. -/
inductive Put where
  | intr
  | fail (e : Int32)
  | accept (max : Nat)

/-- Where bytes go: those it has, and how the next calls end; when the list is used up it takes everything. -/
structure Sink where
  got : Bytes
  sched : List Put

/-- `write`. -/
def Sink.write (k : Sink) (b : Bytes) : Res Nat × Sink :=
  match k.sched with
  | .intr :: s => (.intr, { k with sched := s })
  | .fail e :: s => (.fail e, { k with sched := s })
  | .accept m :: s => (.ok (min m b.length), ⟨k.got ++ b.take m, s⟩)
  | [] => (.ok b.length, ⟨k.got ++ b, []⟩)

/-- What `write_all` ends with; `zero` is `WriteZero`. -/
inductive All where
  | ok
  | zero
  | fail (e : Int32)
deriving DecidableEq

theorem Sink.sched_le (k : Sink) (b : Bytes) (h : k.sched ≠ []) : (k.write b).2.sched.length < k.sched.length := by
  unfold Sink.write
  match hs : k.sched with
  | [] => exact absurd hs h
  | .intr :: s => simp
  | .fail e :: s => simp
  | .accept m :: s => simp

/-- `write_all` (`src/io/mod.rs:1754-1770`). -/
def writeAll (k : Sink) (b : Bytes) : All × Sink :=
  if b = [] then (.ok, k)
  else
    match h : k.write b with
    | (.ok 0, k') => (.zero, k')
    | (.ok (n + 1), k') => writeAll k' (b.drop (n + 1))
    | (.intr, k') => writeAll k' b
    | (.fail e, k') => (.fail e, k')
termination_by k.sched.length + b.length
decreasing_by
  · rename_i hb
    have h0 : 0 < b.length := List.length_pos_iff.2 hb
    rw [List.length_drop]
    by_cases hs : k.sched = []
    · have : k'.sched = [] := by
        unfold Sink.write at h
        rw [hs] at h
        have := congrArg (·.2.sched) h
        exact this.symm
      rw [this, hs]
      omega
    · have := k.sched_le b hs
      rw [h] at this
      simp only at this
      omega
  · have hs : k.sched ≠ [] := by
      intro hs
      unfold Sink.write at h
      rw [hs] at h
      exact absurd (congrArg (·.1) h) (by simp)
    have := k.sched_le b hs
    rw [h] at this
    simp only at this
    omega

end Verif.IoRead
