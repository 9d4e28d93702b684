import Verif.IoRead.Model
import Verif.BufRead.Props
/-!
# Readers built from readers, and the loops of `Read` and `Write` (C176)
-/

namespace Verif.IoRead
open Verif.BufRead (File Res Event)

/-! ## Specification -/

/-- The bytes a reader has still to give. -/
def Src.rest : Src → Bytes
  | .file f => f.data.drop f.pos
  | .take limit s => s.rest.take limit
  | .chain a b done => if done then b.rest else a.rest ++ b.rest

/-- No call of a file will fail. -/
def Src.Sound : Src → Prop
  | .file f => ∀ e, Event.fail e ∉ f.sched
  | .take _ s => s.Sound
  | .chain a b _ => a.Sound ∧ b.Sound

/-! ## Reading -/

/-- **C176**: one `read` of any composition gives the next bytes, not more than asked for, and none only at the end; an error or an interruption
takes nothing. -/
theorem C176_read (s : Src) (n : Nat) :
    (∀ l, (s.read n).1 = .ok l → s.rest = l ++ (s.read n).2.rest ∧ l.length ≤ n ∧ (l = [] → n = 0 ∨ s.rest = [])) ∧
    ((∀ l, (s.read n).1 ≠ .ok l) → (s.read n).2.rest = s.rest) := by
  induction s generalizing n with
  | file f =>
    refine ⟨fun l h => ?_, fun h => ?_⟩
    · obtain ⟨h1, h2, h3, h4, h5⟩ := BufRead.File.read_ok f n l (f.read n).2 (Prod.ext h rfl)
      refine ⟨?_, h2, fun e => (h3 e).imp id (fun h => List.drop_eq_nil_of_le h)⟩
      simp only [Src.rest, Src.read, h4, h5]
      rw [← List.drop_drop]
      conv => lhs; rw [← List.take_append_drop l.length (f.data.drop f.pos)]
      rw [← h1]
    · obtain ⟨h4, h5⟩ := BufRead.File.read_bad f n (f.read n).1 (f.read n).2 rfl h
      simp only [Src.rest, Src.read, h4, h5]
  | take limit s ih =>
    by_cases h0 : limit = 0
    · subst h0
      simp only [Src.read, if_true]
      have hz : (Src.take 0 s).rest = [] := by simp [Src.rest]
      refine ⟨fun l h => ?_, fun _ => trivial⟩
      cases h
      exact ⟨rfl, Nat.zero_le _, fun _ => .inr hz⟩
    · have hi := ih (min n limit)
      simp only [Src.read, if_neg h0]
      generalize s.read (min n limit) = r at *
      obtain ⟨x, s'⟩ := r
      cases x with
      | ok l =>
        simp only at hi ⊢
        obtain ⟨h1, h2, h3⟩ := hi.1 l rfl
        refine ⟨fun l' h => ?_, fun h => absurd rfl (h l)⟩
        cases h
        refine ⟨?_, by omega, fun e => ?_⟩
        · simp only [Src.rest]
          rw [h1, List.take_append, List.take_of_length_le (by omega)]
        · rcases h3 e with h | h
          · left; omega
          · right; simp [Src.rest, h]
      | intr =>
        simp only at hi ⊢
        exact ⟨fun l h => (by cases h), fun _ => by simp only [Src.rest]; rw [hi.2 (fun l h => (by cases h))]⟩
      | fail e =>
        simp only at hi ⊢
        exact ⟨fun l h => (by cases h), fun _ => by simp only [Src.rest]; rw [hi.2 (fun l h => (by cases h))]⟩
  | chain a b done iha ihb =>
    have ha := iha n
    have hb := ihb n
    cases done with
    | true => simpa only [Src.read, if_true, Src.rest] using hb
    | false =>
      simp only [Src.read, Bool.false_eq_true, if_false]
      generalize a.read n = r at *
      obtain ⟨x, a'⟩ := r
      cases x with
      | ok l =>
        simp only at ha ⊢
        obtain ⟨h1, h2, h3⟩ := ha.1 l rfl
        by_cases h : l = [] ∧ n ≠ 0
        · rw [if_pos h]
          have he : a.rest = [] := (h3 h.1).resolve_left h.2
          simpa only [Src.rest, if_true, Bool.false_eq_true, if_false, he, List.nil_append] using hb
        · rw [if_neg h]
          refine ⟨fun l' hl => ?_, fun hn => absurd rfl (hn l)⟩
          cases hl
          refine ⟨?_, h2, fun e => ?_⟩
          · simp only [Src.rest, Bool.false_eq_true, if_false]
            rw [h1, List.append_assoc]
          · left
            exact Decidable.byContradiction (fun hn => h ⟨e, hn⟩)
      | intr =>
        simp only at ha ⊢
        exact ⟨fun l h => (by cases h), fun _ => by simp only [Src.rest, Bool.false_eq_true, if_false]; rw [ha.2 (fun l h => (by cases h))]⟩
      | fail e =>
        simp only at ha ⊢
        exact ⟨fun l h => (by cases h), fun _ => by simp only [Src.rest, Bool.false_eq_true, if_false]; rw [ha.2 (fun l h => (by cases h))]⟩

/-- **C176**: the first `limit` bytes of a reader: a read takes from the reader underneath what it gives and no more, and the limit counts it. -/
theorem C176_take (limit : Nat) (s : Src) (n : Nat) (l : Bytes) (h : ((Src.take limit s).read n).1 = .ok l) :
    ∃ s', ((Src.take limit s).read n).2 = .take (limit - l.length) s' ∧ l.length ≤ limit ∧ s.rest = l ++ s'.rest := by
  by_cases h0 : limit = 0
  · subst h0
    simp only [Src.read, if_true] at h ⊢
    cases h
    exact ⟨s, rfl, Nat.le_refl _, rfl⟩
  · have hr := (C176_read s (min n limit)).1
    simp only [Src.read, if_neg h0] at h ⊢
    generalize s.read (min n limit) = r at *
    obtain ⟨x, s'⟩ := r
    cases x with
    | ok k =>
      simp only at h hr ⊢
      cases h
      obtain ⟨h1, h2, _⟩ := hr l rfl
      exact ⟨s', rfl, by omega, h1⟩
    | intr => cases h
    | fail e => cases h

/-- **C176**: the second reader is not touched as long as the first has bytes. -/
theorem C176_chain (a b : Src) (n : Nat) (hn : n ≠ 0) (ha : a.rest ≠ []) : ∃ a', ((Src.chain a b false).read n).2 = .chain a' b false := by
  have hr := (C176_read a n).1
  simp only [Src.read, Bool.false_eq_true, if_false]
  generalize a.read n = r at *
  obtain ⟨x, a'⟩ := r
  cases x with
  | ok l =>
    simp only at hr ⊢
    rw [if_neg (fun h => ((hr l rfl).2.2 h.1).elim hn ha)]
    exact ⟨a', rfl⟩
  | intr => exact ⟨a', rfl⟩
  | fail e => exact ⟨a', rfl⟩

theorem Sound.read {s : Src} (h : s.Sound) (n : Nat) : (s.read n).2.Sound ∧ ∀ e, (s.read n).1 ≠ .fail e := by
  induction s generalizing n with
  | file f =>
    simp only [Src.Sound, Src.read] at *
    unfold File.read
    split
    · rename_i s hs
      rw [hs] at h
      exact ⟨fun e he => h e (List.mem_cons_of_mem _ he), fun e he => (by cases he)⟩
    · rename_i e s hs
      rw [hs] at h
      exact absurd (List.mem_cons_self ..) (h e)
    · rename_i m s hs
      rw [hs] at h
      exact ⟨fun e he => h e (List.mem_cons_of_mem _ he), fun e he => (by cases he)⟩
    · exact ⟨h, fun e he => (by cases he)⟩
  | take limit s ih =>
    by_cases h0 : limit = 0
    · simp only [Src.read, if_pos h0]
      exact ⟨h, fun e he => (by cases he)⟩
    · have hi := ih h (min n limit)
      simp only [Src.read, if_neg h0]
      generalize s.read (min n limit) = r at *
      obtain ⟨x, s'⟩ := r
      cases x with
      | ok l => exact ⟨hi.1, fun e he => (by cases he)⟩
      | intr => exact ⟨hi.1, fun e he => (by cases he)⟩
      | fail e => exact absurd rfl (hi.2 e)
  | chain a b done iha ihb =>
    have ha := iha h.1 n
    have hb := ihb h.2 n
    cases done with
    | true =>
      simp only [Src.read, if_true]
      exact ⟨⟨h.1, hb.1⟩, hb.2⟩
    | false =>
      simp only [Src.read, Bool.false_eq_true, if_false]
      generalize a.read n = r at *
      obtain ⟨x, a'⟩ := r
      cases x with
      | ok l =>
        simp only
        split
        · exact ⟨⟨ha.1, hb.1⟩, hb.2⟩
        · exact ⟨⟨ha.1, h.2⟩, fun e he => (by cases he)⟩
      | intr => exact ⟨⟨ha.1, h.2⟩, fun e he => (by cases he)⟩
      | fail e => exact absurd rfl (ha.2 e)

/-! ## The loops -/

theorem toEnd_spec (reservation : Nat) (extra : Nat → Nat) (s : Src) (acc : Bytes) (room : Nat)
    (hr : 0 < reservation ∨ s.rest = []) :
    ∃ l, (toEndLoop reservation extra s acc room).2.1 = acc ++ l ∧ s.rest = l ++ (toEndLoop reservation extra s acc room).2.2.rest ∧
      ((toEndLoop reservation extra s acc room).1 = .ok () ∧ (toEndLoop reservation extra s acc room).2.2.rest = [] ∨
        ∃ e, (toEndLoop reservation extra s acc room).1 = .fail e ∧ ¬ s.Sound) := by
  induction hw : s.weight using Nat.strongRecOn generalizing s acc room with
  | _ w ih =>
    rw [toEndLoop]
    have hrd := C176_read s (grown reservation extra acc.length room)
    have hwt := (s.read_weight (grown reservation extra acc.length room)).2
    have hsd : s.Sound → _ := fun h => Sound.read h (grown reservation extra acc.length room)
    have hg : grown reservation extra acc.length room = 0 → s.rest = [] := by
      unfold grown
      intro h
      rcases hr with hr | hr
      · split at h <;> omega
      · exact hr
    split
    · rename_i s' h
      rw [h] at hrd
      obtain ⟨h1, _, h3⟩ := hrd.1 [] rfl
      have he : s.rest = [] := (h3 rfl).elim hg id
      refine ⟨[], by simp, by rw [he]; rw [he] at h1; exact h1, .inl ⟨rfl, ?_⟩⟩
      rw [he] at h1
      exact h1.symm
    · rename_i b l s' h
      rw [h] at hrd hwt hsd
      obtain ⟨h1, h2, _⟩ := hrd.1 _ rfl
      have hlt : s'.weight < s.weight := hwt.resolve_left (fun h => by cases h)
      have hr' : 0 < reservation ∨ s'.rest = [] := by
        rcases hr with hr | hr
        · exact .inl hr
        · rw [hr] at h1
          exact absurd h1 (by simp)
      obtain ⟨k, e1, e2, e3⟩ := ih s'.weight (by omega) s' (acc ++ b :: l) (grown reservation extra acc.length room - (l.length + 1)) hr' rfl
      refine ⟨b :: l ++ k, by rw [e1, List.append_assoc], by rw [h1, List.append_assoc]; congr 1, ?_⟩
      rcases e3 with e3 | ⟨e, e3, e4⟩
      · exact .inl e3
      · exact .inr ⟨e, e3, fun h => e4 (hsd h).1⟩
    · rename_i s' h
      rw [h] at hrd hwt hsd
      have h1 : s'.rest = s.rest := hrd.2 (fun l h => (by cases h))
      have hlt : s'.weight < s.weight := hwt.resolve_left (fun h => by cases h)
      obtain ⟨k, e1, e2, e3⟩ := ih s'.weight (by omega) s' acc (grown reservation extra acc.length room) (by rw [h1]; exact hr) rfl
      refine ⟨k, e1, by rw [← h1]; exact e2, ?_⟩
      rcases e3 with e3 | ⟨e, e3, e4⟩
      · exact .inl e3
      · exact .inr ⟨e, e3, fun h => e4 (hsd h).1⟩
    · rename_i e s' h
      rw [h] at hrd hsd
      have h1 : s'.rest = s.rest := hrd.2 (fun l h => (by cases h))
      exact ⟨[], by simp, by simp [h1], .inr ⟨e, rfl, fun h => (hsd h).2 e rfl⟩⟩

/-- **C176**, `read_to_end`: everything the reader has is appended, and its length returned, however short the reads are, however often they are
interrupted, and however the vector grows. It fails only if a file fails, and then what was read is appended and the rest is still to come. -/
theorem C176_read_to_end (extra : Nat → Nat) (s : Src) (buf : Bytes) :
    ∃ l s', s.rest = l ++ s'.rest ∧
      (s'.rest = [] ∧ s.readToEnd extra buf = (.ok l.length, buf ++ l, s') ∨ ∃ e, s.readToEnd extra buf = (.fail e, buf ++ l, s') ∧ ¬ s.Sound) := by
  have key : ∀ res, (0 < res ∨ s.rest = []) → ∃ l s', s.rest = l ++ s'.rest ∧
      (s'.rest = [] ∧ toEndLoop res extra s buf 0 = (.ok (), buf ++ l, s') ∨ ∃ e, toEndLoop res extra s buf 0 = (.fail e, buf ++ l, s') ∧ ¬ s.Sound) := by
    intro res hr
    obtain ⟨l, e1, e2, e3⟩ := toEnd_spec res extra s buf 0 hr
    refine ⟨l, _, e2, ?_⟩
    rcases e3 with ⟨e3, e4⟩ | ⟨e, e3, e4⟩
    · exact .inl ⟨e4, Prod.ext e3 (Prod.ext e1 rfl)⟩
    · exact .inr ⟨e, Prod.ext e3 (Prod.ext e1 rfl), e4⟩
  have fin : ∀ res, (0 < res ∨ s.rest = []) → s.readToEnd extra buf = (match toEndLoop res extra s buf 0 with
      | (.ok _, acc, s') => (.ok (acc.length - buf.length), acc, s')
      | (.intr, acc, s') => (.intr, acc, s')
      | (.fail e, acc, s') => (.fail e, acc, s')) → ∃ l s', s.rest = l ++ s'.rest ∧
      (s'.rest = [] ∧ s.readToEnd extra buf = (.ok l.length, buf ++ l, s') ∨ ∃ e, s.readToEnd extra buf = (.fail e, buf ++ l, s') ∧ ¬ s.Sound) := by
    intro res hr hd
    obtain ⟨l, s', e1, e2⟩ := key res hr
    refine ⟨l, s', e1, ?_⟩
    rw [hd]
    rcases e2 with ⟨e2, e3⟩ | ⟨e, e3, e4⟩
    · exact .inl ⟨e2, by rw [e3]; simp⟩
    · exact .inr ⟨e, by rw [e3], e4⟩
  match s, fin with
  | .file f, fin => exact fin 32 (.inl (by decide)) rfl
  | .chain a b d, fin => exact fin 32 (.inl (by decide)) rfl
  | .take limit t, fin =>
    refine fin (min limit 32) ?_ rfl
    by_cases h : limit = 0
    · right; simp [Src.rest, h]
    · left; omega

theorem exact_spec (s : Src) (acc : Bytes) (left : Nat) :
    ∃ l, (exactLoop s acc left).2.1 = acc ++ l ∧ s.rest = l ++ (exactLoop s acc left).2.2.rest ∧
      ((exactLoop s acc left).1 = .ok ∧ l.length = left ∨
        (exactLoop s acc left).1 = .eof ∧ l.length < left ∧ (exactLoop s acc left).2.2.rest = [] ∨
        ∃ e, (exactLoop s acc left).1 = .fail e ∧ l.length < left ∧ ¬ s.Sound) := by
  induction hw : s.weight using Nat.strongRecOn generalizing s acc left with
  | _ w ih =>
    rw [exactLoop]
    by_cases h0 : left = 0
    · rw [if_pos h0]
      exact ⟨[], by simp, rfl, .inl ⟨rfl, by simp [h0]⟩⟩
    · rw [if_neg h0]
      have hrd := C176_read s left
      have hwt := (s.read_weight left).2
      have hsd : s.Sound → _ := fun h => Sound.read h left
      split
      · rename_i s' h
        rw [h] at hrd
        obtain ⟨h1, _, h3⟩ := hrd.1 [] rfl
        have he : s.rest = [] := (h3 rfl).resolve_left h0
        rw [he] at h1
        exact ⟨[], by simp, by rw [he]; exact h1, .inr (.inl ⟨rfl, by simp only [List.length_nil]; omega, h1.symm⟩)⟩
      · rename_i b l s' h
        rw [h] at hrd hwt hsd
        obtain ⟨h1, h2, _⟩ := hrd.1 _ rfl
        simp only [List.length_cons] at h2
        have hlt : s'.weight < s.weight := hwt.resolve_left (fun h => by cases h)
        obtain ⟨k, e1, e2, e3⟩ := ih s'.weight (by omega) s' (acc ++ b :: l) (left - (l.length + 1)) rfl
        refine ⟨b :: l ++ k, by rw [e1, List.append_assoc], by rw [h1, List.append_assoc]; congr 1, ?_⟩
        have hl : (b :: l ++ k).length = l.length + 1 + k.length := by simp only [List.length_append, List.length_cons]
        rw [hl]
        rcases e3 with ⟨e3, e4⟩ | ⟨e3, e4, e5⟩ | ⟨e, e3, e4, e5⟩
        · exact .inl ⟨e3, by omega⟩
        · exact .inr (.inl ⟨e3, by omega, e5⟩)
        · exact .inr (.inr ⟨e, e3, by omega, fun h => e5 (hsd h).1⟩)
      · rename_i s' h
        rw [h] at hrd hwt hsd
        have h1 : s'.rest = s.rest := hrd.2 (fun l h => (by cases h))
        have hlt : s'.weight < s.weight := hwt.resolve_left (fun h => by cases h)
        obtain ⟨k, e1, e2, e3⟩ := ih s'.weight (by omega) s' acc left rfl
        refine ⟨k, e1, by rw [← h1]; exact e2, ?_⟩
        rcases e3 with e3 | e3 | ⟨e, e3, e4, e5⟩
        · exact .inl e3
        · exact .inr (.inl e3)
        · exact .inr (.inr ⟨e, e3, e4, fun h => e5 (hsd h).1⟩)
      · rename_i e s' h
        rw [h] at hrd hsd
        have h1 : s'.rest = s.rest := hrd.2 (fun l h => (by cases h))
        exact ⟨[], by simp, by simp [h1], .inr (.inr ⟨e, rfl, by simp only [List.length_nil]; omega, fun h => (hsd h).2 e rfl⟩)⟩

/-- **C176**, `read_exact`: success exactly with the next `n` bytes; `UnexpectedEof` only if there are fewer; otherwise a file failed. -/
theorem C176_read_exact (s : Src) (n : Nat) :
    ∃ l s', s.rest = l ++ s'.rest ∧
      (s.readExact n = (.ok, l, s') ∧ l.length = n ∨ s.readExact n = (.eof, l, s') ∧ l.length < n ∧ s'.rest = [] ∨
        ∃ e, s.readExact n = (.fail e, l, s') ∧ l.length < n ∧ ¬ s.Sound) := by
  obtain ⟨l, e1, e2, e3⟩ := exact_spec s [] n
  rw [List.nil_append] at e1
  refine ⟨l, _, e2, ?_⟩
  rcases e3 with ⟨e3, e4⟩ | ⟨e3, e4, e5⟩ | ⟨e, e3, e4, e5⟩
  · exact .inl ⟨Prod.ext e3 (Prod.ext e1 rfl), e4⟩
  · exact .inr (.inl ⟨Prod.ext e3 (Prod.ext e1 rfl), e4, e5⟩)
  · exact .inr (.inr ⟨e, Prod.ext e3 (Prod.ext e1 rfl), e4, e5⟩)

/-- **C176**, `read_to_string`: what is added is text, on success all of the reader; if that is not text the string is as before and the result
says so. -/
theorem C176_read_to_string (utf8 : Bytes → Bool) (extra : Nat → Nat) (s : Src) (buf : Bytes) :
    (∃ l, utf8 l = true ∧ (s.readToString utf8 extra buf).2.1 = buf ++ l ∨ (s.readToString utf8 extra buf).2.1 = buf) ∧
    (∀ n, (s.readToString utf8 extra buf).1 = .ok n → utf8 s.rest = true ∧ (s.readToString utf8 extra buf).2.1 = buf ++ s.rest ∧ n = s.rest.length) ∧
    (s.Sound → utf8 s.rest = true → ∃ n, (s.readToString utf8 extra buf).1 = .ok n) ∧
    (s.Sound → utf8 s.rest = false → (s.readToString utf8 extra buf).1 = .invalid ∧ (s.readToString utf8 extra buf).2.1 = buf) := by
  obtain ⟨l, s', h1, h2⟩ := C176_read_to_end extra s buf
  unfold Src.readToString
  rcases h2 with ⟨h2, h3⟩ | ⟨e, h3, h4⟩
  · rw [h2, List.append_nil] at h1
    subst h1
    rw [h3]
    simp only [List.drop_left]
    by_cases hu : utf8 s.rest = true
    · rw [if_pos hu]
      refine ⟨⟨_, .inl ⟨hu, rfl⟩⟩, fun n hn => ?_, fun _ _ => ⟨_, rfl⟩, fun _ h => absurd hu (by simp [h])⟩
      simp only [Text.ok.injEq] at hn
      exact ⟨hu, rfl, hn.symm⟩
    · rw [if_neg hu]
      exact ⟨⟨[], .inr rfl⟩, fun n hn => (by cases hn), fun _ h => absurd h hu, fun _ _ => ⟨rfl, rfl⟩⟩
  · rw [h3]
    simp only [List.drop_left]
    by_cases hu : utf8 l = true
    · rw [if_pos hu]
      exact ⟨⟨l, .inl ⟨hu, rfl⟩⟩, fun n hn => (by cases hn), fun h => absurd h h4, fun h => absurd h h4⟩
    · rw [if_neg hu]
      exact ⟨⟨[], .inr rfl⟩, fun n hn => (by cases hn), fun h => absurd h h4, fun h => absurd h h4⟩

/-! ## Writing -/

/-- **C176**, `write_all`: success exactly if all bytes were accepted, in order and once; otherwise a front part was, and the sink took nothing or
failed. -/
theorem C176_write_all (k : Sink) (b : Bytes) :
    ∃ l, (writeAll k b).2.got = k.got ++ l ∧ l <+: b ∧
      ((writeAll k b).1 = .ok ∧ l = b ∨ (writeAll k b).1 = .zero ∧ l ≠ b ∧ Put.accept 0 ∈ k.sched ∨
        ∃ e, (writeAll k b).1 = .fail e ∧ l ≠ b ∧ Put.fail e ∈ k.sched) := by
  induction hw : k.sched.length + b.length using Nat.strongRecOn generalizing k b with
  | _ w ih =>
    rw [writeAll]
    by_cases h0 : b = []
    · rw [if_pos h0]
      exact ⟨[], by simp, List.nil_prefix, .inl ⟨rfl, h0.symm⟩⟩
    · rw [if_neg h0]
      have hl := List.length_pos_iff.2 h0
      obtain ⟨got, sched⟩ := k
      match sched with
      | [] =>
        have e : (Sink.mk got []).write b = (.ok b.length, ⟨got ++ b, []⟩) := rfl
        split
        · rename_i k' h
          rw [e] at h
          have := Res.ok.inj (Prod.mk.inj h).1
          omega
        · rename_i n k' h
          rw [e] at h
          obtain ⟨h1, rfl⟩ := Prod.mk.inj h
          have h1 := Res.ok.inj h1
          rw [show b.drop (n + 1) = [] from List.drop_eq_nil_of_le (by omega), writeAll, if_pos rfl]
          exact ⟨b, rfl, List.prefix_refl b, .inl ⟨rfl, rfl⟩⟩
        · rename_i k' h
          rw [e] at h
          cases h
        · rename_i x k' h
          rw [e] at h
          cases h
      | .intr :: t =>
        have e : (Sink.mk got (.intr :: t)).write b = (.intr, ⟨got, t⟩) := rfl
        split
        · rename_i k' h
          rw [e] at h
          cases h
        · rename_i n k' h
          rw [e] at h
          cases h
        · rename_i k' h
          rw [e] at h
          cases h
          obtain ⟨l, e1, e2, e3⟩ := ih (t.length + b.length) (by rw [← hw]; simp only [List.length_cons]; omega) ⟨got, t⟩ b rfl
          refine ⟨l, e1, e2, ?_⟩
          rcases e3 with e3 | ⟨e3, e4, e5⟩ | ⟨x, e3, e4, e5⟩
          · exact .inl e3
          · exact .inr (.inl ⟨e3, e4, List.mem_cons_of_mem _ e5⟩)
          · exact .inr (.inr ⟨x, e3, e4, List.mem_cons_of_mem _ e5⟩)
        · rename_i x k' h
          rw [e] at h
          cases h
      | .fail x :: t =>
        have e : (Sink.mk got (.fail x :: t)).write b = (.fail x, ⟨got, t⟩) := rfl
        split
        · rename_i k' h
          rw [e] at h
          cases h
        · rename_i n k' h
          rw [e] at h
          cases h
        · rename_i k' h
          rw [e] at h
          cases h
        · rename_i y k' h
          rw [e] at h
          cases h
          exact ⟨[], by simp, List.nil_prefix, .inr (.inr ⟨x, rfl, fun h => h0 h.symm, List.mem_cons_self ..⟩)⟩
      | .accept m :: t =>
        have e : (Sink.mk got (.accept m :: t)).write b = (.ok (min m b.length), ⟨got ++ b.take m, t⟩) := rfl
        split
        · rename_i k' h
          rw [e] at h
          obtain ⟨h1, rfl⟩ := Prod.mk.inj h
          have h1 := Res.ok.inj h1
          have hm : m = 0 := by omega
          subst hm
          exact ⟨[], by simp, List.nil_prefix, .inr (.inl ⟨rfl, fun h => h0 h.symm, List.mem_cons_self ..⟩)⟩
        · rename_i n k' h
          rw [e] at h
          obtain ⟨h1, rfl⟩ := Prod.mk.inj h
          have h1 := Res.ok.inj h1
          obtain ⟨l, e1, e2, e3⟩ := ih (t.length + (b.drop (n + 1)).length)
            (by rw [← hw]; simp only [List.length_cons, List.length_drop]; omega) ⟨got ++ b.take m, t⟩ (b.drop (n + 1)) rfl
          have ht : b.take m = b.take (n + 1) := by
            rw [List.take_eq_take_iff]
            omega
          have hb : b.take (n + 1) ++ b.drop (n + 1) = b := List.take_append_drop ..
          have hne : l ≠ b.drop (n + 1) → b.take (n + 1) ++ l ≠ b := fun h1 h2 => h1 (List.append_cancel_left (h2.trans hb.symm))
          refine ⟨b.take (n + 1) ++ l, ?_, ?_, ?_⟩
          · rw [e1, ht, List.append_assoc]
          · obtain ⟨z, hz⟩ := e2
            exact ⟨z, by rw [List.append_assoc, hz, hb]⟩
          · rcases e3 with ⟨e3, e4⟩ | ⟨e3, e4, e5⟩ | ⟨x, e3, e4, e5⟩
            · exact .inl ⟨e3, by rw [e4, hb]⟩
            · exact .inr (.inl ⟨e3, hne e4, List.mem_cons_of_mem _ e5⟩)
            · exact .inr (.inr ⟨x, e3, hne e4, List.mem_cons_of_mem _ e5⟩)
        · rename_i k' h
          rw [e] at h
          cases h
        · rename_i x k' h
          rw [e] at h
          cases h

/-- The first three bytes of one file, with an interruption and a short read, and then another file. -/
def sample : Src := .chain (.take 3 (.file ⟨[1, 2, 3, 4], 0, [.intr, .give 0]⟩)) (.file ⟨[9], 0, []⟩) false

example : (sample.readToEnd (fun _ => 0) [7]).1 = .ok 4 ∧ (sample.readToEnd (fun _ => 0) [7]).2.1 = [7, 1, 2, 3, 9] := by decide +kernel
example : (sample.readExact 2).1 = .ok ∧ (sample.readExact 2).2.1 = [1, 2] ∧ (sample.readExact 5).1 = .eof := by decide +kernel
example : (writeAll ⟨[], [.intr, .accept 1]⟩ [5, 6, 7]).1 = .ok ∧ (writeAll ⟨[], [.intr, .accept 1]⟩ [5, 6, 7]).2.got = [5, 6, 7] := by decide +kernel

end Verif.IoRead
