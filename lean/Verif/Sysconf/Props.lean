import Verif.Sysconf.Model
import Verif.Locale.Props
import Verif.Lookup.Props
/-!
# `sysconf` (C179)
-/

namespace Verif.Sysconf

/-! ## Specification -/

/-- The number that digits stand for: each counts for a power of ten. -/
def value : Bytes → Nat
  | [] => 0
  | b :: s => (b.toNat - 0x30) * 10 ^ s.length + value s

/-- Digits. -/
def Digits (s : Bytes) : Prop := s ≠ [] ∧ ∀ b ∈ s, 0x30 ≤ b ∧ b ≤ 0x39

/-- Lines, each with its line feed. -/
def textOf : List Bytes → Bytes
  | [] => []
  | l :: ls => l ++ 0x0A :: textOf ls

/-- Limits and the least POSIX lets them be (`limits.h`): `ARG_MAX`, `CHILD_MAX`, `NGROUPS_MAX`, `OPEN_MAX`, `STREAM_MAX`, `TZNAME_MAX`, `SIGQUEUE_MAX`, `RE_DUP_MAX`,
`LOGIN_NAME_MAX`, `TTY_NAME_MAX`, `SYMLOOP_MAX`, `HOST_NAME_MAX`. -/
def minima : List (Int × Int) := [(0, 4096), (1, 25), (3, 8), (4, 20), (5, 8), (6, 6), (34, 32), (44, 255), (71, 9), (72, 9), (173, 8), (180, 255)]

/-- The names that are known. -/
def known : List Int :=
  [0, 1, 2, 3, 4, 5, 6, 9, 11, 21, 22, 29, 30, 34, 44, 67, 69, 70, 71, 72, 77, 78, 83, 84, 85, 86, 133, 149, 157, 164, 173, 180]

/-! ## Lemmas -/

theorem foldl_value (s : Bytes) (a : Nat) : s.foldl (fun (a : Nat) b => a * 10 + (b.toNat - 0x30)) a = a * 10 ^ s.length + value s := by
  induction s generalizing a with
  | nil => simp [value]
  | cons b s ih =>
    rw [List.foldl_cons, ih, value, List.length_cons, Nat.pow_succ, Nat.add_mul, Nat.add_assoc, Nat.mul_assoc, Nat.mul_comm 10]

theorem sign_digits {s : Bytes} (h : Digits s) : sign s = (false, s) := by
  unfold sign
  split
  · exact absurd (h.2 0x2D (by simp)).1 (by decide)
  · exact absurd (h.2 0x2B (by simp)).1 (by decide)
  · rfl

theorem asLong_small {n : Nat} (h : n < 2 ^ 63) : asLong n = n := by
  unfold asLong
  rw [Int.bmod_def]
  omega

theorem parse_digits {s : Bytes} (h : Digits s) (hv : value s < 2 ^ 63) : parseI64 s = some (value s : Int) := by
  have hany : (s.any fun b => b < 0x30 || 0x39 < b) = false := by
    rw [List.any_eq_false]
    intro b hb
    obtain ⟨h1, h2⟩ := h.2 b hb
    simp only [Bool.or_eq_true, decide_eq_true_eq, not_or, UInt8.not_lt]
    exact ⟨h1, h2⟩
  have hm : sign s = (false, s) := sign_digits h
  unfold parseI64
  rw [hm]
  dsimp only
  rw [if_neg (by rw [hany]; simp [h.1]), foldl_value]
  simp only [Nat.zero_mul, Nat.zero_add, Bool.false_eq_true, if_false]
  rw [if_pos (by omega)]

theorem trim_blanks {s : Bytes} (i j : Nat) (h : Digits s) : Lookup.trim (List.replicate i 0x20 ++ s ++ List.replicate j 0x20) = s := by
  have rep : ∀ (n : Nat) (l : Bytes), (∀ b, l.head? = some b → Lookup.isSpace b = false) → (List.replicate n 0x20 ++ l).dropWhile Lookup.isSpace = l := by
    intro n l hl
    induction n with
    | zero =>
      cases l with
      | nil => rfl
      | cons b l => rw [List.replicate_zero, List.nil_append, List.dropWhile_cons, if_neg (by rw [hl b rfl]; decide)]
    | succ n ih => rw [List.replicate_succ, List.cons_append, List.dropWhile_cons, if_pos (by decide), ih]
  have dig : ∀ b ∈ s, Lookup.isSpace b = false := fun b hb =>
    Lookup.not_space (UInt8.le_iff_toNat_le.2 (Nat.le_trans (by decide) (UInt8.le_iff_toNat_le.1 (h.2 b hb).1)))
  unfold Lookup.trim
  rw [List.append_assoc, rep i _ (fun b hb => by
    cases hs : s with
    | nil => exact absurd hs h.1
    | cons c t =>
      rw [hs] at hb
      simp only [List.cons_append, List.head?_cons, Option.some.injEq] at hb
      exact dig b (by rw [hs, ← hb]; simp)), List.reverse_append, List.reverse_replicate, rep j _ (fun b hb => dig b (by
        rw [List.head?_reverse] at hb
        exact List.mem_of_getLast? hb)), List.reverse_reverse]

theorem find_lines (ls : List Bytes) (h : ∀ l ∈ ls, 0x0A ∉ l ∧ label.isPrefixOf l = false) (r : Bytes) :
    (Locale.split 0x0A (textOf ls ++ r)).find? (fun l => label.isPrefixOf l) = (Locale.split 0x0A r).find? (fun l => label.isPrefixOf l) := by
  induction ls with
  | nil => rfl
  | cons l ls ih =>
    obtain ⟨h1, h2⟩ := h l (by simp)
    rw [textOf, List.append_assoc, List.cons_append, Locale.split_cons h1, List.find?_cons, h2]
    exact ih (fun x hx => h x (by simp [hx]))

/-! ## C179 -/

/-- **C179**, part: the number of processors is the one on the first line that begins with `CPUs:`, wherever that is in the first 128 bytes. Missing: beyond
those (`C179_cut_violation`). -/
theorem C179_cpus_partial (e : Env) (ls : List Bytes) (hl : ∀ l ∈ ls, 0x0A ∉ l ∧ label.isPrefixOf l = false) {ds rest : Bytes} (i j : Nat) (hd : Digits ds)
    (hv : value ds < 2 ^ 63) (hc : e.cpu = some (textOf ls ++ (label ++ (List.replicate i 0x20 ++ ds ++ List.replicate j 0x20) ++ 0x0A :: rest)))
    (hlen : (textOf ls).length + 5 + i + ds.length + j < 128) (hu : ∀ f, e.cpu = some f → e.utf8 (f.take 128) = true) :
    (sysconf e 83).1 = value ds ∧ (sysconf e 84).1 = value ds := by
  have key : cpuCount e.utf8 e.cpu = some (value ds : Int) := by
    have hu' := hu _ hc
    unfold cpuCount
    rw [hc]
    dsimp only
    rw [if_neg (by rw [hu']; decide)]
    have nd : ∀ c : UInt8, c ≠ 0x20 → (c < 0x30 ∨ 0x39 < c) → c ∉ List.replicate i 0x20 ++ ds ++ List.replicate j 0x20 := by
      intro c h1 h2 hm
      simp only [List.mem_append, List.mem_replicate] at hm
      rcases hm with (hm | hm) | hm
      · exact h1 hm.2
      · obtain ⟨a, b⟩ := hd.2 c hm
        rcases h2 with h2 | h2
        · exact UInt8.not_lt.2 a h2
        · exact UInt8.not_lt.2 b h2
      · exact h1 hm.2
    have tk : (textOf ls ++ (label ++ (List.replicate i 0x20 ++ ds ++ List.replicate j 0x20) ++ 0x0A :: rest)).take 128 =
        textOf ls ++ (label ++ (List.replicate i 0x20 ++ ds ++ List.replicate j 0x20) ++
          0x0A :: rest.take (128 - ((textOf ls).length + 5 + i + ds.length + j + 1))) := by
      have l1 : (label ++ (List.replicate i 0x20 ++ ds ++ List.replicate j 0x20)).length = 5 + i + ds.length + j := by
        simp only [List.length_append, List.length_replicate, label, List.length_cons, List.length_nil]
        omega
      rw [List.take_append, List.take_of_length_le (by omega), List.take_append, List.take_of_length_le (by omega), l1]
      have : 128 - (textOf ls).length - (5 + i + ds.length + j) = (128 - ((textOf ls).length + 5 + i + ds.length + j + 1)) + 1 := by omega
      rw [this, List.take_succ_cons]
    have n1 : (0x0A : UInt8) ∉ label ++ (List.replicate i 0x20 ++ ds ++ List.replicate j 0x20) := by
      intro hm
      rcases List.mem_append.1 hm with hm | hm
      · exact absurd hm (by decide)
      · exact nd 0x0A (by decide) (.inl (by decide)) hm
    rw [tk, find_lines ls hl, Locale.split_cons n1, List.find?_cons]
    have hp : label.isPrefixOf (label ++ (List.replicate i 0x20 ++ ds ++ List.replicate j 0x20)) = true := by
      rw [List.isPrefixOf_iff_prefix]
      exact List.prefix_append _ _
    rw [hp]
    dsimp only
    have hs : Locale.split 0x3A (label ++ (List.replicate i 0x20 ++ ds ++ List.replicate j 0x20)) =
        [[0x43, 0x50, 0x55, 0x73], List.replicate i 0x20 ++ ds ++ List.replicate j 0x20] := by
      show Locale.split 0x3A ([0x43, 0x50, 0x55, 0x73] ++ 0x3A :: (List.replicate i 0x20 ++ ds ++ List.replicate j 0x20)) = _
      rw [Locale.split_cons (by decide), Locale.split_one (nd 0x3A (by decide) (.inr (by decide)))]
    rw [hs]
    dsimp only [List.getElem?_cons_succ, List.getElem?_cons_zero]
    rw [trim_blanks i j hd, parse_digits hd hv]
  constructor
  · show (cpuCount e.utf8 e.cpu).getD 1 = _
    rw [key]; rfl
  · show (cpuCount e.utf8 e.cpu).getD 1 = _
    rw [key]; rfl

/-- **C179**: it is 1 if the file cannot be read, is not text, or has no such line. -/
theorem C179_one (e : Env) (h : e.cpu = none ∨ (∃ f, e.cpu = some f ∧ e.utf8 (f.take 128) = false) ∨
    ∃ ls, e.cpu = some (textOf ls) ∧ (textOf ls).length ≤ 128 ∧ ∀ l ∈ ls, 0x0A ∉ l ∧ label.isPrefixOf l = false) :
    sysconf e 83 = (1, none) ∧ sysconf e 84 = (1, none) := by
  have key : cpuCount e.utf8 e.cpu = none := by
    rcases h with h | ⟨f, h, hu⟩ | ⟨ls, h, hlen, hl⟩
    · rw [h]; rfl
    · unfold cpuCount
      rw [h]
      dsimp only
      rw [if_pos hu]
    · unfold cpuCount
      rw [h]
      dsimp only
      by_cases hu : e.utf8 ((textOf ls).take 128) = false
      · rw [if_pos hu]
      · rw [if_neg hu, List.take_of_length_le hlen]
        have := find_lines ls hl []
        rw [List.append_nil] at this
        rw [this]
        rfl
  constructor
  · show ((cpuCount e.utf8 e.cpu).getD 1, none) = _
    rw [key]; rfl
  · show ((cpuCount e.utf8 e.cpu).getD 1, none) = _
    rw [key]; rfl

theorem cpu_line (e : Env) (ls : List Bytes) (hl : ∀ l ∈ ls, 0x0A ∉ l ∧ label.isPrefixOf l = false) {x rest : Bytes} (h1 : 0x0A ∉ x) (h2 : 0x3A ∉ x)
    (hc : e.cpu = some (textOf ls ++ (label ++ x ++ 0x0A :: rest))) (hlen : (textOf ls).length + 5 + x.length < 128)
    (hu : ∀ f, e.cpu = some f → e.utf8 (f.take 128) = true) : cpuCount e.utf8 e.cpu = parseI64 (Lookup.trim x) := by
  have hu' := hu _ hc
  have tk : (textOf ls ++ (label ++ x ++ 0x0A :: rest)).take 128 = textOf ls ++ (label ++ x ++ 0x0A :: rest.take (128 - ((textOf ls).length + 5 + x.length + 1))) := by
    have l1 : (label ++ x).length = 5 + x.length := by
      simp only [List.length_append, label, List.length_cons, List.length_nil]
    rw [List.take_append, List.take_of_length_le (by omega), List.take_append, List.take_of_length_le (by omega), l1]
    have : 128 - (textOf ls).length - (5 + x.length) = (128 - ((textOf ls).length + 5 + x.length + 1)) + 1 := by omega
    rw [this, List.take_succ_cons]
  have n1 : (0x0A : UInt8) ∉ label ++ x := by
    intro hm
    rcases List.mem_append.1 hm with hm | hm
    · exact absurd hm (by decide)
    · exact h1 hm
  have hp : label.isPrefixOf (label ++ x) = true := by
    rw [List.isPrefixOf_iff_prefix]
    exact List.prefix_append _ _
  have hs : Locale.split 0x3A (label ++ x) = [[0x43, 0x50, 0x55, 0x73], x] := by
    show Locale.split 0x3A ([0x43, 0x50, 0x55, 0x73] ++ 0x3A :: x) = _
    rw [Locale.split_cons (by decide), Locale.split_one h2]
  unfold cpuCount
  rw [hc]
  dsimp only
  rw [if_neg (by rw [hu']; decide), tk, find_lines ls hl, Locale.split_cons n1, List.find?_cons, hp]
  dsimp only
  rw [hs]
  rfl

theorem mem_sign {s : Bytes} {b : UInt8} (h : b ∈ (sign s).2) : b ∈ s := by
  unfold sign at h
  split at h
  · exact List.mem_cons_of_mem _ h
  · exact List.mem_cons_of_mem _ h
  · exact h

theorem mem_trim {s : Bytes} {b : UInt8} (h : b ∈ Lookup.trim s) : b ∈ s := by
  unfold Lookup.trim at h
  have h1 := (List.dropWhile_sublist (p := Lookup.isSpace) (l := (s.dropWhile Lookup.isSpace).reverse)).mem (List.mem_reverse.1 h)
  exact (List.dropWhile_sublist (p := Lookup.isSpace) (l := s)).mem (List.mem_reverse.1 h1)

/-- **C179**: it is 1 too if there is no digit after the label, in particular if there is nothing. -/
theorem C179_no_number (e : Env) (ls : List Bytes) (hl : ∀ l ∈ ls, 0x0A ∉ l ∧ label.isPrefixOf l = false) {x rest : Bytes} (h1 : 0x0A ∉ x) (h2 : 0x3A ∉ x)
    (hx : ∀ b ∈ x, b < 0x30 ∨ 0x39 < b) (hc : e.cpu = some (textOf ls ++ (label ++ x ++ 0x0A :: rest))) (hlen : (textOf ls).length + 5 + x.length < 128)
    (hu : ∀ f, e.cpu = some f → e.utf8 (f.take 128) = true) : sysconf e 83 = (1, none) ∧ sysconf e 84 = (1, none) := by
  have key : cpuCount e.utf8 e.cpu = none := by
    rw [cpu_line e ls hl h1 h2 hc hlen hu]
    unfold parseI64
    dsimp only
    rw [if_pos]
    cases ht : (sign (Lookup.trim x)).2 with
    | nil => exact .inl rfl
    | cons b t =>
      right
      rw [List.any_eq_true]
      refine ⟨b, by simp, ?_⟩
      have := hx b (mem_trim (mem_sign (by rw [ht]; simp)))
      simpa using this
  constructor
  · show ((cpuCount e.utf8 e.cpu).getD 1, none) = _
    rw [key]; rfl
  · show ((cpuCount e.utf8 e.cpu).getD 1, none) = _
    rw [key]; rfl

/-- **C179**: every limit is none (−1, without an error), or at least what POSIX promises. -/
theorem C179_minima (e : Env) : ∀ p ∈ minima, ((sysconf e p.1).1 = -1 ∨ p.2 ≤ (sysconf e p.1).1) ∧ (sysconf e p.1).2 = none := by
  intro p hp
  simp only [minima, List.mem_cons, List.not_mem_nil, or_false] at hp
  rcases hp with rfl | rfl | rfl | rfl | rfl | rfl | rfl | rfl | rfl | rfl | rfl | rfl <;> simp [sysconf]

/-- **C179**: a name that is not known, and only such a one, gives `EINVAL`, with −1. -/
theorem C179_unknown (e : Env) (name : Int) : ((sysconf e name).2 = some 22 ↔ name ∉ known) ∧ (name ∉ known → (sysconf e name).1 = -1) := by
  unfold sysconf
  split <;> simp_all [known]

/-- **C179**: the size of a page and the memory are what the system says. -/
theorem C179_memory (e : Env) (hp : e.pageSize < 2 ^ 63) (total free : Nat) (ht : total < 2 ^ 63) (hf : free < 2 ^ 63) (hm : e.mem = some (total, free)) :
    (sysconf e 30).1 = e.pageSize ∧ (sysconf e 85).1 = total ∧ (sysconf e 86).1 = free := by
  refine ⟨?_, ?_, ?_⟩
  · show (if e.pageSize < 2 ^ 63 then (e.pageSize : Int) else -1) = _
    rw [if_pos hp]
  · show (e.mem.map fun m => asLong m.1).getD (-1) = _
    rw [hm, Option.map_some, Option.getD_some, asLong_small ht]
  · show (e.mem.map fun m => asLong m.2).getD (-1) = _
    rw [hm, Option.map_some, Option.getD_some, asLong_small hf]

/-- **C179**, violated by the code: a number that the 128 bytes cut in two is read as its first part: 2 processors, where the file says 26. -/
theorem C179_cut_violation (e : Env) (hu : ∀ f, e.utf8 f = true) (hc : e.cpu = some (List.replicate 120 0x78 ++ 0x0A :: (label ++ [0x20, 0x32, 0x36, 0x0A]))) :
    (sysconf e 83).1 = 2 := by
  have : cpuCount e.utf8 e.cpu = some 2 := by
    unfold cpuCount
    rw [hc]
    dsimp only
    rw [if_neg (by rw [hu]; decide)]
    decide +kernel
  show (cpuCount e.utf8 e.cpu).getD 1 = _
  rw [this]; rfl

/-- **C179**, violated by the code: when the memory cannot be asked for, the answer is −1 without an error, which means that there is no limit. -/
theorem C179_memory_violation (e : Env) (h : e.mem = none) : sysconf e 85 = (-1, none) ∧ sysconf e 86 = (-1, none) := by
  constructor
  · show ((e.mem.map fun m => asLong m.1).getD (-1), none) = _
    rw [h]; rfl
  · show ((e.mem.map fun m => asLong m.2).getD (-1), none) = _
    rw [h]; rfl

example : (sysconf ⟨fun _ => true, some [0x78, 0x0A, 0x43, 0x50, 0x55, 0x73, 0x3A, 0x20, 0x31, 0x36, 0x0A, 0x79], none, 4096⟩ 84).1 = 16 :=
  (C179_cpus_partial ⟨fun _ => true, some [0x78, 0x0A, 0x43, 0x50, 0x55, 0x73, 0x3A, 0x20, 0x31, 0x36, 0x0A, 0x79], none, 4096⟩ [[0x78]] (by decide)
    (ds := [0x31, 0x36]) (rest := [0x79]) 1 0 ⟨by decide, by decide⟩ (by decide) rfl (by decide) (fun _ _ => rfl)).2

end Verif.Sysconf
