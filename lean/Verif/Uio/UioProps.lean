import Verif.Uio.UioModel
import Verif.Stdlib.SortProps
/-!
# C72: `readv` and `writev`
-/

namespace Verif.Uio
open Verif.Mem Verif.Stdlib

/-- The buffers hold these bytes. -/
def Holds (m : Mem UInt8) : List (Nat × Nat) → List (List UInt8) → Prop
  | [], [] => True
  | v :: vs, b :: bs => Bytes m v.1 b ∧ b.length = v.2 ∧ Holds m vs bs
  | _, _ => False

/-- No two buffers overlap. -/
def Apart : List (Nat × Nat) → Prop
  | [] => True
  | v :: vs => (∀ w ∈ vs, Disjoint v.1 v.2 w.1 w.2) ∧ Apart vs

theorem gather_eq {m : Mem UInt8} {vs : List (Nat × Nat)} {bs : List (List UInt8)} (h : Holds m vs bs) :
    gather m vs = some bs.flatten := by
  induction vs generalizing bs with
  | nil =>
    cases bs with
    | nil => rfl
    | cons => exact h.elim
  | cons v vs ih =>
    cases bs with
    | nil => exact h.elim
    | cons b bs =>
      obtain ⟨h1, h2, h3⟩ := h
      rw [gather, ← h2, h1.readN]
      simp [ih h3]

theorem Holds.congr {m m' : Mem UInt8} {vs : List (Nat × Nat)} {bs : List (List UInt8)} (h : Holds m vs bs)
    (he : ∀ v ∈ vs, ∀ a, v.1 ≤ a → a < v.1 + v.2 → m' a = m a) : Holds m' vs bs := by
  induction vs generalizing bs with
  | nil => cases bs <;> exact h
  | cons v vs ih =>
    cases bs with
    | nil => exact h
    | cons b bs =>
      obtain ⟨h1, h2, h3⟩ := h
      refine ⟨h1.congr ?_, h2, ih h3 fun w hw => he w (by simp [hw])⟩
      intro a ha hb
      exact he v (by simp) a ha (by omega)

theorem scatter_eq {m : Mem UInt8} {vs : List (Nat × Nat)} {bs : List (List UInt8)} (h : Holds m vs bs) (ha : Apart vs)
    {vec : List UInt8} (hv : vec.length = bs.flatten.length) :
    ∃ m' new, scatter m vs vec = some m' ∧ Holds m' vs new ∧ new.flatten = vec ∧
      ∀ a, (∀ v ∈ vs, a < v.1 ∨ v.1 + v.2 ≤ a) → m' a = m a := by
  induction vs generalizing bs m vec with
  | nil =>
    cases bs with
    | cons => exact h.elim
    | nil =>
      have : vec = [] := by simpa using hv
      subst this
      exact ⟨m, [], rfl, trivial, rfl, fun _ _ => rfl⟩
  | cons v vs ih =>
    cases bs with
    | nil => exact h.elim
    | cons b bs =>
      obtain ⟨h1, h2, h3⟩ := h
      simp only [List.flatten_cons, List.length_append] at hv
      have hlen : (vec.take v.2).length = v.2 := by rw [List.length_take]; omega
      have hm : Mapped m v.1 (vec.take v.2).length := by
        rw [hlen, ← h2]
        exact h1.mapped
      have h4 : Holds (patch m v.1 (vec.take v.2)) vs bs := by
        refine h3.congr ?_
        intro w hw a h5 h6
        apply patch_out
        have := ha.1 w hw
        unfold Disjoint at this
        omega
      obtain ⟨m', new, e1, e2, e3, e4⟩ := ih h4 ha.2 (vec := vec.drop v.2) (by rw [List.length_drop]; omega)
      refine ⟨m', vec.take v.2 :: new, ?_, ⟨?_, hlen, e2⟩, ?_, ?_⟩
      · rw [scatter, if_neg (by omega), writeN_eq hm]
        exact e1
      · refine (bytes_patch m v.1 (vec.take v.2)).congr ?_
        intro a h5 h6
        apply e4
        intro w hw
        have := ha.1 w hw
        unfold Disjoint at this
        omega
      · rw [List.flatten_cons, e3, List.take_append_drop]
      · intro a hout
        rw [e4 a fun w hw => hout w (by simp [hw])]
        apply patch_out
        have := hout v (by simp)
        omega

/-- C72: `readv` puts the bytes the kernel delivers into the buffers, one after the other in the order given, leaves the rest of
the buffers and all other memory as they were, and returns the number of bytes; if the kernel reports an error, memory is as
before. -/
theorem C72_readv {m : Mem UInt8} {read : Nat → Except Int32 (List UInt8)} {vs : List (Nat × Nat)} {old : List (List UInt8)}
    (hm : Holds m vs old) (ha : Apart vs) (hl : vs.length ≤ 1024) :
    (∀ d, read old.flatten.length = .ok d → d.length ≤ old.flatten.length →
      ∃ m' new, readv m read vs = some (.ok d.length, m') ∧ Holds m' vs new ∧
        new.flatten = d ++ old.flatten.drop d.length ∧ ∀ a, (∀ v ∈ vs, a < v.1 ∨ v.1 + v.2 ≤ a) → m' a = m a) ∧
    (∀ e, read old.flatten.length = .error e →
      ∃ m', readv m read vs = some (.error e, m') ∧ Holds m' vs old ∧
        ∀ a, (∀ v ∈ vs, a < v.1 ∨ v.1 + v.2 ≤ a) → m' a = m a) := by
  have hg := gather_eq hm
  constructor
  · intro d hr hd
    obtain ⟨m', new, e1, e2, e3, e4⟩ := scatter_eq hm ha (vec := d ++ old.flatten.drop d.length) (by
      rw [List.length_append, List.length_drop]
      omega)
    refine ⟨m', new, ?_, e2, e3, e4⟩
    unfold readv
    rw [if_neg (show ¬ vs.length > IOV_MAX from Nat.not_lt.2 hl), hg]
    simp only [Option.bind_eq_bind, Option.bind_some, hr, e1]
  · intro e hr
    obtain ⟨m', new, e1, e2, e3, e4⟩ := scatter_eq hm ha (vec := old.flatten) rfl
    refine ⟨m', ?_, ?_, e4⟩
    · unfold readv
      rw [if_neg (show ¬ vs.length > IOV_MAX from Nat.not_lt.2 hl), hg]
      simp only [Option.bind_eq_bind, Option.bind_some, hr, e1]
    · suffices h : ∀ {vs : List (Nat × Nat)} {new old : List (List UInt8)}, Holds m' vs new → Holds m vs old →
          new.flatten = old.flatten → new = old by rw [← h e2 hm e3]; exact e2
      intro vs
      induction vs with
      | nil =>
        intro new old h1 h2 _
        cases new with
        | cons => exact h1.elim
        | nil =>
          cases old with
          | cons => exact h2.elim
          | nil => rfl
      | cons v vs ih =>
        intro new old h1 h2 h3
        cases new with
        | nil => exact h1.elim
        | cons n new =>
          cases old with
          | nil => exact h2.elim
          | cons o old =>
            rw [List.flatten_cons, List.flatten_cons] at h3
            obtain ⟨h4, h5⟩ := List.append_inj h3 (by rw [h1.2.1, h2.2.1])
            rw [h4, ih h1.2.2 h2.2.2 h5]

/-- C72: `writev` hands the contents of the buffers in the order given to the kernel as one write, and returns its answer. -/
theorem C72_writev {m : Mem UInt8} (write : List UInt8 → Except Int32 Nat) {vs : List (Nat × Nat)} {bs : List (List UInt8)}
    (hm : Holds m vs bs) (hl : vs.length ≤ 1024) : writev m write vs = some (write bs.flatten) := by
  unfold writev
  rw [if_neg (show ¬ vs.length > IOV_MAX from Nat.not_lt.2 hl), gather_eq hm]
  rfl

/-- C72: too many buffers are refused, without any effect. -/
theorem C72_range (m : Mem UInt8) (read : Nat → Except Int32 (List UInt8)) (write : List UInt8 → Except Int32 Nat)
    {vs : List (Nat × Nat)} (hl : 1024 < vs.length) :
    readv m read vs = some (.error 22, m) ∧ writev m write vs = some (.error 22) := by
  unfold readv writev
  rw [if_pos (show vs.length > IOV_MAX from hl), if_pos (show vs.length > IOV_MAX from hl)]
  exact ⟨rfl, rfl⟩

/-- Five bytes read into buffers of 2 and 4 bytes at 10 and 0. -/
example : ((readv (ofList 0 [9, 9, 9, 9, 9, 9, 9, 9, 9, 9, 9, 9, 9]) (fun _ => .ok [1, 2, 3, 4, 5]) [(10, 2), (0, 4)]).bind
    fun r => readN r.2 0 13) = some [3, 4, 5, 9, 9, 9, 9, 9, 9, 9, 1, 2, 9] := by decide +kernel

end Verif.Uio
