import Verif.Str.StrModel

/-!
# Lengths: helper lemmas
-/

namespace Verif.Str

open Verif.Mem

variable {α : Type} [DecidableEq α] [OfNat α 0]

theorem strlenLoop_eq (m : Mem α) (s : List α) : ∀ p n, CStr m p s → strlenLoop m p n = some (n + s.length) := by
  induction s with
  | nil =>
    intro p n h
    rw [strlenLoop, h.nul]
    simp
  | cons b s ih =>
    intro p n h
    rw [strlenLoop, h.head.1]
    simp only [Option.bind_eq_bind, Option.bind_some, if_neg h.head.2]
    rw [ih (p + 1) (n + 1) h.tail]
    simp only [List.length_cons]
    congr 1
    omega

theorem strlen_eq {m : Mem α} {p : Nat} {s : List α} (h : CStr m p s) : strlen m p = some s.length := by
  rw [strlen, strlenLoop_eq m s p 0 h]
  simp

theorem strnlenLoop_eq (m : Mem α) (k : Nat) : ∀ (s : List α) p n, BStr m p k s →
    strnlenLoop m p n k = some (n + s.length) := by
  induction k with
  | zero => intro s p n h; rw [h.zero]; rfl
  | succ k ih =>
    intro s p n h
    cases s with
    | nil => simp [strnlenLoop, h.nul]
    | cons b s =>
      simp only [strnlenLoop, h.head.1, Option.bind_eq_bind, Option.bind_some, if_neg h.head.2]
      rw [ih s (p + 1) (n + 1) h.tail]
      simp only [List.length_cons]
      congr 1
      omega

theorem strnlen_eq {m : Mem α} {p k : Nat} {s : List α} (h : BStr m p k s) : strnlen m p k = some s.length := by
  rw [strnlen, strnlenLoop_eq m k s p 0 h]
  simp

end Verif.Str
