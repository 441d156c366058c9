import Verif.Entry.Spec
/-
A criterion for acyclic descriptions, used for the example descriptions.
-/
namespace Verif.Entry
open Verif.Entry.Spec

/-- The entry with which the description goes on. -/
def nextOf : Info → Option Ref
  | .typedef t => t
  | .var t => t
  | .param _ t => t
  | .member m => m.type
  | .qual _ t => t
  | .array t _ => t
  | _ => none

theorem next_nextOf {db : Db} {t r : Ref} (h : Next db t r) : nextOf (db r).info = some t := by
  cases h with
  | alias h =>
    generalize ht : some t = t' at h
    cases h with
    | typedef h => rw [h]; rfl
    | var h => rw [h]; rfl
    | param h => rw [h]; rfl
    | member h => rw [h]; rfl
    | qual h => rw [h]; rfl
  | dots h => rw [h]; rfl
  | array h => rw [h]; rfl

theorem acyclic_of_down {db : Db} (h : ∀ r t, nextOf (db r).info = some t → t < r) (r : Ref) : Acyclic db r := by
  have : ∀ n r, r ≤ n → Acc (Next db) r := by
    intro n
    induction n with
    | zero =>
      intro r hr
      refine ⟨_, fun t ht => ?_⟩
      exact absurd (Nat.lt_of_lt_of_le (h r t (next_nextOf ht)) hr) (Nat.not_lt_zero _)
    | succ n ih =>
      intro r hr
      refine ⟨_, fun t ht => ?_⟩
      have h1 : t < r := h r t (next_nextOf ht)
      exact ih t (Nat.le_of_lt_succ (Nat.lt_of_lt_of_le h1 hr))
  exact this r r (Nat.le_refl _)

end Verif.Entry
