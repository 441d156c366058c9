import Verif.BsdList.Model
/-
Specification: every head owns a sequence of elements, no element is in two places.
-/
namespace Verif.BsdList.Spec
open Verif Verif.BsdList

/-- The contents of every list. -/
abbrev Lists := Nat → List Nat

/-- Lists with one of them replaced. -/
def Lists.with (A : Lists) (h : Nat) (xs : List Nat) : Lists := fun k => if k = h then xs else A k

/-- The element is in none of the lists. -/
def Free (A : Lists) (e : Nat) : Prop := ∀ h, e ∉ A h

/-- The allowed uses of the macros and what they mean. -/
inductive Step : Lists → Op → Lists → Prop where
  | init (A h) : Step A (.init h) (A.with h [])
  | insertHead (A h e) : Free A e → Step A (.insertHead h e) (A.with h (e :: A h))
  | insertAfter (A h xs l ys e) : Free A e → A h = xs ++ l :: ys →
      Step A (.insertAfter l e) (A.with h (xs ++ l :: e :: ys))
  | insertBefore (A h xs l ys e) : Free A e → A h = xs ++ l :: ys →
      Step A (.insertBefore l e) (A.with h (xs ++ e :: l :: ys))
  | remove (A h xs e ys) : A h = xs ++ e :: ys → Step A (.remove e) (A.with h (xs ++ ys))

/-- A history of allowed uses. -/
inductive Steps : Lists → List Op → Lists → Prop where
  | nil (A) : Steps A [] A
  | cons {A B C o os} : Step A o B → Steps B os C → Steps A (o :: os) C

end Verif.BsdList.Spec
