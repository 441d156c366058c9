import Verif.Inherit.Model
/-
Specification of inheritance emulation.
-/
namespace Verif.Inherit.Spec
open Verif.Inherit

/-- `x` is declared with these items, after the structures of `before`. -/
inductive Declared : Env → Name → List Item → Env → Prop where
  | here {x items before} : Declared ((x, items) :: before) x items before
  | there {x y items env i before} : x ≠ y → Declared env x items before → Declared ((y, i) :: env) x items before

/-- All the parents of `x`, and theirs, are declared before it. -/
inductive Complete : Env → Name → Prop where
  | intro {env x items before} : Declared env x items before → (∀ k p, Item.inherit k p ∈ items → Complete before p) → Complete env x

/-- The numbers of the macros used on a way from `x` to a parent, from there to one of its parents, and so
on. -/
inductive Way : Env → Name → List Nat → Prop where
  | stop {env x} : Way env x []
  | up {env x items before k p ks} : Declared env x items before → Item.inherit k p ∈ items → Way before p ks → Way env x (k :: ks)

/-- What a structure would be with one plain member for each parent. -/
def plain (sizeOf alignOf : Name → Nat) : Item → Member
  | .field n s a => .field n s a
  | .inherit _ p => .field p (sizeOf p) (alignOf p)

end Verif.Inherit.Spec
