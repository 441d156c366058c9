import Verif.Macro.Model
/-
Specification of the loop macros: what is written for a list of arguments, and what the loops are to be.
-/
namespace Verif.Macro.Spec
open Verif.Macro

variable {α β : Type}

/-- The arguments as written between the parentheses of a macro: no arguments are one empty text. -/
def written : List α → List (Piece α)
  | [] => [.empty]
  | as => as.map .arg

/-- `X` for each argument from the first to the last: it gets what is made of the arguments after it, how many arguments there are from it on, and these. -/
def nested (X : β → Nat → List α → β) (stop : β) : List α → β
  | [] => stop
  | a :: as => X (nested X stop as) (as.length + 1) (a :: as)

/-- `OP` joins what `FUNC` makes of the arguments, from the right; both get the number of the arguments: `FUNC` from its own on, `OP` after it. -/
inductive Joined (op : Nat → β → β → β) (func : α → Nat → β) : List α → β → Prop where
  | last {a} : Joined op func [a] (func a 1)
  | more {a as r} : Joined op func as r → Joined op func (a :: as) (op as.length (func a (as.length + 1)) r)

end Verif.Macro.Spec
