import Verif.Iterator.Model
/-
Specification of the task iterator: which task of a tree must be handed out next,
and the plain recursive function that the standard client loop is meant to compute.
-/
namespace Verif.Iterator.Spec
variable {I O : Type}

/-- A pending task tree: its input, whether it has ended, its dependents in the order
in which they were appended.  This is all of the state the specification looks at. -/
inductive Task (I : Type) where
  | mk (inp : Option I) (ended : Bool) (deps : List (Task I))

namespace Task
def inp {I : Type} : Task I → Option I | mk i _ _ => i
def ended {I : Type} : Task I → Bool | mk _ e _ => e
def deps {I : Type} : Task I → List (Task I) | mk _ _ ds => ds
end Task

mutual
/-- The task to run inside an unfinished task `t`: descend into the first unfinished
dependent if there is one, otherwise `t` itself.  The result is the address of the
task: the list of positions among the dependents on the way down. -/
def descend {I : Type} : Task I → List Nat
  | .mk _ _ ds => descendList 0 ds
/-- Same, among the dependents from position `i` on (`[]`: all of them have ended). -/
def descendList {I : Type} (i : Nat) : List (Task I) → List Nat
  | [] => []
  | d :: ds => if d.ended then descendList (i + 1) ds else i :: descend d
end

/-- The task that must be handed out next: none iff the root task has ended. -/
def selected {I : Type} (root : Task I) : Option (List Nat) :=
  if root.ended then none else some (descend root)

/-- The task at an address. -/
def at? {I : Type} : Task I → List Nat → Option (Task I)
  | t, [] => some t
  | t, i :: is => match t.deps[i]? with
    | some d => at? d is
    | none => none

/-- Finite trees on which a client wants to compute. -/
inductive Tree (L : Type) where
  | node (label : L) (children : List (Tree L))

mutual
/-- The recursive function: combine the label with the children's results
(`none` is a failure, handed to the parent like any other result). -/
def eval {L R : Type} (combine : L → List (Option R) → Option R) : Tree L → Option R
  | .node l cs => combine l (evals combine cs)
def evals {L R : Type} (combine : L → List (Option R) → Option R) : List (Tree L) → List (Option R)
  | [] => []
  | c :: cs => eval combine c :: evals combine cs
end

mutual
/-- The calls of `combine` made by the recursive function, in order: post-order. -/
def calls {L R : Type} (combine : L → List (Option R) → Option R) :
    Tree L → List (L × List (Option R))
  | .node l cs => callss combine cs ++ [(l, evals combine cs)]
def callss {L R : Type} (combine : L → List (Option R) → Option R) :
    List (Tree L) → List (L × List (Option R))
  | [] => []
  | c :: cs => calls combine c ++ callss combine cs
end

end Verif.Iterator.Spec
