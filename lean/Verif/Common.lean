/-
Outcomes shared by several models.
-/
namespace Verif

/-- Outcome of a C call: a normal result, a failed `assert` (the library is built
without `NDEBUG`, so the process aborts), undefined behaviour, or a loop that never ends. -/
inductive Outcome (α : Type) where
  | ok (a : α)
  | abort
  | ub
  | hang
deriving DecidableEq, Repr

namespace Outcome

def bind {α β : Type} : Outcome α → (α → Outcome β) → Outcome β
  | ok a, f => f a
  | abort, _ => abort
  | ub, _ => ub
  | hang, _ => hang

instance : Monad Outcome where
  pure := ok
  bind := bind

@[simp] theorem bind_ok {α β : Type} (a : α) (f : α → Outcome β) : (Outcome.ok a >>= f) = f a := rfl
@[simp] theorem bind_abort {α β : Type} (f : α → Outcome β) : ((Outcome.abort : Outcome α) >>= f) = abort := rfl
@[simp] theorem bind_ub {α β : Type} (f : α → Outcome β) : ((Outcome.ub : Outcome α) >>= f) = ub := rfl
@[simp] theorem bind_hang {α β : Type} (f : α → Outcome β) : ((Outcome.hang : Outcome α) >>= f) = hang := rfl
@[simp] theorem pure_eq {α : Type} (a : α) : (pure a : Outcome α) = ok a := rfl

/-- Result of a loop: `none` if it never ends. -/
def ofLoop {α : Type} : Option α → Outcome α
  | some a => ok a
  | none => hang

@[simp] theorem ofLoop_some {α : Type} (a : α) : ofLoop (some a) = ok a := rfl
@[simp] theorem ofLoop_none {α : Type} : (ofLoop none : Outcome α) = hang := rfl

/-- `assert(c)`. -/
def assert (c : Bool) : Outcome Unit := if c then ok () else abort

def isOk {α : Type} : Outcome α → Bool
  | ok _ => true
  | _ => false

end Outcome
end Verif
