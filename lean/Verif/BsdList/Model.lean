import Verif.Common
/-
Model of the intrusive list macros of /repo/include/metac/backend/list.h.

Elements and heads are numbers.  `le_prev` holds the address of a `struct type *` variable:
either some head's `lh_first` or some element's `le_next`; it may also be uninitialised
(`none`), and writing through it is then undefined.
-/
namespace Verif.BsdList
open Verif

/-- The address of a variable holding a pointer to an element. -/
inductive Slot where
  | first (head : Nat)
  | next (elm : Nat)
deriving DecidableEq, Repr

/-- include/metac/backend/list.h:7-19: the fields of all heads and elements. -/
structure Store where
  lhFirst : Nat → Option Nat
  leNext : Nat → Option Nat
  lePrev : Nat → Option Slot

def set {β : Type} (f : Nat → β) (k : Nat) (v : β) : Nat → β := fun x => if x = k then v else f x

/-- `*slot`. -/
def Store.get (st : Store) : Slot → Option Nat
  | .first h => st.lhFirst h
  | .next e => st.leNext e

/-- `*slot = v`. -/
def Store.put (st : Store) (s : Slot) (v : Option Nat) : Store :=
  match s with
  | .first h => { st with lhFirst := set st.lhFirst h v }
  | .next e => { st with leNext := set st.leNext e v }

def Store.setPrev (st : Store) (e : Nat) (s : Option Slot) : Store := { st with lePrev := set st.lePrev e s }

/-- include/metac/backend/list.h:24-26 LIST_INIT. -/
def init (h : Nat) (st : Store) : Store := { st with lhFirst := set st.lhFirst h none }

/-- include/metac/backend/list.h:28-34 LIST_INSERT_AFTER. -/
def insertAfter (listelm elm : Nat) (st : Store) : Store :=
  let st := { st with leNext := set st.leNext elm (st.leNext listelm) }
  let st := match st.leNext elm with
    | some _ =>
      match st.leNext listelm with
      | some x => st.setPrev x (some (.next elm))
      | none => st
    | none => st
  let st := { st with leNext := set st.leNext listelm (some elm) }
  st.setPrev elm (some (.next listelm))

/-- include/metac/backend/list.h:36-41 LIST_INSERT_BEFORE. -/
def insertBefore (listelm elm : Nat) (st : Store) : Outcome Store :=
  let st := st.setPrev elm (st.lePrev listelm)
  let st := { st with leNext := set st.leNext elm (some listelm) }
  match st.lePrev listelm with
  | none => .ub
  | some s =>
    let st := st.put s (some elm)
    .ok (st.setPrev listelm (some (.next elm)))

/-- include/metac/backend/list.h:43-48 LIST_INSERT_HEAD. -/
def insertHead (h elm : Nat) (st : Store) : Store :=
  let st := { st with leNext := set st.leNext elm (st.lhFirst h) }
  let st := match st.lhFirst h with
    | some x => st.setPrev x (some (.next elm))
    | none => st
  let st := { st with lhFirst := set st.lhFirst h (some elm) }
  st.setPrev elm (some (.first h))

/-- include/metac/backend/list.h:50-55 LIST_REMOVE. -/
def remove (elm : Nat) (st : Store) : Outcome Store :=
  let st := match st.leNext elm with
    | some x => st.setPrev x (st.lePrev elm)
    | none => st
  match st.lePrev elm with
  | none => .ub
  | some s => .ok (st.put s (st.leNext elm))

/-- include/metac/backend/list.h:57-60 LIST_FOREACH: the elements visited from `var` on, when
the body leaves the list alone; `none` if the loop never ends. -/
def foreachFrom (st : Store) (var : Option Nat) : Option (List Nat) :=
  match var with
  | none => some []
  | some x => do
    let xs ← foreachFrom st (st.leNext x)
    return x :: xs
partial_fixpoint

/-- include/metac/backend/list.h:57-60 LIST_FOREACH. -/
def foreach (h : Nat) (st : Store) : Option (List Nat) := foreachFrom st (st.lhFirst h)

/-- include/metac/backend/list.h:65 LIST_EMPTY. -/
def isEmpty (h : Nat) (st : Store) : Bool := st.lhFirst h == none

/-- A use of one of the macros. -/
inductive Op where
  | init (h : Nat)
  | insertHead (h elm : Nat)
  | insertAfter (listelm elm : Nat)
  | insertBefore (listelm elm : Nat)
  | remove (elm : Nat)

def exec (st : Store) : Op → Outcome Store
  | .init h => .ok (init h st)
  | .insertHead h e => .ok (insertHead h e st)
  | .insertAfter l e => .ok (insertAfter l e st)
  | .insertBefore l e => insertBefore l e st
  | .remove e => remove e st

/-- A history of uses. -/
def execAll : List Op → Store → Outcome Store
  | [], st => .ok st
  | o :: os, st => do execAll os (← exec st o)

end Verif.BsdList
