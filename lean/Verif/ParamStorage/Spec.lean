import Verif.ParamStorage.Model
/-
Specification of the parameter storage: what a client can see of it, and which blocks it
owns.
-/
namespace Verif.ParamStorage.Spec
open Verif Verif.ParamStorage

/-- What can be seen of a stored parameter: its entry and its bytes, or its entry and a
nested storage, or (after an unchecked allocation failure) a nested storage that is NULL. -/
inductive View where
  | bytes (e : EntryArg) (bs : List UInt8)
  | list (e : EntryArg) (vs : List View)
  | null (e : EntryArg)

mutual
def view : Item → View
  | .buf _ e _ _ bs => .bytes e bs
  | .nested _ e _ inner items _ _ =>
    match inner with
    | some _ => .list e (views items)
    | none => .null e
def views : List Item → List View
  | [] => []
  | x :: xs => view x :: views xs
end

mutual
/-- All allocations belonging to an item: node, buffer or nested storage, copy of a
dynamic entry. -/
def owned : Item → List Nat
  | .buf node _ dyn block _ => block :: (dyn.toList ++ [node])
  | .nested node _ dyn inner items _ _ => ownedL items ++ (inner.toList ++ (dyn.toList ++ [node]))
def ownedL : List Item → List Nat
  | [] => []
  | x :: xs => owned x ++ ownedL xs
end

mutual
/-- Cached fields of an item's nested storages are right, buffers are not empty. -/
def Good : Item → Prop
  | .buf _ _ _ _ bs => bs ≠ []
  | .nested _ e _ inner items size last =>
    e.va = true ∧ (inner = none → items = []) ∧ GoodL items ∧ size = items.length ∧ last = (items.getLast?).map Item.node
def GoodL : List Item → Prop
  | [] => True
  | x :: xs => Good x ∧ GoodL xs
end

/-- A consistent storage in a heap: everything it owns (nested storages included) is
allocated, nothing is owned twice, the cached size and last node are right. -/
def Consistent (st : Sto) (h : Heap) : Prop :=
  h.Ok ∧ (st.block :: ownedL st.items).Nodup ∧ (∀ b ∈ st.block :: ownedL st.items, h.live b = true) ∧
  GoodL st.items ∧ st.size = st.items.length ∧ st.last = (st.items.getLast?).map Item.node

/-- The client's append requests. -/
inductive Op where
  | buf (e : Option EntryArg) (size : Int)
  | nested (e : EntryArg)

/-- Perform one request. -/
def request : Op → Sto → Heap → Outcome (Int × Option Sto × Heap)
  | .buf e n, st, h => appendBuffer (some st) e n h
  | .nested e, st, h => appendNested (some st) (some e) h

/-- Perform a list of requests, collecting the return codes. -/
def run : List Op → Sto → Heap → Outcome (List Int × Sto × Heap)
  | [], st, h => .ok ([], st, h)
  | op :: ops, st, h => do
    let (r, st', h) ← request op st h
    match st' with
    | none => .abort
    | some st' =>
      let (rs, st', h) ← run ops st' h
      return (r :: rs, st', h)

/-- The requests that were answered with 0. -/
def accepted : List Op → List Int → List Op
  | op :: ops, r :: rs => if r = 0 then op :: accepted ops rs else accepted ops rs
  | _, _ => []

/-- A stored item is the one asked for: the entry, the requested number of zero bytes, or
an empty nested storage (or NULL, if its allocation failed). -/
inductive Answers : Op → View → Prop where
  | buf (e : EntryArg) (n : Nat) : 0 < n → Answers (.buf (some e) n) (.bytes e (List.replicate n 0))
  | nested (e : EntryArg) : Answers (.nested e) (.list e [])
  | null (e : EntryArg) : Answers (.nested e) (.null e)

inductive AllAnswer : List Op → List View → Prop where
  | nil : AllAnswer [] []
  | cons {op v ops vs} : Answers op v → AllAnswer ops vs → AllAnswer (op :: ops) (v :: vs)

/-- A request the client is allowed to make: nested storages are only appended for `...`
and `va_list` parameters (the code asserts it). -/
def Allowed : Op → Prop
  | .buf _ _ => True
  | .nested e => e.va = true

/-- A request that has to be accepted when memory is available. -/
def Valid : Op → Prop
  | .buf e n => e ≠ none ∧ 0 < n
  | .nested _ => True

mutual
/-- No nested storage is NULL. -/
def whole : View → Prop
  | .bytes _ _ => True
  | .list _ vs => wholeL vs
  | .null _ => False
def wholeL : List View → Prop
  | [] => True
  | v :: vs => whole v ∧ wholeL vs
end

end Verif.ParamStorage.Spec
