import Verif.Handles.Model
import Verif.HeapOwn
import Verif.ParamStorage.Spec
/-
Specification: which blocks an object consists of, and what it means that a function makes
or releases an object.  `Heap.Owns base h bs` says that the live blocks are those of `base`
and, apart from them and from each other, those in `bs`.
-/
namespace Verif.Handles.Spec
open Verif Verif.Handles Verif.Entry
open Verif.Heap (Owns)

def textBlocks (t : Option Text) : List Nat := (t.map (·.block)).toList
def casesBlocks {α : Type} (c : Option (Cases α)) : List Nat := (c.map (·.block)).toList

/-- The blocks of the contexts: the context itself, the copied strings, the copied cases. -/
def countByBlocks (c : CountBy) : List Nat := c.block :: textBlocks c.name
def containerBlocks (c : ContainerOf) : List Nat := [c.block]
def unionBlocks (c : UnionSelect) : List Nat := c.block :: (textBlocks c.name ++ casesBlocks c.cases)
def ptrBlocks (c : PtrCast) : List Nat := c.block :: (textBlocks c.countName ++ (textBlocks c.selector ++ casesBlocks c.cases))

/-- The blocks of a handle: the handle and its copy of a dynamic entry. -/
def entryBlocks : Option EntryPtr → List Nat
  | some (.dyn b _) => [b]
  | _ => []
def handleBlocks (v : Handle) : List Nat := v.block :: entryBlocks v.entry

/-- What an entry pointer says about a type. -/
def says (db : Db) : Option EntryPtr → Option Entry
  | none => none
  | some (.static r) => some (db r)
  | some (.dyn _ c) => some c

/-- The caller's entry is of the database, or a dynamic one that is still there. -/
def Alive (h : Heap) : Option EntryPtr → Prop
  | some (.dyn b _) => h.live b = true
  | _ => True

/-- `mk` makes an object that is `good` and consists of new blocks, and nothing else changes;
or it answers NULL, nothing changes, and an allocation can fail. -/
def Makes {α : Type} (mk : Heap → Outcome (Option α × Heap)) (blocks : α → List Nat) (good : α → Prop) : Prop :=
  ∀ base h rest, Owns base h rest → ∃ r h', mk h = .ok (r, h') ∧ h'.fails = h.fails ∧
    match r with
    | none => Owns base h' rest ∧ ∃ k, h.fails k = true
    | some x => Owns base h' (blocks x ++ rest) ∧ good x

/-- `del` does nothing with NULL and releases exactly the blocks of an object. -/
def Releases {α : Type} (del : α → Heap → Outcome Heap) (blocks : α → List Nat) : Prop :=
  ∀ x base h rest, Owns base h (blocks x ++ rest) → ∃ h', del x h = .ok h' ∧ Owns base h' rest ∧ h'.fails = h.fails

/-- The caller's array of cases has the size it says. -/
def CasesArg {α : Type} (esz : Nat) (arg : Option (List α)) (caseSz : Nat) : Prop :=
  ∃ n, caseSz = n * esz ∧ (0 < n → ∃ xs, arg = some xs ∧ n ≤ xs.length)

/-- The cases that were passed. -/
def passed {α : Type} (esz : Nat) (arg : Option (List α)) (caseSz : Nat) : List α := (arg.getD []).take (caseSz / esz)

/-- The cases of a context. -/
def held {α : Type} (c : Option (Cases α)) : List α := match c with | none => [] | some c => c.elems

def text (t : Option Text) : Option Name := t.map (·.text)

end Verif.Handles.Spec
