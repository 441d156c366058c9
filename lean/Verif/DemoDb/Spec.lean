import Verif.DemoDb.Model
import Verif.HeapOwn
/-
Specification of the database of the demo: a list of persons.
-/
namespace Verif.DemoDb.Spec
open Verif

/-- A name in a record: NULL if there is none, else a copy of it. -/
inductive Name : Option Str → Ptr → Prop where
  | none : Name none .null
  | some (b : Nat) (s : Str) : Name (some s) (.own b s)

/-- The record describes the person. -/
structure Is (p : Person) (c : Cell) : Prop where
  first : Name p.first c.first
  last : Name p.last c.last
  age : c.age = p.age
  status : c.status = p.status

/-- The records of the database are these persons, in this order. -/
structure Holds (d : Db) (L : List Person) : Prop where
  count : d.count = L.length
  room : d.data.length ≤ d.room
  records : ∀ (i : Nat) p, L[i]? = some p → ∃ c, d.data[i]? = some c ∧ Is p c

def Ptr.blocks : Ptr → List Nat
  | .own b _ => [b]
  | _ => []

def Cell.blocks (c : Cell) : List Nat := Ptr.blocks c.first ++ Ptr.blocks c.last

/-- The blocks of the database: its own and those of the names of its records. -/
def owned (d : Db) : List Nat := d.block :: (d.data.take d.count).flatMap Cell.blocks

/-- What a user does with a database. -/
inductive Op where
  | add (p : Option Person)
  | remove (i : Int)

/-- `Run fails L ops codes L'`: if the persons are `L` and the operations are done, they return the codes,
and the persons are `L'`.  If memory runs out (`fails`), a person may be refused with `-ENOMEM`. -/
inductive Run (fails : Prop) : List Person → List Op → List Int → List Person → Prop where
  | done {L} : Run fails L [] [] L
  | added {L p ops cs L'} : Run fails (L ++ [p]) ops cs L' → Run fails L (.add (some p) :: ops) (0 :: cs) L'
  | refused {L p ops cs L'} : fails → Run fails L ops cs L' → Run fails L (.add (some p) :: ops) (-12 :: cs) L'
  | nobody {L ops cs L'} : Run fails L ops cs L' → Run fails L (.add none :: ops) (-22 :: cs) L'
  | removed {L} {i : Nat} {ops cs L'} : i < L.length → Run fails (L.eraseIdx i) ops cs L' → Run fails L (.remove i :: ops) (0 :: cs) L'
  | outside {L i ops cs L'} : (i < 0 ∨ i ≥ L.length) → Run fails L ops cs L' → Run fails L (.remove i :: ops) (-22 :: cs) L'

end Verif.DemoDb.Spec
