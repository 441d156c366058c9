import Verif.EntryDb.Model
/-
Specification of the lookup: linear search for records.
-/
namespace Verif.EntryDb.Spec
open Verif.EntryDb
variable {E : Type}

/-- All records of a table. -/
def records (db : List (FileItem E)) : List (Rec E) :=
  db.flatMap fun f => f.locs.flatMap fun l => l.names.flatMap fun n =>
    n.entries.map fun e => ⟨f.file, l.locName, n.name, e⟩

/-- The entries recorded for a triple, in order. -/
def matching (rs : List (Rec E)) (file loc name : Str) : List E :=
  (rs.filter fun r => r.file = file && r.loc = loc && r.name = name).map (·.entry)

/-- The unambiguous entry: exactly one record. -/
def unique : List E → Option E
  | [e] => some e
  | _ => none

/-- Bytewise dictionary order of strings. -/
inductive Before : Str → Str → Prop
  | nil (b : UInt8) (bs : Str) : Before [] (b :: bs)
  | lt (a b : UInt8) (as bs : Str) : a < b → Before (a :: as) (b :: bs)
  | eq (a : UInt8) (as bs : Str) : Before as bs → Before (a :: as) (a :: bs)

/-- The table is strictly sorted by name at all three levels. -/
def Sorted (db : List (FileItem E)) : Prop :=
  (db.map (·.file)).Pairwise Before ∧
  ∀ f ∈ db, (f.locs.map (·.locName)).Pairwise Before ∧
    ∀ l ∈ f.locs, (l.names.map (·.name)).Pairwise Before

/-- C identifiers. -/
def IsIdent (s : Str) : Prop :=
  ∀ c ∈ s, (48 ≤ c ∧ c ≤ 57) ∨ (65 ≤ c ∧ c ≤ 90) ∨ c = 95 ∨ (97 ≤ c ∧ c ≤ 122)

/-- A path without the byte `\`. -/
def NoBackslash (s : Str) : Prop := (92 : UInt8) ∉ s

end Verif.EntryDb.Spec
