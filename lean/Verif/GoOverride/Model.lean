import Verif.Common
/-
Model of /repo/pkg/override/override.go (merging of configuration overrides).

A Go map is written as the list of its entries; the order of that list is the order in which
`range` happens to visit them (Go leaves it open, so the theorems hold for every order).
Every table is ranged over at most once per merge.  A run-time panic is `Outcome.abort`.
Not modelled: parsing of the override texts (`New`), the warnings written to the log, and
failure of the deep copy (it cannot fail for decoded JSON or YAML).
-/
namespace Verif.GoOverride
open Verif

/-- Key of a table. -/
abbrev Key := List UInt8

mutual
/-- Decoded configuration values: what an `interface{}` can hold after JSON or YAML decoding.
`other` stands for anything that is neither nil nor a `map[string]interface{}` (numbers,
strings, arrays). -/
inductive Val where
  | null
  | other (n : Nat)
  | table (t : Table)

/-- `map[string]interface{}`. -/
inductive Table where
  | nil
  | cons (k : Key) (v : Val) (rest : Table)
end

namespace Table

/-- `v, ok := t[key]`. -/
def get (key : Key) : Table → Option Val
  | nil => none
  | cons k v rest => if k = key then some v else rest.get key

/-- `t[key] = v`. -/
def set (key : Key) (v : Val) : Table → Table
  | nil => cons key v nil
  | cons k w rest => if k = key then cons k v rest else cons k w (rest.set key v)

/-- `delete(t, key)`. -/
def del (key : Key) : Table → Table
  | nil => nil
  | cons k v rest => if k = key then rest else cons k v (rest.del key)

end Table

/-- override.go:130-156 `mergeTables`: the table `dst` after the loop over `src` (`merge` is
the third argument).  Sub-tables are changed in place; here the changed sub-table is put back. -/
def mergeTables (merge : Bool) (dst : Table) : Table → Table
  | .nil => dst
  | .cons key val rest =>
    match dst.get key with
    | none => mergeTables merge (dst.set key val) rest
    | some .null => if merge then mergeTables merge dst rest else mergeTables merge (dst.del key) rest
    | some (.other _) => mergeTables merge dst rest
    | some (.table dt) =>
      match val with
      | .table st => mergeTables merge (dst.set key (.table (mergeTables merge dt st))) rest
      | .null => mergeTables merge dst rest
      | .other _ => mergeTables merge dst rest

/-- override.go:90-117: the loop of `Merge` over the copy of `in`, with `merge = true`. -/
def mergeLoop (v : Table) : Table → Table
  | .nil => v
  | .cons key val rest =>
    match v.get key with
    | some (.table dest) =>
      match val with
      | .table src => mergeLoop (v.set key (.table (mergeTables true dest src))) rest
      | .null => mergeLoop v rest
      | .other _ => mergeLoop v rest
    | some .null => mergeLoop v rest
    | some (.other _) => mergeLoop v rest
    | none => mergeLoop (v.set key val) rest

/-- override.go:58-119 `Merge`.  `none` is a nil map, which is what the override text `null`
decodes to: assigning to one of its keys panics. -/
def merge (inp : Table) : Option Table → Outcome Table
  | some v => .ok (mergeLoop v inp)
  | none =>
    match inp with
    | .nil => .ok .nil
    | .cons .. => .abort

/-- override.go:41-54 `MergeAll`, given the decoded overrides (`none` in the outer list: the
text does not decode). -/
def mergeAll (inp : Table) : List (Option (Option Table)) → Outcome (Option Table)
  | [] => .ok (some inp)
  | none :: _ => .ok none
  | some ov :: rest => do mergeAll (← merge inp ov) rest

end Verif.GoOverride
