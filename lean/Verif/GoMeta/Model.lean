import Verif.Common
/-
Model of parts of /repo/pkg/metadb/metadb_builder.go: the identifiers given to database
objects, and the array types built from debug information.

Strings are byte lists.  Go `int` counters are natural numbers (fewer than 2^63 objects);
`int64` arithmetic wraps.  A run-time panic is `Outcome.abort`.
-/
namespace Verif.GoMeta
open Verif

abbrev Str := List UInt8

/-- metadb.go:310-327: the maps of the database, one per kind of object. -/
inductive Kind where
  | baseType | enumerationType | arrayType | pointerType | referenceType | unspecifiedType
  | subroutineType | qualType | typedef | unionType | structType | classType
  | variableObj | subprogram | lexBlock | namespaceObj | compileUnit
deriving DecidableEq, Repr

/-- What `commonIdFromICommon` looks at: the dynamic type (for `StructType` also its tag) and
the optional name. -/
structure Obj where
  kind : Kind
  name : Option Str
deriving DecidableEq, Repr

/-- metadb_builder.go:915-1003: the prefix of each kind. -/
def prefixOf : Kind → Str
  | .baseType => []
  | .enumerationType => [101]
  | .arrayType => [97]
  | .pointerType => [112]
  | .referenceType => [114, 101, 102]
  | .unspecifiedType => [117, 110, 115, 112, 101, 99]
  | .subroutineType => [115, 98, 114, 116, 110]
  | .qualType => [113, 117, 97, 108]
  | .typedef => [116]
  | .unionType => [117]
  | .structType => [115]
  | .classType => [99]
  | .variableObj => [118, 97, 114]
  | .subprogram => [102, 110]
  | .lexBlock => [98, 108, 107]
  | .namespaceObj => [110, 115]
  | .compileUnit => [99, 117]

/-- metadb_builder.go:915-1003: the name part.  `snake` is `xstrings.ToSnakeCase`. -/
def nameOf (snake : Str → Str) (o : Obj) : Str :=
  match o.kind, o.name with
  | .lexBlock, _ => []
  | .compileUnit, _ => []
  | .subprogram, none => [116, 98, 100]
  | _, none => []
  | _, some n => snake n

/-- metadb_builder.go:1004-1009: prefix and name joined. -/
def stem (snake : Str → Str) (o : Obj) : Str :=
  let name := nameOf snake o
  let pre := prefixOf o.kind
  if name ≠ [] then (if pre ≠ [] then pre ++ [95] else pre) ++ name else pre

/-- decimal digits. -/
def dec (n : Nat) : Str := if _h : n < 10 then [UInt8.ofNat (48 + n)] else dec (n / 10) ++ [UInt8.ofNat (48 + n % 10)]
termination_by n

/-- `%04d` of a non-negative number. -/
def pad4 (n : Nat) : Str := List.replicate (4 - (dec n).length) 48 ++ dec n

/-- `builder.names` and the maps of the database (one list, the kind is part of the key; the
last assignment to a key is the one found). -/
structure Db where
  names : List (Str × Nat)
  items : List ((Kind × Str) × Obj)

def Db.empty : Db := ⟨[], []⟩

/-- `m[k]`. -/
def find {α β : Type} [DecidableEq α] (k : α) : List (α × β) → Option β
  | [] => none
  | (k', v) :: rest => if k' = k then some v else find k rest

/-- metadb_builder.go:914-1019 `commonIdFromICommon`: the identifier and the new counters. -/
def commonId (snake : Str → Str) (names : List (Str × Nat)) (o : Obj) : Str × List (Str × Nat) :=
  let pre := stem snake o
  let cnt := match find pre names with
    | none => 0
    | some c => c + 1
  (pre ++ [95] ++ pad4 cnt, (pre, cnt) :: names)

/-- metadb_builder.go:1021-1077 `appendDb`: the identifier given and the new database. -/
def appendDb (snake : Str → Str) (db : Db) (o : Obj) : Str × Db :=
  let (id, names) := commonId snake db.names o
  (id, ⟨names, ((o.kind, id), o) :: db.items⟩)

/-- A sequence of additions: the identifiers in order, and the database. -/
def addAll (snake : Str → Str) (db : Db) : List Obj → List Str × Db
  | [] => ([], db)
  | o :: rest =>
    let (id, db) := appendDb snake db o
    let (ids, db) := addAll snake db rest
    (id :: ids, db)

/-! ### Array types -/

/-- Offset of a debug information entry. -/
abbrev Off := Nat

/-- A child of an array type entry: is it a `SubrangeType`, and its integer attributes (`none`
also when the attribute is not a constant). -/
structure Child where
  off : Off
  isSubrange : Bool
  lower : Option Int
  count : Option Int
  upper : Option Int
deriving DecidableEq, Repr

/-- The fields of `ArrayType` that `processArrayType` sets: `type` is the entry its `Type` link
refers to, `parents` those of its `Parents` links. -/
structure ArrayT where
  type : Option Off
  count : Int
  level : Int
  lower : Option Int
  parents : List Off
  stride : Option Int
deriving DecidableEq, Repr

/-- `builder.index`: which array type is stored at an entry. -/
abbrev Index := Off → Option ArrayT

/-- int64 arithmetic. -/
def toInt64 (v : Int) : Int := Int.bmod v (2 ^ 64)

/-- metadb_builder.go:235-252: the array type for one subrange. -/
def arrayOf (type : Option Off) (level : Nat) (c : Child) : ArrayT :=
  { type := type, level := level, lower := c.lower, parents := [], stride := none,
    count := match c.count with
      | some n => n
      | none =>
        match c.upper with
        | some u =>
          match c.lower with
          | some l => toInt64 (toInt64 (u + 1) - l)
          | none => toInt64 (u + 1)
        | none => -1 }

/-- metadb_builder.go:224-273: the loop over the children, last child first (`cs` is what is
left of them in that order, `n` their total number, `child` the loop variable, `top` the entry of the
whole array type, `type` is `pTypeIndex` and `lowest` the previous array type with the entry it is
stored at).  The previous array type is changed in place after it was stored: here it is stored
again.  Result: the outermost array type, not stored, or an error. -/
def arrayLoop (top : Off) (n : Nat) (ix : Index) (type : Option Off) (prev : Option (Off × ArrayT)) (child : Nat) :
    List Child → Except Unit (Option ArrayT × Index)
  | [] => .ok (prev.map (·.2), ix)
  | c :: cs =>
    if c.isSubrange then
      let a := arrayOf type child c
      let ix := match prev with
        | none => ix
        | some (o, p) =>
          let p := { p with parents := p.parents ++ [if child = n - 1 then top else c.off] }
          fun x => if x = o then some p else ix x
      let ix := if child < n - 1 then (fun x => if x = c.off then some a else ix x) else ix
      arrayLoop top n ix (some c.off) (some (c.off, a)) (child + 1) cs
    else .error ()

/-- metadb_builder.go:203-287 `processArrayType` for an entry at `top` with element type `elem`
(assumed to be a known type entry), children, stride attribute, below `parent`: the new index, or an
error. -/
def processArrayType (top parent : Off) (elem : Option Off) (children : List Child) (stride : Option Int) (ix : Index) : Except Unit Index :=
  match (if children = [] then .ok (some ⟨elem, -1, 0, none, [], none⟩, ix)
      else arrayLoop top children.length ix elem none 0 children.reverse) with
  | .error e => .error e
  | .ok (none, _) => .error ()
  | .ok (some a, ix) =>
    let a := { a with parents := a.parents ++ [parent], stride := stride }
    .ok fun x => if x = top then some a else ix x

end Verif.GoMeta
