import Verif.Generate.Model
import Verif.EntryDb.Spec
/-
What the requests of a program are, and what their answers should be.
-/
namespace Verif.Generate.Spec
open Verif Verif.Generate

/-- The items inside a scope, by its kind and id. -/
def contents (db : Db) (kind id : Str) : Option (List Item) :=
  ([(go! "Subprogram", db.subprograms), (go! "Namespace", db.namespaces), (go! "LexBlock", db.lexBlocks),
    (go! "StructType", db.structTypes), (go! "ClassType", db.classTypes), (go! "UnionType", db.unionTypes)].lookup kind).bind
    fun m => (m.lookup id).map Scope.hier

/-- Kinds of the items that have items inside. -/
def IsScope (h : Item) : Prop :=
  h.kind ∈ [go! "Subprogram", go! "Namespace", go! "LexBlock", go! "StructType", go! "ClassType", go! "UnionType"]

/-- `l` are the given items and everything inside them, to any depth, in the order of the text. -/
inductive All (db : Db) : List Item → List Item → Prop where
  | nil : All db [] []
  | leaf {h rest l} : ¬ IsScope h → All db rest l → All db (h :: rest) (h :: l)
  | scope {h rest inner l k} : IsScope h → contents db h.kind h.id = some inner → All db inner k → All db rest l →
      All db (h :: rest) (h :: (k ++ l))

/-- The item is the variable `v`. -/
def IsVar (db : Db) (h : Item) (v : Var) : Prop := h.kind = go! "Variable" ∧ db.variables.lookup h.id = some v

/-- `vis` gives everything inside each unit, and the variables there are known. -/
structure Visits (db : Db) (vis : Str × CUnit → List Item) : Prop where
  all : ∀ u ∈ db.units, All db u.2.hier (vis u)
  vars : ∀ u ∈ db.units, ∀ h ∈ vis u, h.kind = go! "Variable" → ∃ v, IsVar db h v

/-- reqresp.h: `METAC_MODULE_REQUEST(m, t, r)` is the name `metac__m_t_r`; the name of a type of
request has no underscore.  The result is `r`. -/
def asked (m t n : Str) : Option Str :=
  let head := go! "metac__" ++ m ++ [95] ++ t ++ [95]
  if head <+: n then some (n.drop head.length) else none

/-- The request of type `t` for the module `m` made by an item. -/
def request (db : Db) (m t : Str) (h : Item) : Option (Var × Str) :=
  if h.kind = go! "Variable" then
    (db.variables.lookup h.id).bind fun v => v.name.bind fun n => (asked m t n).map fun r => (v, r)
  else none

/-- The requests of type `t` for the module `m` in the whole program: unit, item, variable, and
name. -/
def requests (db : Db) (vis : Str × CUnit → List Item) (m t : Str) : List (Str × Item × Var × Str) :=
  db.units.flatMap fun u => (vis u).filterMap fun h => (request db m t h).map fun x => (u.1, h, x.1, x.2)

/-- `m` is a module: the default one, or one declared by a variable `metac__module_m`. -/
def IsModule (db : Db) (vis : Str × CUnit → List Item) (m : Str) : Prop :=
  m = go! "dflt" ∨ ∃ u ∈ db.units, ∃ h ∈ vis u, ∃ v, IsVar db h v ∧ v.name = some (go! "metac__module_" ++ m)

/-- File and line of an item, if the file is known. -/
def placeOf (u : CUnit) (h : Item) : Option (Str × Int) :=
  match h.declFile with
  | none => some ([], h.declLine.getD (-1))
  | some f => if 0 ≤ f then (u.declFiles[f.toNat]?).map fun s => (s, h.declLine.getD (-1)) else none

/-- The name of a variable or of a function. -/
def nameOf (db : Db) (h : Item) : Option Str :=
  if h.kind = go! "Variable" then (db.variables.lookup h.id).bind Var.name
  else if h.kind = go! "Subprogram" then (db.subprograms.lookup h.id).bind Scope.name
  else none

/-- The items of the scope a variable is declared in. -/
def beside (db : Db) (v : Var) : List Item :=
  if v.parentKind = go! "CompileUnit" then ((db.units.lookup v.parentId).map CUnit.hier).getD []
  else (contents db v.parentKind v.parentId).getD []

/-- The variables and functions called `name` that are declared beside `v` in the given place. -/
def declared (db : Db) (u : CUnit) (p : Str × Int) (v : Var) (name : Str) : List Str :=
  (((beside db v).filter fun o => nameOf db o = some name ∧ placeOf u o = some p).map Item.id).eraseDups

/-- The answers for the place of declaration `loc` of the file `file` that one item gives: if the
item is the variable called `loc`, it requests entries for the module `m`, and it is declared in
`file`, then the objects called `name` that are declared beside it on its line. -/
def answers (db : Db) (m : Str) (u : CUnit) (h : Item) (file loc name : Str) : List Str :=
  match request db m (go! "entry") h, placeOf u h with
  | some (v, _), some (f, line) => if f = file ∧ v.name = some loc then declared db u (f, line) v name else []
  | _, _ => []

/-- The parent of `v` is known, and so are the variables and functions beside it and their files. -/
def Known (db : Db) (u : CUnit) (v : Var) : Prop :=
  (v.parentKind = go! "CompileUnit" ∧ (db.units.lookup v.parentId).isSome ∨ (contents db v.parentKind v.parentId).isSome) ∧
  ∀ o ∈ beside db v, (o.kind = go! "Variable" → (db.variables.lookup o.id).isSome ∧ (placeOf u o).isSome) ∧
    (o.kind = go! "Subprogram" → (db.subprograms.lookup o.id).isSome ∧ (placeOf u o).isSome)

/-- File, line and name of a request. -/
def whereAsked (db : Db) (x : Str × Item × Var × Str) : Option (Str × Int × Str) :=
  (db.units.lookup x.1).bind fun u => (placeOf u x.2.1).map fun p => (p.1, p.2, x.2.2.2)

/-- Names are C identifiers, files have no backslash, and an id stands for one object. -/
structure Regular (db : Db) : Prop where
  vars : ∀ i v n, db.variables.lookup i = some v → v.name = some n → EntryDb.Spec.IsIdent n
  subs : ∀ i s n, db.subprograms.lookup i = some s → s.name = some n → EntryDb.Spec.IsIdent n
  files : ∀ u ∈ db.units, ∀ f ∈ u.2.declFiles, EntryDb.Spec.NoBackslash f
  ids : ∀ i, db.variables.lookup i = none ∨ db.subprograms.lookup i = none
  units : (db.units.map (·.1)).Nodup

/-- If the item is a namespace, it is known, and so are the variables in it; no function, type or
other scope is in it. -/
def Flat (db : Db) (o : Item) : Prop :=
  o.kind = go! "Namespace" → ∃ l, contents db o.kind o.id = some l ∧
    ∀ x ∈ l, ¬ IsScope x ∧ (x.kind = go! "Variable" → ∃ v, IsVar db x v)

/-- The top-level objects of a unit called `name`. -/
def top (db : Db) (u : CUnit) (name : Str) : List Str :=
  (u.hier.filter fun o => nameOf db o = some name).map Item.id

/-- The first list that is not empty. -/
def firstOf : List (List Str) → List Str
  | [] => []
  | l :: ls => if l = [] then firstOf ls else l

/-- The objects a request for a global symbol made in the unit `u` should get: those of the unit
itself, and if there are none, those of the first unit that has any. -/
def answer (db : Db) (u : CUnit) (name : Str) : List Str := firstOf (top db u name :: db.units.map fun u => top db u.2 name)

/-- The ids of the objects with a name; an object without a name counts as called "". -/
def idsOf (m : List (Str × Option Str)) (name : Str) : List Str :=
  (m.filter fun x => x.2.getD [] = name).map (·.1)

end Verif.Generate.Spec
