import Verif.EntryDb.Model
import Verif.GoDedup.Model
/-
Model of the part of /repo/modules/metac-reflect-gen/templates that finds the requests of the
program and answers them: _build_requests.tpl, _entry_db.tpl, _glob_responses.tpl, _db_v0.tpl.

A Go map is the list of its pairs in increasing order of the keys, the order in which
text/template visits it.  A Go `error` of the template is `Go.fail`; recursion without end is
`hang`.  An `index` of a map with a missing key gives a nil pointer, whose fields cannot be
read: `Go.fail` where a field is read.
Left out: the output text around the values, the comments, and the fields of the database
objects that these templates do not read.
-/
namespace Verif.Generate
open Verif
open Verif.GoDedup (Go decInt)
open Verif.EntryDb (dictUpd quote unquote Rec FileItem)

abbrev Str := List UInt8

/-- /repo/pkg/metadb/metadb.go:97-101 `HierarchyItem`. -/
structure Item where
  kind : Str
  id : Str
  declFile : Option Int := none
  declLine : Option Int := none
deriving DecidableEq, Repr

/-- /repo/pkg/metadb/metadb.go:103-107 `Variable` (name and parent). -/
structure Var where
  name : Option Str
  parentKind : Str
  parentId : Str
deriving DecidableEq, Repr

/-- `Subprogram`, `Namespace`, `LexBlock` (/repo/pkg/metadb/metadb.go:145-172, 229-237) and
`StructType` (/repo/pkg/metadb/metadb_types.go:518-524): name and hierarchy. -/
structure Scope where
  name : Option Str := none
  hier : List Item
deriving DecidableEq, Repr

/-- /repo/pkg/metadb/metadb.go:264-277 `CompileUnit`. -/
structure CUnit where
  declFiles : List Str
  hier : List Item
deriving DecidableEq, Repr

/-- /repo/pkg/metadb/metadb.go:308-328 `MetaDb`: the maps these templates read. -/
structure Db where
  variables : List (Str × Var)
  subprograms : List (Str × Scope)
  namespaces : List (Str × Scope) := []
  lexBlocks : List (Str × Scope) := []
  structTypes : List (Str × Scope) := []
  classTypes : List (Str × Scope) := []
  unionTypes : List (Str × Scope) := []
  units : List (Str × CUnit)

/-! ### Requests -/

/-- The dictionary made in _build_requests.tpl:40-46 for a request. -/
structure Ref where
  reqName : Str
  module : Str
  cu : Str
  path : List Nat
  isLocal : Bool
  h : Item
  var : Var
deriving DecidableEq, Repr

/-- `$resDict`: type of request to requests. -/
abbrev Res := List (Str × List Ref)

/-- _build_requests.tpl:27-30. -/
def pre (module : Str) : Str := if module ≠ [] then go! "metac__" ++ module ++ [95] else go! "metac__"

/-- `regexSplit "_" s 2` (_build_requests.tpl:36; Go `regexp.Split`). -/
def split2 (s : Str) : List Str :=
  if (95 : UInt8) ∈ s then [s.takeWhile (· ≠ 95), (s.dropWhile (· ≠ 95)).drop 1] else [s]

/-- _build_requests.tpl:32-55: note the item if it is a request. -/
def note (db : Db) (module cu : Str) (path : List Nat) (isLocal : Bool) (h : Item) (res : Res) : Go Res :=
  if h.kind = go! "Variable" then
    match db.variables.lookup h.id with
    | none => Go.fail
    | some v =>
      match v.name with
      | none => Go.ret res
      | some n =>
        if (pre module).isPrefixOf n then
          match split2 (n.drop (pre module).length) with
          | [t, r] =>
            let ref : Ref := { reqName := r, module, cu, path, isLocal, h, var := v }
            Go.ret (dictUpd t [ref] (fun rs => rs ++ [ref]) res)
          | _ => Go.ret res
        else Go.ret res
  else Go.ret res

/-- _build_requests.tpl:56-83: the maps of the kinds that are entered. -/
def scopeMap (db : Db) (kind : Str) : Option (List (Str × Scope)) :=
  if kind = go! "Subprogram" then some db.subprograms
  else if kind = go! "Namespace" then some db.namespaces
  else if kind = go! "LexBlock" then some db.lexBlocks
  else if kind = go! "StructType" then some db.structTypes
  else if kind = go! "ClassType" then some db.classTypes
  else if kind = go! "UnionType" then some db.unionTypes
  else none

/-- _build_requests.tpl:19-85 `build_requests_hierarchy` from the item number `i` on.  `$local` is
assigned inside the loop (L58) and keeps its value for the next items. -/
def walk (db : Db) (module cu : Str) (path : List Nat) (i : Nat) (isLocal : Bool) (items : List Item) (res : Res) : Go Res :=
  match items with
  | [] => Go.ret res
  | h :: rest => do
    let res ← note db module cu path isLocal h res
    match scopeMap db h.kind with
    | none => walk db module cu path (i + 1) isLocal rest res
    | some m =>
      match m.lookup h.id with
      | none => Go.fail
      | some s => do
        let inner := decide (h.kind = go! "Subprogram")
        let res ← walk db module cu (path ++ [i]) 0 inner s.hier res
        walk db module cu path (i + 1) inner rest res
partial_fixpoint

/-- _build_requests.tpl:8-10, 13-15: all compile units. -/
def walkUnits (db : Db) (module : Str) (res : Res) : Go Res :=
  db.units.foldlM (fun res u => walk db module u.1 [] 0 false u.2.hier res) res

/-- _build_requests.tpl:87-97 `module_name`: the keys of `$moduleDict`. -/
def modules (tmp : Res) : List Str :=
  (((tmp.lookup (go! "module")).getD []).foldl (fun d r => dictUpd r.reqName () id d)
    (dictUpd (go! "dflt") () id [])).map (·.1)

/-- _build_requests.tpl:3-17 `build_requests`: the modules and the requests. -/
def buildRequests (db : Db) : Go (List Str × Res) := do
  let tmp ← walkUnits db [] []
  let res ← (modules tmp).foldlM (fun res m => walkUnits db m res) []
  return (modules tmp, res)

/-! ### The tables of declaration places -/

/-- _entry_db.tpl:14-22, 156-163, 175-182: file and line of an item.  `atoi (toJson .)` of an
`*int64` is the number. -/
def place (cu : CUnit) (h : Item) : Go (Str × Int) := do
  let file ← match h.declFile with
    | none => Go.ret []
    | some f =>
      if f < 0 then Go.fail else match cu.declFiles[f.toNat]? with
        | none => Go.fail
        | some s => Go.ret s
  return (file, h.declLine.getD (-1))

/-- _entry_db.tpl:154-190: one item of a hierarchy; `vars` maps ids to names (kept unquoted,
quoted by `EntryDb.addRec`). -/
def addSibling (db : Db) (cu : CUnit) (at_ : Str × Int) (vars : List (Str × Str)) (h : Item) : Go (List (Str × Str)) :=
  let add (name : Option (Option Str)) : Go (List (Str × Str)) := do
    let p ← place cu h
    if p = at_ then
      match name with
      | none => Go.fail
      | some none => Go.ret vars
      | some (some n) => Go.ret (dictUpd h.id n id vars)
    else Go.ret vars
  if h.kind = go! "Variable" then add ((db.variables.lookup h.id).map (·.name))
  else if h.kind = go! "Subprogram" then add ((db.subprograms.lookup h.id).map (·.name))
  else Go.ret vars

/-- _entry_db.tpl:112-143: the hierarchy of the parent; none of a parent of another kind. -/
def parentHier (db : Db) (v : Var) : Go (List Item) :=
  match scopeMap db v.parentKind with
  | some m =>
    match m.lookup v.parentId with
    | none => Go.fail
    | some s => Go.ret s.hier
  | none =>
    if v.parentKind = go! "CompileUnit" then
      match db.units.lookup v.parentId with
      | none => Go.fail
      | some u => Go.ret u.hier
    else Go.ret []

/-- _entry_db.tpl:104-192: the objects declared beside `v` in the same place. -/
def siblings (db : Db) (cu : CUnit) (at_ : Str × Int) (v : Var) : Go (List (Str × Str)) := do
  let hier ← parentHier db v
  hier.foldlM (addSibling db cu at_) []

/-- _entry_db.tpl:24: `printf "%s:%d %s"`. -/
def placeText (file : Str) (line : Int) (name : Str) : Str := file ++ [58] ++ decInt line ++ [32] ++ name

/-- _entry_db.tpl:11-59: the body of the loop.  `$reqLocDict` is never read and is left out.  (A
request is always of a unit of the database.) -/
def addRequest (db : Db) (st : List Str × List (Rec Str)) (r : Ref) : Go (List Str × List (Rec Str)) := do
  match db.units.lookup r.cu with
  | none => Go.fail
  | some cu =>
    let (file, line) ← place cu r.h
    let key := placeText file line r.reqName
    if key ∈ st.1 then Go.fail
    else
      let vars ← siblings db cu (file, line) r.var
      return (key :: st.1, st.2 ++ vars.map fun (id, name) => { file, loc := r.var.name.getD [], name, entry := id })

/-- _entry_db.tpl:2-97 `entry_db` for a module; `none` if nothing is emitted (L60). -/
def entryDb (db : Db) (module : Str) (res : Res) : Go (Option (List (FileItem Str))) :=
  match res.lookup (go! "entry") with
  | none => Go.ret none
  | some requests => do
    let (_, recs) ← (requests.filter (·.module = module)).foldlM (addRequest db) ([], [])
    return if EntryDb.buildDict recs = [] then none else some (EntryDb.generate recs)

/-! ### Global symbols -/

/-- _glob_responses.tpl:46-51: the branch for namespaces calls `build_requests_hierarchy` without
`module`, `path`, `resDict`: no variable has the prefix made of a missing module, and `append` to a
missing path is an error. -/
def globNamespace (db : Db) : List Item → Go Unit
  | [] => Go.ret ()
  | h :: rest =>
    if h.kind = go! "Variable" ∧ db.variables.lookup h.id = none then Go.fail
    else match scopeMap db h.kind with
      | some _ => Go.fail
      | none => globNamespace db rest

/-- _glob_responses.tpl:25-53: the definitions written for the items: the argument of the macro and
the entry. -/
def globHier (db : Db) (name : Str) : List Item → Go (List (Str × Str))
  | [] => Go.ret []
  | h :: rest => do
    let hit (n : Option (Option Str)) : List (Str × Str) := if n = some (some name) then [(name, h.id)] else []
    let here ←
      if h.kind = go! "Variable" then Go.ret (hit ((db.variables.lookup h.id).map (·.name)))
      else if h.kind = go! "Subprogram" then Go.ret (hit ((db.subprograms.lookup h.id).map (·.name)))
      else if h.kind = go! "Namespace" then
        match db.namespaces.lookup h.id with
        | none => Go.fail
        | some s => globNamespace db s.hier >>= fun _ => Go.ret []
      else Go.ret []
    let more ← globHier db name rest
    return here ++ more

/-- _glob_responses.tpl:14-18: the first unit with an answer. -/
def globAll (db : Db) (name : Str) : List (Str × CUnit) → Go (List (Str × Str))
  | [] => Go.ret []
  | u :: rest => do
    let out ← globHier db name u.2.hier
    if out = [] then globAll db name rest else return out

/-- _glob_responses.tpl:9-21: one request. -/
def globRequest (db : Db) (r : Ref) : Go (List (Str × Str)) :=
  match db.units.lookup r.cu with
  | none => Go.fail
  | some cu => do
    let out ← globHier db r.reqName cu.hier
    if out = [] then globAll db r.reqName db.units else return out

/-- _glob_responses.tpl:2-23, called by _.tpl:19 with the key `gsym`: the definitions, for the
requests of all modules. -/
def globResponses (db : Db) (res : Res) : Go (List (Str × Str)) := do
  let outs ← ((res.lookup (go! "gsym")).getD []).mapM (globRequest db)
  return outs.flatten

/-- /repo/include/metac/reflect/link.h:10: what `METAC_GSYM_NAME(name)` is in a file compiled for
the module `m`. -/
def gsymName (m name : Str) : Str := go! "metac_" ++ m ++ go! "_gsym_" ++ name

/-! ### Tables of names -/

/-- _db_v0.tpl:32-65 `name_to_entries` of one map: the ids of the objects by quoted name. -/
def byName (m : List (Str × Option Str)) : List (Str × List Str) :=
  m.foldl (fun d x => dictUpd (quote (x.2.getD [])) [x.1] (fun ids => ids ++ [x.1]) d) []

/-- A symbol of the generated file: an object, or a pointer to one. -/
inductive Symbol (T : Type) where
  | object (t : T)
  | pointer (t : T)
deriving DecidableEq, Repr

/-- _db_v0.tpl:2-30: `none` if there is no request; the definition of `METAC_DB_NAME()` otherwise:
`struct metac_db METAC_DB_NAME() = {..}` (L14). -/
def dbV0 (maps : List (List (Str × Option Str))) (res : Res) : Go (Option (Symbol (List (List (Str × List Str))))) :=
  match res.lookup (go! "db") with
  | none => Go.ret none
  | some requests =>
    if requests.all (fun r => some r.reqName = requests.head?.map (·.reqName)) then
      Go.ret (some (.object (maps.map fun m => (byName m).map fun (q, ids) => (unquote q, ids))))
    else Go.fail

/-- /repo/include/metac/reflect/db.h:47-64: `METAC_DB_LINK_PTR()` of a program with
`METAC_DB_LINK()`: the symbol is declared as a pointer (L49), and is read (L61).  To read an object
of the structure type as a pointer is undefined. -/
def dbLinkPtr {T : Type} : Symbol T → Outcome (Option T)
  | .pointer t => .ok (some t)
  | .object _ => .ub

end Verif.Generate
