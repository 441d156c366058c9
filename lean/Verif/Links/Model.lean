import Verif.Chain.Model
import Verif.Generate.Model
/-
Model of the maps of the database as the templates read them: /repo/pkg/metadb/metadb.go:308-328
`MetaDb` after `streamline`, made from the objects that the build kept (Chain/Model.lean) in the
form in which the templates are modelled (Generate/Model.lean); and of the templates of the test
generator, /repo/modules/metac-test-gen/templates.
-/
namespace Verif.Links
open Verif.GoMeta (Str)
open GoDedup (World St Off Go)
open Chain (Extra link parentOf)

/-- /repo/pkg/metadb/metadb.go:114-116, 152-154, 174-176, 239-241, 279-281 and
/repo/pkg/metadb/metadb_types.go:95-97, 175-177, 213-215, 254-256, 291-293, 328-330, 352-354,
390-392, 454-456, 526-528 `GetKind`; that of a `StructType` is its tag. -/
def kindText : GoMeta.Kind → Str
  | .baseType => go! "BaseType"
  | .enumerationType => go! "EnumerationType"
  | .arrayType => go! "ArrayType"
  | .pointerType => go! "PointerType"
  | .referenceType => go! "ReferenceType"
  | .unspecifiedType => go! "UnspecifiedType"
  | .subroutineType => go! "SubroutineType"
  | .qualType => go! "QualType"
  | .typedef => go! "Typedef"
  | .unionType => go! "UnionType"
  | .structType => go! "StructType"
  | .classType => go! "ClassType"
  | .variableObj => go! "Variable"
  | .subprogram => go! "Subprogram"
  | .lexBlock => go! "LexBlock"
  | .namespaceObj => go! "Namespace"
  | .compileUnit => go! "CompileUnit"

section
variable (snake : Str → Str) (w : World) (st : St)

/-- metadb.go:24-54: `Kind` of a link at the end. -/
def linkKind (l : Off) : Str := ((GoDedup.streamline snake w st l).1.map kindText).getD []

/-- metadb.go:97-101 `HierarchyItem` at the end. -/
def item (x : Extra) (l : Off) : Generate.Item :=
  { kind := linkKind snake w st l, id := link snake w st l, declFile := x.file l, declLine := x.line l }

/-- metadb.go:81-84 `CommonObj.Parent`: its kind. -/
def parentKind (n : Nat) : Str := ((st.parents n).map (linkKind snake w st)).headD []

/-- metadb.go:323 `Variables`: what the object `n` is there. -/
def varRow (n : Nat) : Option (Str × Generate.Var) :=
  match w.obj n with
  | .variable h _ =>
    some (GoDedup.idOf snake w st.added n, { name := h.name, parentKind := parentKind snake w st n, parentId := parentOf snake w st n })
  | _ => none

/-- metadb.go:317-319, 322, 324-325 `ClassTypes`, `StructTypes`, `UnionTypes`, `Subprograms`, `LexBlocks`,
`Namespaces`: what the object `n` is in the map of the kind `k`. -/
def scopeRow (x : Extra) (k : GoMeta.Kind) (n : Nat) : Option (Str × Generate.Scope) :=
  if GoDedup.kindOf (w.obj n) = k then
    match w.obj n with
    | .struct h _ _ hs | .subprogram h _ _ hs | .namespace_ h hs =>
      some (GoDedup.idOf snake w st.added n, { name := h.name, hier := hs.map (item snake w st x) })
    | .lexBlock hs => some (GoDedup.idOf snake w st.added n, { name := none, hier := hs.map (item snake w st x) })
    | _ => none
  else none

/-- metadb.go:326 `CompileUnits`. -/
def unitRow (x : Extra) (n : Nat) : Option (Str × Generate.CUnit) :=
  match w.obj n with
  | .compileUnit _ hs => some (GoDedup.idOf snake w st.added n, { declFiles := x.files n, hier := hs.map (item snake w st x) })
  | _ => none

/-- metadb.go:308-328: the maps of the database.  Templates visit them in the order of the ids; here
it is any order. -/
structure Tables (x : Extra) (db : Generate.Db) : Prop where
  variables : db.variables.Perm (st.added.filterMap (varRow snake w st))
  subprograms : db.subprograms.Perm (st.added.filterMap (scopeRow snake w st x .subprogram))
  namespaces : db.namespaces.Perm (st.added.filterMap (scopeRow snake w st x .namespaceObj))
  lexBlocks : db.lexBlocks.Perm (st.added.filterMap (scopeRow snake w st x .lexBlock))
  structTypes : db.structTypes.Perm (st.added.filterMap (scopeRow snake w st x .structType))
  classTypes : db.classTypes.Perm (st.added.filterMap (scopeRow snake w st x .classType))
  unionTypes : db.unionTypes.Perm (st.added.filterMap (scopeRow snake w st x .unionType))
  units : db.units.Perm (st.added.filterMap (unitRow snake w st x))
end

/-! ### Tests -/

/-- /repo/modules/metac-test-gen/templates/_build_requests.tpl:7-23: one item; the list is
`$resDict.test`. -/
def noteTest (db : Generate.Db) (tests : List Str) (h : Generate.Item) : Go (List Str) :=
  if h.kind = go! "Variable" then
    match db.variables.lookup h.id with
    | none => Go.fail
    | some v =>
      match v.name with
      | none => Go.ret tests
      | some n =>
        if (go! "metac__").isPrefixOf n then
          match Generate.split2 (n.drop (go! "metac__").length) with
          | [t, r] => if t = go! "test" then Go.ret (tests ++ [r]) else Go.ret tests
          | _ => Go.ret tests
        else Go.ret tests
  else Go.ret tests

/-- /repo/modules/metac-test-gen/templates/_build_requests.tpl:5-26, _.tpl:5-7, 24-26: the tests that
`main` adds, by the name in `METAC_REQUEST(test, ...)`. -/
def testsOf (db : Generate.Db) : Go (List Str) :=
  db.units.foldlM (fun tests u => u.2.hier.foldlM (noteTest db) tests) []

/-- /repo/modules/metac-test-gen/templates/_.tpl:18-36 `main`: each test added is run, its result is
`passes`; the exit status.  Left out: the check library (its settings, its output). -/
def mainOf (passes : Str → Bool) (tests : List Str) : Nat :=
  let f := (tests.filter fun t => !passes t).length
  if f = 0 then 0 else 1

end Verif.Links
