import Verif.GoBuild.Model
import Verif.Emit.Model
/-
Model of the end of the build of the database, /repo/pkg/metadb: the objects that were kept, with
their ids, their links and their parents replaced by the ids of what they lead to (`streamline`).
This is what the templates of the generated file are applied to.
-/
namespace Verif.Chain
open Verif.GoMeta (Str)
open GoDedup (World St Off Desc)

/-- What the objects say besides that which the model of the build keeps (GoBuild/Model.lean):
metadb_mixin.go:56-71 `MixinObject`, metadb_mixin.go:73-93 `MixinDeclLocation`, and the language and
the files of a unit, metadb.go:266-271.  It is not related to the debug information here: the
theorems hold for whatever it is.  The imports of namespaces and units are left out: the build with
imports is not covered (see C66). -/
structure Extra where
  external : Nat → Option Bool
  linkage : Nat → Option Str
  lang : Nat → Option Int
  files : Nat → List Str
  file : Off → Option Int
  line : Off → Option Int
  column : Off → Option Int

section
variable (snake : Str → Str) (w : World) (st : St)

/-- metadb.go:43-54: the id in a link at the end. -/
def link (l : Off) : Str := (GoDedup.streamline snake w st l).2

/-- The id in the link to a type: metadb_builder.go:311, 346, 391, 411, 439, 461, 558 `Set(nil)`
(metadb.go:30-41) if there is no attribute. -/
def typeLink : Option Off → Str
  | none => go! "void"
  | some l => link snake w st l

/-- A flag that is only written if it is set (_mixins.tpl:8-14 does the same for `false` and nil). -/
def flagOf (b : Bool) : Option Bool := if b then some true else none

/-- metadb_types.go:13-17, 26-30 `CommonType` of the object `n`. -/
def head (n : Nat) (h : GoDedup.Head) : Emit.Head :=
  { id := GoDedup.idOf snake w st.added n, name := h.name, decl := flagOf h.decl
    parents := (st.parents n).map (link snake w st) }

/-- The id of the parent of the object `n`; functions, variables, blocks and namespaces have one
(metadb.go:81-84, 143, 230). -/
def parentOf (n : Nat) : Str := ((st.parents n).map (link snake w st)).headD []

/-- metadb.go:81-95 `CommonObj` of the object `n`. -/
def objHead (x : Extra) (n : Nat) (h : GoDedup.Head) : Emit.ObjHead :=
  { id := GoDedup.idOf snake w st.added n, name := h.name, decl := flagOf h.decl
    parent := parentOf snake w st n, external := x.external n, linkage := x.linkage n }

/-- metadb_mixin.go:112-126 `FuncParam`. -/
def param (p : GoDedup.Param) : Emit.Param :=
  { unspecified := flagOf p.unspecified, type := typeLink snake w st p.type, name := p.name }

/-- metadb_types.go:498-515 `StructField`. -/
def field (f : GoDedup.Field) : Emit.Field :=
  { name := f.name, type := typeLink snake w st f.type, byteSize := f.byteSize
    alignment := f.alignment, byteOffset := f.byteOffset, dataBitOffset := f.dataBitOffset
    bitOffset := f.bitOffset, bitSize := f.bitSize }

/-- metadb.go:97-101 `HierarchyItem`, metadb_builder.go:86-97. -/
def item (x : Extra) (l : Off) : Emit.Item :=
  { link := link snake w st l, file := x.file l, line := x.line l, column := x.column l }

/-- The object `n` with its links: metadb_types.go and metadb.go, the types and their `streamline`. -/
def view (x : Extra) (n : Nat) : Emit.Obj :=
  match w.obj n with
  | .base h e => .base (head snake w st n h) h.byteSize e
  | .enumeration h es => .enumeration (head snake w st n h) h.byteSize es
  | .qual h q t => .qual (head snake w st n h) q.tag (typeLink snake w st t)
  | .typedef h t => .typedef (head snake w st n h) (typeLink snake w st t)
  | .pointer h t => .pointer (head snake w st n h) (typeLink snake w st t)
  | .unspecified h => .unspecified (head snake w st n h)
  | .reference h r t => .reference (head snake w st n h) (GoDedup.refTag r) h.byteSize (typeLink snake w st t)
  | .subroutine h ps r => .subroutine (head snake w st n h) (typeLink snake w st r) (ps.map (param snake w st))
  | .array h s l c v t => .array (head snake w st n h) c v l s (typeLink snake w st t)
  | .struct h a fs hs =>
    .aggregate (head snake w st n h) a.tag h.byteSize h.alignment (fs.map (field snake w st)) (hs.map (item snake w st x))
  | .variable h t => .variable (objHead snake w st x n h) (typeLink snake w st t)
  | .subprogram h ps r hs =>
    .subprogram (objHead snake w st x n h) (typeLink snake w st r) (ps.map (param snake w st)) (hs.map (item snake w st x))
  | .namespace_ h hs =>
    .namespace (GoDedup.idOf snake w st.added n) h.name (parentOf snake w st n) [] [] (hs.map (item snake w st x))
  | .lexBlock hs => .lexBlock (GoDedup.idOf snake w st.added n) (parentOf snake w st n) (hs.map (item snake w st x))
  | .compileUnit nm hs => .unit (GoDedup.idOf snake w st.added n) nm (x.lang n) (x.files n) [] [] (hs.map (item snake w st x))

/-- metadb.go:330-382: the database; the templates visit it map by map. -/
def Emitted (x : Extra) (db : List Emit.Obj) : Prop := db.Perm (st.added.map (view snake w st x))
end

end Verif.Chain
