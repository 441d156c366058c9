import Verif.GoMeta.Model
import Verif.OutcomeFix
/-
Model of /repo/pkg/metadb: signatures of database objects and the merging of equal types
(metadb_types.go, metadb.go, metadb_builder.go:826-912).

Objects are numbers (their addresses).  A link is the offset of the index entry it was set to
(metadb.go:30-41 `Set`): links hold index entries until the end of the build.  A run-time panic is
`Outcome.abort`; a Go `error` is `none`.
-/
namespace Verif.GoDedup

open GoMeta (Str dec)

/-- metadb_builder.go:26-40: offsets of entries, the keys of the index. -/
abbrev Off := Nat

/-- Byte strings. -/
macro "go!" s:str : term => do
  let bs ← s.getString.toUTF8.toList.mapM fun b => `(($(Lean.quote b.toNat) : UInt8))
  `([$(bs.toArray),*])

/-- Go functions that return a value and an error. -/
def Go (α : Type) : Type := Outcome (Option α)

namespace Go
/-- `return a, nil` -/
def ret {α : Type} (a : α) : Go α := Outcome.ok (some a)
/-- `return "", fmt.Errorf(...)` -/
def fail {α : Type} : Go α := Outcome.ok none
/-- A run-time panic. -/
def panic {α : Type} : Go α := Outcome.abort

/-- `if err != nil { return err }` -/
def bind {α β : Type} (x : Go α) (f : α → Go β) : Go β :=
  Outcome.bind x fun
    | none => Outcome.ok none
    | some a => f a

instance : Monad Go where
  pure := ret
  bind := bind

open Lean.Order
instance {α : Type} : PartialOrder (Go α) := inferInstanceAs (PartialOrder (Outcome (Option α)))
noncomputable instance {α : Type} : CCPO (Go α) := inferInstanceAs (CCPO (Outcome (Option α)))
instance : MonoBind Go where
  bind_mono_left h := by
    cases h
    · exact FlatOrder.rel.bot
    · exact FlatOrder.rel.refl
  bind_mono_right h := by
    rename_i x _ _
    match x with
    | .ok (some _) => exact h _
    | .ok none => exact FlatOrder.rel.refl
    | .abort => exact FlatOrder.rel.refl
    | .ub => exact FlatOrder.rel.refl
    | .hang => exact FlatOrder.rel.refl
instance {α : Type} : Nonempty (Go α) := ⟨panic⟩
end Go

/-! ### Objects -/

/-- metadb.go:56-60 `Common` and metadb_mixin.go:37-40 `MixinByteSize` (`int64` as integers). -/
structure Head where
  name : Option Str
  decl : Bool := false
  byteSize : Option Int := none
  alignment : Option Int := none
deriving DecidableEq, Repr

/-- metadb_mixin.go:112-117 `FuncParam`. -/
structure Param where
  unspecified : Bool
  type : Option Off
  name : Option Str := none
deriving DecidableEq, Repr

/-- metadb_types.go:499-511 `StructField`. -/
structure Field where
  name : Option Str
  type : Option Off
  byteSize : Option Int := none
  alignment : Option Int := none
  byteOffset : Int := 0
  dataBitOffset : Option Int := none
  bitOffset : Option Int := none
  bitSize : Option Int := none
deriving DecidableEq, Repr

/-- The tags that become `QualType`, `ReferenceType` and `StructType` (metadb_builder.go:751-770). -/
inductive Qual where | const | volatile | restrict | mutable | shared | packed
deriving DecidableEq, Repr
/-- Tags of `StructType` (metadb_builder.go:751-770). -/
inductive Aggr where | class_ | struct | union
deriving DecidableEq, Repr

/-- The objects that implement `ICommon`: the types of metadb_types.go and the objects of
metadb.go.  Left out: parents (kept apart), linkage, places of declaration.  `hier` are the
links of the hierarchy and of imports. -/
inductive Desc where
  | base (h : Head) (encoding : Str)
  | enumeration (h : Head) (es : List (Str × Int))
  | qual (h : Head) (q : Qual) (type : Option Off)
  | typedef (h : Head) (type : Option Off)
  | pointer (h : Head) (type : Option Off)
  | unspecified (h : Head)
  | reference (h : Head) (rvalue : Bool) (type : Option Off)
  | subroutine (h : Head) (ps : List Param) (ret : Option Off)
  | array (h : Head) (stride lower : Option Int) (count level : Int) (type : Option Off)
  | struct (h : Head) (tag : Aggr) (fs : List Field) (hier : List Off)
  | «variable» (h : Head) (type : Option Off)
  | subprogram (h : Head) (ps : List Param) (ret : Option Off) (hier : List Off)
  | namespace_ (h : Head) (hier : List Off)
  | lexBlock (hier : List Off)
  | compileUnit (name : Str) (hier : List Off)
deriving DecidableEq, Repr

/-- The tags as strings (dwarfy.go: `dwarf.Tag.String()`). -/
def Qual.tag : Qual → Str
  | .const => go! "ConstType"
  | .volatile => go! "VolatileType"
  | .restrict => go! "RestrictType"
  | .mutable => go! "MutableType"
  | .shared => go! "SharedType"
  | .packed => go! "PackedType"
/-- Tags as strings. -/
def Aggr.tag : Aggr → Str
  | .class_ => go! "ClassType"
  | .struct => go! "StructType"
  | .union => go! "UnionType"
/-- Tags as strings. -/
def refTag (rvalue : Bool) : Str := if rvalue then go! "RvalueReferenceType" else go! "ReferenceType"

/-! ### Signatures -/

/-- `fmt.Sprintf("%d", v)`. -/
def decInt (v : Int) : Str := if v < 0 then 45 :: dec (-v).toNat else dec v.toNat

/-- `key:%d,` if the attribute is there. -/
def optional (key : Str) : Option Int → Str
  | none => []
  | some v => key ++ [58] ++ decInt v ++ [44]

/-- metadb_types.go:231-238 and others: `key:(...),` with the signature of what the link refers
to, if there is a link. -/
def linked (link : Off → Go Str) (key : Str) : Option Off → Go Str
  | none => Go.ret []
  | some l => do return key ++ [58, 40] ++ (← link l) ++ [41, 44]

/-- metadb_types.go:415-427, metadb.go:194-206: a parameter. -/
def paramText (link : Off → Go Str) (p : Param) : Go Str :=
  if p.unspecified then Go.ret (go! "(UnspecifiedParam),")
  else match p.type with
    | none => Go.ret (go! "(),")
    | some l => do return [40] ++ (← link l) ++ [41, 44]

/-- metadb_types.go:412-430, metadb.go:191-209: all parameters. -/
def takesText (link : Off → Go Str) (ps : List Param) : Go Str :=
  if ps.length > 0 then do return go! "Takes:(" ++ (← ps.mapM (paramText link)).flatten ++ go! ")," else Go.ret []

/-- metadb_types.go:412-438, metadb.go:191-217: parameters and result. -/
def funcRest (link : Off → Go Str) (ps : List Param) (ret : Option Off) : Go Str := do
  return (← takesText link ps) ++ (← linked link (go! "Returns") ret)

/-- metadb_types.go:561-588: a field. -/
def fieldText (link : Off → Go Str) (f : Field) : Go Str := do
  let name := match f.name with | none => [] | some n => go! "Name:" ++ n ++ [44]
  let type ← linked link (go! "Type") f.type
  return [40] ++ name ++ type ++ optional (go! "Alignment") f.alignment ++ optional (go! "BitSize") f.bitSize ++
    (match f.bitOffset with | some _ => optional (go! "BitOffset") f.bitOffset | none => optional (go! "ByteOffset") (some f.byteOffset)) ++
    optional (go! "DataBitOffset") f.dataBitOffset ++ [41, 44]

/-- metadb_types.go:595-604: an item of the hierarchy. -/
def otherText (link : Off → Go Str) (l : Off) : Go Str := do return [40] ++ (← link l) ++ [41, 44]

/-- metadb_types.go:558-607: fields and other items; the latter only if there are fields. -/
def fieldsText (link : Off → Go Str) (fs : List Field) (hier : List Off) : Go Str :=
  if fs.length > 0 then do
    return go! "Fields:(" ++ (← fs.mapM (fieldText link)).flatten ++ go! ")," ++ (go! "Other:(" ++ (← hier.mapM (otherText link)).flatten ++ go! "),")
  else Go.ret []

/-- metadb_types.go:552-607: size, alignment, fields and other items. -/
def structRest (link : Off → Go Str) (h : Head) (fs : List Field) (hier : List Off) : Go Str := do
  return optional (go! "ByteSize") h.byteSize ++ optional (go! "Alignment") h.alignment ++ (← fieldsText link fs hier)

/-- metadb_types.go:476-492: an array without an element type has a typed nil pointer in its link
(metadb_builder.go:203-222): a panic. -/
def arrayRest (link : Off → Go Str) (stride lower : Option Int) (count level : Int) : Option Off → Go Str
  | none => Go.panic
  | some l => do
    return optional (go! "StrideBitSize") stride ++ optional (go! "LowerBound") lower ++ optional (go! "Count") (some count) ++
      optional (go! "Level") (some level) ++ (← linked link (go! "From") (some l))

/-- metadb_types.go:300-321 and others: name, and what follows it if it is asked for or there
is no name.  `decl`: a declaration has no more than a name. -/
def signed (head : Str) (name : Option Str) (decl comparable : Bool) (rest : Go Str) : Go Str :=
  match name with
  | some n =>
    if comparable = false then Go.ret (head ++ n)
    else if decl then Go.fail
    else do return head ++ n ++ (← rest)
  | none => if decl then Go.fail else do return head ++ (← rest)

/-- The methods `Signature`: metadb_types.go:147-165, 179-203, 222-240, 258-282, 300-321,
332-341, 361-382, 399-440, 463-495, 540-610, metadb.go:123-143, 163-165, 178-219, 243-249,
301-303.  `link`: the signature (not comparable) of what a link refers to. -/
def signature (link : Off → Go Str) (comparable : Bool) : Desc → Go Str
  | .base h enc =>
    match h.name with
    | none => Go.fail
    | some _ => signed (go! "BaseType,") h.name h.decl comparable (Go.ret (go! "Encoding:" ++ enc ++ [44] ++ optional (go! "ByteSize") h.byteSize))
  | .enumeration h es =>
    signed (go! "EnumerationType,") h.name h.decl comparable (Go.ret (optional (go! "ByteSize") h.byteSize ++ optional (go! "Alignment") h.alignment ++
      go! "Enumberators:(" ++ (es.map fun e => [40] ++ e.1 ++ [58] ++ decInt e.2 ++ [41, 44]).flatten ++ go! "),"))
  | .qual h q type => signed (go! "QualType:" ++ q.tag ++ [44]) h.name false comparable (linked link (go! "From") type)
  | .typedef h type =>
    match h.name with
    | none => Go.fail
    | some _ => signed (go! "Typedef,") h.name h.decl comparable (linked link (go! "From") type)
  | .pointer h type => signed (go! "PointerType,") h.name h.decl comparable (linked link (go! "From") type)
  | .unspecified h => signed (go! "UnspecifiedType,") h.name false comparable (Go.ret [])
  | .reference h rvalue type => signed (refTag rvalue ++ [44]) h.name h.decl comparable (linked link (go! "From") type)
  | .subroutine h ps ret => signed (go! "SubroutineType,") h.name h.decl comparable (funcRest link ps ret)
  | .array h stride lower count level type =>
    signed (go! "ArrayType,") h.name h.decl comparable (arrayRest link stride lower count level type)
  | .struct h tag fs hier => signed (go! "Tag:" ++ tag.tag ++ [44]) h.name h.decl comparable (structRest link h fs hier)
  | .variable h type => signed (go! "Variable,") h.name h.decl comparable (linked link (go! "Type") type)
  | .subprogram h ps ret _ => signed (go! "Subprogram,") h.name h.decl comparable (funcRest link ps ret)
  | .namespace_ h _ => Go.ret (go! "Namespace," ++ h.name.getD [])
  | .lexBlock _ => Go.fail
  | .compileUnit name _ => Go.ret (go! "CompileUnit, Name:" ++ name ++ [44])

open Lean.Order in
@[partial_fixpoint_monotone]
theorem monotone_signature {γ : Type} [PartialOrder γ] (f : γ → Off → Go Str) (c : Bool) (d : Desc) (hf : monotone f) :
    monotone (fun x => signature (f x) c d) := by
  have hl : ∀ key t, monotone (fun x => linked (f x) key t) := by
    intro key t
    cases t with
    | none => exact monotone_const _
    | some l => exact monotone_bind _ _ _ (monotone_apply _ _ hf) (monotone_const _)
  have hs : ∀ head name decl (rest : γ → Go Str), monotone rest → monotone (fun x => signed head name decl c (rest x)) := by
    intro head name decl rest hr
    unfold signed
    split
    · split
      · exact monotone_const _
      · split
        · exact monotone_const _
        · exact monotone_bind _ _ _ hr (monotone_const _)
    · split
      · exact monotone_const _
      · exact monotone_bind _ _ _ hr (monotone_const _)
  have hpar : monotone (fun x => paramText (f x)) := by
    apply monotone_of_monotone_apply
    intro p
    unfold paramText
    split
    · exact monotone_const _
    · split
      · exact monotone_const _
      · exact monotone_bind _ _ _ (monotone_apply _ _ hf) (monotone_const _)
  have hfun : ∀ ps ret, monotone (fun x => funcRest (f x) ps ret) := by
    intro ps ret
    unfold funcRest
    apply monotone_bind
    · unfold takesText
      split
      · exact monotone_bind _ _ _ (List.monotone_mapM _ _ hpar) (monotone_const _)
      · exact monotone_const _
    · apply monotone_of_monotone_apply
      intro _
      exact monotone_bind _ _ _ (hl _ _) (monotone_const _)
  have hother : monotone (fun x => otherText (f x)) := by
    apply monotone_of_monotone_apply
    intro l
    exact monotone_bind _ _ _ (monotone_apply _ _ hf) (monotone_const _)
  have hfield : monotone (fun x => fieldText (f x)) := by
    apply monotone_of_monotone_apply
    intro fl
    exact monotone_bind _ _ _ (hl _ _) (monotone_const _)
  cases d with
  | base h e =>
    simp only [signature]
    split
    · exact monotone_const _
    · exact hs _ _ _ _ (monotone_const _)
  | enumeration h es => exact hs _ _ _ _ (monotone_const _)
  | qual h q t => exact hs _ _ _ _ (hl _ _)
  | typedef h t =>
    simp only [signature]
    split
    · exact monotone_const _
    · exact hs _ _ _ _ (hl _ _)
  | pointer h t => exact hs _ _ _ _ (hl _ _)
  | unspecified h => exact hs _ _ _ _ (monotone_const _)
  | reference h r t => exact hs _ _ _ _ (hl _ _)
  | subroutine h ps ret => exact hs _ _ _ _ (hfun _ _)
  | array h s l c lv t =>
    apply hs
    cases t with
    | none => exact monotone_const _
    | some l => exact monotone_bind _ _ _ (hl _ _) (monotone_const _)
  | struct h tag fs hier =>
    apply hs
    unfold structRest
    apply monotone_bind
    · unfold fieldsText
      split
      · apply monotone_bind
        · exact List.monotone_mapM _ _ hfield
        · apply monotone_of_monotone_apply
          intro _
          exact monotone_bind _ _ _ (List.monotone_mapM _ _ hother) (monotone_const _)
      · exact monotone_const _
    · exact monotone_const _
  | «variable» h t => exact hs _ _ _ _ (hl _ _)
  | subprogram h ps ret hier => exact hs _ _ _ _ (hfun _ _)
  | namespace_ h hier => exact monotone_const _
  | lexBlock hier => exact monotone_const _
  | compileUnit n hier => exact monotone_const _

/-- The signature of the object `o`, through index entries (metadb_builder.go:43-48: an index
entry without object panics).  `ptr`: the object of each index entry. -/
def sig (obj : Nat → Desc) (ptr : Off → Option Nat) (o : Nat) (comparable : Bool) : Go Str :=
  signature (fun l => match ptr l with | none => Go.panic | some p => sig obj ptr p false) comparable (obj o)
partial_fixpoint

/-! ### Merging -/

/-- metadb_types.go:612-652 `isTypeTag`. -/
def typeTags : List Str := [go! "BaseType", go! "EnumerationType", go! "ArrayType", go! "PointerType", go! "ReferenceType", go! "RvalueReferenceType",
  go! "UnspecifiedType", go! "SubroutineType", go! "Typedef", go! "ConstType", go! "VolatileType", go! "RestrictType", go! "MutableType",
  go! "SharedType", go! "PackedType", go! "ClassType", go! "StructType", go! "UnionType"]
/-- metadb_types.go:612-652 `isTypeTag`. -/
def isTypeTag (tag : Str) : Bool := typeTags.contains tag

/-- metadb_types.go:32-34, metadb.go:76-78: objects with a `CommonType`. -/
def isType : Desc → Bool
  | .variable .. | .subprogram .. | .namespace_ .. | .lexBlock .. | .compileUnit .. => false
  | _ => true

/-- What does not change while types are merged: the entries of the debug information
(`entries`: the parent of each), the tags and declaration flags of index entries, and the
objects. -/
structure World where
  entries : Off → Option (Option Off)
  tag : Off → Str
  decl : Off → Bool
  obj : Nat → Desc

/-- The state of the build: the object of each index entry (`none`: no index entry, or no
object), the duplicates, the two maps of signatures (`signatures` as one map with pairs as
keys), the parents of each object, and the objects given to `appendDb`, in order. -/
structure St where
  ptr : Off → Option Nat
  dup : Off → Bool := fun _ => false
  heads : List (Str × Off) := []
  sigs : List ((Str × Str) × Off) := []
  parents : Nat → List Off
  added : List Nat

/-- An assignment. -/
def set {β : Type} (f : Nat → β) (a : Nat) (b : β) : Nat → β := fun x => if x = a then b else f x

/-- metadb_builder.go:850-861, 875-887: `indx` is the same as `found`. -/
def merge (w : World) (i o f : Nat) (st : St) : Go St :=
  match st.ptr f with
  | none => Go.fail
  | some fo =>
    if isType (w.obj o) && isType (w.obj fo) then
      Go.ret { st with parents := set st.parents fo (st.parents fo ++ st.parents o), dup := set st.dup i true, ptr := set st.ptr i (some fo) }
    else Go.fail

/-- metadb_builder.go:830-906: one index entry; `sg` is the method `Signature`, given the objects
of the index entries.  Left out: the warning about different types of one name (a panic there if
the place of a declaration is not in the list of files). -/
def stepWith (sg : (Off → Option Nat) → Nat → Bool → Go Str) (w : World) (i : Off) (st : St) : Go St :=
  match st.ptr i with
  | none => Go.ret st
  | some o =>
    if isTypeTag (w.tag i) = false then Go.ret st
    else match w.entries i with
      | some (some p) =>
        match w.entries p with
        | none => Go.fail
        | some _ =>
          if st.dup p then Go.ret { st with dup := set st.dup i true }
          else do
            let hs ← sg st.ptr o false
            if w.decl i then
              match List.lookup hs st.heads with
              | some f => merge w i o f st
              | none => Go.ret { st with heads := (hs, i) :: st.heads, added := st.added ++ [o] }
            else
              let cs ← sg st.ptr o true
              match List.lookup (hs, cs) st.sigs with
              | some f => merge w i o f st
              | none => Go.ret { st with sigs := ((hs, cs), i) :: st.sigs, added := st.added ++ [o] }
      | _ => Go.panic

/-- metadb_builder.go:830-910: the loop. -/
def dedupWith (sg : (Off → Option Nat) → Nat → Bool → Go Str) (w : World) : List Off → St → Go St
  | [], st => Go.ret st
  | i :: is, st => do dedupWith sg w is (← stepWith sg w i st)

/-- metadb_builder.go:826-912 `deduplicateTypes`; `order`: the order in which Go visits the
entries of the map. -/
def dedup (w : World) (order : List Off) (st : St) : Go St := dedupWith (sig w.obj) w order st

/-! ### Links at the end -/

/-- The kind of an object in the database (metadb_types.go and metadb.go, `GetKind`; a `StructType` has its tag). -/
def kindOf : Desc → GoMeta.Kind
  | .base .. => .baseType
  | .enumeration .. => .enumerationType
  | .qual .. => .qualType
  | .typedef .. => .typedef
  | .pointer .. => .pointerType
  | .unspecified .. => .unspecifiedType
  | .reference .. => .referenceType
  | .subroutine .. => .subroutineType
  | .array .. => .arrayType
  | .struct _ .union .. => .unionType
  | .struct _ .struct .. => .structType
  | .struct _ .class_ .. => .classType
  | .variable .. => .variableObj
  | .subprogram .. => .subprogram
  | .namespace_ .. => .namespaceObj
  | .lexBlock .. => .lexBlock
  | .compileUnit .. => .compileUnit

/-- metadb_mixin.go:9-11 `MixinName`; lexical blocks have none, that of compile units is not used. -/
def nameOf : Desc → Option Str
  | .base h _ | .enumeration h _ | .qual h _ _ | .typedef h _ | .pointer h _ | .unspecified h | .reference h _ _ | .subroutine h _ _ | .array h _ _ _ _ _
  | .struct h _ _ _ | .variable h _ | .subprogram h _ _ _ | .namespace_ h _ => h.name
  | .lexBlock _ => none
  | .compileUnit _ _ => none

/-- The identifiers the objects were given (metadb_builder.go:1021-1077), in the order they
were added. -/
def idsOf (snake : Str → Str) (w : World) (added : List Nat) : List Str :=
  (GoMeta.addAll snake GoMeta.Db.empty (added.map fun o => ⟨kindOf (w.obj o), nameOf (w.obj o)⟩)).1

/-- The identifier of an object: the last it was given; empty if it was not added. -/
def idOf (snake : Str → Str) (w : World) (added : List Nat) (o : Nat) : Str :=
  ((added.zip (idsOf snake w added)).reverse.lookup o).getD []

/-- metadb.go:43-54 `streamline` (30-41 `Set`): the kind and identifier a link ends with (no kind: void). -/
def streamline (snake : Str → Str) (w : World) (st : St) (l : Off) : Option GoMeta.Kind × Str :=
  match st.ptr l with
  | none => (none, go! "void")
  | some o => (some (kindOf (w.obj o)), idOf snake w st.added o)

end Verif.GoDedup
