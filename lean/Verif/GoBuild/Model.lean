import Verif.GoDwarf.Model
/-
Model of /repo/pkg/metadb/metadb_builder.go:143-824: the objects of the reflection database made
from the tree of debug information entries (`GoDwarf`), before types are merged (`GoDedup`).

An object is allocated, put into its index entry and filled while its children are visited; nothing
reads it in that time, so here it is made at the end of the visit.  Left out: compile units of index
entries and places of declarations (used in warnings only), linkage of variables and functions,
language and files of compile units.
-/
namespace Verif.GoBuild
open GoMeta (Str dec)
open GoDedup (Go Desc Head Field Param Qual Aggr isTypeTag set decInt)

abbrev Off := Nat

/-- dwarf.go:135-219: values of attributes, by their Go type (`string`, `int64`, `bool`, `Offset`). -/
inductive Val where
  | str (s : Str)
  | int (v : Int)
  | bool (b : Bool)
  | off (o : Off)
  | other
deriving DecidableEq, Repr

/-- dwarf.go:222-230: the fields of an entry. -/
structure Body where
  attrs : List (Str × Val)

/-- dwarf.go:222-230 `Entry`. -/
abbrev DEntry := GoDwarf.Entry Body
/-- dwarf.go:421-423 `Data`. -/
abbrev Data := Off → Option DEntry

/-- dwarf.go:401-406 `Val`, 410-417 `AttrField`: the first field with that attribute. -/
def val (e : DEntry) (a : Str) : Option Val := (e.body.map Body.attrs).getD [] |>.lookup a
/-- `e.Val(a).(string)` -/
def strOf (e : DEntry) (a : Str) : Option Str := match val e a with | some (.str s) => some s | _ => none
/-- `e.Val(a).(int64)` -/
def intOf (e : DEntry) (a : Str) : Option Int := match val e a with | some (.int v) => some v | _ => none
/-- `e.Val(a).(bool)` -/
def boolOf (e : DEntry) (a : Str) : Option Bool := match val e a with | some (.bool v) => some v | _ => none
/-- `e.Val(a).(dwarfy.Offset)` -/
def offOf (e : DEntry) (a : Str) : Option Off := match val e a with | some (.off v) => some v | _ => none

/-- metadb_mixin.go:25-35 `MixinDeclaration`. -/
def declOf (e : DEntry) : Bool := boolOf e (go! "Declaration") = some true

/-- metadb_types.go:19-24 (`CommonType`), metadb.go:66-70, metadb_mixin.go:13-19, 42-53. -/
def head (e : DEntry) : Head :=
  { name := strOf e (go! "Name"), decl := declOf e, byteSize := intOf e (go! "ByteSize"), alignment := intOf e (go! "Alignment") }
/-- metadb.go:66-70 `Common`: no size. -/
def objHead (e : DEntry) : Head := { name := strOf e (go! "Name"), decl := declOf e }

/-- The index (`tag`: of the index entries there are; `ptr`: their objects), the objects made so far
with their parents, and those given to `appendDb`. -/
structure B where
  tag : Off → Option Str := fun _ => none
  ptr : Off → Option Nat := fun _ => none
  obj : Nat → Desc := fun _ => .lexBlock []
  parents : Nat → List Off := fun _ => []
  next : Nat := 0
  added : List Nat := []

/-- metadb_builder.go:143-155 `getIndex` (the error of `fromEntry` is not looked at there). -/
def getIndex (data : Data) (i : Off) (b : B) : Go (DEntry × B) :=
  match data i with
  | none => Go.fail
  | some e => Go.ret (e, if (b.tag i).isSome then b else { b with tag := set b.tag i (some e.tag) })

/-- metadb_builder.go:717-726 `processTypeEntry`. -/
def processTypeEntry (data : Data) (i : Off) (b : B) : Go B := do
  let (e, b) ← getIndex data i b
  if isTypeTag e.tag then Go.ret b else Go.fail

/-- metadb_builder.go:382-392 and others: the entry the `Type` attribute refers to, if there is one. -/
def typeLink (data : Data) (e : DEntry) (b : B) : Go (Option Off × B) :=
  match offOf e (go! "Type") with
  | none => Go.ret (none, b)
  | some t => do return (some t, ← processTypeEntry data t b)

/-- A new object for the index entry `i`. -/
def finish (i : Off) (d : Desc) (parents : List Off) (b : B) : B :=
  { b with ptr := set b.ptr i (some b.next), obj := set b.obj b.next d, parents := set b.parents b.next parents, next := b.next + 1 }
/-- A new object for the index entry `i` that is given to `appendDb`. -/
def finishObj (i : Off) (d : Desc) (parents : List Off) (b : B) : B := { finish i d parents b with added := b.added ++ [b.next] }

/-! ### Base types -/

/-- metadb_types.go:36-79 `baseTypeSynonims`. -/
def synonyms : List (Str × Str) :=
  [(go! "short", go! "short int"), (go! "signed short", go! "short int"), (go! "short signed", go! "short int"),
   (go! "signed short int", go! "short int"), (go! "short signed int", go! "short int"),
   (go! "unsigned short", go! "unsigned short int"), (go! "short unsigned", go! "unsigned short int"),
   (go! "unsigned short int", go! "unsigned short int"), (go! "short unsigned int", go! "unsigned short int"),
   (go! "signed int", go! "int"), (go! "signed", go! "int"), (go! "unsigned", go! "unsigned int"),
   (go! "long", go! "long int"), (go! "signed long", go! "long int"), (go! "long signed ", go! "long int"),
   (go! "signed long int", go! "long int"), (go! "long signed int", go! "long int"),
   (go! "unsigned long", go! "unsigned long int"), (go! "long unsigned ", go! "unsigned long int"),
   (go! "unsigned long int", go! "unsigned long int"), (go! "long unsigned int", go! "unsigned long int"),
   (go! "long long", go! "long long int"), (go! "signed long long", go! "long long int"), (go! "signed long long int", go! "long long int"),
   (go! "unsigned long long", go! "unsigned long long int"), (go! "long long unsigned", go! "unsigned long long int"),
   (go! "long long unsigned int", go! "unsigned long long int"),
   (go! "complex float", go! "complex float"), (go! "float complex", go! "complex float"),
   (go! "complex double", go! "complex double"), (go! "double complex", go! "complex double"),
   (go! "long double complex", go! "long complex double"), (go! "complex long double", go! "long complex double"),
   (go! "long complex double", go! "long complex double")]

/-- metadb_types.go:81-87 `deSynonim`. -/
def deSynonim (s : Str) : Str := (synonyms.lookup s).getD s

/-- metadb_types.go:106-121: the name of a base type; clang's complex types are told apart by size. -/
def baseName (n : Str) (size : Option Int) : Go Str :=
  if deSynonim n = go! "complex" then
    match size with
    | none => Go.fail
    | some s => if s = 8 then Go.ret (go! "complex float") else if s = 16 then Go.ret (go! "complex double")
      else if s = 32 then Go.ret (go! "long complex double") else Go.fail
  else Go.ret (deSynonim n)

/-- encoding_string.go:34-42. -/
def encodingNames : Str := go! "VoidAddressBooleanComplexFloatFloatSignedSignedCharUnsignedUnsignedCharImaginaryFloatPackedDecimalNumericStringEditedSignedFixedUnsignedFixedDecimalFloatUtfUcsAscii"
/-- encoding_string.go:34-42. -/
def encodingIndex : List Nat := [0, 4, 11, 18, 30, 35, 41, 51, 59, 71, 85, 98, 111, 117, 128, 141, 153, 156, 159, 164]

/-- encoding_string.go:44-55 `Encoding.String`. -/
def encodingString (v : Int) : Str :=
  if 0 ≤ v ∧ v ≤ 18 then (encodingNames.take (encodingIndex.getD (v.toNat + 1) 0)).drop (encodingIndex.getD v.toNat 0)
  else if v = 128 then go! "LoUser"
  else if v = 255 then go! "HiUser"
  else go! "Encoding(" ++ decInt v ++ [41]

/-- metadb_types.go:99-145 `BaseType.fromEntry`. -/
def baseDesc (e : DEntry) : Go Desc :=
  match strOf e (go! "Name") with
  | none => Go.fail
  | some n => do
    let name ← baseName n (intOf e (go! "ByteSize"))
    if (intOf e (go! "BitSize")).isSome ∨ (intOf e (go! "BitOffset")).isSome ∨ (intOf e (go! "DataBitOffset")).isSome then Go.fail
    else Go.ret (.base { head e with name := some name } ((intOf e (go! "Encoding")).elim [] encodingString))

/-! ### Parts of types -/

/-- metadb_builder.go:177-199: the enumerators. -/
def enumerators (data : Data) : List Off → Go (List (Str × Int))
  | [] => Go.ret []
  | o :: os =>
    match data o with
    | none => Go.fail
    | some e =>
      if e.tag = go! "Enumerator" then
        match strOf e (go! "Name"), intOf e (go! "ConstValue") with
        | some n, some v => do return (n, v) :: (← enumerators data os)
        | _, _ => Go.fail
      else Go.fail

/-- metadb_builder.go:224-252: what `processArrayType` reads of a child. -/
def subrange (o : Off) (e : DEntry) : GoMeta.Child :=
  { off := o, isSubrange := e.tag = go! "SubrangeType", lower := intOf e (go! "LowerBound"), count := intOf e (go! "Count"), upper := intOf e (go! "UpperBound") }

/-- metadb_builder.go:227-230: `getIndex` of the children of an array type (there in reverse order). -/
def subranges (data : Data) : List Off → B → Go (List GoMeta.Child × B)
  | [], b => Go.ret ([], b)
  | o :: os, b => do
    let (cs, b) ← subranges data os b
    let (e, b) ← getIndex data o b
    return (subrange o e :: cs, b)

/-- metadb_builder.go:264-267: the array types of inner dimensions. -/
def finishInner (ix : GoMeta.Index) : List Off → B → B
  | [], b => b
  | o :: os, b =>
    let b := finishInner ix os b
    match ix o with
    | none => b
    | some a => finish o (.array { name := none } a.stride a.lower a.count a.level a.type) a.parents { b with tag := set b.tag o (some (go! "ArrayType")) }

/-- metadb_builder.go:203-287 `processArrayType` (the loop: `GoMeta.processArrayType`). -/
def processArray (data : Data) (parent i : Off) (e : DEntry) (b : B) : Go B := do
  let (t, b) ← typeLink data e b
  let (cs, b) ← subranges data e.children b
  match GoMeta.processArrayType i parent t cs (intOf e (go! "StrideSize")) (fun _ => none) with
  | .error _ => Go.fail
  | .ok ix =>
    let b := finishInner ix e.children.tail b
    match ix i with
    | none => Go.fail
    | some a => Go.ret (finish i (.array (head e) a.stride a.lower a.count a.level a.type) a.parents b)

/-- metadb_builder.go:289-362 `processMixinFunc`: parameters, and what `other` (the function `f`)
makes of the other children. -/
def funcKids (other : Off → B → Go (Option Off × B)) (data : Data) : Bool → List Off → B → Go (List Param × List Off × B)
  | _, [], b => Go.ret ([], [], b)
  | had, o :: os, b =>
    match data o with
    | none => Go.fail
    | some e =>
      let rest := e.tag = go! "UnspecifiedParameters"
      if had = true ∧ (e.tag = go! "FormalParameter" ∨ rest ∨ e.tag = go! "TemplateTypeParameter") then Go.fail
      else if rest ∨ e.tag = go! "FormalParameter" then do
        let (t, b) ← typeLink data e b
        let (ps, hs, b) ← funcKids other data (had || rest) os b
        return (⟨rest, t, strOf e (go! "Name")⟩ :: ps, hs, b)
      else if e.tag = go! "CallSite" ∨ e.tag = go! "TemplateTypeParameter" then funcKids other data had os b
      else do
        let (h, b) ← other o b
        let (ps, hs, b) ← funcKids other data had os b
        return (ps, h.toList ++ hs, b)

/-- metadb_builder.go:479-530: a member; `union`: the structure is a union. -/
def member (data : Data) (union : Bool) (e : DEntry) (b : B) : Go (Field × B) :=
  match offOf e (go! "Type") with
  | none => Go.fail
  | some t => do
    let b ← processTypeEntry data t b
    let f : Field :=
      { name := strOf e (go! "Name"), type := some t, byteSize := intOf e (go! "ByteSize"), alignment := intOf e (go! "Alignment"),
        bitOffset := intOf e (go! "BitOffset"), dataBitOffset := intOf e (go! "DataBitOffset"), bitSize := intOf e (go! "BitSize"),
        byteOffset := (intOf e (go! "DataMemberLoc")).getD 0 }
    if f.bitOffset.isSome ∧ f.byteSize = none then Go.fail
    else if intOf e (go! "DataMemberLoc") = none ∧ union = false ∧ f.dataBitOffset = none then Go.fail
    else Go.ret (f, b)

/-- metadb_builder.go:473-539: the children of a structure.  `rec` is `processEntry`; if that gives no
index entry the next statement dereferences nil. -/
def structKids (rec : Off → B → Go (Bool × B)) (data : Data) (union : Bool) : List Off → B → Go (List Field × List Off × B)
  | [], b => Go.ret ([], [], b)
  | o :: os, b =>
    match data o with
    | none => Go.fail
    | some e =>
      if e.tag = go! "Member" then do
        let (f, b) ← member data union e b
        let (fs, hs, b) ← structKids rec data union os b
        return (f :: fs, hs, b)
      else if e.tag = go! "TemplateTypeParameter" then structKids rec data union os b
      else do
        let (k, b) ← rec o b
        if k then do
          let (fs, hs, b) ← structKids rec data union os b
          return (fs, o :: hs, b)
        else Go.panic

/-- metadb_builder.go:570-578: the children of a lexical block. -/
def blockKids (rec : Off → B → Go (Bool × B)) : List Off → B → Go (List Off × B)
  | [], b => Go.ret ([], b)
  | o :: os, b => do
    let (k, b) ← rec o b
    let (hs, b) ← blockKids rec os b
    return (if k then o :: hs else hs, b)

/-- metadb_builder.go:611-645, 678-712: the children of a namespace or compile unit.  What is
imported is processed here too.  An import of something without an index entry leaves a link that
is dereferenced at the end of the build: here a panic at once. -/
def scopeKids (rec : Off → B → Go (Bool × B)) (data : Data) : List Off → B → Go (List Off × B)
  | [], b => Go.ret ([], b)
  | o :: os, b =>
    match data o with
    | none => Go.fail
    | some e =>
      if e.tag = go! "ImportedModule" ∨ e.tag = go! "ImportedDeclaration" then
        match offOf e (go! "Import") with
        | none => scopeKids rec data os b
        | some x => do
          let (k, b) ← rec x b
          if k then do
            let (hs, b) ← scopeKids rec data os b
            return (x :: hs, b)
          else Go.panic
      else do
        let (k, b) ← rec o b
        if k then do
          let (hs, b) ← scopeKids rec data os b
          return (o :: hs, b)
        else Go.panic

open Lean.Order in
section
variable {γ : Type} [PartialOrder γ]

/-- Pairs are taken apart after a call: used for the monotonicity of the loops. -/
theorem mono_bind {α β : Type} {f : γ → Go α} {k : γ → α → Go β} (hf : monotone f) (hk : ∀ a, monotone fun x => k x a) : monotone fun x => f x >>= k x :=
  monotone_bind _ _ _ hf (monotone_of_monotone_apply _ hk)

@[partial_fixpoint_monotone]
theorem monotone_funcKids (f : γ → Off → B → Go (Option Off × B)) (data : Data) (had : Bool) (os : List Off) (b : B) (hf : monotone f) :
    monotone fun x => funcKids (f x) data had os b := by
  induction os generalizing had b with
  | nil => exact monotone_const _
  | cons o os ih =>
    simp only [funcKids]
    split
    · exact monotone_const _
    · split
      · exact monotone_const _
      · split
        · exact mono_bind (monotone_const _) fun p => mono_bind (ih _ _) fun q => monotone_const _
        · split
          · exact ih _ _
          · exact mono_bind (monotone_apply _ _ (monotone_apply _ _ hf)) fun p => mono_bind (ih _ _) fun q => monotone_const _

@[partial_fixpoint_monotone]
theorem monotone_structKids (f : γ → Off → B → Go (Bool × B)) (data : Data) (u : Bool) (os : List Off) (b : B) (hf : monotone f) :
    monotone fun x => structKids (f x) data u os b := by
  induction os generalizing b with
  | nil => exact monotone_const _
  | cons o os ih =>
    simp only [structKids]
    split
    · exact monotone_const _
    · split
      · exact mono_bind (monotone_const _) fun p => mono_bind (ih _) fun q => monotone_const _
      · split
        · exact ih _
        · refine mono_bind (monotone_apply _ _ (monotone_apply _ _ hf)) fun p => ?_
          split
          · exact mono_bind (ih _) fun q => monotone_const _
          · exact monotone_const _

@[partial_fixpoint_monotone]
theorem monotone_blockKids (f : γ → Off → B → Go (Bool × B)) (os : List Off) (b : B) (hf : monotone f) :
    monotone fun x => blockKids (f x) os b := by
  induction os generalizing b with
  | nil => exact monotone_const _
  | cons o os ih =>
    exact mono_bind (monotone_apply _ _ (monotone_apply _ _ hf)) fun p => mono_bind (ih _) fun q => monotone_const _

@[partial_fixpoint_monotone]
theorem monotone_scopeKids (f : γ → Off → B → Go (Bool × B)) (data : Data) (os : List Off) (b : B) (hf : monotone f) :
    monotone fun x => scopeKids (f x) data os b := by
  induction os generalizing b with
  | nil => exact monotone_const _
  | cons o os ih =>
    have step : ∀ x b', monotone fun g => (f g x b' >>= fun p => if p.1 then scopeKids (f g) data os p.2 >>= fun q => Go.ret (x :: q.1, q.2) else Go.panic) := by
      intro x b'
      refine mono_bind (monotone_apply _ _ (monotone_apply _ _ hf)) fun p => ?_
      split
      · exact mono_bind (ih _) fun q => monotone_const _
      · exact monotone_const _
    simp only [scopeKids]
    split
    · exact monotone_const _
    · split
      · split
        · exact ih _
        · exact step _ _
      · exact step _ _
end

/-! ### Entries -/

/-- metadb_builder.go:734-788: what is made of an entry with a given tag. -/
inductive Kind where
  | base | enumeration | array | pointer | reference (rvalue : Bool) | unspecified | subroutine | typedef | qual (q : Qual) | aggregate (a : Aggr)
  | «variable» | lexBlock | subprogram | namespace_ | ignored
deriving DecidableEq, Repr

/-- metadb_builder.go:734-788. -/
def kinds : List (Str × Kind) :=
  [(go! "BaseType", .base), (go! "EnumerationType", .enumeration), (go! "ArrayType", .array), (go! "PointerType", .pointer),
   (go! "ReferenceType", .reference false), (go! "RvalueReferenceType", .reference true), (go! "UnspecifiedType", .unspecified),
   (go! "SubroutineType", .subroutine), (go! "Typedef", .typedef), (go! "ConstType", .qual .const), (go! "VolatileType", .qual .volatile),
   (go! "RestrictType", .qual .restrict), (go! "MutableType", .qual .mutable), (go! "SharedType", .qual .shared), (go! "PackedType", .qual .packed),
   (go! "ClassType", .aggregate .class_), (go! "StructType", .aggregate .struct), (go! "UnionType", .aggregate .union),
   (go! "Variable", .variable), (go! "LexDwarfBlock", .lexBlock), (go! "Subprogram", .subprogram), (go! "Namespace", .namespace_),
   (go! "Label", .ignored), (go! "CallSite", .ignored), (go! "InlinedSubroutine", .ignored)]

/-- A type that consists of a link (metadb_builder.go:376-465). -/
def linkType (data : Data) (parent i : Off) (e : DEntry) (mk : Option Off → Desc) (b : B) : Go (Bool × B) := do
  let (t, b) ← typeLink data e b
  return (true, finish i (mk t) [parent] b)

/-- metadb_builder.go:157-201, 364-648, 728-793 `processEntry` and the functions it calls.  The
result says whether there is an index entry. -/
def processEntry (data : Data) (parent i : Off) (b : B) : Go (Bool × B) := do
  let (e, b) ← getIndex data i b
  match kinds.lookup ((b.tag i).getD []) with
  | none => Go.fail
  | some .ignored => Go.ret (false, b)
  | some .base => do return (true, finish i (← baseDesc e) [parent] b)
  | some .enumeration => do return (true, finish i (.enumeration (head e) (← enumerators data e.children)) [parent] b)
  | some .array => do return (true, ← processArray data parent i e b)
  | some .pointer => linkType data parent i e (.pointer (head e)) b
  | some (.reference r) => linkType data parent i e (.reference (head e) r) b
  | some .unspecified => Go.ret (true, finish i (.unspecified (head e)) [parent] b)
  | some (.qual q) => linkType data parent i e (.qual (head e) q) b
  | some .typedef =>
    if strOf e (go! "Name") = none then Go.fail else linkType data parent i e (.typedef (head e)) b
  | some .subroutine => do
    let (t, b) ← typeLink data e b
    let (ps, _, b) ← funcKids (fun _ b => Go.ret (none, b)) data false e.children b
    return (true, finish i (.subroutine (head e) ps t) [parent] b)
  | some (.aggregate a) => do
    let (fs, hs, b) ← structKids (processEntry data i) data (a = .union) e.children b
    return (true, finish i (.struct (head e) a fs hs) [parent] b)
  | some .variable => do
    let (t, b) ← typeLink data e b
    return (true, finishObj i (.variable (objHead e) t) [parent] b)
  | some .lexBlock => do
    let (hs, b) ← blockKids (processEntry data i) e.children b
    return (true, finishObj i (.lexBlock hs) [parent] b)
  | some .subprogram => do
    let (t, b) ← typeLink data e b
    let (ps, hs, b) ← funcKids (fun o b => do let (k, b) ← processEntry data i o b; return (if k then some o else none, b)) data false e.children b
    return (true, finishObj i (.subprogram (objHead e) ps t hs) [parent] b)
  | some .namespace_ => do
    let (hs, b) ← scopeKids (processEntry data i) data e.children b
    return (true, finishObj i (.namespace_ (objHead e) hs) [parent] b)
partial_fixpoint

/-- metadb_builder.go:650-715 `processCompileUnit`. -/
def processCompileUnit (data : Data) (i : Off) (e : DEntry) (b : B) : Go B :=
  match strOf e (go! "Name") with
  | none => Go.fail
  | some n => do
    let (hs, b) ← scopeKids (processEntry data i) data e.children b
    return finishObj i (.compileUnit n hs) [] b

/-- metadb_builder.go:802-818: the loop over the units. -/
def buildUnits (data : Data) : List Off → B → Go B
  | [], b => Go.ret b
  | i :: is, b =>
    if (b.tag i).isSome then Go.fail
    else do
      let (e, b) ← getIndex data i b
      if e.tag = go! "CompileUnit" then do
        let b ← processCompileUnit data i e b
        buildUnits data is b
      else Go.fail

/-- metadb_builder.go:795-818: `build` up to the merging of types. -/
def build (data : Data) : Go B :=
  match data 0 with
  | none => Go.fail
  | some e => buildUnits data e.children {}

/-- The input of the merging of types. -/
def world (data : Data) (b : B) : GoDedup.World :=
  { entries := fun i => (data i).map GoDwarf.Entry.parent, tag := fun i => (b.tag i).getD [], decl := fun i => match data i with | none => false | some e => declOf e, obj := b.obj }
/-- The input of the merging of types. -/
def start (b : B) : GoDedup.St := { ptr := b.ptr, parents := b.parents, added := b.added }

/-- metadb_builder.go:108-141, 795-823 `NewMetaDb` from the entries (`order`: the order in which Go visits the index). -/
def newMetaDb (data : Data) (order : List Off) : Go (GoDedup.World × GoDedup.St) := do
  let b ← build data
  return (world data b, ← GoDedup.dedup (world data b) order (start b))

end Verif.GoBuild
