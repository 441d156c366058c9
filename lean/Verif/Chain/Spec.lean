import Verif.GoBuild.Spec
import Verif.GoDedup.Spec
import Verif.Emit.RunSpec
import Verif.Emit.Run
import Verif.Entry.Spec
import Verif.Chain.Model
/-
Specification: what a program is told about the entries of its debug information.
-/
namespace Verif.Chain.Spec
open Verif.GoMeta (Str)
open GoDwarf.Spec (Die)
open GoBuild.Spec (Tree Placed Good GoodNames text num ref declared isTag parts NameOf encodings paramTags Dim)
open GoDedup (Off)

/-- The entries of types. -/
def typeTags : List Str :=
  [go! "BaseType", go! "EnumerationType", go! "ConstType", go! "VolatileType", go! "RestrictType", go! "MutableType", go! "SharedType", go! "PackedType",
   go! "Typedef", go! "PointerType", go! "UnspecifiedType", go! "RvalueReferenceType", go! "ReferenceType", go! "SubroutineType", go! "ArrayType",
   go! "ClassType", go! "StructType", go! "UnionType"]

/-- The entries that are scopes. -/
def scopeTags : List Str := [go! "Subprogram", go! "LexDwarfBlock", go! "Namespace", go! "CompileUnit"]

/-- Debug information as compilers write it for C: complete, without types within types. -/
structure Whole (units : List (Nat × Tree)) : Prop where
  sound : ∀ u ∈ units, u.2.Sound
  distinct : (0 :: Die.offsAll (units.map Prod.snd)).Nodup
  good : Good (units.map Prod.snd)
  names : ∀ q d, Placed [] (units.map Prod.snd) q d → GoodNames d
  flat : ∀ q d, Placed [] (units.map Prod.snd) q d → d.tag ∈ typeTags →
    ∀ p ∈ q, ∃ q' s, Placed [] (units.map Prod.snd) q' s ∧ s.off = p ∧ s.tag ∈ scopeTags

/-- The same, without arrays of more than two dimensions (with them: `C80_dims_false`). -/
structure Input (units : List (Nat × Tree)) : Prop extends Whole units where
  dims : ∀ q d, Placed [] (units.map Prod.snd) q d → d.tag = go! "ArrayType" → d.kids.length ≤ 2

/-- The types that an entry and its parts refer to. -/
def uses (d : Tree) : List Off := (d :: d.kids).filterMap fun k => ref k (go! "Type")

/-- Types as in C: a type without a name is made of other types; arrays are of something, and their
dimensions are no declarations; in structures there are only members. -/
structure CTypes (units : List (Nat × Tree)) : Prop where
  rank : ∃ rank : Off → Nat, ∀ q d, Placed [] (units.map Prod.snd) q d → d.tag ∈ typeTags → text d (go! "Name") = none ∨ d.tag = go! "ArrayType" →
    ∀ q' T, Placed [] (units.map Prod.snd) q' T → T.off ∈ uses d → text T (go! "Name") = none → rank T.off < rank d.off
  elements : ∀ q d, Placed [] (units.map Prod.snd) q d → d.tag = go! "ArrayType" → ref d (go! "Type") ≠ none
  dims : ∀ q d, Placed [] (units.map Prod.snd) q d → d.tag = go! "ArrayType" → ∀ k ∈ d.kids, declared k = false
  members : ∀ q d, Placed [] (units.map Prod.snd) q d → d.tag ∈ [go! "ClassType", go! "StructType", go! "UnionType"] →
    ∀ k ∈ d.kids, k.tag ∈ [go! "Member", go! "TemplateTypeParameter"]

/-- The database was built from the debug information, with the entries visited in some order. -/
def Read (units : List (Nat × Tree)) (w : GoDedup.World) (st : GoDedup.St) : Prop :=
  ∃ E b order, GoDwarf.newData (GoDwarf.Spec.storedUnits units) = GoDedup.Go.ret E ∧ GoBuild.build E = GoDedup.Go.ret b ∧
    GoDedup.Spec.Visits (GoBuild.start b) order ∧ GoBuild.newMetaDb E order = GoDedup.Go.ret (w, st)

/-! ### What a program is told -/

/-- The kinds of entries at run time, const.h:16-45. -/
def kinds : List (Str × Int) :=
  [(go! "Typedef", 0), (go! "BaseType", 1), (go! "PointerType", 2), (go! "EnumerationType", 3), (go! "SubroutineType", 4), (go! "ArrayType", 5),
   (go! "ConstType", 6), (go! "VolatileType", 7), (go! "RestrictType", 8), (go! "MutableType", 9), (go! "SharedType", 10), (go! "PackedType", 11),
   (go! "ReferenceType", 12), (go! "RvalueReferenceType", 13), (go! "UnspecifiedType", 14), (go! "StructType", 16), (go! "UnionType", 17), (go! "ClassType", 18),
   (go! "Variable", 19), (go! "Subprogram", 21), (go! "LexDwarfBlock", 22), (go! "Namespace", 23), (go! "CompileUnit", 24)]
def kindOf (tag : Str) : Int := (kinds.lookup tag).getD (-1)

/-- The name at run time: that of the entry; for a base type, one of the names of that type; blocks
have none. -/
inductive NameAt (d : Tree) : Option Str → Prop where
  | base {n n'} : d.tag = go! "BaseType" → text d (go! "Name") = some n → NameOf (num d (go! "ByteSize")) n n' → NameAt d (some n')
  | block : d.tag = go! "LexDwarfBlock" → NameAt d none
  | other : d.tag ≠ go! "BaseType" → d.tag ≠ go! "LexDwarfBlock" → NameAt d (text d (go! "Name"))

/-- At `r` a program finds the kind and the name of the entry. -/
def Told (rt : Entry.Db) (r : Entry.Ref) (d : Tree) : Prop :=
  Entry.kind rt (some r) = kindOf d.tag ∧ NameAt d (rt r).name

/-! ### The same type in several units -/

/-- The attributes that are sizes and places. -/
def sizes : List Str := [go! "ByteSize", go! "Alignment", go! "DataMemberLoc", go! "DataBitOffset", go! "BitOffset", go! "BitSize"]

/-- The attributes that are numbers, but for the places in source files. -/
def measures : List Str := sizes ++ [go! "Encoding", go! "ConstValue", go! "LowerBound", go! "UpperBound", go! "Count", go! "StrideSize"]

/-- Two entries have the same tag, name and numbers, and their types are related by `R`. -/
structure Level (R : Off → Off → Prop) (k k' : Tree) : Prop where
  tag : k.tag = k'.tag
  name : text k (go! "Name") = text k' (go! "Name")
  measures : ∀ a ∈ measures, num k a = num k' a
  type : ref k (go! "Type") = none ∧ ref k' (go! "Type") = none ∨ ∃ t t', ref k (go! "Type") = some t ∧ ref k' (go! "Type") = some t' ∧ R t t'

/-- And so do their parts, one by one. -/
structure Says (R : Off → Off → Prop) (d d' : Tree) : Prop extends Level R d d' where
  kids : GoDedup.Spec.Each (Level R) d.kids d'.kids

/-- References lead to types of one kind that are called the same (base types: and have the same
size), or have no name and say the same. -/
inductive LikeStep (units : List (Nat × Tree)) (R : Off → Off → Prop) : Off → Off → Prop where
  | named {q q' d d'} : Placed [] (units.map Prod.snd) q d → Placed [] (units.map Prod.snd) q' d' → d.tag ∈ typeTags → d.tag = d'.tag →
      text d (go! "Name") ≠ none → text d (go! "Name") = text d' (go! "Name") →
      (d.tag = go! "BaseType" → num d (go! "ByteSize") = num d' (go! "ByteSize")) → LikeStep units R d.off d'.off
  | unnamed {q q' d d'} : Placed [] (units.map Prod.snd) q d → Placed [] (units.map Prod.snd) q' d' → d.tag ∈ typeTags →
      text d (go! "Name") = none → Says R d d' → LikeStep units R d.off d'.off

/-- The least relation closed under `LikeStep`. -/
def Like (units : List (Nat × Tree)) (l l' : Off) : Prop := ∀ R : Off → Off → Prop, (∀ a b, LikeStep units R a b → R a b) → R l l'

/-- The units agree on a type: the types of that kind that are called the same at run time are
declared in all units or defined in all units, and say the same (base types: have the same size and
encoding).  Types without a name can only be the same if they say the same. -/
def Agreed (units : List (Nat × Tree)) (T : Tree) : Prop :=
  ∀ q' d' n, Placed [] (units.map Prod.snd) q' d' → T.tag = d'.tag → NameAt T (some n) → NameAt d' (some n) → declared T = declared d' ∧
    (T.tag = go! "BaseType" → num T (go! "ByteSize") = num d' (go! "ByteSize") ∧ num T (go! "Encoding") = num d' (go! "Encoding")) ∧
    (T.tag ≠ go! "BaseType" → Says (Like units) T d')

/-! ### What a program is told -/

/-- The answer for a link: nothing if there is none, else the kind and the name of the entry it
leads to; and if the units agree on that entry, it is the very place `loc` of it. -/
inductive Answer (units : List (Nat × Tree)) (loc : Off → Entry.Ref) (rt : Entry.Db) : Option Off → Option Entry.Ref → Prop where
  | none : Answer units loc rt none none
  | some {q T r} : Placed [] (units.map Prod.snd) q T → Told rt r T → (CTypes units → Agreed units T → r = loc T.off) → Answer units loc rt (some T.off) (some r)

/-- A member, as it is found at run time. -/
structure MemberAt (units : List (Nat × Tree)) (loc : Off → Entry.Ref) (rt : Entry.Db) (k : Tree) (e : Entry.Ref) : Prop where
  name : (rt e).name = text k (go! "Name")
  place : ∃ i, (rt e).info = .member i ∧ Answer units loc rt (ref k (go! "Type")) i.type ∧
    (num k (go! "BitOffset") = none → (i.byteOffset.toNat : Int) = (num k (go! "DataMemberLoc")).getD 0)
  bits : ∀ bit n : Nat, num k (go! "BitOffset") = none → num k (go! "DataBitOffset") = some (bit : Int) → num k (go! "BitSize") = some (n : Int) →
    ∃ byte off size, Entry.bitfieldOffsets rt (some e) = (0, some (byte, off, size)) ∧ byte.toNat = bit / 8 ∧ off.toNat = bit % 8 ∧ size.toNat = n

/-- A parameter, as it is found at run time: `...`, or a type. -/
def ParamAt (units : List (Nat × Tree)) (loc : Off → Entry.Ref) (rt : Entry.Db) (k : Tree) (e : Entry.Ref) : Prop :=
  ∃ t, (rt e).info = .param (isTag [go! "UnspecifiedParameters"] k) t ∧
    (isTag [go! "UnspecifiedParameters"] k = false → Answer units loc rt (ref k (go! "Type")) t)

/-- A typedef, qualifier or variable at `r` has the size and the final type of what it leads to. -/
def AliasAt (units : List (Nat × Tree)) (loc : Off → Entry.Ref) (rt : Entry.Db) (d : Tree) (r : Entry.Ref) : Prop :=
  ∃ e, Answer units loc rt (ref d (go! "Type")) e ∧ Entry.byteSize rt (some r) true = Entry.byteSize rt e true ∧
    (e = none → Entry.finalEntry rt (some r) = some (none, none)) ∧
    ∀ r', e = some r' → ∀ f qs, Entry.Spec.Final rt r' f qs → ∃ qs', Entry.finalEntry rt (some r) = some (f, qs')

/-- An array type with the dimensions `ks`, outermost first, over `elem`. -/
inductive ArrayAt (units : List (Nat × Tree)) (loc : Off → Entry.Ref) (rt : Entry.Db) (elem : Option Off) : Entry.Ref → List Tree → Prop where
  | none {r e} : Entry.kind rt (some r) = 5 → Entry.elementCount rt (some r) = some (-1) → Entry.elementEntry rt (some r) = some e → Answer units loc rt elem e →
      ArrayAt units loc rt elem r []
  | last {r e k} : Entry.kind rt (some r) = 5 → (∀ c, Dim k c → -2 ^ 31 ≤ c → c < 2 ^ 31 → Entry.elementCount rt (some r) = some c) →
      Entry.elementEntry rt (some r) = some e → Answer units loc rt elem e → ArrayAt units loc rt elem r [k]
  | cons {r r' k k' ks} : Entry.kind rt (some r) = 5 → (∀ c, Dim k c → -2 ^ 31 ≤ c → c < 2 ^ 31 → Entry.elementCount rt (some r) = some c) →
      Entry.elementEntry rt (some r) = some (some r') → ArrayAt units loc rt elem r' (k' :: ks) → ArrayAt units loc rt elem r (k :: k' :: ks)

/-- The entry `c` is a part of the entry `p`; of the entries that are no objects of their own, the
dimensions of an array after the first count too: there is a type for each of them. -/
inductive Under (units : List (Nat × Tree)) : Off → Off → Prop where
  | entry {p T} : Placed [] (units.map Prod.snd) [p] T → Under units p T.off
  | dim {q d c} : Placed [] (units.map Prod.snd) q d → d.tag = go! "ArrayType" → c ∈ (d.kids.map Die.off).tail → Under units d.off c

/-! ### Debug information whose file compiles -/

/-- The debug information has nothing that cannot be written in the file: names mean themselves
between quotes, numbers are 64-bit numbers and sizes are not negative, base types have an encoding
of DWARF, arrays no stride, definitions of structures a size; `snake` makes words of names. -/
structure Writable (units : List (Nat × Tree)) (snake : Str → Str) : Prop where
  few : (Die.offsAll (units.map Prod.snd)).length < 2 ^ 31 - 1
  names : ∀ q d, Placed [] (units.map Prod.snd) q d → ∀ k ∈ d :: d.kids, ∀ n, text k (go! "Name") = some n → Emit.Spec.Plain n
  words : ∀ q d, Placed [] (units.map Prod.snd) q d → ∀ n, NameAt d (some n) → snake n ≠ [] → Emit.Spec.CName (snake n)
  sizes : ∀ q d, Placed [] (units.map Prod.snd) q d → ∀ k ∈ d :: d.kids, ∀ a ∈ sizes, Emit.Spec.Size (num k a)
  encodings : ∀ q d, Placed [] (units.map Prod.snd) q d → d.tag = go! "BaseType" → ∃ v, num d (go! "Encoding") = some v ∧ 0 ≤ v ∧ v ≤ 18
  enumerators : ∀ q d, Placed [] (units.map Prod.snd) q d → d.tag = go! "EnumerationType" → ∀ k ∈ d.kids,
    (∀ n, text k (go! "Name") = some n → Emit.Spec.Printable n) ∧ ∀ v, num k (go! "ConstValue") = some v → Emit.Spec.Int64 v
  arrays : ∀ q d, Placed [] (units.map Prod.snd) q d → d.tag = go! "ArrayType" → num d (go! "StrideSize") = none ∧ ∀ k ∈ d.kids,
    (∀ v, num k (go! "LowerBound") = some v → Emit.Spec.Int64 v) ∧ ∀ v, num k (go! "Count") = some v → Emit.Spec.Int64 v
  structures : ∀ q d, Placed [] (units.map Prod.snd) q d → d.tag ∈ [go! "ClassType", go! "StructType", go! "UnionType"] → declared d = false →
    num d (go! "ByteSize") ≠ none

/-- The same for what the objects say besides. -/
structure WritableExtra (x : Extra) : Prop where
  linkage : ∀ n, Emit.Spec.Named (x.linkage n)
  lang : ∀ n, ∃ l, x.lang n = some l ∧ 1 ≤ l ∧ l ≤ 37
  files : ∀ n, Emit.Spec.Few (x.files n) ∧ ∀ f ∈ x.files n, (34 : UInt8) ∉ f ∧ (10 : UInt8) ∉ f
  places : ∀ l, Emit.Spec.Size (x.file l) ∧ Emit.Spec.Size (x.line l) ∧ Emit.Spec.Size (x.column l)

/-- A program that was built with the generated file: the debug information `units` was read into
the database `db` (ids are made with the library function `snake`), the file with it was compiled to
`defs`, and is in memory. -/
structure Program (units : List (Nat × Tree)) (snake : Str → Str) (w : GoDedup.World) (st : GoDedup.St) (x : Extra) (db : List Emit.Obj)
    (defs : List (Str × Emit.CEntry)) (addr : Str → Entry.Ref) (rt : Entry.Db) : Prop where
  input : Input units
  read : Read units w st
  emitted : Emitted snake w st x db
  ids : Emit.Spec.Snake snake
  good : Emit.Spec.Good db
  compiled : Emit.compileFile (Emit.file snake db) = some defs
  loaded : Emit.Loaded defs addr rt

end Verif.Chain.Spec
