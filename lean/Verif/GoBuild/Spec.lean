import Verif.GoBuild.Model
import Verif.GoDwarf.Spec
import Verif.GoDedup.Spec
import Verif.GoMeta.Spec
/-
Specification: what the database has to say about a tree of debug information entries.
-/
namespace Verif.GoBuild.Spec
open GoMeta (Str)
open GoDedup (Desc Head Field Param Qual Aggr)
open GoDedup.Spec (Each)
open GoDwarf.Spec (Die)
open Verif.GoBuild

/-- An entry with all below it. -/
abbrev Tree := Die Body

/-! ### Attributes -/

/-- The value of an attribute. -/
def attr (d : Tree) (a : Str) : Option Val := (d.body.attrs.find? fun x => x.1 == a).map Prod.snd
def text (d : Tree) (a : Str) : Option Str := (attr d a).bind fun | .str s => some s | _ => none
def num (d : Tree) (a : Str) : Option Int := (attr d a).bind fun | .int s => some s | _ => none
def ref (d : Tree) (a : Str) : Option Off := (attr d a).bind fun | .off s => some s | _ => none
/-- The entry is a declaration. -/
def declared (d : Tree) : Bool := attr d (go! "Declaration") == some (.bool true)

/-- Name, declaration flag, size and alignment of a type. -/
structure TypeHead (d : Tree) (h : Head) : Prop where
  name : h.name = text d (go! "Name")
  decl : h.decl = declared d
  size : h.byteSize = num d (go! "ByteSize")
  alignment : h.alignment = num d (go! "Alignment")
/-- Name and declaration flag of another object. -/
structure ObjectHead (d : Tree) (h : Head) : Prop where
  name : h.name = text d (go! "Name")
  decl : h.decl = declared d

/-! ### Names of base types -/

/-- The names of the encodings of base types in DWARF (DW_ATE_...), as Go writes them. -/
def encodings : List (Int × Str) :=
  [(0, go! "Void"), (1, go! "Address"), (2, go! "Boolean"), (3, go! "ComplexFloat"), (4, go! "Float"), (5, go! "Signed"), (6, go! "SignedChar"),
   (7, go! "Unsigned"), (8, go! "UnsignedChar"), (9, go! "ImaginaryFloat"), (10, go! "PackedDecimal"), (11, go! "NumericString"), (12, go! "Edited"),
   (13, go! "SignedFixed"), (14, go! "UnsignedFixed"), (15, go! "DecimalFloat"), (16, go! "Utf"), (17, go! "Ucs"), (18, go! "Ascii"),
   (128, go! "LoUser"), (255, go! "HiUser")]

/-- The base types of C that have several names. -/
inductive CType where
  | short | ushort | int | uint | long | ulong | llong | ullong | cfloat | cdouble | cldouble
deriving DecidableEq, Repr

/-- The words of a name. -/
def words : Str → Str → List Str
  | w, [] => if w = [] then [] else [w]
  | w, c :: s => if c = 32 then (if w = [] then words [] s else w :: words [] s) else words (w ++ [c]) s

/-- How often each specifier is used: short, long, signed, unsigned, int, float, double, complex. -/
def specifiers : List Str := [go! "short", go! "long", go! "signed", go! "unsigned", go! "int", go! "float", go! "double", go! "complex"]
def counts (s : Str) : Option (List Nat) :=
  let ws := words [] s
  if ws.all fun w => specifiers.contains w then some (specifiers.map fun p => ws.count p) else none

/-- C11 6.7.2p2: the types with several names, in terms of which specifiers are there. -/
def ctype (s : Str) : Option CType :=
  match counts s with
  | some [1, 0, 0, 0, _, 0, 0, 0] | some [1, 0, 1, 0, _, 0, 0, 0] => some .short
  | some [1, 0, 0, 1, _, 0, 0, 0] => some .ushort
  | some [0, 0, 0, 0, 1, 0, 0, 0] | some [0, 0, 1, 0, _, 0, 0, 0] => some .int
  | some [0, 0, 0, 1, _, 0, 0, 0] => some .uint
  | some [0, 1, 0, 0, _, 0, 0, 0] | some [0, 1, 1, 0, _, 0, 0, 0] => some .long
  | some [0, 1, 0, 1, _, 0, 0, 0] => some .ulong
  | some [0, 2, 0, 0, _, 0, 0, 0] | some [0, 2, 1, 0, _, 0, 0, 0] => some .llong
  | some [0, 2, 0, 1, _, 0, 0, 0] => some .ullong
  | some [0, 0, 0, 0, 0, 1, 0, 1] => some .cfloat
  | some [0, 0, 0, 0, 0, 0, 1, 1] => some .cdouble
  | some [0, 1, 0, 0, 0, 0, 1, 1] => some .cldouble
  | _ => none

/-- `n'` is a name of the base type the entry calls `n`: the same name, another name of the same C
type, or the complex type of that size where the entry says no more than complex. -/
inductive NameOf (size : Option Int) (n : Str) : Str → Prop where
  | same : n ≠ go! "complex" → NameOf size n n
  | other {n' t} : ctype n = some t → ctype n' = some t → NameOf size n n'
  | cfloat : n = go! "complex" → size = some 8 → NameOf size n (go! "complex float")
  | cdouble : n = go! "complex" → size = some 16 → NameOf size n (go! "complex double")
  | cldouble : n = go! "complex" → size = some 32 → NameOf size n (go! "long complex double")

/-! ### Objects -/

def isTag (ts : List Str) (d : Tree) : Bool := ts.contains d.tag

/-- Entries about code that are no objects. -/
def codeTags : List Str := [go! "Label", go! "CallSite", go! "InlinedSubroutine"]
def paramTags : List Str := [go! "FormalParameter", go! "UnspecifiedParameters"]

/-- A parameter of a function: `...`, or a name and a type. -/
structure ParamOf (d : Tree) (p : Param) : Prop where
  rest : p.unspecified = isTag [go! "UnspecifiedParameters"] d
  type : p.type = ref d (go! "Type")
  name : p.name = text d (go! "Name")

/-- A member of a structure or union. -/
structure FieldOf (d : Tree) (f : Field) : Prop where
  name : f.name = text d (go! "Name")
  type : f.type = ref d (go! "Type")
  size : f.byteSize = num d (go! "ByteSize")
  alignment : f.alignment = num d (go! "Alignment")
  offset : f.byteOffset = (num d (go! "DataMemberLoc")).getD 0
  bitOffset : f.bitOffset = num d (go! "BitOffset")
  dataBitOffset : f.dataBitOffset = num d (go! "DataBitOffset")
  bitSize : f.bitSize = num d (go! "BitSize")

/-- The children of an entry that become objects of their own. -/
def parts (d : Tree) : List Tree :=
  if isTag [go! "ClassType", go! "StructType", go! "UnionType"] d then d.kids.filter fun k => !isTag [go! "Member", go! "TemplateTypeParameter"] k
  else if isTag [go! "Subprogram"] d then d.kids.filter fun k => !isTag (paramTags ++ [go! "TemplateTypeParameter"] ++ codeTags) k
  else if isTag [go! "Namespace", go! "CompileUnit", go! "LexDwarfBlock"] d then d.kids.filter fun k => !isTag codeTags k
  else []

/-- The object says what the entry says.  For arrays, the outermost dimension: `Dims`. -/
inductive Describes (d : Tree) : Desc → Prop where
  | base {n n' h} : d.tag = go! "BaseType" → text d (go! "Name") = some n → NameOf (num d (go! "ByteSize")) n n' → TypeHead d h →
      Describes d (.base { h with name := some n' } (((num d (go! "Encoding")).bind fun v => encodings.lookup v).getD []))
  | enumeration {h es} : d.tag = go! "EnumerationType" → TypeHead d h →
      Each (fun k e => text k (go! "Name") = some e.1 ∧ num k (go! "ConstValue") = some e.2) d.kids es → Describes d (.enumeration h es)
  | qual {h q} : d.tag = GoDedup.Spec.tagName (.qual q) → TypeHead d h → Describes d (.qual h q (ref d (go! "Type")))
  | typedef {h} : d.tag = go! "Typedef" → TypeHead d h → Describes d (.typedef h (ref d (go! "Type")))
  | pointer {h} : d.tag = go! "PointerType" → TypeHead d h → Describes d (.pointer h (ref d (go! "Type")))
  | unspecified {h} : d.tag = go! "UnspecifiedType" → TypeHead d h → Describes d (.unspecified h)
  | reference {h r} : d.tag = GoDedup.Spec.tagName (.reference r) → TypeHead d h → Describes d (.reference h r (ref d (go! "Type")))
  | subroutine {h ps} : d.tag = go! "SubroutineType" → TypeHead d h → Each ParamOf (d.kids.filter (isTag paramTags)) ps →
      Describes d (.subroutine h ps (ref d (go! "Type")))
  | array {h s l c v t} : d.tag = go! "ArrayType" → TypeHead d h → s = num d (go! "StrideSize") → Describes d (.array h s l c v t)
  | struct {h a fs} : d.tag = GoDedup.Spec.tagName (.aggregate a) → TypeHead d h → Each FieldOf (d.kids.filter (isTag [go! "Member"])) fs →
      Describes d (.struct h a fs ((parts d).map Die.off))
  | variable {h} : d.tag = go! "Variable" → ObjectHead d h → Describes d (.variable h (ref d (go! "Type")))
  | subprogram {h ps} : d.tag = go! "Subprogram" → ObjectHead d h → Each ParamOf (d.kids.filter (isTag paramTags)) ps →
      Describes d (.subprogram h ps (ref d (go! "Type")) ((parts d).map Die.off))
  | namespace_ {h} : d.tag = go! "Namespace" → ObjectHead d h → Describes d (.namespace_ h ((parts d).map Die.off))
  | lexBlock : d.tag = go! "LexDwarfBlock" → Describes d (.lexBlock ((parts d).map Die.off))
  | compileUnit {n} : d.tag = go! "CompileUnit" → text d (go! "Name") = some n → Describes d (.compileUnit n ((parts d).map Die.off))

/-- The number of elements a subrange stands for: the count; or the distance of its bounds; or unknown. -/
inductive Dim (k : Tree) : Int → Prop where
  | count {n} : num k (go! "Count") = some n → Dim k n
  | bounds {u} : num k (go! "Count") = none → num k (go! "UpperBound") = some u → Dim k (u + 1 - (num k (go! "LowerBound")).getD 0)
  | unknown : num k (go! "Count") = none → num k (go! "UpperBound") = none → Dim k (-1)

/-- `ptr` and `obj` hold, at `o`, an array type below `par` for the dimensions `ks`, outermost first,
over `elem`, with attributes `h` and `s`; the array types of the other dimensions are at the entries
of their subranges, have no attributes of their own, and are below each other. -/
inductive Dims (ptr : Off → Option Nat) (obj : Nat → Desc) (parents : Nat → List Off) (elem : Option Off) : Head → Option Int → Off → Off → List Tree → Prop where
  | none {h s o par n} : ptr o = some n → obj n = .array h s none (-1) 0 elem → parents n = [par] → Dims ptr obj parents elem h s o par []
  | last {h s o par k n c} : ptr o = some n → obj n = .array h s (num k (go! "LowerBound")) c 0 elem → Dim k c → parents n = [par] →
      Dims ptr obj parents elem h s o par [k]
  | cons {h s o par k k' ks n c} : ptr o = some n → obj n = .array h s (num k (go! "LowerBound")) c (k' :: ks).length (some k'.off) → Dim k c →
      parents n = [par] → Dims ptr obj parents elem { name := none } none k'.off o (k' :: ks) → Dims ptr obj parents elem h s o par (k :: k' :: ks)

/-- The entries that become objects, each with the entry it is a part of (`p`, for those of `ds`). -/
inductive Placed : List Off → List Tree → List Off → Tree → Prop where
  | here {p ds d} : d ∈ ds → Placed p ds p d
  | there {p ds k q d} : k ∈ ds → Placed [k.off] (parts k) q d → Placed p ds q d

/-! ### What is required -/

/-- The link, if there is one, leads to an entry for which `ty` holds. -/
def LinkOk (ty : Off → Prop) (d : Tree) : Prop := ∀ t, ref d (go! "Type") = some t → ty t

/-- After `...` there are no parameters. -/
def RestLast : List Tree → Prop
  | [] => True
  | k :: ks => (isTag [go! "UnspecifiedParameters"] k = true → ∀ j ∈ ks, isTag (paramTags ++ [go! "TemplateTypeParameter"]) j = false) ∧ RestLast ks

/-- Bounds are 64-bit numbers and so is their distance. -/
def InRange (k : Tree) : Prop :=
  ∀ u, num k (go! "Count") = none → num k (go! "UpperBound") = some u →
    -2 ^ 63 ≤ u + 1 - (num k (go! "LowerBound")).getD 0 ∧ u + 1 - (num k (go! "LowerBound")).getD 0 < 2 ^ 63

/-- A member is complete: it has a type and a place. -/
def MemberOk (ty : Off → Prop) (union : Bool) (k : Tree) : Prop :=
  (∃ t, ref k (go! "Type") = some t ∧ ty t) ∧ (num k (go! "BitOffset") ≠ none → num k (go! "ByteSize") ≠ none) ∧
    (num k (go! "DataMemberLoc") ≠ none ∨ union = true ∨ num k (go! "DataBitOffset") ≠ none)

/-- The entry itself is complete (`ty t`: there is a type at `t`). -/
inductive Complete (ty : Off → Prop) (d : Tree) : Prop where
  | base {n} : d.tag = go! "BaseType" → text d (go! "Name") = some n →
      (n = go! "complex" → num d (go! "ByteSize") = some 8 ∨ num d (go! "ByteSize") = some 16 ∨ num d (go! "ByteSize") = some 32) →
      num d (go! "BitSize") = none → num d (go! "BitOffset") = none → num d (go! "DataBitOffset") = none →
      (∀ v, num d (go! "Encoding") = some v → encodings.lookup v ≠ none) → Complete ty d
  | enumeration : d.tag = go! "EnumerationType" → (∀ k ∈ d.kids, k.tag = go! "Enumerator" ∧ text k (go! "Name") ≠ none ∧ num k (go! "ConstValue") ≠ none) → Complete ty d
  | link {t} : t ∈ [go! "PointerType", go! "ReferenceType", go! "RvalueReferenceType", go! "ConstType", go! "VolatileType", go! "RestrictType", go! "MutableType",
      go! "SharedType", go! "PackedType", go! "Variable"] → d.tag = t → LinkOk ty d → Complete ty d
  | typedef : d.tag = go! "Typedef" → text d (go! "Name") ≠ none → LinkOk ty d → Complete ty d
  | unspecified : d.tag = go! "UnspecifiedType" → Complete ty d
  | func {t} : t ∈ [go! "SubroutineType", go! "Subprogram"] → d.tag = t → LinkOk ty d → (∀ k ∈ d.kids, isTag paramTags k = true → LinkOk ty k) →
      RestLast d.kids → Complete ty d
  | array : d.tag = go! "ArrayType" → LinkOk ty d → (∀ k ∈ d.kids, k.tag = go! "SubrangeType" ∧ InRange k) → Complete ty d
  | struct {t} : t ∈ [go! "ClassType", go! "StructType", go! "UnionType"] → d.tag = t →
      (∀ k ∈ d.kids, k.tag = go! "Member" → MemberOk ty (isTag [go! "UnionType"] d) k) → Complete ty d
  | block : d.tag = go! "LexDwarfBlock" → Complete ty d
  | scope : d.tag = go! "Namespace" → (∀ k ∈ d.kids, isTag codeTags k = false) → Complete ty d

/-- A unit has a name, and no code directly below it. -/
structure UnitOk (d : Tree) : Prop where
  tag : d.tag = go! "CompileUnit"
  name : text d (go! "Name") ≠ none
  kids : ∀ k ∈ d.kids, isTag codeTags k = false

/-- An entry at `t` becomes a type. -/
def TypeAt (units : List Tree) (t : Off) : Prop := ∃ q d c, Placed [] units q d ∧ d.off = t ∧ d.tag = GoDedup.Spec.tagName c ∧ c.type = true

/-- The debug information is complete: links lead to types, and nothing is missing. -/
def Good (units : List Tree) : Prop :=
  ∀ u ∈ units, UnitOk u ∧ ∀ q d, Placed [u.off] (parts u) q d → Complete (TypeAt units) d

/-- Names as compilers write them (see `GoDedup.Spec.Names`). -/
structure GoodNames (d : Tree) : Prop where
  name : ∀ n, text d (go! "Name") = some n → GoDedup.Spec.TypeName n
  decl : text d (go! "Name") = none → declared d = false
  parts : ∀ k ∈ d.kids, k.tag = go! "Member" ∨ k.tag = go! "Enumerator" → ∀ n, text k (go! "Name") = some n → GoDedup.Spec.Plain n

/-- Members that say the same. -/
structure SameMember (k k' : Tree) : Prop where
  name : text k (go! "Name") = text k' (go! "Name")
  alignment : num k (go! "Alignment") = num k' (go! "Alignment")
  bitSize : num k (go! "BitSize") = num k' (go! "BitSize")
  bitOffset : num k (go! "BitOffset") = num k' (go! "BitOffset")
  dataBitOffset : num k (go! "DataBitOffset") = num k' (go! "DataBitOffset")
  place : num k (go! "BitOffset") = none → (num k (go! "DataMemberLoc")).getD 0 = (num k' (go! "DataMemberLoc")).getD 0

/-- value_base_type.c:21-64: the names by which the types of C that have several names are recognised at run time. -/
def runtimeName : CType → Str
  | .short => go! "short int" | .ushort => go! "unsigned short int" | .int => go! "int" | .uint => go! "unsigned int"
  | .long => go! "long int" | .ulong => go! "unsigned long int" | .llong => go! "long long int" | .ullong => go! "unsigned long long int"
  | .cfloat => go! "complex float" | .cdouble => go! "complex double" | .cldouble => go! "long complex double"

/-- The names gcc and clang use in debug information. -/
def compilerNames : List Str :=
  [go! "short int", go! "short unsigned int", go! "int", go! "unsigned int", go! "long int", go! "long unsigned int", go! "long long int",
   go! "long long unsigned int", go! "complex float", go! "complex double", go! "complex long double",
   go! "short", go! "unsigned short", go! "long", go! "unsigned long", go! "long long", go! "unsigned long long"]

end Verif.GoBuild.Spec
