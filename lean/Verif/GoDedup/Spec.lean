import Verif.GoDedup.Model
/-
Specification: when two objects of the debug information are alike, and when they are the same.
Both are stated over the objects as they were read, by what can be seen in them.
-/
namespace Verif.GoDedup.Spec
open Verif.GoDedup
open GoMeta (Str)

/-- What an object is. -/
inductive Cat where
  | base | enumeration | qual (q : Qual) | typedef | pointer | unspecified | reference (rvalue : Bool) | subroutine | array | aggregate (a : Aggr)
  | «variable» | subprogram | namespace_ | lexBlock | compileUnit
deriving DecidableEq, Repr

def cat : Desc → Cat
  | .base .. => .base
  | .enumeration .. => .enumeration
  | .qual _ q _ => .qual q
  | .typedef .. => .typedef
  | .pointer .. => .pointer
  | .unspecified .. => .unspecified
  | .reference _ r _ => .reference r
  | .subroutine .. => .subroutine
  | .array .. => .array
  | .struct _ a _ _ => .aggregate a
  | .variable .. => .variable
  | .subprogram .. => .subprogram
  | .namespace_ .. => .namespace_
  | .lexBlock .. => .lexBlock
  | .compileUnit .. => .compileUnit

/-- The tag of its entry in the debug information. -/
def tagName : Cat → Str
  | .base => go! "BaseType"
  | .enumeration => go! "EnumerationType"
  | .qual .const => go! "ConstType"
  | .qual .volatile => go! "VolatileType"
  | .qual .restrict => go! "RestrictType"
  | .qual .mutable => go! "MutableType"
  | .qual .shared => go! "SharedType"
  | .qual .packed => go! "PackedType"
  | .typedef => go! "Typedef"
  | .pointer => go! "PointerType"
  | .unspecified => go! "UnspecifiedType"
  | .reference true => go! "RvalueReferenceType"
  | .reference false => go! "ReferenceType"
  | .subroutine => go! "SubroutineType"
  | .array => go! "ArrayType"
  | .aggregate .class_ => go! "ClassType"
  | .aggregate .struct => go! "StructType"
  | .aggregate .union => go! "UnionType"
  | .variable => go! "Variable"
  | .subprogram => go! "Subprogram"
  | .namespace_ => go! "Namespace"
  | .lexBlock => go! "LexDwarfBlock"
  | .compileUnit => go! "CompileUnit"

/-- Whether it is a type. -/
def Cat.type : Cat → Bool
  | .variable | .subprogram | .namespace_ | .lexBlock | .compileUnit => false
  | _ => true

/-- The part of the database it is stored in. -/
def stored : Cat → GoMeta.Kind
  | .base => .baseType
  | .enumeration => .enumerationType
  | .qual _ => .qualType
  | .typedef => .typedef
  | .pointer => .pointerType
  | .unspecified => .unspecifiedType
  | .reference _ => .referenceType
  | .subroutine => .subroutineType
  | .array => .arrayType
  | .aggregate .class_ => .classType
  | .aggregate .struct => .structType
  | .aggregate .union => .unionType
  | .variable => .variableObj
  | .subprogram => .subprogram
  | .namespace_ => .namespaceObj
  | .lexBlock => .lexBlock
  | .compileUnit => .compileUnit

/-- Its name. -/
def name : Desc → Option Str
  | .base h _ | .enumeration h _ | .qual h _ _ | .typedef h _ | .pointer h _ | .unspecified h | .reference h _ _ | .subroutine h _ _ | .array h _ _ _ _ _
  | .struct h _ _ _ | .variable h _ | .subprogram h _ _ _ | .namespace_ h _ => h.name
  | .lexBlock _ => none
  | .compileUnit n _ => some n

/-- Whether it is only declared. -/
def declared : Desc → Bool
  | .base h _ | .enumeration h _ | .qual h _ _ | .typedef h _ | .pointer h _ | .unspecified h | .reference h _ _ | .subroutine h _ _ | .array h _ _ _ _ _
  | .struct h _ _ _ | .variable h _ | .subprogram h _ _ _ | .namespace_ h _ => h.decl
  | .lexBlock _ => false
  | .compileUnit _ _ => false

/-- The entries it refers to. -/
def links : Desc → List Off
  | .base _ _ | .enumeration _ _ | .unspecified _ => []
  | .qual _ _ t | .typedef _ t | .pointer _ t | .reference _ _ t | .array _ _ _ _ _ t | .variable _ t => t.toList
  | .subroutine _ ps r => ps.filterMap Param.type ++ r.toList
  | .struct _ _ fs hs => fs.filterMap Field.type ++ hs
  | .subprogram _ ps r hs => ps.filterMap Param.type ++ r.toList ++ hs
  | .namespace_ _ hs | .lexBlock hs | .compileUnit _ hs => hs

/-- Two links lead to objects in the relation `R`, or there is none. -/
inductive Links (ptr : Off → Option Nat) (R : Nat → Nat → Prop) : Option Off → Option Off → Prop where
  | none : Links ptr R none none
  | some {l l' a b} : ptr l = some a → ptr l' = some b → R a b → Links ptr R (some l) (some l')

inductive Params (ptr : Off → Option Nat) (R : Nat → Nat → Prop) : Param → Param → Prop where
  | rest {p p'} : p.unspecified = true → p'.unspecified = true → Params ptr R p p'
  | typed {p p'} : p.unspecified = false → p'.unspecified = false → Links ptr R p.type p'.type → Params ptr R p p'

/-- The lists are equally long, and their elements are related one by one. -/
inductive Each {α β : Type} (R : α → β → Prop) : List α → List β → Prop where
  | nil : Each R [] []
  | cons {a b as bs} : R a b → Each R as bs → Each R (a :: as) (b :: bs)

/-- The fields have the same name, alignment, place and size in bits, and types in the relation
`R`.  Not compared: the size in bytes, and the place in bytes of a field that counts its bits
from the end. -/
structure Fields (ptr : Off → Option Nat) (R : Nat → Nat → Prop) (f f' : Field) : Prop where
  name : f.name = f'.name
  type : Links ptr R f.type f'.type
  alignment : f.alignment = f'.alignment
  bitSize : f.bitSize = f'.bitSize
  bitOffset : f.bitOffset = f'.bitOffset
  byteOffset : f.bitOffset = none → f.byteOffset = f'.byteOffset
  dataBitOffset : f.dataBitOffset = f'.dataBitOffset

/-- Two objects agree in their own attributes, and what they refer to is in the relation `R`.
Not compared: other items of a structure without fields, the scope of a function. -/
inductive Agree (ptr : Off → Option Nat) (R : Nat → Nat → Prop) : Desc → Desc → Prop where
  | base {h h' e} : h.byteSize = h'.byteSize → Agree ptr R (.base h e) (.base h' e)
  | enumeration {h h' es} : h.byteSize = h'.byteSize → h.alignment = h'.alignment → Agree ptr R (.enumeration h es) (.enumeration h' es)
  | qual {h h' q t t'} : Links ptr R t t' → Agree ptr R (.qual h q t) (.qual h' q t')
  | typedef {h h' t t'} : Links ptr R t t' → Agree ptr R (.typedef h t) (.typedef h' t')
  | pointer {h h' t t'} : Links ptr R t t' → Agree ptr R (.pointer h t) (.pointer h' t')
  | unspecified {h h'} : Agree ptr R (.unspecified h) (.unspecified h')
  | reference {h h' r t t'} : Links ptr R t t' → Agree ptr R (.reference h r t) (.reference h' r t')
  | subroutine {h h' ps ps' r r'} : Each (Params ptr R) ps ps' → Links ptr R r r' → Agree ptr R (.subroutine h ps r) (.subroutine h' ps' r')
  | array {h h' s l c v t t'} : Links ptr R t t' → Agree ptr R (.array h s l c v t) (.array h' s l c v t')
  | struct {h h' a fs fs' hs hs'} : h.byteSize = h'.byteSize → h.alignment = h'.alignment → Each (Fields ptr R) fs fs' →
      (fs ≠ [] → Each (fun l l' => Links ptr R (some l) (some l')) hs hs') → Agree ptr R (.struct h a fs hs) (.struct h' a fs' hs')
  | variable {h h' t t'} : Links ptr R t t' → Agree ptr R (.variable h t) (.variable h' t')
  | subprogram {h h' ps ps' r r' hs hs'} : Each (Params ptr R) ps ps' → Links ptr R r r' →
      Agree ptr R (.subprogram h ps r hs) (.subprogram h' ps' r' hs')
  | namespace_ {h h' hs hs'} : Agree ptr R (.namespace_ h hs) (.namespace_ h' hs')

/-- One step: objects of one kind with one name; or objects without a name that agree. -/
inductive Known (obj : Nat → Desc) (ptr : Off → Option Nat) (R : Nat → Nat → Prop) : Nat → Nat → Prop where
  | named {a b n} : cat (obj a) = cat (obj b) → name (obj a) = some n → name (obj b) = some n → Known obj ptr R a b
  | unnamed {a b} : name (obj a) = none → name (obj b) = none → Agree ptr R (obj a) (obj b) → Known obj ptr R a b

/-- The objects cannot be told apart from outside: the least relation closed under `Known`. -/
def Alike (obj : Nat → Desc) (ptr : Off → Option Nat) (a b : Nat) : Prop :=
  ∀ R : Nat → Nat → Prop, (∀ x y, Known obj ptr R x y → R x y) → R a b

/-- The type entries `a` and `b` are taken for one type. -/
inductive OneType (obj : Nat → Desc) (ptr : Off → Option Nat) (decl : Bool) (a b : Nat) : Prop where
  | declaration : decl = true → Alike obj ptr a b → OneType obj ptr decl a b
  | definition : decl = false → Alike obj ptr a b → Agree ptr (Alike obj ptr) (obj a) (obj b) → OneType obj ptr decl a b

/-- The rest of a structure: sizes and places of its fields in bytes, and its other items. -/
inductive Layout (ptr : Off → Option Nat) (R : Nat → Nat → Prop) : Desc → Desc → Prop where
  | struct {h h' a a' fs fs' hs hs'} : Each (fun f f' : Field => f.byteOffset = f'.byteOffset ∧ f.byteSize = f'.byteSize) fs fs' →
      Each (fun l l' => Links ptr R (some l) (some l')) hs hs' → Layout ptr R (.struct h a fs hs) (.struct h' a' fs' hs')
  | other {d d'} : (∀ h a fs hs, d ≠ .struct h a fs hs) → Layout ptr R d d'

/-- The objects are the same as far as they can be followed: kind and name agree, and, where both
are defined types, so do all attributes; and wherever corresponding links lead. -/
def SameType (obj : Nat → Desc) (ptr : Off → Option Nat) (a b : Nat) : Prop :=
  ∃ R : Nat → Nat → Prop, R a b ∧ ∀ x y, R x y → cat (obj x) = cat (obj y) ∧ name (obj x) = name (obj y) ∧
    ((cat (obj x)).type = true → declared (obj x) = false → declared (obj y) = false → Agree ptr R (obj x) (obj y) ∧ Layout ptr R (obj x) (obj y))

/-- Types of one kind and one name have one definition (down to names), in all units. -/
def OneDefinition (obj : Nat → Desc) (ptr : Off → Option Nat) : Prop :=
  ∀ x y n, (cat (obj x)).type = true → cat (obj x) = cat (obj y) → name (obj x) = some n → name (obj y) = some n →
    declared (obj x) = false → declared (obj y) = false → Agree ptr (Alike obj ptr) (obj x) (obj y)

/-- Fields have no size of their own and do not count bits from the end; a structure without
fields has no other items. -/
def PlainFields (obj : Nat → Desc) : Prop :=
  ∀ o h a fs hs, obj o = .struct h a fs hs → (∀ f ∈ fs, f.bitOffset = none ∧ f.byteSize = none) ∧ (fs = [] → hs = [])

/-- Parentheses are closed in the order they were opened. -/
def depth : Nat → Str → Option Nat
  | d, [] => some d
  | d, c :: cs => if c = 40 then depth (d + 1) cs else if c = 41 then (match d with | 0 => none | d + 1 => depth d cs) else depth d cs
def Closed (s : Str) : Prop := depth 0 s = some 0

/-- Names of types: not empty, closed parentheses, no comma at the end. -/
def TypeName (s : Str) : Prop := s ≠ [] ∧ Closed s ∧ s.getLast? ≠ some 44
/-- Names of fields and of enumerators, encodings: no parentheses, comma, colon. -/
def Plain (s : Str) : Prop := ∀ c ∈ s, c ≠ 40 ∧ c ≠ 41 ∧ c ≠ 44 ∧ c ≠ 58

/-- Names as compilers write them; what has no name is not a declaration (metadb_builder.go:79-81). -/
structure Names (d : Desc) : Prop where
  type : ∀ n, name d = some n → TypeName n
  decl : name d = none → declared d = false
  fields : ∀ h a fs hs, d = .struct h a fs hs → ∀ f ∈ fs, ∀ n, f.name = some n → Plain n
  enumerators : ∀ h es, d = .enumeration h es → ∀ e ∈ es, Plain e.1
  encoding : ∀ h e, d = .base h e → Plain e

/-- The build before types are merged: each index entry has an object of its own, of the sort its
tag says; the objects that are not types are in the database, each once, and no others. -/
structure Start (w : World) (st : St) : Prop where
  names : ∀ o, Names (w.obj o)
  own : ∀ i j o, st.ptr i = some o → st.ptr j = some o → i = j
  tag : ∀ i o, st.ptr i = some o → w.tag i = tagName (cat (w.obj o))
  nontypes : ∀ i o, st.ptr i = some o → (o ∈ st.added ↔ (cat (w.obj o)).type = false)
  entry : ∀ o ∈ st.added, ∃ i, st.ptr i = some o
  once : st.added.Nodup
  fresh : (∀ i, st.dup i = false) ∧ st.heads = [] ∧ st.sigs = []

/-- Go visits each entry of the index once, in some order. -/
structure Visits (st : St) (order : List Off) : Prop where
  once : order.Nodup
  all : ∀ i, st.ptr i ≠ none → i ∈ order

/-- The entry that encloses another. -/
def parent (w : World) (i : Off) : Option Off := (w.entries i).bind id

end Verif.GoDedup.Spec
