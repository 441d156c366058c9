import Verif.Emit.Model
/-
Specification for the generated C file: the record that a program finds for a database object.
The tables (kinds, encodings, languages, tags) are written down here again, from
/repo/include/metac/const.h and the DWARF standard.
-/
namespace Verif.Emit.Spec
open Verif.GoMeta (Str)

/-- Text that means itself between two quotes: no quote, no backslash, no line break. -/
def Plain (s : Str) : Prop := (34 : UInt8) ∉ s ∧ (92 : UInt8) ∉ s ∧ (10 : UInt8) ∉ s

/-- The names of the encodings of DWARF (DW_ATE_*), in the order of their codes, in Go and in C. -/
def encodings : List (Str × Str) :=
  [(go! "Void", go! "void"), (go! "Address", go! "address"), (go! "Boolean", go! "boolean"),
   (go! "ComplexFloat", go! "complex_float"), (go! "Float", go! "float"),
   (go! "Signed", go! "signed"), (go! "SignedChar", go! "signed_char"),
   (go! "Unsigned", go! "unsigned"), (go! "UnsignedChar", go! "unsigned_char"),
   (go! "ImaginaryFloat", go! "imaginary_float"), (go! "PackedDecimal", go! "packed_decimal"),
   (go! "NumericString", go! "numeric_string"), (go! "Edited", go! "edited"),
   (go! "SignedFixed", go! "signed_fixed"), (go! "UnsignedFixed", go! "unsigned_fixed"),
   (go! "DecimalFloat", go! "decimal_float"), (go! "Utf", go! "utf"), (go! "Ucs", go! "ucs"),
   (go! "Ascii", go! "ascii")]

/-- The tags of reference, qualifier and structure types, in Go and in C, with their kinds. -/
def tags : List (Str × Str × Int) :=
  [(go! "ConstType", go! "const_type", 6), (go! "VolatileType", go! "volatile_type", 7),
   (go! "RestrictType", go! "restrict_type", 8), (go! "MutableType", go! "mutable_type", 9),
   (go! "SharedType", go! "shared_type", 10), (go! "PackedType", go! "packed_type", 11),
   (go! "ReferenceType", go! "reference_type", 12),
   (go! "RvalueReferenceType", go! "rvalue_reference_type", 13),
   (go! "StructType", go! "struct_type", 16), (go! "UnionType", go! "union_type", 17),
   (go! "ClassType", go! "class_type", 18)]

/-- What is used of the library function `snakecase`: its values for the words above. -/
def Snake (snake : Str → Str) : Prop :=
  (∀ x ∈ encodings, snake x.1 = x.2) ∧ ∀ x ∈ tags, snake x.1 = x.2.1

/-- The code of an encoding in `metac_encoding_t`: the DWARF code plus one. -/
def encodingCode (enc : Str) : Int := (encodings.map (·.1)).idxOf enc + 1

/-- The kind for a tag. -/
def kindOfTag (tag : Str) : Int := (tags.lookup tag).elim (-1) (·.2)

/-- The entry a link points to: nothing for "" and "void". -/
def target (link : Str) : Option Str := if link = [] ∨ link = go! "void" then none else some link

/-- 1 for a flag that is set. -/
def flag : Option Bool → Int
  | some true => 1
  | _ => 0

/-- The entry of a parameter of the function `i`. -/
def param (i : Str) (p : Param) : Leaf :=
  { kind := 20, name := p.name, parentsCount := 1, parents := some [i]
    info := .param (flag p.unspecified) (target p.type) }

/-- The entry of a member of the structure `i`. -/
def member (i : Str) (f : Field) : Leaf :=
  { kind := 15, name := f.name, parentsCount := 1, parents := some [i]
    info := .member (target f.type) f.byteSize f.alignment f.byteOffset f.dataBitOffset
      f.bitOffset f.bitSize }

/-- A hierarchy item. -/
def item (i : Item) : CItem := { link := some i.link, file := i.file, line := i.line, column := i.column }

/-- Optional arrays: NULL if there are no elements. -/
def unlessEmpty {α β : Type} (f : α → β) (l : List α) : Option (List β) :=
  if l = [] then none else some (l.map f)

/-- Slashes for backslashes. -/
def slashes (s : Str) : Str := s.map fun c => if c = 92 then 47 else c

/-- The common part of the entry of a type. -/
def typeEntry (kind : Int) (h : Head) : CEntry :=
  { kind := kind, name := h.name, declaration := flag h.decl, parentsCount := h.parents.length
    parents := some h.parents }

/-- The common part of the entry of a function, a variable, ... -/
def objEntry (kind : Int) (name : Option Str) (decl : Int) (parent : Str) : CEntry :=
  { kind := kind, name := name, declaration := decl, parentsCount := 1, parents := some [parent] }

/-- The linkage of a function or a variable. -/
def linkage (h : ObjHead) : CLinkage := { external := flag h.external, name := h.linkage }

/-- The record a program finds for an object of the database: what the object says, all other
members zero. -/
def entry : Obj → CEntry
  | .base h size enc =>
    { typeEntry 1 { h with decl := none } with
      which := some (go! "base_type_info")
      info := { byteSize := size.getD 0, encoding := encodingCode enc } }
  | .enumeration h size es =>
    { typeEntry 3 h with
      which := some (go! "enumeration_type_info")
      info := { byteSize := size.getD 0, enumeratorsCount := es.length
                enumerators := some (es.map fun e => (some e.1, e.2)) } }
  | .array h count level lower _ type =>
    { typeEntry 5 h with
      which := some (go! "array_type_info")
      info := { count := count, level := level, lowerBound := lower.getD 0, type := target type } }
  | .pointer h type =>
    { typeEntry 2 h with
      which := some (go! "pointer_type_info"), info := { byteSize := 8, type := target type } }
  | .reference h tag size type =>
    { typeEntry (kindOfTag tag) h with
      which := some (go! "reference_type_info")
      info := { byteSize := size.getD 0, type := target type } }
  | .unspecified h => typeEntry 14 h
  | .subroutine h type ps =>
    { typeEntry 4 h with
      which := some (go! "subroutine_type_info")
      info := { type := target type, parametersCount := ps.length
                parameters := some (ps.map (param h.id)) } }
  | .qual h q type =>
    { typeEntry (kindOfTag q) h with
      which := some (go! "qual_type_info"), info := { type := target type } }
  | .typedef h type =>
    { typeEntry 0 h with which := some (go! "typedef_info"), info := { type := target type } }
  | .aggregate h tag size alignment fs hier =>
    if h.decl = some true then typeEntry (kindOfTag tag) h
    else
      { typeEntry (kindOfTag tag) h with
        which := some (go! "structure_type_info")
        info := { byteSize := size.getD 0, alignment := alignment
                  vaArg := some (h.id ++ go! "_va_arg"), membersCount := fs.length
                  members := unlessEmpty (member h.id) fs, itemsCount := hier.length
                  items := unlessEmpty item hier } }
  | .subprogram h type ps hier =>
    { objEntry 21 h.name (flag h.decl) h.parent with
      which := some (go! "subprogram_info")
      info := { type := target type, parametersCount := ps.length
                parameters := some (ps.map (param h.id)), linkage := linkage h
                itemsCount := hier.length, items := unlessEmpty item hier } }
  | .variable h type =>
    { objEntry 19 h.name (flag h.decl) h.parent with
      which := some (go! "variable_info")
      info := { type := target type, linkage := linkage h } }
  | .lexBlock _ par hier =>
    { objEntry 22 none 0 par with
      which := some (go! "lex_block_info")
      info := { itemsCount := hier.length, items := unlessEmpty item hier } }
  | .namespace _ name par modules decls hier =>
    { objEntry 23 name 0 par with
      which := some (go! "namespace_info")
      info := { modulesCount := modules.length, modules := unlessEmpty (fun i => i) modules
                declsCount := decls.length, decls := unlessEmpty (fun i => i) decls
                itemsCount := hier.length, items := unlessEmpty item hier } }
  | .unit _ name lang files modules decls hier =>
    { kind := 24, name := some name, which := some (go! "compile_unit_info")
      info := { lang := lang.getD 0, filesCount := files.length
                files := unlessEmpty (fun f => some (slashes f)) files
                modulesCount := modules.length, modules := unlessEmpty (fun i => i) modules
                declsCount := decls.length, decls := unlessEmpty (fun i => i) decls
                itemsCount := hier.length, items := unlessEmpty item hier } }

/-! ## Databases whose file compiles -/

/-- A name of C: letters, digits and `_`, not beginning with a digit. -/
def CName (s : Str) : Prop :=
  (∀ c ∈ s, (48 ≤ c ∧ c ≤ 57) ∨ (65 ≤ c ∧ c ≤ 90) ∨ (97 ≤ c ∧ c ≤ 122) ∨ c = 95) ∧
  ∃ c t, s = c :: t ∧ ¬ (48 ≤ c ∧ c ≤ 57)

/-- An optional size, offset or number of a line: not negative, and an `int64`. -/
def Size (n : Option Int) : Prop := ∀ v, n = some v → 0 ≤ v ∧ v < 2 ^ 63
/-- A Go `int64`. -/
def Int64 (v : Int) : Prop := -2 ^ 63 ≤ v ∧ v < 2 ^ 63
/-- Counts are `metac_num_t`. -/
def Few {α : Type} (l : List α) : Prop := l.length < 2 ^ 31
/-- An optional plain name. -/
def Named (n : Option Str) : Prop := ∀ s, n = some s → Plain s

/-- Links and parents among `ids`. -/
def Link (ids : List Str) (l : Str) : Prop := l = [] ∨ l = go! "void" ∨ l ∈ ids

/-- The head of a type. -/
def HeadFits (ids : List Str) (h : Head) : Prop :=
  Named h.name ∧ (∀ p ∈ h.parents, p ∈ ids) ∧ Few h.parents
/-- The head of a function or a variable. -/
def ObjFits (ids : List Str) (h : ObjHead) : Prop :=
  Named h.name ∧ h.parent ∈ ids ∧ Named h.linkage
/-- Parameters. -/
def ParamsFit (ids : List Str) (ps : List Param) : Prop :=
  Few ps ∧ ∀ p ∈ ps, Named p.name ∧ Link ids p.type
/-- Members. -/
def FieldFits (ids : List Str) (f : Field) : Prop :=
  Named f.name ∧ Link ids f.type ∧ Size f.byteSize ∧ Size f.alignment ∧
  Size (some f.byteOffset) ∧ Size f.dataBitOffset ∧ Size f.bitOffset ∧ Size f.bitSize
/-- The hierarchy. -/
def HierFits (ids : List Str) (hier : List Item) : Prop :=
  Few hier ∧ ∀ i ∈ hier, i.link ∈ ids ∧ Size i.file ∧ Size i.line ∧ Size i.column

/-- Enumerators: no control characters, and no bytes that Go's `%q` may write differently. -/
def Printable (s : Str) : Prop := ∀ c ∈ s, 32 ≤ c ∧ c < 127

/-- The objects for which the templates write what they should: `ids` are the keys of the
database. -/
def Fits (ids : List Str) : Obj → Prop
  | .base h size enc => HeadFits ids h ∧ Size size ∧ enc ∈ encodings.map (·.1)
  | .enumeration h size es =>
    HeadFits ids h ∧ Size size ∧ Few es ∧ ∀ e ∈ es, Printable e.1 ∧ Int64 e.2
  | .array h count level lower stride type =>
    HeadFits ids h ∧ Int64 count ∧ 0 ≤ level ∧ level < 2 ^ 31 ∧ (∀ v, lower = some v → Int64 v) ∧
    stride = none ∧ Link ids type ∧ type ≠ go! "void"
  | .pointer h type => HeadFits ids h ∧ Link ids type
  | .reference h tag size type =>
    HeadFits ids h ∧ tag ∈ [go! "ReferenceType", go! "RvalueReferenceType"] ∧ Size size ∧
    Link ids type
  | .unspecified h => HeadFits ids h
  | .subroutine h type ps => HeadFits ids h ∧ Link ids type ∧ ParamsFit ids ps
  | .qual h q type =>
    HeadFits ids h ∧ Link ids type ∧
    q ∈ [go! "ConstType", go! "VolatileType", go! "RestrictType", go! "MutableType",
      go! "SharedType", go! "PackedType"]
  | .typedef h type => HeadFits ids h ∧ Link ids type
  | .aggregate h tag size alignment fs hier =>
    HeadFits ids h ∧ tag ∈ [go! "StructType", go! "UnionType", go! "ClassType"] ∧ Size size ∧
    Size alignment ∧ (h.decl ≠ some true → size ≠ none) ∧ Few fs ∧
    (∀ f ∈ fs, FieldFits ids f) ∧ HierFits ids hier
  | .subprogram h type ps hier =>
    ObjFits ids h ∧ Link ids type ∧ ParamsFit ids ps ∧ HierFits ids hier
  | .variable h type => ObjFits ids h ∧ Link ids type
  | .lexBlock _ par hier => par ∈ ids ∧ HierFits ids hier
  | .namespace _ name par modules decls hier =>
    Named name ∧ par ∈ ids ∧ modules = [] ∧ decls = [] ∧ HierFits ids hier
  | .unit _ name lang files modules decls hier =>
    Plain name ∧ (∃ l, lang = some l ∧ 1 ≤ l ∧ l ≤ 37) ∧ Few files ∧
    (∀ f ∈ files, (34 : UInt8) ∉ f ∧ (10 : UInt8) ∉ f) ∧ modules = [] ∧ decls = [] ∧
    HierFits ids hier

/-- A database whose file compiles: ids are different names of C, none the name of a function of
another object and none reserved, and all objects fit. -/
structure Good (db : List Obj) : Prop where
  ids : (db.map Obj.id).Nodup
  names : ∀ o ∈ db, CName o.id
  reserved : ∀ o ∈ db, o.id ≠ go! "void"
  apart : ∀ o ∈ db, ∀ p ∈ db, o.id ≠ p.id ++ go! "_va_arg"
  fits : ∀ o ∈ db, Fits (db.map Obj.id) o

end Verif.Emit.Spec
