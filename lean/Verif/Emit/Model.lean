import Verif.Emit.Tok

/-
Model of the C file that /repo/modules/metac-reflect-gen writes for a database
(templates/_early_declarations.tpl, _actual_data.tpl and the templates they include), and of what
a C compiler makes of that file, given /repo/include/metac/{base.h,const.h,backend/entry.h}.

First part: the templates.  A database is a list of objects in the order of `_actual_data.tpl`
(the maps of MetaDb one after the other; inside a map Go ranges over sorted keys); links are the
ids that `streamline` left in them: "" if nothing was set, "void" for nil.  White space and
comments of the templates are dropped; the text between two quotes is kept as it is.

Second part: the meaning of the file in C: initialisers of `struct metac_entry`.  A file that does
not compile is `none`.
-/
namespace Verif.Emit
open Verif.GoMeta (Str)

/-! ## The database -/

/-- metadb_types.go:13-17 `CommonType`, without the size: `Parents`, `Name`, `Declaration`, and
the id under which the object was put into its map (metadb_builder.go:915-1003). -/
structure Head where
  id : Str
  name : Option Str
  decl : Option Bool
  parents : List Str
deriving DecidableEq, Repr

/-- metadb.go:81-85 `CommonObj` with metadb_mixin.go:56-59 `MixinObject`. -/
structure ObjHead where
  id : Str
  name : Option Str
  decl : Option Bool
  parent : Str
  external : Option Bool
  linkage : Option Str
deriving DecidableEq, Repr

/-- metadb_mixin.go:112-117 `FuncParam`. -/
structure Param where
  unspecified : Option Bool
  type : Str
  name : Option Str
deriving DecidableEq, Repr

/-- metadb_types.go:498-511 `StructField`. -/
structure Field where
  name : Option Str
  type : Str
  byteSize : Option Int
  alignment : Option Int
  byteOffset : Int
  dataBitOffset : Option Int
  bitOffset : Option Int
  bitSize : Option Int
deriving DecidableEq, Repr

/-- metadb.go:97-101 `HierarchyItem`. -/
structure Item where
  link : Str
  file : Option Int
  line : Option Int
  column : Option Int
deriving DecidableEq, Repr

/-- The objects of the maps of MetaDb, metadb.go:308-328. -/
inductive Obj where
  | base (h : Head) (size : Option Int) (encoding : Str)
  | enumeration (h : Head) (size : Option Int) (es : List (Str × Int))
  | array (h : Head) (count level : Int) (lower stride : Option Int) (type : Str)
  | pointer (h : Head) (type : Str)
  | reference (h : Head) (tag : Str) (size : Option Int) (type : Str)
  | unspecified (h : Head)
  | subroutine (h : Head) (type : Str) (ps : List Param)
  | qual (h : Head) (qual : Str) (type : Str)
  | typedef (h : Head) (type : Str)
  | aggregate (h : Head) (tag : Str) (size alignment : Option Int) (fs : List Field)
      (hier : List Item)
  | subprogram (h : ObjHead) (type : Str) (ps : List Param) (hier : List Item)
  | variable (h : ObjHead) (type : Str)
  | lexBlock (id parent : Str) (hier : List Item)
  | namespace (id : Str) (name : Option Str) (parent : Str) (modules decls : List Str)
      (hier : List Item)
  | unit (id name : Str) (lang : Option Int) (files modules decls : List Str) (hier : List Item)
deriving DecidableEq, Repr

/-- The key of an object in its map (metadb_builder.go:915-1003). -/
def Obj.id : Obj → Str
  | .base h _ _ | .enumeration h _ _ | .array h _ _ _ _ _ | .pointer h _ | .reference h _ _ _
  | .unspecified h | .subroutine h _ _ | .qual h _ _ | .typedef h _ | .aggregate h _ _ _ _ _ => h.id
  | .subprogram h _ _ _ | .variable h _ => h.id
  | .lexBlock id _ _ | .namespace id _ _ _ _ _ | .unit id _ _ _ _ _ _ => id

/-! ## The templates -/

/-- `{{ x }}` of a number. -/
def int (v : Int) : List Tok := if v < 0 then [.p 45, .num v.natAbs] else [.num v.natAbs]

/-- Letters, digits and `_`. -/
def wordByte (c : UInt8) : Bool :=
  (48 ≤ c && c ≤ 57) || (65 ≤ c && c ≤ 90) || (97 ≤ c && c ≤ 122) || c == 95

/-- `{{ x }}` of an id: the identifier, if the text is one. -/
def ident (s : Str) : List Tok :=
  if s.all wordByte && s.headD 48 > 57 then [.id s] else [.bad]

/-- _mixins.tpl:2-6 -/
def nameMixin : Option Str → List Tok
  | some n => c! ".name =" ++ [.str n] ++ c! ","
  | none => []

/-- _mixins.tpl:8-14 -/
def declarationMixin : Option Bool → List Tok
  | some true => c! ".declaration = 1,"
  | _ => []

/-- _mixins.tpl:16-20 -/
def byteSizeMixin : Option Int → List Tok
  | some n => c! ".byte_size =" ++ int n ++ c! ","
  | none => []

/-- `.f = (metac_size_t[]){ {{ . }},},` under `with`: _mixins.tpl:22-26, _struct_type.tpl:46-63. -/
def sizeRef (f : Str) : Option Int → List Tok
  | some n => c! "." ++ [.id f] ++ c! "= (metac_size_t[]){" ++ int n ++ c! ",},"
  | none => []

/-- _mixins.tpl:28-48 -/
def objMixin (external : Option Bool) (linkage : Option Str) : List Tok :=
  if external.isSome || linkage.isSome then
    c! ".linkage_info = {" ++
    (match external with | some true => c! ".external = 1," | _ => []) ++
    (match linkage with | some n => c! ".linkage_name =" ++ [.str n] ++ c! "," | none => []) ++
    c! "},"
  else []

/-- _mixins.tpl:50-54 -/
def typeMixin (type : Str) : List Tok :=
  if type ≠ [] ∧ type ≠ go! "void" then c! ".type = &" ++ ident type ++ c! "," else []

/-- `&{{ .Id }},` for each link: _parents.tpl:5-7, _import.tpl:8-10. -/
def links (ids : List Str) : List Tok := ids.flatMap fun i => c! "&" ++ ident i ++ c! ","

/-- _parents.tpl:2-9 -/
def typeParents (parents : List Str) : List Tok :=
  c! ".parents_count =" ++ int parents.length ++ c! ", .parents = (metac_entry_t*[]){" ++
  links parents ++ c! "},"

/-- _parents.tpl:11-16 -/
def parent (id : Str) : List Tok :=
  c! ".parents_count = 1, .parents = (metac_entry_t*[]){ &" ++ ident id ++ c! ", },"

/-- _hierarchy.tpl:9-17: `.f = (metac_size_t[]){ {{ . }} },` -/
def placeRef (f : Str) : Option Int → List Tok
  | some n => c! "." ++ [.id f] ++ c! "= (metac_size_t[]){" ++ int n ++ c! "},"
  | none => []

/-- _hierarchy.tpl:7-18 -/
def hierarchyItem (i : Item) : List Tok :=
  c! "{ .link = &" ++ ident i.link ++ c! "," ++ placeRef (go! "p_decl_file") i.file ++
  placeRef (go! "p_decl_line") i.line ++ placeRef (go! "p_decl_column") i.column ++ c! "},"

/-- _hierarchy.tpl:2-22 -/
def hierarchy (hier : List Item) : List Tok :=
  if hier.length = 0 then []
  else c! ".hierarchy_items_count =" ++ int hier.length ++
    c! ", .hierarchy_items = (struct hierarchy_item[]){" ++ hier.flatMap hierarchyItem ++ c! "},"

/-- _import.tpl:2-13.  Lines 6 and 7: there is no comma behind the count. -/
def imports (as as_count : Str) (ids : List Str) : List Tok :=
  if ids.length = 0 then []
  else c! "." ++ [.id as_count] ++ c! "=" ++ int ids.length ++
    c! "." ++ [.id as] ++ c! "= (metac_entry_t*[]){" ++ links ids ++ c! "},"

/-- `METAC_KND_{{ snakecase x }}` and the like: a prefix and a text. -/
def joined (pre rest : Str) : List Tok := ident (pre ++ rest)

/-- _base_type.tpl:7-18.  `snake` is `snakecase` of the sprig library. -/
def baseType (snake : Str → Str) (h : Head) (size : Option Int) (encoding : Str) : List Tok :=
  c! "{ .kind = METAC_KND_base_type," ++ nameMixin h.name ++ typeParents h.parents ++
  c! ".base_type_info = {" ++ byteSizeMixin size ++
  c! ".encoding =" ++ joined (go! "METAC_ENC_") (snake encoding) ++ c! ", }, }"

/-- `quote` of the sprig library (Go's `%q`).  Simplified: bytes above 126 stand as they are (Go
escapes those that are no printable text), control bytes other than `\a \b \t \n \v \f \r` are not
modelled (`none`). -/
def quote : Str → Option Str
  | [] => some []
  | c :: s => do
    let s ← quote s
    if c = 34 ∨ c = 92 then some (92 :: c :: s)
    else if c = 7 then some (92 :: 97 :: s)
    else if c = 8 then some (92 :: 98 :: s)
    else if c = 9 then some (92 :: 116 :: s)
    else if c = 10 then some (92 :: 110 :: s)
    else if c = 11 then some (92 :: 118 :: s)
    else if c = 12 then some (92 :: 102 :: s)
    else if c = 13 then some (92 :: 114 :: s)
    else if c < 32 ∨ c = 127 then none
    else some (c :: s)

/-- _enumeration_type.tpl:16-18 -/
def enumerator (e : Str × Int) : List Tok :=
  c! "{ .name =" ++ (match quote e.1 with | some q => [.str q] | none => [.bad]) ++
  c! ", .const_value =" ++ int e.2 ++ c! "},"

/-- _enumeration_type.tpl:7-21 -/
def enumerationType (h : Head) (size : Option Int) (es : List (Str × Int)) : List Tok :=
  c! "{ .kind = METAC_KND_enumeration_type," ++ nameMixin h.name ++ declarationMixin h.decl ++
  typeParents h.parents ++ c! ".enumeration_type_info = {" ++ byteSizeMixin size ++
  c! ".enumerators_count =" ++ int es.length ++
  c! ", .enumerators = (struct metac_type_enumerator_info[]){" ++ es.flatMap enumerator ++
  c! "}, }, }"

/-- _array_type.tpl:7-25 -/
def arrayType (h : Head) (count level : Int) (lower stride : Option Int) (type : Str) : List Tok :=
  c! "{ .kind = METAC_KND_array_type," ++ nameMixin h.name ++ declarationMixin h.decl ++
  typeParents h.parents ++ c! ".array_type_info = { .count =" ++ int count ++
  c! ", .level =" ++ int level ++ c! "," ++
  (match lower with | some n => c! ".lower_bound =" ++ int n ++ c! "," | none => []) ++
  (match stride with
   | some n => c! ".p_stride_bit_size = (metac_bit_size_t[]){ {" ++ int n ++ c! "}, },"
   | none => []) ++
  (if type ≠ [] then c! ".type = &" ++ ident type ++ c! "," else []) ++ c! "}, }"

/-- _pointer_type.tpl:7-16 -/
def pointerType (h : Head) (type : Str) : List Tok :=
  c! "{ .kind = METAC_KND_pointer_type," ++ nameMixin h.name ++ declarationMixin h.decl ++
  typeParents h.parents ++ c! ".pointer_type_info = { .byte_size = sizeof(void*)," ++
  typeMixin type ++ c! "}, }"

/-- _reference_type.tpl:7-16 -/
def referenceType (snake : Str → Str) (h : Head) (tag : Str) (size : Option Int) (type : Str) :
    List Tok :=
  c! "{ .kind =" ++ joined (go! "METAC_KND_") (snake tag) ++ c! "," ++ nameMixin h.name ++
  declarationMixin h.decl ++ typeParents h.parents ++ c! ".reference_type_info = {" ++
  byteSizeMixin size ++ typeMixin type ++ c! "}, }"

/-- _unspecified_type.tpl:7-12 -/
def unspecifiedType (h : Head) : List Tok :=
  c! "{ .kind = METAC_KND_unspecified_type," ++ nameMixin h.name ++ declarationMixin h.decl ++
  typeParents h.parents ++ c! "}"

/-- _subroutine_type.tpl:16-31, _subprogram.tpl:16-31; `i` is the id of the function. -/
def parameter (i : Str) (p : Param) : List Tok :=
  c! "{ .kind = METAC_KND_func_parameter," ++ nameMixin p.name ++
  c! ".parents_count = 1, .parents = (metac_entry_t*[]){ &" ++ ident i ++
  c! ", }, .func_parameter_info = {" ++
  (match p.unspecified with | some true => c! ".unspecified_parameters = 1," | _ => []) ++
  typeMixin p.type ++ c! "}, },"

/-- _subroutine_type.tpl:14-32, _subprogram.tpl:14-32 -/
def parameters (i : Str) (ps : List Param) : List Tok :=
  c! ".parameters_count =" ++ int ps.length ++ c! ", .parameters = (struct metac_entry[]){" ++
  ps.flatMap (parameter i) ++ c! "},"

/-- _subroutine_type.tpl:7-34 -/
def subroutineType (h : Head) (type : Str) (ps : List Param) : List Tok :=
  c! "{ .kind = METAC_KND_subroutine_type," ++ nameMixin h.name ++ declarationMixin h.decl ++
  typeParents h.parents ++ c! ".subroutine_type_info = {" ++ typeMixin type ++
  parameters h.id ps ++ c! "}, }"

/-- _qual_type.tpl:7-15 -/
def qualType (snake : Str → Str) (h : Head) (qual : Str) (type : Str) : List Tok :=
  c! "{ .kind =" ++ joined (go! "METAC_KND_") (snake qual) ++ c! "," ++ nameMixin h.name ++
  declarationMixin h.decl ++ typeParents h.parents ++ c! ".qual_type_info = {" ++
  typeMixin type ++ c! "}, }"

/-- _typedef.tpl:7-15 -/
def typedef_ (h : Head) (type : Str) : List Tok :=
  c! "{ .kind = METAC_KND_typedef," ++ nameMixin h.name ++ declarationMixin h.decl ++
  typeParents h.parents ++ c! ".typedef_info = {" ++ typeMixin type ++ c! "}, }"

/-- _struct_type.tpl:39-65; `i` is the id of the structure. -/
def member (i : Str) (f : Field) : List Tok :=
  c! "{ .kind = METAC_KND_member," ++ nameMixin f.name ++
  c! ".parents_count = 1, .parents = (metac_entry_t*[]){ &" ++ ident i ++
  c! ", }, .member_info = {" ++ typeMixin f.type ++ sizeRef (go! "p_byte_size") f.byteSize ++
  sizeRef (go! "p_alignment") f.alignment ++
  (if f.byteOffset ≠ 0 then c! ".byte_offset =" ++ int f.byteOffset ++ c! "," else []) ++
  sizeRef (go! "p_data_bit_offset") f.dataBitOffset ++
  sizeRef (go! "p_bit_offset") f.bitOffset ++ sizeRef (go! "p_bit_size") f.bitSize ++ c! "}, },"

/-- _struct_type.tpl:20-72 -/
def structType (snake : Str → Str) (h : Head) (tag : Str) (size alignment : Option Int)
    (fs : List Field) (hier : List Item) : List Tok :=
  c! "{ .kind =" ++ joined (go! "METAC_KND_") (snake tag) ++ c! "," ++ nameMixin h.name ++
  declarationMixin h.decl ++ typeParents h.parents ++
  (if h.decl ≠ some true then
    c! ".structure_type_info = {" ++ byteSizeMixin size ++
    sizeRef (go! "p_alignment") alignment ++
    c! ".p_va_arg_fn =" ++ ident (h.id ++ go! "_va_arg") ++ c! "," ++
    (if fs.length ≠ 0 then
      c! ".members_count =" ++ int fs.length ++ c! ", .members = (struct metac_entry[]){" ++
      fs.flatMap (member h.id) ++ c! "},"
     else []) ++ hierarchy hier ++ c! "},"
   else []) ++ c! "}"

/-- _subprogram.tpl:7-36 -/
def subprogram_ (h : ObjHead) (type : Str) (ps : List Param) (hier : List Item) : List Tok :=
  c! "{ .kind = METAC_KND_subprogram," ++ nameMixin h.name ++ declarationMixin h.decl ++
  parent h.parent ++ c! ".subprogram_info = {" ++ typeMixin type ++ parameters h.id ps ++
  objMixin h.external h.linkage ++ hierarchy hier ++ c! "}, }"

/-- _variable.tpl:7-16 -/
def variable_ (h : ObjHead) (type : Str) : List Tok :=
  c! "{ .kind = METAC_KND_variable," ++ nameMixin h.name ++ declarationMixin h.decl ++
  parent h.parent ++ c! ".variable_info = {" ++ typeMixin type ++
  objMixin h.external h.linkage ++ c! "}, }"

/-- _lex_block.tpl:7-13 -/
def lexBlock_ (par : Str) (hier : List Item) : List Tok :=
  c! "{ .kind = METAC_KND_lex_block," ++ parent par ++ c! ".lex_block_info = {" ++
  hierarchy hier ++ c! "}, }"

/-- _namespace.tpl:7-16 -/
def namespace_ (name : Option Str) (par : Str) (modules decls : List Str) (hier : List Item) :
    List Tok :=
  c! "{ .kind = METAC_KND_namespace," ++ nameMixin name ++ parent par ++
  c! ".namespace_info = {" ++
  imports (go! "imported_modules") (go! "imported_modules_count") modules ++
  imports (go! "imported_declarations") (go! "imported_declarations_count") decls ++
  hierarchy hier ++ c! "}, }"

/-- language_string.go:52-60. -/
def languageNames : Str := go! "C89CAda83C_plus_plusCobol74Cobol85Fortran77Fortran90Pascal83Modula2JavaC99Ada95Fortran95PLIObjCObjC_plus_plusUPCDPythonOpenCLGoModula3HaskellC_plus_plus_03C_plus_plus_11OCamlRustC11SwiftJuliaDylanC_plus_plus_14Fortran03Fortran08RenderScriptBLISS"
/-- language_string.go:52-60. -/
def languageIndex : List Nat :=
  [0, 3, 4, 9, 20, 27, 34, 43, 52, 60, 67, 71, 74, 79, 88, 91, 95, 109, 112, 113, 119, 125, 127,
   134, 141, 155, 169, 174, 178, 181, 186, 191, 196, 210, 219, 228, 240, 245]

/-- language_string.go:62-74 `Language.String`. -/
def languageName (lang : Int) : Str :=
  if 1 ≤ lang ∧ lang ≤ 37 then
    (languageNames.take (languageIndex.getD ((lang - 1).toNat + 1) 0)).drop
      (languageIndex.getD (lang - 1).toNat 0)
  else if lang = 32768 then go! "lo_user"
  else if lang = 65535 then go! "hi_user"
  else go! "Language(" ++ GoDedup.decInt lang ++ go! ")"

/-- _compile_unit.tpl:11: `METAC_LANG_{{ $v.Lang }}`; a nil pointer is printed as `<nil>`. -/
def langToks : Option Int → List Tok
  | none => [.bad]
  | some l => joined (go! "METAC_LANG_") (languageName l)

/-- _escape_path.tpl:1-3: backslashes become slashes. -/
def escapePath (s : Str) : Str := s.map fun c => if c = 92 then 47 else c

/-- _compile_unit.tpl:7-24 -/
def compileUnit (name : Str) (lang : Option Int) (files modules decls : List Str)
    (hier : List Item) : List Tok :=
  c! "{ .kind = METAC_KND_compile_unit, .name =" ++ [.str name] ++
  c! ", .compile_unit_info = { .lang =" ++ langToks lang ++ c! "," ++
  (if files.length = 0 then []
   else c! ".decl_files_count =" ++ int files.length ++ c! ", .decl_files = (metac_name_t[]){" ++
    files.flatMap (fun f => [.str (escapePath f)] ++ c! ",") ++ c! "},") ++
  imports (go! "imported_modules") (go! "imported_modules_count") modules ++
  imports (go! "imported_declarations") (go! "imported_declarations_count") decls ++
  hierarchy hier ++ c! "}, }"

/-- The initialiser of an object: _actual_data.tpl:5-21 (which template is used for which map). -/
def initialiser (snake : Str → Str) : Obj → List Tok
  | .base h size enc => baseType snake h size enc
  | .enumeration h size es => enumerationType h size es
  | .array h count level lower stride type => arrayType h count level lower stride type
  | .pointer h type => pointerType h type
  | .reference h tag size type => referenceType snake h tag size type
  | .unspecified h => unspecifiedType h
  | .subroutine h type ps => subroutineType h type ps
  | .qual h q type => qualType snake h q type
  | .typedef h type => typedef_ h type
  | .aggregate h tag size alignment fs hier => structType snake h tag size alignment fs hier
  | .subprogram h type ps hier => subprogram_ h type ps hier
  | .variable h type => variable_ h type
  | .lexBlock _ par hier => lexBlock_ par hier
  | .namespace _ name par modules decls hier => namespace_ name par modules decls hier
  | .unit _ name lang files modules decls hier => compileUnit name lang files modules decls hier

/-- The top-level items of the file. -/
inductive TopItem where
  /-- `static struct metac_entry {{ $i }};` -/
  | declare (id : List Tok)
  /-- `struct _dummy_{{ $i }} {...}; static metac_flag_t {{ $i }}_va_arg(...) {...}` -/
  | vaFn (id : List Tok) (size : Int)
  /-- `static struct metac_entry {{ $i }} = ...;` -/
  | define (id : List Tok) (init : List Tok)
deriving DecidableEq, Repr

/-- _struct_type.tpl:8-19 -/
def vaFn : Obj → List TopItem
  | .aggregate h _ (some size) _ _ _ => [.vaFn (ident (h.id ++ go! "_va_arg")) size]
  | _ => []

/-- _early_declarations.tpl:1-33, _actual_data.tpl:1-22 -/
def file (snake : Str → Str) (db : List Obj) : List TopItem :=
  db.map (fun o => .declare (ident o.id)) ++
  db.flatMap fun o => vaFn o ++ [.define (ident o.id) (initialiser snake o)]

/-! ## C: initialisers -/

/-- The element types of compound literals: values, pointers to entries, structures. -/
inductive CType where
  | val (name : Str) | ptr (name : Str) | struct (name : Str)
deriving DecidableEq, Repr

/-- Initialisers: constants, text, the address of an entry, a name, `{...}` with designators, and
compound literals. -/
inductive Init where
  | num (v : Int)
  | str (s : Str)
  | addr (id : Str)
  | name (s : Str)
  | brace (items : List (Option Str × Init))
  | array (type : CType) (items : List (Option Str × Init))
deriving Repr

/-- C 6.4.4.4: simple escapes (octal, hexadecimal and universal ones are not modelled). -/
def escape (c : UInt8) : Option UInt8 :=
  if c = 34 ∨ c = 92 ∨ c = 39 ∨ c = 63 then some c
  else if c = 97 then some 7
  else if c = 98 then some 8
  else if c = 116 then some 9
  else if c = 110 then some 10
  else if c = 118 then some 11
  else if c = 102 then some 12
  else if c = 114 then some 13
  else none

/-- C 5.1.1.2, 6.4.5: the text between the first and the last quote, read by the compiler:
`inside` tells whether a literal is open.  A quote closes it, literals next to each other are
joined; anything else outside is not modelled (`none`), neither is a line break inside. -/
def literal : (inside : Bool) → Str → Option Str
  | true, [] => some []
  | false, [] => none
  | true, c :: s =>
    if c = 34 then literal false s
    else if c = 92 then
      match s with
      | [] => none
      | e :: s => do let e ← escape e; let s ← literal true s; some (e :: s)
    else if c = 10 then none
    else do let s ← literal true s; some (c :: s)
  | false, c :: s =>
    if c = 34 then literal true s
    else if c = 32 ∨ c = 9 then literal false s
    else none

/-- C 6.7.8: `type[]` `)` of a compound literal. -/
def parseType : List Tok → Option (CType × List Tok)
  | .id s :: .p 91 :: .p 93 :: .p 41 :: ts => some (.val s, ts)
  | .id s :: .p 42 :: .p 91 :: .p 93 :: .p 41 :: ts => some (.ptr s, ts)
  | .id k :: .id s :: .p 91 :: .p 93 :: .p 41 :: ts =>
    if k = go! "struct" then some (.struct s, ts) else none
  | _ => none

/-- C 6.7.9: `.f =` -/
def designator : List Tok → Option Str × List Tok
  | .p 46 :: .id f :: .p 61 :: ts => (some f, ts)
  | ts => (none, ts)

mutual
/-- C 6.7.9, 6.5: an initialiser; the kinds of constant expressions that occur here. -/
def parseInit : Nat → List Tok → Option (Init × List Tok)
  | 0, _ => none
  | n + 1, ts =>
    match ts with
    | .num v :: ts => some (.num v, ts)
    | .p 45 :: .num v :: ts => some (.num (-v), ts)
    | .str raw :: ts => (literal true raw).map fun s => (.str s, ts)
    | .p 38 :: .id s :: ts => some (.addr s, ts)
    | .id s :: .p 40 :: .id t :: .p 42 :: .p 41 :: ts =>
      if s = go! "sizeof" ∧ t = go! "void" then some (.num 8, ts) else none
    | .id s :: ts => some (.name s, ts)
    | .p 123 :: ts => (parseItems n ts).map fun r => (.brace r.1, r.2)
    | .p 40 :: ts =>
      match parseType ts with
      | some (t, .p 123 :: ts) => (parseItems n ts).map fun r => (.array t r.1, r.2)
      | _ => none
    | _ => none
/-- C 6.7.9: the items up to the closing brace. -/
def parseItems : Nat → List Tok → Option (List (Option Str × Init) × List Tok)
  | 0, _ => none
  | n + 1, ts =>
    match ts with
    | .p 125 :: ts => some ([], ts)
    | ts =>
      match parseInit n (designator ts).2 with
      | some (v, .p 44 :: rest) =>
        (parseItems n rest).map fun r => (((designator ts).1, v) :: r.1, r.2)
      | some (v, .p 125 :: rest) => some ([((designator ts).1, v)], rest)
      | _ => none
end

/-! ## C: the objects -/

/-- backend/entry.h:47-53 `struct hierarchy_item`. -/
structure CItem where
  link : Option Str := none
  file : Option Int := none
  line : Option Int := none
  column : Option Int := none
deriving DecidableEq, Repr

/-- backend/entry.h:54-63, 89-92: the data of members and of parameters. -/
inductive LeafInfo where
  | none
  | member (type : Option Str) (byteSize alignment : Option Int) (byteOffset : Int)
      (dataBitOffset bitOffset bitSize : Option Int)
  | param (unspecified : Int) (type : Option Str)
deriving DecidableEq, Repr

/-- backend/entry.h:137-184 `struct metac_entry` inside an array of members or parameters. -/
structure Leaf where
  kind : Int := 0
  name : Option Str := none
  parentsCount : Int := 0
  parents : Option (List Str) := none
  info : LeafInfo := .none
deriving DecidableEq, Repr

/-- backend/entry.h:77-80 `struct linkage_info`. -/
structure CLinkage where
  external : Int := 0
  name : Option Str := none
deriving DecidableEq, Repr

/-- backend/entry.h:15-46, 64-135: the data of the entries, by the member of the union that is
set.  Pointers: `Option`; pointers to arrays: the elements. -/
structure CInfo where
  type : Option Str := none
  byteSize : Int := 0
  encoding : Int := 0
  enumeratorsCount : Int := 0
  enumerators : Option (List (Option Str × Int)) := none
  count : Int := 0
  level : Int := 0
  lowerBound : Int := 0
  stride : Option Int := none
  alignment : Option Int := none
  vaArg : Option Str := none
  membersCount : Int := 0
  members : Option (List Leaf) := none
  parametersCount : Int := 0
  parameters : Option (List Leaf) := none
  linkage : CLinkage := {}
  lang : Int := 0
  filesCount : Int := 0
  files : Option (List (Option Str)) := none
  modulesCount : Int := 0
  modules : Option (List Str) := none
  declsCount : Int := 0
  decls : Option (List Str) := none
  itemsCount : Int := 0
  items : Option (List CItem) := none
deriving DecidableEq, Repr

/-- backend/entry.h:137-184 `struct metac_entry`: `which` names the member of the union. -/
structure CEntry where
  kind : Int := 0
  name : Option Str := none
  declaration : Int := 0
  parentsCount : Int := 0
  parents : Option (List Str) := none
  which : Option Str := none
  info : CInfo := {}
deriving DecidableEq, Repr

/-- What is in scope: entries and functions. -/
structure Scope where
  entries : List Str
  funcs : List Str

/-- const.h:16-112: the enumerators. -/
def constants : List (Str × Int) :=
  (([go! "METAC_KND_typedef", go! "METAC_KND_base_type", go! "METAC_KND_pointer_type",
     go! "METAC_KND_enumeration_type", go! "METAC_KND_subroutine_type", go! "METAC_KND_array_type",
     go! "METAC_KND_const_type", go! "METAC_KND_volatile_type", go! "METAC_KND_restrict_type",
     go! "METAC_KND_mutable_type", go! "METAC_KND_shared_type", go! "METAC_KND_packed_type",
     go! "METAC_KND_reference_type", go! "METAC_KND_rvalue_reference_type",
     go! "METAC_KND_unspecified_type", go! "METAC_KND_member", go! "METAC_KND_struct_type",
     go! "METAC_KND_union_type", go! "METAC_KND_class_type", go! "METAC_KND_variable",
     go! "METAC_KND_func_parameter", go! "METAC_KND_subprogram", go! "METAC_KND_lex_block",
     go! "METAC_KND_namespace", go! "METAC_KND_compile_unit"] : List Str).zip
    ((List.range 25).map Int.ofNat)) ++
  (([go! "METAC_ENC_undefined", go! "METAC_ENC_void", go! "METAC_ENC_address",
     go! "METAC_ENC_boolean", go! "METAC_ENC_complex_float", go! "METAC_ENC_float",
     go! "METAC_ENC_signed", go! "METAC_ENC_signed_char", go! "METAC_ENC_unsigned",
     go! "METAC_ENC_unsigned_char", go! "METAC_ENC_imaginary_float",
     go! "METAC_ENC_packed_decimal", go! "METAC_ENC_numeric_string", go! "METAC_ENC_edited",
     go! "METAC_ENC_signed_fixed", go! "METAC_ENC_unsigned_fixed", go! "METAC_ENC_decimal_float",
     go! "METAC_ENC_utf", go! "METAC_ENC_ucs", go! "METAC_ENC_ascii"] : List Str).zip
    ((List.range 20).map Int.ofNat)) ++
  (([go! "METAC_LANG_C89", go! "METAC_LANG_C", go! "METAC_LANG_Ada83",
     go! "METAC_LANG_C_plus_plus", go! "METAC_LANG_Cobol74", go! "METAC_LANG_Cobol85",
     go! "METAC_LANG_Fortran77", go! "METAC_LANG_Fortran90", go! "METAC_LANG_Pascal83",
     go! "METAC_LANG_Modula2", go! "METAC_LANG_Java", go! "METAC_LANG_C99",
     go! "METAC_LANG_Ada95", go! "METAC_LANG_Fortran95", go! "METAC_LANG_PLI",
     go! "METAC_LANG_ObjC", go! "METAC_LANG_ObjC_plus_plus", go! "METAC_LANG_UPC",
     go! "METAC_LANG_D", go! "METAC_LANG_Python", go! "METAC_LANG_OpenCL", go! "METAC_LANG_Go",
     go! "METAC_LANG_Modula3", go! "METAC_LANG_Haskell", go! "METAC_LANG_C_plus_plus_03",
     go! "METAC_LANG_C_plus_plus_11", go! "METAC_LANG_OCaml", go! "METAC_LANG_Rust",
     go! "METAC_LANG_C11", go! "METAC_LANG_Swift", go! "METAC_LANG_Julia",
     go! "METAC_LANG_Dylan", go! "METAC_LANG_C_plus_plus_14", go! "METAC_LANG_Fortran03",
     go! "METAC_LANG_Fortran08", go! "METAC_LANG_RenderScript", go! "METAC_LANG_BLISS"]
     : List Str).zip ((List.range 37).map fun i => Int.ofNat (i + 1)))

/-- C 6.3.1.3: conversion to an unsigned type of `bits` bits. -/
def unsigned (bits : Nat) (v : Int) : Int := v % 2 ^ bits

/-- C 6.3.1.3 (implementation-defined part as in gcc): conversion to a signed type. -/
def signed (bits : Nat) (v : Int) : Int := (v + 2 ^ (bits - 1)) % 2 ^ bits - 2 ^ (bits - 1)

/-- An integer constant expression. -/
def intOf : Init → Option Int
  | .num v => some v
  | .name s => constants.lookup s
  | _ => none

/-- The address of an entry in scope. -/
def addrOf (sc : Scope) : Init → Option Str
  | .addr s => if s ∈ sc.entries then some s else none
  | _ => none

/-- A function in scope. -/
def funcOf (sc : Scope) : Init → Option Str
  | .name s => if s ∈ sc.funcs then some s else none
  | _ => none

/-- A string literal. -/
def strOf : Init → Option Str
  | .str s => some s
  | _ => none

/-- `metac_size_t*` (or `metac_offset_t*`, the same type: base.h:60-72) to the first element of a
compound literal `(metac_size_t[]){ n }`. -/
def sizePtr : Init → Option Int
  | .array t items =>
    if t = .val (go! "metac_size_t") then
      match items with
      | [(none, v)] => (intOf v).map (unsigned 64)
      | _ => none
    else none
  | _ => none

/-- All elements of a list, without designators. -/
def elements {α : Type} (f : Init → Option α) : List (Option Str × Init) → Option (List α)
  | [] => some []
  | (none, v) :: rest => do let a ← f v; let as ← elements f rest; some (a :: as)
  | (some _, _) :: _ => none

/-- A compound literal that is an array of `type`. -/
def arrayOf {α : Type} (type : CType) (f : Init → Option α) : Init → Option (List α)
  | .array t items => if t = type then elements f items else none
  | _ => none

/-- C 6.7.9: members of a structure are set one after the other; `table` is the list of members. -/
def fields {α : Type} (table : List (Str × (α → Init → Option α))) (a : α) :
    List (Option Str × Init) → Option α
  | [] => some a
  | (some f, v) :: rest =>
    match table.lookup f with
    | some set => (set a v).bind fun a => fields table a rest
    | none => none
  | (none, _) :: _ => none

/-- An initialiser `{...}` of a structure. -/
def structOf {α : Type} (table : List (Str × (α → Init → Option α))) (zero : α) :
    Init → Option α
  | .brace items => fields table zero items
  | _ => none

/-- `metac_entry_t*[]` -/
def entryPtrs (sc : Scope) : Init → Option (List Str) :=
  arrayOf (.ptr (go! "metac_entry_t")) (addrOf sc)

/-- backend/entry.h:47-53 -/
def itemTable (sc : Scope) : List (Str × (CItem → Init → Option CItem)) :=
  [(go! "link", fun a v => (addrOf sc v).map fun x => { a with link := some x }),
   (go! "p_decl_file", fun a v => (sizePtr v).map fun x => { a with file := some x }),
   (go! "p_decl_line", fun a v => (sizePtr v).map fun x => { a with line := some x }),
   (go! "p_decl_column", fun a v => (sizePtr v).map fun x => { a with column := some x })]

/-- The members of `struct metac_member_info` while they are set. -/
structure CMember where
  type : Option Str := none
  byteSize : Option Int := none
  alignment : Option Int := none
  byteOffset : Int := 0
  dataBitOffset : Option Int := none
  bitOffset : Option Int := none
  bitSize : Option Int := none

/-- backend/entry.h:54-63 -/
def memberTable (sc : Scope) : List (Str × (CMember → Init → Option CMember)) :=
  [(go! "type", fun a v => (addrOf sc v).map fun x => { a with type := some x }),
   (go! "p_byte_size", fun a v => (sizePtr v).map fun x => { a with byteSize := some x }),
   (go! "p_alignment", fun a v => (sizePtr v).map fun x => { a with alignment := some x }),
   (go! "byte_offset", fun a v => (intOf v).map fun x => { a with byteOffset := unsigned 64 x }),
   (go! "p_data_bit_offset", fun a v =>
     (sizePtr v).map fun x => { a with dataBitOffset := some x }),
   (go! "p_bit_offset", fun a v => (sizePtr v).map fun x => { a with bitOffset := some x }),
   (go! "p_bit_size", fun a v => (sizePtr v).map fun x => { a with bitSize := some x })]

/-- backend/entry.h:89-92 -/
def paramTable (sc : Scope) : List (Str × (Int × Option Str → Init → Option (Int × Option Str))) :=
  [(go! "unspecified_parameters", fun a v => (intOf v).map fun x => (unsigned 8 x, a.2)),
   (go! "type", fun a v => (addrOf sc v).map fun x => (a.1, some x))]

/-- backend/entry.h:137-184, for the entries inside arrays: the members that the templates set. -/
def leafTable (sc : Scope) : List (Str × (Leaf → Init → Option Leaf)) :=
  [(go! "kind", fun a v => (intOf v).map fun x => { a with kind := signed 8 x }),
   (go! "name", fun a v => (strOf v).map fun x => { a with name := some x }),
   (go! "parents_count", fun a v =>
     (intOf v).map fun x => { a with parentsCount := signed 32 x }),
   (go! "parents", fun a v => (entryPtrs sc v).map fun x => { a with parents := some x }),
   (go! "member_info", fun a v => (structOf (memberTable sc) {} v).map fun m =>
     { a with info := .member m.type m.byteSize m.alignment m.byteOffset m.dataBitOffset
                        m.bitOffset m.bitSize }),
   (go! "func_parameter_info", fun a v => (structOf (paramTable sc) (0, none) v).map fun m =>
     { a with info := .param m.1 m.2 })]

/-- `struct metac_type_enumerator_info`, reflect/entry.h:176-179 -/
def enumeratorTable : List (Str × (Option Str × Int → Init → Option (Option Str × Int))) :=
  [(go! "name", fun a v => (strOf v).map fun x => (some x, a.2)),
   (go! "const_value", fun a v => (intOf v).map fun x => (a.1, signed 64 x))]

/-- backend/entry.h:77-80 -/
def linkageTable : List (Str × (CLinkage → Init → Option CLinkage)) :=
  [(go! "external", fun a v => (intOf v).map fun x => { a with external := unsigned 8 x }),
   (go! "linkage_name", fun a v => (strOf v).map fun x => { a with name := some x })]

/-- The setters of backend/entry.h:15-46, 64-135 by the name of the member. -/
def setType (sc : Scope) : Str × (CInfo → Init → Option CInfo) :=
  (go! "type", fun a v => (addrOf sc v).map fun x => { a with type := some x })
/-- backend/entry.h:22 and others: `metac_size_t byte_size` -/
def setByteSize : Str × (CInfo → Init → Option CInfo) :=
  (go! "byte_size", fun a v => (intOf v).map fun x => { a with byteSize := unsigned 64 x })
/-- backend/entry.h:23, 36: `metac_encoding_t encoding` -/
def setEncoding : Str × (CInfo → Init → Option CInfo) :=
  (go! "encoding", fun a v => (intOf v).map fun x => { a with encoding := unsigned 8 x })
/-- backend/entry.h:73-74 and others -/
def setItems (sc : Scope) : List (Str × (CInfo → Init → Option CInfo)) :=
  [(go! "hierarchy_items_count", fun a v =>
     (intOf v).map fun x => { a with itemsCount := signed 32 x }),
   (go! "hierarchy_items", fun a v =>
     (arrayOf (.struct (go! "hierarchy_item")) (structOf (itemTable sc) {}) v).map fun x =>
       { a with items := some x })]
/-- backend/entry.h:96-97, 106-108 -/
def setParameters (sc : Scope) : List (Str × (CInfo → Init → Option CInfo)) :=
  [(go! "parameters_count", fun a v =>
     (intOf v).map fun x => { a with parametersCount := signed 32 x }),
   (go! "parameters", fun a v =>
     (arrayOf (.struct (go! "metac_entry")) (structOf (leafTable sc) {}) v).map fun x =>
       { a with parameters := some x })]
/-- backend/entry.h:83, 99: `struct linkage_info linkage_info` -/
def setLinkage : Str × (CInfo → Init → Option CInfo) :=
  (go! "linkage_info", fun a v =>
    (structOf linkageTable {} v).map fun x => { a with linkage := x })
/-- backend/entry.h:112-116, 127-131 -/
def setImports (sc : Scope) : List (Str × (CInfo → Init → Option CInfo)) :=
  [(go! "imported_modules_count", fun a v =>
     (intOf v).map fun x => { a with modulesCount := signed 32 x }),
   (go! "imported_modules", fun a v =>
     (entryPtrs sc v).map fun x => { a with modules := some x }),
   (go! "imported_declarations_count", fun a v =>
     (intOf v).map fun x => { a with declsCount := signed 32 x }),
   (go! "imported_declarations", fun a v =>
     (entryPtrs sc v).map fun x => { a with decls := some x })]

/-- backend/entry.h:15-20: `struct typedef_info`, `struct qual_type_info` -/
def aliasTable (sc : Scope) : List (Str × (CInfo → Init → Option CInfo)) := [setType sc]
/-- backend/entry.h:21-24 -/
def baseTable : List (Str × (CInfo → Init → Option CInfo)) := [setByteSize, setEncoding]
/-- backend/entry.h:25-32: `struct pointer_type_info`, `struct reference_type_info` -/
def pointerTable (sc : Scope) : List (Str × (CInfo → Init → Option CInfo)) := [setByteSize, setType sc]
/-- backend/entry.h:33-39 -/
def enumerationTable (sc : Scope) : List (Str × (CInfo → Init → Option CInfo)) :=
  [setType sc, setByteSize, setEncoding,
   (go! "enumerators_count", fun a v =>
     (intOf v).map fun x => { a with enumeratorsCount := signed 32 x }),
   (go! "enumerators", fun a v =>
     (arrayOf (.struct (go! "metac_type_enumerator_info"))
       (structOf enumeratorTable (none, 0)) v).map fun x => { a with enumerators := some x })]
/-- backend/entry.h:104-109 -/
def subroutineTable (sc : Scope) : List (Str × (CInfo → Init → Option CInfo)) :=
  setType sc :: setParameters sc
/-- backend/entry.h:40-46 -/
def arrayTable (sc : Scope) : List (Str × (CInfo → Init → Option CInfo)) :=
  [setType sc,
   (go! "count", fun a v => (intOf v).map fun x => { a with count := signed 64 x }),
   (go! "level", fun a v => (intOf v).map fun x => { a with level := signed 32 x }),
   (go! "lower_bound", fun a v => (intOf v).map fun x => { a with lowerBound := signed 64 x }),
   (go! "p_stride_bit_size", fun a v => (sizePtr v).map fun x => { a with stride := some x })]
/-- backend/entry.h:64-75 -/
def structTable (sc : Scope) : List (Str × (CInfo → Init → Option CInfo)) :=
  [setByteSize,
   (go! "p_alignment", fun a v => (sizePtr v).map fun x => { a with alignment := some x }),
   (go! "p_va_arg_fn", fun a v => (funcOf sc v).map fun x => { a with vaArg := some x }),
   (go! "members_count", fun a v =>
     (intOf v).map fun x => { a with membersCount := signed 32 x }),
   (go! "members", fun a v =>
     (arrayOf (.struct (go! "metac_entry")) (structOf (leafTable sc) {}) v).map fun x =>
       { a with members := some x })] ++ setItems sc
/-- backend/entry.h:81-84 -/
def variableTable (sc : Scope) : List (Str × (CInfo → Init → Option CInfo)) :=
  [setType sc, setLinkage]
/-- backend/entry.h:93-103 -/
def subprogramTable (sc : Scope) : List (Str × (CInfo → Init → Option CInfo)) :=
  setType sc :: setLinkage :: (setParameters sc ++ setItems sc)
/-- backend/entry.h:111-120 -/
def namespaceTable (sc : Scope) : List (Str × (CInfo → Init → Option CInfo)) :=
  setImports sc ++ setItems sc
/-- backend/entry.h:121-135 -/
def unitTable (sc : Scope) : List (Str × (CInfo → Init → Option CInfo)) :=
  [(go! "lang", fun a v => (intOf v).map fun x => { a with lang := unsigned 8 x }),
   (go! "decl_files_count", fun a v =>
     (intOf v).map fun x => { a with filesCount := signed 32 x }),
   (go! "decl_files", fun a v =>
     (arrayOf (.val (go! "metac_name_t")) (fun v => (strOf v).map some) v).map fun x =>
       { a with files := some x })] ++ setImports sc ++ setItems sc

/-- backend/entry.h:149-183: the members of the union, each with its own members. -/
def infoTables (sc : Scope) : List (Str × List (Str × (CInfo → Init → Option CInfo))) :=
  [(go! "typedef_info", aliasTable sc),
   (go! "qual_type_info", aliasTable sc),
   (go! "base_type_info", baseTable),
   (go! "pointer_type_info", pointerTable sc),
   (go! "enumeration_type_info", enumerationTable sc),
   (go! "subroutine_type_info", subroutineTable sc),
   (go! "array_type_info", arrayTable sc),
   (go! "reference_type_info", pointerTable sc),
   (go! "structure_type_info", structTable sc),
   (go! "variable_info", variableTable sc),
   (go! "subprogram_info", subprogramTable sc),
   (go! "lex_block_info", setItems sc),
   (go! "namespace_info", namespaceTable sc),
   (go! "compile_unit_info", unitTable sc)]

/-- backend/entry.h:137-184 -/
def entryTable (sc : Scope) : List (Str × (CEntry → Init → Option CEntry)) :=
  [(go! "kind", fun a v => (intOf v).map fun x => { a with kind := signed 8 x }),
   (go! "name", fun a v => (strOf v).map fun x => { a with name := some x }),
   (go! "declaration", fun a v =>
     (intOf v).map fun x => { a with declaration := unsigned 8 x }),
   (go! "parents_count", fun a v =>
     (intOf v).map fun x => { a with parentsCount := signed 32 x }),
   (go! "parents", fun a v => (entryPtrs sc v).map fun x => { a with parents := some x })] ++
  (infoTables sc).map fun t =>
    (t.1, fun a v => (structOf t.2 {} v).map fun x => { a with which := some t.1, info := x })

/-- The compiler on the file, item after item: names must be declared before they are used, an
entry is defined once, a function is defined once; the size of an array is not negative. -/
def compile (sc : Scope) (defs : List (Str × CEntry)) :
    List TopItem → Option (List (Str × CEntry))
  | [] => some defs
  | .declare [.id s] :: rest =>
    if s ∈ sc.funcs then none else compile { sc with entries := s :: sc.entries } defs rest
  | .vaFn [.id f] size :: rest =>
    if 0 ≤ size ∧ f ∉ sc.funcs ∧ f ∉ sc.entries then
      compile { sc with funcs := f :: sc.funcs } defs rest
    else none
  | .define [.id s] init :: rest =>
    if s ∈ sc.funcs ∨ s ∈ defs.map (·.1) then none
    else
      match parseInit init.length init with
      | some (v, []) =>
        (structOf (entryTable sc) {} v).bind fun e =>
          compile { sc with entries := s :: sc.entries } ((s, e) :: defs) rest
      | _ => none
  | _ :: _ => none

/-- The entries of the generated file; `none`: it does not compile. -/
def compileFile (items : List TopItem) : Option (List (Str × CEntry)) :=
  compile ⟨[], []⟩ [] items

end Verif.Emit
