import Verif.Common
/-
Model of the type descriptions (include/metac/backend/entry.h) and of the functions that
walk them (src/entry.c).

Entries refer to each other through pointers and may be cyclic (a list node contains a
pointer to its own type), so a description is a map from addresses to entries, not a tree.
Loops that follow `type` pointers are written with `partial_fixpoint`: the outer `Option`
is `none` exactly when the loop does not end.
Simplification: every non-NULL pointer in a description leads to an entry.
-/
namespace Verif.Entry
open Verif

/-- A C string. -/
abbrev Name := List UInt8
/-- Address of an entry (never NULL). -/
abbrev Ref := Nat

/-- include/metac/const.h:26-31: the qualifier kinds. -/
inductive Qual where
  | const | volatile | restrict | mutable | shared | packed
deriving DecidableEq, Repr

/-- include/metac/reflect.h `metac_quals_t`. -/
structure Quals where
  const : Bool := false
  volatile : Bool := false
  restrict : Bool := false
  mutable : Bool := false
  shared : Bool := false
  packed : Bool := false
deriving DecidableEq, Repr

/-- include/metac/const.h:38-40. -/
inductive StructKind where
  | struct | union | class
deriving DecidableEq, Repr

/-- backend/entry.h:54-63 `struct metac_member_info`; `none` is a NULL pointer (alignment
left out). -/
structure MemberInfo where
  type : Option Ref
  byteOffset : UInt64 := 0
  byteSize : Option UInt64 := none
  dataBitOffset : Option UInt64 := none
  bitOffset : Option UInt64 := none
  bitSize : Option UInt64 := none
deriving DecidableEq, Repr

/-- The union of backend/entry.h:149-183, by kind.  Members and parameters are entries of
their own: the list holds their addresses.  Left out: alignment, linkage, hierarchy items,
stride, level, lower bound. -/
inductive Info where
  | typedef (type : Option Ref)
  | qual (q : Qual) (type : Option Ref)
  | base (size : UInt64) (enc : Nat)
  | pointer (type : Option Ref)
  | reference (rvalue : Bool) (size : UInt64) (type : Option Ref)
  | enumeration (size : UInt64) (enc : Nat) (enumerators : List (Name × Int))
  | array (type : Option Ref) (count : Int)
  | member (m : MemberInfo)
  | struct (k : StructKind) (size : UInt64) (members : List Ref)
  | var (type : Option Ref)
  | param (unspecified : Bool) (type : Option Ref)
  | subprogram (type : Option Ref) (params : List Ref)
  | subroutine (type : Option Ref) (params : List Ref)
  | unspecifiedType | lexBlock | nspace | compileUnit
deriving DecidableEq, Repr

/-- backend/entry.h:137-184 `struct metac_entry`. -/
structure Entry where
  info : Info
  name : Option Name := none
  declaration : Bool := false
  parentsCount : Int := 0
  parents : List Ref := []
deriving DecidableEq, Repr

/-- A set of type descriptions: address to entry. -/
abbrev Db := Ref → Entry

/-- include/metac/const.h:16-45: the numeric kinds. -/
def kindOf : Info → Int
  | .typedef _ => 0
  | .base .. => 1
  | .pointer _ => 2
  | .enumeration .. => 3
  | .subroutine .. => 4
  | .array .. => 5
  | .qual .const _ => 6
  | .qual .volatile _ => 7
  | .qual .restrict _ => 8
  | .qual .mutable _ => 9
  | .qual .shared _ => 10
  | .qual .packed _ => 11
  | .reference false .. => 12
  | .reference true .. => 13
  | .unspecifiedType => 14
  | .member _ => 15
  | .struct .struct .. => 16
  | .struct .union .. => 17
  | .struct .class .. => 18
  | .var _ => 19
  | .param .. => 20
  | .subprogram .. => 21
  | .lexBlock => 22
  | .nspace => 23
  | .compileUnit => 24

/-- entry.c:78-81 `metac_entry_kind`: METAC_KND_invalid for NULL. -/
def kind (db : Db) : Option Ref → Int
  | none => -1
  | some p => kindOf (db p).info

/-- entry.c:83-86 `metac_entry_name`: NULL for NULL. -/
def entryName (db : Db) : Option Ref → Option Name
  | none => none
  | some p => (db p).name

/-- entry.c:88-91 `metac_entry_parent_count`. -/
def parentCount (db : Db) : Option Ref → Int
  | none => 0
  | some p => (db p).parentsCount

/-- entry.c:93-97 `metac_entry_parent_entry`; the outer `none` is a read after the end of the array
of parents. -/
def parentEntry (db : Db) (p : Option Ref) (id : Int) : Option (Option Ref) :=
  match p with
  | none => some none
  | some r =>
    if id < 0 ∨ id ≥ (db r).parentsCount then some none else
    ((db r).parents[id.toNat]?).map some

/-- entry.c:101-155: the loop of `metac_entry_byte_size`; `mult` is the product of the array
counts so far (64-bit arithmetic). -/
def byteSizeLoop (db : Db) (p : Option Ref) (mult : UInt64) : Option (Except Int UInt64) :=
  match p with
  | none => some (.error (-14))
  | some r =>
    match (db r).info with
    | .base size _ => some (.ok (size * mult))
    | .enumeration size _ _ => some (.ok (size * mult))
    | .pointer _ => some (.ok (8 * mult))
    | .struct _ size _ => some (.ok (size * mult))
    | .reference _ size _ => some (.ok (size * mult))
    | .var t => byteSizeLoop db t mult
    | .param _ t => byteSizeLoop db t mult
    | .member m => byteSizeLoop db m.type mult
    | .typedef t => byteSizeLoop db t mult
    | .qual _ t => byteSizeLoop db t mult
    | .array t count => if count ≤ 0 then some (.error (-14)) else byteSizeLoop db t (mult * UInt64.ofInt count)
    | _ => some (.error (-14))
partial_fixpoint

/-- entry.c:99-155 `metac_entry_byte_size`; `out` tells whether `p_sz` is non-NULL. -/
def byteSize (db : Db) (p : Option Ref) (out : Bool) : Option (Except Int UInt64) :=
  if out then byteSizeLoop db p 1 else some (.error (-22))

/-- entry.c:194-199: the qualifier flags are or-ed. -/
def Quals.add (qs : Quals) : Qual → Quals
  | .const => { qs with const := true }
  | .volatile => { qs with volatile := true }
  | .restrict => { qs with restrict := true }
  | .mutable => { qs with mutable := true }
  | .shared => { qs with shared := true }
  | .packed => { qs with packed := true }

/-- entry.c:165-209: the loop of `metac_entry_final_entry`: the returned entry and what is
written to `*p_quals` (`none`: nothing is written). -/
def finalLoop (db : Db) (p : Option Ref) (quals : Quals) : Option (Option Ref × Option Quals) :=
  match p with
  | none => some (none, none)
  | some r =>
    match (db r).info with
    | .typedef t => finalLoop db t quals
    | .var t => finalLoop db t quals
    | .param unspecified t => if unspecified then some (some r, none) else finalLoop db t quals
    | .member m => finalLoop db m.type quals
    | .qual q t => finalLoop db t (quals.add q)
    | _ => some (some r, some quals)
partial_fixpoint

/-- entry.c:162-210 `metac_entry_final_entry`. -/
def finalEntry (db : Db) (p : Option Ref) : Option (Option Ref × Option Quals) :=
  match p with
  | none => some (none, none)
  | some r => finalLoop db (some r) {}

/-- entry.c:212-220, 284-292, 321-332, 457-465, 485-493, 524-534: the final entry if it is
of the wanted sort, else NULL. -/
def finalOf (db : Db) (p : Option Ref) (want : Info → Bool) : Option (Option Ref) :=
  match p with
  | none => some none
  | some r =>
    match finalEntry db (some r) with
    | none => none
    | some (none, _) => some none
    | some (some f, _) => some (if want (db f).info then some f else none)

def isBase : Info → Bool | .base .. => true | _ => false
def isPointer : Info → Bool | .pointer _ => true | _ => false
def isStruct : Info → Bool | .struct .. => true | _ => false
def isArray : Info → Bool | .array .. => true | _ => false
def isEnum : Info → Bool | .enumeration .. => true | _ => false
def isFunc : Info → Bool | .subprogram .. => true | .subroutine .. => true | _ => false

/-! ### Members -/

/-- the member entries of a struct, union or class entry. -/
def membersOf : Info → List Ref
  | .struct _ _ ms => ms
  | _ => []

/-- entry.c:347-351 `metac_entry_member_count`. -/
def memberCount (db : Db) (p : Option Ref) : Option Int := do
  match ← finalOf db p isStruct with
  | none => return -22
  | some f => return (membersOf (db f).info).length

/-- entry.c:356-361, 564-577: the loop over the named items. -/
def nameLoop (db : Db) (name : Name) (items : List Ref) (i : Nat) : Int :=
  match items with
  | [] => -2
  | m :: ms => if (db m).name = some name then i else nameLoop db name ms (i + 1)

/-- entry.c:353-363 `metac_entry_member_name_to_id` (name not NULL). -/
def memberNameToId (db : Db) (p : Option Ref) (name : Name) : Option Int := do
  match ← finalOf db p isStruct with
  | none => return -22
  | some f => return nameLoop db name (membersOf (db f).info) 0

/-- item `id` of an array, if in range. -/
def item (items : List Ref) (id : Int) : Option Ref :=
  if id < 0 ∨ id ≥ items.length then none else items[id.toNat]?

/-- entry.c:365-370 `metac_entry_by_member_id`. -/
def byMemberId (db : Db) (p : Option Ref) (id : Int) : Option (Option Ref) := do
  match ← finalOf db p isStruct with
  | none => return none
  | some f => return item (membersOf (db f).info) id

/-- include/metac/reflect.h `metac_entry_id_t`: a name or, if it is NULL, a number. -/
structure EntryId where
  n : Option Name
  i : Int
deriving DecidableEq, Repr

/-- entry.c:373-386: one step of the path. -/
def memberStep (db : Db) (p : Option Ref) (id : EntryId) : Option (Option Ref) := do
  match p with
  | none => return none
  | some r =>
    match ← finalOf db (some r) isStruct with
    | none => return none
    | some f =>
      match id.n with
      | none => byMemberId db (some f) id.i
      | some n =>
        let i ← memberNameToId db (some f) n
        if i < 0 then return none else byMemberId db (some f) i

/-- entry.c:372-392 `metac_entry_by_member_ids`. -/
def byMemberIds (db : Db) (p : Option Ref) (final : Bool) (ids : List EntryId) : Option (Option Ref) := do
  match ids with
  | [] =>
    match p with
    | none => return none
    | some r => if final then return (← finalEntry db (some r)).1 else return some r
  | id :: ids =>
    match ← memberStep db p id with
    | none => return none
    | some q => byMemberIds db (some q) final ids

/-- entry.c:421-455 `metac_entry_member_bitfield_offsets`: return code and the values
written to the three outputs (`none`: nothing written); 64-bit arithmetic. -/
def bitfieldOffsets (db : Db) (p : Option Ref) : Int × Option (UInt64 × UInt64 × UInt64) :=
  match p with
  | none => (-22, none)
  | some r =>
    match (db r).info with
    | .member m =>
      match m.bitOffset with
      | some bitOffset =>
        let byteSize := m.byteSize.getD 0
        if byteSize = 0 then (-22, none)
        else
          let bitSize := m.bitSize.getD 0
          let data := (m.byteOffset + byteSize) * 8 - (bitOffset + bitSize)
          (0, some (data >>> 3, data &&& 7, bitSize))
      | none =>
        match m.dataBitOffset with
        | some data => (0, some (data >>> 3, data &&& 7, m.bitSize.getD 0))
        | none => (0, none)
    | _ => (-22, none)

/-! ### Arrays and enumerations -/

/-- conversion of a 64-bit signed value to `int`. -/
def toInt32 (v : Int) : Int := Int.bmod v (2 ^ 32)

/-- entry.c:471-475 `metac_entry_element_count`: the 64-bit count is returned as `int`. -/
def elementCount (db : Db) (p : Option Ref) : Option Int := do
  match ← finalOf db p isArray with
  | none => return -22
  | some f =>
    match (db f).info with
    | .array _ count => return toInt32 count
    | _ => return -22

/-- entry.c:477-483 `metac_entry_element_entry`. -/
def elementEntry (db : Db) (p : Option Ref) : Option (Option Ref) := do
  match ← finalOf db p isArray with
  | none => return none
  | some f =>
    match (db f).info with
    | .array t _ => return t
    | _ => return none

/-- entry.c:313-319 `metac_entry_pointer_entry`. -/
def pointerEntry (db : Db) (p : Option Ref) : Option (Option Ref) := do
  match ← finalOf db p isPointer with
  | none => return none
  | some f =>
    match (db f).info with
    | .pointer t => return t
    | _ => return none

/-- the enumerators of an enumeration entry. -/
def enumerators : Info → List (Name × Int)
  | .enumeration _ _ es => es
  | _ => []

/-- entry.c:503-507: the loop of `metac_entry_enumeration_to_name`. -/
def enumLoop (es : List (Name × Int)) (v : Int) : Option Name :=
  match es with
  | [] => none
  | (n, c) :: es => if c = v then some n else enumLoop es v

/-- entry.c:499-509 `metac_entry_enumeration_to_name`. -/
def enumerationToName (db : Db) (p : Option Ref) (v : Int) : Option (Option Name) := do
  match ← finalOf db p isEnum with
  | none => return none
  | some f => return enumLoop (enumerators (db f).info) v

/-- entry.c:511-515 `metac_entry_enumeration_info_size`. -/
def enumerationInfoSize (db : Db) (p : Option Ref) : Option Int := do
  match ← finalOf db p isEnum with
  | none => return 0
  | some f => return (enumerators (db f).info).length

/-- entry.c:517-522 `metac_entry_enumeration_info`. -/
def enumerationInfo (db : Db) (p : Option Ref) (id : Int) : Option (Option (Name × Int)) := do
  match ← finalOf db p isEnum with
  | none => return none
  | some f =>
    let es := enumerators (db f).info
    if id < 0 ∨ id ≥ es.length then return none else return es[id.toNat]?

/-! ### Functions and parameters -/

/-- the parameters of a function entry. -/
def paramsOf : Info → List Ref
  | .subprogram _ ps => ps
  | .subroutine _ ps => ps
  | _ => []

/-- entry.c:548-557 `metac_entry_parameters_count`. -/
def parametersCount (db : Db) (p : Option Ref) : Option Int := do
  match ← finalOf db p isFunc with
  | none => return -22
  | some f => return (paramsOf (db f).info).length

/-- entry.c:559-580 `metac_entry_paremeter_name_to_id`. -/
def parameterNameToId (db : Db) (p : Option Ref) (name : Name) : Option Int := do
  match ← finalOf db p isFunc with
  | none => return -22
  | some f =>
    let count ← parametersCount db p
    if count < 0 then return -14
    return nameLoop db name (paramsOf (db f).info) 0

/-- entry.c:582-593 `metac_entry_by_paremeter_id`. -/
def byParameterId (db : Db) (p : Option Ref) (id : Int) : Option (Option Ref) := do
  match ← finalOf db p isFunc with
  | none => return none
  | some f => return item (paramsOf (db f).info) id

/-- entry.c:599-610: the step of `metac_entry_by_parameter_ids`. -/
def parameterStep (db : Db) (f : Ref) (id : EntryId) : Option (Option Ref) :=
  match id.n with
  | none => byParameterId db (some f) id.i
  | some n => do
    let i ← parameterNameToId db (some f) n
    if i < 0 then pure none else byParameterId db (some f) i

/-- entry.c:595-615 `metac_entry_by_parameter_ids`. -/
def byParameterIds (db : Db) (p : Option Ref) (final : Bool) (id : EntryId) : Option (Option Ref) := do
  match p with
  | none => return none
  | some r =>
    match ← finalOf db (some r) isFunc with
    | none => return none
    | some f =>
      match ← parameterStep db f id with
      | none => return none
      | some q => if final then return (← finalEntry db (some q)).1 else return some q

/-- entry.c:623-627 `metac_entry_result_type` (the `type` pointer is the first field of both
`subprogram_info` and `subroutine_type_info`). -/
def resultType (db : Db) (p : Option Ref) : Option (Option Ref) := do
  match ← finalOf db p isFunc with
  | none => return none
  | some f =>
    match (db f).info with
    | .subprogram t _ => return t
    | .subroutine t _ => return t
    | _ => return none

/-! ### Base types and new entries -/

/-- entry.c:222-243 `_entry_check_base_type` on a base type entry: 0 or -EINVAL; a base type
without a name aborts (assert).  On the platform modelled `long complex double` differs from
`complex double` (the `sizeof` comparison of lines 228-232 is false). -/
def checkBase (e : Entry) (name : Name) (enc : Nat) (size : UInt64) : Outcome Int :=
  match e.info with
  | .base bsize benc =>
    match e.name with
    | none => .abort
    | some n => .ok (if n = name ∧ (benc = 0 ∨ benc = enc) ∧ (bsize = 0 ∨ bsize = size) then 0 else -22)
  | _ => .ok (-22)

/-- entry.c:273-282 `metac_entry_check_base_type`. -/
def checkBaseType (db : Db) (p : Option Ref) (name : Name) (enc : Nat) (size : UInt64) : Option (Outcome Int) := do
  match ← finalOf db p isBase with
  | none => return .ok (-22)
  | some f => return checkBase (db f) name enc size

/-- entry.c:31-64 `metac_new_element_count_entry`: the contents of the new array entry
(allocation assumed to succeed), or NULL. -/
def newElementCountEntry (db : Db) (p : Option Ref) (count : Int) : Option (Option Entry) := do
  match p with
  | none => return none
  | some r =>
    match (← finalEntry db (some r)).1 with
    | none => return none
    | some f =>
      let t ← match (db f).info with
        | .array .. => elementEntry db (some f)
        | .pointer _ => pointerEntry db (some f)
        | _ => some none
      match t with
      | none => return none
      | some t => return some { info := .array (some t) count }

end Verif.Entry
