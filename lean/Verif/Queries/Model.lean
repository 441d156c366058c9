import Verif.Value.Model
/-
Model of the functions of /repo/src/entry.c, value.c and value_base_type.c that answer what a
type or a value is: base type, pointer, struct, array, enumeration, function, member,
parameter, or a particular base type; and of the small accessors beside them.

As in `Verif.Entry.Model` the outer `Option` of a function on descriptions is `none` exactly
when the loop over the `type` links does not end.  None of these functions takes the memory as
an argument: they do not use it.
-/
namespace Verif.Queries
open Verif Verif.Entry Verif.Value

/-! ### Questions about a type -/

/-- entry.c:245-247 `metac_entry_is_base_type`. -/
def isBaseType (db : Db) (p : Option Ref) : Option Bool := do
  return (← finalOf db p isBase).isSome

/-- entry.c:249-253 `metac_entry_base_type_name`. -/
def baseTypeName (db : Db) (p : Option Ref) : Option (Option Name) := do
  match ← finalOf db p isBase with
  | none => return none
  | some f => return entryName db (some f)

/-- entry.c:255-262 `metac_entry_base_type_byte_size` (output pointer not NULL). -/
def baseTypeByteSize (db : Db) (p : Option Ref) : Option (Except Int UInt64) := do
  match ← finalOf db p isBase with
  | none => return .error (-22)
  | some f =>
    match (db f).info with
    | .base n _ => return .ok n
    | _ => return .error (-22)

/-- entry.c:264-271 `metac_entry_base_type_encoding` (output pointer not NULL). -/
def baseTypeEncoding (db : Db) (p : Option Ref) : Option (Except Int Nat) := do
  match ← finalOf db p isBase with
  | none => return .error (-22)
  | some f =>
    match (db f).info with
    | .base _ e => return .ok e
    | _ => return .error (-22)

/-- entry.c:294-296 `metac_entry_is_pointer`. -/
def isPointerType (db : Db) (p : Option Ref) : Option Bool := do
  return (← finalOf db p isPointer).isSome

/-- entry.c:298-302 `metac_entry_is_void_pointer`. -/
def isVoidPointer (db : Db) (p : Option Ref) : Option Bool := do
  match p with
  | none => return false
  | some r =>
    match ← finalOf db (some r) isPointer with
    | none => return false
    | some f =>
      match (db f).info with
      | .pointer t => return t.isNone
      | _ => return false

/-- entry.c:304-311 `metac_entry_is_declaration_pointer`. -/
def isDeclarationPointer (db : Db) (p : Option Ref) : Option Bool := do
  match p with
  | none => return false
  | some r =>
    match ← finalOf db (some r) isPointer with
    | none => return false
    | some f =>
      match (db f).info with
      | .pointer (some t) => return (db t).declaration
      | _ => return false

/-- entry.c:343-345 `metac_entry_has_members`. -/
def hasMembers (db : Db) (p : Option Ref) : Option Bool := do
  return (← finalOf db p isStruct).isSome

/-- entry.c:394-397 `metac_entry_is_member`. -/
def isMember (db : Db) (p : Option Ref) : Bool :=
  match p with
  | none => false
  | some r => kind db (some r) = 15

/-- entry.c:399-403 `metac_entry_member_entry`. -/
def memberEntry (db : Db) (p : Option Ref) : Option Ref :=
  match p with
  | none => none
  | some r =>
    match (db r).info with
    | .member m => m.type
    | _ => none

/-- entry.c:405-416 `metac_entry_member_raw_location_info` (output pointer not NULL): offset,
size of the unit, DWARF 4 bit offset, DWARF 3 bit offset, number of bits. -/
def rawLocation (db : Db) (p : Option Ref) :
    Except Int (UInt64 × Option UInt64 × Option UInt64 × Option UInt64 × Option UInt64) :=
  match p with
  | none => .error (-22)
  | some r =>
    match (db r).info with
    | .member m => .ok (m.byteOffset, m.byteSize, m.dataBitOffset, m.bitOffset, m.bitSize)
    | _ => .error (-22)

/-- entry.c:467-469 `metac_entry_has_elements`. -/
def hasElements (db : Db) (p : Option Ref) : Option Bool := do
  return (← finalOf db p isArray).isSome

/-- entry.c:495-497 `metac_entry_is_enumeration`. -/
def isEnumeration (db : Db) (p : Option Ref) : Option Bool := do
  return (← finalOf db p isEnum).isSome

/-- entry.c:536-538 `metac_entry_has_parameters`. -/
def hasParameters (db : Db) (p : Option Ref) : Option Bool := do
  return (← finalOf db p isFunc).isSome

/-- entry.c:617-621 `metac_entry_has_result`. -/
def hasResult (db : Db) (p : Option Ref) : Option Bool := do
  match ← finalOf db p isFunc with
  | none => return false
  | some f =>
    match (db f).info with
    | .subprogram t _ => return t.isSome
    | .subroutine t _ => return t.isSome
    | _ => return false

/-- entry.c:629-632 `metac_entry_is_parameter`. -/
def isParameter (db : Db) (p : Option Ref) : Bool :=
  match p with
  | none => false
  | some r => kind db (some r) = 20

/-- entry.c:634-637 `metac_entry_is_unspecified_parameter`. -/
def isUnspecifiedParameter (db : Db) (p : Option Ref) : Bool :=
  match p with
  | none => false
  | some r =>
    match (db r).info with
    | .param u _ => u
    | _ => false

/-- entry.c:655-660 `metac_entry_parameter_entry`. -/
def parameterEntry (db : Db) (p : Option Ref) : Option Ref :=
  match p with
  | none => none
  | some r =>
    match (db r).info with
    | .param false t => t
    | _ => none

/-! ### The same questions about a value -/

/-- value.c:774-777 `metac_value_entry`. -/
def valueEntry (v : Option Value) : Option Ref := v.map (·.entry)

/-- value.c:264-272 `_value_with_base_type_info`. -/
def valueWithBase (db : Db) (v : Option Value) : Option (Option Ref) := do
  match v with
  | none => return none
  | some v =>
    match (← finalEntry db (some v.entry)).1 with
    | none => return none
    | some f => if kind db (some f) ≠ 1 then return none else return some f

/-- value.c:274-276 `metac_value_is_base_type`. -/
def valueIsBaseType (db : Db) (v : Option Value) : Option Bool := do
  return (← valueWithBase db v).isSome

/-- value.c:380-388 `_value_with_array_info`. -/
def valueWithArray (db : Db) (v : Option Value) : Option (Option Ref) := do
  match v with
  | none => return none
  | some v =>
    match (← finalEntry db (some v.entry)).1 with
    | none => return none
    | some f => if kind db (some f) ≠ 5 then return none else return some f

/-- value.c:390-392 `metac_value_has_elements`. -/
def valueHasElements (db : Db) (v : Option Value) : Option Bool := do
  return (← valueWithArray db v).isSome

/-- value.c:394-398 `metac_value_element_count`. -/
def valueElements (db : Db) (v : Option Value) : Option Int := do
  match ← valueWithArray db v with
  | none => return -22
  | some f => elementCount db (some f)

/-- value.c:415-426 `_value_with_struct_info`. -/
def valueWithStruct (db : Db) (v : Option Value) : Option (Option Ref) := do
  match v with
  | none => return none
  | some v =>
    match (← finalEntry db (some v.entry)).1 with
    | none => return none
    | some f =>
      if kind db (some f) ≠ 16 ∧ kind db (some f) ≠ 17 ∧ kind db (some f) ≠ 18 then return none else return some f

/-- value.c:428-430 `metac_value_has_members`. -/
def valueHasMembers (db : Db) (v : Option Value) : Option Bool := do
  return (← valueWithStruct db v).isSome

/-- value.c:432-434 `metac_value_member_count`. -/
def valueMemberCount (db : Db) (v : Option Value) : Option Int := do
  memberCount db (← valueWithStruct db v)

/-- value.c:451-459 `_value_with_enumeration_info`. -/
def valueWithEnum (db : Db) (v : Option Value) : Option (Option Ref) := do
  match v with
  | none => return none
  | some v =>
    match (← finalEntry db (some v.entry)).1 with
    | none => return none
    | some f => if kind db (some f) ≠ 3 then return none else return some f

/-- value.c:461-463 `metac_value_is_enumeration`. -/
def valueIsEnumeration (db : Db) (v : Option Value) : Option Bool := do
  return (← valueWithEnum db v).isSome

/-- value.c:465-468 `metac_value_enumeration_info_size`. -/
def valueEnumerationInfoSize (db : Db) (v : Option Value) : Option Int := do
  enumerationInfoSize db (← valueWithEnum db v)

/-- value.c:470-473 `metac_value_enumeration_info`. -/
def valueEnumerationInfo (db : Db) (v : Option Value) (id : Int) : Option (Option (Name × Int)) := do
  enumerationInfo db (← valueWithEnum db v) id

/-- value.c:510-513 `metac_value_enumeration_to_name`. -/
def valueEnumerationToName (db : Db) (v : Option Value) (var : Int) : Option (Option Name) := do
  enumerationToName db (← valueWithEnum db v) var

/-- value.c:590-598 `_value_with_pointer_info`. -/
def valueWithPointer (db : Db) (v : Option Value) : Option (Option Ref) := do
  match v with
  | none => return none
  | some v =>
    match (← finalEntry db (some v.entry)).1 with
    | none => return none
    | some f => if kind db (some f) ≠ 2 then return none else return some f

/-- value.c:600-602 `metac_value_is_pointer`. -/
def valueIsPointer (db : Db) (v : Option Value) : Option Bool := do
  return (← valueWithPointer db v).isSome

/-- value.c:604-607 `metac_value_is_void_pointer`. -/
def valueIsVoidPointer (db : Db) (v : Option Value) : Option Bool := do
  isVoidPointer db (← valueWithPointer db v)

/-- value.c:609-612 `metac_value_is_declaration_pointer`. -/
def valueIsDeclarationPointer (db : Db) (v : Option Value) : Option Bool := do
  isDeclarationPointer db (← valueWithPointer db v)

/-- value.c:237-242 `metac_value_kind` (a value always has an entry). -/
def valueKind (db : Db) (v : Option Value) : Int :=
  match v with
  | none => -1
  | some v => kind db (some v.entry)

/-- value.c:244-249 `metac_value_name`. -/
def valueName (db : Db) (v : Option Value) : Option Name :=
  match v with
  | none => none
  | some v => entryName db (some v.entry)

/-- value.c:251-262 `metac_value_final_kind`: kind and qualifiers; a value without an address
fails the assertion. -/
def valueFinalKind (db : Db) (v : Option Value) : Option (Outcome (Int × Option Quals)) := do
  match v with
  | none => return .ok (-1, none)
  | some v =>
    if v.addr = 0 then return .abort
    match ← finalEntry db (some v.entry) with
    | (none, q) => return .ok (-1, q)
    | (some f, q) => return .ok (kind db (some f), q)

/-- value.c:278-290 `metac_value_check_base_type`. -/
def valueCheckBaseType (db : Db) (v : Option Value) (name : Name) (enc : Nat) (size : UInt64) : Option (Outcome Int) := do
  match valueEntry v with
  | none => return .ok (-22)
  | some r => checkBaseType db (some r) name enc size

/-- value_base_type.c:66-116: `metac_value_is_<type>`. -/
def valueIsTy (db : Db) (v : Option Value) (t : Ty) : Outcome Bool := isTy db (valueEntry v) t

end Verif.Queries
