import Verif.Bitfield.Model
/-
Model of /repo/src/value.c (values: typed access to memory) and of
/repo/src/value_base_type.c.

A value is a type description and an address; memory is `Mem`.  Allocation of the value
objects themselves is not modelled (assumed to succeed), nor are dynamic entries copied:
descriptions are immutable.  Output pointers are assumed non-NULL.  Platform: x86-64 Linux,
`char` signed, little-endian.
-/
namespace Verif.Value
open Verif Verif.Entry

/-- value.c:232-235 `struct metac_value`. -/
structure Value where
  entry : Ref
  addr : Nat
deriving DecidableEq, Repr

/-- value_base_type.c: the base types with typed access functions. -/
inductive Ty where
  | bool | char | uchar | short | ushort | int | uint | long | ulong | llong | ullong
  | float | double | ldouble | floatComplex | doubleComplex | ldoubleComplex
deriving DecidableEq, Repr

/-- Name bytes. -/
def nm (l : List Char) : Name := l.map fun c => UInt8.ofNat c.toNat

/-- value_base_type.c:13-64: name, encoding and size checked for each type (`char`: the first
of its two encodings). -/
def desc : Ty → Name × Nat × Nat
  | .char => (nm ['c', 'h', 'a', 'r'], 7, 1)
  | .uchar => (nm ['u', 'n', 's', 'i', 'g', 'n', 'e', 'd', ' ', 'c', 'h', 'a', 'r'], 9, 1)
  | .short => (nm ['s', 'h', 'o', 'r', 't', ' ', 'i', 'n', 't'], 6, 2)
  | .ushort => (nm ['u', 'n', 's', 'i', 'g', 'n', 'e', 'd', ' ', 's', 'h', 'o', 'r', 't', ' ', 'i', 'n', 't'], 8, 2)
  | .int => (nm ['i', 'n', 't'], 6, 4)
  | .uint => (nm ['u', 'n', 's', 'i', 'g', 'n', 'e', 'd', ' ', 'i', 'n', 't'], 8, 4)
  | .long => (nm ['l', 'o', 'n', 'g', ' ', 'i', 'n', 't'], 6, 8)
  | .ulong => (nm ['u', 'n', 's', 'i', 'g', 'n', 'e', 'd', ' ', 'l', 'o', 'n', 'g', ' ', 'i', 'n', 't'], 8, 8)
  | .llong => (nm ['l', 'o', 'n', 'g', ' ', 'l', 'o', 'n', 'g', ' ', 'i', 'n', 't'], 6, 8)
  | .ullong => (nm ['u', 'n', 's', 'i', 'g', 'n', 'e', 'd', ' ', 'l', 'o', 'n', 'g', ' ', 'l', 'o', 'n', 'g', ' ', 'i', 'n', 't'], 8, 8)
  | .bool => (nm ['_', 'B', 'o', 'o', 'l'], 3, 1)
  | .float => (nm ['f', 'l', 'o', 'a', 't'], 5, 4)
  | .double => (nm ['d', 'o', 'u', 'b', 'l', 'e'], 5, 8)
  | .ldouble => (nm ['l', 'o', 'n', 'g', ' ', 'd', 'o', 'u', 'b', 'l', 'e'], 5, 16)
  | .floatComplex => (nm ['c', 'o', 'm', 'p', 'l', 'e', 'x', ' ', 'f', 'l', 'o', 'a', 't'], 4, 8)
  | .doubleComplex => (nm ['c', 'o', 'm', 'p', 'l', 'e', 'x', ' ', 'd', 'o', 'u', 'b', 'l', 'e'], 4, 16)
  | .ldoubleComplex => (nm ['l', 'o', 'n', 'g', ' ', 'c', 'o', 'm', 'p', 'l', 'e', 'x', ' ', 'd', 'o', 'u', 'b', 'l', 'e'], 4, 32)

/-- What the platform decides: the bit-field parameters, `==` on floating-point objects
given as the numbers their bytes hold, and what is left of the bytes of a `long double` or
`long double complex` when it is passed by value (padding bytes are not preserved). -/
structure Plat extends Bitfield.Cfg where
  feq : Ty → Nat → Nat → Bool
  byValue : Ty → Nat → Nat

def isFloating : Ty → Bool
  | .float | .double | .ldouble | .floatComplex | .doubleComplex | .ldoubleComplex => true
  | _ => false

/-- `a == b` in C for two objects of a type. -/
def Plat.eq (cfg : Plat) (t : Ty) (a b : Nat) : Bool := if isFloating t then cfg.feq t a b else a == b

/-- An object passed by value. -/
def Plat.passed (cfg : Plat) (t : Ty) (v : Nat) : Nat := if t = .ldouble ∨ t = .ldoubleComplex then cfg.byValue t v else v

/-! ### Base types -/

/-- value.c:103-112 `_entry_bitfield_supported`. -/
def bitfieldSupported (enc : Nat) : Bool := enc = 3 ∨ enc = 9 ∨ enc = 8 ∨ enc = 7 ∨ enc = 6

/-- value.c:309-323, 356-370: is the described object a bit-field member?  Its byte offset. -/
def bitfieldMember (e : Entry) : Option UInt64 :=
  match e.info with
  | .member mi => if mi.bitOffset = none ∧ mi.bitSize = none ∧ mi.dataBitOffset = none then none else some mi.byteOffset
  | _ => none

/-- value.c:292-332 `metac_value_base_type`: the value read (the number its bytes hold), or an error. -/
def baseType (cfg : Plat) (db : Db) (m : Mem) (v : Option Value) (name : Name) (enc size : Nat) : Outcome (Except Int Nat) :=
  match v with
  | none => .ok (.error (-22))
  | some v =>
    if v.addr = 0 then .abort
    else do
      match ← Outcome.ofLoop (finalEntry db (some v.entry)) with
      | (none, _) => return .error (-22)
      | (some f, _) =>
        let c ← (← Outcome.ofLoop (checkBaseType db (some f) name enc (UInt64.ofNat size)))
        if c ≠ 0 then return .error c
        match bitfieldMember (db v.entry) with
        | none =>
          let n ← m.loadN v.addr size
          return .ok n
        | some off =>
          if bitfieldSupported enc then
            if v.addr < off.toNat then .ub
            else Bitfield.read cfg.toCfg db m v.entry (v.addr - off.toNat) size (enc = 7 ∨ enc = 6)
          else return .error (-95)

/-- value.c:334-378 `metac_value_set_base_type`: return code and memory. -/
def setBaseType (cfg : Plat) (db : Db) (m : Mem) (v : Option Value) (name : Name) (enc var size : Nat) : Outcome (Int × Mem) :=
  match v with
  | none => .ok (-22, m)
  | some v =>
    if v.addr = 0 then .abort
    else do
      match ← Outcome.ofLoop (finalEntry db (some v.entry)) with
      | (none, _) => return (-22, m)
      | (some f, quals) =>
        if (quals.getD {}).const then return (-1, m)
        let c ← (← Outcome.ofLoop (checkBaseType db (some f) name enc (UInt64.ofNat size)))
        if c ≠ 0 then return (c, m)
        match bitfieldMember (db v.entry) with
        | none =>
          let m ← m.storeN v.addr size var
          return (0, m)
        | some off =>
          if bitfieldSupported enc then
            if v.addr < off.toNat then .ub
            else Bitfield.write cfg.toCfg db m v.entry (v.addr - off.toNat) var size
          else return (-95, m)

/-- value_base_type.c:13-64 `metac_entry_is_<type>`. -/
def isTy (db : Db) (p : Option Ref) (t : Ty) : Outcome Bool := do
  let (name, enc, size) := desc t
  let c ← (← Outcome.ofLoop (checkBaseType db p name enc (UInt64.ofNat size)))
  if c = 0 then return true
  if t = .char then
    let c ← (← Outcome.ofLoop (checkBaseType db p name 9 (UInt64.ofNat size)))
    return c = 0
  return false

/-- value_base_type.c:118-169 `metac_value_<type>`. -/
def getTy (cfg : Plat) (db : Db) (m : Mem) (v : Option Value) (t : Ty) : Outcome (Except Int Nat) := do
  let (name, enc, size) := desc t
  match ← baseType cfg db m v name enc size with
  | .ok n => return .ok n
  | .error e =>
    if t = .char then
      match ← baseType cfg db m v name 9 size with
      | .ok n => return .ok n
      | .error _ => return .error (-14)
    else return .error e

/-- value_base_type.c:171-222 `metac_value_set_<type>`; the argument is passed by value. -/
def setTy (cfg : Plat) (db : Db) (m : Mem) (v : Option Value) (t : Ty) (var : Nat) : Outcome (Int × Mem) := do
  let (name, enc, size) := desc t
  let (c, m) ← setBaseType cfg db m v name enc (cfg.passed t var) size
  if c = 0 then return (0, m)
  if t = .char then
    let (c, m) ← setBaseType cfg db m v name 9 (cfg.passed t var) size
    if c = 0 then return (0, m) else return (-14, m)
  return (c, m)

/-- The number an integer object holds: two's complement for the signed types. -/
def numVal (t : Ty) (n : Nat) : Int :=
  match t with
  | .char => Mem.signed 1 n
  | .short => Mem.signed 2 n
  | .int => Mem.signed 4 n
  | .long => Mem.signed 8 n
  | .llong => Mem.signed 8 n
  | _ => n

/-- value_base_type.c:238-248: the types tried by `metac_value_num`, in order. -/
def numOrder : List Ty := [.bool, .char, .uchar, .short, .ushort, .int, .uint, .long, .ulong, .llong, .ullong]

/-- value_base_type.c:281-297, 326-342: the types tried by equality and copy, in order. -/
def allOrder : List Ty := [.char, .uchar, .short, .ushort, .int, .uint, .long, .ulong, .llong, .ullong, .bool,
  .float, .double, .ldouble, .floatComplex, .doubleComplex, .ldoubleComplex]

/-- A `_Bool` object holding anything but 0 or 1 may not be used. -/
def useOk (t : Ty) (n : Nat) : Bool := t ≠ .bool ∨ n ≤ 1

/-! ### Enumerations -/

/-- value.c:475-508 `metac_value_enumeration`: the object is read as a signed number. -/
def enumeration (db : Db) (m : Mem) (v : Option Value) : Outcome (Except Int Int) :=
  match v with
  | none => .ok (.error (-22))
  | some v => do
    match ← Outcome.ofLoop (finalOf db (some v.entry) isEnum) with
    | none => return .error (-22)
    | some f =>
      if v.addr = 0 then return .error (-22)
      match ← Outcome.ofLoop (byteSize db (some f) true) with
      | .error _ => return .error (-14)
      | .ok size =>
        if size = 1 ∨ size = 2 ∨ size = 4 ∨ size = 8 then
          let n ← m.loadN v.addr size.toNat
          return .ok (Mem.signed size.toNat n)
        else return .error (-95)

/-- value.c:515-546 `metac_value_set_enumeration`: the object is written with the low bytes
of the 64-bit value. -/
def setEnumeration (db : Db) (m : Mem) (v : Option Value) (var : Int) : Outcome (Int × Mem) :=
  match v with
  | none => .ok (-22, m)
  | some v => do
    match ← Outcome.ofLoop (finalOf db (some v.entry) isEnum) with
    | none => return (-22, m)
    | some f =>
      if v.addr = 0 then return (-22, m)
      match ← Outcome.ofLoop (byteSize db (some f) true) with
      | .error _ => return (-14, m)
      | .ok size =>
        if size = 1 ∨ size = 2 ∨ size = 4 ∨ size = 8 then
          let m ← m.storeN v.addr size.toNat (Mem.unsigned size.toNat var)
          return (0, m)
        else return (-95, m)

/-- value.c:548-557 `metac_value_equal_enumeration`. -/
def equalEnumeration (db : Db) (m : Mem) (v1 v2 : Option Value) : Outcome Int := do
  match ← enumeration db m v1 with
  | .error _ => return -14
  | .ok a =>
    match ← enumeration db m v2 with
    | .error _ => return -14
    | .ok b => return if a = b then 1 else 0

/-- value.c:559-568 `metac_value_copy_enumeration`: success, and memory. -/
def copyEnumeration (db : Db) (m : Mem) (src dst : Option Value) : Outcome (Bool × Mem) := do
  match ← enumeration db m src with
  | .error _ => return (false, m)
  | .ok a =>
    let (c, m) ← setEnumeration db m dst a
    return (c = 0, m)

/-- Decimal digits of a natural number (C `%u` family). -/
def decimal (n : Nat) : List UInt8 := if h : n < 10 then [UInt8.ofNat (48 + n)] else decimal (n / 10) ++ [UInt8.ofNat (48 + n % 10)]
termination_by n

/-- C `%PRIi64`. -/
def decimalInt (v : Int) : List UInt8 := if v < 0 then 45 :: decimal v.natAbs else decimal v.natAbs

/-- value.c:571-588 `metac_value_enumeration_string`. -/
def enumerationString (db : Db) (m : Mem) (v : Option Value) : Outcome (Option (List UInt8)) :=
  match v with
  | none => .ok none
  | some v => do
    match ← Outcome.ofLoop (finalOf db (some v.entry) isEnum) with
    | none => return none
    | some _ =>
      match ← enumeration db m (some v) with
      | .error _ => return none
      | .ok n =>
        match ← Outcome.ofLoop (enumerationToName db (some v.entry) n) with
        | some name => return some name
        | none => return some (decimalInt n)

/-! ### Numbers, equality and copy -/

/-- value_base_type.c:228-248: the sequence of `_read_`. -/
def numLoop (cfg : Plat) (db : Db) (m : Mem) (v : Option Value) : List Ty → Outcome (Option Int)
  | [] => .ok none
  | t :: ts => do
    if ← isTy db (v.map (·.entry)) t then
      match ← getTy cfg db m v t with
      | .ok n => if useOk t n then return some (toInt32 (numVal t n)) else .ub
      | .error _ => numLoop cfg db m v ts
    else numLoop cfg db m v ts

/-- value_base_type.c:224-259 `metac_value_num`. -/
def num (cfg : Plat) (db : Db) (m : Mem) (v : Option Value) : Outcome (Except Int Int) := do
  match ← numLoop cfg db m v numOrder with
  | some n => return .ok n
  | none =>
    match ← enumeration db m v with
    | .ok n => return .ok (toInt32 n)
    | .error _ => return .error (-95)

/-- value_base_type.c:265-297: the sequence of `_cmp_`. -/
def equalLoop (cfg : Plat) (db : Db) (m : Mem) (v1 v2 : Value) : List Ty → Outcome Int
  | [] => .ok (-95)
  | t :: ts => do
    if ← isTy db (some v1.entry) t then
      if !(← isTy db (some v2.entry) t) then return -14
      match ← getTy cfg db m (some v1) t with
      | .error _ => return -14
      | .ok a =>
        match ← getTy cfg db m (some v2) t with
        | .error _ => return -14
        | .ok b => if useOk t a && useOk t b then return (if cfg.eq t a b then 1 else 0) else .ub
    else equalLoop cfg db m v1 v2 ts

/-- value_base_type.c:261-302 `metac_value_equal_base_type`. -/
def equalBaseType (cfg : Plat) (db : Db) (m : Mem) (v1 v2 : Option Value) : Outcome Int :=
  match v1, v2 with
  | some v1, some v2 => equalLoop cfg db m v1 v2 allOrder
  | _, _ => .ok (-22)

/-- value_base_type.c:309-342: the sequence of `_copy_`. -/
def copyLoop (cfg : Plat) (db : Db) (m : Mem) (src dst : Value) : List Ty → Outcome (Bool × Mem)
  | [] => .ok (false, m)
  | t :: ts => do
    if ← isTy db (some src.entry) t then
      if !(← isTy db (some dst.entry) t) then return (false, m)
      match ← getTy cfg db m (some src) t with
      | .error _ => return (false, m)
      | .ok a =>
        if useOk t a then
          let (c, m) ← setTy cfg db m (some dst) t a
          return (c = 0, m)
        else .ub
    else copyLoop cfg db m src dst ts

/-- value_base_type.c:304-346 `metac_value_copy_base_type`: success, and memory. -/
def copyBaseType (cfg : Plat) (db : Db) (m : Mem) (src dst : Option Value) : Outcome (Bool × Mem) :=
  match src, dst with
  | some src, some dst => copyLoop cfg db m src dst allOrder
  | _, _ => .ok (false, m)

/-! ### Elements, members, pointers -/

/-- value.c:719-734 `metac_new_value`: NULL addresses are refused. -/
def newValue (entry : Ref) (addr : Nat) : Option Value := if addr = 0 then none else some ⟨entry, addr⟩

/-- value.c:394-398 `metac_value_element_count`. -/
def valueElementCount (db : Db) (v : Option Value) : Outcome Int :=
  match v with
  | none => .ok (-22)
  | some v => do
    match ← Outcome.ofLoop (finalOf db (some v.entry) isArray) with
    | none => return -22
    | some f => Outcome.ofLoop (elementCount db (some f))

/-- value.c:400-413 `metac_new_value_by_element_id`; the product is computed in 64 bits. -/
def elementValue (db : Db) (v : Option Value) (id : Int) : Outcome (Option Value) :=
  match v with
  | none => .ok none
  | some v => do
    match ← Outcome.ofLoop (finalOf db (some v.entry) isArray) with
    | none => return none
    | some f =>
      let count ← Outcome.ofLoop (elementCount db (some f))
      if count < 0 then return none
      if id < 0 ∨ id ≥ count then return none
      match ← Outcome.ofLoop (elementEntry db (some f)) with
      | none => return none
      | some e =>
        match ← Outcome.ofLoop (byteSize db (some e) true) with
        | .error _ => return none
        | .ok size => return newValue e (v.addr + (size * UInt64.ofInt id).toNat)

/-- value.c:436-449 `metac_new_value_by_member_id`. -/
def memberValue (db : Db) (v : Option Value) (id : Int) : Outcome (Option Value) :=
  match v with
  | none => .ok none
  | some v => do
    match ← Outcome.ofLoop (finalOf db (some v.entry) isStruct) with
    | none => return none
    | some f =>
      let count ← Outcome.ofLoop (memberCount db (some f))
      if id < 0 ∨ id ≥ count then return none
      match ← Outcome.ofLoop (byMemberId db (some f) id) with
      | none => return none
      | some e =>
        match (db e).info with
        | .member mi => return newValue e (v.addr + mi.byteOffset.toNat)
        | _ => return none

/-- value.c:614-622 `metac_value_pointer`. -/
def pointer (db : Db) (m : Mem) (v : Option Value) : Outcome (Except Int Nat) :=
  match v with
  | none => .ok (.error (-22))
  | some v => do
    match ← Outcome.ofLoop (finalOf db (some v.entry) isPointer) with
    | none => return .error (-22)
    | some _ =>
      if v.addr = 0 then return .error (-22)
      let n ← m.loadN v.addr 8
      return .ok n

/-- value.c:624-631 `metac_value_set_pointer`. -/
def setPointer (db : Db) (m : Mem) (v : Option Value) (addr : Nat) : Outcome (Int × Mem) :=
  match v with
  | none => .ok (-22, m)
  | some v => do
    match ← Outcome.ofLoop (finalOf db (some v.entry) isPointer) with
    | none => return (-22, m)
    | some _ =>
      if v.addr = 0 then return (-22, m)
      let m ← m.storeN v.addr 8 addr
      return (0, m)

/-- value.c:633-642 `metac_value_equal_pointer`. -/
def equalPointer (db : Db) (m : Mem) (v1 v2 : Option Value) : Outcome Int := do
  match ← pointer db m v1 with
  | .error _ => return -14
  | .ok a =>
    match ← pointer db m v2 with
    | .error _ => return -14
    | .ok b => return if a = b then 1 else 0

/-- value.c:645-654 `metac_value_copy_pointer`. -/
def copyPointer (db : Db) (m : Mem) (src dst : Option Value) : Outcome (Bool × Mem) := do
  match ← pointer db m src with
  | .error _ => return (false, m)
  | .ok a =>
    let (c, m) ← setPointer db m dst a
    return (c = 0, m)

/-- value.c:741-772 `metac_new_element_count_value`: contents of the new array description,
and the address of the new value. -/
def elementCountValue (db : Db) (m : Mem) (v : Option Value) (count : Int) : Outcome (Option (Entry × Nat)) :=
  match v with
  | none => .ok none
  | some v =>
    if v.addr = 0 then .ok none
    else do
      match ← Outcome.ofLoop (finalEntry db (some v.entry)) with
      | (none, _) => return none
      | (some f, _) =>
        let addr ← match (db f).info with
          | .array .. => pure (some v.addr)
          | .pointer _ => do
            let n ← m.loadN v.addr 8
            pure (if n = 0 then none else some n)
          | _ => pure none
        match addr with
        | none => return none
        | some addr =>
          match ← Outcome.ofLoop (newElementCountEntry db (some v.entry) count) with
          | none => return none
          | some e => return some (e, addr)

/-! ### Loop detection -/

/-- value.c:62-77: the loop of `metac_value_level_introduced_loop` over the outer levels
(`none`: no value at that level); `target` is the current pointer's target. -/
def loopLevels (db : Db) (m : Mem) (target : Nat) : List (Option Value) → Int → Outcome Int
  | [], _ => .ok (-1)
  | none :: vs, l => loopLevels db m target vs (l + 1)
  | some v :: vs, l => do
    match ← Outcome.ofLoop (finalOf db (some v.entry) isPointer) with
    | none => loopLevels db m target vs (l + 1)
    | some _ =>
      match ← pointer db m (some v) with
      | .error _ => loopLevels db m target vs (l + 1)
      | .ok a => if target = a then return l else loopLevels db m target vs (l + 1)

/-- value.c:44-78 `metac_value_level_introduced_loop`; the argument is the stack of values
being walked, innermost first (level 0); the iterator itself is modelled in
`Verif.Iterator`. -/
def introducedLoop (db : Db) (m : Mem) : List (Option Value) → Outcome Int
  | [] => .ok (-1)
  | [_] => .ok (-1)
  | none :: _ => .abort
  | some v :: outer => do
    match ← Outcome.ofLoop (finalOf db (some v.entry) isPointer) with
    | none => return -1
    | some _ =>
      match ← pointer db m (some v) with
      | .error _ => .abort
      | .ok a => loopLevels db m a outer 1

end Verif.Value
