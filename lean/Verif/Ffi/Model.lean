import Verif.Handlers.Model
import Verif.OutcomeFix
import Verif.Heap
/-
Model of examples/c_ffi_call/value_ffi.c: calling a function with stored arguments through
libffi.

Modelled: the libffi type descriptions made for C types and their release, the lists of types and
values handed to libffi, the detour of `va_list` arguments, and the way of the result.  Blocks of
memory are numbered (`Heap`); every request can fail.  libffi itself is a parameter (`Lib`): it
gets what it would read through the pointers it is given.  Simplified: little-endian, Linux; a value object is one block; the contents
of C memory and of the blocks made here are kept apart.
-/
namespace Verif.Ffi
open Verif Verif.Entry Verif.Value Verif.Handlers

/-- libffi's types for scalars (ffi.h). -/
inductive Prim where
  | schar | uchar | sshort | ushort | sint | uint | slong | ulong | float | double | longdouble
  | complexFloat | complexDouble | complexLongdouble | pointer
deriving DecidableEq, Repr

/-- An `ffi_type` made by the code: the number of its block; for a structure also the block of
its `elements`, with the contents of that array (`none`: NULL). -/
inductive FType where
  | prim (b : Nat) (p : Prim)
  | struct (b e : Nat) (size align : Nat) (slots : List (Option FType))

mutual
/-- value_ffi.c:44-58 `_cleanup_ffi_type`. -/
def cleanup : FType → Heap → Outcome Heap
  | .prim b _, h => h.free b
  | .struct b e _ _ slots, h => do
    let h ← cleanupSlots slots h
    let h ← h.free e
    h.free b
/-- value_ffi.c:48-56: the loop runs up to a NULL; behind the array there is none. -/
def cleanupSlots : List (Option FType) → Heap → Outcome Heap
  | [], _ => .ub
  | none :: _, h => .ok h
  | some t :: ts, h => do
    let h ← cleanup t h
    cleanupSlots ts h
end

/-- value_ffi.c:45-47: NULL is accepted. -/
def cleanupOpt : Option FType → Heap → Outcome Heap
  | none, h => .ok h
  | some t, h => cleanup t h

/-- Result of `_val_to_ffi_type`: the code, and what is in `*pp_rtype` (NULL before). -/
abbrev Made := Int × Option FType × Heap

/-- value_ffi.c:67-73, 147-153: a copy of one of libffi's types. -/
def newPrim (p : Prim) (h : Heap) : Made :=
  match h.alloc with
  | (none, h) => (-12, none, h)
  | (some b, h) => (0, some (.prim b p), h)

/-- value_ffi.c:76-92: the base types in the order they are tried. -/
def baseOrder : List (Ty × Prim) :=
  [(.char, .schar), (.uchar, .uchar), (.short, .sshort), (.ushort, .ushort), (.int, .sint), (.uint, .uint), (.long, .slong), (.ulong, .ulong),
   (.llong, .slong), (.ullong, .ulong), (.bool, .uchar), (.float, .float), (.double, .double), (.ldouble, .longdouble),
   (.floatComplex, .complexFloat), (.doubleComplex, .complexDouble), (.ldoubleComplex, .complexLongdouble)]

/-- value_ffi.c:63-93, 338: other base types leave `*pp_rtype` as it is and give 0. -/
def baseLoop (db : Db) (r : Ref) (h : Heap) : List (Ty × Prim) → Outcome Made
  | [] => .ok (0, none, h)
  | (t, p) :: l => do
    if ← isTy db (some r) t then return newPrim p h
    baseLoop db r h l

/-- value_ffi.c:94-116, 338: an enumeration, by its size. -/
def enumType (db : Db) (r : Ref) (h : Heap) : Outcome Made := do
  match ← Outcome.ofLoop (byteSize db (some r) true) with
  | .error _ => return (-14, none, h)
  | .ok n =>
    if n = 1 then return newPrim .schar h
    if n = 2 then return newPrim .sshort h
    if n = 4 then return newPrim .sint h
    if n = 8 then return newPrim .slong h
    return (0, none, h)

/-- value_ffi.c:117-144: a `va_list` argument: a structure that holds a pointer. -/
def vaType (h : Heap) : Outcome Made :=
  match h.alloc with
  | (none, h) => .ok (-12, none, h)
  | (some b, h) =>
    match h.alloc with
    | (none, h) => do
      let h ← h.free b
      return (-12, none, h)
    | (some e, h) =>
      match h.alloc with
      | (none, h) => do
        let h ← h.free e
        let h ← h.free b
        return (-12, none, h)
      | (some p, h) => .ok (0, some (.struct b e 8 8 [some (.prim p .pointer), none]), h)

/-- value_ffi.c:171-186: the first of the largest members of a union. -/
def largest (db : Db) (r : Ref) : Nat → Nat → Option (Ref × UInt64) → Outcome (Except Int (Option Ref))
  | 0, _, best => .ok (.ok (best.map (·.1)))
  | n + 1, i, best => do
    match ← Outcome.ofLoop (byMemberId db (some r) i) with
    | none => return .error (-14)
    | some m =>
      match ← Outcome.ofLoop (byteSize db (some m) true) with
      | .error _ => return .error (-14)
      | .ok sz =>
        match best with
        | none => largest db r n (i + 1) (some (m, sz))
        | some (b, bsz) => largest db r n (i + 1) (if sz > bsz then some (m, sz) else some (b, bsz))

/-- value_ffi.c:236, 260, 292, 332 `elements[i] = x`. -/
def put (slots : List (Option FType)) (i : Nat) (x : Option FType) : Outcome (List (Option FType)) :=
  if i < slots.length then .ok (slots.set i x) else .ub

/-- value_ffi.c:251-255: the largest integer type that fits. -/
def chunk (delta : Nat) : Nat × Prim :=
  if delta ≥ 8 then (8, .slong) else if delta ≥ 4 then (4, .sint) else if delta ≥ 2 then (2, .sshort) else (1, .schar)

theorem chunk_pos (delta : Nat) : 0 < (chunk delta).1 := by
  unfold chunk
  split
  · decide
  · split
    · decide
    · split <;> decide

/-- value_ffi.c:230-256, 279-290: bit-fields are replaced by integers of together `delta` bytes;
`count` is the number of members.  The code, the elements, `memb_id`. -/
def simulate (count delta : Nat) (slots : List (Option FType)) (id : Nat) (h : Heap) : Outcome (Int × List (Option FType) × Nat × Heap) :=
  if _hd : delta = 0 then .ok (0, slots, id, h)
  else
    match h.alloc with
    | (none, h) => do
      let slots ← put slots id none
      return (-12, slots, id, h)
    | (some b, h) => do
      let slots ← put slots id (some (.prim b (chunk delta).2))
      if id + 1 = count + 1 then return (-14, slots, id + 1, h)
      simulate count (delta - (chunk delta).1) slots (id + 1) h
termination_by delta
decreasing_by have := chunk_pos delta; omega

/-- value_ffi.c:226-228: is the member described with bit positions? -/
def isBits (mi : MemberInfo) : Bool := mi.bitOffset.isSome || mi.bitSize.isSome || mi.dataBitOffset.isSome

/-- The state of the loop over the members: `elements`, `memb_id`, the offset of the first of a
row of bit-fields, the heap. -/
structure Fill where
  slots : List (Option FType)
  id : Nat
  start : Option UInt64
  heap : Heap

/-- value_ffi.c:230-258: a member that is no bit-field ends a row of bit-fields. -/
def endBits (count : Nat) (off : UInt64) (f : Fill) : Outcome (Int × Fill) :=
  match f.start with
  | none => .ok (0, f)
  | some s => do
    let (c, slots, id, h) ← simulate count (off - s).toNat f.slots f.id f.heap
    return (c, { slots, id, start := none, heap := h })

/-- value_ffi.c:264-275: a bit-field. -/
def bits (db : Db) (m : Ref) (f : Fill) : Int × Fill :=
  match bitfieldOffsets db (some m) with
  | (c, out) =>
    if c ≠ 0 then (-14, f)
    else
      let byteOffset := match out with | none => 0 | some (o, _, _) => o
      match f.start with
      | none => (0, { f with start := some byteOffset })
      | some _ => (0, f)

mutual
/-- value_ffi.c:61-339 `_val_to_ffi_type`. -/
def ffiType (env : Env) (db : Db) (variadic : Bool) (r : Ref) (h : Heap) : Outcome Made := do
  if (← Outcome.ofLoop (finalOf db (some r) isBase)).isSome then baseLoop db r h baseOrder
  else if (← Outcome.ofLoop (finalOf db (some r) isEnum)).isSome then enumType db r h
  else if env.vaList r then vaType h
  else if (← Outcome.ofLoop (finalOf db (some r) isPointer)).isSome then return newPrim .pointer h
  else
    let struct ← Outcome.ofLoop (finalOf db (some r) isStruct)
    let array ← Outcome.ofLoop (finalOf db (some r) isArray)
    if variadic && (struct.isSome || array.isSome) then return newPrim .pointer h
    else
      match struct with
      | some f => structType env db variadic r f h
      | none =>
        if array.isSome then arrayType env db variadic r h else return (-95, none, h)
partial_fixpoint
/-- value_ffi.c:165-294: structures and unions. -/
def structType (env : Env) (db : Db) (variadic : Bool) (r f : Ref) (h : Heap) : Outcome Made := do
  let count ← Outcome.ofLoop (memberCount db (some r))
  if kind db (some f) = kindOf (.struct .union 0 []) ∧ count > 0 then
    match ← largest db r count.toNat 0 none with
    | .error c => return (c, none, h)
    | .ok none => Outcome.abort
    | .ok (some m) => ffiType env db variadic m h
  else
    match ← Outcome.ofLoop (byteSize db (some r) true) with
    | .error _ => return (-14, none, h)
    | .ok size =>
      match h.alloc with
      | (none, h) => return (-12, none, h)
      | (some b, h) =>
        match h.alloc with
        | (none, h) =>
          let h ← h.free b
          return (-12, none, h)
        | (some e, h) =>
          let (c, fl) ← fillMembers env db variadic r count.toNat 0 { slots := List.replicate (count.toNat + 1) none, id := 0, start := none, heap := h }
          if c ≠ 0 then
            let h ← cleanup (.struct b e size.toNat 0 fl.slots) fl.heap
            return (c, none, h)
          let (c, fl) ← endBits count.toNat size fl
          if c ≠ 0 then
            let h ← cleanup (.struct b e size.toNat 0 fl.slots) fl.heap
            return (c, none, h)
          let slots ← put fl.slots fl.id none
          return (0, some (.struct b e size.toNat 0 slots), fl.heap)
partial_fixpoint
/-- value_ffi.c:208-277: the loop over the members; the code and the state. -/
def fillMembers (env : Env) (db : Db) (variadic : Bool) (r : Ref) (count i : Nat) (f : Fill) : Outcome (Int × Fill) := do
  if i < count then
    match ← Outcome.ofLoop (byMemberId db (some r) i) with
    | none => return (-14, f)
    | some m =>
      match (db m).info with
      | .member mi =>
        if isBits mi then
          let (c, f) := bits db m f
          if c ≠ 0 then return (c, f)
          fillMembers env db variadic r count (i + 1) f
        else
          let (c, f) ← endBits count mi.byteOffset f
          if c ≠ 0 then return (c, f)
          let (c, o, h) ← ffiType env db variadic m f.heap
          if c ≠ 0 then return (-14, { f with heap := h })
          match o with
          | none => fillMembers env db variadic r count (i + 1) { f with id := f.id + 1, heap := h }
          | some t =>
            let slots ← put f.slots f.id (some t)
            fillMembers env db variadic r count (i + 1) { f with slots, id := f.id + 1, heap := h }
      | _ => return (-14, f)
  else return (0, f)
partial_fixpoint
/-- value_ffi.c:295-334: arrays. -/
def arrayType (env : Env) (db : Db) (variadic : Bool) (r : Ref) (h : Heap) : Outcome Made := do
  let count := (← Outcome.ofLoop (elementCount db (some r))).toNat
  match ← Outcome.ofLoop (elementEntry db (some r)) with
  | none => return (-14, none, h)
  | some el =>
    match ← (if count ≠ 0 then Outcome.ofLoop (byteSize db (some r) true) else .ok (.ok 0)) with
    | .error _ => return (-14, none, h)
    | .ok size =>
      match h.alloc with
      | (none, h) => return (-12, none, h)
      | (some b, h) =>
        match h.alloc with
        | (none, h) =>
          let h ← h.free b
          return (-12, none, h)
        | (some e, h) =>
          let (c, slots, h) ← fillElements env db variadic el count 0 (List.replicate (count + 1) none) h
          if c ≠ 0 then
            let h ← cleanup (.struct b e size.toNat 0 slots) h
            return (-14, none, h)
          let slots ← put slots count none
          return (0, some (.struct b e size.toNat 0 slots), h)
partial_fixpoint
/-- value_ffi.c:324-331: the loop over the elements. -/
def fillElements (env : Env) (db : Db) (variadic : Bool) (el : Ref) (count i : Nat) (slots : List (Option FType)) (h : Heap) :
    Outcome (Int × List (Option FType) × Heap) := do
  if i < count then
    let (c, o, h) ← ffiType env db variadic el h
    if c ≠ 0 then return (-14, slots, h)
    match o with
    | none => fillElements env db variadic el count (i + 1) slots h
    | some t =>
      let slots ← put slots i (some t)
      fillElements env db variadic el count (i + 1) slots h
  else return (0, slots, h)
partial_fixpoint
end

/-! ### libffi -/

/-- What libffi reads of a type description. -/
inductive Shape where
  | prim (p : Prim)
  | struct (size align : Nat) (fields : List Shape)

/-- Sizes of libffi's types on x86-64. -/
def primSize : Prim → Nat
  | .schar | .uchar => 1
  | .sshort | .ushort => 2
  | .sint | .uint | .float => 4
  | .slong | .ulong | .double | .complexFloat | .pointer => 8
  | .longdouble | .complexDouble => 16
  | .complexLongdouble => 32

def Shape.bytes : Shape → Nat
  | .prim p => primSize p
  | .struct n _ _ => n

mutual
/-- The description as libffi sees it. -/
def see : FType → Outcome Shape
  | .prim _ p => .ok (.prim p)
  | .struct _ _ size align slots => do return .struct size align (← seeSlots slots)
/-- The elements are those before the first NULL. -/
def seeSlots : List (Option FType) → Outcome (List Shape)
  | [] => .ub
  | none :: _ => .ok []
  | some t :: ts => do
    let s ← see t
    return s :: (← seeSlots ts)
end

/-- libffi looks into the description: NULL is undefined. -/
def seeOpt : Option FType → Outcome Shape
  | none => .ub
  | some t => see t

/-- An argument as it arrives: an object of the given shape and its bytes, or a `va_list` with
the arguments that can be read from it. -/
inductive Arg where
  | object (s : Shape) (bytes : List UInt8)
  | vaList (args : List Arg)

/-- libffi (not part of the repository): does `ffi_prep_cif` / `ffi_prep_cif_var` (the number of fixed arguments is given)
accept the types; and the functions that can be called: from the arguments and memory, the bytes
of the result and memory. -/
structure Lib where
  prep : Option Nat → Shape → List Shape → Bool
  run : Nat → Option Nat → Shape → List Arg → Mem → Outcome (List UInt8 × Mem)
  /-- what is in the rest of an 8-byte result buffer. -/
  rest : List UInt8

/-- What an element of `values` points to: the object at an address, an element of `pvalues` that
holds an address, or one that holds the address of a `va_list`. -/
inductive Src where
  | at (a : Nat)
  | ptr (a : Nat)
  | va (args : List Arg)

/-- libffi reads the argument. -/
def fetch (m : Mem) (s : Shape) : Src → Outcome Arg
  | .at a => do return .object s (← m.load a s.bytes)
  | .ptr a => .ok (.object s (Mem.bytesOf s.bytes a))
  | .va args => .ok (.vaList args)

def fetchAll (m : Mem) : List (Shape × Src) → Outcome (List Arg)
  | [] => .ok []
  | (s, v) :: l => do
    let a ← fetch m s v
    return a :: (← fetchAll m l)

/-! ### Calls -/

/-- value.c:691-700 with value_with_args.c:199-209 and value.c:719-734: a value object for argument `i`,
and its block. -/
def newItem (env : Env) (v : Value) (i : Nat) (h : Heap) : Option (Value × Nat) × Heap :=
  match (env.params v.addr)[i]?.bind fun p => newValue p.entry p.addr with
  | none => (none, h)
  | some p =>
    match h.alloc with
    | (none, h) => (none, h)
    | (some b, h) => (some (p, b), h)

/-- entry.c:617-621 `metac_entry_has_result`. -/
def hasResult (db : Db) (r : Ref) : Outcome Bool := do
  match ← Outcome.ofLoop (finalOf db (some r) isFunc) with
  | none => return false
  | some f =>
    match (db f).info with
    | .subprogram t _ | .subroutine t _ => return t.isSome
    | _ => return false

/-- The filled part of `args` and `values`. -/
abbrev Args := List (Option FType × Src)

/-- value_ffi.c:430, 441, 471, 482, 543: the types made so far are released. -/
def cleanupArgs : Args → Heap → Outcome Heap
  | [], h => .ok h
  | (o, _) :: l, h => do
    let h ← cleanupOpt o h
    cleanupArgs l h

/-- value_ffi.c:489-495, 645-651: where the data of an argument of `...` is. -/
def dotsSrc (db : Db) (p : Value) : Outcome Src := do
  let s ← Outcome.ofLoop (finalOf db (some p.entry) isStruct)
  let a ← Outcome.ofLoop (finalOf db (some p.entry) isArray)
  return if s.isSome || a.isSome then .ptr p.addr else .at p.addr

/-- value_ffi.c:464-497, 623-653: the arguments of `...` (or of a `va_list`).  The code; what is
filled. -/
def fillDots (env : Env) (db : Db) (v : Value) : Nat → Nat → Heap → Outcome (Int × Args × Heap)
  | 0, _, h => .ok (0, [], h)
  | n + 1, i, h =>
    match newItem env v i h with
    | (none, h) => .ok (-14, [], h)
    | (some (p, b), h) => do
      let (c, o, h) ← ffiType env db true p.entry h
      if c ≠ 0 then
        let h ← h.free b
        return (c, [], h)
      let src ← dotsSrc db p
      let h ← h.free b
      let (c, l, h) ← fillDots env db v n (i + 1) h
      return (c, (o, src) :: l, h)

/-- value_ffi.c:423-462: the arguments of the function; `vas` are the `va_list`s already made, with the number of
the argument. -/
def fillFixed (env : Env) (db : Db) (v : Value) : Nat → Nat → List (Nat × List Arg) → Heap → Outcome (Int × Args × Heap)
  | 0, _, _, h => .ok (0, [], h)
  | n + 1, i, vas, h =>
    match newItem env v i h with
    | (none, h) => .ok (-14, [], h)
    | (some (p, b), h) => do
      let (c, o, h) ← ffiType env db false p.entry h
      if c ≠ 0 then
        let h ← h.free b
        return (c, [], h)
      if env.vaList p.entry then
        match vas with
        | [] => Outcome.abort
        | (id, args) :: vas =>
          Outcome.assert (id = i)
          let h ← h.free b
          let (c, l, h) ← fillFixed env db v n (i + 1) vas h
          return (c, (o, .va args) :: l, h)
      else
        let h ← h.free b
        let (c, l, h) ← fillFixed env db v n (i + 1) vas h
        return (c, (o, .at p.addr) :: l, h)

/-- value_ffi.c:519, 530: `ffi_prep_cif` or `ffi_prep_cif_var` with the types. -/
def prepare (lib : Lib) (fixed : Option Nat) (rtype : Option FType) (args : Args) : Outcome (Option (Shape × List Shape)) := do
  let s ← seeOpt rtype
  let ts ← args.mapM fun a => seeOpt a.1
  return if lib.prep fixed s ts then some (s, ts) else none

/-- value_ffi.c:539 `ffi_call`: what the function gives. -/
def run (lib : Lib) (fn : Nat) (fixed : Option Nat) (s : Shape) (ts : List Shape) (args : Args) (m : Mem) : Outcome (List UInt8 × Mem) := do
  let l ← fetchAll m (ts.zip (args.map (·.2)))
  lib.run fn fixed s l m

/-- value_ffi.c:547-559: the bytes of `rc`, low first. -/
def copyResult (m : Mem) (a rc : Nat) : Nat → Outcome Mem
  | 0 => .ok m
  | n + 1 => do
    let m ← m.store a [UInt8.ofNat (rc % 256)]
    copyResult m (a + 1) (rc / 256) n

/-- value_ffi.c:403-420, 599-613: `calloc` of `args`, `values` and `pvalues`.  NULL for the third is not noticed (the
second is tested instead). -/
def threeBlocks (h : Heap) : Outcome (Option (Nat × Nat × Option Nat) × Heap) :=
  match h.alloc with
  | (none, h) => .ok (none, h)
  | (some a, h) =>
    match h.alloc with
    | (none, h) => do
      let h ← h.free a
      return (none, h)
    | (some v, h) =>
      match h.alloc with
      | (p, h) => .ok (some (a, v, p), h)

/-- value_ffi.c:405, 432, 527: a value object, if there is one. -/
def freeOpt : Option Nat → Heap → Outcome Heap
  | none, h => .ok h
  | some b, h => h.free b

/-- value_ffi.c:428-431, 541-544: `free(pvalues); free(values);` the types; `free(args)`. -/
def release (blocks : Option (Nat × Nat × Option Nat)) (args : Args) (h : Heap) : Outcome Heap := do
  match blocks with
  | none => cleanupArgs args h
  | some (a, v, p) =>
    let h ← freeOpt p h
    let h ← h.free v
    let h ← cleanupArgs args h
    h.free a

/-- value_ffi.c:454, 491: is something written to `pvalues`? -/
def usesPvalues : Args → Bool := List.any (p := fun a => match a.2 with | .at _ => false | _ => true)

/-- value_ffi.c:396-421: blocks for `n` arguments; `none`: out of memory. -/
def blocksFor (n : Nat) (h : Heap) : Outcome (Option (Option (Nat × Nat × Option Nat)) × Heap) := do
  if n = 0 then return (some none, h)
  match ← threeBlocks h with
  | (none, h) => return (none, h)
  | (some b, h) => return (some (some b), h)

/-- value_ffi.c:414-415, 454, 491: a NULL `pvalues` is written to. -/
def nullPvalues (blocks : Option (Nat × Nat × Option Nat)) (args : Args) : Bool :=
  match blocks with
  | some (_, _, none) => usesPvalues args
  | _ => false

/-- value_ffi.c:499-560: the result's place, the preparation, the call, the release, the result. -/
def finishCall (lib : Lib) (db : Db) (fn : Nat) (resv : Option Value) (rtype : Option FType) (fixed : Option Nat) (last : Option Nat)
    (blocks : Option (Nat × Nat × Option Nat)) (args : Args) (m : Mem) (h : Heap) : Outcome (Int × Mem × Heap) := do
  match resv with
  | none => do
    let h ← freeOpt last h
    match ← prepare lib fixed rtype args with
    | none =>
      let h ← release blocks args h
      return (-14, m, h)
    | some (s, ts) =>
      let (_, m) ← run lib fn fixed s ts args m
      let h ← release blocks args h
      let h ← cleanupOpt rtype h
      return (0, m, h)
  | some v =>
    match ← Outcome.ofLoop (byteSize db (some v.entry) true) with
    | .error _ =>
      let h ← release blocks args h
      return (-14, m, h)
    | .ok size =>
      Outcome.assert (size < 8 || v.addr ≠ 0)
      let h ← freeOpt last h
      match ← prepare lib fixed rtype args with
      | none =>
        let h ← release blocks args h
        return (-14, m, h)
      | some (s, ts) =>
        let (out, m) ← run lib fn fixed s ts args m
        if size ≥ 8 then
          let m ← m.store v.addr out
          let h ← release blocks args h
          let h ← cleanupOpt rtype h
          return (0, m, h)
        else
          if out.length > 8 then Outcome.ub
          let h ← release blocks args h
          let h ← cleanupOpt rtype h
          let m ← copyResult m v.addr (Mem.le (out ++ lib.rest)) size.toNat
          return (0, m, h)

/-- value_ffi.c:385: is the last parameter the `...`? -/
def isDots (db : Db) (r : Ref) : Bool := match (db r).info with | .param u _ => u | _ => false

/-- value_ffi.c:396-560: the arguments and the call; `n` fixed ones, `d` of `...`. -/
def callWith (lib : Lib) (env : Env) (db : Db) (fn : Nat) (v : Value) (resv : Option Value) (vas : List (Nat × List Arg)) (rtype : Option FType)
    (n : Nat) (dots : Option (Value × Nat)) (m : Mem) (h : Heap) : Outcome (Int × Mem × Heap) := do
  let d := match dots with | none => 0 | some (p, _) => (env.params p.addr).length
  let last := dots.map (·.2)
  match ← blocksFor (n + d) h with
  | (none, h) =>
    let h ← freeOpt last h
    return (-14, m, h)
  | (some blocks, h) =>
    let (c, args, h) ← fillFixed env db v n 0 vas h
    if nullPvalues blocks args then Outcome.ub
    if c ≠ 0 then
      let h ← release blocks args h
      let h ← freeOpt last h
      return (c, m, h)
    match dots with
    | none => finishCall lib db fn resv rtype none none blocks args m h
    | some (p, _) =>
      let (c, more, h) ← fillDots env db p d 0 h
      if nullPvalues blocks more then Outcome.ub
      if c ≠ 0 then
        let h ← release blocks (args ++ more) h
        let h ← freeOpt last h
        return (c, m, h)
      finishCall lib db fn resv rtype (some n) last blocks (args ++ more) m h

/-- value_ffi.c:341-561 `_call`; `v` is the stored call, `resv` the place of the result, `vas` the
`va_list`s made by `_call_wrapper`. -/
def call (lib : Lib) (env : Env) (db : Db) (fn : Nat) (v : Value) (resv : Option Value) (vas : List (Nat × List Arg)) (m : Mem) (h : Heap) :
    Outcome (Int × Mem × Heap) := do
  if !(← hasLoad env db v) || fn = 0 then return (-22, m, h)
  if (← Outcome.ofLoop (finalOf db (some v.entry) isFunc)).isNone then return (-22, m, h)
  let rest (resv : Option Value) (rtype : Option FType) (h : Heap) : Outcome (Int × Mem × Heap) := do
    let n := (env.params v.addr).length
    if (← Outcome.ofLoop (parametersCount db (some v.entry))) < (n : Int) - 1 then return (-14, m, h)
    if n > 0 then
      match ← Outcome.ofLoop (byParameterId db (some v.entry) ((n : Int) - 1)) with
      | none => return (-14, m, h)
      | some q =>
        if isDots db q then
          match newItem env v (n - 1) h with
          | (none, h) => return (-14, m, h)
          | (some p, h) => callWith lib env db fn v resv vas rtype (n - 1) (some p) m h
        else callWith lib env db fn v resv vas rtype n none m h
    else callWith lib env db fn v resv vas rtype 0 none m h
  if ← hasResult db v.entry then
    match resv with
    | none => return (-22, m, h)
    | some w =>
      let (c, rtype, h) ← ffiType env db false w.entry h
      if c ≠ 0 then return (-14, m, h)
      rest (some w) rtype h
  else rest none none h

/-- value_ffi.c:578-677 `_call_wrapper` with 566-576: for every `va_list` argument a call of a
function with `...` through libffi, so that the arguments can be read from a `va_list`. -/
def wrap (lib : Lib) (env : Env) (db : Db) (fn : Nat) (v : Value) (resv : Option Value) : List (Nat × Value) → List (Nat × List Arg) → Mem → Heap →
    Outcome (Int × Mem × Heap)
  | [], vas, m, h => call lib env db fn v resv vas m h
  | (id, p) :: todo, vas, m, h => do
    Outcome.assert (env.vaList p.entry)
    match ← threeBlocks h with
    | (none, h) => return (-14, m, h)
    | (some blocks, h) =>
      let (c, args, h) ← fillDots env db p (env.params p.addr).length 0 h
      if nullPvalues (some blocks) args then Outcome.ub
      if c ≠ 0 then
        let h ← release (some blocks) args h
        return (c, m, h)
      let ts ← args.mapM fun a => seeOpt a.1
      let pointer := Shape.prim .pointer
      if lib.prep (some 6) (.prim .sint) ([pointer, pointer, pointer, .prim .sint, pointer, .prim .sint] ++ ts) then
        let l ← fetchAll m (ts.zip (args.map (·.2)))
        let (c, m, h) ← wrap lib env db fn v resv todo (vas ++ [(id, l)]) m h
        let h ← release (some blocks) args h
        return (c, m, h)
      else
        let h ← release (some blocks) args h
        return (-14, m, h)

/-- value_ffi.c:701-714: are there `va_list` arguments? -/
def countVas (env : Env) (v : Value) : Nat → Nat → Nat → Heap → Outcome (Option Nat × Heap)
  | 0, _, k, h => .ok (some k, h)
  | n + 1, i, k, h =>
    match newItem env v i h with
    | (none, h) => .ok (none, h)
    | (some (p, b), h) => do
      let h ← h.free b
      countVas env v n (i + 1) (if env.vaList p.entry then k + 1 else k) h

/-- value_ffi.c:716-738: the `va_list` arguments with their numbers and their blocks; `false`: failed. -/
def collectVas (env : Env) (v : Value) : Nat → Nat → Heap → Outcome (Bool × List (Nat × Value × Nat) × Heap)
  | 0, _, h => .ok (true, [], h)
  | n + 1, i, h =>
    match newItem env v i h with
    | (none, h) => .ok (false, [], h)
    | (some (p, b), h) =>
      if env.vaList p.entry then do
        let (ok, l, h) ← collectVas env v n (i + 1) h
        return (ok, (i, p, b) :: l, h)
      else do
        let h ← h.free b
        collectVas env v n (i + 1) h

/-- value_ffi.c:745-750: the value objects. -/
def freeAll : List Nat → Heap → Outcome Heap
  | [], h => .ok h
  | b :: bs, h => do
    let h ← h.free b
    freeAll bs h

/-- value_ffi.c:683-754 `metac_value_ffi_call`. -/
def ffiCall (lib : Lib) (env : Env) (db : Db) (v : Option Value) (fn : Nat) (resv : Option Value) (m : Mem) (h : Heap) : Outcome (Int × Mem × Heap) := do
  match v with
  | none => return (-22, m, h)
  | some v =>
    if !(← hasLoad env db v) || fn = 0 then return (-22, m, h)
    if (← Outcome.ofLoop (finalOf db (some v.entry) isFunc)).isNone then return (-22, m, h)
    let n := (env.params v.addr).length
    if (← Outcome.ofLoop (parametersCount db (some v.entry))) < (n : Int) - 1 then return (-14, m, h)
    match ← countVas env v n 0 0 h with
    | (none, h) => return (-14, m, h)
    | (some 0, h) => wrap lib env db fn v resv [] [] m h
    | (some _, h) =>
      match h.alloc with
      | (none, h) => return (-12, m, h)
      | (some t, h) =>
        match ← collectVas env v n 0 h with
        | (false, _, h) => return (-14, m, h)
        | (true, l, h) =>
          let (c, m, h) ← wrap lib env db fn v resv (l.map fun x => (x.1, x.2.1)) [] m h
          let h ← freeAll (l.map fun x => x.2.2) h
          let h ← h.free t
          return (c, m, h)

end Verif.Ffi
