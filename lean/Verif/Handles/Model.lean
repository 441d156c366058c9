import Verif.ParamStorage.Model
import Verif.Value.Model
/-
Model of the objects a client makes and has to release: contexts of tag handlers
(/repo/src/entry_tag.c) and value handles (/repo/src/value.c:702-851).

Objects are blocks of `Verif.Heap`; what a block holds is kept with its number.
-/
namespace Verif.Handles
open Verif Verif.Entry Verif.Value

/-! ### Contexts of tag handlers -/

/-- A string copied with `strdup`: the block and the characters. -/
structure Text where
  block : Nat
  text : Name
deriving DecidableEq, Repr

/-- `strdup` of a string; NULL is not passed by the callers. -/
def strdup (s : Name) (h : Heap) : Option Text × Heap :=
  match h.alloc with
  | (none, h) => (none, h)
  | (some b, h) => (some ⟨b, s⟩, h)

/-- `if (p->field != NULL) free(p->field)`. -/
def freeText (t : Option Text) (h : Heap) : Outcome Heap :=
  match t with
  | none => .ok h
  | some t => h.free t.block

/-- An array allocated with `calloc`: the block and its elements. -/
structure Cases (α : Type) where
  block : Nat
  elems : List α
deriving DecidableEq, Repr

/-- `if (p->p_cases != NULL) free(p->p_cases)`. -/
def freeCases {α : Type} (c : Option (Cases α)) (h : Heap) : Outcome Heap :=
  match c with
  | none => .ok h
  | some c => h.free c.block

/-- entry_tag.c:554, 703: `memcpy(p_cases, arg, case_sz)` into a block of `room` bytes: `arg` is NULL or points to
the caller's array, whose elements have `esz` bytes.  Reading beyond the caller's array or
writing beyond the block is undefined. -/
def copyCases {α : Type} (esz room : Nat) (arg : Option (List α)) (caseSz : Nat) : Outcome (List α) :=
  match arg with
  | none => .ub
  | some xs => if caseSz ≤ xs.length * esz ∧ caseSz ≤ room then .ok (xs.take (caseSz / esz)) else .ub

/-- entry_tag.h:312-314 `struct metac_count_by_context`. -/
structure CountBy where
  block : Nat
  name : Option Text

/-- entry_tag.c:352-365 `metac_new_count_by_context`. -/
def newCountBy (name : Option Name) (h : Heap) : Outcome (Option CountBy × Heap) :=
  match h.alloc with
  | (none, h) => .ok (none, h)
  | (some b, h) =>
    match name with
    | none => .ok (some ⟨b, none⟩, h)
    | some n =>
      match strdup n h with
      | (none, h) => do
        let h ← h.free b
        return (none, h)
      | (some t, h) => .ok (some ⟨b, some t⟩, h)

/-- entry_tag.c:367-376 `metac_count_by_context_delete`. -/
def deleteCountBy (c : Option CountBy) (h : Heap) : Outcome Heap :=
  match c with
  | none => .ok h
  | some c => do
    let h ← freeText c.name h
    h.free c.block

/-- entry_tag.h `struct metac_container_of_context`. -/
structure ContainerOf where
  block : Nat
  offset : UInt64
  entry : Option Ref

/-- entry_tag.c:470-482 `metac_new_container_of_context`. -/
def newContainerOf (offset : UInt64) (entry : Option Ref) (h : Heap) : Option ContainerOf × Heap :=
  match h.alloc with
  | (none, h) => (none, h)
  | (some b, h) => (some ⟨b, offset, entry⟩, h)

/-- entry_tag.c:483-489 `metac_container_of_context_delete`. -/
def deleteContainerOf (c : Option ContainerOf) (h : Heap) : Outcome Heap :=
  match c with
  | none => .ok h
  | some c => h.free c.block

/-- entry_tag.h:370-374 `struct metac_union_member_select_by_case`; the name stays the
caller's (its address). -/
structure UnionCase where
  val : Int
  name : Option Nat
  id : Int
deriving DecidableEq, Repr

/-- entry_tag.h:376-387 `struct metac_union_member_select_by_context`; `constant` is `mode`. -/
structure UnionSelect where
  block : Nat
  constant : Bool
  name : Option Text
  count : Int
  cases : Option (Cases UnionCase)
  permanent : Int

/-- `sizeof` of the case and of the context (x86-64). -/
def unionCaseSize : Nat := 24
def unionContextSize : Nat := 40

/-- entry_tag.c:515-525 `metac_new_union_member_permanent_selection`. -/
def newPermanent (id : Int) (h : Heap) : Option UnionSelect × Heap :=
  match h.alloc with
  | (none, h) => (none, h)
  | (some b, h) => (some ⟨b, true, none, 0, none, id⟩, h)

/-- entry_tag.c:543-555: the cases; the block has room for contexts, not for cases.
Simplification: fewer than 2^31 cases (`cases_count` is an `int`). -/
def newUnionCases (b : Nat) (name : Option Text) (arg : Option (List UnionCase)) (caseSz : Nat) (h : Heap) :
    Outcome (Option UnionSelect × Heap) :=
  if caseSz > 0 then
    if caseSz % unionCaseSize ≠ 0 then .abort else
    match h.alloc with
    | (none, h) => do
      let h ← freeText name h
      let h ← h.free b
      return (none, h)
    | (some cb, h) => do
      let xs ← copyCases unionCaseSize (caseSz / unionCaseSize * unionContextSize) arg caseSz
      return (some ⟨b, false, name, (caseSz / unionCaseSize : Nat), some ⟨cb, xs⟩, 0⟩, h)
  else .ok (some ⟨b, false, name, 0, none, 0⟩, h)

/-- entry_tag.c:527-557 `metac_new_union_member_select_by_context`. -/
def newUnionSelect (name : Option Name) (arg : Option (List UnionCase)) (caseSz : Nat) (h : Heap) :
    Outcome (Option UnionSelect × Heap) :=
  match h.alloc with
  | (none, h) => .ok (none, h)
  | (some b, h) =>
    match name with
    | none => newUnionCases b none arg caseSz h
    | some n =>
      match strdup n h with
      | (none, h) => do
        let h ← h.free b
        return (none, h)
      | (some t, h) => newUnionCases b (some t) arg caseSz h

/-- entry_tag.c:559-572 `metac_union_member_select_by_context_delete`. -/
def deleteUnionSelect (c : Option UnionSelect) (h : Heap) : Outcome Heap :=
  match c with
  | none => .ok h
  | some c => do
    let h ← freeText c.name h
    let h ← freeCases c.cases h
    h.free c.block

/-- entry_tag.h `struct metac_ptr_cast_case`. -/
structure PtrCase where
  val : Int
  entry : Option Ref
deriving DecidableEq, Repr

/-- entry_tag.h `struct metac_ptr_cast_context`. -/
structure PtrCast where
  block : Nat
  countName : Option Text
  selector : Option Text
  count : Int
  cases : Option (Cases PtrCase)

/-- `sizeof(struct metac_ptr_cast_case)` (x86-64). -/
def ptrCaseSize : Nat := 16

/-- entry_tag.c:689-704: the cases (fewer than 2^31 of them). -/
def newPtrCases (b : Nat) (countName selector : Option Text) (arg : Option (List PtrCase)) (caseSz : Nat) (h : Heap) :
    Outcome (Option PtrCast × Heap) :=
  if caseSz > 0 then
    if caseSz % ptrCaseSize ≠ 0 then .abort else
    match h.alloc with
    | (none, h) => do
      let h ← freeText selector h
      let h ← freeText countName h
      let h ← h.free b
      return (none, h)
    | (some cb, h) => do
      let xs ← copyCases ptrCaseSize (caseSz / ptrCaseSize * ptrCaseSize) arg caseSz
      return (some ⟨b, countName, selector, (caseSz / ptrCaseSize : Nat), some ⟨cb, xs⟩⟩, h)
  else .ok (some ⟨b, countName, selector, 0, none⟩, h)

/-- entry_tag.c:679-688: the copy of the selector name. -/
def newPtrSelector (b : Nat) (countName : Option Text) (selector : Name) (arg : Option (List PtrCase)) (caseSz : Nat) (h : Heap) :
    Outcome (Option PtrCast × Heap) :=
  match strdup selector h with
  | (none, h) => do
    let h ← freeText countName h
    let h ← h.free b
    return (none, h)
  | (some t, h) => newPtrCases b countName (some t) arg caseSz h

/-- entry_tag.c:657-706 `metac_new_ptr_cast_context`. -/
def newPtrCast (countName selector : Option Name) (arg : Option (List PtrCase)) (caseSz : Nat) (h : Heap) :
    Outcome (Option PtrCast × Heap) :=
  match selector with
  | none => .ok (none, h)
  | some sel =>
    match h.alloc with
    | (none, h) => .ok (none, h)
    | (some b, h) =>
      match countName with
      | none => newPtrSelector b none sel arg caseSz h
      | some n =>
        match strdup n h with
        | (none, h) => do
          let h ← h.free b
          return (none, h)
        | (some t, h) => newPtrSelector b (some t) sel arg caseSz h

/-- entry_tag.c:708-724 `metac_ptr_cast_context_delete`. -/
def deletePtrCast (c : Option PtrCast) (h : Heap) : Outcome Heap :=
  match c with
  | none => .ok h
  | some c => do
    let h ← freeText c.selector h
    let h ← freeText c.countName h
    let h ← freeCases c.cases h
    h.free c.block

/-! ### Entries and value handles -/

/-- A pointer to an entry: of the type database, or a dynamically allocated one with its
block and contents. -/
inductive EntryPtr where
  | static (r : Ref)
  | dyn (block : Nat) (contents : Entry)

/-- entry.c:15-18 `metac_entry_is_dynamic`: reads the entry, which is undefined if it was
freed.  The flag is what distinguishes the two sorts of pointers. -/
def isDynamic (e : Option EntryPtr) (h : Heap) : Outcome Bool :=
  match e with
  | none => .ok false
  | some (.static _) => .ok false
  | some (.dyn b _) => if h.live b then .ok true else .ub

/-- entry.c:20-29 `metac_new_entry` with 9-13: a copy of the contents.  A copy of an entry of
the database is taken with `db`. -/
def newEntry (db : Db) (e : Option EntryPtr) (h : Heap) : Outcome (Option EntryPtr × Heap) :=
  match e with
  | none => .ok (none, h)
  | some e =>
    match h.alloc with
    | (none, h) => .ok (none, h)
    | (some b, h) =>
      match e with
      | .static r => .ok (some (.dyn b (db r)), h)
      | .dyn b' c => if h.live b' then .ok (some (.dyn b c), h) else .ub

/-- entry.c:70-76 `metac_entry_delete`. -/
def deleteEntry (e : Option EntryPtr) (h : Heap) : Outcome Heap := do
  if ← isDynamic e h then
    match e with
    | some (.dyn b _) => h.free b
    | _ => .ok h
  else .ok h

/-- value.c `struct metac_value`: the block of the handle, the entry, the address. -/
structure Handle where
  block : Nat
  entry : Option EntryPtr
  addr : Nat

/-- value.c:702-717 `metac_init_value` in block `b`; `none` if the copy failed. -/
def initValue (db : Db) (b : Nat) (e : Option EntryPtr) (addr : Nat) (h : Heap) : Outcome (Option Handle × Heap) := do
  if ← isDynamic e h then
    match ← newEntry db e h with
    | (none, h) => return (none, h)
    | (some c, h) => return (some ⟨b, some c, addr⟩, h)
  else return (some ⟨b, e, addr⟩, h)

/-- value.c:719-734 `metac_new_value`; address 0 is NULL. -/
def newHandle (db : Db) (e : Option EntryPtr) (addr : Nat) (h : Heap) : Outcome (Option Handle × Heap) :=
  if addr = 0 then .ok (none, h) else
  match h.alloc with
  | (none, h) => .ok (none, h)
  | (some b, h) => do
    match ← initValue db b e addr h with
    | (none, h) => do
      let h ← h.free b
      return (none, h)
    | (some v, h) => return (some v, h)

/-- value.c:774-777 `metac_value_entry`, value.c:779-782 `metac_value_addr`: NULL for a NULL handle. -/
def handleEntry (v : Option Handle) : Option EntryPtr := v.bind (·.entry)
def handleAddr (v : Option Handle) : Nat := match v with | some v => v.addr | none => 0

/-- value.c:784-788 `metac_new_value_from_value`. -/
def fromHandle (db : Db) (v : Option Handle) (h : Heap) : Outcome (Option Handle × Heap) :=
  newHandle db (handleEntry v) (handleAddr v) h

/-- value.c:790-797 `metac_value_delete`: the handle is not checked. -/
def deleteHandle (v : Option Handle) (h : Heap) : Outcome Heap :=
  match v with
  | none => .ub
  | some v => do
    if !h.live v.block then .ub else
    if ← isDynamic v.entry h then
      let h ← deleteEntry v.entry h
      h.free v.block
    else h.free v.block

/-- value.c:741-772 `metac_new_element_count_value` and entry.c:31-67: what is to be made
(the contents of the array entry and the address) is `elementCountValue` of
`Verif.Value`; here the objects are made: the new entry, the handle with its own copy of
it, and the new entry is deleted again.  `made`: NULL, or contents and address. -/
def countHandle (db : Db) (made : Option (Entry × Nat)) (h : Heap) : Outcome (Option Handle × Heap) :=
  match made with
  | none => .ok (none, h)
  | some (c, addr) =>
    match h.alloc with
    | (none, h) => .ok (none, h)
    | (some b, h) => do
      let (v, h) ← newHandle db (some (.dyn b c)) addr h
      let h ← deleteEntry (some (.dyn b c)) h
      return (v, h)

/-- value.c:800-807 `metac_new_value_with_call_params`; `addrOf` is the address of a block.
The storage is not released if the handle cannot be made. -/
def newWithParams (db : Db) (addrOf : Nat → Nat) (e : Option EntryPtr) (h : Heap) :
    Outcome (Option (Handle × ParamStorage.Sto) × Heap) :=
  match ParamStorage.newStorage h with
  | (none, h) => .ok (none, h)
  | (some st, h) => do
    match ← newHandle db e (addrOf st.block) h with
    | (none, h) => return (none, h)
    | (some v, h) => return (some (v, st), h)

/-- value.c:809-813 `metac_value_with_call_params_delete`; `st` is the storage at the address
of the handle. -/
def deleteWithParams (v : Option (Handle × ParamStorage.Sto)) (h : Heap) : Outcome Heap :=
  match v with
  | none => deleteHandle none h
  | some (v, st) => do
    let h ← deleteHandle (some v) h
    ParamStorage.delete (some st) h

/-- value.c:815-843 `metac_new_value_with_call_result`: the entry is of the database; `load`
answers `metac_entry_has_parameter_load`.  The answer has the handle and the block of the
result, which is filled with zeros.  The result of `calloc` is not tested, but
`metac_new_value` refuses NULL. -/
def newWithResult (db : Db) (addrOf : Nat → Nat) (load : Ref → Bool) (e : Option Ref) (h : Heap) :
    Outcome (Option (Handle × Nat × Nat) × Heap) :=
  match e with
  | none => .ok (none, h)
  | some e =>
    if !load e then .ok (none, h) else do
    match ← Outcome.ofLoop (finalOf db (some e) isFunc) with
    | none => return (none, h)
    | some _ =>
      match ← Outcome.ofLoop (resultType db (some e)) with
      | none => return (none, h)
      | some t =>
        match ← Outcome.ofLoop (byteSize db (some t) true) with
        | .error _ => return (none, h)
        | .ok size =>
          if size = 0 then return (none, h)
          match h.alloc with
          | (none, h) => do
            let (_, h) ← newHandle db (some (.static t)) 0 h
            return (none, h)
          | (some b, h) => do
            match ← newHandle db (some (.static t)) (addrOf b) h with
            | (none, h) => do
              let h ← h.free b
              return (none, h)
            | (some v, h) => return (some (v, b, size.toNat), h)

/-- value.c:845-851 `metac_value_with_call_result_delete`; `b` is the block at the address of
the handle. -/
def deleteWithResult (v : Option (Handle × Nat)) (h : Heap) : Outcome Heap :=
  match v with
  | none => .ok h
  | some (v, b) => do
    if !h.live v.block then .ub else
    let h ← h.free b
    deleteHandle (some v) h

end Verif.Handles
