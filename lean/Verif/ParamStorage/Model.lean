import Verif.Heap
/-
Model of the parameter storage of /repo/src/value_with_args.c:16-209.

Lists built with the `LIST_` macros are Lean lists (the macros themselves are modelled
in `Verif.BsdList`); blocks are identified by the allocator's numbers.
-/
namespace Verif.ParamStorage
open Verif

/-- What the storage needs to know about a `metac_entry_t`: its identity (type
information), whether it is dynamically allocated and whether it describes `...` or a
`va_list` parameter (src/entry.c:639-653; allocations inside that test are not modelled). -/
structure EntryArg where
  id : Nat
  dyn : Bool
  va : Bool
deriving DecidableEq, Repr

/-- value_with_args.c:16-22 `struct metac_parameter`.  `node` is the block of the list
node itself, `dyn` the block of the private copy of a dynamic entry.
`buf`: `size != 0`, `addr` is `block` holding `bytes` (`size` is their number);
`nested`: `size == 0`, `addr` is a nested storage (`inner` its block, `none` for NULL,
then its fields `list`, `list_size`, `p_last_added_param`, see `Sto`). -/
inductive Item where
  | buf (node : Nat) (entry : EntryArg) (dyn : Option Nat) (block : Nat) (bytes : List UInt8)
  | nested (node : Nat) (entry : EntryArg) (dyn : Option Nat) (inner : Option Nat)
      (items : List Item) (size : Nat) (last : Option Nat)
deriving Repr

/-- value_with_args.c:25-29 `struct metac_parameter_storage`. -/
structure Sto where
  block : Nat
  items : List Item
  size : Nat
  last : Option Nat

def Item.node : Item → Nat
  | .buf n _ _ _ _ => n
  | .nested n _ _ _ _ _ _ => n

/-- `LIST_INSERT_AFTER(p, new)` where `p` is the node `k`; `none` if there is no such
node in the list (a dangling pointer). -/
def insertAfter (k : Nat) (new : Item) : List Item → Option (List Item)
  | [] => none
  | x :: xs => if x.node = k then some (x :: new :: xs) else (insertAfter k new xs).map (x :: ·)

/-- value_with_args.c:31-40 `metac_new_parameter_storage`. -/
def newStorage (h : Heap) : Option Sto × Heap :=
  match h.alloc with
  | (none, h) => (none, h)
  | (some b, h) => (some ⟨b, [], 0, none⟩, h)

/-- value_with_args.c:87-123 `_parameter_storage_append_by_buffer`: allocate the node,
copy a dynamic entry, insert after the last added.  `mk node dyn` is the new item. -/
def appendRaw (st : Option Sto) (dynamic : Bool) (mk : Nat → Option Nat → Item) (h : Heap) :
    Outcome (Option Sto × Heap) :=
  match st with
  | none => .ok (none, h)
  | some st =>
    match h.alloc with
    | (none, h) => .ok (none, h)
    | (some node, h) =>
      let insert (dyn : Option Nat) (h : Heap) : Outcome (Option Sto × Heap) :=
        match st.last with
        | none => .ok (some { st with items := mk node dyn :: st.items, size := st.size + 1, last := some node }, h)
        | some k =>
          match insertAfter k (mk node dyn) st.items with
          | none => .ub
          | some items => .ok (some { st with items := items, size := st.size + 1, last := some node }, h)
      if dynamic then
        match h.alloc with
        | (none, h) => do
          let h ← h.free node
          return (none, h)
        | (some d, h) => insert (some d) h
      else insert none h

def EINVAL : Int := -22
def ENOMEM : Int := -12
def EFAULT : Int := -14

/-- value_with_args.c:125-146 `metac_parameter_storage_append_by_buffer`; returns the
code and the storage afterwards. -/
def appendBuffer (st : Option Sto) (e : Option EntryArg) (size : Int) (h : Heap) :
    Outcome (Int × Option Sto × Heap) :=
  match st, e with
  | none, _ => .ok (EINVAL, none, h)
  | some st, none => .ok (EINVAL, some st, h)
  | some st, some e =>
    if size ≤ 0 then .ok (EINVAL, some st, h) else
    match h.alloc with
    | (none, h) => .ok (ENOMEM, some st, h)
    | (some addr, h) => do
      match ← appendRaw (some st) e.dyn (fun n d => .buf n e d addr (List.replicate size.toNat 0)) h with
      | (none, h) =>
        let h ← h.free addr
        return (EFAULT, some st, h)
      | (some st', h) => return (0, some st', h)

mutual
/-- value_with_args.c:47-67: the loop of `metac_parameter_storage_cleanup`, one list node. -/
def cleanupItem : Item → Heap → Outcome Heap
  | .buf node _ dyn block _, h => do
    let h ← h.free block
    let h ← match dyn with
      | some d => h.free d
      | none => .ok h
    h.free node
  | .nested node _ dyn inner items _ _, h => do
    let h ← match inner with
      | some b => do
        let h ← cleanupItems items h
        h.free b
      | none => .ok h
    let h ← match dyn with
      | some d => h.free d
      | none => .ok h
    h.free node

def cleanupItems : List Item → Heap → Outcome Heap
  | [], h => .ok h
  | x :: xs, h => do
    let h ← cleanupItem x h
    cleanupItems xs h
end

/-- value_with_args.c:42-70 `metac_parameter_storage_cleanup`. -/
def cleanup (st : Option Sto) (h : Heap) : Outcome (Option Sto × Heap) :=
  match st with
  | none => .ok (none, h)
  | some st => do
    let h ← cleanupItems st.items h
    return (some { st with items := [], size := 0, last := none }, h)

/-- value_with_args.c:72-80 `metac_parameter_storage_delete`. -/
def delete (st : Option Sto) (h : Heap) : Outcome Heap :=
  match st with
  | none => .ok h
  | some st => do
    let (_, h) ← cleanup (some st) h
    h.free st.block

/-- value_with_args.c:82-85. -/
def size (st : Option Sto) : Nat :=
  match st with
  | none => 0
  | some st => st.size

/-- value_with_args.c:148-167 `metac_parameter_storage_append_by_parameter_storage`.  The
result of the inner allocation is not checked (the code tests `p_entry` instead). -/
def appendNested (st : Option Sto) (e : Option EntryArg) (h : Heap) : Outcome (Int × Option Sto × Heap) :=
  match e with
  | none => .abort
  | some e =>
    if !e.va then .abort else
    match newStorage h with
    | (inner, h) => do
      match ← appendRaw st e.dyn (fun n d => .nested n e d (inner.map (·.block)) [] 0 none) h with
      | (none, h) =>
        let h ← delete inner h
        return (EFAULT, st, h)
      | (some st', h) => return (0, some st', h)

/-- Replace the last item of a list. -/
def setLast (y : Item) : List Item → List Item
  | [] => []
  | [_] => [y]
  | x :: xs => x :: setLast y xs

mutual
/-- value_with_args.c:171-195: one round of the loop of `metac_parameter_storage_copy`. -/
def copyItem : Item → Sto → Heap → Outcome (Int × Sto × Heap)
  | .buf _ e _ _ bytes, dst, h => do
    let (r, dst', h) ← appendBuffer (some dst) (some e) bytes.length h
    match dst' with
    | none => .abort
    | some dst' =>
      if r ≠ 0 then return (EFAULT, dst', h) else
      -- assertions on the item just added, then memcpy of the bytes
      match dst'.last, dst'.items.getLast? with
      | some _, some (.buf n e d b bytes') =>
        if bytes'.length = bytes.length then
          return (0, { dst' with items := setLast (.buf n e d b bytes) dst'.items }, h)
        else .abort
      | _, _ => .abort
  | .nested _ e _ inner items _ _, dst, h => do
    let (r, dst', h) ← appendNested (some dst) (some e) h
    match dst' with
    | none => .abort
    | some dst' =>
      if r ≠ 0 then return (EFAULT, dst', h) else
      match dst'.last, dst'.items.getLast? with
      | some _, some (.nested n e d (some b) its sz la) =>
        match inner with
        | none => .ub                 -- the source storage is dereferenced
        | some _ => do
          let (r, in', h) ← copyItems items ⟨b, its, sz, la⟩ h
          let dst'' := { dst' with items := setLast (.nested n e d (some b) in'.items in'.size in'.last) dst'.items }
          if r ≠ 0 then return (EFAULT, dst'', h) else return (0, dst'', h)
      | _, _ => .abort                -- assert(addr != NULL)

/-- value_with_args.c:169-197 `metac_parameter_storage_copy` (source and destination are
different storages). -/
def copyItems : List Item → Sto → Heap → Outcome (Int × Sto × Heap)
  | [], dst, h => .ok (0, dst, h)
  | x :: xs, dst, h => do
    let (r, dst, h) ← copyItem x dst h
    if r ≠ 0 then return (r, dst, h) else copyItems xs dst h
end

/-- value_with_args.c:199-209 `metac_parameter_storage_new_param_value`: the entry and the
address the new value would have.  `metac_new_value` refuses a NULL address; the
allocation of the value handle itself is not modelled. -/
def newParamValue (st : Sto) (id : Int) : Option (EntryArg × Nat) :=
  if id < 0 then none else
  match st.items[id.toNat]? with
  | none => none
  | some (.buf _ e _ b _) => some (e, b)
  | some (.nested _ e _ inner _ _ _) => inner.map fun b => (e, b)

end Verif.ParamStorage
