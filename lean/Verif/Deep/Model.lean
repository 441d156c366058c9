import Verif.ValueString.Model
/-
Model of the memory map of a value and of what is done with it: src/value_deep.c, without
`metac_value_copy_ex` (see `Verif.DeepCopy`).

The map is made by a loop over the recursive iterator (modelled in `Verif.Iterator`): a value
is visited first, then the values it depends on, then the entries made for them are put
together.  All values queued are visited, also when it is known that the result is a failure.
The allocations made for the map itself are assumed to succeed.  Sizes are natural numbers:
they do not wrap.  The recursion may not end.
-/
namespace Verif.Deep
open Verif Verif.Entry Verif.Value Verif.Handlers Verif.ValueString

/-- include/metac/reflect/value.h:41-46 -/
inductive UPtr where
  | fail | ignore | asValues | oneByte
deriving DecidableEq, Repr

/-- include/metac/reflect/value.h:48-52 -/
inductive UnionMode where
  | fail | ignore | asMem
deriving DecidableEq, Repr

/-- include/metac/reflect/value.h:54-74 `metac_value_memory_map_mode_t`; `dag`:
`memory_block_mode` is METAC_MMODE_dag; `flexFail`: `flex_array_mode` is METAC_FLXARR_fail. -/
structure Mode where
  dag : Bool
  uptr : UPtr
  union : UnionMode
  flexFail : Bool
deriving DecidableEq, Repr

/-- What the map depends on besides types and memory: see `ValueString.Env`; `uchar` is the
static description of `unsigned char` (value_deep.c:640-648). -/
structure Env extends vs : ValueString.Env where
  uchar : Ref

/-- include/metac/backend/value.h:18-32 `struct metac_memory_entry`.  `id` stands for the
address of the entry.  `deref` is not in the code: it tells that the child was attached by
the case of pointers.  `p_parent` is the entry around; `offset_from_allocate_base` is kept
apart (`Map.offset`). -/
inductive Node where
  | mk (id : Nat) (val : Value) (size : Nat) (loop : Nat) (deref : Bool) (kids : List Node)

namespace Node
def id : Node → Nat | mk i _ _ _ _ _ => i
def val : Node → Value | mk _ v _ _ _ _ => v
def size : Node → Nat | mk _ _ s _ _ _ => s
def loop : Node → Nat | mk _ _ _ l _ _ => l
def deref : Node → Bool | mk _ _ _ _ d _ => d
def kids : Node → List Node | mk _ _ _ _ _ ks => ks
end Node

mutual
/-- The entries of a tree. -/
def ids : Node → List Nat
  | .mk i _ _ _ _ ks => i :: idsAll ks
def idsAll : List Node → List Nat
  | [] => []
  | k :: ks => ids k ++ idsAll ks
end

/-- The map while it is made: the number of the next entry; the hash map of addresses
(modelled in `Verif.Hashmap`; here: address, entry and the size of the entry, at most one for
an address; the order is of no importance); the entries deleted so far. -/
structure St where
  next : Nat
  map : List (Nat × Nat × Nat)
  dead : List Nat

/-- How a first visit ends: in failure; with an entry without children; with values to be
visited first: the parts of an object of `size` bytes, the target of a pointer, the arguments
of a call.  `failed` if queueing was broken off. -/
inductive Next where
  | fail
  | leaf (size : Nat) (loop : Nat)
  | parts (vs : List Value) (failed : Bool) (size : Nat)
  | target (arr : Value) (size : Nat)
  | args (vs : List Value) (failed : Bool)

def Next.deps : Next → List Value
  | .fail | .leaf .. => []
  | .parts vs .. => vs
  | .target arr _ => [arr]
  | .args vs _ => vs

/-! ### First visit -/

/-- `metac_entry_byte_size(metac_value_entry(p), &sz)` (entry.c, modelled in `Verif.Entry`). -/
def sizeOfValue (db : Db) (v : Value) : Outcome (Except Int Nat) := do
  match ← Outcome.ofLoop (byteSize db (some v.entry) true) with
  | .error e => return .error e
  | .ok n => return .ok n.toNat

/-- value_deep.c:362-376: an enumeration or base type object. -/
def startLeaf (db : Db) (p : Value) : Outcome Next := do
  match ← sizeOfValue db p with
  | .error _ => return .fail
  | .ok n => return .leaf n 0

/-- value_deep.c:382-391, 416-439: a struct. -/
def startStruct (db : Db) (p : Value) : Outcome Next := do
  Outcome.assert (← hasMembers db p)
  match ← sizeOfValue db p with
  | .error _ => return .fail
  | .ok n =>
    let count ← memberCountOf db p
    let (vs, failed) ← collect (fun i => memberValue db (some p) i) count.toNat 0
    return .parts vs failed n

/-- value_deep.c:382-415, 427-439: a union.  In fail mode the `break` (413) leaves the inner
`switch` and goes on with the case of pointers (572-586), which fails: a union is no
pointer. -/
def startUnion (env : Env) (mode : Mode) (db : Db) (p : Value) (outer : List Value) : Outcome Next := do
  Outcome.assert (← hasMembers db p)
  match ← sizeOfValue db p with
  | .error _ => return .fail
  | .ok n =>
    let count ← memberCountOf db p
    if count > 0 then
      match ← request env.tags .unionMember p outer with
      | none => return .fail
      | some (some v) => return .parts [v] false n
      | some none => if mode.union = .fail then return .fail else return .parts [] false n
    else return .parts [] false n

/-- value_deep.c:472-504: the elements of an array with a known number of elements. -/
def startElements (db : Db) (v : Value) : Outcome Next := do
  let count ← valueElementCount db (some v)
  let (vs, failed) ← collect (fun i => elementValue db (some v) i) count.toNat 0
  if vs = [] then return .parts vs failed 0
  match ← sizeOfValue db v with
  | .error _ => return .parts vs true 0
  | .ok n => return .parts vs failed n

/-- value_deep.c:441-505: an array. -/
def startArray (env : Env) (mode : Mode) (db : Db) (m : Mem) (p : Value) (outer : List Value) : Outcome Next := do
  Outcome.assert (← hasElements db p)
  if (← valueElementCount db (some p)) = -1 then
    match ← request env.tags .flexArrayCount p outer with
    | none => return .fail
    | some (some v) => startElements db v
    | some none =>
      if mode.flexFail then return .fail
      match ← countValue env.vs db m p 0 with
      | none => return .fail
      | some v => startElements db v
  else startElements db p

/-- entry.c:304-311 `metac_entry_is_declaration_pointer` with value.c:609-612. -/
def isDeclarationPointer (db : Db) (v : Value) : Outcome Bool := do
  match ← Outcome.ofLoop (finalOf db (some v.entry) isPointer) with
  | none => return false
  | some f =>
    match (db f).info with
    | .pointer (some t) => return (db t).declaration
    | _ => return false

/-- value_deep.c:679-695: the value the pointer refers to is queued. -/
def startTarget (db : Db) (size : Nat) : Option Value → Outcome Next
  | none => .ok .fail
  | some arr => do
    if ← hasElements db arr then return .target arr size else return .fail

/-- value_deep.c:573-695: a pointer. -/
def startPointer (env : Env) (mode : Mode) (db : Db) (m : Mem) (p : Value) (outer : List Value) : Outcome Next := do
  match ← sizeOfValue db p with
  | .error _ => return .fail
  | .ok n =>
    match ← pointer db m (some p) with
    | .error _ => return .fail
    | .ok a =>
      if a = 0 then return .leaf n 0
      let l ← introducedLoop db m ((p :: outer).map some)
      if l > 0 then return .leaf n l.toNat
      match ← request env.tags .pointerArrayCount p outer with
      | none => return .fail
      | some (some arr) => startTarget db n (some arr)
      | some none =>
        if (← isVoidPointer db p) || (← isDeclarationPointer db p) then
          match mode.uptr with
          | .fail => return .fail
          | .ignore | .asValues => return .leaf n 0
          | .oneByte => startTarget db n (newValue (env.dyn { info := .array (some env.uchar) 1 }) a)
        else startTarget db n (← countValue env.vs db m p 1)

/-- value_deep.c:760-793: a call or a list of arguments. -/
def startParams (env : Env) (db : Db) (p : Value) : Outcome Next := do
  Outcome.assert (← hasLoad env.toEnv db p)
  let (vs, failed) ← collect (paramItem env.toEnv p) (env.params p.addr).length 0
  return .args vs failed

/-- value_deep.c:355-361, 378-382, 440, 572-574, 757-761, 852-856: the first visit of a
value; `outer` are the values around it. -/
def start (env : Env) (mode : Mode) (db : Db) (m : Mem) (c : Case) (p : Value) (outer : List Value) : Outcome Next :=
  match c with
  | .base | .enumeration => startLeaf db p
  | .pointer => startPointer env mode db m p outer
  | .struct => startStruct db p
  | .union => startUnion env mode db p outer
  | .array => startArray env mode db m p outer
  | .packed | .subroutine | .subprogram => startParams env db p
  | .other => .ok .fail

/-! ### Second visit -/

/-- value_deep.c:152-171 `metac_new_memory_entry` -/
def newNode (st : St) (p : Value) (size loop : Nat) (deref : Bool) (kids : List Node) : Option Node × St :=
  (some (.mk st.next p size loop deref kids), { st with next := st.next + 1 })

/-- value_deep.c:173-212 `metac_memory_entry_delete` (543-569): the entries made for the
dependencies are deleted with everything below.  They stay in the hash map. -/
def kill (st : St) (outs : List (Option Node)) : St :=
  { st with dead := st.dead ++ (outs.filterMap _root_.id).flatMap ids }

/-- value_deep.c:514-536: the entries of the parts are attached; the size grows to include
them.  `none`: one of them could not be made. -/
def attach (p : Value) : List (Option Node) → Nat → Outcome (Option Nat)
  | [], size => .ok (some size)
  | none :: _, _ => .ok none
  | some k :: ks, size => do
    Outcome.assert (p.addr ≤ k.val.addr)
    attach p ks (max size (k.val.addr - p.addr + k.size))

def lookup (a : Nat) (map : List (Nat × Nat × Nat)) : Option (Nat × Nat) := List.lookup a map

/-- hashmap.c `hashmapPut` on the hash map of addresses. -/
def put (a : Nat) (e : Nat × Nat) : List (Nat × Nat × Nat) → List (Nat × Nat × Nat)
  | [] => [(a, e)]
  | (b, f) :: map => if b = a then (a, e) :: map else (b, f) :: put a e map

/-- value_deep.c:718-750: the target of a pointer is put into the hash map, unless there is
an entry for the address that is not smaller.  That entry is read. -/
def register (k : Node) (st : St) : Outcome St :=
  match lookup k.val.addr st.map with
  | none => .ok { st with map := put k.val.addr (k.id, k.size) st.map }
  | some (prev, size) =>
    if prev ∈ st.dead then .ub
    else if k.size > size then .ok { st with map := put k.val.addr (k.id, k.size) st.map }
    else .ok st

/-- value_deep.c:507-569, 696-754, 794-849: the second visit of a value. -/
def finish (mode : Mode) (p : Value) (st : St) (outs : List (Option Node)) : Next → Outcome (Option Node × St)
  | .fail => .ok (none, st)
  | .leaf size loop => .ok (newNode st p size loop false [])
  | .parts _ failed size =>
    if failed then .ok (none, kill st outs)
    else do
      match ← attach p outs size with
      | none => return (none, kill st outs)
      | some size => return newNode st p size 0 false (outs.filterMap _root_.id)
  | .target _ size =>
    match outs with
    | [some k] => do
      let st ← if mode.dag then register k st else .ok st
      return newNode st p size 0 true [k]
    | [none] => .ok (none, st)
    | _ => .abort
  | .args _ failed =>
    if failed ∨ outs.any Option.isNone then .ok (none, kill st outs)
    else .ok (newNode st p 0 0 false (outs.filterMap _root_.id))

/-- The dependencies of a value are visited one after another (`Verif.Iterator`). -/
def visitAll (f : Value → St → Outcome (Option Node × St)) : List Value → St → Outcome (List (Option Node) × St)
  | [], st => .ok ([], st)
  | v :: vs, st => do
    let (out, st) ← f v st
    let (outs, st) ← visitAll f vs st
    return (out :: outs, st)

open Lean.Order in
@[partial_fixpoint_monotone]
theorem monotone_visitAll {γ : Sort u} [PartialOrder γ] (f : γ → Value → St → Outcome (Option Node × St)) (vs : List Value) (st : St)
    (hf : monotone f) : monotone (fun x => visitAll (f x) vs st) := by
  induction vs generalizing st with
  | nil => exact monotone_const _
  | cons v vs ih =>
    apply monotone_bind
    · exact monotone_apply _ _ (monotone_apply _ _ hf)
    · apply monotone_of_monotone_apply
      intro r
      apply monotone_bind
      · exact ih _
      · exact monotone_const _

/-- value_deep.c:350-857: the entry for a value inside the values `outer` (`none`: failure),
and what the map is then. -/
def walk (env : Env) (mode : Mode) (db : Db) (m : Mem) (outer : List Value) (p : Value) (st : St) : Outcome (Option Node × St) := do
  let c ← finalCase env.vs db p
  let n ← start env mode db m c p outer
  let (outs, st) ← visitAll (walk env mode db m (p :: outer)) n.deps st
  finish mode p st outs n
partial_fixpoint

/-! ### Blocks -/

/-- value_deep.c:252-258, 279 `qsort` with `_sort_addr_`: the keys are distinct addresses, any
sorting method gives the same. -/
def insert (a : Nat) : List Nat → List Nat
  | [] => [a]
  | b :: l => if a ≤ b then a :: b :: l else b :: insert a l

/-- value_deep.c:270-279: the keys of the hash map, sorted. -/
def sort : List Nat → List Nat
  | [] => []
  | a :: l => insert a (sort l)

/-- value_deep.c:282-312: the sweep over the sorted addresses.  `main` is the block found
last: address and size (`none`: NULL).  Results are the entries with an offset. -/
def sweep (map : List (Nat × Nat × Nat)) (main : Option (Nat × Nat)) : List Nat → Outcome (List (Nat × Nat))
  | [] => .ok []
  | a :: as => do
    match lookup a map with
    | none => .abort
    | some (id, size) =>
      if size = 0 then sweep map main as
      else
        match main with
        | none => sweep map (some (a, size)) as
        | some (b, bsize) =>
          if b + bsize ≤ a then sweep map (some (a, size)) as
          else return (id, a - b) :: (← sweep map main as)

/-- value_deep.c:260-315 `_identify_allocatable_entries`; `order` is the order in which
`hashmapForEach` gives the keys. -/
def identify (order : List (Nat × Nat × Nat) → List (Nat × Nat × Nat)) (map : List (Nat × Nat × Nat)) : Outcome (List (Nat × Nat)) :=
  sweep map none (sort ((order map).map (·.1)))

/-- include/metac/backend/value.h:40-43 `struct metac_memory_map`, with the offsets of the
entries that have one. -/
structure Map where
  top : Node
  map : List (Nat × Nat × Nat)
  offsets : List (Nat × Nat)

/-- `offset_from_allocate_base`: 0 as allocated, unless set (value_deep.c:311). -/
def Map.offset (M : Map) (id : Nat) : Nat := (List.lookup id M.offsets).getD 0

/-- value_deep.c:325-885 `metac_new_value_memory_map_ex`. -/
def memoryMap (env : Env) (order : List (Nat × Nat × Nat) → List (Nat × Nat × Nat)) (mode : Mode) (db : Db) (m : Mem) :
    Option Value → Outcome (Option Map)
  | none => .ok none
  | some v => do
    match ← walk env mode db m [] v ⟨0, [], []⟩ with
    | (none, _) => return none
    | (some k, st) => return some ⟨k, st.map, ← identify order st.map⟩

/-- value_deep.c:905-930 `metac_value_free_ex` with `_value_free`: the addresses given to
`free_fn`, in this order; `none` if nothing is freed and 0 is returned. -/
def freeEx (env : Env) (order : List (Nat × Nat × Nat) → List (Nat × Nat × Nat)) (mode : Mode) (db : Db) (m : Mem) (v : Option Value) :
    Outcome (Option (List Nat)) := do
  match ← memoryMap env order { mode with dag := true } db m v with
  | none => return none
  | some M => return some ((order M.map).filterMap fun (a, id, _) => if M.offset id = 0 then some a else none)

/-! ### Comparison -/

/-- value.c:251-262 `metac_value_final_kind`. -/
def finalKind (db : Db) (v : Value) : Outcome Int := do
  Outcome.assert (v.addr ≠ 0)
  let (f, _) ← Outcome.ofLoop (finalEntry db (some v.entry))
  return kind db f

/-- value.c:268-281, 494-497, 600-602 `metac_value_is_base_type` and the like. -/
def isA (db : Db) (p : Info → Bool) (v : Value) : Outcome Bool := do
  return (← Outcome.ofLoop (finalOf db (some v.entry) p)).isSome

/-- What the comparison of two entries without children gives. -/
inductive Cmp where
  | fail | same | differ
deriving DecidableEq, Repr

/-- value_deep.c:1320-1327 and the like: the code of a comparison of two objects. -/
def ofCode (c : Int) : Cmp := if c < 0 then .fail else if c = 0 then .differ else .same

/-- value_deep.c:1360 `memcmp(...) != 0`. -/
def memcmp (m : Mem) (a b n : Nat) : Outcome Cmp := do
  return if (← m.load a n) = (← m.load b n) then .same else .differ

/-- value_deep.c:1305-1365: two entries are compared; `none`: their children are to be
compared. -/
def cmpNode (cfg : Plat) (mode : Mode) (db : Db) (m : Mem) (M₁ M₂ : Map) (k₁ k₂ : Node) : Outcome (Option Cmp) := do
  if k₁.size ≠ k₂.size ∨ k₁.kids.length ≠ k₂.kids.length ∨ k₁.loop ≠ k₂.loop ∨ M₁.offset k₁.id ≠ M₂.offset k₂.id then return some .differ
  let f₁ ← finalKind db k₁.val
  let f₂ ← finalKind db k₂.val
  if f₁ ≠ f₂ then return some .differ
  if (← isA db isPointer k₁.val) && (← isA db isPointer k₂.val) then
    if k₁.kids.length = 0 then
      if mode.uptr = .asValues then return some (ofCode (← equalPointer db m (some k₁.val) (some k₂.val)))
      else return some .same
    else return none
  else if (← isA db isEnum k₁.val) && (← isA db isEnum k₂.val) then
    return some (ofCode (← equalEnumeration db m (some k₁.val) (some k₂.val)))
  else if (← isA db isBase k₁.val) && (← isA db isBase k₂.val) then
    return some (ofCode (← equalBaseType cfg db m (some k₁.val) (some k₂.val)))
  else if mode.union = .asMem ∧ k₁.kids.length = 0 ∧ f₁ = 17 ∧ k₁.size > 0 then
    if (← memcmp m k₁.val.addr k₂.val.addr k₁.size) = .differ then return some .differ else return none
  else return none

mutual
/-- value_deep.c:1297-1399: two entries and what is below them; `fail` and `differ` may both be
found. -/
def cmp (cfg : Plat) (mode : Mode) (db : Db) (m : Mem) (M₁ M₂ : Map) : Node → Node → Outcome (Bool × Bool)
  | .mk i₁ v₁ s₁ l₁ d₁ ks₁, k₂ => do
    match ← cmpNode cfg mode db m M₁ M₂ (.mk i₁ v₁ s₁ l₁ d₁ ks₁) k₂ with
    | some c => return (c = .fail, c = .differ)
    | none => cmpAll cfg mode db m M₁ M₂ ks₁ k₂.kids
/-- value_deep.c:1367-1396: the children, one after another. -/
def cmpAll (cfg : Plat) (mode : Mode) (db : Db) (m : Mem) (M₁ M₂ : Map) : List Node → List Node → Outcome (Bool × Bool)
  | [], _ => .ok (false, false)
  | _ :: _, [] => .abort
  | k₁ :: ks₁, k₂ :: ks₂ => do
    let (f, d) ← cmp cfg mode db m M₁ M₂ k₁ k₂
    let (f', d') ← cmpAll cfg mode db m M₁ M₂ ks₁ ks₂
    return (f || f', d || d')
end

/-- value_deep.c:1269-1413 `metac_value_equal_ex` with a mode. -/
def equalEx (env : Env) (order : List (Nat × Nat × Nat) → List (Nat × Nat × Nat)) (mode : Mode) (db : Db) (m : Mem) :
    Option Value → Option Value → Outcome Int
  | some v₁, some v₂ => do
    match ← memoryMap env order mode db m (some v₁) with
    | none => return -14
    | some M₁ =>
      match ← memoryMap env order mode db m (some v₂) with
      | none => return -14
      | some M₂ =>
        let (fail, differ) ← cmp env.cfg mode db m M₁ M₂ M₁.top M₂.top
        return if fail then -14 else if differ then 0 else 1
  | _, _ => .ok (-22)

end Verif.Deep
