import Verif.Value.Model
/-
Model of the tag handlers of src/entry_tag.c: the functions that tell the deep operations
which member of a union is in use and how long an array behind a pointer is.

The hierarchy a handler gets is the stack of values being walked, innermost first (level 0);
the iterator that provides it is modelled in `Verif.Iterator`.  A handler returns an error
code and what it leaves in `p_ev->p_return_value` (`none`: NULL, which is what the callers
put there before the call).  Value objects are assumed to be allocated successfully, except
where a failure is possible anyway.
-/
namespace Verif.Handlers
open Verif Verif.Entry Verif.Value

/-- reflect/entry_tag.h `metac_value_event_type_t`: the requests. -/
inductive Event where
  | unionMember | flexArrayCount | pointerArrayCount | vaList
deriving DecidableEq, Repr

/-- What the handlers look at outside types and plain memory: which parameter entries are
`va_list` (entry.c:639-653, decided by the printed declaration), and the parameters stored
at an address (the storage itself is modelled in `Verif.ParamStorage`). -/
structure Env where
  vaList : Ref → Bool
  params : Nat → List Value

/-- value.c:24-28 with iterator.c:153-166: the level of the innermost value. -/
def level (stack : List (Option Value)) : Int := (stack.length : Int) - 1

/-- value.c:30-34 with iterator.c:168-188: the value `l` levels up, NULL if there is none. -/
def value (stack : List (Option Value)) (l : Nat) : Option Value := (stack[l]?).join

/-- value.c:428-430 `metac_value_has_members`. -/
def hasMembers (db : Db) (v : Value) : Outcome Bool := do
  return (← Outcome.ofLoop (finalOf db (some v.entry) isStruct)).isSome

/-- value.c:432-434 `metac_value_member_count` (of a value that has members). -/
def memberCountOf (db : Db) (v : Value) : Outcome Int := do
  let f ← Outcome.ofLoop (finalOf db (some v.entry) isStruct)
  Outcome.ofLoop (memberCount db f)

/-- value.c:675-679 `metac_value_has_parameter_load` with entry.c:540-546. -/
def hasLoad (env : Env) (db : Db) (v : Value) : Outcome Bool := do
  match ← Outcome.ofLoop (finalOf db (some v.entry) isFunc) with
  | some _ => return true
  | none =>
    match (db v.entry).info with
    | .param unspecified _ => return unspecified || env.vaList v.entry
    | _ => return false

/-- value.c:244-249 `metac_value_name`. -/
def valueName (db : Db) (v : Option Value) : Option Name := v.bind fun v => (db v.entry).name

/-- value.c:790-797 `metac_value_delete`: looks into the value without checking it. -/
def deleteValue : Option Value → Outcome Unit
  | none => .ub
  | some _ => .ok ()

/-- How the search for a sibling ends: there is none, it is not a number, or its number. -/
inductive Sibling where
  | missing | bad | num (n : Int)
deriving DecidableEq, Repr

/-- entry_tag.c:399-411, 416-428, 602-615: the search through the siblings; `get` makes the
value number `i`, `left` of them are still to be visited. -/
def siblingLoop (cfg : Plat) (db : Db) (m : Mem) (get : Nat → Outcome (Option Value)) (name : Name) : Nat → Nat → Outcome Sibling
  | 0, _ => .ok .missing
  | left + 1, i => do
    let s ← get i
    if valueName db s ≠ some name then
      deleteValue s
      siblingLoop cfg db m get name left (i + 1)
    else
      match ← num cfg db m s with
      | .error _ =>
        deleteValue s
        return .bad
      | .ok n =>
        deleteValue s
        return .num n

/-- the search through the members of the enclosing struct. -/
def memberSibling (cfg : Plat) (db : Db) (m : Mem) (parent : Value) (name : Name) : Outcome Sibling := do
  let count ← memberCountOf db parent
  siblingLoop cfg db m (fun i => memberValue db (some parent) i) name count.toNat 0

/-- value.c:681-700 (`metac_value_parameter_count`, `metac_value_parameter_new_item`) and
value_with_args.c:199-209: parameter number `i` of the stored call. -/
def paramItem (env : Env) (parent : Value) (i : Nat) : Outcome (Option Value) :=
  .ok ((env.params parent.addr)[i]?.bind fun p => newValue p.entry p.addr)

/-- the search through the parameters of the enclosing call. -/
def paramSibling (env : Env) (cfg : Plat) (db : Db) (m : Mem) (parent : Value) (name : Name) : Outcome Sibling :=
  siblingLoop cfg db m (paramItem env parent) name (env.params parent.addr).length 0

/-- What a count handler leaves: an array description and its address. -/
abbrev Arrays := Option (Entry × Nat)

/-- entry_tag.c:407-414, 424-431: what is done once the sibling is found. -/
def counted (db : Db) (m : Mem) (v : Value) : Sibling → Outcome (Int × Arrays)
  | .missing => .ok (0, none)
  | .bad => .ok (-14, none)
  | .num n => do
    let r ← elementCountValue db m (some v) n
    return (0, r)

/-- entry_tag.c:378-436 `metac_handle_count_by`; the context is NULL, has no name, or has
one. -/
def countBy (env : Env) (cfg : Plat) (db : Db) (m : Mem) (stack : List (Option Value)) (ev : Option Event)
    (ctx : Option (Option Name)) : Outcome (Int × Arrays) :=
  match ev with
  | none => .ok (-22, none)
  | some ev =>
    if (ev = .pointerArrayCount ∨ ev = .flexArrayCount) ∧ level stack > 0 then
      match ctx with
      | none => .ok (-22, none)
      | some none => .ok (-22, none)
      | some (some []) => .ok (-22, none)
      | some (some name) =>
        match value stack 0, value stack 1 with
        | some v, some parent => do
          if ← hasMembers db parent then
            counted db m v (← memberSibling cfg db m parent name)
          else if ← hasLoad env db parent then
            counted db m v (← paramSibling env cfg db m parent name)
          else return (-14, none)
        | _, _ => .ok (-14, none)
    else .ok (0, none)

/-- `strlen`: `none` if the loop never ends, undefined where memory is not accessible. -/
def strlen (m : Mem) (a n : Nat) : Option (Outcome Nat) :=
  match m (a + n) with
  | none => some .ub
  | some b => if b = 0 then some (.ok n) else strlen m a (n + 1)
partial_fixpoint

/-- result of `strlen`. -/
def strlenOf (m : Mem) (a : Nat) : Outcome Nat :=
  match strlen m a 0 with
  | some r => r
  | none => .hang

/-- entry_tag.c:439-468 `metac_handle_zero_ended_string` (the length is put into an `int`). -/
def zeroEnded (db : Db) (m : Mem) (stack : List (Option Value)) (ev : Option Event) : Outcome (Int × Arrays) :=
  match ev with
  | none => .ok (-22, none)
  | some ev =>
    if (ev = .pointerArrayCount ∨ ev = .flexArrayCount) ∧ level stack ≥ 0 then
      match value stack 0 with
      | none => .ok (-14, none)
      | some v => do
        match ← Outcome.ofLoop (finalOf db (some v.entry) isPointer) with
        | none => return (-14, none)
        | some _ =>
          let t ← Outcome.ofLoop (pointerEntry db (some v.entry))
          match ← Outcome.ofLoop (finalEntry db t) with
          | (none, _) => return (-14, none)
          | (some f, _) =>
            if kind db (some f) ≠ 1 ∨ (db f).name ≠ some (nm ['c', 'h', 'a', 'r']) then return (-14, none)
            match ← pointer db m (some v) with
            | .error _ => return (-14, none)
            | .ok a =>
              if a = 0 then return (-14, none)
              let n ← strlenOf m a
              let r ← elementCountValue db m (some v) (toInt32 ((n + 1 : Nat) : Int))
              return (0, r)
    else .ok (0, none)

/-- reflect/entry_tag.h: `struct metac_container_of_context`. -/
structure ContainerOf where
  offset : UInt64
  entry : Option Ref

/-- the memory with the 8-byte local variable at address `loc` holding `a`. -/
def withLocal (m : Mem) (loc a : Nat) : Mem :=
  fun x => if loc ≤ x ∧ x < loc + 8 then (Mem.bytesOf 8 a)[x - loc]? else m x

/-- entry_tag.c:490-513 `metac_handle_container_of`; `loc` is the address of its local
variable `p`. -/
def containerOf (db : Db) (m : Mem) (loc : Nat) (stack : List (Option Value)) (ev : Option Event)
    (ctx : Option ContainerOf) : Outcome (Int × Arrays) :=
  match ev with
  | none => .ok (-22, none)
  | some ev =>
    if ev = .pointerArrayCount then
      match ctx with
      | none => .ok (-22, none)
      | some ⟨_, none⟩ => .ok (-22, none)
      | some ⟨offset, some entry⟩ => do
        match ← pointer db m (value stack 0) with
        | .error _ => return (0, none)
        | .ok p =>
          let p' := (UInt64.ofNat p - offset).toNat
          match newValue entry loc with
          | none => return (-12, none)
          | some v =>
            let r ← elementCountValue db (withLocal m loc p') (some v) 1
            deleteValue (some v)
            return (0, r)
    else .ok (0, none)

/-- reflect/entry_tag.h:370-374 `struct metac_union_member_select_by_case`. -/
structure UnionCase where
  val : Int
  name : Option Name
  id : Int

/-- reflect/entry_tag.h:376-387 `struct metac_union_member_select_by_context`. -/
inductive Select where
  | field (name : Option Name) (cases : List UnionCase)
  | constant (id : Int)

/-- entry_tag.c:618-635: the search through the cases; the member id, or an error. -/
def caseLoop (db : Db) (u : Ref) (id : Int) : List UnionCase → Outcome (Except Int Int)
  | [] => .ok (.error (-2))
  | c :: cs =>
    if c.val = id then
      match c.name with
      | some n => do
        let id ← Outcome.ofLoop (memberNameToId db (some u) n)
        if id < 0 then return .error (-14) else return .ok id
      | none => .ok (.ok c.id)
    else caseLoop db u id cs

/-- entry_tag.c:610-639: what is done once the sibling is found. -/
def selected (db : Db) (v : Value) (cases : List UnionCase) : Sibling → Outcome (Int × Option Value)
  | .missing => .ok (0, none)
  | .bad => .ok (-14, none)
  | .num n => do
    let id ← if cases.length > 0 then caseLoop db v.entry n cases else pure (.ok n)
    match id with
    | .error c => return (c, none)
    | .ok id =>
      let r ← memberValue db (some v) id
      return (0, r)

/-- entry_tag.c:574-655 `metac_handle_union_member_select`. -/
def unionSelect (cfg : Plat) (db : Db) (m : Mem) (stack : List (Option Value)) (ev : Option Event)
    (ctx : Option Select) : Outcome (Int × Option Value) :=
  match ev with
  | none => .ok (-22, none)
  | some ev =>
    if ev = .unionMember ∧ level stack > 0 then
      match ctx with
      | none => .ok (-22, none)
      | some (.field none _) => .ok (-22, none)
      | some (.field (some []) _) => .ok (-22, none)
      | some (.field (some name) cases) =>
        match value stack 0, value stack 1 with
        | some v, some parent => do
          if !(← hasMembers db v) then return (-22, none)
          if !(← hasMembers db parent) then return (-22, none)
          selected db v cases (← memberSibling cfg db m parent name)
        | _, _ => .ok (-22, none)
      | some (.constant id) =>
        match value stack 0 with
        | none => .ok (-22, none)
        | some v => do
          if !(← hasMembers db v) then return (-22, none)
          let r ← memberValue db (some v) id
          return (0, r)
    else .ok (0, none)

/-- reflect/entry_tag.h:417-420 `struct metac_ptr_cast_case`. -/
structure CastCase where
  val : Int
  entry : Option Ref

/-- reflect/entry_tag.h:422-427 `struct metac_ptr_cast_context`. -/
structure Cast where
  count : Option Name
  selector : Option Name
  cases : List CastCase

/-- entry_tag.c:771-784: the search through the cases. -/
def castLoop (db : Db) (m : Mem) (v : Value) (ty count : Int) : List CastCase → Outcome (Int × Arrays)
  | [] => .ok (0, none)
  | c :: cs =>
    if ty = c.val then
      match c.entry with
      | none => .ok (-22, none)
      | some e =>
        match newValue e v.addr with
        | none => .ok (-12, none)
        | some p => do
          let r ← elementCountValue db m (some p) count
          deleteValue (some p)
          return (0, r)
    else castLoop db m v ty count cs

/-- entry_tag.c:752-757, 763-768: the number in member `id` of the enclosing struct. -/
def castSibling (cfg : Plat) (db : Db) (m : Mem) (parent : Value) (id : Int) : Outcome (Option Int) := do
  let s ← memberValue db (some parent) id
  match ← num cfg db m s with
  | .error _ =>
    deleteValue s
    return none
  | .ok n =>
    deleteValue s
    return some n

/-- entry_tag.c:726-787 `metac_handle_ptr_cast`. -/
def ptrCast (cfg : Plat) (db : Db) (m : Mem) (stack : List (Option Value)) (ev : Option Event)
    (ctx : Option Cast) : Outcome (Int × Arrays) :=
  match ev with
  | none => .ok (-22, none)
  | some ev =>
    if ev = .pointerArrayCount ∧ level stack > 0 then
      match ctx with
      | none => .ok (-22, none)
      | some c =>
        match c.selector with
        | none => .ok (-22, none)
        | some selector =>
          if selector = [] ∨ c.cases.length = 0 then .ok (-22, none)
          else
            match value stack 0, value stack 1 with
            | some v, some parent => do
              if !(← hasMembers db parent) then return (-22, none)
              let id ← Outcome.ofLoop (memberNameToId db (some parent.entry) selector)
              if id < 0 then return (-22, none)
              match ← castSibling cfg db m parent id with
              | none => return (-22, none)
              | some ty =>
                match c.count with
                | none => castLoop db m v ty 1 c.cases
                | some [] => castLoop db m v ty 1 c.cases
                | some name =>
                  let cid ← Outcome.ofLoop (memberNameToId db (some parent.entry) name)
                  match ← castSibling cfg db m parent cid with
                  | none => return (-22, none)
                  | some count => castLoop db m v ty count c.cases
            | _, _ => .ok (-22, none)
    else .ok (0, none)

end Verif.Handlers
