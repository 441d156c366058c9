import Verif.Deep.Model
import Verif.CDecl.Model
/-
Model of `metac_value_copy_ex` (src/value_deep.c).

As in `Verif.Deep`, the loop over the recursive iterator is a recursion: an entry is visited
first, then its children (all of them, also after a failure), then it is known whether it
failed.  The allocations made for the map, for the iterator and for the values of the children
are assumed to succeed; those made for the copy may fail, and so may the insertion into the
table of blocks.  Addresses do not wrap.
-/
namespace Verif.DeepCopy
open Verif Verif.Entry Verif.Value Verif.Handlers Verif.ValueString Verif.Deep

/-- Memory, and the blocks given by the allocator that have not been freed: address and size. -/
structure State where
  m : Mem
  live : List (Nat × Nat)

/-- What the copy depends on besides the memory map: `calloc` is `calloc_fn` (`none`: NULL);
`custom` tells that it is not the `calloc` of the C library; `put` tells whether an insertion
into the table of blocks succeeds; `each` is the order in which `hashmapForEach` goes through
that table; `copyParams` is value_deep.c:1183-1197, the copy of a parameter storage (modelled in
`Verif.ParamStorage`): the values of the new parameters, or failure. -/
structure Env extends deep : Deep.Env where
  calloc : State → Nat → Nat → Option Nat
  custom : Bool
  put : List (Nat × Nat) → Bool
  each : List (Nat × Nat) → List (Nat × Nat)
  copyParams : Mem → Nat → Nat → Outcome (Option (List Value) × Mem)

/-- Memory with `n` bytes at `a` set to `b`, mapped or not before (`none`: unmapped). -/
def fill (m : Mem) (a n : Nat) (b : Option UInt8) : Mem := fun x => if a ≤ x ∧ x < a + n then b else m x

/-- `calloc_fn(nmemb, size)`: a new block of zero bytes. -/
def alloc (env : Env) (st : State) (nmemb size : Nat) : Option (Nat × State) :=
  (env.calloc st nmemb size).map fun a => (a, ⟨fill st.m a (nmemb * size) (some 0), (a, nmemb * size) :: st.live⟩)

/-- `free_fn(a)` for `a` not NULL: undefined if there is no such block. -/
def release (st : State) (a : Nat) : Outcome State :=
  match List.lookup a st.live with
  | none => .ub
  | some n => .ok ⟨fill st.m a n none, st.live.filter fun b => b.1 ≠ a⟩

/-- `free(a)` for a block that came from `calloc_fn`: undefined if that is another allocator. -/
def plainFree (env : Env) (st : State) (a : Nat) : Outcome State := if env.custom then .ub else release st a

/-- value_deep.c:940-963 `_value_copy_preallocate` for the entries of the map, until it fails:
success, the table of blocks (address in the source, address of the new block). -/
def preallocate (env : Env) (M : Map) : List (Nat × Nat × Nat) → List (Nat × Nat) → State → Outcome (Bool × List (Nat × Nat) × State)
  | [], tbl, st => .ok (true, tbl, st)
  | (a, id, size) :: l, tbl, st =>
    if M.offset id = 0 then
      match alloc env st 1 size with
      | none => .ok (false, tbl, st)
      | some (t, st) =>
        if env.put tbl then preallocate env M l (tbl ++ [(a, t)]) st
        else do return (false, tbl, ← plainFree env st t)
    else preallocate env M l tbl st

/-- value_deep.c:965-978 `_value_copy_free` for the blocks. -/
def releaseAll : List (Nat × Nat) → State → Outcome State
  | [], st => .ok st
  | (_, t) :: l, st => do releaseAll l (← release st t)

/-- How the first visit of an entry ends: in failure; or its children are visited, at their
places inside the copy, or (a target) at the address given, or as the parameters given. -/
inductive Head where
  | fail
  | parts
  | target (a : Nat)
  | args (vs : List Value)

/-- value_deep.c:1080-1088: the number of elements given to `calloc_fn` in tree mode. -/
def nmemb (db : Db) (k : Node) : Outcome Nat := do
  if ← hasElements db k.val then
    let count := ((← valueElementCount db (some k.val)) % 2 ^ 64).toNat
    return if count > 1 ∧ k.size % count = 0 then count else 1
  else return 1

/-- value_deep.c:1076-1116: where the copy of what a pointer points to is. -/
def targetPlace (env : Env) (mode : Mode) (db : Db) (M : Map) (tbl : List (Nat × Nat)) (k : Node) (st : State) : Outcome (Option Nat × State) := do
  if mode.dag then
    Outcome.assert (k.val.addr ≠ 0)
    let o := M.offset k.id
    if o ≠ 0 then return ((List.lookup (k.val.addr - o) tbl).map (· + o), st)
    else return (List.lookup k.val.addr tbl, st)
  else
    let n ← nmemb db k
    match alloc env st n (k.size / n) with
    | none => return (none, st)
    | some (a, st) => return (some a, st)

/-- value_deep.c:1075-1133: a pointer that was followed. -/
def copyTarget (env : Env) (mode : Mode) (db : Db) (M : Map) (tbl : List (Nat × Nat)) (v : Value) (k : Node) (d : Value) (st : State) :
    Outcome (Head × State) := do
  match ← targetPlace env mode db M tbl k st with
  | (none, st) => return (.fail, st)
  | (some a, st) =>
    match ← pointer db st.m (some v) with
    | .error _ => .abort
    | .ok p =>
      Outcome.assert (p ≠ 0)
      let (c, m) ← setPointer db st.m (some d) (a + p - k.val.addr)
      if c ≠ 0 then return (.fail, { st with m }) else return (.target a, { st with m })

/-- The result of copying one object. -/
def copied (st : State) (r : Bool × Mem) : Head × State := (if r.1 then .parts else .fail, { st with m := r.2 })

/-- value_deep.c:1134-1158: a pointer that was not followed; `outer` are the copies of the
objects around it (138-150 `metac_memory_entry_parent`). -/
def copyUnfollowed (mode : Mode) (db : Db) (outer : List Value) (v : Value) (loop : Nat) (d : Value) (st : State) : Outcome (Head × State) := do
  if loop > 0 then
    match outer[loop - 1]? with
    | none => return (.fail, st)
    | some p =>
      Outcome.assert (← isA db isPointer p)
      return copied st (← copyPointer db st.m (some p) (some d))
  else
    match mode.uptr with
    | .ignore =>
      let (c, m) ← setPointer db st.m (some d) 0
      return copied st (c = 0, m)
    | .asValues => return copied st (← copyPointer db st.m (some v) (some d))
    | .fail | .oneByte => return (.parts, st)

/-- value_deep.c:1174 `memcpy`: undefined if the two places overlap. -/
def memcpy (m : Mem) (dst src n : Nat) : Outcome Mem := do
  if dst < src + n ∧ src < dst + n then .ub
  else m.store dst (← m.load src n)

/-- value_deep.c:1071-1203: the first visit of an entry; `d` is the copy. -/
def head (env : Env) (mode : Mode) (db : Db) (M : Map) (tbl : List (Nat × Nat)) (outer : List Value) (k : Node) (d : Value) (st : State) :
    Outcome (Head × State) := do
  if ← isA db isPointer k.val then
    match k.kids with
    | [] => copyUnfollowed mode db outer k.val k.loop d st
    | [t] => copyTarget env mode db M tbl k.val t d st
    | _ => .abort
  else if ← isA db isEnum k.val then return copied st (← copyEnumeration db st.m (some k.val) (some d))
  else if ← isA db isBase k.val then return copied st (← copyBaseType env.cfg db st.m (some k.val) (some d))
  else if k.kids.length = 0 ∧ (← finalKind db k.val) = 17 ∧ k.size > 0 then
    match mode.union with
    | .asMem => return (.parts, { st with m := ← memcpy st.m d.addr k.val.addr k.size })
    | .ignore => return (.parts, { st with m := ← st.m.store d.addr (List.replicate k.size 0) })
    | .fail => return (.parts, st)
  else if ← hasLoad env.toEnv db k.val then
    let (r, m) ← env.copyParams st.m k.val.addr d.addr
    match r with
    | none => return (.fail, { st with m })
    | some vs => return (.args vs, { st with m })
  else return (.parts, st)

/-- value_deep.c:1195-1200, 1205-1215: the copies of the children (value.c:719-734
`metac_new_value`). -/
def places (v d : Value) (ks : List Node) : Head → List (Option Value)
  | .fail => []
  | .parts => ks.map fun k => newValue k.val.entry (d.addr + (k.val.addr - v.addr))
  | .target a => ks.map fun k => newValue k.val.entry a
  | .args vs => (List.range ks.length).map fun i => vs[i]?

/-- value_deep.c:1219-1245: the second visit: a block made for what a pointer points to is
freed if the copy of that failed. -/
def undo (env : Env) (mode : Mode) (ok : Bool) (st : State) : Head → Outcome State
  | .target a => if ok = false ∧ mode.dag = false then plainFree env st a else .ok st
  | _ => .ok st

mutual
/-- value_deep.c:1064-1248: an entry and what is below it; `d` is the copy and `outer` are the
copies of the objects around it. -/
def copyNode (env : Env) (mode : Mode) (db : Db) (M : Map) (tbl : List (Nat × Nat)) (outer : List Value) : Node → Value → State → Outcome (Bool × State)
  | .mk i v s l f ks, d, st => do
    let (h, st) ← head env mode db M tbl outer (.mk i v s l f ks) d st
    match h with
    | .fail => return (false, st)
    | h =>
      let (ok, st) ← copyAll env mode db M tbl (d :: outer) ks (places v d ks h) st
      return (ok, ← undo env mode ok st h)
/-- value_deep.c:1066-1067, 1205-1245: the children, one after another. -/
def copyAll (env : Env) (mode : Mode) (db : Db) (M : Map) (tbl : List (Nat × Nat)) (outer : List Value) :
    List Node → List (Option Value) → State → Outcome (Bool × State)
  | [], _, st => .ok (true, st)
  | _ :: _, [], _ => .abort
  | _ :: _, none :: _, _ => .abort
  | k :: ks, some d :: ds, st => do
    let (ok, st) ← copyNode env mode db M tbl outer k d st
    let (ok', st) ← copyAll env mode db M tbl outer ks ds st
    return (ok && ok', st)
end

/-- value_deep.c:1005-1027: the types of source and destination have the same declaration. -/
def sameType (db : Db) (src dst : Value) : Outcome Bool := do
  let (f, _) ← Outcome.ofLoop (finalEntry db (some src.entry))
  let (g, _) ← Outcome.ofLoop (finalEntry db (some dst.entry))
  match f, g with
  | some f, some g =>
    let a ← CDecl.cdecl db f
    let b ← CDecl.cdecl db g
    return a.isSome && a == b
  | _, _ => return false

/-- value_deep.c:984-1267 `metac_value_copy_ex` with a mode and allocator: success, and the
state afterwards. -/
def copyEx (env : Env) (order : List (Nat × Nat × Nat) → List (Nat × Nat × Nat)) (mode : Mode) (db : Db) (st : State) :
    Option Value → Option Value → Outcome (Bool × State)
  | some src, some dst => do
    if (← sameType db src dst) = false then return (false, st)
    match ← memoryMap env.deep order mode db st.m (some src) with
    | none => return (false, st)
    | some M =>
      if mode.dag then
        let (ok, tbl, st) ← preallocate env M (order M.map) [] st
        if ok = false then return (false, ← releaseAll (env.each tbl) st)
        let (ok, st) ← copyNode env mode db M tbl [] M.top dst st
        if ok then return (true, st) else return (false, ← releaseAll (env.each tbl) st)
      else copyNode env mode db M [] [] M.top dst st
  | _, _ => .ok (false, st)

end Verif.DeepCopy
