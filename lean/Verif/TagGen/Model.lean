import Verif.TagMap.Model
/-
Model of the functions that the tag map macros make: `METAC_TAG_MAP_NEW`,
`METAC_TAG_MAP_APPEND`, `METAC_TAG_MAP_ENTRY…`, `METAC_TAG_MAP_SET_TAG` and their ends
(include/metac/reflect/entry_tag.h).
-/
namespace Verif.TagGen
open Verif Verif.Entry Verif.TagMap

/-- include/metac/reflect/entry_tag.h:251-261 `METAC_TAG_MAP_ENTRY_SELF`,
`METAC_TAG_MAP_ENTRY_MEMBER`, `METAC_TAG_MAP_ENTRY_PARAMETER`: the entry a statement names,
relative to the one of its section. -/
inductive Which where
  | self
  | member (ids : List EntryId)
  | param (id : EntryId)

/-- include/metac/reflect/entry_tag.h:276 `METAC_TAG_MAP_SET_TAG`: its arguments.  `tag` is the
value of the `METAC_TAG` expression, a new context included; `putOk` says whether the hash map
gets memory for a new entry, as in the model of tag maps. -/
structure SetArgs where
  category : Int
  op : Int
  override : Bool
  which : Which
  tag : Tag
  putOk : Bool

/-- The statements of a generator function.
include/metac/reflect/entry_tag.h:229-246 `METAC_TAG_MAP_ENTRY`,
`METAC_TAG_MAP_ENTRY_FROM_TYPE` (`p` is what the entry expression gives, NULL is `none`) and
276-282 `METAC_TAG_MAP_SET_TAG`.  `METAC_TAG_MAP_ENTRY_END` (248-249) only closes the C block. -/
inductive Stmt where
  | entry (p : Option Ref)
  | setTag (a : SetArgs)

/-- include/metac/reflect/entry_tag.h:251-261: value of the `_entry_` argument, calls of
`metac_entry_by_member_ids` (src/entry.c:372-392) and `metac_entry_by_parameter_ids`
(src/entry.c:595-615). -/
def entryOf (db : Db) (cur : Option Ref) : Which → Outcome (Option Ref)
  | .self => .ok cur
  | .member ids => Outcome.ofLoop (byMemberIds db cur false ids)
  | .param id => Outcome.ofLoop (byParameterIds db cur false id)

/-- include/metac/reflect/entry_tag.h:307-310 (`METAC_COUNT_BY` and the like): the context that
the tag expression makes and that `context_free_handler` is there to release. -/
def created (t : Tag) : List Nat :=
  match t.ctx with
  | some c => if t.freeCtx then [c] else []
  | none => []

/-- include/metac/reflect/entry_tag.h:231-236 and 278-281: leave with NULL; a map that the
function made itself is deleted. -/
def fail (append : Bool) (m : Option TagMap) (st : Heap × List Nat) (made : List Nat) :
    Outcome (Bool × Option TagMap × (Heap × List Nat) × List Nat) := do
  if append then return (false, m, st, made)
  else
    let st ← delete m st
    return (false, none, st, made)

/-- The body of a generator function, include/metac/reflect/entry_tag.h:229-249 and 276-282.
`cur` is the entry of the open section.  Result: whether the end is reached, the map, memory and
released contexts, the contexts made by the tag expressions. -/
def exec (db : Db) (append : Bool) : List Stmt → Option Ref → Option TagMap → Heap × List Nat → List Nat →
    Outcome (Bool × Option TagMap × (Heap × List Nat) × List Nat)
  | [], _, m, st, made => .ok (true, m, st, made)
  | .entry p :: ss, _, m, st, made =>
    if p = none then fail append m st made else exec db append ss p m st made
  | .setTag a :: ss, cur, m, st, made => do
    let e ← entryOf db cur a.which
    let made := made ++ created a.tag
    let (code, m, st) ← TagMap.setTag db m a.category a.override e a.op (some a.tag) a.putOk st
    if code ≠ 0 then fail append m st made else exec db append ss cur m st made

/-- include/metac/reflect/entry_tag.h:206-212 `METAC_TAG_MAP_NEW` … 224-226 `METAC_TAG_MAP_END`:
the returned map. -/
def generate (db : Db) (cats : List CatSpec) (d : Option Tag) (ss : List Stmt) (st : Heap × List Nat) (made : List Nat) :
    Outcome (Option TagMap × (Heap × List Nat) × List Nat) := do
  match ← new (some cats) d st with
  | (none, st) => return (none, st, made)
  | (some m, st) =>
    let (_, m, st, made) ← exec db false ss none (some m) st made
    return (m, st, made)

/-- include/metac/reflect/entry_tag.h:216-220 `METAC_TAG_MAP_APPEND` … 224-226: whether the
function returns the map (else NULL), and the caller's map afterwards. -/
def appendTo (db : Db) (ss : List Stmt) (m : Option TagMap) (st : Heap × List Nat) (made : List Nat) :
    Outcome (Bool × Option TagMap × (Heap × List Nat) × List Nat) :=
  match m with
  | none => .ok (false, none, st, made)
  | some m => exec db true ss none (some m) st made

end Verif.TagGen
