import Verif.Heap
import Verif.Entry.Model
/-
Model of the tag maps of /repo/src/entry_tag.c:39-274.

The hash map of a category (keys are entry addresses) is an association list without
duplicate keys, justified by the theorems about `Verif.Hashmap`; its memory counts as one block.
An external map is represented by its current contents.  Heap blocks are numbers of
`Verif.Heap`.
-/
namespace Verif.TagMap
open Verif Verif.Entry

/-- include/metac/reflect/entry_tag.h `struct metac_entry_tag`: handler and context are
opaque, `freeCtx` says whether there is a `context_free_handler`. -/
structure Tag where
  handler : Option Nat
  ctx : Option Nat
  freeCtx : Bool
  str : Option (List UInt8)
deriving DecidableEq, Repr

/-- A copy of a tag kept in a map: its block, and the block of the copied string. -/
structure STag where
  block : Nat
  strBlock : Option Nat
  tag : Tag
deriving DecidableEq, Repr

mutual
/-- src/entry_tag.c:39-47 `struct metac_tag_map`: its block, the block of the categories, the
categories and the default tag. -/
inductive TagMap where
  | mk (block catsBlock : Nat) (cats : Cats) (dflt : Option STag)
/-- src/entry_tag.c:41-45: a category has either an external map (`p_map` is NULL) or a map
of its own (`p_ext_map` is NULL), see lines 127-136; `hm` is the block of the hash map. -/
inductive Cats where
  | nil
  | own (mask : Nat) (hm : Nat) (map : List (Ref × STag)) (rest : Cats)
  | ext (mask : Nat) (m : TagMap) (rest : Cats)
end

/-- `hashmapGet`. -/
def get : List (Ref × STag) → Ref → Option STag
  | [], _ => none
  | (k, s) :: m, r => if k = r then some s else get m r

/-- `hashmapPut`: the map afterwards and the previous value. -/
def put : List (Ref × STag) → Ref → STag → List (Ref × STag) × Option STag
  | [], r, s => ([(r, s)], none)
  | (k, s') :: m, r, s =>
    if k = r then ((k, s) :: m, some s')
    else ((k, s') :: (put m r s).1, (put m r s).2)

/-- src/entry_tag.c:161-172: the category bit of an entry (`1 << METAC_TEC_…`). -/
def kindMask (k : Int) : Nat :=
  if k = 15 then 1 <<< 2 else if k = 19 then 1 <<< 0 else if k = 20 then 1 <<< 1 else 0

/-- include/metac/reflect/entry_tag.h: `1 << METAC_TEC_final`. -/
def finalMask : Nat := 1 <<< 3

/-- src/entry_tag.c:193-203: the lookup of the final entry in a category; recomputing it for
every category is the same as remembering it. -/
def finalTag (db : Db) (p : Option Ref) (mask : Nat) (map : List (Ref × STag)) : Outcome (Option STag) :=
  if mask &&& finalMask ≠ 0 then do
    match ← Outcome.ofLoop (finalEntry db p) with
    | (some f, _) => return get map f
    | (none, _) => return none
  else .ok none

/-- A hash map lookup by pointer; NULL is never a key. -/
def getP (map : List (Ref × STag)) : Option Ref → Option STag
  | some r => get map r
  | none => none

mutual
/-- src/entry_tag.c:154-207 `metac_tag_map_tag` on a non-NULL map. -/
def tagOf (db : Db) (p : Option Ref) : TagMap → Outcome (Option STag)
  | .mk _ _ cats d => do
    match ← searchCats db p cats with
    | some t => return some t
    | none => return d
/-- src/entry_tag.c:174-204: the loop over the categories. -/
def searchCats (db : Db) (p : Option Ref) : Cats → Outcome (Option STag)
  | .nil => .ok none
  | .own mask _ map rest =>
    if mask &&& kindMask (kind db p) = 0 then searchCats db p rest
    else
      match getP map p with
      | some t => .ok (some t)
      | none => do
        match ← finalTag db p mask map with
        | some t => return some t
        | none => searchCats db p rest
  | .ext mask m rest =>
    if mask &&& kindMask (kind db p) = 0 then searchCats db p rest
    else do
      match ← tagOf db p m with
      | some t => return some t
      | none => .abort
end

/-- src/entry_tag.c:154-207 `metac_tag_map_tag`. -/
def tag (db : Db) (m : Option TagMap) (p : Option Ref) : Outcome (Option STag) :=
  match m with
  | none => .ok none
  | some m => tagOf db p m

/-- src/entry_tag.c:49-63 `_entry_new_tag`. -/
def newTag (t : Tag) (h : Heap) : Outcome (Option STag × Heap) :=
  match h.alloc with
  | (none, h) => .ok (none, h)
  | (some b, h) =>
    match t.str with
    | none => .ok (some ⟨b, none, t⟩, h)
    | some _ =>
      match h.alloc with
      | (some sb, h) => .ok (some ⟨b, some sb, t⟩, h)
      | (none, h) => do
        let h ← h.free b
        return (none, h)

/-- src/entry_tag.c:65-78 `_entry_tag_delete` (not NULL); the second component lists the
contexts given to `context_free_handler` so far. -/
def deleteTag (s : STag) : Heap × List Nat → Outcome (Heap × List Nat)
  | (h, tr) => do
    let h ← match s.strBlock with
      | some b => h.free b
      | none => .ok h
    let tr := match s.tag.ctx with
      | some c => if s.tag.freeCtx then tr ++ [c] else tr
      | none => tr
    let h ← h.free s.block
    return (h, tr)

/-- src/entry_tag.c:80-83, 92: the entries of one hash map (`hashmapForEach`). -/
def deleteEntries : List (Ref × STag) → Heap × List Nat → Outcome (Heap × List Nat)
  | [], st => .ok st
  | (_, s) :: m, st => do deleteEntries m (← deleteTag s st)

/-- src/entry_tag.c:90-95: the loop over the categories. -/
def deleteCats : Cats → Heap × List Nat → Outcome (Heap × List Nat)
  | .nil, st => .ok st
  | .own _ hm map rest, st => do
    let (h, tr) ← deleteEntries map st
    let h ← h.free hm
    deleteCats rest (h, tr)
  | .ext _ _ rest, st => deleteCats rest st

/-- src/entry_tag.c:85-102 `metac_tag_map_delete`. -/
def delete (m : Option TagMap) (st : Heap × List Nat) : Outcome (Heap × List Nat) :=
  match m with
  | none => .ok st
  | some (.mk b cb cats d) => do
    let (h, tr) ← deleteCats cats st
    let h ← h.free cb
    let (h, tr) ← match d with
      | some s => deleteTag s (h, tr)
      | none => .ok (h, tr)
    let h ← h.free b
    return (h, tr)

/-- include/metac/reflect/entry_tag.h `metac_tag_map_entry_t`: mask and external map. -/
abbrev CatSpec := Nat × Option TagMap

/-- src/entry_tag.c:130-140: create the categories; the categories made so far come back when
a hash map cannot be created (the second component is then false). -/
def newCats : List CatSpec → Heap → Cats × Bool × Heap
  | [], h => (.nil, true, h)
  | (mask, some m) :: cs, h =>
    let (rest, ok, h) := newCats cs h
    (.ext mask m rest, ok, h)
  | (mask, none) :: cs, h =>
    match h.alloc with
    | (none, h) => (.nil, false, h)
    | (some hm, h) =>
      let (rest, ok, h) := newCats cs h
      (.own mask hm [] rest, ok, h)

/-- src/entry_tag.c:114-120: copy the default tag, if any. -/
def newDefault (d : Option Tag) (h : Heap) : Outcome (Bool × Option STag × Heap) :=
  match d with
  | none => .ok (true, none, h)
  | some t => do
    match ← newTag t h with
    | (none, h) => return (false, none, h)
    | (some s, h) => return (true, some s, h)

/-- src/entry_tag.c:104-143 `metac_new_tag_map_ex`; `cats` is `none` for a NULL array. -/
def new (cats : Option (List CatSpec)) (d : Option Tag) (st : Heap × List Nat) : Outcome (Option TagMap × Heap × List Nat) :=
  match cats with
  | none => .ok (none, st)
  | some [] => .ok (none, st)
  | some cs =>
    match st.1.alloc with
    | (none, h) => .ok (none, h, st.2)
    | (some b, h) => do
      match ← newDefault d h with
      | (false, _, h) => do
        let h ← h.free b
        return (none, h, st.2)
      | (true, ds, h) =>
        match h.alloc with
        | (none, h) => do
          let (h, tr) ← match ds with
            | some s => deleteTag s (h, st.2)
            | none => .ok (h, st.2)
          let h ← h.free b
          return (none, h, tr)
        | (some cb, h) =>
          let (cats, ok, h) := newCats cs h
          if ok then return (some (.mk b cb cats ds), h, st.2)
          else do
            let (h, tr) ← delete (some (.mk b cb cats ds)) (h, st.2)
            return (none, h, tr)

/-- src/entry_tag.c:145-152 `metac_new_tag_map`. -/
def newSimple (d : Option Tag) (st : Heap × List Nat) : Outcome (Option TagMap × Heap × List Nat) :=
  new (some [(1 <<< 0 ||| 1 <<< 1 ||| 1 <<< 2, none)]) d st

/-- `categories_count`. -/
def Cats.count : Cats → Nat
  | .nil => 0
  | .own _ _ _ rest => rest.count + 1
  | .ext _ _ rest => rest.count + 1

/-- `p_categories[n].p_map`. -/
def Cats.map : Cats → Nat → Option (List (Ref × STag))
  | .nil, _ => none
  | .own _ _ map _, 0 => some map
  | .ext _ _ _, 0 => none
  | .own _ _ _ rest, n + 1 => rest.map n
  | .ext _ _ rest, n + 1 => rest.map n

/-- `p_categories[i].p_map`: reading outside the array is undefined. -/
def Cats.at (cats : Cats) (i : Int) : Outcome (Option (List (Ref × STag))) :=
  if i < 0 ∨ i ≥ cats.count then .ub else .ok (cats.map i.toNat)

/-- `p_categories[n].p_map` with new contents. -/
def Cats.setMap : Cats → Nat → List (Ref × STag) → Cats
  | .nil, _, _ => .nil
  | .own mask hm _ rest, 0, map => .own mask hm map rest
  | .ext mask m rest, 0, _ => .ext mask m rest
  | .own mask hm map' rest, n + 1, map => .own mask hm map' (rest.setMap n map)
  | .ext mask m rest, n + 1, map => .ext mask m (rest.setMap n map)

/-- src/entry_tag.c:212-240 `_tag_map_set_tag`; `putOk` says whether `hashmapPut` can get memory
for a new key. -/
def setTagRaw (cats : Cats) (n : Nat) (override : Bool) (r : Ref) (t : Tag) (putOk : Bool) (st : Heap × List Nat) :
    Outcome (Int × Cats × Heap × List Nat) :=
  match cats.map n with
  | none => .ub
  | some map =>
    if override = false ∧ (get map r).isSome then .ok (-114, cats, st)
    else do
      match ← newTag t st.1 with
      | (none, h) => return (-12, cats, h, st.2)
      | (some s, h) =>
        if putOk = false ∧ get map r = none then
          let h ← h.free s.block
          return (-14, cats, h, st.2)
        else
          match put map r s with
          | (map', none) => return (0, cats.setMap n map', h, st.2)
          | (map', some prev) =>
            if override = false then .abort
            else
              let (h, tr) ← deleteTag prev (h, st.2)
              return (0, cats.setMap n map', h, tr)

/-- src/entry_tag.c:242-274 `metac_tag_map_set_tag`: return code, map afterwards. -/
def setTag (db : Db) (m : Option TagMap) (category : Int) (override : Bool) (p : Option Ref) (op : Int) (t : Option Tag) (putOk : Bool)
    (st : Heap × List Nat) : Outcome (Int × Option TagMap × Heap × List Nat) :=
  match p, m, t with
  | some r, some (.mk b cb cats d), some t =>
    if category < 0 ∨ category ≥ cats.count then .ok (-22, m, st)
    else do
      match ← cats.at category with
      | none => return (-22, m, st)
      | some _ =>
        if op = 1 then
          let (c, cats, st) ← setTagRaw cats category.toNat override r t putOk st
          return (c, some (.mk b cb cats d), st)
        else if op = 2 then
          match ← Outcome.ofLoop (finalEntry db (some r)) with
          | (none, _) => return (-14, m, st)
          | (some f, _) =>
            let (c, cats, st) ← setTagRaw cats category.toNat override f t putOk st
            return (c, some (.mk b cb cats d), st)
        else return (0, m, st)
  | _, _, _ => .ok (-22, m, st)

end Verif.TagMap
