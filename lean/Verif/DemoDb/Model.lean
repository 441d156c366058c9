import Verif.Heap
/-
Model of the database of the demo, doc/demo/step_00 to step_05 (demodb.c is the same file in all of
them).  Blocks are identities (Verif/Heap.lean); the text a block made by `strdup` holds is kept with
the pointer to it, since nothing writes to it.
-/
namespace Verif.DemoDb
open Verif

abbrev Str := List UInt8

/-- demodb.h `person_t`, as a caller gives it. -/
structure Person where
  first : Option Str
  last : Option Str
  age : Int
  status : Nat
deriving DecidableEq, Repr

/-- A name in a record: NULL, the pointer of the caller, or a block of the database with its text. -/
inductive Ptr where
  | null
  | caller
  | own (b : Nat) (s : Str)
deriving DecidableEq, Repr

/-- demodb.h `person_t`, as it is in memory. -/
structure Cell where
  first : Ptr
  last : Ptr
  age : Int
  status : Nat
deriving DecidableEq, Repr

/-- demodb.c:7-10 `struct db`: its block, the number of records there is room for, `count`, and the
records that have been written, also those after `count`. -/
structure Db where
  block : Nat
  room : Nat
  count : Nat
  data : List Cell

/-- Reading `data[i]`: undefined outside the block or if it has not been written. -/
def Db.read (d : Db) (i : Nat) : Outcome Cell :=
  if i < d.room then match d.data[i]? with
    | some c => .ok c
    | none => .ub
  else .ub

/-- Writing `data[i]`: undefined outside the block.  (Records are written one after another: a gap
does not arise and is counted as undefined.) -/
def Db.write (d : Db) (i : Nat) (c : Cell) : Outcome Db :=
  if i < d.room ∧ i ≤ d.data.length then .ok { d with data := if i = d.data.length then d.data ++ [c] else d.data.set i c } else .ub

/-- `realloc` to room for `n` records: a new block with what was in the old one, which is released; or
NULL. -/
def realloc (d : Db) (n : Nat) (h : Heap) : Outcome (Option Db × Heap) :=
  match h.alloc with
  | (none, h) => .ok (none, h)
  | (some b, h) => do
    let h ← h.free d.block
    return (some { block := b, room := n, count := d.count, data := d.data.take n }, h)

/-- demodb.c:12-14 `new_db`. -/
def newDb (h : Heap) : Option Db × Heap :=
  match h.alloc with
  | (none, h) => (none, h)
  | (some b, h) => (some { block := b, room := 0, count := 0, data := [] }, h)

/-- demodb.c:22-27, 57-59, 72-77: `free` of a name that is not NULL.  What belongs to the caller
is not to be freed here. -/
def freeName : Ptr → Heap → Outcome Heap
  | .null, h => .ok h
  | .caller, _ => .ub
  | .own b _, h => h.free b

/-- demodb.c:21-28: the names of the records from `i` on. -/
def freeNames (d : Db) : Nat → Nat → Heap → Outcome Heap
  | 0, _, h => .ok h
  | n + 1, i, h => do
    let c ← d.read i
    let h ← freeName c.first h
    let h ← freeName c.last h
    freeNames d n (i + 1) h

/-- demodb.c:16-31 `db_delete`. -/
def dbDelete : Option Db → Heap → Outcome Heap
  | none, h => .ok h
  | some d, h => do
    let h ← freeNames d d.count 0 h
    h.free d.block

/-- `strdup`. -/
def strdup (s : Str) (h : Heap) : Option Ptr × Heap :=
  match h.alloc with
  | (none, h) => (none, h)
  | (some b, h) => (some (.own b s), h)

/-- The pointer of the caller to a name. -/
def given : Option Str → Ptr
  | none => .null
  | some _ => .caller

/-- demodb.c:48-53, 54-62: a name is copied, if there is one; `none`: out of memory. -/
def dupName (s : Option Str) (h : Heap) : Option Ptr × Heap :=
  match s with
  | none => (some .null, h)
  | some s => strdup s h

/-- demodb.c:33-65 `db_append`, with the database that is left in `*pp_db`.  `inx + 2` must be an `int`;
that the address of `data[inx + 2]` is taken before there is such a record (40) is not counted as
undefined. -/
def append : Option Db → Option Person → Heap → Outcome (Int × Option Db × Heap)
  | some d, some p, h => do
    let inx := d.count
    if inx + 2 ≥ 2 ^ 31 then Outcome.ub
    match ← realloc d (inx + 2) h with
    | (none, h) => return (-12, some d, h)
    | (some d, h) =>
      let d ← d.write inx { first := given p.first, last := given p.last, age := p.age, status := p.status }
      match dupName p.first h with
      | (none, h) => return (-12, some d, h)
      | (some first, h) =>
        let d ← d.write inx { first, last := given p.last, age := p.age, status := p.status }
        match dupName p.last h with
        | (none, h) =>
          let h ← freeName first h
          return (-12, some d, h)
        | (some last, h) =>
          let d ← d.write inx { first, last, age := p.age, status := p.status }
          return (0, some { d with count := inx + 1 }, h)
  | d, _, h => .ok (-22, d, h)

/-- demodb.c:80 `memcpy` of `n` records from `i + 1` to `i`: undefined if the places overlap. -/
def moveDown (d : Db) (i : Nat) : Nat → Outcome Db
  | 0 => .ok d
  | 1 => do d.write i (← d.read (i + 1))
  | _ => .ub

/-- demodb.c:67-85 `db_delete_record`. -/
def deleteRecord : Option Db → Int → Heap → Outcome (Int × Option Db × Heap)
  | none, _, h => .ok (-22, none, h)
  | some d, inx, h =>
    if inx < 0 ∨ inx ≥ d.count then .ok (-22, some d, h)
    else do
      let i := inx.toNat
      let c ← d.read i
      let h ← freeName c.first h
      let h ← freeName c.last h
      let d ← if i ≠ d.count - 1 then moveDown d i (d.count - 1 - i) else .ok d
      return (0, some { d with count := d.count - 1 }, h)

end Verif.DemoDb
