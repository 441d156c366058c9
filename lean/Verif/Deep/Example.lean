import Verif.Deep.World
/-
Data for the examples beside the theorems on memory maps.
-/
namespace Verif.Deep.Example
open Verif Verif.Entry Verif.Entry.Spec Verif.Value Verif.Value.Spec Verif.Handlers Verif.ValueString Verif.ValueString.Spec Spec World

/-- `struct node { struct node *next; int *data; int x; }` (7), `struct root { struct node *a, *b; int *i; }` (11),
`struct pair { int a; struct {} e; int b; }` (16), `struct { struct pair *t; struct {} *e; }` (21). -/
def types : List Entry := [
  { info := .base 1 8, name := some [117] },
  { info := .base 4 5, name := some [105] },
  { info := .pointer (some 1) },
  { info := .pointer (some 7) },
  { info := .member { type := some 3, byteOffset := 0 }, name := some [110] },
  { info := .member { type := some 2, byteOffset := 8 }, name := some [100] },
  { info := .member { type := some 1, byteOffset := 16 }, name := some [120] },
  { info := .struct .struct 24 [4, 5, 6], name := some [110] },
  { info := .member { type := some 3, byteOffset := 0 }, name := some [97] },
  { info := .member { type := some 3, byteOffset := 8 }, name := some [98] },
  { info := .member { type := some 2, byteOffset := 16 }, name := some [105] },
  { info := .struct .struct 24 [8, 9, 10], name := some [114] },
  { info := .struct .struct 0 [] },
  { info := .member { type := some 1, byteOffset := 0 }, name := some [97] },
  { info := .member { type := some 12, byteOffset := 4 }, name := some [101] },
  { info := .member { type := some 1, byteOffset := 4 }, name := some [98] },
  { info := .struct .struct 8 [13, 14, 15], name := some [112] },
  { info := .pointer (some 16) },
  { info := .pointer (some 12) },
  { info := .member { type := some 17, byteOffset := 0 }, name := some [116] },
  { info := .member { type := some 18, byteOffset := 8 }, name := some [101] },
  { info := .struct .struct 16 [19, 20] }]

theorem types_ok : worldOk types [1, 4, 8, 8, 8, 8, 4, 24, 8, 8, 8, 24, 0, 4, 0, 4, 8, 8, 8, 8, 8, 16] = true := by decide

def mode : Mode := ⟨true, .ignore, .ignore, false⟩

/-- At 100 a root: `a` is the node at 200, `b` the node at 300, `i` the number at 400.  The two
nodes form a ring; the data of the first is its own number, the data of the second is shared
with the root. -/
def ring : Mem := words [(100, 200), (108, 300), (116, 400), (200, 300), (208, 216), (216, 7), (300, 200), (308, 400), (316, 8), (400, 9)]

def ringTree : Node := (build types mode ring 20 [] ⟨11, 100⟩).get (by decide)

theorem ring_build : build types mode ring 20 [] ⟨11, 100⟩ = some ringTree := (Option.some_get _).symm

theorem ring_ranges : ranges ringTree = [(400, 4), (300, 24), (216, 4), (200, 24), (216, 4), (200, 24), (400, 4), (300, 24), (400, 4)] := by decide +kernel

def ringMap : Map := ⟨(number ringTree 0).1, [(400, 2, 4), (300, 6, 24), (216, 9, 4), (200, 13, 24)], [(9, 16)]⟩

theorem ring_map : memoryMap (env types) id mode (world types) ring (some ⟨11, 100⟩) = .ok (some ringMap) := by
  have h := map_of (offs := [(9, 16)]) types_ok ring_build (by decide +kernel)
  rw [h, show (if mode.dag then (targets (number ringTree 0).1).foldl reg [] else []) = ringMap.map by decide +kernel]
  rfl

theorem id_order : Order id := fun l => .refl l

/-- The same ring with the members of the root set the other way round. -/
def gnir : Mem := words [(100, 300), (108, 200), (116, 400), (200, 300), (208, 216), (216, 7), (300, 200), (308, 400), (316, 8), (400, 9)]

def gnirTree : Node := (build types mode gnir 20 [] ⟨11, 100⟩).get (by decide)

theorem gnir_build : build types mode gnir 20 [] ⟨11, 100⟩ = some gnirTree := (Option.some_get _).symm

theorem gnir_ranges : ranges gnirTree = [(216, 4), (200, 24), (400, 4), (300, 24), (400, 4), (300, 24), (216, 4), (200, 24), (400, 4)] := by decide +kernel

/-- At 100 a node whose data is its own number. -/
def self : Mem := words [(100, 0), (108, 116), (116, 7)]

def selfTree : Node := (build types mode self 20 [] ⟨7, 100⟩).get (by decide)

theorem self_build : build types mode self 20 [] ⟨7, 100⟩ = some selfTree := (Option.some_get _).symm

/-- At 100 a pointer to the pair at 200 and one to its empty member at 204. -/
def hollow : Mem := words [(100, 200), (108, 204), (200, 7)]

def hollowTree : Node := (build types mode hollow 20 [] ⟨21, 100⟩).get (by decide)

theorem hollow_build : build types mode hollow 20 [] ⟨21, 100⟩ = some hollowTree := (Option.some_get _).symm

end Verif.Deep.Example
