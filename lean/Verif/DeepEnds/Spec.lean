import Verif.Deep.Spec
import Verif.CDecl.Spec
/-
Specification for the end of the deep operations: what is inside an object, and what is assumed
of descriptions and handlers.  Nothing is assumed of memory: pointers may hold anything.
-/
namespace Verif.DeepEnds.Spec
open Verif Verif.Entry Verif.Entry.Spec Verif.Value Verif.Handlers Verif.ValueString Verif.ValueString.Spec

/-- The value is a function, called or recorded. -/
def Function (db : Db) (v : Value) : Prop :=
  ∃ x qs t ps, Final db v.entry (some x) qs ∧ ((db x).info = .subprogram t ps ∨ (db x).info = .subroutine t ps)

/-- `Inside env db v w`: `w` is directly inside `v`: a member of a struct or union, an element of
an array (also of an array of unknown length), an argument of a call.  What a pointer points to
is not inside the pointer. -/
inductive Inside (env : ValueString.Env) (db : Db) (v : Value) : Value → Prop where
  | member {x qs k s ms i w} : Final db v.entry (some x) qs → (db x).info = .struct k s ms → Member db v ms i w → Inside env db v w
  | element {x qs e n a} : Final db v.entry (some x) qs → (db x).info = .array (some e) n → v.addr ≤ a → Inside env db v ⟨e, a⟩
  | argument {w} : Packed env db v ∨ Function db v → w ∈ env.params v.addr → Inside env db v w

/-- The value is an array. -/
def ArrayValue (db : Db) (v : Value) : Prop := ∃ x qs e n, Final db v.entry (some x) qs ∧ (db x).info = .array e n

/-- The value is a struct or union. -/
def StructValue (db : Db) (v : Value) : Prop := ∃ x qs k s ms, Final db v.entry (some x) qs ∧ (db x).info = .struct k s ms

/-- What is assumed: descriptions do not run in a circle, no object is inside itself (directly
or not), and handlers come back; asked for the member of a union they reply with something inside
it; asked for the length of an array they reply with an array of its elements. -/
structure Tame (env : ValueString.Env) (db : Db) : Prop where
  types : ∀ r, Acyclic db r
  objects : ∀ v, Acc (fun w v => Inside env db v w) v
  interned : Interned env db
  back : ∀ tags r h ev stack, env.tags = some tags → tags r = some h → h ev stack ≠ .hang
  unions : ∀ v outer w, StructValue db v → Reply env .unionMember v outer (some w) → Inside env db v w
  arrays : ∀ v outer arr w, ArrayValue db v → Reply env .flexArrayCount v outer (some arr) → Inside env db arr w → Inside env db v w

end Verif.DeepEnds.Spec
