import Verif.Deep.EqualSpec
/-
When values that are compared as equal are printed as the same text.
-/
namespace Verif.SameText.Spec
open Verif Verif.Entry Verif.Entry.Spec Verif.Value Verif.Value.Spec Verif.Handlers Verif.ValueString.Spec Verif.Deep.Spec
open Verif.Deep (Node Map)

/-- Objects of one type, or arrays of known lengths of one type of elements. -/
def Related (db : Db) (v w : Value) : Prop :=
  v.entry = w.entry ∨ ∃ e n n', IsArray db v e n ∧ IsArray db w e n' ∧ n ≠ -1 ∧ n' ≠ -1

/-- Both handlers say nothing, or both say something, related by `R`. -/
def Both (R : Value → Value → Prop) (r r' : Option Value) : Prop := (r = none ∧ r' = none) ∨ ∃ w w', r = some w ∧ r' = some w' ∧ R w w'

/-- What handlers say of corresponding objects (`x` inside `o`, `y` inside `o'`) is alike: the
same member of a union; arrays of the same type of elements, which (for the second value) begin
where the pointer points to. -/
structure AlikeReplies (env : Deep.Env) (mode : Deep.Mode) (db : Db) (m : Mem) (M₁ M₂ : Map) : Prop where
  union : ∀ x y o o' r r', Paired M₁.top M₂.top x y → Tree env mode db m o x → Tree env mode db m o' y →
    Reply env.vs .unionMember x.val o r → Reply env.vs .unionMember y.val o' r' → Both (fun w w' => w.entry = w'.entry) r r'
  flexible : ∀ x y o o' r r', Paired M₁.top M₂.top x y → Tree env mode db m o x → Tree env mode db m o' y →
    Reply env.vs .flexArrayCount x.val o r → Reply env.vs .flexArrayCount y.val o' r' → Both (Related db) r r'
  pointer : ∀ x y o o' r r', Paired M₁.top M₂.top x y → Tree env mode db m o x → Tree env mode db m o' y →
    Reply env.vs .pointerArrayCount x.val o r → Reply env.vs .pointerArrayCount y.val o' r' →
      Both (fun w w' => Related db w w' ∧ Holds m y.val.addr 8 w'.addr) r r'
  /-- whoever is asked of the first is asked of the second -/
  answered : ∀ ev x y o o' r, Paired M₁.top M₂.top x y → Tree env mode db m o x → Tree env mode db m o' y →
    Reply env.vs ev x.val o r → ∃ r', Reply env.vs ev y.val o' r'

/-- Data whose text depends on what is compared: no argument lists and calls; pointers that are
not followed are compared as values, and point to nothing that is only declared; floating-point
numbers that are equal have the same text; the elements of arrays are no bit-fields, and a `char`
is one byte. -/
structure Data (env : Deep.Env) (mode : Deep.Mode) (db : Db) (M₁ M₂ : Map) : Prop where
  calls : ∀ x, Within M₁.top x ∨ Within M₂.top x →
    ¬ Packed env.vs db x.val ∧ (∀ t ps, ¬ Typed db x.val (.subprogram t ps)) ∧ ∀ t ps, ¬ Typed db x.val (.subroutine t ps)
  asValues : mode.uptr = .asValues
  complete : ∀ x e, Within M₁.top x → Typed db x.val (.pointer (some e)) → (db e).declaration = false
  reals : ∀ t a b, env.cfg.feq t a b = true → env.flt t a = env.flt t b
  elements : ∀ r e c, (db r).info = .array (some e) c → ¬ IsBitfield db e
  chars : ∀ r s e, (db r).info = .base s e → (db r).name = some [99, 104, 97, 114] → s = 1

end Verif.SameText.Spec
