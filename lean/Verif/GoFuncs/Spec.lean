import Verif.GoFuncs.Model
/-
Specification: a map is the relation between names and functions.
-/
namespace Verif.GoFuncs.Spec

/-- Each name is there once. -/
def Proper {V : Type} (m : List (String × V)) : Prop := (m.map Prod.fst).Nodup

/-- The functions after adding `generic` to `m`. -/
inductive Added {F : Type} (generic : List (String × Option F)) (m : List (String × F)) : String → F → Prop where
  | new {k f} : (k, some f) ∈ generic → Added generic m k f
  | old {k f} : (k, f) ∈ m → (∀ g, (k, some g) ∉ generic) → Added generic m k f

/-- What the message that is logged says: a name that is there is skipped. -/
inductive Skipping {F : Type} (generic : List (String × Option F)) (m : List (String × F)) : String → F → Prop where
  | old {k f} : (k, f) ∈ m → Skipping generic m k f
  | new {k f} : (k, some f) ∈ generic → (∀ g, (k, g) ∉ m) → Skipping generic m k f

end Verif.GoFuncs.Spec
