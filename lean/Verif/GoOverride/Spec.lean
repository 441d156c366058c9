import Verif.GoOverride.Model
/-
Specification of merging: what can be read at a path of keys.
-/
namespace Verif.GoOverride.Spec
open Verif.GoOverride

/-- What a reader finds at a place. -/
inductive Content where
  | null
  | other (n : Nat)
  | table
deriving DecidableEq

/-- The table has the entry. -/
inductive Has : Table → Key → Val → Prop where
  | here (k v rest) : Has (.cons k v rest) k v
  | there {k v rest k' v'} : Has rest k v → Has (.cons k' v' rest) k v

/-- Reading the table at a path of keys finds the content. -/
inductive At : Table → List Key → Content → Prop where
  | root (t) : At t [] .table
  | null {t k} : Has t k .null → At t [k] .null
  | other {t k n} : Has t k (.other n) → At t [k] (.other n)
  | table {t k s p c} : Has t k (.table s) → At s p c → At t (k :: p) c

/-- A Go map: no key occurs twice, here and in all sub-tables. -/
inductive Map : Table → Prop where
  | nil : Map .nil
  | cons {k v rest} : (∀ w, ¬ Has rest k w) → (∀ t, v = .table t → Map t) → Map rest → Map (.cons k v rest)

/-- Nothing other than a table stands at a proper prefix of the path. -/
def Open (t : Table) (p : List Key) : Prop := ∀ q r c, p = q ++ r → r ≠ [] → At t q c → c = .table

/-- What the merged configuration must read as: the override where it says something; what the
original says where the override says nothing and does not cut the path off. -/
def Merged (inp ov : Table) (p : List Key) (c : Content) : Prop :=
  At ov p c ∨ (At inp p c ∧ (∀ c', ¬ At ov p c') ∧ Open ov p)

/-- Several overrides, the one applied last first: each wins over what comes before it. -/
def Layered (inp : Table) : List Table → List Key → Content → Prop
  | [], p, c => At inp p c
  | ov :: before, p, c => At ov p c ∨ (Layered inp before p c ∧ (∀ c', ¬ At ov p c') ∧ Open ov p)

/-- Two tables read the same. -/
def Same (t t' : Table) : Prop := ∀ p c, At t p c ↔ At t' p c

end Verif.GoOverride.Spec
