import Verif.Hashmap.Model
/-
Specification of a dictionary, independent of buckets, hashes and chains:
a list of (key, value) pairs with at most one pair per key class.
-/
namespace Verif.Hashmap.Spec
open Verif.Hashmap

/-- The contract a client must honour for the two callbacks: `equals` is an
equivalence relation and equal keys have equal hashes. -/
structure Contract {K : Type} (cb : Callbacks K) : Prop where
  refl : ∀ a, cb.equals a a = true
  symm : ∀ a b, cb.equals a b = true → cb.equals b a = true
  trans : ∀ a b c, cb.equals a b = true → cb.equals b c = true → cb.equals a c = true
  hash : ∀ a b, cb.equals a b = true → cb.hash a = cb.hash b

variable {K V : Type}

/-- A dictionary. -/
abbrev Dict (K V : Type) := List (K × V)

/-- Value stored for (the class of) `k`. -/
def lookup (eq : K → K → Bool) (d : Dict K V) (k : K) : Option V :=
  (d.find? (fun p => eq p.1 k)).map (·.2)

/-- Store `v` for `k`: replace in place if present, otherwise add. -/
def insert (eq : K → K → Bool) (d : Dict K V) (k : K) (v : V) : Dict K V :=
  if d.any (fun p => eq p.1 k) then
    d.map (fun p => if eq p.1 k then (p.1, v) else p)
  else d ++ [(k, v)]

/-- Forget (the class of) `k`. -/
def erase (eq : K → K → Bool) (d : Dict K V) (k : K) : Dict K V :=
  d.filter (fun p => !eq p.1 k)

/-- The dictionary's answer to each API call.  `a1 = false` (no memory for a new
entry) matters only when the key is absent; the second allocation flag (table
growth) has no visible effect. -/
def step (null : V) (eq : K → K → Bool) (d : Dict K V) : Op K V → Dict K V × Obs V
  | .put k v a1 _ =>
    match lookup eq d k with
    | some old => (insert eq d k v, .put .ok (some old))
    | none => if a1 then (insert eq d k v, .put .ok (some null)) else (d, .put .enomem none)
  | .get k => (d, .get ((lookup eq d k).getD null))
  | .contains k => (d, .contains (lookup eq d k).isSome)
  | .memoize k init a1 _ =>
    match lookup eq d k with
    | some old => (d, .memoize .ok (some old) 0)
    | none => if a1 then (insert eq d k init, .memoize .ok (some init) 1)
              else (d, .memoize .enomem none 0)
  | .remove k => (erase eq d k, .remove ((lookup eq d k).getD null))
  | .size => (d, .size d.length)

/-- The dictionary's answers to a whole history. -/
def run (null : V) (eq : K → K → Bool) : Dict K V → List (Op K V) → Dict K V × List (Obs V)
  | d, [] => (d, [])
  | d, op :: ops =>
    let r := step null eq d op
    let rs := run null eq r.1 ops
    (rs.1, r.2 :: rs.2)

end Verif.Hashmap.Spec
