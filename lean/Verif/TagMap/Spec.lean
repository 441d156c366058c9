import Verif.TagMap.Model
import Verif.Entry.Spec
/-
Specification of tag maps: which tag an entry has, what an assignment changes, which memory
a map owns.
-/
namespace Verif.TagMap.Spec
open Verif Verif.Entry Verif.Entry.Spec Verif.TagMap

/-- The entry is a variable, a parameter or a member, and the category is for such entries
(bits 0, 1 and 2 of its mask). -/
inductive Applies (db : Db) (r : Ref) (mask : Nat) : Prop where
  | var {t} : (db r).info = .var t → mask.testBit 0 = true → Applies db r mask
  | param {u t} : (db r).info = .param u t → mask.testBit 1 = true → Applies db r mask
  | member {i} : (db r).info = .member i → mask.testBit 2 = true → Applies db r mask

/-- A category's own map has a tag for the entry, directly or, if the category covers final
types (bit 3), for its final type. -/
inductive Knows (db : Db) (r : Ref) (mask : Nat) (map : List (Ref × STag)) : STag → Prop where
  | entry {s} : (r, s) ∈ map → Knows db r mask map s
  | final {f qs s} : (∀ s', (r, s') ∉ map) → mask.testBit 3 = true → Final db r (some f) qs → (f, s) ∈ map → Knows db r mask map s

mutual
/-- `Gives db r m t`: the tag of entry `r` in map `m` is `t` (`none`: it has none). -/
inductive Gives (db : Db) (r : Ref) : TagMap → Option STag → Prop where
  | category {b cb cats d s} : First db r cats s → Gives db r (.mk b cb cats d) (some s)
  | default {b cb cats d} : Silent db r cats → Gives db r (.mk b cb cats d) d
/-- The first category that knows the entry gives tag `s`. -/
inductive First (db : Db) (r : Ref) : Cats → STag → Prop where
  | own {mask hm map rest s} : Applies db r mask → Knows db r mask map s → First db r (.own mask hm map rest) s
  | ext {mask m rest s} : Applies db r mask → Gives db r m (some s) → First db r (.ext mask m rest) s
  | laterOwn {mask hm map rest s} : (Applies db r mask → ∀ s', ¬ Knows db r mask map s') → First db r rest s →
      First db r (.own mask hm map rest) s
  | skipExt {mask m rest s} : ¬ Applies db r mask → First db r rest s → First db r (.ext mask m rest) s
  | laterExt {mask m rest s} : Gives db r m none → First db r rest s → First db r (.ext mask m rest) s
/-- No category knows the entry. -/
inductive Silent (db : Db) (r : Ref) : Cats → Prop where
  | nil : Silent db r .nil
  | own {mask hm map rest} : (Applies db r mask → ∀ s', ¬ Knows db r mask map s') → Silent db r rest → Silent db r (.own mask hm map rest)
  | skipExt {mask m rest} : ¬ Applies db r mask → Silent db r rest → Silent db r (.ext mask m rest)
  | ext {mask m rest} : Gives db r m none → Silent db r rest → Silent db r (.ext mask m rest)
end

mutual
/-- The search for the tag of `r` comes to an external map that has no answer. -/
inductive Miss (db : Db) (r : Ref) : TagMap → Prop where
  | mk {b cb cats d} : MissCats db r cats → Miss db r (.mk b cb cats d)
inductive MissCats (db : Db) (r : Ref) : Cats → Prop where
  | here {mask m rest} : Applies db r mask → Gives db r m none → MissCats db r (.ext mask m rest)
  | inside {mask m rest} : Applies db r mask → Miss db r m → MissCats db r (.ext mask m rest)
  | laterOwn {mask hm map rest} : (Applies db r mask → ∀ s', ¬ Knows db r mask map s') → MissCats db r rest → MissCats db r (.own mask hm map rest)
  | laterExt {mask m rest} : ¬ Applies db r mask → MissCats db r rest → MissCats db r (.ext mask m rest)
end

/-- No category is external. -/
def Plain : Cats → Prop
  | .nil => True
  | .own _ _ _ rest => Plain rest
  | .ext _ _ _ => False

mutual
/-- In every map an entry has at most one tag. -/
def Distinct : TagMap → Prop
  | .mk _ _ cats _ => DistinctCats cats
def DistinctCats : Cats → Prop
  | .nil => True
  | .own _ _ map rest => (map.map Prod.fst).Nodup ∧ DistinctCats rest
  | .ext _ m rest => Distinct m ∧ DistinctCats rest
end

/-! ### Assignments -/

/-- The category exists among those the map was created with, and is not external. -/
def Own (cs : List (Nat × Option TagMap)) (i : Int) : Prop := ∃ (n : Nat) (mask : Nat), i = n ∧ cs[n]? = some (mask, none)

/-- Assignment table: the tag assigned to an entry in a category. -/
abbrev Table := Nat → Ref → Option Tag

/-- The table with one assignment changed. -/
def Table.assign (T : Table) (n : Nat) (r : Ref) (t : Tag) : Table := fun n' r' => if n' = n ∧ r' = r then some t else T n' r'

/-- A call of `metac_tag_map_set_tag`. -/
structure Call where
  category : Int
  override : Bool
  entry : Option Ref
  op : Int
  tag : Option Tag
  putOk : Bool

/-- The entry whose tag a call is about: the given one (op 1) or its final type (op 2). -/
inductive Target (db : Db) : Call → Option Ref → Prop where
  | entry {c r} : c.entry = some r → c.op = 1 → Target db c (some r)
  | final {c r f qs} : c.entry = some r → c.op = 2 → Final db r f qs → Target db c f

/-- `Effect db own T c code T'`: what a call may do with assignment table `T`; `own n` says
that category `n` exists and has its own map, `oom` that memory can be short. -/
inductive Effect (db : Db) (own : Int → Prop) (oom : Prop) (T : Table) (c : Call) : Int → Table → Prop where
  | stored {n : Nat} {r t} : own n → c.category = n → Target db c (some r) → c.tag = some t →
      (c.override = true ∨ T n r = none) → Effect db own oom T c 0 (T.assign n r t)
  | conflict {n : Nat} {r t t'} : own n → c.category = n → Target db c (some r) → c.tag = some t →
      c.override = false → T n r = some t' → Effect db own oom T c (-114) T
  | noMemory {n : Nat} {r t code} : own n → c.category = n → Target db c (some r) → c.tag = some t →
      (c.override = true ∨ T n r = none) → oom → (code = -12 ∨ code = -14) → Effect db own oom T c code T
  | void {t} : own c.category → Target db c none → c.tag = some t → Effect db own oom T c (-14) T
  | nothing {t r} : own c.category → c.entry = some r → c.tag = some t → c.op ≠ 1 → c.op ≠ 2 → Effect db own oom T c 0 T
  | invalid : (¬ own c.category ∨ c.entry = none ∨ c.tag = none) → Effect db own oom T c (-22) T

/-- The effects of a history of calls, with the returned codes. -/
inductive History (db : Db) (own : Int → Prop) (oom : Prop) : Table → List Call → List Int → Table → Prop where
  | nil {T} : History db own oom T [] [] T
  | cons {T T' T'' c cs code codes} : Effect db own oom T c code T' → History db own oom T' cs codes T'' →
      History db own oom T (c :: cs) (code :: codes) T''

/-- A history of calls on one map: returned codes, map and memory afterwards. -/
def run (db : Db) : List Call → Option TagMap → Heap × List Nat → Outcome (List Int × Option TagMap × Heap × List Nat)
  | [], m, st => .ok ([], m, st)
  | c :: cs, m, st => do
    let (code, m, st) ← setTag db m c.category c.override c.entry c.op c.tag c.putOk st
    let (codes, m, st) ← run db cs m st
    return (code :: codes, m, st)

/-- Category `n` has tag `t` for the entry according to the assignment table. -/
inductive KnowsT (db : Db) (r : Ref) (T : Table) (n mask : Nat) : Tag → Prop where
  | entry {t} : T n r = some t → KnowsT db r T n mask t
  | final {f qs t} : T n r = none → mask.testBit 3 = true → Final db r (some f) qs → T n f = some t → KnowsT db r T n mask t

/-- `Chosen db r masks T d t`: given the categories' masks, the assignments and the default
tag, entry `r` has tag `t`. -/
inductive Chosen (db : Db) (r : Ref) (masks : List Nat) (T : Table) (d : Option Tag) : Option Tag → Prop where
  | category {n mask : Nat} {t : Tag} : masks[n]? = some mask → Applies db r mask → KnowsT db r T n mask t →
      (∀ n' mask', n' < n → masks[n']? = some mask' → Applies db r mask' → ∀ t', ¬ KnowsT db r T n' mask' t') →
      Chosen db r masks T d (some t)
  | default : (∀ n' mask' : Nat, masks[n']? = some mask' → Applies db r mask' → ∀ t', ¬ KnowsT db r T n' mask' t') →
      Chosen db r masks T d d

/-! ### Memory -/

/-- The context that has to be released together with the tag. -/
def release (t : Tag) : List Nat :=
  match t.ctx, t.freeCtx with
  | some c, true => [c]
  | _, _ => []

/-- The contexts of the tags that were stored by a history of calls. -/
def releases : List Call → List Int → List Nat
  | c :: cs, code :: codes => (if code = 0 ∧ (c.op = 1 ∨ c.op = 2) then (c.tag.map release).getD [] else []) ++ releases cs codes
  | _, _ => []

end Verif.TagMap.Spec
