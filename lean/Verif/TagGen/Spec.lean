import Verif.TagGen.Model
import Verif.TagMap.Spec
/-
Specification of generator functions.
-/
namespace Verif.TagGen.Spec
open Verif Verif.Entry Verif.Entry.Spec Verif.TagMap Verif.TagMap.Spec

/-- The entry that `METAC_TAG_MAP_ENTRY_SELF/MEMBER/PARAMETER` names in the section of `cur`. -/
inductive Denotes (db : Db) (cur : Option Ref) : Which → Option Ref → Prop where
  | self : Denotes db cur .self cur
  | member {ids e} : byMemberIds db cur false ids = some e → Denotes db cur (.member ids) e
  | param {id e} : byParameterIds db cur false id = some e → Denotes db cur (.param id) e

/-- `Written db cur ss cs whole`: the statements ask for the assignments `cs`, one after
another; `whole` is false if they come to a section whose entry does not exist. -/
inductive Written (db : Db) : Option Ref → List Stmt → List Call → Bool → Prop where
  | end {cur} : Written db cur [] [] true
  | missing {cur ss} : Written db cur (.entry none :: ss) [] false
  | entry {cur r ss cs whole} : Written db (some r) ss cs whole → Written db cur (.entry (some r) :: ss) cs whole
  | setTag {cur a e ss cs whole} : Denotes db cur a.which e → Written db cur ss cs whole →
      Written db cur (.setTag a :: ss) (⟨a.category, a.override, e, a.op, some a.tag, a.putOk⟩ :: cs) whole

/-- `Progress cs whole pre codes done`: of the assignments `cs` exactly `pre` are tried, with
the given codes; `done` says that this is everything that was asked for. -/
inductive Progress (cs : List Call) (whole : Bool) : List Call → List Int → Bool → Prop where
  | done {codes} : whole = true → (∀ c ∈ codes, c = 0) → Progress cs whole cs codes true
  | missing {codes} : whole = false → (∀ c ∈ codes, c = 0) → Progress cs whole cs codes false
  | refused {pre c rest codes code} : cs = pre ++ c :: rest → (∀ c ∈ codes, c = 0) → code ≠ 0 →
      codes.length = pre.length → Progress cs whole (pre ++ [c]) (codes ++ [code]) false

/-- The contexts made for the tags of these assignments. -/
def contexts (cs : List Call) : List Nat := cs.flatMap fun c => (c.tag.map release).getD []

end Verif.TagGen.Spec
