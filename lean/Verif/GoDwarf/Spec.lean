import Verif.GoDwarf.Model
/-
Specification: debug information as a forest.
-/
namespace Verif.GoDwarf.Spec
open GoMeta (Str)
open Verif.GoDwarf

/-- A debug information entry with what is below it.  `flag`: the entry says that it has children
(it may have none all the same); `sibling`: where the entry says the next one is. -/
inductive Die (α : Type) where
  | node (off : Off) (tag : Str) (body : α) (flag : Bool) (sibling : Option Off) (kids : List (Die α))

namespace Die
variable {α : Type}
def off : Die α → Off | node o _ _ _ _ _ => o
def tag : Die α → Str | node _ t _ _ _ _ => t
def body : Die α → α | node _ _ b _ _ _ => b
def kids : Die α → List (Die α) | node _ _ _ _ _ ks => ks

mutual
/-- The offsets of an entry and all below it. -/
def offs : Die α → List Off
  | node o _ _ _ _ ks => o :: offsAll ks
def offsAll : List (Die α) → List Off
  | [] => []
  | k :: ks => offs k ++ offsAll ks
end

mutual
/-- How it is stored: each entry, then its children, then an empty entry. -/
def stored : Die α → List (Item α)
  | node o t b f s ks => .entry ⟨o, t, f, s, some b⟩ :: if f then storedAll ks ++ [.null] else []
def storedAll : List (Die α) → List (Item α)
  | [] => []
  | k :: ks => stored k ++ storedAll ks
end

mutual
/-- Entries with children say so; below a unit there are no units; the next sibling is not below the
entry itself. -/
def Sound : Die α → Prop
  | node _ _ _ f s ks => (f = false → ks = []) ∧ (∀ x, s = some x → x ∉ offsAll ks) ∧ (∀ k ∈ ks, k.tag ≠ go! "CompileUnit") ∧ SoundAll ks
def SoundAll : List (Die α) → Prop
  | [] => True
  | k :: ks => Sound k ∧ SoundAll ks
end

/-- `below p d ds`: `d` is somewhere in `ds`, directly below `p` (`p0` for those of `ds`). -/
inductive Below : Off → List (Die α) → Off → Die α → Prop where
  | here {p0 ds d} : d ∈ ds → Below p0 ds p0 d
  | there {p0 ds k p d} : k ∈ ds → Below k.off k.kids p d → Below p0 ds p d
end Die

/-- Units one after the other, with any number of empty entries between them (padding). -/
def storedUnits {α : Type} (units : List (Nat × Die α)) : List (Item α) :=
  (units.map fun u => List.replicate u.1 .null ++ u.2.stored).flatten

end Verif.GoDwarf.Spec
