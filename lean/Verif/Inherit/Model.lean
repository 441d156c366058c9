import Verif.Common
/-
Model of include/metac/inherit.h: structures that take over the members of others, as the macros
make them, and where the compiler puts their members.
-/
namespace Verif.Inherit

abbrev Name := String

/-- What is written in a `struct_X_as_name` macro: a member of a size and an alignment, or
`METAC_STRUCT_INHERIT<k>(parent)`. -/
inductive Item where
  | field (n : Name) (size align : Nat)
  | inherit (k : Nat) (parent : Name)

/-- The macros of a program, the latest first.  A structure can only take over one that is already
complete: that is, created before. -/
abbrev Env := List (Name × List Item)

/-- A member after preprocessing: as written, or an anonymous union of an anonymous structure and
a member with the type and the name of the parent (inherit.h:67-70). -/
inductive Member where
  | field (n : Name) (size align : Nat)
  | union (anon : List Member) (parent : Name) (named : List Member)

/-- inherit.h:66-100: one item.  `hidden` are the numbers of the macros `METAC_STRUCT_INHERIT<k>` of which the
replacement is being rescanned: they are not replaced again.  There are seven of them, 0 to 6.
`none`: the compiler is left with the name of a macro or with an incomplete type.  The named member
has the type that `METAC_STRUCT_CREATE` made. -/
def expandItem (ex : List Nat → Name → Option (List Member)) (hidden : List Nat) : Item → Option Member
  | .field n s a => some (Member.field n s a)
  | .inherit k p =>
    if k < 7 ∧ k ∉ hidden then do
      let anon ← ex (k :: hidden) p
      let named ← ex [] p
      return Member.union anon p named
    else none

/-- All items. -/
def expandItems (ex : List Nat → Name → Option (List Member)) (hidden : List Nat) : List Item → Option (List Member)
  | [] => some []
  | i :: is => do return (← expandItem ex hidden i) :: (← expandItems ex hidden is)

/-- inherit.h:65-100: the members of `struct x`, as they are after preprocessing. -/
def expand : Env → List Nat → Name → Option (List Member)
  | [], _, _ => none
  | (y, items) :: env, hidden, x =>
    if x = y then expandItems (expand env) hidden items else expand env hidden x

/-! ### The compiler -/

/-- The next multiple of the alignment. -/
def alignUp (o a : Nat) : Nat := (o + (a - 1)) / a * a

mutual
/-- Alignment of a member: of a union, the largest one. -/
def memAlign : Member → Nat
  | .field _ _ a => a
  | .union anon _ named => max (align anon) (align named)

/-- Alignment of a structure. -/
def align : List Member → Nat
  | [] => 1
  | m :: ms => max (memAlign m) (align ms)
end

mutual
/-- Size of a member: of a union, that of its largest member, filled up to the alignment. -/
def memSize : Member → Nat
  | .field _ s _ => s
  | .union anon _ named =>
    alignUp (max (alignUp (fill anon 0) (align anon)) (alignUp (fill named 0) (align named))) (max (align anon) (align named))

/-- The end of the last of the members, from `o` on. -/
def fill : List Member → Nat → Nat
  | [], o => o
  | m :: ms, o => fill ms (alignUp o (memAlign m) + memSize m)
end

/-- `sizeof`. -/
def size (ms : List Member) : Nat := alignUp (fill ms 0) (align ms)

mutual
/-- What can be accessed in a member at offset `o`: the names in between the dots, and the offset. -/
def memPlaces : Member → Nat → List (List Name × Nat)
  | .field n _ _, o => [([n], o)]
  | .union anon p named, o => listPlaces anon o 0 ++ ([p], o) :: (listPlaces named o 0).map fun q => (p :: q.1, q.2)

/-- The same for the members from offset `rel` on of a structure at `base`. -/
def listPlaces : List Member → Nat → Nat → List (List Name × Nat)
  | [], _, _ => []
  | m :: ms, base, rel => memPlaces m (base + alignUp rel (memAlign m)) ++ listPlaces ms base (alignUp rel (memAlign m) + memSize m)
end

/-- `offsetof` for everything that can be accessed in a structure. -/
def places (ms : List Member) : List (List Name × Nat) := listPlaces ms 0 0

end Verif.Inherit
