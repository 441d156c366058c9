import Verif.Emit.Spec
/-
Specification: what a program should be told about the objects of a database.
-/
namespace Verif.Emit.Spec
open Verif.GoMeta (Str)

/-- The kind of an object, const.h:16-45. -/
def kind : Obj → Int
  | .typedef .. => 0
  | .base .. => 1
  | .pointer .. => 2
  | .enumeration .. => 3
  | .subroutine .. => 4
  | .array .. => 5
  | .qual _ q _ => kindOfTag q
  | .reference _ tag _ _ => kindOfTag tag
  | .unspecified _ => 14
  | .aggregate _ tag _ _ _ _ => kindOfTag tag
  | .variable .. => 19
  | .subprogram .. => 21
  | .lexBlock .. => 22
  | .namespace .. => 23
  | .unit .. => 24

/-- The name of an object. -/
def nameOf : Obj → Option Str
  | .base h _ _ | .enumeration h _ _ | .array h _ _ _ _ _ | .pointer h _ | .reference h _ _ _
  | .unspecified h | .subroutine h _ _ | .qual h _ _ | .typedef h _ | .aggregate h _ _ _ _ _ => h.name
  | .subprogram h _ _ _ | .variable h _ => h.name
  | .lexBlock _ _ _ => none
  | .namespace _ name _ _ _ _ => name
  | .unit _ name _ _ _ _ _ => some name

/-- The type behind a typedef, a qualifier or a variable. -/
inductive Behind (db : List Obj) : Str → Str → Prop where
  | typedef {h t} : .typedef h t ∈ db → Behind db h.id t
  | qual {h q t} : .qual h q t ∈ db → Behind db h.id t
  | variable {h t} : .variable h t ∈ db → Behind db h.id t

/-- The size of a type. -/
inductive SizeOf (db : List Obj) : Str → Nat → Prop where
  | base {h enc} {n : Nat} : .base h (some n) enc ∈ db → SizeOf db h.id n
  | enumeration {h es} {n : Nat} : .enumeration h (some n) es ∈ db → SizeOf db h.id n
  | pointer {h t} : .pointer h t ∈ db → SizeOf db h.id 8
  | reference {h tag t} {n : Nat} : .reference h tag (some n) t ∈ db → SizeOf db h.id n
  | aggregate {h tag al fs hier} {n : Nat} : .aggregate h tag (some n) al fs hier ∈ db →
      h.decl ≠ some true → SizeOf db h.id n
  | behind {i t n} : Behind db i t → t ∈ db.map Obj.id → SizeOf db t n → SizeOf db i n
  | array {h lv lo st t n} {count : Nat} : .array h count lv lo st t ∈ db → t ∈ db.map Obj.id →
      0 < count → SizeOf db t n → SizeOf db h.id (count * n)

/-- The object that typedefs, qualifiers and variables lead to. -/
inductive Leads (db : List Obj) : Str → Obj → Prop where
  | here {o} : o ∈ db → (∀ t, ¬ Behind db o.id t) → Leads db o.id o
  | behind {i t o} : Behind db i t → t ∈ db.map Obj.id → Leads db t o → Leads db i o

/-- The field has `size` bits, the lowest of them `bit` bits from the start of the structure: told
directly (DWARF 4) or by a storage unit and the distance from its highest bit (DWARF 3). -/
def BitsAt (f : Field) (bit size : Nat) : Prop :=
  f.bitSize = some (size : Int) ∧
  ((f.bitOffset = none ∧ f.dataBitOffset = some (bit : Int)) ∨
   ∃ unit off : Nat, f.byteSize = some (unit : Int) ∧ f.bitOffset = some (off : Int) ∧ unit ≠ 0 ∧
    ((bit + size + off : Nat) : Int) = (f.byteOffset + unit) * 8 ∧ bit + size + off < 2 ^ 64)

/-- The first element with a name. -/
def FirstNamed {α : Type} (name : α → Option Str) (l : List α) (n : Str) (k : Nat) : Prop :=
  (∃ a, l[k]? = some a ∧ name a = some n) ∧ ∀ j < k, ∀ a, l[j]? = some a → name a ≠ some n

/-- The parents of an object: a type can have several, other objects have one, units none. -/
def parentsOf : Obj → List Str
  | .base h .. | .enumeration h .. | .array h .. | .pointer h .. | .reference h .. | .unspecified h | .subroutine h .. | .qual h .. | .typedef h ..
  | .aggregate h .. => h.parents
  | .subprogram h .. | .variable h .. => [h.parent]
  | .lexBlock _ par _ => [par]
  | .namespace _ _ par _ _ _ => [par]
  | .unit .. => []

end Verif.Emit.Spec
