import Verif.Mem
import Verif.Entry.Spec
/-
Specification of bit-field access in terms of the bits of memory.
-/
namespace Verif.Bitfield.Spec
open Verif

/-- The `size` bits of memory from bit `pos` on hold the number `v`. -/
def Field (m : Mem) (pos size v : Nat) : Prop :=
  v < 2 ^ size ∧ ∀ i < size, m.bit (pos + i) = some (v.testBit i)

/-- What a field of `size` bits holding `v` means as an integer: two's complement if signed. -/
def meaning (signed : Bool) (size v : Nat) : Int :=
  if signed ∧ 2 ^ (size - 1) ≤ v then (v : Int) - 2 ^ size else v

/-- The member is described (in either DWARF style) as the `size` bits at bit `bit` of its
struct. -/
def Describes (db : Entry.Db) (p : Entry.Ref) (bit size : Nat) : Prop :=
  ∃ mi, (db p).info = .member mi ∧ (Entry.Spec.Dwarf3 mi bit size ∨ Entry.Spec.Dwarf4 mi bit size)

end Verif.Bitfield.Spec
