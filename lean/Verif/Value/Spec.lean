import Verif.Value.Model
import Verif.Bitfield.Spec
import Verif.Entry.Spec
/-
Specification of typed access.
-/
namespace Verif.Value.Spec
open Verif Verif.Entry Verif.Entry.Spec

/-- The DWARF name of each C type, in ASCII. -/
def typeName : Ty → Name
  | .bool => [95, 66, 111, 111, 108]
  | .char => [99, 104, 97, 114]
  | .uchar => [117, 110, 115, 105, 103, 110, 101, 100, 32, 99, 104, 97, 114]
  | .short => [115, 104, 111, 114, 116, 32, 105, 110, 116]
  | .ushort => [117, 110, 115, 105, 103, 110, 101, 100, 32, 115, 104, 111, 114, 116, 32, 105, 110, 116]
  | .int => [105, 110, 116]
  | .uint => [117, 110, 115, 105, 103, 110, 101, 100, 32, 105, 110, 116]
  | .long => [108, 111, 110, 103, 32, 105, 110, 116]
  | .ulong => [117, 110, 115, 105, 103, 110, 101, 100, 32, 108, 111, 110, 103, 32, 105, 110, 116]
  | .llong => [108, 111, 110, 103, 32, 108, 111, 110, 103, 32, 105, 110, 116]
  | .ullong => [117, 110, 115, 105, 103, 110, 101, 100, 32, 108, 111, 110, 103, 32, 108, 111, 110, 103, 32, 105, 110, 116]
  | .float => [102, 108, 111, 97, 116]
  | .double => [100, 111, 117, 98, 108, 101]
  | .ldouble => [108, 111, 110, 103, 32, 100, 111, 117, 98, 108, 101]
  | .floatComplex => [99, 111, 109, 112, 108, 101, 120, 32, 102, 108, 111, 97, 116]
  | .doubleComplex => [99, 111, 109, 112, 108, 101, 120, 32, 100, 111, 117, 98, 108, 101]
  | .ldoubleComplex => [108, 111, 110, 103, 32, 99, 111, 109, 112, 108, 101, 120, 32, 100, 111, 117, 98, 108, 101]

/-- `sizeof` on x86-64. -/
def sizeOf : Ty → Nat
  | .bool | .char | .uchar => 1
  | .short | .ushort => 2
  | .int | .uint | .float => 4
  | .long | .ulong | .llong | .ullong | .double | .floatComplex => 8
  | .ldouble | .doubleComplex => 16
  | .ldoubleComplex => 32

/-- The encodings a type may have (include/metac/const.h: boolean 3, complex float 4, float
5, signed 6, signed char 7, unsigned 8, unsigned char 9); plain `char` may be recorded as
either of the char encodings. -/
def Encodes : Ty → Nat → Prop
  | .bool, e => e = 3
  | .char, e => e = 7 ∨ e = 9
  | .uchar, e => e = 9
  | .short, e | .int, e | .long, e | .llong, e => e = 6
  | .ushort, e | .uint, e | .ulong, e | .ullong, e => e = 8
  | .float, e | .double, e | .ldouble, e => e = 5
  | .floatComplex, e | .doubleComplex, e | .ldoubleComplex, e => e = 4

/-- Entry `f` describes the C type `t`: right name, and right encoding and size where they
are recorded. -/
def Describes (db : Db) (f : Ref) (t : Ty) : Prop :=
  ∃ bs be, (db f).info = .base bs be ∧ (db f).name = some (typeName t) ∧
    (be ≠ 0 → Encodes t be) ∧ (bs ≠ 0 → bs.toNat = sizeOf t)

/-- Is an integer of this description (type and recorded encoding) signed? -/
def signedTy : Ty → Nat → Bool
  | .char, e => e ≠ 9
  | .short, _ | .int, _ | .long, _ | .llong, _ => true
  | _, _ => false

/-- Every base type of the database has a name (DWARF requires it). -/
def Named (db : Db) : Prop := ∀ r bs be, (db r).info = .base bs be → (db r).name ≠ none

/-- The entry is a member described with bit positions. -/
def IsBitfield (db : Db) (r : Ref) : Prop :=
  ∃ mi, (db r).info = .member mi ∧ (mi.bitOffset ≠ none ∨ mi.bitSize ≠ none ∨ mi.dataBitOffset ≠ none)

/-- The bytes `[a, a+n)` hold the number `v`, low byte first. -/
def Holds (m : Mem) (a n v : Nat) : Prop :=
  v < 256 ^ n ∧ ∀ k < n, m (a + k) = some (UInt8.ofNat (v / 256 ^ k % 256))

/-- Memory changed at most in `[a, a+n)`. -/
def OnlyChanged (m m' : Mem) (a n : Nat) : Prop := ∀ x, (x < a ∨ a + n ≤ x) → m' x = m x

/-- Two's complement reading of `n` bytes holding `v`. -/
def twos (n v : Nat) : Int := if 2 * v < 256 ^ n then v else (v : Int) - 256 ^ n

/-- The number an integer object of type `t` stands for. -/
def intOf (t : Ty) (v : Nat) : Int :=
  match t with
  | .char | .short | .int | .long | .llong => twos (sizeOf t) v
  | _ => v

/-- The integer types. -/
def Integral : Ty → Prop
  | .float | .double | .ldouble | .floatComplex | .doubleComplex | .ldoubleComplex => False
  | _ => True

/-- `v` is a bit-field of the integer type `t` (recorded encoding `be`): the `size` bits at
bit `bit` of the struct at address `base`, all in accessible memory; `qs` are the qualifiers
of its type. -/
structure BitObject (db : Db) (m : Mem) (v : Value) (t : Ty) (be base bit size : Nat) (qs : List Qual) : Prop where
  type : ∃ x bs, Final db v.entry (some x) qs ∧ Describes db x t ∧ (db x).info = .base bs be
  integral : Integral t
  field : ∃ mi, (db v.entry).info = .member mi ∧ (Dwarf3 mi bit size ∨ Dwarf4 mi bit size) ∧ v.addr = base + mi.byteOffset.toNat
  nonNull : base ≠ 0
  mapped : ∀ i < size, m ((8 * base + bit + i) / 8) ≠ none
  nonempty : 1 ≤ size

/-- The value is a pointer object whose content is `a`. -/
def Pointer (db : Db) (m : Mem) (v : Value) (a : Nat) : Prop :=
  v.addr ≠ 0 ∧ (∃ f qs t, Final db v.entry (some f) qs ∧ (db f).info = .pointer t) ∧ Holds m v.addr 8 a

/-- The decimal digits of a number: ASCII digits, most significant first, no leading zero. -/
inductive Decimal : Nat → List UInt8 → Prop where
  | digit {d : Nat} : d < 10 → Decimal d [UInt8.ofNat (48 + d)]
  | more {n d : Nat} {s} : n ≠ 0 → d < 10 → Decimal n s → Decimal (10 * n + d) (s ++ [UInt8.ofNat (48 + d)])

end Verif.Value.Spec
