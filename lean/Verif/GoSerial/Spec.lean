import Verif.GoSerial.Model
/-
Specification: what Go's debug/dwarf gives, and what text is.
-/
namespace Verif.GoSerial.Spec
open GoMeta (Str)
open Verif.GoSerial

/-- The types of the values of the documented classes (documentation of `dwarf.Field`). -/
inductive Documented : Str → GoVal → Prop where
  | address (n : Nat) : n < 2 ^ 64 → Documented (go! "ClassAddress") (.uint64 n)
  | block (l : List UInt8) : Documented (go! "ClassBlock") (.bytes l)
  | constant (v : Int) : -2 ^ 63 ≤ v → v < 2 ^ 63 → Documented (go! "ClassConstant") (.int64 v)
  | flag (b : Bool) : Documented (go! "ClassFlag") (.bool b)
  | reference (o : Nat) : o < 2 ^ 32 → Documented (go! "ClassReference") (.dwarfOffset o)
  | signature (n : Nat) : n < 2 ^ 64 → Documented (go! "ClassReferenceSig") (.uint64 n)
  | string (s : Str) : Documented (go! "ClassString") (.str s)
  | exprloc (l : List UInt8) : Documented (go! "ClassExprLoc") (.bytes l)
  | lineptr (v : Int) : -2 ^ 63 ≤ v → v < 2 ^ 63 → Documented (go! "ClassLinePtr") (.int64 v)
  | loclistptr (v : Int) : -2 ^ 63 ≤ v → v < 2 ^ 63 → Documented (go! "ClassLocListPtr") (.int64 v)
  | macptr (v : Int) : -2 ^ 63 ≤ v → v < 2 ^ 63 → Documented (go! "ClassMacPtr") (.int64 v)
  | rangelistptr (v : Int) : -2 ^ 63 ≤ v → v < 2 ^ 63 → Documented (go! "ClassRangeListPtr") (.int64 v)

/-- The classes that came with DWARF 5 and with separate debug files, whose values are `int64` or
`uint64`. -/
inductive Newer : Str → GoVal → Prop where
  | int (c : Str) (v : Int) : c ∈ [go! "ClassReferenceAlt", go! "ClassStringAlt", go! "ClassAddrPtr", go! "ClassLocList",
      go! "ClassRngListsPtr", go! "ClassStrOffsetsPtr"] → -2 ^ 63 ≤ v → v < 2 ^ 63 → Newer c (.int64 v)
  | uint (n : Nat) : n < 2 ^ 64 → Newer (go! "ClassRngList") (.uint64 n)

/-- The entries that `NewEntry` and `NewData` make of fields of the given kind: no entry twice,
offsets of 32 bits, a file table only where it is not empty. -/
structure Made (M : Machine) (kind : Str → GoVal → Prop) (d : Data) : Prop where
  keys : (d.map Prod.fst).Nodup
  small : ∀ x ∈ d, x.1 < 2 ^ 32
  parents : ∀ x ∈ d, ∀ p, x.2.parent = some p → p < 2 ^ 32
  children : ∀ x ∈ d, ∀ c ∈ x.2.children, c < 2 ^ 32
  fields : ∀ x ∈ d, ∀ f ∈ x.2.fields, ∃ a c v, kind c v ∧ f = newField M a c v

/-- No compile unit with an empty table of files. -/
def Files (d : Data) : Prop := ∀ x ∈ d, x.2.declFiles ≠ some []

/-- The bytes of a code point. -/
def encode (c : Nat) : Str :=
  if c < 0x80 then [UInt8.ofNat c]
  else if c < 0x800 then [UInt8.ofNat (0xc0 + c / 64), UInt8.ofNat (0x80 + c % 64)]
  else if c < 0x10000 then [UInt8.ofNat (0xe0 + c / 4096), UInt8.ofNat (0x80 + c / 64 % 64), UInt8.ofNat (0x80 + c % 64)]
  else [UInt8.ofNat (0xf0 + c / 262144), UInt8.ofNat (0x80 + c / 4096 % 64), UInt8.ofNat (0x80 + c / 64 % 64), UInt8.ofNat (0x80 + c % 64)]

/-- UTF-8: the bytes of Unicode characters, one after the other. -/
inductive Utf8 : Str → Prop where
  | nil : Utf8 []
  | cons (c : Nat) (s : Str) : c < 0xd800 ∨ (0xe000 ≤ c ∧ c < 0x110000) → Utf8 s → Utf8 (encode c ++ s)

/-- A number that is written with 53 binary digits followed by zeros: what a `float64` has room for. -/
def Digits53 (n : Nat) : Prop := ∃ k e, k < 2 ^ 53 ∧ n = k * 2 ^ e

/-- A number of 53 digits that no other number of 53 digits is nearer to the given one than. -/
def Nearest (w v : Int) : Prop :=
  Digits53 w.natAbs ∧ ∀ x : Int, Digits53 x.natAbs → (w - v).natAbs ≤ (x - v).natAbs

/-- Values that JSON can carry: text is UTF-8, blocks are not empty, numbers have 53 digits. -/
def JsonSafe : GoVal → Prop
  | .str s => Utf8 s
  | .bytes l => l ≠ []
  | .int64 v => Digits53 v.natAbs
  | .uint64 n => Digits53 n
  | _ => True

/-- All the names of an entry are UTF-8. -/
def Texts (d : Data) : Prop :=
  ∀ x ∈ d, Utf8 x.2.tag ∧ (∀ f ∈ x.2.fields, Utf8 f.attr) ∧ (∀ l, x.2.declFiles = some l → ∀ s ∈ l, Utf8 s)

end Verif.GoSerial.Spec
