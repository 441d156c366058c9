import Verif.Deep.Spec
import Verif.Value.PropsBase
/-
Specification of the comparison of two values.
-/
namespace Verif.Deep.Spec
open Verif Verif.Entry Verif.Entry.Spec Verif.Value Verif.Value.Spec Verif.Handlers Verif.ValueString.Spec

/-! ### Content -/

/-- What an object without parts holds: an integer of a C type; a floating-point number (its
bytes); an enumeration value. -/
inductive Leaf where
  | num (t : Ty) (i : Int)
  | real (t : Ty) (bits : Nat)
  | enumeration (i : Int)

/-- `Content cfg db m v c`: the object `v` holds `c`.  Bit-fields: under the conditions of C26. -/
inductive Content (cfg : Plat) (db : Db) (m : Mem) (v : Value) : Leaf → Prop where
  | integer {t n} : Value.Object db m v t n → Integral t → Content cfg db m v (.num t (intOf t n))
  | real {t n} : Value.Object db m v t n → ¬ Integral t → Content cfg db m v (.real t n)
  | bits {t be base bit size qs c} : BitObject db m v t be base bit size qs → size ≤ 30 → bit % 8 + size ≤ 8 * Value.Spec.sizeOf t →
      Bitfield.Spec.Field m (8 * base + bit) size c → (cfg.iso = true → signedTy t be = true → c < 2 ^ (size - 1)) →
      (t = .bool → c ≤ 1) → (t = .char → be = 9 → size ≤ 7) → Content cfg db m v (.num t (Bitfield.Spec.meaning (signedTy t be) size c))
  | enumeration {x qs n} {size : UInt64} {enc es} : Final db v.entry (some x) qs → (db x).info = .enumeration size enc es → v.addr ≠ 0 →
      size.toNat = 1 ∨ size.toNat = 2 ∨ size.toNat = 4 ∨ size.toNat = 8 → Holds m v.addr size.toNat n →
      Content cfg db m v (.enumeration (twos size.toNat n))

/-- The same content: the same type and number; for floating-point numbers what C's `==` says. -/
def SameLeaf (cfg : Plat) : Leaf → Leaf → Prop
  | .num t i, .num t' i' => t = t' ∧ i = i'
  | .real t a, .real t' b => t = t' ∧ cfg.feq t a b = true
  | .enumeration i, .enumeration i' => i = i'
  | _, _ => False

/-- The C type of a number. -/
def Leaf.type : Leaf → Option Ty
  | .num t _ | .real t _ => some t
  | .enumeration _ => none

/-! ### Kinds -/

/-- The same kind of type. -/
def SameKind : Info → Info → Prop
  | .base .., .base .. | .pointer _, .pointer _ | .enumeration .., .enumeration .. | .subroutine .., .subroutine .. | .array .., .array ..
  | .unspecifiedType, .unspecifiedType | .param .., .param .. | .subprogram .., .subprogram ..
  | .lexBlock, .lexBlock | .nspace, .nspace | .compileUnit, .compileUnit => True
  | .reference v .., .reference v' .. => v = v'
  | .struct k .., .struct k' .. => k = k'
  | _, _ => False

/-- The types of two values are of the same kind, typedefs and qualifiers aside. -/
inductive Alike (db : Db) (v w : Value) : Prop where
  | void {qs qs'} : Final db v.entry none qs → Final db w.entry none qs' → Alike db v w
  | same {x y qs qs'} : Final db v.entry (some x) qs → Final db w.entry (some y) qs' → SameKind (db x).info (db y).info → Alike db v w

/-- The value is of the type described, typedefs and qualifiers aside. -/
def Typed (db : Db) (v : Value) (i : Info) : Prop := ∃ x qs, Final db v.entry (some x) qs ∧ (db x).info = i

/-- A number or an enumeration. -/
def Scalar (db : Db) (v : Value) : Prop := (∃ s e, Typed db v (.base s e)) ∨ ∃ s e es, Typed db v (.enumeration s e es)

/-- `va_list` is neither a number nor an enumeration. -/
def VaLists (env : Env) (db : Db) : Prop := ∀ v : Value, env.vaList v.entry = true → ¬ Scalar db v

/-! ### Agreement -/

/-- Two entries agree: size, number of parts, loops, place in their blocks and kind are the
same; the contents of numbers and enumerations are; so are the addresses in pointers that were
not followed, if those are to be compared as values, and the bytes of unions, if those are to
be compared as bytes. -/
structure AgreeNode (cfg : Plat) (mode : Mode) (db : Db) (m : Mem) (M₁ M₂ : Map) (x y : Node) : Prop where
  size : x.size = y.size
  parts : x.kids.length = y.kids.length
  loop : x.loop = y.loop
  offset : M₁.offset x.id = M₂.offset y.id
  kind : Alike db x.val y.val
  leaf : Scalar db x.val → ∃ c d, Content cfg db m x.val c ∧ Content cfg db m y.val d ∧ SameLeaf cfg c d
  pointer : mode.uptr = .asValues → x.kids = [] → (∃ t, Typed db x.val (.pointer t)) → ∃ a, Holds m x.val.addr 8 a ∧ Holds m y.val.addr 8 a
  union : mode.union = .asMem → x.kids = [] → (∃ s ms, Typed db x.val (.struct .union s ms)) → ∀ i < x.size, m (x.val.addr + i) = m (y.val.addr + i)

/-- Corresponding nodes of two trees. -/
inductive Paired (k₁ k₂ : Node) : Node → Node → Prop where
  | top : Paired k₁ k₂ k₁ k₂
  | part {x y x' y'} {i : Nat} : Paired k₁ k₂ x y → x.kids[i]? = some x' → y.kids[i]? = some y' → Paired k₁ k₂ x' y'

/-- Two values agree: all corresponding entries do. -/
def Agree (cfg : Plat) (mode : Mode) (db : Db) (m : Mem) (M₁ M₂ : Map) : Prop :=
  ∀ x y, Paired M₁.top M₂.top x y → AgreeNode cfg mode db m M₁ M₂ x y

/-- Corresponding nodes all whose corresponding containing nodes agree. -/
inductive Met (cfg : Plat) (mode : Mode) (db : Db) (m : Mem) (M₁ M₂ : Map) (k₁ k₂ : Node) : Node → Node → Prop where
  | top : Met cfg mode db m M₁ M₂ k₁ k₂ k₁ k₂
  | part {x y x' y'} {i : Nat} : Met cfg mode db m M₁ M₂ k₁ k₂ x y → AgreeNode cfg mode db m M₁ M₂ x y → x.kids[i]? = some x' → y.kids[i]? = some y' →
      Met cfg mode db m M₁ M₂ k₁ k₂ x' y'

/-- Two numbers of different C types, the entries being otherwise alike. -/
structure ClashNode (cfg : Plat) (db : Db) (m : Mem) (M₁ M₂ : Map) (x y : Node) : Prop where
  size : x.size = y.size
  parts : x.kids.length = y.kids.length
  loop : x.loop = y.loop
  offset : M₁.offset x.id = M₂.offset y.id
  types : ∃ c d t t', Content cfg db m x.val c ∧ Content cfg db m y.val d ∧ c.type = some t ∧ d.type = some t' ∧ t ≠ t'

/-- Somewhere numbers of different C types correspond to each other. -/
def Clash (cfg : Plat) (mode : Mode) (db : Db) (m : Mem) (M₁ M₂ : Map) : Prop :=
  ∃ x y, Met cfg mode db m M₁ M₂ M₁.top M₂.top x y ∧ ClashNode cfg db m M₁ M₂ x y

/-! ### Readable data -/

/-- The nodes of a tree. -/
inductive Within (k : Node) : Node → Prop where
  | top : Within k k
  | part {x y} : Within k x → y ∈ x.kids → Within k y

/-- What is compared can be read: numbers and enumerations hold something; so do pointers that
are compared as values and unions compared as bytes. -/
structure Readable (cfg : Plat) (mode : Mode) (db : Db) (m : Mem) (k : Node) : Prop where
  nonNull : ∀ x, Within k x → x.val.addr ≠ 0
  leaf : ∀ x, Within k x → Scalar db x.val → ∃ c, Content cfg db m x.val c
  pointer : mode.uptr = .asValues → ∀ x, Within k x → x.kids = [] → (∃ t, Typed db x.val (.pointer t)) → ∃ a, Holds m x.val.addr 8 a
  union : mode.union = .asMem → ∀ x, Within k x → x.kids = [] → (∃ s ms, Typed db x.val (.struct .union s ms)) → ∀ i < x.size, m (x.val.addr + i) ≠ none

end Verif.Deep.Spec
