import Verif.Handlers.Model
import Verif.Value.Spec
/-
Specification of the tag handlers.
-/
namespace Verif.Handlers.Spec
open Verif Verif.Entry Verif.Entry.Spec Verif.Value Verif.Value.Spec

/-- The object is of an integer or enumeration type and holds the number.  (Bit-fields: up
to 30 bits, within a storage unit of their type; in the ISO dialect non-negative.) -/
inductive Number (cfg : Plat) (db : Db) (m : Mem) (v : Value) : Int → Prop where
  | plain {x qs t n} : Final db v.entry (some x) qs → Describes db x t → Integral t → ¬ IsBitfield db v.entry → v.addr ≠ 0 →
      Holds m v.addr (Spec.sizeOf t) n → (t = .bool → n ≤ 1) → Number cfg db m v (intOf t n)
  | enumeration {x qs size enc es n} : Final db v.entry (some x) qs → (db x).info = .enumeration size enc es → v.addr ≠ 0 →
      (size.toNat = 1 ∨ size.toNat = 2 ∨ size.toNat = 4 ∨ size.toNat = 8) → Holds m v.addr size.toNat n →
      Number cfg db m v (twos size.toNat n)
  | bits {t be base bit size qs c} : BitObject db m v t be base bit size qs → size ≤ 30 → bit % 8 + size ≤ 8 * Spec.sizeOf t →
      Bitfield.Spec.Field m (8 * base + bit) size c → (cfg.iso = true → signedTy t be = true → c < 2 ^ (size - 1)) →
      (t = .bool → c ≤ 1) → (t = .char → be = 9 → size ≤ 7) → v.addr ≠ 0 →
      Number cfg db m v (Bitfield.Spec.meaning (signedTy t be) size c)

/-- The object is of a type that is neither an integer nor an enumeration type. -/
def NoNumber (db : Db) (v : Value) : Prop :=
  v.addr ≠ 0 ∧ ∃ f qs, Final db v.entry f qs ∧ (∀ x t, f = some x → Integral t → ¬ Describes db x t) ∧
    ∀ x size enc es, f = some x → (db x).info ≠ .enumeration size enc es

/-- Numbers of type `int`. -/
def IsInt (n : Int) : Prop := -2 ^ 31 ≤ n ∧ n < 2 ^ 31

/-- `v` is a struct, union or class object with the members `ms`. -/
def Struct (db : Db) (v : Value) (ms : List Ref) : Prop :=
  v.addr ≠ 0 ∧ (∃ x qs k size, Final db v.entry (some x) qs ∧ (db x).info = .struct k size ms) ∧
    ∀ r ∈ ms, ∃ mi, (db r).info = .member mi

/-- `v` is an object of another type. -/
def NoStruct (db : Db) (v : Value) : Prop :=
  ∃ f qs, Final db v.entry f qs ∧ ∀ x k size ms, f = some x → (db x).info ≠ .struct k size ms

/-- `w` is member number `i` of the struct object `v` with members `ms`. -/
def Member (db : Db) (v : Value) (ms : List Ref) (i : Nat) (w : Value) : Prop :=
  ∃ r mi, ms[i]? = some r ∧ (db r).info = .member mi ∧ w = ⟨r, v.addr + mi.byteOffset.toNat⟩

/-- `w` is the field called `name` (the first, if there are several) of `v`. -/
def Field (db : Db) (v : Value) (ms : List Ref) (name : Name) (w : Value) : Prop :=
  ∃ i, First db ms name i ∧ Member db v ms i w

/-- There is no such field. -/
def NoField (db : Db) (ms : List Ref) (name : Name) : Prop := ∀ r ∈ ms, (db r).name ≠ some name

/-- `v` seen as `n` objects: for a pointer those it points to (nothing for NULL), for an
array its elements. -/
inductive Elements (db : Db) (m : Mem) (v : Value) (n : Int) : Option (Entry × Nat) → Prop where
  | target {x qs t a e} : v.addr ≠ 0 → Final db v.entry (some x) qs → (db x).info = .pointer (some t) → Holds m v.addr 8 a → a ≠ 0 →
      e = ({ info := .array (some t) n } : Entry) → Elements db m v n (some (e, a))
  | null {x qs t} : v.addr ≠ 0 → Final db v.entry (some x) qs → (db x).info = .pointer (some t) → Holds m v.addr 8 0 → Elements db m v n none
  | array {x qs t c e} : v.addr ≠ 0 → Final db v.entry (some x) qs → (db x).info = .array (some t) c →
      e = ({ info := .array (some t) n } : Entry) → Elements db m v n (some (e, v.addr))

/-- Case `c` is the first for the number `n`. -/
def FirstCase {α : Type} (val : α → Int) (cases : List α) (n : Int) (c : α) : Prop :=
  ∃ pre post, cases = pre ++ c :: post ∧ val c = n ∧ ∀ d ∈ pre, val d ≠ n

/-- Member `i` of the union is the one the selector number `n` stands for: without cases the
number itself; with cases what the first case for `n` says, by name or by number. -/
inductive Chosen (db : Db) (ms : List Ref) : List UnionCase → Int → Nat → Prop where
  | direct {i : Nat} : Chosen db ms [] i i
  | name {cases n c s i} : FirstCase UnionCase.val cases n c → c.name = some s → First db ms s i → Chosen db ms cases n i
  | number {cases n c} {i : Nat} : FirstCase UnionCase.val cases n c → c.name = none → c.id = i → Chosen db ms cases n i

/-- The parent is (the recorded call of) a function, or a `...` or `va_list` parameter. -/
inductive Call (env : Env) (db : Db) (v : Value) : Prop where
  | func {x qs t ps} : Final db v.entry (some x) qs → ((db x).info = .subprogram t ps ∨ (db x).info = .subroutine t ps) → Call env db v
  | variadic {t} : (db v.entry).info = .param true t → Call env db v
  | vaList {f qs t} : Final db v.entry f qs → (db v.entry).info = .param false t → env.vaList v.entry = true → Call env db v

/-- The string at `a` has `n` bytes before its terminating 0. -/
def CString (m : Mem) (a n : Nat) : Prop := (∀ k < n, ∃ b, m (a + k) = some b ∧ b ≠ 0) ∧ m (a + n) = some 0

end Verif.Handlers.Spec
