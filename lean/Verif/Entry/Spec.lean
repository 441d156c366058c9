import Verif.Entry.Model
/-
Specification of the entry functions, in terms of the `type` links of a description.
-/
namespace Verif.Entry.Spec
open Verif Verif.Entry

/-- `Alias db r t`: entry `r` is a typedef, qualifier, variable, member or ordinary
parameter, and its type is `t` (`none`: void). -/
inductive Alias (db : Db) (r : Ref) : Option Ref → Prop where
  | typedef {t} : (db r).info = .typedef t → Alias db r t
  | var {t} : (db r).info = .var t → Alias db r t
  | param {t} : (db r).info = .param false t → Alias db r t
  | member {m} : (db r).info = .member m → Alias db r m.type
  | qual {q t} : (db r).info = .qual q t → Alias db r t

/-- The entry has a size of its own. -/
inductive Stored (db : Db) (r : Ref) : Nat → Prop where
  | base {n e} : (db r).info = .base n e → Stored db r n.toNat
  | enumeration {n e es} : (db r).info = .enumeration n e es → Stored db r n.toNat
  | pointer {t} : (db r).info = .pointer t → Stored db r 8
  | struct {k n ms} : (db r).info = .struct k n ms → Stored db r n.toNat
  | reference {v n t} : (db r).info = .reference v n t → Stored db r n.toNat

/-- The mathematical size of a type: aliases do not count, an array is its number of
elements times the size of an element. -/
inductive Size (db : Db) : Ref → Nat → Prop where
  | stored {r n} : Stored db r n → Size db r n
  | through {r t n} : Alias db r (some t) → Size db t n → Size db r n
  | dots {r t n} : (db r).info = .param true (some t) → Size db t n → Size db r n
  | array {r t n} {count : Nat} : (db r).info = .array (some t) count → 0 < count → Size db t n → Size db r (count * n)

/-- Entries without a size: functions, scopes and the unspecified type; flexible arrays;
everything whose type is void or has no size. -/
inductive NoSize (db : Db) : Ref → Prop where
  | subprogram {r t ps} : (db r).info = .subprogram t ps → NoSize db r
  | subroutine {r t ps} : (db r).info = .subroutine t ps → NoSize db r
  | unspecified {r} : (db r).info = .unspecifiedType → NoSize db r
  | lexBlock {r} : (db r).info = .lexBlock → NoSize db r
  | nspace {r} : (db r).info = .nspace → NoSize db r
  | compileUnit {r} : (db r).info = .compileUnit → NoSize db r
  | void {r} : Alias db r none → NoSize db r
  | through {r t} : Alias db r (some t) → NoSize db t → NoSize db r
  | dots {r} : (db r).info = .param true none → NoSize db r
  | dotsThrough {r t} : (db r).info = .param true (some t) → NoSize db t → NoSize db r
  | flexible {r t} {count : Int} : (db r).info = .array t count → count ≤ 0 → NoSize db r
  | arrayVoid {r} {count : Int} : (db r).info = .array none count → NoSize db r
  | array {r t} {count : Int} : (db r).info = .array (some t) count → NoSize db t → NoSize db r

/-- `Next db t r`: the description of `r` continues with that of `t` (pointers, members and
parameters end it). -/
inductive Next (db : Db) : Ref → Ref → Prop where
  | alias {r t} : Alias db r (some t) → Next db t r
  | dots {r t} : (db r).info = .param true (some t) → Next db t r
  | array {r t count} : (db r).info = .array (some t) count → Next db t r

/-- The description of `r` does not run in a circle. -/
def Acyclic (db : Db) (r : Ref) : Prop := Acc (Next db) r

/-- The qualifier the entry itself adds. -/
def own (db : Db) (r : Ref) : List Qual :=
  match (db r).info with
  | .qual q _ => [q]
  | _ => []

/-- `Final db r f qs`: following the aliases from `r` leads to `f` (`none`: void), and the
qualifiers on the way are `qs`. -/
inductive Final (db : Db) : Ref → Option Ref → List Qual → Prop where
  | here {r} : (∀ t, ¬ Alias db r t) → Final db r (some r) []
  | void {r} : Alias db r none → Final db r none (own db r)
  | step {r t f qs} : Alias db r (some t) → Final db t f qs → Final db r f (own db r ++ qs)

/-- The flag of a qualifier. -/
def flag (qs : Quals) : Qual → Bool
  | .const => qs.const
  | .volatile => qs.volatile
  | .restrict => qs.restrict
  | .mutable => qs.mutable
  | .shared => qs.shared
  | .packed => qs.packed

/-- The entry is the `...` of a parameter list. -/
def Dots (db : Db) (r : Ref) : Prop := ∃ t, (db r).info = .param true t

/-- `First db items n i`: item `i` is the first with name `n`. -/
def First (db : Db) (items : List Ref) (n : Name) (i : Nat) : Prop :=
  (∃ m, items[i]? = some m ∧ (db m).name = some n) ∧ ∀ j < i, ∀ m, items[j]? = some m → (db m).name ≠ some n

/-- The item that an id (name or number) selects. -/
inductive Picks (db : Db) (items : List Ref) : EntryId → Ref → Prop where
  | number {i : Nat} {m} : items[i]? = some m → Picks db items ⟨none, i⟩ m
  | name {n k m} {i : Nat} : First db items n i → items[i]? = some m → Picks db items ⟨some n, k⟩ m

/-- `Path db r ids m`: descending from `r` along the ids, member by member, ends at `m`. -/
inductive Path (db : Db) : Ref → List EntryId → Ref → Prop where
  | nil {r} : Path db r [] r
  | cons {r f qs k size ms id m ids q} : Final db r (some f) qs → (db f).info = .struct k size ms →
      Picks db ms id m → Path db m ids q → Path db r (id :: ids) q

/-- DWARF 3: the field of `size` bits whose lowest bit has address `bit` (from the start of
the struct), described by a storage unit and the distance of the field's highest bit from
the unit's highest bit. -/
def Dwarf3 (m : MemberInfo) (bit size : Nat) : Prop :=
  ∃ unit off sz, m.byteSize = some unit ∧ m.bitOffset = some off ∧ m.bitSize = some sz ∧
    unit ≠ 0 ∧ sz.toNat = size ∧ (m.byteOffset.toNat + unit.toNat) * 8 < 2 ^ 64 ∧
    bit + size + off.toNat = (m.byteOffset.toNat + unit.toNat) * 8

/-- DWARF 4: the same field described by its bit address. -/
def Dwarf4 (m : MemberInfo) (bit size : Nat) : Prop :=
  ∃ data sz, m.bitOffset = none ∧ m.dataBitOffset = some data ∧ m.bitSize = some sz ∧ data.toNat = bit ∧ sz.toNat = size

/-- The entry is a function, or a function type, with result type `t` (`none`: void). -/
def FunctionOf (db : Db) (r : Ref) (t : Option Ref) : Prop :=
  ∃ f qs ps, Final db r (some f) qs ∧ ((db f).info = .subprogram t ps ∨ (db f).info = .subroutine t ps)

/-- The entry is neither a function nor a function type. -/
def NoFunction (db : Db) (r : Ref) : Prop :=
  ∃ f qs, Final db r f qs ∧ ∀ g, f = some g → ∀ t ps, (db g).info ≠ .subprogram t ps ∧ (db g).info ≠ .subroutine t ps

end Verif.Entry.Spec
