import Verif.ValueString.Spec
/-
Specification: what can be told from the text of a value.
-/
namespace Verif.Tell.Spec
open Verif Verif.Entry Verif.Entry.Spec Verif.Value Verif.Value.Spec Verif.PrintString.Spec Verif.ValueString Verif.ValueString.Spec

def Digit (c : UInt8) : Prop := 48 ≤ c ∧ c ≤ 57
def Letter (c : UInt8) : Prop := 65 ≤ c ∧ c ≤ 90 ∨ 97 ≤ c ∧ c ≤ 122 ∨ c = 95

/-- A name of C. -/
def CName (n : Text) : Prop := ∃ c s, n = c :: s ∧ Letter c ∧ ∀ x ∈ s, Letter x ∨ Digit x

/-- What comes after the text of an object: nothing, a comma, a space or a closing brace. -/
def Follows : Text → Prop
  | [] => True
  | c :: _ => c = 44 ∨ c = 32 ∨ c = 125

/-- How the C library writes numbers: addresses (`%p`) are different words that begin with a digit;
where the text of a floating-point number ends can be seen. -/
structure Formats (env : Env) : Prop where
  address : ∀ a, ∃ d s, env.ptr a = d :: s ∧ Digit d ∧ ∀ x ∈ s, Letter x ∨ Digit x
  distinct : ∀ a b, env.ptr a = env.ptr b → a = b
  number : ∀ t n, ∃ c s, env.flt t n = c :: s ∧ ¬ Follows [c]
  ends : ∀ t n n' s s', Follows s → Follows s' → env.flt t n ++ s = env.flt t n' ++ s' → env.flt t n = env.flt t n'

/-- `S` is a set of types of data (no functions and parameters), with the types of their members and
elements, and of what is printed for their pointers, unions and arrays of unknown length:
enumerators have different names, members of a union too; handlers choose members of the union,
and keep the type of the elements of arrays; they speak of every array of unknown length and of every
union without a name; and of the types they take a pointer to point to, no two are written the same. -/
structure DataTypes (env : Env) (db : Db) (S : Ref → Prop) : Prop where
  data : ∀ r, S r → ∀ u t, (db r).info ≠ .param u t
  objects : ∀ r x qs, S r → Final db r (some x) qs → ∀ t ps, (db x).info ≠ .subprogram t ps ∧ (db x).info ≠ .subroutine t ps
  members : ∀ r x qs k s ms, S r → Final db r (some x) qs → (db x).info = .struct k s ms → ∀ y ∈ ms, S y
  elements : ∀ r x qs e n, S r → Final db r (some x) qs → (db x).info = .array (some e) n → S e ∧ ∀ mi, (db e).info ≠ .member mi
  enumerators : ∀ r x qs s e es, S r → Final db r (some x) qs → (db x).info = .enumeration s e es →
    ∀ y ∈ es, CName y.1 ∧ ∀ z ∈ es, y.1 = z.1 → y.2 = z.2
  unions : ∀ r x qs s ms, S r → Final db r (some x) qs → (db x).info = .struct .union s ms →
    (∀ (i j : Nat) y z, ms[i]? = some y → ms[j]? = some z → (db y).name = (db z).name → i = j) ∧ ∀ y ∈ ms, ∃ n, (db y).name = some n ∧ CName n
  chosen : ∀ v outer s ms w, S v.entry → Object env db v (.struct .union s ms) → Reply env .unionMember v outer (some w) → ∃ i, Member db v ms i w
  targets : ∀ v outer ty a arr, S v.entry → Object env db v (.pointer ty) → Target env db v outer ty a arr → S arr.entry
  written : ∀ v v' outer outer' ty a a' arr arr' e e' n n' type, S v.entry → v.entry = v'.entry → Object env db v (.pointer ty) →
    Target env db v outer ty a arr → Target env db v' outer' ty a' arr' → IsArray db arr (some e) n → IsArray db arr' (some e') n' →
    TypeText db (env.dyn { info := .array (some e) (-1) }) type → TypeText db (env.dyn { info := .array (some e') (-1) }) type → e = e'
  counted : ∀ v outer e arr, S v.entry → Object env db v (.array e (-1)) → Counted env v outer e (-1) arr →
    ∀ e' n, IsArray db arr e' n → e' = e
  arrays : ∀ v outer e, S v.entry → Object env db v (.array e (-1)) → env.tags ≠ none → ¬ Reply env .flexArrayCount v outer none
  answered : ∀ v outer s ms, S v.entry → Object env db v (.struct .union s ms) → (db v.entry).name = none → (∃ mi, (db v.entry).info = .member mi) →
    ms ≠ [] → ¬ Reply env .unionMember v outer none

/-- The values `v` (in the memory `m`, inside the values `o`) and `v'` (in `m'`, inside `o'`) hold the
same data, as far as it is printed: the same numbers (of floating-point numbers, the digits printed),
the same addresses; deep: pointers lead to the same data; members and elements alike. -/
inductive Alike (env : Env) (deep : Bool) (db : Db) (m m' : Mem) : List Value → List Value → Value → Value → Prop where
  | number {o o' v v' s e t n} : Object env db v (.base s e) → Object env db v' (.base s e) → Integral t → getTy env.cfg db m (some v) t = .ok (.ok n) → getTy env.cfg db m' (some v') t = .ok (.ok n) → Alike env deep db m m' o o' v v'
  | floating {o o' v v' s e t n n'} : Object env db v (.base s e) → Object env db v' (.base s e) → ¬ Integral t → getTy env.cfg db m (some v) t = .ok (.ok n) → getTy env.cfg db m' (some v') t = .ok (.ok n') →
      env.flt t n = env.flt t n' → Alike env deep db m m' o o' v v'
  | enumeration {o o' v v' s e es k} : Object env db v (.enumeration s e es) → Object env db v' (.enumeration s e es) → enumeration db m (some v) = .ok (.ok k) → enumeration db m' (some v') = .ok (.ok k) → Alike env deep db m m' o o' v v'
  | null {o o' v v' ty} : Object env db v (.pointer ty) → Object env db v' (.pointer ty) → Holds m v.addr 8 0 → Holds m' v'.addr 8 0 → Alike env deep db m m' o o' v v'
  | address {o o' v v' ty a} : deep = false ∨ ty = none → Object env db v (.pointer ty) → Object env db v' (.pointer ty) →
      Holds m v.addr 8 a → Holds m' v'.addr 8 a → Alike env deep db m m' o o' v v'
  | target {o o' v v' ty a a' arr arr'} : deep = true → Object env db v (.pointer ty) → Object env db v' (.pointer ty) →
      Holds m v.addr 8 a → Holds m' v'.addr 8 a' → a ≠ 0 → a' ≠ 0 → Target env db v o ty a arr → Target env db v' o' ty a' arr' →
      Alike env deep db m m' (v :: o) (v' :: o') arr arr' → Alike env deep db m m' o o' v v'
  | struct {o o' v v' s ms} : Object env db v (.struct .struct s ms) → Object env db v' (.struct .struct s ms) →
      (∀ i w w', Member db v ms i w → Member db v' ms i w' → Alike env deep db m m' (v :: o) (v' :: o') w w') → Alike env deep db m m' o o' v v'
  | union {o o' v v' s ms} : Object env db v (.struct .union s ms) → Object env db v' (.struct .union s ms) →
      (ms ≠ [] → Reply env .unionMember v o none ∧ Reply env .unionMember v' o' none) → Alike env deep db m m' o o' v v'
  | unionMember {o o' v v' s ms i w w'} : Object env db v (.struct .union s ms) → Object env db v' (.struct .union s ms) →
      Reply env .unionMember v o (some w) → Reply env .unionMember v' o' (some w') → Member db v ms i w → Member db v' ms i w' →
      Alike env deep db m m' (v :: o) (v' :: o') w w' → Alike env deep db m m' o o' v v'
  | array {o o' v v' e n n' arr arr' k k'} : Object env db v (.array e n) → Object env db v' (.array e n') → Counted env v o e n arr → Counted env v' o' e n' arr' →
      IsArray db arr e k → IsArray db arr' e k' → k.toNat = k'.toNat →
      (∀ i w w', i < k.toNat → Element db arr e i w → Element db arr' e i w' → Alike env deep db m m' (v :: o) (v' :: o') w w') → Alike env deep db m m' o o' v v'
  | characters {o o' v v' e e' n n' arr arr' k} : Object env db v (.array e n) → Object env db v' (.array e' n') → Counted env v o e n arr → Counted env v' o' e' n' arr' →
      Chars db arr k → Chars db arr' k → (∀ j < k, m (arr.addr + j) = m' (arr'.addr + j)) → Alike env deep db m m' o o' v v'

end Verif.Tell.Spec
