import Verif.Entry.Model
import Verif.Value.Spec
/-
Specification of declaration texts: which entries can be printed, and C's declaration
grammar (C11 6.7) with the meaning of declarators (6.7.6), as rules over type descriptions.
-/
namespace Verif.CDecl.Spec
open Verif Verif.Entry

abbrev Text := List UInt8

/-- No `%` in the text. -/
def Plain (t : Text) : Prop := (37 : UInt8) ∉ t

/-- A format with exactly one conversion, `%s`. -/
def OneHole (t : Text) : Prop := ∃ a b, t = a ++ [37, 115] ++ b ∧ Plain a ∧ Plain b

/-- Entries that are types. -/
def IsType (db : Db) (r : Ref) : Prop :=
  match (db r).info with
  | .typedef _ | .base .. | .enumeration .. | .array .. | .qual .. | .pointer _ | .struct .. | .subroutine .. => True
  | .reference .. | .unspecifiedType => True
  | _ => False

/-- `Uses db r d`: the declaration of `r` mentions the type `d`.  Types with a name are
mentioned by their name: they use nothing. -/
inductive Uses (db : Db) (r : Ref) : Ref → Prop where
  | var {t} : (db r).info = .var (some t) → Uses db r t
  | array {t n} : (db r).info = .array (some t) n → Uses db r t
  | qual {q t} : (db r).info = .qual q (some t) → Uses db r t
  | pointer {t} : (db r).info = .pointer (some t) → Uses db r t
  | field {k s ms m i t} : (db r).info = .struct k s ms → (db r).name = none → m ∈ ms →
      (db m).info = .member i → i.type = some t → Uses db r t
  | result {t ps} : (db r).info = .subprogram (some t) ps ∨ (db r).info = .subroutine (some t) ps → Uses db r t
  | param {o ps p t} : (db r).info = .subprogram o ps ∨ (db r).info = .subroutine o ps → p ∈ ps →
      (db p).info = .param false (some t) → Uses db r t

/-- The descriptions a declaration uses do not run in a circle. -/
def Finite (db : Db) (r : Ref) : Prop := Acc (fun d r => Uses db r d) r

/-- `r` is mentioned, directly or not, by the declaration of `s`. -/
inductive Mentions (db : Db) (s : Ref) : Ref → Prop where
  | self : Mentions db s s
  | step {r d} : Mentions db s r → Uses db r d → Mentions db s d

/-- What the producer of a description guarantees for one entry: names where C requires
them, none with a `%`; links lead to types; lists hold the right kind of entries. -/
structure Sound (db : Db) (r : Ref) : Prop where
  links : ∀ d, Uses db r d → IsType db d
  plain : ∀ n, (db r).name = some n → Plain n
  named : ∀ t, (db r).info = .var t ∨ (db r).info = .typedef t → (db r).name ≠ none
  base : ∀ s e, (db r).info = .base s e → (db r).name ≠ none
  func : ∀ t ps, (db r).info = .subprogram t ps → (db r).name ≠ none
  enumerators : ∀ s e es, (db r).info = .enumeration s e es → ∀ x ∈ es, Plain x.1
  fields : ∀ k s ms, (db r).info = .struct k s ms → ∀ m ∈ ms, (∃ i, (db m).info = .member i) ∧ ∀ n, (db m).name = some n → Plain n
  params : ∀ t ps, (db r).info = .subprogram t ps ∨ (db r).info = .subroutine t ps →
    ∀ p ∈ ps, (∃ u v, (db p).info = .param u v) ∧ ∀ n, (db p).name = some n → Plain n

/-- Kinds without a declaration text in C: classes, references, the unspecified type, and
functions with a parameter that has no type; members, parameters and scopes. -/
inductive Unsupported (db : Db) (r : Ref) : Prop where
  | class {s ms} : (db r).info = .struct .class s ms → Unsupported db r
  | reference {v s t} : (db r).info = .reference v s t → Unsupported db r
  | unspecified : (db r).info = .unspecifiedType → Unsupported db r
  | untyped {t ps p} : (db r).info = .subprogram t ps ∨ (db r).info = .subroutine t ps → p ∈ ps →
      (db p).info = .param false none → Unsupported db r
  | member {i} : (db r).info = .member i → Unsupported db r
  | param {u t} : (db r).info = .param u t → Unsupported db r
  | scope : (db r).info = .lexBlock ∨ (db r).info = .nspace ∨ (db r).info = .compileUnit → Unsupported db r

/-- Decimal notation of an integer. -/
inductive Number : Int → Text → Prop where
  | nonneg {n : Nat} {s} : Value.Spec.Decimal n s → Number n s
  | neg {n : Nat} {s} : 0 < n → Value.Spec.Decimal n s → Number (-n) (45 :: s)

/-- `Cut t u`: `u` is `t` without trailing spaces. -/
def Cut (t u : Text) : Prop := (∃ k, t = u ++ List.replicate k 32) ∧ u.getLast? ≠ some 32

/-- The qualifier words. -/
def word : Qual → Text
  | .const => [99, 111, 110, 115, 116]
  | .volatile => [118, 111, 108, 97, 116, 105, 108, 101]
  | .restrict => [114, 101, 115, 116, 114, 105, 99, 116]
  | .mutable => [109, 117, 116, 97, 98, 108, 101]
  | .shared => [115, 104, 97, 114, 101, 100]
  | .packed => [112, 97, 99, 107, 101, 100]

/-- `struct` or `union`. -/
inductive Keyword : StructKind → Text → Prop where
  | struct : Keyword .struct [115, 116, 114, 117, 99, 116]
  | union : Keyword .union [117, 110, 105, 111, 110]

/-- `A = 1, B = 2,` (C11 6.7.2.2, with the optional final comma). -/
inductive Enumerators : List (Name × Int) → Text → Prop where
  | nil : Enumerators [] []
  | one {n v s} : Number v s → Enumerators [(n, v)] (n ++ [32, 61, 32] ++ s ++ [44])
  | cons {n v s es t} : Number v s → es ≠ [] → Enumerators es t → Enumerators ((n, v) :: es) (n ++ [32, 61, 32] ++ s ++ [44, 32] ++ t)

/-- The name of a parameter, or nothing. -/
def nameOf (db : Db) (p : Ref) : Text := (db p).name.getD []

mutual
/-- `Specifier db t s`: the specifiers `s` name the type `t` (C11 6.7.2, 6.7.3); a qualifier
in front qualifies the type named by the rest. -/
inductive Specifier (db : Db) : Option Ref → Text → Prop where
  | void : Specifier db none [118, 111, 105, 100]
  | base {r n s e} : (db r).info = .base s e → (db r).name = some n → Specifier db (some r) n
  | typedef {r n t} : (db r).info = .typedef t → (db r).name = some n → Specifier db (some r) n
  | enum {r n s e es} : (db r).info = .enumeration s e es → (db r).name = some n →
      Specifier db (some r) ([101, 110, 117, 109, 32] ++ n)
  | enumList {r s e es t} : (db r).info = .enumeration s e es → (db r).name = none → Enumerators es t →
      Specifier db (some r) ([101, 110, 117, 109, 32, 123] ++ t ++ [125])
  | struct {r n k w s ms} : (db r).info = .struct k s ms → Keyword k w → (db r).name = some n →
      Specifier db (some r) (w ++ [32] ++ n)
  | structList {r k w s ms t} : (db r).info = .struct k s ms → Keyword k w → (db r).name = none → Fields db ms t →
      Specifier db (some r) (w ++ [32, 123] ++ t ++ [125])
  | qual {r q t s} : (db r).info = .qual q t → Specifier db t s → Specifier db (some r) (word q ++ [32] ++ s)

/-- `Declarator db b t direct n d`: in a declaration whose specifiers name the type `b`, the
declarator `d` declares `n` with the type `t` (C11 6.7.6).  `direct`: `d` is a direct
declarator, so `[]` and `()` may follow it.  A
function that is not a type (`entry`) is declared with its parameters' names.  With an empty `n` it is an abstract declarator
(6.7.7). -/
inductive Declarator (db : Db) : Option Ref → Option Ref → Bool → Text → Text → Prop where
  | name {t n} : Declarator db t t true n n
  | paren {b t x n d} : d ≠ [] → Declarator db b t x n d → Declarator db b t true n ([40] ++ d ++ [41])
  | pointer {b p t x n d} : (db p).info = .pointer b → Declarator db (some p) t x n d → Declarator db b t false n ([42, 32] ++ d)
  | qualPointer {b p r q t x n d} : (db p).info = .pointer b → (db r).info = .qual q (some p) →
      Declarator db (some r) t x n d → Declarator db b t false n ([42, 32] ++ word q ++ [32] ++ d)
  | array {b a t n d} {c : Nat} {s} : (db a).info = .array b c → Value.Spec.Decimal c s → Declarator db (some a) t true n d →
      Declarator db b t true n (d ++ [91] ++ s ++ [93])
  | flexible {b a t n d} {c : Int} : (db a).info = .array b c → c < 0 → Declarator db (some a) t true n d →
      Declarator db b t true n (d ++ [91, 93])
  | function {b f ps t n d s} : (db f).info = .subroutine b ps → Params db (fun _ => []) ps s → Declarator db (some f) t true n d →
      Declarator db b t true n (d ++ [40] ++ s ++ [41])
  | entry {b f ps n s} : (db f).info = .subprogram b ps → Params db (nameOf db) ps s →
      Declarator db b (some f) true n (n ++ [40] ++ s ++ [41])

/-- `Declaration db t n s`: the text `s` declares `n` with the type `t`. -/
inductive Declaration (db : Db) : Option Ref → Text → Text → Prop where
  | mk {b t x n s d} : Specifier db b s → Declarator db b t x n d → Declaration db t n (s ++ [32] ++ d)

/-- `Params db nm ps s`: `s` lists the parameters `ps`, each declared under the name `nm`
gives it. -/
inductive Params (db : Db) : (Ref → Text) → List Ref → Text → Prop where
  | nil {nm} : Params db nm [] []
  | last {nm p s} : Param db nm p s → Params db nm [p] s
  | cons {nm p s ps t} : Param db nm p s → ps ≠ [] → Params db nm ps t → Params db nm (p :: ps) (s ++ [44, 32] ++ t)

inductive Param (db : Db) : (Ref → Text) → Ref → Text → Prop where
  | dots {nm p t} : (db p).info = .param true t → Param db nm p [46, 46, 46]
  | typed {nm p t s u} : (db p).info = .param false (some t) → Declaration db (some t) (nm p) s → Cut s u → Param db nm p u

/-- The member declarations of a struct or union (C11 6.7.2.1). -/
inductive Fields (db : Db) : List Ref → Text → Prop where
  | nil : Fields db [] []
  | cons {m s ms t} : Field db m s → Fields db ms t → Fields db (m :: ms) (s ++ [59, 32] ++ t)

inductive Field (db : Db) : Ref → Text → Prop where
  | named {m i n s u} : (db m).info = .member i → i.bitSize = none → (db m).name = some n →
      Declaration db i.type n s → Cut s u → Field db m u
  | bits {m i n w s u d} : (db m).info = .member i → i.bitSize = some w → (db m).name = some n →
      Declaration db i.type n s → Value.Spec.Decimal w.toNat d → Cut (s ++ [58] ++ d) u → Field db m u
  | anonymous {m i s u} : (db m).info = .member i → i.bitSize = none → (db m).name = none →
      Declaration db i.type [] s → Cut s u → Field db m u
end

/-- The form of a type: named by specifiers alone, a pointer, an array or a function. -/
inductive Shape where
  | spec | ptr | arr | fn

mutual
/-- `Regular db t shape last`: type descriptions without pointers to arrays, without functions
returning pointers to functions (or to other functions), with at most one qualifier on a
pointer, and with qualifiers only on pointers and on types that have no declarator.
`last`: the name comes last in a declaration. -/
inductive Regular (db : Db) : Option Ref → Shape → Bool → Prop where
  | void : Regular db none .spec true
  | base {r s e} : (db r).info = .base s e → Regular db (some r) .spec true
  | typedef {r t} : (db r).info = .typedef t → Regular db (some r) .spec true
  | enum {r s e es} : (db r).info = .enumeration s e es → Regular db (some r) .spec true
  | struct {r k s ms} : (db r).info = .struct k s ms → k ≠ .class → (db r).name ≠ none → Regular db (some r) .spec true
  | structList {r k s ms} : (db r).info = .struct k s ms → k ≠ .class → (db r).name = none →
      (∀ m ∈ ms, RegularField db m) → Regular db (some r) .spec true
  | qual {r q t l} : (db r).info = .qual q t → Regular db t .spec l → Regular db (some r) .spec true
  | pointer {r t sh l} : (db r).info = .pointer t → sh ≠ .arr → Regular db t sh l → Regular db (some r) .ptr l
  | qualPointer {r q p t sh l} : (db r).info = .qual q (some p) → (db p).info = .pointer t → sh ≠ .arr → Regular db t sh l →
      Regular db (some r) .ptr l
  | array {r t c sh l} : (db r).info = .array t c → Regular db t sh l → Regular db (some r) .arr false
  | function {r t ps sh} : (db r).info = .subroutine t ps → Regular db t sh true →
      (∀ p ∈ ps, RegularParam db false p) → Regular db (some r) .fn false

/-- A parameter of regular type; one whose name is not printed (`named` is false or it has
none) is not a function. -/
inductive RegularParam (db : Db) : Bool → Ref → Prop where
  | dots {p t named} : (db p).info = .param true t → RegularParam db named p
  | typed {p t sh l named} : (db p).info = .param false (some t) → Regular db (some t) sh l →
      (sh = .fn → named = true ∧ (db p).name ≠ none ∧ (db p).name ≠ some []) → RegularParam db named p

/-- A member of regular type; bit-fields have a name and a type without declarator. -/
inductive RegularField (db : Db) : Ref → Prop where
  | whole {m i sh l} : (db m).info = .member i → i.bitSize = none → Regular db i.type sh l →
      (sh = .fn → (db m).name ≠ none ∧ (db m).name ≠ some []) → RegularField db m
  | bits {m i w} : (db m).info = .member i → i.bitSize = some w → Regular db i.type .spec true →
      (db m).name ≠ none → RegularField db m
end

/-- The bytes of an ASCII text. -/
def ascii (s : String) : Text := s.toList.map fun c => UInt8.ofNat c.toNat

/-- The type is the one called `va_list`, or the pointer to `struct __va_list_tag` that a parameter
declared as `va_list` has where that is an array. -/
inductive IsVaList (db : Db) (t : Ref) : Prop where
  | typedef {u} : (db t).info = .typedef u → (db t).name = some (ascii "va_list") → IsVaList db t
  | base {s e} : (db t).info = .base s e → (db t).name = some (ascii "va_list") → IsVaList db t
  | pointer {d s ms} : (db t).info = .pointer (some d) → (db d).info = .struct .struct s ms → (db d).name = some (ascii "__va_list_tag") →
      IsVaList db t

/-- No star is in the name, and a name without keyword is not that of the struct. -/
def ProperName (db : Db) (d : Ref) : Prop :=
  ∀ n, (db d).name = some n → (42 : UInt8) ∉ n ∧
    ((∃ t, (db d).info = .typedef t) ∨ (∃ s e, (db d).info = .base s e) → n ≠ ascii "struct __va_list_tag")

end Verif.CDecl.Spec
