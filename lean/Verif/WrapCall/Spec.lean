import Verif.WrapCall.Model
import Verif.ParamStorage.Spec
import Verif.Entry.Spec
/-
Specification of the collection of call arguments: which parameter types can be collected,
how a value of such a type travels through a variadic call, and what a handler of the
variable part has to do.
-/
namespace Verif.WrapCall.Spec
open Verif Verif.Entry Verif.Entry.Spec Verif.ParamStorage Verif.ParamStorage.Spec Verif.WrapCall

/-- The bytes of an ASCII text. -/
def text (s : String) : Name := s.toList.map fun c => UInt8.ofNat c.toNat

/-- Integer types that are promoted to `int`: name and size. -/
def small : List (Name × Nat) :=
  [(text "char", 1), (text "unsigned char", 1), (text "short int", 2), (text "unsigned short int", 2)]

/-- Arithmetic types that are passed as they are: name, size and type of the argument. -/
def wide : List (Name × Nat × ArgTy) :=
  [(text "int", 4, .int), (text "unsigned int", 4, .int),
   (text "long int", 8, .long), (text "unsigned long int", 8, .long),
   (text "long long int", 8, .llong), (text "unsigned long long int", 8, .llong),
   (text "double", 8, .double), (text "long double", 16, .ldouble),
   (text "complex float", 8, .cfloat), (text "complex double", 16, .cdouble),
   (text "long complex double", 32, .cldouble)]

/-- How a value of a type is passed. -/
inductive Class where
  | small (n : Nat)               -- promoted to int
  | wide (ty : ArgTy) (n : Nat)   -- passed as it is
  | bool
  | float                         -- promoted to double
  | agg (n : Nat)                 -- struct or union

/-- The class of a parameter type (typedefs and qualifiers do not count). -/
inductive Takes (env : Env) (db : Db) (t : Ref) : Class → Prop where
  | small {f qs size enc n} : Final db t (some f) qs → (db f).info = .base size enc → (db f).name = some n →
      (n, size.toNat) ∈ small → Takes env db t (.small size.toNat)
  | wide {f qs size enc n ty} : Final db t (some f) qs → (db f).info = .base size enc → (db f).name = some n →
      (n, size.toNat, ty) ∈ wide → Takes env db t (.wide ty size.toNat)
  | bool {f qs enc} : Final db t (some f) qs → (db f).info = .base 1 enc → (db f).name = some (text "_Bool") →
      Takes env db t .bool
  | float {f qs enc} : Final db t (some f) qs → (db f).info = .base 4 enc → (db f).name = some (text "float") →
      Takes env db t .float
  | pointer {f qs u} : Final db t (some f) qs → (db f).info = .pointer u → Takes env db t (.wide .ptr 8)
  | enum1 {f qs enc es} : Final db t (some f) qs → (db f).info = .enumeration 1 enc es → Takes env db t (.small 1)
  | enum2 {f qs enc es} : Final db t (some f) qs → (db f).info = .enumeration 2 enc es → Takes env db t (.small 2)
  | enum4 {f qs enc es} : Final db t (some f) qs → (db f).info = .enumeration 4 enc es → Takes env db t (.wide .int 4)
  | enum8 {f qs enc es} : Final db t (some f) qs → (db f).info = .enumeration 8 enc es → Takes env db t (.wide .long 8)
  | agg {f qs k size ms} : Final db t (some f) qs → (db f).info = .struct k size ms → 0 < size.toNat →
      size.toNat < 2 ^ 31 → env.structFn f = true → Takes env db t (.agg size.toNat)

/-- Parameter types that are not collected. -/
inductive Unknown (db : Db) (t : Ref) : Prop where
  | noSize : NoSize db t → Unknown db t
  | base {f qs size enc n} : Final db t (some f) qs → (db f).info = .base size enc → (db f).name = some n →
      (n, size.toNat) ∉ small → (∀ ty, (n, size.toNat, ty) ∉ wide) →
      (n, size.toNat) ≠ (text "_Bool", 1) → (n, size.toNat) ≠ (text "float", 4) → Unknown db t
  | enum {f qs size enc es} : Final db t (some f) qs → (db f).info = .enumeration size enc es →
      size.toNat ∉ [1, 2, 4, 8] → Unknown db t
  | empty {f qs k ms} : Final db t (some f) qs → (db f).info = .struct k 0 ms → Unknown db t
  | array {f qs n e c} : Final db t (some f) qs → (db f).info = .array e c → Size db t n → Unknown db t
  | dots {f qs n u} : Final db t (some f) qs → (db f).info = .param true u → Size db t n → Unknown db t
  | reference {f qs v size u} : Final db t (some f) qs → (db f).info = .reference v size u → Unknown db t

/-- Little-endian integer promotion of `bs` to 4 bytes, with or without sign. -/
def promote (signed : Bool) (bs : List UInt8) : List UInt8 :=
  bs ++ List.replicate (4 - bs.length) (if signed && bs.getLast?.any (128 ≤ ·) then 255 else 0)

/-- `Carries env c bs a`: an object of class `c` with the bytes `bs` is passed through a
variadic call as `a`. -/
inductive Carries (env : Env) : Class → List UInt8 → Arg → Prop where
  | small {n bs} (signed : Bool) : bs.length = n → Carries env (.small n) bs (.val .int (promote signed bs))
  | wide {ty n bs} : bs.length = n → Carries env (.wide ty n) bs (.val ty bs)
  | boolFalse : Carries env .bool [0] (.val .int [0, 0, 0, 0])
  | boolTrue : Carries env .bool [1] (.val .int [1, 0, 0, 0])
  | float {bs d} : bs.length = 4 → d.length = 8 → env.narrow d = bs → Carries env .float bs (.val .double d)
  | agg {n bs} : bs.length = n → Carries env (.agg n) bs (.val (.agg true) bs)

/-- `...`. -/
def Dots (db : Db) (p : Ref) : Prop := ∃ t, (db p).info = .param true t

/-- A parameter of type `va_list`. -/
def VaList (env : Env) (db : Db) (p : Ref) : Prop := (∃ t, (db p).info = .param false t) ∧ env.vaList p = true

/-- An ordinary parameter of type `t` (`none`: no type). -/
def Plain (env : Env) (db : Db) (p : Ref) (t : Option Ref) : Prop := (db p).info = .param false t ∧ env.vaList p = false

/-- Parameters that make the whole call fail. -/
inductive Refused (env : Env) (db : Db) (tags : Option (Ref → Option Handler)) (p : Ref) : Prop where
  | notParam : (∀ u t, (db p).info ≠ .param u t) → Refused env db tags p
  | void : Plain env db p none → Refused env db tags p
  | unknown {t} : Plain env db p (some t) → Unknown db t → Refused env db tags p
  | noTags : Dots db p ∨ VaList env db p → tags = none → Refused env db tags p

/-- What has to be stored for a parameter: bytes, or the variable arguments `args`. -/
inductive Slot where
  | bytes (p : Ref) (bs : List UInt8)
  | rest (p : Ref) (args : List Arg)

/-- `Call ps args slots complete`: the arguments `args` are those of a call of a function
with parameters `ps`, and `slots` is what they are, in order.  `complete` is false if a
parameter that cannot be collected ends it. -/
inductive Call (env : Env) (db : Db) (tags : Option (Ref → Option Handler)) : List Ref → List Arg → List Slot → Bool → Prop where
  | nil : Call env db tags [] [] [] true
  | plain {p t c bs a ps args slots k} : Plain env db p (some t) → Takes env db t c → Carries env c bs a →
      Call env db tags ps args slots k → Call env db tags (p :: ps) (a :: args) (.bytes p bs :: slots) k
  | vaList {p ptr inner ps args slots k} : VaList env db p → tags ≠ none →
      Call env db tags ps args slots k → Call env db tags (p :: ps) (.vaList ptr inner :: args) (.rest p inner :: slots) k
  | dots {p args} : Dots db p → tags ≠ none → Call env db tags [p] args [.rest p args] true
  | refused {p ps args} : Refused env db tags p → Call env db tags (p :: ps) args [] false

/-- The heap got exactly the new blocks `new`. -/
structure Adds (h h' : Heap) (new : List Nat) : Prop where
  next : h.next ≤ h'.next
  fails : h'.fails = h.fails
  live : ∀ x, h'.live x = (h.live x || decide (x ∈ new))
  fresh : ∀ x ∈ new, h.next ≤ x ∧ x < h'.next
  nodup : new.Nodup

/-- What is expected of a handler: given an empty storage it answers, whatever it stores
there is consistent and all it allocated, and if it reports success then the contents are
right for the arguments (`R`). -/
def Behaves (R : List Arg → List View → Prop) (hd : Handler) : Prop :=
  ∀ (i : Nat) (outer : Sto) (b : Nat) (args : List Arg) (h : Heap), Consistent ⟨b, [], 0, none⟩ h →
    ∃ (r : Int) (inner : Sto) (left : List Arg) (h' : Heap), hd i outer ⟨b, [], 0, none⟩ args h = .ok (r, inner, left, h') ∧
      inner.block = b ∧ Consistent inner h' ∧ Adds h h' (ownedL inner.items) ∧
      (r = 0 → R args (views inner.items)) ∧ ((∀ k, h.fails k = false) → r = 0)

/-- Every parameter with variable arguments has a handler, and it behaves. -/
def Handled (R : Ref → List Arg → List View → Prop) (env : Env) (db : Db) (tags : Option (Ref → Option Handler)) : Prop :=
  ∀ tag, tags = some tag → ∀ p, Dots db p ∨ VaList env db p → ∃ hd, tag p = some hd ∧ Behaves (R p) hd

/-- A stored parameter is what it should be. -/
inductive Filled (R : Ref → List Arg → List View → Prop) : Slot → View → Prop where
  | bytes {p e bs} : e.id = p → Filled R (.bytes p bs) (.bytes e bs)
  | rest {p e args vs} : e.id = p → R p args vs → Filled R (.rest p args) (.list e vs)

/-- Stored parameters are what they should be, one for each slot, in order. -/
inductive AllFilled (R : Ref → List Arg → List View → Prop) : List Slot → List View → Prop where
  | nil : AllFilled R [] []
  | cons {s v ss vs} : Filled R s v → AllFilled R ss vs → AllFilled R (s :: ss) (v :: vs)

/-- `entry` is a function with the parameters `ps`. -/
def Declares (db : Db) (entry : Ref) (ps : List Ref) : Prop :=
  ∃ f qs r, Final db entry (some f) qs ∧ ((db f).info = .subprogram r ps ∨ (db f).info = .subroutine r ps)

end Verif.WrapCall.Spec
