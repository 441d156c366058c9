import Verif.Alt.Model
import Verif.Trace.Spec
import Verif.Value.Spec
/-
Specification of the other way to trace a call: what the function gets for an argument expression.
-/
namespace Verif.Alt.Spec
open Verif Verif.Entry Verif.Entry.Spec Verif.Value Verif.Value.Spec Verif.ParamStorage Verif.ParamStorage.Spec
open Verif.WrapCall (Arg Handler)
open Verif.WrapCall.Spec (Slot Plain VaList)

/-- The type `t` is the base type `ty`, not `const`. -/
def IsBase (db : Db) (t : Ref) (ty : Ty) : Prop :=
  ∃ f qs bs be, Final db t (some f) qs ∧ Qual.const ∉ qs ∧ Describes db f ty ∧ (db f).info = .base bs be ∧ bs ≠ 0

/-- The expression is an integer of type `ty`. -/
def IsInteger (x : Expr) (ty : Ty) : Prop := x.type = .base ty ∧ Integral ty ∧ x.own.length = Value.Spec.sizeOf ty

/-- `Given db t x bs`: the parameter of type `t` that gets the value of the expression `x` has the bytes `bs`.  Conversions
of arithmetic types are only those that keep the low bytes: to integers that are not wider. -/
inductive Given (db : Db) (t : Ref) : Expr → List UInt8 → Prop where
  | same {x ty} : IsBase db t ty → x.type = .base ty → x.own.length = Value.Spec.sizeOf ty → Given db t x x.own
  | converted {x ty ty'} : IsBase db t ty → Integral ty → ty ≠ .bool → IsInteger x ty' → Value.Spec.sizeOf ty ≤ Value.Spec.sizeOf ty' →
      Given db t x (x.own.take (Value.Spec.sizeOf ty))
  | enumeration {x f qs size enc es} : Final db t (some f) qs → (db f).info = .enumeration size enc es → size.toNat ∈ [1, 2, 4, 8] →
      x.type = .enumeration → x.own.length = size.toNat → Given db t x x.own
  | enumerator {x f qs size enc es ty'} : Final db t (some f) qs → (db f).info = .enumeration size enc es → size.toNat ∈ [1, 2, 4, 8] →
      IsInteger x ty' → size.toNat ≤ Value.Spec.sizeOf ty' → Given db t x (x.own.take size.toNat)
  | pointer {x f qs u} : Final db t (some f) qs → (db f).info = .pointer u → x.type = .pointer → x.own.length = 8 → Given db t x x.own
  | literal {x f qs u ptr} : Final db t (some f) qs → (db f).info = .pointer u → x.type = .literal ptr → ptr.length = 8 → Given db t x ptr
  | agg {x f qs k size ms} : Final db t (some f) qs → (db f).info = .struct k size ms → 0 < size.toNat → size.toNat < 2 ^ 31 →
      x.type = .agg → x.own.length = size.toNat → Given db t x x.own

/-- `Fits ps xs slots`: the expressions `xs` are the arguments of a call of a function with the parameters `ps`; `slots` is what
they are, in order.  If there are no variable arguments, there is nothing for `...`. -/
inductive Fits (env : WrapCall.Env) (generic : Bool) (db : Db) (tags : Option (Ref → Option Handler)) : List Ref → List Expr → List Slot → Prop where
  | nil : Fits env generic db tags [] [] []
  | noDots {p} : WrapCall.Spec.Dots db p → Fits env generic db tags [p] [] []
  | plain {p t x bs ps xs slots} : Plain env db p (some t) → Given db t x bs → Fits env generic db tags ps xs slots →
      Fits env generic db tags (p :: ps) (x :: xs) (.bytes p bs :: slots)
  | vaList {p x ptr inner ps xs slots} : VaList env db p → tags ≠ none → generic = true → x.arg = .vaList ptr inner →
      Fits env generic db tags ps xs slots → Fits env generic db tags (p :: ps) (x :: xs) (.rest p inner :: slots)
  | dots {p x xs} : WrapCall.Spec.Dots db p → tags ≠ none → Fits env generic db tags [p] (x :: xs) [.rest p ((x :: xs).map (·.arg))]

end Verif.Alt.Spec
