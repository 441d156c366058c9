import Verif.Trace.Model
import Verif.WrapCall.Spec
/-
Specification of traced calls.
-/
namespace Verif.Trace.Spec
open Verif Verif.Entry Verif.ParamStorage Verif.ParamStorage.Spec
open Verif.WrapCall.Spec (text Slot AllFilled)

variable {W R : Type}

/-- The line before the call. -/
def before (t : Option Text) : Option Text := t.map fun t => text "Calling " ++ t ++ text "\n"

/-- The line after the call of a function without result. -/
def afterVoid (t : Option Text) : Option Text := t.map fun t => text "Returned from void " ++ t ++ text "\n"

/-- The line after the call of a function with a result. -/
def after (u t : Option Text) : Option Text :=
  match u, t with
  | some u, some t => some (text "Returned " ++ u ++ text " from " ++ t ++ text "\n")
  | _, _ => none

/-- The line `o`, if there is one, is printed; only if memory runs out it may be missing. -/
inductive Says (memory : Prop) (o : Option Text) : List Event → Prop where
  | printed : Says memory o (o.toList.map Event.line)
  | missing : ¬ memory → Says memory o []

/-- The result's text: there is none if its type is not known. -/
inductive ResultText (p : Prog W R) (w : W) (r : R) : Option Text → Prop where
  | unknown : p.resEntry = none ∨ p.resAddr = 0 → ResultText p w r none
  | known {e o} : p.resEntry = some e → p.resAddr ≠ 0 → p.resText w r = .ok o → ResultText p w r o

/-- The lines `l` before and `l'` after a call: if it was recorded (in `st`), its text, as it is before and after
the call; else none, and the call could not be recorded or memory ran out. -/
inductive Lines (p : Prog W R) (F : Ref → List WrapCall.Arg → List View → Prop) (slots : List Slot) (complete : Bool) (memory : Prop) (last : W → Option Text → Option Text → Prop)
    (w w' : W) (l l' : List Event) : Prop where
  | recorded {st t t' o} : AllFilled F slots (views st.items) → p.text w st = .ok t → p.text w' st = .ok t' → last w' t' o → Says memory (before t) l → Says memory o l' → Lines p F slots complete memory last w w' l l'
  | not : complete = false ∨ ¬ memory → l = [] → l' = [] → Lines p F slots complete memory last w w' l l'

end Verif.Trace.Spec
