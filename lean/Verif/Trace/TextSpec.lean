import Verif.Replay.Spec
import Verif.ValueString.Spec
/-
Specification of the text of a recorded call.
-/
namespace Verif.Trace.Spec
open Verif Verif.Entry Verif.Entry.Spec Verif.Value Verif.Value.Spec Verif.ParamStorage Verif.ParamStorage.Spec
open Verif.ValueString (Text)
open Verif.ValueString.Spec (Shown BaseText)
open Verif.WrapCall.Spec (text Slot Filled)
open Verif.Ffi.Spec (Each Bytes)
open Verif.Replay.Spec (Held)

/-- `name(a, b, c)`. -/
def callText (name : Name) (args : List Text) : Text := name ++ text "(" ++ (text ", ").intercalate args ++ text ")"

/-- `Tells … s u`: `u` is the text (C43) of an object in memory that is what was passed for the parameter: an object of the type of the parameter with the bytes passed;
or a list of variable arguments as the handler keeps them (`F`). -/
inductive Tells (env : ValueString.Env) (deep : Bool) (db : Db) (m : Mem) (F : Ref → List WrapCall.Arg → List View → Prop) (v : Value) : Slot → Text → Prop where
  | bytes {p bs w u} : w.entry = p → Bytes m w.addr bs → Shown env deep db m [v] w u → Tells env deep db m F v (.bytes p bs) u
  | rest {p as vs w u} : w.entry = p → F p as vs → Each (Held env.toEnv m) vs (env.params w.addr) → Shown env deep db m [v] w u → Tells env deep db m F v (.rest p as) u

/-- The number (type and bytes) passed for a parameter of arithmetic type. -/
inductive Number (env : WrapCall.Env) (db : Db) : Slot → Ty → Nat → Prop where
  | mk {p t f qs ty} {bs : List UInt8} : WrapCall.Spec.Plain env db p (some t) → Final db t (some f) qs → Describes db f ty → bs.length = Value.Spec.sizeOf ty → (ty = .bool → Mem.le bs ≤ 1) →
      Number env db (.bytes p bs) ty (Mem.le bs)

end Verif.Trace.Spec
