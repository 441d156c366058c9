import Verif.PrintfCall.Model
import Verif.Printf.Spec
import Verif.WrapCall.Spec
import Verif.Handlers.Spec
/-
Specification of the stored arguments of a printf-like call: what each conversion
specification (taken apart in `Verif.Printf.Spec`) takes from the arguments, and what is
stored for it.
-/
namespace Verif.PrintfCall.Spec
open Verif Verif.PrintfCall Verif.ParamStorage Verif.ParamStorage.Spec
open Verif.Printf (Ty)
open Verif.Printf.Spec (Conv Piece convs promised)
open Verif.WrapCall (Arg ArgTy)

/-- How an argument for a parameter of that type is passed (C11 6.5.2.2p6: small integers as
`int`), and the size of the parameter, in bytes (x86-64). -/
def passed : Ty → ArgTy × Nat
  | .char => (.int, 1) | .uchar => (.int, 1)
  | .short => (.int, 2) | .ushort => (.int, 2)
  | .int => (.int, 4) | .uint => (.int, 4)
  | .long => (.long, 8) | .ulong => (.long, 8)
  | .llong => (.llong, 8) | .ullong => (.llong, 8)
  | .double => (.double, 8) | .ldouble => (.ldouble, 16)
  | .charp => (.ptr, 8) | .voidp => (.ptr, 8) | .shortp => (.ptr, 8) | .intp => (.ptr, 8)
  | .longp => (.ptr, 8) | .llongp => (.ptr, 8)
  | .chars n => (.ptr, n)

/-- The size of an argument as it is passed. -/
def width : ArgTy → Nat
  | .int => 4
  | .ldouble => 16
  | _ => 8

/-- At `a` there is the string `s`. -/
def StringAt (m : Mem) (a : Nat) (s : List UInt8) : Prop :=
  (∀ k b, s[k]? = some b → b ≠ 0 ∧ m (a + k) = some b) ∧ m (a + s.length) = some 0

/-- `Passes env c a v`: for the specification `c` and the argument `a` the parameter `v` is to
be stored: the argument converted to the type (its low bytes), or the characters of a string
with the NUL.  (The parameter of a string has 8 bytes, whatever its type says, see
`C74_long_string_false`.) -/
inductive Passes (env : Env) : Conv → Arg → View → Prop where
  | plain {c ty w} : promised c = some ty → w.length = width (passed ty).1 →
      Passes env c (.val (passed ty).1 w) (.bytes ⟨env.entry ty, false, false⟩ (w.take (passed ty).2))
  | null {c} : c.conv = 115 →
      Passes env c (.val .ptr [0, 0, 0, 0, 0, 0, 0, 0]) (.bytes ⟨env.entry .charp, false, false⟩ [0, 0, 0, 0, 0, 0, 0, 0])
  | str {c w s} : c.conv = 115 → w.length = 8 → Mem.le w ≠ 0 → StringAt env.mem (Mem.le w) s → s.length ≤ 7 →
      Passes env c (.val .ptr w)
        (.bytes ⟨env.entry (.chars (s.length + 1)), true, false⟩ (s ++ 0 :: List.replicate (7 - s.length) 0))

/-- One parameter per specification, in order. -/
inductive AllPass (env : Env) : List Conv → List Arg → List View → Prop where
  | nil : AllPass env [] [] []
  | cons {c a v cs as vs} : Passes env c a v → AllPass env cs as vs → AllPass env (c :: cs) (a :: as) (v :: vs)

end Verif.PrintfCall.Spec
