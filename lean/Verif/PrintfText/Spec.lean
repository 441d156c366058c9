import Verif.Trace.TextSpec
import Verif.PrintfCall.Spec
/-
Specification of the text of a recorded call of a printf-like function: as in C, with the format as a string literal and the
variable arguments as literals with their types: `f("%d %s", (int)1, "a")`.
-/
namespace Verif.PrintfText.Spec
open Verif Verif.Entry Verif.Entry.Spec Verif.Value Verif.Value.Spec
open Verif.ValueString (Text)
open Verif.ValueString.Spec (BaseText Escaped TypeText)
open Verif.PrintString.Spec (Expressible)
open Verif.Printf.Spec (Conv promised)
open Verif.PrintfCall.Spec (passed StringAt)
open Verif.WrapCall (Arg)
open Verif.WrapCall.Spec (text)

/-- The arithmetic types among those of printf's arguments. -/
def arith : Printf.Ty → Option Ty
  | .char => some .char | .uchar => some .uchar | .short => some .short | .ushort => some .ushort | .int => some .int | .uint => some .uint
  | .long => some .long | .ulong => some .ulong | .llong => some .llong | .ullong => some .ullong | .double => some .double | .ldouble => some .ldouble
  | _ => none

/-- A string literal. -/
def quoted (e : Text) : Text := text "\"" ++ e ++ text "\""

/-- `ArgText penv env c a u`: the argument `a` that the conversion specification `c` asks for is written `u`. -/
inductive ArgText (penv : PrintfCall.Env) (env : ValueString.Env) : Conv → Arg → Text → Prop where
  /-- the type the specification promises, the value converted to it (its low bytes) -/
  | number {c pty ty w u} : promised c = some pty → arith pty = some ty → BaseText env ty (Mem.le (w.take (Value.Spec.sizeOf ty))) u →
      ArgText penv env c (.val (passed pty).1 w) (text "(" ++ typeName ty ++ text ")" ++ u)
  | pointer {c w} : promised c = some .voidp → Mem.le w ≠ 0 → ArgText penv env c (.val .ptr w) (text "(void *)" ++ env.ptr (Mem.le w))
  | nullPointer {c w} : promised c = some .voidp → Mem.le w = 0 → ArgText penv env c (.val .ptr w) (text "(void *)NULL")
  | null {c w} : c.conv = 115 → Mem.le w = 0 → ArgText penv env c (.val .ptr w) (text "(char *)NULL")
  /-- an empty string is written as an array (C allows that too) -/
  | empty {c w} : c.conv = 115 → StringAt penv.mem (Mem.le w) [] → ArgText penv env c (.val .ptr w) (text "(char [1]){0,}")
  | string {c w s e} : c.conv = 115 → StringAt penv.mem (Mem.le w) s → s ≠ [] → Escaped s e → ArgText penv env c (.val .ptr w) (quoted e)

/-- One text for each specification and argument, in order. -/
inductive AllText (penv : PrintfCall.Env) (env : ValueString.Env) : List Conv → List Arg → List Text → Prop where
  | nil : AllText penv env [] [] []
  | cons {c a u cs as us} : ArgText penv env c a u → AllText penv env cs as us → AllText penv env (c :: cs) (a :: as) (u :: us)

/-- What can be written like that: no `%n`; no quote or backslash as `%c` (`C60_char_false`); all characters of strings can be in a literal. -/
structure Legible (penv : PrintfCall.Env) (env : ValueString.Env) (c : Conv) (a : Arg) : Prop where
  noCount : c.conv ≠ 110
  char : promised c = some .char → ∀ w, a = .val .int w → w.head? ≠ some 39 ∧ w.head? ≠ some 92
  string : c.conv = 115 → ∀ w s, a = .val .ptr w → StringAt penv.mem (Mem.le w) s → ∀ x ∈ s, Expressible env.pr x

/-- The types of printf's arguments, as the debug information describes them; pointers to `void` have no tag; texts of floating-point numbers and
addresses do not begin with `"`. -/
structure Types (penv : PrintfCall.Env) (env : ValueString.Env) (db : Db) : Prop where
  arithmetic : ∀ pty ty, arith pty = some ty → Describes db (penv.entry pty) ty
  chars : ∀ n ≤ 8, ∃ c, db (penv.entry (.chars n)) = { info := .array (some c) n } ∧ Describes db c .char
  charp : ∃ c, (db (penv.entry .charp)).info = .pointer (some c) ∧ Describes db c .char
  voidp : (db (penv.entry .voidp)).info = .pointer none
  untagged : ∀ tags, env.tags = some tags → tags (penv.entry .voidp) = none
  floats : ∀ t n, (env.flt t n).head? ≠ some 34
  addresses : ∀ a, (env.ptr a).head? ≠ some 34

/-- The parameter `p` is a pointer to characters (of type `t`, which may be qualified) and tagged METAC_ZERO_ENDED_STRING: the handler is `metac_handle_zero_ended_string`
(`Verif.Handlers.zeroEnded`); the array it makes for `s` is where new descriptions are put. -/
structure Format (env : ValueString.Env) (db : Db) (m : Mem) (p : Ref) (s : List UInt8) : Prop where
  noList : env.vaList p = false
  type : ∃ q x t c qs qs' type, (db p).info = .param false (some q) ∧ Final db q (some x) qs ∧ (db x).info = .pointer (some t) ∧ Final db t (some c) qs' ∧ Describes db c .char ∧
    TypeText db (env.dyn { info := .array (some t) (-1) }) type ∧
    db (env.dyn { info := .array (some t) ((s.length : Int) + 1) }) = { info := .array (some t) ((s.length : Int) + 1) }
  tagged : ∃ tags, env.tags = some tags ∧ tags p = some fun ev stack => do
    let (r, a) ← Handlers.zeroEnded db m stack (some ev)
    return (r, a.map fun x => ⟨env.dyn x.1, x.2⟩)

end Verif.PrintfText.Spec
