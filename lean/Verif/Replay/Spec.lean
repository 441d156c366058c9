import Verif.WrapCall.Spec
import Verif.PrintfCall.Spec
import Verif.Ffi.Spec
/-
Specification of recorded calls: `metac_value_parameter_wrap` records the arguments of a call
(`Verif.WrapCall`), `metac_value_ffi_call` makes it later (`Verif.Ffi`).  The two models meet in the
storage: the first builds it, the second reads it from memory.  Here: what it means that a storage is in
memory, and that the function gets what the caller passed.
-/
namespace Verif.Replay.Spec
open Verif Verif.Entry Verif.Entry.Spec Verif.Value Verif.ParamStorage Verif.ParamStorage.Spec Verif.Ffi Verif.Ffi.Spec
open Verif.WrapCall.Spec (Class Takes Carries Plain VaList)
open Verif.PrintfCall.Spec (StringAt)

/-- `Held env m x v`: the value `v` leads to the stored parameter `x`: it has its type, and at
its address are the bytes (or the storage of the variable arguments). -/
inductive Held (env : Handlers.Env) (m : Mem) : View → Value → Prop where
  | bytes {e bs v} : v.entry = e.id → v.addr ≠ 0 → v.addr < 2 ^ 64 → Bytes m v.addr bs → Held env m (.bytes e bs) v
  | list {e vs v} : v.entry = e.id → v.addr ≠ 0 → Each (Held env m) vs (env.params v.addr) → Held env m (.list e vs) v

/-- How C passes a scalar of libffi's type in `...`. -/
def travels : Prim → List WrapCall.ArgTy
  | .sint | .uint => [.int]
  | .slong | .ulong => [.long, .llong]
  | .double => [.double]
  | .longdouble => [.ldouble]
  | .complexFloat => [.cfloat]
  | .complexDouble => [.cdouble]
  | .complexLongdouble => [.cldouble]
  | .pointer => [.ptr]
  | _ => []

/-- `Gets src dst a b`: for the variable argument `a` of the caller the function gets `b`: the same bytes, for a type that
C passes like this; or, for a string, a pointer to an equal string (`src`: memory when the call was recorded, `dst`:
when it is made). -/
inductive Gets (src dst : Mem) : WrapCall.Arg → Ffi.Arg → Prop where
  | scalar {p ty bs} : ty ∈ travels p → bs.length = width p → Gets src dst (.val ty bs) (.object (.prim p) bs)
  | string {w w' s} : StringAt src (Mem.le w) s → w'.length = 8 → StringAt dst (Mem.le w') s → Gets src dst (.val .ptr w) (.object (.prim .pointer) w')

/-- `Same wenv env db src dst ps as bs fixed`: a call with the arguments `as` (as they are handed to
`metac_value_parameter_wrap`, after C's argument promotions) is the call of a function with the parameters `ps` that gets `bs`: one argument for each
parameter, of its type, with the value that was passed; then the variable arguments.  `fixed`: the number of those before `...`, if there is one. -/
inductive Same (wenv : WrapCall.Env) (env : Handlers.Env) (db : Db) (src dst : Mem) : List Ref → List WrapCall.Arg → List Ffi.Arg → Option Nat → Prop where
  | nil : Same wenv env db src dst [] [] [] none
  | plain {p t c bs a s ps as l fixed} : Plain wenv db p (some t) → Takes wenv db t c → Carries wenv c bs a → Looks env db p s → bs.length = room s →
      Same wenv env db src dst ps as l fixed → Same wenv env db src dst (p :: ps) (a :: as) (.object s bs :: l) (fixed.map (· + 1))
  | vaList {p ptr inner got ps as l fixed} : VaList wenv db p → Each (Gets src dst) inner got → Same wenv env db src dst ps as l fixed →
      Same wenv env db src dst (p :: ps) (.vaList ptr inner :: as) (.vaList got :: l) (fixed.map (· + 1))
  | dots {p as got} : WrapCall.Spec.Dots db p → Each (Gets src dst) as got → Same wenv env db src dst [p] as got (some 0)

/-- `Keeps env db src a x`: the variable argument `a` is kept as `x`: its bytes, as an object of a type that C passes like this; or
the characters of the string it points to, as an array. -/
inductive Keeps (env : Handlers.Env) (db : Db) (src : Mem) : WrapCall.Arg → View → Prop where
  | scalar {e p ty bs} : Scalar env db e.id p → Promoted p → ty ∈ travels p → bs.length = width p → Keeps env db src (.val ty bs) (.bytes e bs)
  | string {e w s pad x qs t c} : StringAt src (Mem.le w) s → Final db e.id (some x) qs → (db x).info = .array t c → env.vaList e.id = false →
      Keeps env db src (.val .ptr w) (.bytes e (s ++ 0 :: pad))

/-- The parameters can be described to libffi: an ordinary one with the size it has, a `va_list` is a pointer (x86-64), `...` is no `va_list`;
both models take the same parameters for `va_list`s. -/
structure Callable (wenv : WrapCall.Env) (env : Handlers.Env) (db : Db) (ps : List Ref) : Prop where
  same : ∀ r, env.vaList r = wenv.vaList r
  plain : ∀ p ∈ ps, ∀ t, Plain wenv db p (some t) → ∃ s, Looks env db p s ∧ ∀ n, Size db p n → room s = n
  vaList : ∀ p ∈ ps, VaList wenv db p → ∃ x qs t, Final db p (some x) qs ∧ (db x).info = .pointer t
  dots : ∀ p ∈ ps, WrapCall.Spec.Dots db p → env.vaList p = false

/-- libffi's type for a type of a printf argument. -/
def primTy : Printf.Ty → Option Prim
  | .char => some .schar
  | .uchar => some .uchar
  | .short => some .sshort
  | .ushort => some .ushort
  | .int => some .sint
  | .uint => some .uint
  | .long | .llong => some .slong
  | .ulong | .ullong => some .ulong
  | .double => some .double
  | .ldouble => some .longdouble
  | .charp | .voidp | .shortp | .intp | .longp | .llongp => some .pointer
  | .chars _ => none

/-- The entries that the printf handler uses are those of the types they are for. -/
structure Types (penv : PrintfCall.Env) (env : Handlers.Env) (db : Db) : Prop where
  scalar : ∀ ty p, primTy ty = some p → Scalar env db (penv.entry ty) p
  chars : ∀ n : Nat, ∃ x qs t, Final db (penv.entry (.chars n)) (some x) qs ∧ (db x).info = .array t n ∧ env.vaList (penv.entry (.chars n)) = false

/-- The specification is for an argument that C passes as it is (not `%c`, `%hd`, `%hhu` ...). -/
def AsIs (c : Printf.Spec.Conv) : Prop := ∀ ty p, Printf.Spec.promised c = some ty → primTy ty = some p → Promoted p

end Verif.Replay.Spec
