import Verif.Printf.Model
import Verif.WrapCall.Model
import Verif.Handlers.Model
/-
Model of storing the arguments of a printf-like call, down to the bytes and the allocations:
/repo/src/printf_format.c:129-343 and /repo/src/entry_tag.c:789-834.

`Verif.Printf` models the same function with typed arguments and without allocations; parsing
and counting are taken from there.  Here the arguments are those of `Verif.WrapCall`, the
storage is that of `Verif.ParamStorage`, and strings are read from memory.
-/
namespace Verif.PrintfCall
open Verif Verif.Entry Verif.ParamStorage
open Verif.Printf (Ty Specifier parse count)
open Verif.WrapCall (Arg ArgTy vaArg write Handler)

/-- The memory of the program and the entries of the types (printf_format.c:186, 225, 260:
`METAC_ENTRY_FROM_DECLLOC`); of `chars n` the description that is made (entry.c:31-67). -/
structure Env where
  mem : Mem
  entry : Ty → Ref

/-- What the switch does with a specifier. -/
inductive Pick where
  | str | fail
  | ty (t : Ty)
deriving DecidableEq, Repr

/-- printf_format.c:184-335: the switch over the conversion letter. -/
def pick (sp : Specifier) : Pick :=
  if sp.t = 115 then .str
  else if sp.t = 112 then .ty .voidp
  else if sp.t = 110 then
    match sp.argLen with
    | .hh => .ty .charp
    | .h => .ty .shortp
    | .no => .ty .intp
    | .l => .ty .longp
    | .ll => .ty .llongp
    | .L => .fail
  else if sp.t = 99 ∨ sp.t = 105 ∨ sp.t = 100 then
    if sp.t = 99 ∨ sp.argLen = .hh then .ty .char
    else match sp.argLen with
      | .h => .ty .short
      | .no => .ty .int
      | .l => .ty .long
      | .ll => .ty .llong
      | _ => .fail
  else if sp.t = 111 ∨ sp.t = 117 ∨ sp.t = 120 ∨ sp.t = 88 then
    match sp.argLen with
    | .hh => .ty .uchar
    | .h => .ty .ushort
    | .no => .ty .uint
    | .l => .ty .ulong
    | .ll => .ty .ullong
    | .L => .fail
  else if sp.t = 102 ∨ sp.t = 103 ∨ sp.t = 101 then
    match sp.argLen with
    | .no => .ty .double
    | .L => .ty .ldouble
    | _ => .fail
  else .fail

/-- The type given to `va_arg` for a type of parameter (printf_format.c:224-330). -/
def fetchTy : Ty → ArgTy
  | .char | .short | .int | .uchar | .ushort | .uint => .int
  | .long | .ulong => .long
  | .llong | .ullong => .llong
  | .double => .double
  | .ldouble => .ldouble
  | _ => .ptr

/-- A value handle: its block and its copy of a dynamic entry. -/
abbrev Val := Nat × Option Nat

/-- value_with_args.c:199-209 with value.c:702-734: a handle for parameter `id`; a dynamic
entry is copied. -/
def newVal (st : Sto) (id : Int) (h : Heap) : Outcome (Option Val × Heap) :=
  let dyn := match st.items[id.toNat]? with
    | some (.buf _ _ d _ _) => d
    | some (.nested _ _ d _ _ _ _) => d
    | none => none
  match newParamValue st id with
  | none => .ok (none, h)
  | some _ =>
    match h.alloc with
    | (none, h) => .ok (none, h)
    | (some b, h) =>
      match dyn with
      | none => .ok (some (b, none), h)
      | some d =>
        if h.live d then
          match h.alloc with
          | (none, h) => do
            let h ← h.free b
            return (none, h)
          | (some c, h) => .ok (some (b, some c), h)
        else .ub

/-- value.c:790-797 `metac_value_delete`. -/
def deleteVal (v : Val) (h : Heap) : Outcome Heap := do
  let h ← match v.2 with
    | some c => h.free c
    | none => .ok h
  h.free v.1

/-- The answer: code, storage, arguments left. -/
abbrev Res := Outcome (Int × Sto × List Arg × Heap)

/-- printf_format.c:224-238 and 259-272: the macros `_process`. -/
def process (env : Env) (st : Sto) (id : Nat) (ty : Ty) (args : List Arg) (h : Heap) : Res := do
  let (r, st', h) ← appendBuffer (some st) (some ⟨env.entry ty, false, false⟩) (Printf.sizeOf ty) h
  match st' with
  | none => return (EFAULT, st, args, h)
  | some st =>
    if r ≠ 0 then return (EFAULT, st, args, h)
    match ← newVal st id h with
    | (none, h) => return (EFAULT, st, args, h)
    | (some v, h) => do
      let h ← deleteVal v h
      let (bytes, args) ← vaArg (fetchTy ty) args
      let st ← write st id (bytes.take (Printf.sizeOf ty))
      return (0, st, args, h)

/-- printf_format.c:185-222, from the length of the string on: the description of an array of
characters is made, and given up without being deleted if the parameter cannot be appended. -/
def processChars (env : Env) (st : Sto) (id : Nat) (a : Nat) (args : List Arg) (h : Heap) : Res := do
  let len ← Handlers.strlenOf env.mem a
  match h.alloc with
  | (none, h) => return (EFAULT, st, args, h)
  | (some made, h) => do
    let (r, st', h) ← appendBuffer (some st) (some ⟨env.entry (.chars (len + 1)), true, false⟩) 8 h
    match st' with
    | none => return (EFAULT, st, args, h)
    | some st =>
      if r ≠ 0 then return (EFAULT, st, args, h)
      let (v, h) ← newVal st id h
      let h ← h.free made
      match v with
      | none => return (EFAULT, st, args, h)
      | some v => do
        let h ← deleteVal v h
        let bytes ← env.mem.load a (len + 1)
        let st ← write st id bytes
        return (0, st, args, h)

/-- printf_format.c:185-222: case 's'. -/
def processStr (env : Env) (st : Sto) (id : Nat) (args : List Arg) (h : Heap) : Res := do
  let (bytes, args) ← vaArg .ptr args
  if Mem.le bytes = 0 then
    let (r, st', h) ← appendBuffer (some st) (some ⟨env.entry .charp, false, false⟩) 8 h
    match st' with
    | none => return (EFAULT, st, args, h)
    | some st =>
      if r ≠ 0 then return (EFAULT, st, args, h)
      match ← newVal st id h with
      | (none, h) => return (EFAULT, st, args, h)
      | (some v, h) => do
        let h ← deleteVal v h
        let st ← write st id bytes
        return (0, st, args, h)
  else processChars env st id (Mem.le bytes) args h

/-- printf_format.c:184-335. -/
def store (env : Env) (st : Sto) (id : Nat) (sp : Specifier) (args : List Arg) (h : Heap) : Res :=
  match pick sp with
  | .str => processStr env st id args h
  | .ty t => process env st id t args h
  | .fail => .ok (EFAULT, st, args, h)

/-- printf_format.c:180-340: the loop of `_new_value_from_format_specifier`. -/
def collectLoop (env : Env) (fmt : Name) (pos id : Nat) (st : Sto) (args : List Arg) (h : Heap) : Outcome (Int × Sto × Heap) :=
  if pos < fmt.length then
    if fmt[pos]? = some 37 then
      match hp : parse fmt pos with
      | .ok (some sp, pos') =>
        match store env st id sp args h with
        | .ok (r, st', args', h') => if r ≠ 0 then .ok (r, st', h') else collectLoop env fmt (pos' + 1) (id + 1) st' args' h'
        | .abort => .abort
        | .ub => .ub
        | .hang => .hang
      | .ok (none, pos') => collectLoop env fmt (pos' + 1) (id + 1) st args h
      | .abort => .abort
      | .ub => .ub
      | .hang => .hang
    else collectLoop env fmt (pos + 1) id st args h
  else .ok (0, st, h)
termination_by fmt.length - pos
decreasing_by
  · have := Printf.parse_le _ _ _ hp; simp at this; omega
  · have := Printf.parse_le _ _ _ hp; simp at this; omega
  · omega

/-- printf_format.c:169-343 `_new_value_from_format_specifier`; printf_format.c:129-137
`metac_store_vprintf_params` and printf_format.c:149-157 `metac_store_printf_params` call it
with a copy of the caller's list. -/
def collect (env : Env) (fmt : Name) (st : Option Sto) (args : List Arg) (h : Heap) : Outcome (Int × Option Sto × Heap) :=
  match st with
  | none => .ok (EINVAL, none, h)
  | some st => do
    let _ ← count fmt
    let (r, st, h) ← collectLoop env fmt 0 0 st args h
    return (r, some st, h)

/-- The bytes of the string at an address (what reading it up to the NUL gives). -/
def cstr (m : Mem) (a : Nat) : Outcome Name := do
  let len ← Handlers.strlenOf m a
  m.load a len

/-- The first eight bytes of the buffer of item `i`, as an address (value.c:614-622); the
buffer of a nested storage is not looked into by the model. -/
def pointerAt (st : Sto) (i : Nat) : Outcome Nat :=
  match st.items[i]? with
  | some (.buf _ _ _ _ bytes) => if 8 ≤ bytes.length then .ok (Mem.le (bytes.take 8)) else .ub
  | _ => .ub

/-- entry_tag.c:811-829: from the handle of the format parameter on. -/
def withFormat (env : Env) (db : Db) (fmtEntry : Ref) (i : Nat) (v : Val) (outer inner : Sto) (args : List Arg) (h : Heap) :
    Outcome (Int × Sto × List Arg × Heap) := do
  match ← Outcome.ofLoop (finalOf db (some fmtEntry) isPointer) with
  | none => do
    let h ← deleteVal v h
    return (EINVAL, inner, args, h)
  | some _ => do
    let format ← pointerAt outer (i - 1)
    let h ← deleteVal v h
    if format = 0 then return (EINVAL, inner, args, h)
    let fmt ← cstr env.mem format
    match ← collect env fmt (some inner) args h with
    | (r, some inner, h) => return (r, inner, args, h)
    | (r, none, h) => return (r, inner, args, h)

/-- entry_tag.c:789-834 `metac_handle_printf_format` for a call of the function `f`, as a
handler of the variable part (parameter `i`); the format is parameter `i - 1`.  The event and
the hierarchy are those `metac_value_parameter_wrap` passes, so the first tests do not
matter. The arguments are only copied from. -/
def printfHandler (env : Env) (db : Db) (f : Ref) : Handler := fun i outer inner args h => do
  let pe ← Outcome.ofLoop (byParameterId db (some f) i)
  let (v, h) ← newVal outer ((i : Int) - 1) h
  match pe with
  | none => return (EINVAL, inner, args, h)
  | some _ =>
    match v with
    | none => return (EINVAL, inner, args, h)
    | some v =>
      match newParamValue outer ((i : Int) - 1) with
      | none => return (EINVAL, inner, args, h)
      | some (e, _) => withFormat env db e.id i v outer inner args h

end Verif.PrintfCall
