import Verif.Trace.Model
/-
Model of the other way to trace a call, /repo/examples/c_print_args_alt/print_args.h: the arguments are not taken
from a `va_list`, each expression is stored into an object of its own type, and the bytes of this object are used.
-/
namespace Verif.Alt
open Verif Verif.Entry Verif.ParamStorage Verif.Handles Verif.Value
open Verif.WrapCall (Arg Handler entryArg newItem write innerOf setInner)
open Verif.Trace (Prog Event Text announce report finish calling)

/-- The type of an argument expression; `literal ptr`: a string literal (`ptr`: the bytes of the pointer it decays to). -/
inductive CType where
  | base (ty : Ty)
  | enumeration
  | pointer
  | literal (ptr : List UInt8)
  | agg
  | vaList

/-- An argument expression, evaluated: its type, the bytes of `typeof(arg) _x_val = arg` (print_args.h:97-98) and what it is when
it is passed through `...`.  The expressions have no effects (like those of `Verif.Trace` they are evaluated more than once). -/
structure Expr where
  type : CType
  own : List UInt8
  arg : Arg

/-- print_args.h:125-141: the names and sizes of the base types. -/
def rows : List (Name × Nat × Ty) := [
  (nm ['c','h','a','r'], 1, .char),
  (nm ['u','n','s','i','g','n','e','d',' ','c','h','a','r'], 1, .uchar),
  (nm ['s','h','o','r','t',' ','i','n','t'], 2, .short),
  (nm ['u','n','s','i','g','n','e','d',' ','s','h','o','r','t',' ','i','n','t'], 2, .ushort),
  (nm ['i','n','t'], 4, .int),
  (nm ['u','n','s','i','g','n','e','d',' ','i','n','t'], 4, .uint),
  (nm ['l','o','n','g',' ','i','n','t'], 8, .long),
  (nm ['u','n','s','i','g','n','e','d',' ','l','o','n','g',' ','i','n','t'], 8, .ulong),
  (nm ['l','o','n','g',' ','l','o','n','g',' ','i','n','t'], 8, .llong),
  (nm ['u','n','s','i','g','n','e','d',' ','l','o','n','g',' ','l','o','n','g',' ','i','n','t'], 8, .ullong),
  (nm ['_','B','o','o','l'], 1, .bool),
  (nm ['f','l','o','a','t'], 4, .float),
  (nm ['d','o','u','b','l','e'], 8, .double),
  (nm ['l','o','n','g',' ','d','o','u','b','l','e'], 16, .ldouble),
  (nm ['c','o','m','p','l','e','x',' ','f','l','o','a','t'], 8, .floatComplex),
  (nm ['c','o','m','p','l','e','x',' ','d','o','u','b','l','e'], 16, .doubleComplex),
  (nm ['l','o','n','g',' ','c','o','m','p','l','e','x',' ','d','o','u','b','l','e'], 32, .ldoubleComplex)]

/-- `*((_type_*)&_x_val)` and `memcpy(.., &_x_val, n)`: the first `n` bytes of the object; reading past its end is undefined. -/
def first (x : Expr) (n : Nat) : Outcome (List UInt8) := if x.own.length < n then .ub else .ok (x.own.take n)

/-- print_args.h:77-80 with value_base_type.c:171-222 and value.c:334-378: `metac_value_set_<type>` of parameter `p`, item `i`;
its answer is ignored.  A parameter is no bit-field.  Padding of `long double` is taken to be copied. -/
def setBase (db : Db) (i : Nat) (p : Ref) (ty : Ty) (bytes : List UInt8) (st : Sto) : Outcome Sto := do
  match ← Outcome.ofLoop (finalEntry db (some p)) with
  | (none, _) => return st
  | (some _, quals) =>
    if (quals.getD {}).const then return st
    if ← isTy db (some p) ty then write st i bytes else return st

/-- print_args.h:123-141: a base type; one that is not in the table is passed over. -/
def fillBase (db : Db) (i : Nat) (p : Ref) (name : Option Name) (size : UInt64) (x : Expr) (st : Sto) : Outcome Sto :=
  match name with
  | none => .ub
  | some n =>
    match rows.find? fun r => r.1 == n && r.2.1 == size.toNat with
    | none => .ok st
    | some (_, k, ty) => do
      let bytes ← first x k
      setBase db i p ty bytes st

/-- print_args.h:82-86, 142-147: an enumeration. -/
def fillEnum (i : Nat) (size : UInt64) (x : Expr) (st : Sto) : Outcome Sto :=
  if size = 1 ∨ size = 2 ∨ size = 4 ∨ size = 8 then do
    let bytes ← first x size.toNat
    write st i bytes
  else .ok st

/-- print_args.h:148-157: a pointer; for a string literal it is the address of the literal. -/
def fillPointer (i : Nat) (size : UInt64) (x : Expr) (st : Sto) : Outcome Sto :=
  match x.type with
  | .literal ptr => write st i (ptr.take size.toNat)
  | _ => do
    let bytes ← first x size.toNat
    write st i bytes

/-- print_args.h:123-165: the value of parameter `p` of type `t`; `false`: failure 3. -/
def fill (db : Db) (i : Nat) (p t : Ref) (size : UInt64) (x : Expr) (st : Sto) : Outcome (Bool × Sto) := do
  match ← Outcome.ofLoop (finalOf db (some t) isBase) with
  | some f => do
    let st ← fillBase db i p (db f).name size x st
    return (true, st)
  | none =>
    match ← Outcome.ofLoop (finalOf db (some t) isEnum) with
    | some _ => do
      let st ← fillEnum i size x st
      return (true, st)
    | none =>
      match ← Outcome.ofLoop (finalOf db (some t) isPointer) with
      | some _ => do
        let st ← fillPointer i size x st
        return (true, st)
      | none =>
        match ← Outcome.ofLoop (finalOf db (some t) isStruct) with
        | some _ => do
          let bytes ← first x size.toNat
          let st ← write st i bytes
          return (true, st)
        | none => return (false, st)

/-- The answer for one argument: the failure (0: none), the storage. -/
abbrev Step := Nat × Sto × Heap

/-- print_args.h:119-168: an ordinary parameter of `size` bytes.  If the buffer cannot be appended, nothing is done and it is no
failure; if there is no value, deleting NULL is undefined (value.c:790-797). -/
def store (env : WrapCall.Env) (db : Db) (i : Nat) (p t : Ref) (size : UInt64) (x : Expr) (st : Sto) (h : Heap) : Outcome Step := do
  let (r, st', h) ← appendBuffer (some st) (some (entryArg env db p)) (toInt32 size.toNat) h
  match st' with
  | none => return (0, st, h)
  | some st =>
    if r ≠ 0 then return (0, st, h)
    match newItem st i h with
    | (none, _) => .ub
    | (some (handle, _), h) => do
      let (good, st) ← fill db i p t size x st
      let h ← h.free handle
      return (if good then 0 else 3, st, h)

/-- print_args.h:112-117: the size of the parameter, or failure 2 (the line printed in 114 is left out). -/
def sized (size : Except Int UInt64) (st : Sto) (h : Heap) (k : UInt64 → Outcome Step) : Outcome Step :=
  match size with
  | .error _ => .ok (2, st, h)
  | .ok size => k size

/-- print_args.h:105-168: an ordinary parameter. -/
def ordinary (env : WrapCall.Env) (db : Db) (i : Nat) (p : Ref) (t : Option Ref) (x : Expr) (st : Sto) (h : Heap) : Outcome Step :=
  match t with
  | none => .ok (1, st, h)
  | some t => do
    let size ← Outcome.ofLoop (byteSize db (some p) true)
    sized size st h fun size => store env db i p t size x st h

/-- print_args.h:23-41: the handler of the tag is called for the nested storage of parameter `i`; its answer is ignored.
Without handler, or without value, it is a failure. -/
def handle (handler : Option Handler) (i : Nat) (args : List Arg) (st : Sto) (h : Heap) : Outcome Step :=
  match handler with
  | none => .ok (6, st, h)
  | some hd =>
    match newItem st i h with
    | (none, h) => .ok (6, st, h)
    | (some (handle, _), h) =>
      match innerOf st i with
      | none => .ub
      | some inner => do
        let (_, inner, _, h) ← hd i st inner args h
        let h ← h.free handle
        return (0, setInner st i inner, h)

/-- print_args.h:172-180 and 182-190 with 9-71: variable arguments.  An iterator that cannot be allocated is dereferenced when
it is freed (iterator.c:87-90).  `_process_unspecified_params` starts its `va_list` after `p_tag_map`, which is not its last named
parameter; as the compilers do, the variable arguments are taken to begin after the last one. -/
def variable_ (env : WrapCall.Env) (db : Db) (tags : Option (Ref → Option Handler)) (i : Nat) (p : Ref) (args : List Arg) (st : Sto) (h : Heap) :
    Outcome Step := do
  let (r, st', h) ← appendNested (some st) (some (entryArg env db p)) h
  match st' with
  | none => return (5, st, h)
  | some st =>
    if r ≠ 0 then return (5, st, h)
    match h.alloc with
    | (none, _) => .ub
    | (some iter, h) => do
      let (f, st, h) ← handle (tags.bind (· p)) i args st h
      let h ← h.free iter
      return (f, st, h)

/-- print_args.h:101-196 `_APPEND_PARAM` for each argument; `i` is `param_id`, `generic` tells whether `_Generic` finds an argument
that is a `va_list` to be one (171; not where `va_list` is an array, as on x86-64 Linux: there an uninitialised `va_list` is copied). -/
def append (env : WrapCall.Env) (generic : Bool) (db : Db) (tags : Option (Ref → Option Handler)) (ps : List Ref) :
    Nat → List Expr → Sto → Heap → Outcome Step
  | _, [], st, h => .ok (0, st, h)
  | i, x :: xs, st, h =>
    match ps[i]? with
    | none => .ok (1, st, h)
    | some p =>
      match (db p).info with
      | .param unspecified t =>
        if !unspecified && !env.vaList p then do
          let (f, st, h) ← ordinary env db i p t x st h
          if f ≠ 0 then return (f, st, h)
          append env generic db tags ps (i + 1) xs st h
        else if !unspecified then
          match generic, x.arg with
          | true, .vaList _ args => do
            let (f, st, h) ← variable_ env db tags i p args st h
            if f ≠ 0 then return (f, st, h)
            append env generic db tags ps (i + 1) xs st h
          | _, _ => .ub
        else variable_ env db tags i p ((x :: xs).map (·.arg)) st h
      | _ => .ok (1, st, h)

/-- print_args.h:209-211: `printf("failure %d\n", failure)`. -/
def failureLine (n : Nat) : List Event :=
  if n = 0 then [] else [.line ([102, 97, 105, 108, 117, 114, 101, 32] ++ [UInt8.ofNat (48 + n)] ++ [10])]

variable {W R : Type}

/-- print_args.h:204-208: the arguments are appended; a function without entry has no parameters. -/
def appendAll (p : Prog W R) (generic : Bool) (xs : List Expr) (st : Sto) (h : Heap) : Outcome Step := do
  match ← Outcome.ofLoop (finalOf p.db p.entry isFunc) with
  | none => append p.env generic p.db p.tags [] 0 xs st h
  | some f => append p.env generic p.db p.tags (paramsOf (p.db f).info) 0 xs st h

/-- print_args.h:199-213 `_WRAP` and 217-221: `p_val`, the storage and what is printed. -/
def start (p : Prog W R) (generic : Bool) (xs : List Expr) (h : Heap) : Outcome (Option Handle × Option Sto × List Event × Heap) :=
  match newStorage h with
  | (none, h) => .ok (none, none, [], h)
  | (some st, h) => do
    let (v, h) ← newHandle p.db (p.entry.map .static) (p.addrOf st.block) h
    let (f, st, h) ← appendAll p generic xs st h
    return (v, some st, failureLine f, h)

/-- print_args.h:216-253 METAC_WRAP_FN_RES; all but the recording is as in the other macro (`Verif.Trace`).
`exprs`: the argument expressions. -/
def traced (p : Prog W R) (generic : Bool) (exprs : W → Outcome (List Expr)) (w : W) (h : Heap) : Outcome (R × W × List Event × Heap) := do
  let xs ← exprs w
  let (v, st, l0, h) ← start p generic xs h
  let (l, h) ← announce calling p v st w h
  let (as, w) ← p.args w
  let (r, w) ← p.fn as w
  let (l', h) ← report p v st r w h
  let h ← finish v st h
  return (r, w, l0 ++ l ++ [.call as] ++ l', h)

end Verif.Alt
