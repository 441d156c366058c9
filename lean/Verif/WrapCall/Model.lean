import Verif.ParamStorage.Model
import Verif.Value.Model
/-
Model of /repo/src/value_with_args.c:199-503: collecting the arguments of a call into a
parameter storage (`metac_value_parameter_wrap`).

The variadic arguments are a list; `va_arg` takes the first and is undefined if there is
none or its type does not fit.  Value handles, the iterator and the storage are blocks of
`Verif.Heap`.  Parameter entries belong to the type database, none is dynamic.
-/
namespace Verif.WrapCall
open Verif Verif.Entry Verif.ParamStorage Verif.Value

/-- Types of arguments after the default argument promotions; signed and unsigned versions
of a type can be fetched as each other.  `agg asBytes`: a struct or union; `asBytes` says
whether the platform passes it in the same place as an array of characters of that size
(on x86-64: not if it has floating-point members and at most 16 bytes). -/
inductive ArgTy where
  | int | long | llong | double | ldouble | cfloat | cdouble | cldouble | ptr
  | agg (asBytes : Bool)
deriving DecidableEq, Repr

/-- An argument: the bytes of a value, or a `va_list` (`ptr`: the pointer it is passed as). -/
inductive Arg where
  | val (ty : ArgTy) (bytes : List UInt8)
  | vaList (ptr : List UInt8) (args : List Arg)

/-- `sizeof` of the argument types. -/
def argSize : ArgTy → Option Nat
  | .int => some 4
  | .long | .llong | .double | .cfloat | .ptr => some 8
  | .ldouble | .cdouble => some 16
  | .cldouble => some 32
  | .agg _ => none

/-- `va_arg(p_va_list_container->parameters, ty)`. -/
def vaArg (ty : ArgTy) : List Arg → Outcome (List UInt8 × List Arg)
  | [] => .ub
  | .val ty' bytes :: rest => if ty' = ty ∧ argSize ty = some bytes.length then .ok (bytes, rest) else .ub
  | .vaList p _ :: rest => if ty = .ptr ∧ p.length = 8 then .ok (p, rest) else .ub

/-- A handler of METAC_RQVST_va_list (entry_tag.h): the number of the parameter, the storage
of the call, the nested storage to be filled and the arguments; answers the code, the nested
storage and the arguments left. -/
abbrev Handler := Nat → Sto → Sto → List Arg → Heap → Outcome (Int × Sto × List Arg × Heap)

/-- The environment: which parameters are `va_list` (entry.c:639-653), which struct entries
have a `p_va_arg_fn`, and the conversion of a `double` to `float`. -/
structure Env where
  vaList : Ref → Bool
  structFn : Ref → Bool
  narrow : List UInt8 → List UInt8

/-- How the fetched argument is converted to the type of the parameter (little endian). -/
inductive Conv where
  | low (n : Nat) | bool | narrow | whole
deriving DecidableEq, Repr

/-- value_with_args.c:340 and 401: the assignment `_type_ val = va_arg(..)`. -/
def convert (env : Env) : Conv → List UInt8 → List UInt8
  | .low n, bs => bs.take n
  | .bool, bs => if bs.all (· == 0) then [0] else [1]
  | .narrow, bs => env.narrow bs
  | .whole, bs => bs

/-- value_with_args.c:346-362: a row of the table of base types. -/
structure Row where
  name : Name
  size : Nat
  arg : ArgTy
  conv : Conv

/-- value_with_args.c:346-362: all known base types. -/
def rows : List Row := [
  ⟨nm ['c','h','a','r'], 1, .int, .low 1⟩,
  ⟨nm ['u','n','s','i','g','n','e','d',' ','c','h','a','r'], 1, .int, .low 1⟩,
  ⟨nm ['s','h','o','r','t',' ','i','n','t'], 2, .int, .low 2⟩,
  ⟨nm ['u','n','s','i','g','n','e','d',' ','s','h','o','r','t',' ','i','n','t'], 2, .int, .low 2⟩,
  ⟨nm ['i','n','t'], 4, .int, .whole⟩,
  ⟨nm ['u','n','s','i','g','n','e','d',' ','i','n','t'], 4, .int, .whole⟩,
  ⟨nm ['l','o','n','g',' ','i','n','t'], 8, .long, .whole⟩,
  ⟨nm ['u','n','s','i','g','n','e','d',' ','l','o','n','g',' ','i','n','t'], 8, .long, .whole⟩,
  ⟨nm ['l','o','n','g',' ','l','o','n','g',' ','i','n','t'], 8, .llong, .whole⟩,
  ⟨nm ['u','n','s','i','g','n','e','d',' ','l','o','n','g',' ','l','o','n','g',' ','i','n','t'], 8, .llong, .whole⟩,
  ⟨nm ['_','B','o','o','l'], 1, .int, .bool⟩,
  ⟨nm ['f','l','o','a','t'], 4, .double, .narrow⟩,
  ⟨nm ['d','o','u','b','l','e'], 8, .double, .whole⟩,
  ⟨nm ['l','o','n','g',' ','d','o','u','b','l','e'], 16, .ldouble, .whole⟩,
  ⟨nm ['c','o','m','p','l','e','x',' ','f','l','o','a','t'], 8, .cfloat, .whole⟩,
  ⟨nm ['c','o','m','p','l','e','x',' ','d','o','u','b','l','e'], 16, .cdouble, .whole⟩,
  ⟨nm ['l','o','n','g',' ','c','o','m','p','l','e','x',' ','d','o','u','b','l','e'], 32, .cldouble, .whole⟩]

/-- What is to be done for one parameter. -/
inductive Plan where
  | refuse
  | take (n : Nat) (ty : ArgTy) (conv : Conv)
  | agg (size : UInt64) (fn : Bool)
  | rest (handler : Option Handler) (isVaList : Bool)

/-- value_with_args.c:322-363: the test of the name and the size of a base type; a base type
without a name is passed to `strcmp`. -/
def planBase (name : Option Name) (size : UInt64) : Outcome Plan :=
  match name with
  | none => .ub
  | some n =>
    match rows.find? fun r => r.name == n && r.size == size.toNat with
    | some r => .ok (.take r.size r.arg r.conv)
    | none => .ok .refuse

/-- value_with_args.c:385-411: enumerations by size. -/
def planEnum (size : UInt64) : Plan :=
  if size = 1 then .take 1 .int (.low 1)
  else if size = 2 then .take 2 .int (.low 2)
  else if size = 4 then .take 4 .int .whole
  else if size = 8 then .take 8 .long .whole
  else .refuse

/-- value_with_args.c:307-441: an ordinary parameter of type `t`, by the sort of its final
entry. -/
def planType (env : Env) (db : Db) (t : Ref) : Outcome Plan := do
  match ← Outcome.ofLoop (byteSize db (some t) true) with
  | .error _ => return .refuse
  | .ok size =>
    match ← Outcome.ofLoop (finalOf db (some t) isBase) with
    | some f => planBase (db f).name size
    | none =>
      match ← Outcome.ofLoop (finalOf db (some t) isPointer) with
      | some _ => return .take 8 .ptr .whole
      | none =>
        match ← Outcome.ofLoop (finalOf db (some t) isEnum) with
        | some _ => return planEnum size
        | none =>
          match ← Outcome.ofLoop (finalOf db (some t) isStruct) with
          | some f => return .agg size (env.structFn f)
          | none => return .refuse

/-- value_with_args.c:236-252, 307-315: what sort of parameter it is.  `tags`: NULL, or the
handler of the tag of an entry (lookup modelled in `Verif.TagMap`). -/
def plan (env : Env) (db : Db) (tags : Option (Ref → Option Handler)) (p : Ref) : Outcome Plan :=
  match (db p).info with
  | .param unspecified t =>
    if unspecified || env.vaList p then
      match tags with
      | none => .ok .refuse
      | some tag => .ok (.rest (tag p) (!unspecified && env.vaList p))
    else
      match t with
      | none => .ok .refuse
      | some t => planType env db t
  | _ => .ok .refuse

/-- The entry of a parameter as the storage sees it. -/
def entryArg (env : Env) (db : Db) (p : Ref) : EntryArg :=
  ⟨p, false, match (db p).info with
    | .param unspecified _ => unspecified || env.vaList p
    | _ => false⟩

/-- value_with_args.c:199-209 with value.c:719-734: the value of parameter `i`: the block of
the new handle and the address it has; `none` for NULL. -/
def newItem (st : Sto) (i : Nat) (h : Heap) : Option (Nat × Nat) × Heap :=
  match newParamValue st i with
  | none => (none, h)
  | some (_, addr) =>
    match h.alloc with
    | (none, h) => (none, h)
    | (some b, h) => (some (b, addr), h)

/-- `memcpy` of `bytes` to the start of the buffer of item `i`; undefined if they do not fit
or it is no buffer. -/
def write (st : Sto) (i : Nat) (bytes : List UInt8) : Outcome Sto :=
  match st.items[i]? with
  | some (.buf n e d b old) =>
    if bytes.length ≤ old.length then
      .ok { st with items := st.items.set i (.buf n e d b (bytes ++ old.drop bytes.length)) }
    else .ub
  | _ => .ub

/-- Result of one parameter: the arguments left (`none`: the call failed) and the storage. -/
abbrev Step := Option (List Arg) × Sto × Heap

/-- value_with_args.c:325-344, 364-384, 387-405, 412-430: append a buffer, take the address
of parameter `i`, then `fetch` what goes there. -/
def stored (e : EntryArg) (i : Nat) (size : Int) (st : Sto) (args : List Arg) (h : Heap)
    (fetch : Nat → Sto → Heap → Outcome Step) : Outcome Step := do
  let (r, st', h) ← appendBuffer (some st) (some e) size h
  match st' with
  | none => return (none, st, h)
  | some st =>
    if r ≠ 0 then return (none, st, h)
    match newItem st i h with
    | (none, h) => return (none, st, h)
    | (some (handle, addr), h) => do
      let h ← h.free handle
      fetch addr st h

/-- value_with_args.c:339-342, 379-382, 400-403. -/
def fetchVal (env : Env) (i : Nat) (ty : ArgTy) (conv : Conv) (args : List Arg) : Nat → Sto → Heap → Outcome Step :=
  fun _ st h => do
    let (bytes, args) ← vaArg ty args
    let st ← write st i (convert env conv bytes)
    return (some args, st, h)

/-- value_with_args.c:431-437, entry.c:336-341 and the generated function
(modules/metac-reflect-gen/templates/_struct_type.tpl:11-18), which reads an array of
characters of the size of the struct.  Without such a function the buffer is freed although
the storage still has it. -/
def fetchAgg (i : Nat) (size : UInt64) (fn : Bool) (args : List Arg) : Nat → Sto → Heap → Outcome Step :=
  fun addr st h =>
    if fn then
      match args with
      | .val (.agg true) bytes :: rest =>
        if bytes.length = size.toNat then do
          let st ← write st i bytes
          return (some rest, st, h)
        else .ub
      | _ => .ub
    else do
      let h ← h.free addr
      return (none, st, h)

/-- The nested storage at item `i`. -/
def innerOf (st : Sto) (i : Nat) : Option Sto :=
  match st.items[i]? with
  | some (.nested _ _ _ (some b) items size last) => some ⟨b, items, size, last⟩
  | _ => none

/-- The storage with the nested storage of item `i` as the handler left it. -/
def setInner (st : Sto) (i : Nat) (inner : Sto) : Sto :=
  match st.items[i]? with
  | some (.nested n e d (some _) _ _ _) =>
    { st with items := st.items.set i (.nested n e d (some inner.block) inner.items inner.size inner.last) }
  | _ => st

/-- value_with_args.c:274-305: the handler is called; a `va_list` parameter is taken off the
arguments first and its handler gets a copy. -/
def callHandler (hd : Handler) (isVaList : Bool) (i : Nat) (handle : Nat) (st : Sto) (args : List Arg) (h : Heap) :
    Outcome Step :=
  match innerOf st i with
  | none => .ub
  | some inner =>
    if isVaList then
      match args with
      | .vaList _ inArgs :: rest => do
        let (r, inner, _, h) ← hd i st inner inArgs h
        let h ← h.free handle
        if r ≠ 0 then return (none, setInner st i inner, h) else return (some rest, setInner st i inner, h)
      | _ => .ub
    else do
      let (r, inner, args, h) ← hd i st inner args h
      let h ← h.free handle
      if r ≠ 0 then return (none, setInner st i inner, h) else return (some args, setInner st i inner, h)

/-- value_with_args.c:249-306: a `...` or `va_list` parameter.  Without a handler the value
made for the event is not deleted, and the arguments are left as they are. -/
def doRest (e : EntryArg) (i : Nat) (handler : Option Handler) (isVaList : Bool) (st : Sto) (args : List Arg) (h : Heap) :
    Outcome Step := do
  let (r, st', h) ← appendNested (some st) (some e) h
  match st' with
  | none => return (none, st, h)
  | some st =>
    if r ≠ 0 then return (none, st, h)
    match newItem st i h with
    | (none, h) => return (none, st, h)
    | (some (handle, _), h) =>
      match handler with
      | none => return (some args, st, h)
      | some hd => callHandler hd isVaList i handle st args h

/-- value_with_args.c:235-446: one round of the loop. -/
def doParam (env : Env) (db : Db) (tags : Option (Ref → Option Handler)) (i : Nat) (p : Ref) (st : Sto)
    (args : List Arg) (h : Heap) : Outcome Step := do
  match ← plan env db tags p with
  | .refuse => return (none, st, h)
  | .take n ty conv => stored (entryArg env db p) i n st args h (fetchVal env i ty conv args)
  | .agg size fn => stored (entryArg env db p) i (toInt32 size.toNat) st args h (fetchAgg i size fn args)
  | .rest handler isVaList => doRest (entryArg env db p) i handler isVaList st args h

/-- value_with_args.c:235-447: the loop of `_handle_subprogram`; the answer tells whether the
iterator is done (`true`) or failed. -/
def params (env : Env) (db : Db) (tags : Option (Ref → Option Handler)) : Nat → List Ref → Sto → List Arg → Heap →
    Outcome (Bool × Sto × Heap)
  | _, [], st, _, h => .ok (true, st, h)
  | i, p :: ps, st, args, h => do
    match ← doParam env db tags i p st args h with
    | (none, st, h) => return (false, st, h)
    | (some args, st, h) => params env db tags (i + 1) ps st args h

/-- value_with_args.c:450-487 `_value_parameter_wrap` and 489-503: `handle` is the block of
`p_val` (`none`: NULL), `entry` its entry and `st` the storage at its address.  The answer
tells whether a value is returned.  If the iterator cannot be allocated, freeing it
dereferences NULL (iterator.c:87-90). -/
def wrap (env : Env) (db : Db) (tags : Option (Ref → Option Handler)) (handle : Option Nat) (entry : Ref) (st : Sto)
    (args : List Arg) (h : Heap) : Outcome (Bool × Sto × Heap) :=
  match handle with
  | none => .ok (false, st, h)
  | some handle => do
    match ← Outcome.ofLoop (finalOf db (some entry) isFunc) with
    | none => return (false, st, h)
    | some f =>
      match h.alloc with
      | (none, _) => .ub
      | (some iter, h) => do
        let (done, st, h) ← params env db tags 0 (paramsOf (db f).info) st args h
        if done then do
          let h ← h.free iter
          return (true, st, h)
        else do
          let h ← h.free handle
          let h ← h.free iter
          return (false, st, h)

end Verif.WrapCall
