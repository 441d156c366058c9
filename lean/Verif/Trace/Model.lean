import Verif.WrapCall.Model
import Verif.ValueString.Model
import Verif.Handles.Model
/-
Model of the tracing macros of /repo/examples/c_print_args/print_args.h: a call is recorded, printed, made,
and printed again.  Recording is `Verif.WrapCall`, the handles are those of `Verif.Handles`.
-/
namespace Verif.Trace
open Verif Verif.Entry Verif.ParamStorage Verif.Handles

/-- Texts as `char` arrays. -/
abbrev Text := ValueString.Text

/-- What can be seen from outside: lines printed by the macros, calls of the function. -/
inductive Event where
  | line (t : Text)
  | call (args : List WrapCall.Arg)

/-- What the macros are used with, print_args.h:8 and 34; `W` is all that the caller's expressions and the function work on
(memory and what else there is), `R` the results.
`entry`: METAC_GSYM_LINK_ENTRY(_fn_), NULL if the module has no type information (include/metac/reflect/link.h:41-47);
`args`: the expressions `_args_` are evaluated; `fn`: the function runs;
`text`: `metac_value_string_ex` (modelled in `Verif.ValueString`) of the recorded call, `resText`: of the result;
`resEntry`: METAC_ENTRY_FROM_DECLLOC(loc, res); `addrOf`: the address of a block; `resAddr`: `&res`.
The heap holds what the macros allocate; what the function allocates belongs to `W`.
The macros' own variables are not visible to the expressions (in C they are: an argument called `res` or `p_val` is not that of the caller). -/
structure Prog (W R : Type) where
  env : WrapCall.Env
  db : Db
  tags : Option (Ref → Option WrapCall.Handler)
  entry : Option Ref
  args : W → Outcome (List WrapCall.Arg × W)
  fn : List WrapCall.Arg → W → Outcome (R × W)
  text : W → Sto → Outcome (Option Text)
  resText : W → R → Outcome (Option Text)
  resEntry : Option Ref
  addrOf : Nat → Nat
  resAddr : Nat

variable {W R : Type}

/-- print_args.h:15, 23, 41, 50, 53: a text made by `metac_value_string_ex` is a block of its own; the blocks that it
uses in between are left out. -/
def string (t : Outcome (Option Text)) (h : Heap) : Outcome (Option (Text × Nat) × Heap) := do
  match ← t with
  | none => return (none, h)
  | some t =>
    match h.alloc with
    | (none, h) => return (none, h)
    | (some b, h) => return (some (t, b), h)

/-- print_args.h:17: `printf("Calling %s\n", s)`. -/
def calling (t : Text) : Text := [67, 97, 108, 108, 105, 110, 103, 32] ++ t ++ [10]

/-- print_args.h:25: `printf("Returned from void %s\n", s)`. -/
def returnedVoid (t : Text) : Text :=
  [82, 101, 116, 117, 114, 110, 101, 100, 32, 102, 114, 111, 109, 32, 118, 111, 105, 100, 32] ++ t ++ [10]

/-- print_args.h:57: `printf("Returned %s from %s\n", s_res, s)`. -/
def returned (r t : Text) : Text := [82, 101, 116, 117, 114, 110, 101, 100, 32] ++ r ++ [32, 102, 114, 111, 109, 32] ++ t ++ [10]

/-- value_with_args.c:489-495 `metac_value_parameter_wrap` (with 450-487) for a handle; a handle without entry has no parameters (entry.c:536-538),
so NULL is returned. -/
def record (p : Prog W R) (v : Option Handle) (st : Sto) (as : List WrapCall.Arg) (h : Heap) : Outcome (Bool × Sto × Heap) :=
  match p.entry with
  | none => .ok (false, st, h)
  | some r => WrapCall.wrap p.env p.db p.tags (v.map (·.block)) r st as h

/-- print_args.h:9-13 and 35-39: `p_val` and the storage. -/
def start (p : Prog W R) (w : W) (h : Heap) : Outcome (Option Handle × Option Sto × W × Heap) :=
  match newStorage h with
  | (none, h) => .ok (none, none, w, h)
  | (some st, h) => do
    let (v, h) ← newHandle p.db (p.entry.map .static) (p.addrOf st.block) h
    let (as, w) ← p.args w
    let (ret, st, h) ← record p v st as h
    return (if ret then v else none, some st, w, h)

/-- print_args.h:14-20, 22-27 and 40-46: if there is a recorded call, its text is printed (`f` makes the line of it). -/
def announce (f : Text → Text) (p : Prog W R) (v : Option Handle) (st : Option Sto) (w : W) (h : Heap) : Outcome (List Event × Heap) :=
  match v, st with
  | some _, some st => do
    match ← string (p.text w st) h with
    | (none, h) => return ([], h)
    | (some (t, b), h) => do
      let h ← h.free b
      return ([.line (f t)], h)
  | _, _ => .ok ([], h)

/-- print_args.h:28 and 65 with the conditions before: the handle, if there is one, is deleted. -/
def release (v : Option Handle) (h : Heap) : Outcome Heap :=
  match v with
  | none => .ok h
  | some v => deleteHandle (some v) h

/-- print_args.h:28-32 and 65-69: the handle and the storage, if there are any, are deleted. -/
def finish (v : Option Handle) (st : Option Sto) (h : Heap) : Outcome Heap := do
  let h ← release v h
  ParamStorage.delete st h

/-- print_args.h:8-33 METAC_WRAP_FN_NORES. -/
def tracedVoid (p : Prog W R) (w : W) (h : Heap) : Outcome (W × List Event × Heap) := do
  let (v, st, w, h) ← start p w h
  let (l, h) ← announce calling p v st w h
  let (as, w) ← p.args w
  let (_, w) ← p.fn as w
  let (l', h) ← announce returnedVoid p v st w h
  let h ← finish v st h
  return (w, l ++ [.call as] ++ l', h)

/-- print_args.h:49: the handle of the result; include/metac/reflect/value.h:10-16 METAC_VALUE_FROM_DECLLOC. -/
def resultHandle (p : Prog W R) (h : Heap) : Outcome (Option Handle × Heap) :=
  match p.resEntry with
  | none => .ok (none, h)
  | some e => newHandle p.db (some (.static e)) p.resAddr h

/-- print_args.h:51-55: the text of the result; its handle is deleted. -/
def resultText (p : Prog W R) (v : Option Handle) (r : R) (w : W) (h : Heap) : Outcome (Option (Text × Nat) × Heap) :=
  match v with
  | none => .ok (none, h)
  | some v => do
    let (s, h) ← string (p.resText w r) h
    let h ← deleteHandle (some v) h
    return (s, h)

/-- print_args.h:59-64: `free` of a text, if there is one. -/
def freeText (t : Option (Text × Nat)) (h : Heap) : Outcome Heap :=
  match t with
  | none => .ok h
  | some (_, b) => h.free b

/-- print_args.h:48-64: the line after the call. -/
def report (p : Prog W R) (v : Option Handle) (st : Option Sto) (r : R) (w : W) (h : Heap) : Outcome (List Event × Heap) :=
  match v, st with
  | some _, some st => do
    let (rv, h) ← resultHandle p h
    let (s, h) ← string (p.text w st) h
    let (sr, h) ← resultText p rv r w h
    let l := match s, sr with
      | some (t, _), some (u, _) => [.line (returned u t)]
      | _, _ => []
    let h ← freeText sr h
    let h ← freeText s h
    return (l, h)
  | _, _ => .ok ([], h)

/-- print_args.h:34-71 METAC_WRAP_FN_RES. -/
def traced (p : Prog W R) (w : W) (h : Heap) : Outcome (R × W × List Event × Heap) := do
  let (v, st, w, h) ← start p w h
  let (l, h) ← announce calling p v st w h
  let (as, w) ← p.args w
  let (r, w) ← p.fn as w
  let (l', h) ← report p v st r w h
  let h ← finish v st h
  return (r, w, l ++ [.call as] ++ l', h)

end Verif.Trace
