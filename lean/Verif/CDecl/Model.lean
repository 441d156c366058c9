import Verif.Entry.Model
import Verif.OutcomeFix
import Verif.Value.Model
/-
Model of src/entry_cdecl.c: type descriptions as C declarations.

The function is a loop over the recursive iterator (modelled in `Verif.Iterator`): it first
visits the entries a declaration depends on, then combines their texts.  All dependencies
are visited, also when one of them fails.  The recursion may not end.
Texts are assumed to be shorter than INT_MAX and allocations to succeed: `dsprintf` then
returns the formatted text (`Verif.Str`).
-/
namespace Verif.CDecl
open Verif Verif.Entry

abbrev Text := List UInt8

/-- C11 7.21.6.1 with the only conversions used here, `%s` and `%%`; a missing argument or
another conversion is undefined. -/
def fmt : Text → List Text → Outcome Text
  | [], _ => .ok []
  | c :: s, args =>
    if c ≠ 37 then do return c :: (← fmt s args)
    else
      match s with
      | [] => .ub
      | d :: s =>
        if d = 37 then do return 37 :: (← fmt s args)
        else if d = 115 then
          match args with
          | [] => .ub
          | a :: args => do return a ++ (← fmt s args)
        else .ub

/-- `void %s`. -/
def voidPat : Text := [118, 111, 105, 100, 32, 37, 115]
/-- `%s`. -/
def hole : Text := [37, 115]

/-- `if (p->... .type != NULL) append_dep`: a dependency that may be absent. -/
def dep : Option Ref → List Ref
  | none => []
  | some r => [r]

/-- entry_cdecl.c:267-269: the types of the members. -/
def memberType (db : Db) (r : Ref) : Option Ref :=
  match (db r).info with
  | .member mi => mi.type
  | _ => none

/-- entry_cdecl.c:369-374, 481-486: the type of a parameter that is to be printed. -/
def paramType (db : Db) (r : Ref) : Option Ref :=
  match (db r).info with
  | .param false t => t
  | _ => none

/-- entry_cdecl.c:26-586, states METAC_R_ITER_start: what is visited first. -/
def deps (db : Db) (e : Entry) : List Ref :=
  match e.info with
  | .var t => dep t
  | .array t _ => dep t
  | .qual _ t => dep t
  | .pointer t => dep t
  | .struct .class _ _ => []
  | .struct _ _ ms => if e.name.isSome then [] else ms.flatMap fun r => dep (memberType db r)
  | .subprogram t ps => dep t ++ ps.flatMap fun r => dep (paramType db r)
  | .subroutine t ps => dep t ++ ps.flatMap fun r => dep (paramType db r)
  | _ => []

/-- `dequeue_and_delete_dep`: the next result; NULL (`none`) if that entry failed, and also
if the queue is empty. -/
def dequeue : List (Option Text) → Option Text × List (Option Text)
  | [] => (none, [])
  | o :: os => (o, os)

/-- entry_cdecl.c:38-45, 123-135, 166-196, 221-229, 382-388: the text of the type an entry
is derived from (`void %s` if there is none); `none` if it failed. -/
def typePattern (t : Option Ref) (outs : List (Option Text)) : Option Text × List (Option Text) :=
  match t with
  | none => (some voidPat, outs)
  | some _ => dequeue outs

/-- entry_cdecl.c:73-86: the enumerators; `ld` is the text of `%ld`. -/
def enumText : List (Name × Int) → Option Text → Option Text
  | [], val => val
  | (n, v) :: es, val =>
    enumText es (some (val.getD [] ++ (if val.isSome then [32] else []) ++ n ++ [32, 61, 32] ++ Value.decimalInt v ++ [44]))

/-- entry_cdecl.c:174-181: the qualifiers. -/
def qualPat : Qual → Text
  | .const => [99, 111, 110, 115, 116, 32, 37, 115]
  | .volatile => [118, 111, 108, 97, 116, 105, 108, 101, 32, 37, 115]
  | .restrict => [114, 101, 115, 116, 114, 105, 99, 116, 32, 37, 115]
  | .mutable => [109, 117, 116, 97, 98, 108, 101, 32, 37, 115]
  | .shared => [115, 104, 97, 114, 101, 100, 32, 37, 115]
  | .packed => [112, 97, 99, 107, 101, 100, 32, 37, 115]

/-- include/metac/backend/string.h:30-45 `trim_trailing_spaces`, on the text
(`Verif.Str.C44_trim`). -/
def trim (t : Text) : Text := (t.reverse.dropWhile (· = 32)).reverse

/-- entry_cdecl.c:247-248. -/
def structWord : StructKind → Text
  | .struct => [115, 116, 114, 117, 99, 116]
  | .union => [117, 110, 105, 111, 110]
  | .class => []

/-- entry_cdecl.c:288-298: name and width of a field. -/
def fieldName (e : Entry) : Text :=
  match e.name with
  | none => []
  | some n =>
    match e.info with
    | .member mi =>
      match mi.bitSize with
      | some w => n ++ [58] ++ Value.decimal w.toNat
      | none => n
    | _ => n

/-- entry_cdecl.c:278-326: the fields of an anonymous struct or union; `none`: failure. -/
def fieldsText (db : Db) : List Ref → List (Option Text) → Option Text → Outcome (Option (Option Text))
  | [], _, res => .ok (some res)
  | r :: rs, outs, res =>
    match typePattern (memberType db r) outs with
    | (none, _) => .ok none
    | (some pat, outs) => do
      let field := trim (← fmt pat [fieldName (db r)])
      fieldsText db rs outs (some (res.getD [] ++ field ++ [59, 32]))

/-- `...`. -/
def dots : Text := [46, 46, 46]

/-- entry_cdecl.c:413-427, 524-538: one more parameter. -/
def addParam (params : Option Text) (param : Text) : Option Text :=
  some (params.getD [] ++ (if params.isSome then [44, 32] else []) ++ param)

/-- entry_cdecl.c:390-429, 502-539: the parameters.  For a function type (`fn`) every item is
asserted to be a parameter and names are not printed; for a function other items are left
out.  `none`: failure. -/
def paramsText (db : Db) (fn : Bool) : List Ref → List (Option Text) → Option Text → Outcome (Option (Option Text))
  | [], _, params => .ok (some params)
  | r :: rs, outs, params =>
    match (db r).info with
    | .param true _ => paramsText db fn rs outs (addParam params dots)
    | .param false none => .ok none
    | .param false (some _) =>
      match dequeue outs with
      | (none, _) => .ok none
      | (some pat, outs) => do
        let p := trim (← fmt pat [if fn then [] else (db r).name.getD []])
        paramsText db fn rs outs (addParam params p)
    | _ => if fn then .abort else paramsText db fn rs outs params

/-- entry_cdecl.c:26-586: the text of an entry, given the results for its dependencies.
Printing a missing name with `%s` is undefined. -/
def combine (db : Db) (e : Entry) (outs : List (Option Text)) : Outcome (Option Text) :=
  match e.info with
  | .var t =>
    match typePattern t outs with
    | (none, _) => .ok none
    | (some pat, _) =>
      match e.name with
      | none => .ub
      | some n => do return some (← fmt pat [n])
  | .typedef _ =>
    match e.name with
    | none => .ub
    | some n => .ok (some (n ++ [32] ++ hole))
  | .base _ _ =>
    match e.name with
    | none => .ub
    | some n => .ok (some (n ++ [32] ++ hole))
  | .enumeration _ _ es =>
    match e.name with
    | none => .ok (some ([101, 110, 117, 109, 32, 123] ++ (enumText es none).getD [] ++ [125, 32] ++ hole))
    | some n => .ok (some ([101, 110, 117, 109, 32] ++ n ++ [32] ++ hole))
  | .array t count =>
    match typePattern t outs with
    | (none, _) => .ok none
    | (some pat, _) => do
      let size := if count ≥ 0 then hole ++ [91] ++ Value.decimalInt count ++ [93] else hole ++ [91, 93]
      return some (← fmt pat [size])
  | .qual q t =>
    match typePattern t outs with
    | (none, _) => .ok none
    | (some pat, _) =>
      match t with
      | some r => do
        match (db r).info with
        | .pointer _ => return some (← fmt pat [qualPat q])
        | _ => return some (← fmt (qualPat q) [pat])
      | none => do return some (← fmt (qualPat q) [pat])
  | .pointer t =>
    match typePattern t outs with
    | (none, _) => .ok none
    | (some pat, _) => do return some (← fmt pat [[42, 32, 37, 115]])
  | .struct .class _ _ => .ok none
  | .struct k _ ms =>
    match e.name with
    | some n => .ok (some (structWord k ++ [32] ++ n ++ [32] ++ hole))
    | none => do
      match ← fieldsText db ms outs none with
      | none => return none
      | some res => return some (structWord k ++ [32, 123] ++ res.getD [] ++ [125, 32] ++ hole)
  | .subprogram t ps =>
    match typePattern t outs with
    | (none, _) => .ok none
    | (some pat, outs) => do
      match ← paramsText db false ps outs none with
      | none => return none
      | some params =>
        match e.name with
        | none => .ub
        | some n => return some (← fmt (pat ++ [40] ++ hole ++ [41]) [n, params.getD []])
  | .subroutine t ps =>
    match typePattern t outs with
    | (none, _) => .ok none
    | (some pat, outs) => do
      match ← paramsText db true ps outs none with
      | none => return none
      | some params => return some (← fmt (pat ++ [40] ++ hole ++ [41]) [[40] ++ hole ++ [41], params.getD []])
  | _ => .ok none

/-- entry_cdecl.c:17-591 `metac_entry_cdecl` of an entry (NULL for NULL). -/
def cdecl (db : Db) (r : Ref) : Outcome (Option Text) := do
  let outs ← (deps db (db r)).mapM (cdecl db)
  combine db (db r) outs
partial_fixpoint

/-- entry.c:639-653 `metac_entry_is_va_list_parameter`. -/
def isVaList (db : Db) (r : Ref) : Outcome Bool :=
  match (db r).info with
  | .param false (some t) => do
    match ← cdecl db t with
    | none => return false
    | some s =>
      return decide (s = [118, 97, 95, 108, 105, 115, 116, 32, 37, 115]) ||
        decide (s = [115, 116, 114, 117, 99, 116, 32, 95, 95, 118, 97, 95, 108, 105, 115, 116, 95, 116, 97, 103, 32, 42, 32, 37, 115])
  | _ => .ok false

end Verif.CDecl
