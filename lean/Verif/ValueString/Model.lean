import Verif.Handlers.Model
import Verif.PrintString.Model
import Verif.CDecl.Model
/-
Model of the printing of values: src/value_string.c, and the functions it uses for the
texts of single objects.

The function is a loop over the recursive iterator (modelled in `Verif.Iterator`): a value is
visited first, then the values it depends on, then their texts are combined.  All values
queued are visited, also when the result is known to be a failure.  Texts are assumed to be
shorter than INT_MAX and allocations to succeed (`Verif.Str`): `dsprintf` then returns the
formatted text.  The recursion may not end.
-/
namespace Verif.ValueString
open Verif Verif.Entry Verif.Value Verif.Handlers

abbrev Text := List UInt8

/-- A handler: gets the event and the stack of values (innermost first), returns an error
code and what it leaves in `p_return_value`. -/
abbrev Handler := Event → List (Option Value) → Outcome (Int × Option Value)

/-- What printing depends on besides types and memory: the platform; `isprint` on `char`
values (locale); the texts of floating-point objects (`%f` and the like) given as the
numbers their bytes hold; the text of `%p`; the tag map (`none`: NULL), as the handler of the
tag it finds for an entry (`Verif.TagMap`); where newly made array descriptions are. -/
structure Env extends Handlers.Env where
  cfg : Plat
  pr : UInt8 → Bool
  flt : Ty → Nat → Text
  ptr : Nat → Text
  tags : Option (Ref → Option Handler)
  dyn : Entry → Ref

/-! ### Single objects -/

/-- value_base_type.c:349-393: the text of an object of a type. -/
def tyText (env : Env) (t : Ty) (n : Nat) : Outcome Text :=
  match t with
  | .char =>
    if env.pr (UInt8.ofNat n) then .ok [39, UInt8.ofNat n, 39] else .ok (decimalInt (numVal .char n))
  | .bool =>
    if useOk .bool n then .ok (if n = 1 then [116, 114, 117, 101] else [102, 97, 108, 115, 101]) else .ub
  | t => if isFloating t then .ok (env.flt t n) else .ok (decimalInt (numVal t n))

/-- value_base_type.c:349-400: the types tried, in order. -/
def stringOrder : List Ty := [.char, .uchar, .short, .ushort, .int, .uint, .long, .ulong, .llong, .ullong, .bool, .float, .double, .ldouble,
  .floatComplex, .doubleComplex, .ldoubleComplex]

/-- value_base_type.c:349-400: the sequence of tests. -/
def stringLoop (env : Env) (db : Db) (m : Mem) (v : Value) : List Ty → Outcome (Option Text)
  | [] => .ok none
  | t :: ts => do
    if ← isTy db (some v.entry) t then
      match ← getTy env.cfg db m (some v) t with
      | .error _ => return none
      | .ok n => return some (← tyText env t n)
    else stringLoop env db m v ts

/-- value_base_type.c:348-403 `metac_value_base_type_string`. -/
def baseTypeString (env : Env) (db : Db) (m : Mem) (v : Value) : Outcome (Option Text) := stringLoop env db m v stringOrder

/-- value.c:656-671 `metac_value_pointer_string`. -/
def pointerString (env : Env) (db : Db) (m : Mem) (v : Value) : Outcome (Option Text) := do
  match ← Outcome.ofLoop (finalOf db (some v.entry) isPointer) with
  | none => return none
  | some _ =>
    match ← pointer db m (some v) with
    | .error _ => return none
    | .ok a => return some (if a = 0 then [78, 85, 76, 76] else env.ptr a)

/-- value.c:604-607 `metac_value_is_void_pointer` with entry.c:298-302. -/
def isVoidPointer (db : Db) (v : Value) : Outcome Bool := do
  match ← Outcome.ofLoop (finalOf db (some v.entry) isPointer) with
  | none => return false
  | some f =>
    match (db f).info with
    | .pointer none => return true
    | _ => return false

/-- value.c:390-392 `metac_value_has_elements`. -/
def hasElements (db : Db) (v : Value) : Outcome Bool := do
  return (← Outcome.ofLoop (finalOf db (some v.entry) isArray)).isSome

/-- value.c:741-772: a new array value, with the description at its place. -/
def countValue (env : Env) (db : Db) (m : Mem) (v : Value) (count : Int) : Outcome (Option Value) := do
  match ← elementCountValue db m (some v) count with
  | none => return none
  | some (e, a) => return newValue (env.dyn e) a

/-! ### Visiting -/

/-- The cases of the switch over `final_kind`. -/
inductive Case where
  | base | enumeration | pointer | struct | union | array | packed | subroutine | subprogram | other
deriving DecidableEq, Repr

/-- value_string.c:133, 142, 151, 313-314, 451, 594-596, 763: the case of a kind. -/
def caseOf : Info → Case
  | .base .. => .base
  | .enumeration .. => .enumeration
  | .pointer _ => .pointer
  | .struct .struct .. => .struct
  | .struct .union .. => .union
  | .array .. => .array
  | .param .. => .packed
  | .subroutine .. => .subroutine
  | .subprogram .. => .subprogram
  | _ => .other

def isParam : Info → Bool | .param .. => true | _ => false

/-- value_string.c:125-130: `final_kind` (value.c:251-263 asserts that the address is not
NULL). -/
def finalCase (env : Env) (db : Db) (v : Value) : Outcome Case := do
  if isParam (db v.entry).info then
    if ← hasLoad env.toEnv db v then return .packed
  Outcome.assert (v.addr ≠ 0)
  match ← Outcome.ofLoop (finalEntry db (some v.entry)) with
  | (none, _) => return .other
  | (some f, _) => return caseOf (db f).info

/-- How a visit ends: with a result (`none`: failure), or with values to be visited first
(and the case they were queued for); `failed` if queueing was broken off. -/
inductive Next where
  | done (out : Option Text)
  | deps (vs : List Value) (failed : Bool)

/-- value_string.c:336-343, 504-511, 602-609: values number `i`, `i + 1`, ... are made;
broken off at the first that cannot be. -/
def collect (get : Nat → Outcome (Option Value)) : Nat → Nat → Outcome (List Value × Bool)
  | 0, _ => .ok ([], false)
  | left + 1, i => do
    match ← get i with
    | none => return ([], true)
    | some v =>
      let (vs, failed) ← collect get left (i + 1)
      return (v :: vs, failed)

/-- the handler for a value, if there is a tag with a handler. -/
def handlerOf (tags : Ref → Option Handler) (v : Value) : Option Handler := tags v.entry

/-- Result of a handler call, as its callers see it: an error, or the value left. -/
def request (tags : Option (Ref → Option Handler)) (ev : Event) (p : Value) (outer : List Value) : Outcome (Option (Option Value)) :=
  match tags with
  | none => .ok (some none)
  | some tags =>
    match handlerOf tags p with
    | none => .ok (some none)
    | some h => do
      let (c, r) ← h ev ((p :: outer).map some)
      if c ≠ 0 then return none else return some r

/-- value_string.c:164-243: a pointer in deep mode, first visit. -/
def startPointer (env : Env) (db : Db) (m : Mem) (p : Value) (outer : List Value) : Outcome Next := do
  match ← pointer db m (some p) with
  | .error _ => return .done none
  | .ok a =>
    if a = 0 then return .done (← pointerString env db m p)
    if (← introducedLoop db m ((p :: outer).map some)) > 0 then return .done none
    match ← request env.tags .pointerArrayCount p outer with
    | none => return .done none
    | some r =>
      match r with
      | some arr =>
        if arr.addr ≠ a then return .done none
        if ← hasElements db arr then return .deps [arr] false
        return .done none
      | none =>
        if ← isVoidPointer db p then return .done (← pointerString env db m p)
        match ← countValue env db m p 1 with
        | none => return .done none
        | some arr =>
          if ← hasElements db arr then return .deps [arr] false
          return .done none

/-- value_string.c:489-522: the elements of an array with a known number of elements. -/
def startElements (env : Env) (db : Db) (m : Mem) (v : Value) : Outcome Next := do
  match ← PrintString.dprintable env.pr true db m (some v) with
  | some block => return .done (some (34 :: (← Str.cstr block) ++ [34]))
  | none =>
    let count ← valueElementCount db (some v)
    let (vs, failed) ← collect (fun i => elementValue db (some v) i) count.toNat 0
    return .deps vs failed

/-- value_string.c:452-522: an array, first visit. -/
def startArray (env : Env) (db : Db) (m : Mem) (p : Value) (outer : List Value) : Outcome Next := do
  Outcome.assert (← hasElements db p)
  if (← valueElementCount db (some p)) = -1 then
    match env.tags with
    | none =>
      match ← countValue env db m p 0 with
      | none => return .done none
      | some v => startElements env db m v
    | some _ =>
      match ← request env.tags .flexArrayCount p outer with
      | none => return .done none
      | some none => return .done (some [])
      | some (some v) => startElements env db m v
  else startElements env db m p

/-- value_string.c:314-350: a struct, first visit. -/
def startStruct (db : Db) (p : Value) : Outcome Next := do
  Outcome.assert (← hasMembers db p)
  let count ← memberCountOf db p
  let (vs, failed) ← collect (fun i => memberValue db (some p) i) count.toNat 0
  return .deps vs failed

/-- value_string.c:314-334: a union, first visit. -/
def startUnion (env : Env) (db : Db) (p : Value) (outer : List Value) : Outcome Next := do
  Outcome.assert (← hasMembers db p)
  let count ← memberCountOf db p
  if count > 0 then
    match ← request env.tags .unionMember p outer with
    | none => return .done none
    | some none => return .deps [] false
    | some (some v) => return .deps [v] false
  else return .deps [] false

/-- value_string.c:597-616: a call or a list of arguments, first visit. -/
def startParams (env : Env) (db : Db) (p : Value) : Outcome Next := do
  Outcome.assert (← hasLoad env.toEnv db p)
  let (vs, failed) ← collect (paramItem env.toEnv p) (env.params p.addr).length 0
  return .deps vs failed

/-- value_string.c:121-522, 597-616: the first visit of a value; `outer` are the values
around it. -/
def start (env : Env) (deep : Bool) (db : Db) (m : Mem) (s : Case) (p : Value) (outer : List Value) : Outcome Next :=
  match s with
  | .base => do return .done (← baseTypeString env db m p)
  | .enumeration => do return .done (← enumerationString db m (some p))
  | .pointer => if deep then startPointer env db m p outer else do return .done (← pointerString env db m p)
  | .struct => startStruct db p
  | .union => startUnion env db p outer
  | .array => startArray env db m p outer
  | .packed | .subroutine | .subprogram => startParams env db p
  | .other => .ok (.done none)

/-! ### Combining -/

/-- `prev_out == NULL ? "" : prev_out` and the separator. -/
def sep (out : Option Text) (s : Text) : Text :=
  match out with
  | none => []
  | some t => t ++ s

/-- value_string.c:356-399: the members; `none`: failure. -/
def joinMembers (db : Db) : List (Value × Option Text) → Option Text → Option (Option Text)
  | [], out => some out
  | (_, none) :: _, _ => none
  | (v, some t) :: vs, out =>
    if t = [] then joinMembers db vs out
    else
      match (db v.entry).name with
      | none => joinMembers db vs (some (sep out [32] ++ t))
      | some n => joinMembers db vs (some (sep out [32] ++ [46] ++ n ++ [32, 61, 32] ++ t ++ [44]))

def isMember : Info → Bool | .member _ => true | _ => false

/-- value_string.c:353-431: the text of a struct or union. -/
def finishStruct (db : Db) (p : Value) (vs : List (Value × Option Text)) : Option Text :=
  match joinMembers db vs none with
  | none => none
  | some out =>
    let t := out.getD []
    if isMember (db p.entry).info ∧ (db p.entry).name = none then some t
    else some ([123] ++ t ++ [125])

/-- value_string.c:528-559: the elements; `none`: failure. -/
def joinElements : List (Value × Option Text) → Option Text → Option (Option Text)
  | [], out => some out
  | (_, none) :: _, _ => none
  | (_, some t) :: vs, out => joinElements vs (some (sep out [32] ++ t ++ [44]))

/-- value_string.c:525-574: the text of an array. -/
def finishArray (vs : List (Value × Option Text)) : Option Text :=
  match joinElements vs none with
  | none => none
  | some out => some ([123] ++ out.getD [] ++ [125])

/-- the text starts with a quote. -/
def quoted (t : Text) : Bool := t.head? = some 34

/-- value_string.c:245-300: the text of a pointer. -/
def finishPointer (env : Env) (db : Db) (m : Mem) : List (Value × Option Text) → Outcome (Option Text)
  | [(arr, some t)] => do
    match ← countValue env db m arr (-1) with
    | none => return none
    | some flex =>
      match ← CDecl.cdecl db flex.entry with
      | none => return none
      | some pat =>
        let type ← CDecl.fmt pat [[]]
        if quoted t then return some t else return some ([40] ++ type ++ [41] ++ t)
  | [(_, none)] => .ok none
  | _ => .abort

/-- value_string.c:622-703: the arguments; for a list of arguments (`packed`) with their
types.  `none`: failure.  If a type cannot be printed, `out` is freed twice. -/
def joinParams (db : Db) (packed : Bool) : List (Value × Option Text) → Option Text → Outcome (Option (Option Text))
  | [], out => .ok (some out)
  | (_, none) :: _, _ => .ok none
  | (v, some t) :: vs, out =>
    if packed then do
      match ← CDecl.cdecl db v.entry with
      | none => if out.isSome then .ub else return none
      | some pat =>
        let type := CDecl.trim (← CDecl.fmt pat [[]])
        if quoted t then joinParams db packed vs (some (sep out [44, 32] ++ t))
        else joinParams db packed vs (some (sep out [44, 32] ++ [40] ++ type ++ [41] ++ t))
    else joinParams db packed vs (some (sep out [44, 32] ++ t))

/-- value_string.c:705-744: the text of a call or a list of arguments; NULL is not a legal
argument of `%s`. -/
def finishParams (env : Env) (db : Db) (s : Case) (p : Value) (vs : List (Value × Option Text)) : Outcome (Option Text) := do
  match ← joinParams db (s = .packed) vs none with
  | none => return none
  | some out =>
    match s with
    | .packed =>
      if env.vaList p.entry then
        match out with
        | none => .ub
        | some t => return some ([86, 65, 95, 76, 73, 83, 84, 40] ++ t ++ [41])
      else return out
    | _ =>
      match (db p.entry).name with
      | none => .ub
      | some n =>
        if s = .subroutine then return some ([40] ++ n ++ [41, 40] ++ out.getD [] ++ [41])
        else return some (n ++ [40] ++ out.getD [] ++ [41])

/-- value_string.c:245-300, 352-449, 524-592, 618-761: the second visit of a value. -/
def finish (env : Env) (db : Db) (m : Mem) (s : Case) (p : Value) (failed : Bool) (vs : List (Value × Option Text)) : Outcome (Option Text) :=
  if failed then .ok none
  else
    match s with
    | .pointer => finishPointer env db m vs
    | .struct | .union => .ok (finishStruct db p vs)
    | .array => .ok (finishArray vs)
    | .packed | .subroutine | .subprogram => finishParams env db s p vs
    | _ => .ok none

/-- value_string.c:113-773: the text of a value inside the values `outer`. -/
def walk (env : Env) (deep : Bool) (db : Db) (m : Mem) (outer : List Value) (p : Value) : Outcome (Option Text) := do
  let s ← finalCase env db p
  match ← start env deep db m s p outer with
  | .done out => return out
  | .deps vs failed =>
    let outs ← vs.mapM (walk env deep db m (p :: outer))
    finish env db m s p failed (vs.zip outs)
partial_fixpoint

/-- value_string.c:113-773 `metac_value_string_ex`; modes other than shallow and deep are
left out. -/
def valueString (env : Env) (deep : Bool) (db : Db) (m : Mem) : Option Value → Outcome (Option Text)
  | none => .ok none
  | some p => walk env deep db m [] p

end Verif.ValueString
