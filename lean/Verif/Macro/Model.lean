import Verif.Alt.Model
/-
Model of the loop macros of examples/c_print_args_alt (mr.h, mr_pp.generated.h), on the level of macro arguments, and of the part of
print_args.h that uses them.  `α` is what the user writes as one argument.  Not modelled: the tokens inside of an argument, and that
compilers limit the number of macro arguments.
-/
namespace Verif.Macro
open Verif Verif.Entry Verif.ParamStorage Verif.WrapCall Verif.Alt

variable {α β : Type}

/-- One argument of a macro: what the user wrote, a number of the header (mr_pp.generated.h:3084-3087), or no text at all. -/
inductive Piece (α : Type) where
  | arg (a : α)
  | num (n : Nat)
  | empty
deriving DecidableEq, Repr

/-- mr.h:23 MR_FIRST. (A macro always has an argument, maybe an empty one.) -/
def first (va : List (Piece α)) : Piece α := va.headD .empty

/-- mr.h:24 MR_REST; also what `__VA_ARGS__` is after the first argument has got a name (mr_pp.generated.h:5): without
further arguments there is no text, which is one empty argument of the next macro. -/
def rest (va : List (Piece α)) : List (Piece α) :=
  match va.tail with
  | [] => [.empty]
  | q => q

/-- mr_pp.generated.h:3082 MR_ARG1024; `none`: too few arguments, an error. -/
def arg1024 (va : List (Piece α)) : Option (Piece α) := va[1023]?

/-- mr_pp.generated.h:3085: the numbers from 1022 down to 0 and an empty argument. -/
def counts : List (Piece α) := (List.range 1023).reverse.map .num ++ [.empty]

/-- mr_pp.generated.h:3084-3085 MR_NARG: `0, ##__VA_ARGS__` drops the comma if the text is empty (GNU; the Makefiles set no other standard). -/
def narg (va : List (Piece α)) : Option (Piece α) :=
  match va with
  | [.empty] => arg1024 (.num 0 :: counts)
  | _ => arg1024 (.num 0 :: va ++ counts)

/-- mr_pp.generated.h:3087 MR_HAS_COMMA: after the arguments 1022 times `1`, and `0`. -/
def hasComma (va : List (Piece α)) : Option (Piece α) := arg1024 (va ++ List.replicate 1022 (.num 1) ++ [.num 0])

/-- mr.h:9-10 MR_PASTE2 of the name of a loop and `p`, which is the name of one of the macros 0 to 1024 (mr_pp.generated.h:4-1028, 1030-2054) if `p` is such a
number.  `lit`: the number as which an argument is written, if it is. `none`: the name is not that of a macro. -/
def numbered (lit : α → Option Nat) (p : Piece α) : Option Nat :=
  match p with
  | .arg a => (lit a).filter (· ≤ 1024)
  | .num n => if n ≤ 1024 then some n else none
  | .empty => none

/-- mr_pp.generated.h:4-1028 MR_FOREACH0 to MR_FOREACH1024: the arguments of `X`, which is used so often. -/
def forEachN : Nat → List (Piece α) → List (Piece α)
  | 0, _ => []
  | n + 1, va => first va :: forEachN n (rest va)

/-- mr.h:19 MR_FOREACH. -/
def forEach (lit : α → Option Nat) (va : List (Piece α)) : Option (List (Piece α)) := do
  let p ← narg va
  let n ← numbered lit p
  return forEachN n va

/-- mr_pp.generated.h:1030-2054 MR_FOREACH_EX_0 to MR_FOREACH_EX_1024; `X next n va` is what the macro `X` makes of its arguments, `stop` what no text is. -/
def forEachExN (X : β → Nat → List (Piece α) → β) (stop : β) : Nat → List (Piece α) → β
  | 0, _ => stop
  | n + 1, va => X (forEachExN X stop n (rest va)) (n + 1) va

/-- mr.h:25 MR_FOREACH_EX. -/
def forEachEx (lit : α → Option Nat) (X : β → Nat → List (Piece α) → β) (stop : β) (va : List (Piece α)) : Option β := do
  let p ← narg va
  let n ← numbered lit p
  return forEachExN X stop n va

/-- mr_pp.generated.h:2056-3080 MR_FOR0 to MR_FOR1024; `op i x y` is `OP (NAME, i, x, y)`, `func a i` is `FUNC (NAME, a, i)`. -/
def forN (op : Nat → β → β → β) (func : Piece α → Nat → β) (stop : β) : Nat → List (Piece α) → β
  | 0, _ => stop
  | 1, va => func (first va) 1
  | n + 2, va => op (n + 1) (func (first va) (n + 2)) (forN op func stop (n + 1) (rest va))

/-- mr.h:20 MR_FOR, with the number of arguments written by the user. -/
def for_ (op : Nat → β → β → β) (func : Piece α → Nat → β) (stop : β) (n : Nat) (va : List (Piece α)) : Option β :=
  if n ≤ 1024 then some (forN op func stop n va) else none

/-! ### The use of the loop -/

/-- What a piece of the program does with `param_id`, the storage and the heap. -/
abbrev Code := Nat → Sto → Heap → Outcome Alt.Step

/-- The expressions among macro arguments. -/
def exprs : List (Piece Expr) → List Expr
  | [] => []
  | .arg x :: ps => x :: exprs ps
  | _ :: ps => exprs ps

/-- print_args.h:101-196 `_APPEND_PARAM` as a macro: `next` is `_NEXT_`, `va` is `args`; `_N_` is only handed on, and not used (print_args.h:9-47).
An argument that is not an expression does not compile; here nothing is done. -/
def appendParam (env : WrapCall.Env) (generic : Bool) (db : Db) (tags : Option (Ref → Option Handler)) (ps : List Ref)
    (next : Code) (_n : Nat) (va : List (Piece Expr)) : Code := fun i st h =>
  match first va with
  | .arg x =>
    match ps[i]? with
    | none => .ok (1, st, h)
    | some p =>
      match (db p).info with
      | .param unspecified t =>
        if !unspecified && !env.vaList p then do
          let (f, st, h) ← ordinary env db i p t x st h
          if f ≠ 0 then return (f, st, h)
          next (i + 1) st h
        else if !unspecified then
          match generic, x.arg with
          | true, .vaList _ args => do
            let (f, st, h) ← variable_ env db tags i p args st h
            if f ≠ 0 then return (f, st, h)
            next (i + 1) st h
          | _, _ => .ub
        else variable_ env db tags i p ((exprs va).map (·.arg)) st h
      | _ => .ok (1, st, h)
  | _ => .ok (0, st, h)

/-- print_args.h:206-208: the loop in `_WRAP`. -/
def loop (lit : Expr → Option Nat) (env : WrapCall.Env) (generic : Bool) (db : Db) (tags : Option (Ref → Option Handler)) (ps : List Ref)
    (va : List (Piece Expr)) : Option Code :=
  forEachEx lit (appendParam env generic db tags ps) (fun _ st h => .ok (0, st, h)) va

end Verif.Macro
