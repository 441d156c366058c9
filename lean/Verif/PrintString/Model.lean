import Verif.Value.Model
import Verif.Str.Model
/-
Model of the printing of character arrays as C string literals (src/value_string.c).

`pr` is the C library's `isprint` on `char` values (it depends on the locale); `alloc` says
whether the allocation succeeds.
-/
namespace Verif.PrintString
open Verif Verif.Entry Verif.Value

/-- value_string.c:43-58 `special_chars`: character and the letter of its escape. -/
def specialChars : List (UInt8 × UInt8) :=
  [(10, 110), (13, 114), (9, 116), (11, 118), (8, 98), (12, 102), (7, 97), (92, 92), (39, 39), (34, 34), (63, 63)]

/-- value_string.c:62-68, 85-92: the search in the table. -/
def findSpecial (c : UInt8) : List (UInt8 × UInt8) → Option UInt8
  | [] => none
  | (i, o) :: ts => if c = i then some o else findSpecial c ts

/-- value_string.c:61-77: the first loop, `left` characters to go at address `a`; the length
of the result so far is an `int`.  `none`: return NULL. -/
def measure (pr : UInt8 → Bool) (m : Mem) : Nat → Nat → Nat → Outcome (Option Nat)
  | 0, _, len => .ok (some len)
  | left + 1, a, len =>
    match m a with
    | none => .ub
    | some c =>
      match findSpecial c specialChars with
      | some _ => if len + 2 ≤ Str.INT_MAX then measure pr m left (a + 1) (len + 2) else .ub
      | none =>
        if pr c then (if len + 1 ≤ Str.INT_MAX then measure pr m left (a + 1) (len + 1) else .ub)
        else .ok none

/-- `res[j] = c`. -/
def put (res : List UInt8) (j : Nat) (c : UInt8) : Outcome (List UInt8) :=
  if j < res.length then .ok (res.set j c) else .ub

/-- value_string.c:84-103: the second loop: the block and the position reached. -/
def fill (pr : UInt8 → Bool) (m : Mem) : Nat → Nat → List UInt8 → Nat → Outcome (List UInt8 × Nat)
  | 0, _, res, j => .ok (res, j)
  | left + 1, a, res, j =>
    match m a with
    | none => .ub
    | some c =>
      match findSpecial c specialChars with
      | some o => do
        let res ← put res j 92
        let res ← put res (j + 1) o
        fill pr m left (a + 1) res (j + 2)
      | none =>
        if pr c then do
          let res ← put res j c
          fill pr m left (a + 1) res (j + 1)
        else .abort

/-- value_string.c:60-110: everything after the checks; `len` characters at `a`. -/
def escape (pr : UInt8 → Bool) (alloc : Bool) (m : Mem) (a len : Nat) : Outcome (Option (List UInt8)) := do
  match ← measure pr m (len - 1) a 1 with
  | none => return none
  | some n =>
    if !alloc then return none
    let (res, j) ← fill pr m (len - 1) a (List.replicate n 0) 0
    let res ← put res j 0
    Outcome.assert (j + 1 = n)
    return some res

/-- value_string.c:14-111 `_dprintable_string`: the block it returns, or NULL. -/
def dprintable (pr : UInt8 → Bool) (alloc : Bool) (db : Db) (m : Mem) (v : Option Value) : Outcome (Option (List UInt8)) :=
  match v with
  | none => .ok none
  | some v => do
    match ← Outcome.ofLoop (finalOf db (some v.entry) isArray) with
    | none => return none
    | some _ =>
      if v.addr = 0 then return none
      let e ← Outcome.ofLoop (elementEntry db (some v.entry))
      match ← Outcome.ofLoop (finalEntry db e) with
      | (none, _) => return none
      | (some f, _) =>
        if !isBase (db f).info then return none
        match (db f).name with
        | none => .ub
        | some name =>
          if name ≠ nm ['c', 'h', 'a', 'r'] then return none
          let len ← valueElementCount db (some v)
          if len < 2 then return none
          match m (v.addr + (len.toNat - 1)) with
          | none => .ub
          | some c => if c ≠ 0 then return none else escape pr alloc m v.addr len.toNat

/-- value_string.c:489-502: the text of the literal, if the array is printed as one (`none`:
it is printed element by element); `junk` is what `dsprintf` finds in its buffer, `alloc2`
whether its allocation succeeds. -/
def literal (pr : UInt8 → Bool) (alloc alloc2 : Bool) (junk : List UInt8) (db : Db) (m : Mem) (v : Option Value) : Outcome (Option (List UInt8)) := do
  match ← dprintable pr alloc db m v with
  | none => return none
  | some block =>
    let s ← Str.cstr block
    Str.dsprintf 64 junk (some (34 :: s ++ [34])) alloc2

end Verif.PrintString
