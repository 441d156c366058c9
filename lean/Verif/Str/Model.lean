import Verif.Common
/-
Model of the string helpers of /repo/include/metac/backend/string.h.

A block of memory is the list of its bytes; a C string in a block ends at the first zero
byte, and reading past the end of the block is undefined.
-/
namespace Verif.Str
open Verif

/-- `strlen` of a block. -/
def strlen : List UInt8 → Outcome Nat
  | [] => .ub
  | b :: bs => if b = 0 then .ok 0 else do return (← strlen bs) + 1

/-- The C string in a block. -/
def cstr : List UInt8 → Outcome (List UInt8)
  | [] => .ub
  | b :: bs => if b = 0 then .ok [] else do return b :: (← cstr bs)

def INT_MAX : Nat := 2147483647

/-- C11 7.21.6.12 `vsnprintf(buf, n, …)` where the complete output is `text` (`none`: an
encoding error): the return value and the bytes written at the start of `buf`.  Output of more
than INT_MAX characters is an error too. -/
def vsnprintf (n : Nat) (text : Option (List UInt8)) : Int × List UInt8 :=
  match text with
  | none => (-1, [])
  | some t =>
    if t.length > INT_MAX then (-1, [])
    else (t.length, if n = 0 then [] else t.take (n - 1) ++ [0])

/-- C `strdup`: `ok` says whether the allocation succeeds. -/
def strdup (ok : Bool) (block : List UInt8) : Outcome (Option (List UInt8)) := do
  let s ← cstr block
  return if ok then some (s ++ [0]) else none

/-- include/metac/backend/string.h:9-28 `dsprintf<n>`: `n` is the size of the local buffer
(64 in the library), `junk` its initial contents, `text` the complete output, `ok` whether the
allocation succeeds.  The result is the returned block.  `len < sizeof(buf)` compares as
`size_t`, so a negative length is a huge one; `len + 1` is an `int`. -/
def dsprintf (n : Nat) (junk : List UInt8) (text : Option (List UInt8)) (ok : Bool) : Outcome (Option (List UInt8)) :=
  let (len, w) := vsnprintf n text
  if 0 ≤ len ∧ len < n then strdup ok (w ++ junk.drop w.length)
  else if len = INT_MAX then .ub
  else
    let size := (len + 1).toNat
    if ok then
      let (_, w) := vsnprintf size text
      .ok (some (w ++ List.replicate (size - w.length) 0))
    else .ok none

/-- include/metac/backend/string.h:36-43: the loop of `trim_trailing_spaces`. -/
def trimLoop (len i : Nat) (s : List UInt8) : List UInt8 :=
  if h : i < len then
    if s[len - i - 1]? = some 32 then trimLoop len (i + 1) (s.set (len - i - 1) 0) else s
  else s
termination_by len - i

/-- include/metac/backend/string.h:30-45 `trim_trailing_spaces`: the block afterwards. -/
def trim (p : Option (List UInt8)) : Outcome (Option (List UInt8)) :=
  match p with
  | none => .ok none
  | some s => do
    let len ← strlen s
    return some (trimLoop len 0 s)

end Verif.Str
