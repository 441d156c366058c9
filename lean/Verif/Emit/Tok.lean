import Verif.GoDedup.Model
/-
Tokens of C, and the notation `c! "..."` for the tokens of a piece of text, so that the model
can be read next to the templates of /repo/modules/metac-reflect-gen/templates.
-/
namespace Verif.Emit
open Verif.GoMeta (Str)

/-- Tokens of C (preprocessing tokens that matter here).  `str raw`: what stands between the two
quotes the template writes; `bad`: anything else. -/
inductive Tok where
  | p (c : UInt8)
  | id (s : Str)
  | num (n : Nat)
  | str (raw : Str)
  | bad
deriving DecidableEq, Repr

/-- A piece of text of a template. -/
inductive Piece where
  | punct (c : Char) | ident (s : String) | number (n : Nat)

/-- Cut a text into pieces (white space between them is skipped). -/
def cut (s : String) : List Piece := Id.run do
  let mut out : List Piece := []
  let mut word := ""
  for c in s.toList ++ [' '] do
    if c.isAlphanum || c == '_' then word := word.push c
    else
      if word != "" then
        out := (match word.toNat? with | some n => .number n | none => .ident word) :: out
        word := ""
      if !c.isWhitespace then out := .punct c :: out
  return out.reverse

/-- The tokens of a text. -/
macro "c!" s:str : term => do
  let toks ← (cut s.getString).toArray.mapM fun
    | .punct c => `(Tok.p $(Lean.quote c.toNat))
    | .ident i => `(Tok.id (go! $(Lean.Syntax.mkStrLit i)))
    | .number n => `(Tok.num $(Lean.quote n))
  `(([$toks,*] : List Tok))

end Verif.Emit
