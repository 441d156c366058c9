import Verif.Value.Spec
/-
Specification of C string literals (C11 6.4.4.4, 6.4.5).
-/
namespace Verif.PrintString.Spec
open Verif Verif.Entry Verif.Entry.Spec Verif.Value Verif.Value.Spec

/-- The simple escape sequences: letter after the backslash, character it stands for
(ASCII: `'` 39, `"` 34, `?` 63, `\` 92, a b f n r t v). -/
inductive Simple : UInt8 → UInt8 → Prop where
  | quote : Simple 39 39
  | dquote : Simple 34 34
  | question : Simple 63 63
  | backslash : Simple 92 92
  | a : Simple 97 7
  | b : Simple 98 8
  | f : Simple 102 12
  | n : Simple 110 10
  | r : Simple 114 13
  | t : Simple 116 9
  | v : Simple 118 11

/-- A control character. -/
def Control (c : UInt8) : Prop := c < 32 ∨ c = 127

/-- `Denotes s t`: the text `s` between the quotes of a literal stands for the characters
`t`.  Quotes, backslashes and control characters may only occur in escapes. -/
inductive Denotes : List UInt8 → List UInt8 → Prop where
  | nil : Denotes [] []
  | plain {c s t} : c ≠ 34 → c ≠ 92 → ¬ Control c → Denotes s t → Denotes (c :: s) (c :: t)
  | escape {e c s t} : Simple e c → Denotes s t → Denotes (92 :: e :: s) (c :: t)

/-- A character that can be part of a literal: printable, or with an escape of its own. -/
def Expressible (pr : UInt8 → Bool) (c : UInt8) : Prop := pr c = true ∨ ∃ e, Simple e c

/-- In no locale is a control character printable. -/
def Locale (pr : UInt8 → Bool) : Prop := ∀ c, pr c = true → ¬ Control c

/-- `v` is an array of `n` objects of type `char`. -/
def Chars (db : Db) (v : Value) (n : Nat) : Prop :=
  v.addr ≠ 0 ∧ ∃ x qs t f qs' bs be, Final db v.entry (some x) qs ∧ (db x).info = .array (some t) n ∧
    Final db t (some f) qs' ∧ (db f).info = .base bs be ∧ (db f).name = some [99, 104, 97, 114]

/-- The memory from `a` on holds the bytes. -/
def Bytes (m : Mem) (a : Nat) (cs : List UInt8) : Prop := ∀ k c, cs[k]? = some c → m (a + k) = some c

end Verif.PrintString.Spec
