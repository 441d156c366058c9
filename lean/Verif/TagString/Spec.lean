import Verif.Common
/-
Specification of Go-like tag strings.  Characters: 32 space, 34 `"`, 58 `:`, 92 `\`.
-/
namespace Verif.TagString.Spec

/-- The text between the quotes: `\` together with the character after it stands for one
character, so a quote may appear after `\` only. -/
inductive Text : List UInt8 → Prop where
  | nil : Text []
  | char {c t} : c ≠ 34 → c ≠ 92 → Text t → Text (c :: t)
  | escape {c t} : Text t → Text (92 :: c :: t)

/-- A key: not empty, without spaces, quotes and colons. -/
def Key (k : List UInt8) : Prop := k ≠ [] ∧ 32 ∉ k ∧ 34 ∉ k ∧ 58 ∉ k

/-- The string consists of the given `key:"value"` pairs, separated by one or more spaces. -/
inductive WellFormed : List UInt8 → List (List UInt8 × List UInt8) → Prop where
  | nil (n) : WellFormed (List.replicate n 32) []
  | cons {n k v rest ps} : Key k → Text v → WellFormed rest ps → (rest = [] ∨ rest.head? = some 32) →
      WellFormed (List.replicate n 32 ++ k ++ 58 :: 34 :: v ++ 34 :: rest) ((k, v) :: ps)

/-- The value of the first pair with the key. -/
inductive First : List (List UInt8 × List UInt8) → List UInt8 → Option (List UInt8) → Prop where
  | none {k} : First [] k none
  | here {k v ps} : First ((k, v) :: ps) k (some v)
  | later {k k' v ps r} : k' ≠ k → First ps k r → First ((k', v) :: ps) k r

/-- In `s` the value `v` is enclosed in quotes right after the key and a colon; the key
begins the string or follows a space or the closing quote of a value. -/
def Occurs (s k v : List UInt8) : Prop :=
  ∃ pre post, s = pre ++ k ++ 58 :: 34 :: v ++ 34 :: post ∧ k ≠ [] ∧ 32 ∉ k ∧ Text v ∧
    (pre = [] ∨ pre.getLast? = some 32 ∨ pre.getLast? = some 34)

end Verif.TagString.Spec
