import Verif.GoMeta.Model
/-
Specification of the identifiers, and of the array types derived from debug information.
-/
namespace Verif.GoMeta.Spec
open Verif.GoMeta

/-- The bytes of an ASCII text. -/
def ascii (s : String) : Str := s.toList.map fun c => UInt8.ofNat c.toNat

/-- The word an identifier begins with, for each kind of object; base types have none. -/
def kindWord : Kind → String
  | .baseType => "" | .enumerationType => "e" | .arrayType => "a" | .pointerType => "p" | .referenceType => "ref"
  | .unspecifiedType => "unspec" | .subroutineType => "sbrtn" | .qualType => "qual" | .typedef => "t"
  | .unionType => "u" | .structType => "s" | .classType => "c" | .variableObj => "var" | .subprogram => "fn"
  | .lexBlock => "blk" | .namespaceObj => "ns" | .compileUnit => "cu"

/-- `Stem snake o s`: what the identifier of `o` begins with: the word of its kind and its name in
snake case, joined by `_`.  A function without a name counts as called `tbd`; blocks and units are
not named. -/
inductive Stem (snake : Str → Str) (o : Obj) : Str → Prop where
  | unnamed : (o.kind = .lexBlock ∨ o.kind = .compileUnit ∨ o.kind ≠ .subprogram ∧ o.name = none) →
      Stem snake o (ascii (kindWord o.kind))
  | function : o.kind = .subprogram → o.name = none → Stem snake o (ascii "fn_tbd")
  | empty {n} : o.kind ≠ .lexBlock → o.kind ≠ .compileUnit → o.name = some n → snake n = [] → Stem snake o (ascii (kindWord o.kind))
  | base {n} : o.kind = .baseType → o.name = some n → snake n ≠ [] → Stem snake o (snake n)
  | named {n} : o.kind ≠ .lexBlock → o.kind ≠ .compileUnit → o.kind ≠ .baseType → o.name = some n → snake n ≠ [] →
      Stem snake o (ascii (kindWord o.kind) ++ ascii "_" ++ snake n)

/-- `Digits n s`: `s` is `n` in decimal with at least four digits. -/
def Digits (n : Nat) (s : Str) : Prop :=
  (∀ b ∈ s, 48 ≤ b.toNat ∧ b.toNat ≤ 57) ∧ s.foldl (fun a b => 10 * a + (b.toNat - 48)) 0 = n ∧
    4 ≤ s.length ∧ (4 < s.length → s.head? ≠ some 48)

/-- The number of elements a subrange stands for: its count; else the distance of its bounds
(the lower one is 0 unless given); else unknown. -/
inductive Dim (c : Child) : Int → Prop where
  | count {n} : c.count = some n → Dim c n
  | upper {u} : c.count = none → c.upper = some u → c.lower = none → Dim c (u + 1)
  | bounds {u l} : c.count = none → c.upper = some u → c.lower = some l → Dim c (u + 1 - l)
  | unknown : c.count = none → c.upper = none → Dim c (-1)

/-- The entry `o`, child of `par`, describes the array of the given dimensions (outermost first) over
`elem`: it has the first dimension, and its element type is the array of the remaining dimensions,
which names it as its parent. -/
inductive Chain (ix : Index) (elem : Option Off) : Off → Off → List Child → Prop where
  | last {o par c a} : ix o = some a → Dim c a.count → a.lower = c.lower → a.level = 0 → a.type = elem → a.parents = [par] →
      Chain ix elem o par [c]
  | cons {o par c c' cs a} : ix o = some a → Dim c a.count → a.lower = c.lower → a.level = (c' :: cs).length → a.type = some c'.off → a.parents = [par] →
      Chain ix elem c'.off o (c' :: cs) → Chain ix elem o par (c :: c' :: cs)

/-- The bounds of the subrange are 64-bit numbers and so is their distance. -/
def InRange (c : Child) : Prop :=
  ∀ u, c.count = none → c.upper = some u → -2 ^ 63 ≤ u + 1 - c.lower.getD 0 ∧ u + 1 - c.lower.getD 0 < 2 ^ 63

end Verif.GoMeta.Spec
