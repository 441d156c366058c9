import Verif.Entry.Spec
import Verif.GoDedup.Model
import Verif.Queries.Model
/-
Specification: the sorts of types a user can tell apart, and the arithmetic types of C.
-/
namespace Verif.Queries.Spec
open Verif Verif.Entry Verif.Value

/-- The sorts of types. -/
inductive Group where
  | base | pointer | members | elements | enumeration | function
deriving DecidableEq, Repr

/-- An entry is of a sort. -/
inductive Is (e : Entry) : Group → Prop where
  | base {size enc} : e.info = .base size enc → Is e .base
  | pointer {t} : e.info = .pointer t → Is e .pointer
  | members {k size ms} : e.info = .struct k size ms → Is e .members
  | elements {t n} : e.info = .array t n → Is e .elements
  | enumeration {size enc es} : e.info = .enumeration size enc es → Is e .enumeration
  | function {t ps} : e.info = .subprogram t ps → Is e .function
  | prototype {t ps} : e.info = .subroutine t ps → Is e .function

/-- What follows the typedefs, qualifiers, variables, members and parameters is of a sort. -/
def Leads (db : Db) (f : Option Ref) (s : Group) : Prop := ∃ x, f = some x ∧ Is (db x) s

/-- All answers about a type or a value. -/
structure Answers (db : Db) (f : Option Ref) (answer : Group → Option Bool) : Prop where
  /-- every question is answered with yes or no -/
  told : ∀ s, ∃ b, answer s = some b
  /-- with yes exactly for the sort of the type -/
  yes : ∀ s, answer s = some true ↔ Leads db f s
  /-- with yes at most once -/
  once : ∀ s s', answer s = some true → answer s' = some true → s = s'

/-- The arithmetic types: name, DWARF encodings allowed and size on x86-64.  (The numbers of
the encodings are those of include/metac/const.h, one more than in Go's enumeration.) -/
def arithmetic : Ty → Name × List Nat × Nat
  | .bool => (go! "_Bool", [3], 1)
  | .char => (go! "char", [7, 9], 1)
  | .uchar => (go! "unsigned char", [9], 1)
  | .short => (go! "short int", [6], 2)
  | .ushort => (go! "unsigned short int", [8], 2)
  | .int => (go! "int", [6], 4)
  | .uint => (go! "unsigned int", [8], 4)
  | .long => (go! "long int", [6], 8)
  | .ulong => (go! "unsigned long int", [8], 8)
  | .llong => (go! "long long int", [6], 8)
  | .ullong => (go! "unsigned long long int", [8], 8)
  | .float => (go! "float", [5], 4)
  | .double => (go! "double", [5], 8)
  | .ldouble => (go! "long double", [5], 16)
  | .floatComplex => (go! "complex float", [4], 8)
  | .doubleComplex => (go! "complex double", [4], 16)
  | .ldoubleComplex => (go! "long complex double", [4], 32)

/-- The entry describes the arithmetic type; an encoding or size of 0 is one not recorded. -/
def IsArithmetic (e : Entry) (t : Ty) : Prop :=
  ∃ size enc, e.info = .base size enc ∧ e.name = some (arithmetic t).1 ∧
    (enc = 0 ∨ enc ∈ (arithmetic t).2.1) ∧ (size.toNat = 0 ∨ size.toNat = (arithmetic t).2.2)

end Verif.Queries.Spec
