import Verif.Chain.Spec
import Verif.Generate.Spec
import Verif.Links.Model
/-
Specification: requests and their answers in terms of the debug information.
-/
namespace Verif.Links.Spec
open Verif.GoMeta (Str)
open GoDwarf.Spec (Die)
open GoBuild.Spec (Tree Placed text num isTag parts paramTags codeTags)
open GoDedup (Off)

/-- `k` is a part of an entry with the tag `t` (see `parts`). -/
def isPart (t : Str) (k : Tree) : Bool :=
  if t ∈ [go! "ClassType", go! "StructType", go! "UnionType"] then !isTag [go! "Member", go! "TemplateTypeParameter"] k
  else if t = go! "Subprogram" then !isTag (paramTags ++ [go! "TemplateTypeParameter"] ++ codeTags) k
  else if t ∈ [go! "Namespace", go! "CompileUnit", go! "LexDwarfBlock"] then !isTag codeTags k
  else false

mutual
/-- Everything inside an entry, to any depth, in the order of the text: its parts, each followed by
everything inside it (`inside_eq`). -/
def inside : Tree → List Tree
  | .node _ t _ _ _ ks => insideAll t ks
def insideAll (t : Str) : List Tree → List Tree
  | [] => []
  | k :: ks => (if isPart t k then k :: inside k else []) ++ insideAll t ks
end

/-- The variables inside a unit that are called `metac__m_t_NAME`: each requests NAME for the module
`m`, in a request of type `t`. -/
def asksIn (m t : Str) (u : Tree) : List (Tree × Str) :=
  (inside u).filterMap fun d => if d.tag = go! "Variable" then ((text d (go! "Name")).bind (Generate.Spec.asked m t)).map fun r => (d, r) else none

/-- The same for the program: unit, variable, NAME. -/
def asks (units : List (Nat × Tree)) (m t : Str) : List (Tree × Tree × Str) :=
  units.flatMap fun u => (asksIn m t u.2).map fun x => (u.2, x.1, x.2)

/-- A module: the default one, or one declared by a variable `metac__module_m`. -/
def Module (units : List (Nat × Tree)) (m : Str) : Prop :=
  m = go! "dflt" ∨ ∃ u ∈ units, ∃ d ∈ inside u.2, d.tag = go! "Variable" ∧ text d (go! "Name") = some (go! "metac__module_" ++ m)

/-- A variable or function called `name`. -/
def Named (name : Str) (d : Tree) : Prop := (d.tag = go! "Variable" ∨ d.tag = go! "Subprogram") ∧ text d (go! "Name") = some name
instance (name : Str) : DecidablePred (Named name) := fun d => by unfold Named; infer_instance

/-- The variables and functions called `name` at the top of a unit. -/
def top (name : Str) (u : Tree) : List Tree := (parts u).filter fun d => Named name d

/-- The place of the declaration of an entry of the unit `u`, whose files are `files u.off`: file and
line. -/
def place (files : Off → List Str) (u d : Tree) : Option (Str × Int) :=
  let line := (num d (go! "DeclLine")).getD (-1)
  match num d (go! "DeclFile") with
  | none => some ([], line)
  | some f => if f < 0 then none else ((files u.off)[f.toNat]?).map fun s => (s, line)

/-- What a lookup of the name `name` at the place of declaration `loc` of the file `file` is meant to
find: the variable or function `e` of this name.  It is declared on the line and in the scope of a
variable `d` called `loc`, which requests entries for the module `m`, and `file` is their file. -/
def Answer (units : List (Nat × Tree)) (files : Off → List Str) (m file loc name : Str) (d e : Tree) : Prop :=
  ∃ u ∈ units, ∃ s ∈ u.2 :: inside u.2, d ∈ parts s ∧ e ∈ parts s ∧
    d.tag = go! "Variable" ∧ text d (go! "Name") = some loc ∧ Generate.Spec.asked m (go! "entry") loc ≠ none ∧ Named name e ∧
    ∃ line, place files u.2 d = some (file, line) ∧ place files u.2 e = some (file, line)

/-- Variables and functions as in C: names are identifiers; their files are known, and have no
backslash. -/
structure Places (units : List (Nat × Tree)) (files : Off → List Str) : Prop where
  names : ∀ q d, Placed [] (units.map Prod.snd) q d → ∀ n, Named n d → EntryDb.Spec.IsIdent n
  paths : ∀ u ∈ units, ∀ f ∈ files u.2.off, EntryDb.Spec.NoBackslash f
  known : ∀ u ∈ units, ∀ d ∈ inside u.2, d.tag = go! "Variable" ∨ d.tag = go! "Subprogram" → place files u.2 d ≠ none

/-- metadb_mixin.go:79-87 and metadb_builder.go:666-676: files and lines in the database are those of
the debug information. -/
structure Located (units : List (Nat × Tree)) (st : GoDedup.St) (x : Chain.Extra) (files : Off → List Str) : Prop where
  file : ∀ q d, Placed [] (units.map Prod.snd) q d → x.file d.off = num d (go! "DeclFile")
  line : ∀ q d, Placed [] (units.map Prod.snd) q d → x.line d.off = num d (go! "DeclLine")
  paths : ∀ u ∈ units, ∀ n, st.ptr u.2.off = some n → x.files n = files u.2.off

/-- `METAC_START_TEST(NAME)` declares the variable `metac__test_NAME` outside of functions: the tests
of a program. -/
def tests (units : List (Nat × Tree)) : List Str :=
  units.flatMap fun u => (parts u.2).filterMap fun d =>
    if d.tag = go! "Variable" then (text d (go! "Name")).bind fun n => if go! "metac__test_" <+: n then some (n.drop 12) else none else none

/-- In structures there are only members. -/
def Members (units : List (Nat × Tree)) : Prop :=
  ∀ q d, Placed [] (units.map Prod.snd) q d → d.tag ∈ [go! "ClassType", go! "StructType", go! "UnionType"] →
    ∀ k ∈ d.kids, k.tag ∈ [go! "Member", go! "TemplateTypeParameter"]

end Verif.Links.Spec
