import Verif.GoModule.Model
import Verif.GoOverride.Spec
/-
Specification: paths, search order, which of several definitions of a template holds.
-/
namespace Verif.GoModule.Spec
open GoMeta (Str)
open Verif.GoModule

/-- The names between the slashes of a path. -/
def components : Str → List Str
  | [] => [[]]
  | c :: s => if c = 47 then [] :: components s else
    match components s with
    | [] => [[c]]
    | h :: t => (c :: h) :: t

/-- One step from a directory (given as the names that lead to it): `.` and nothing stay, `..` goes
up. -/
def step (dir : List Str) (c : Str) : List Str :=
  if c = [] ∨ c = go! "." then dir else if c = go! ".." then dir.dropLast else dir ++ [c]

/-- Where a path leads, from a directory (links in the file system aside). -/
def walk (dir : List Str) (p : Path) : List Str := (components p).foldl step dir

/-- The search path holds a module of that name, of a kind that is known. -/
def Holds (disk : Disk) (r : Runner) (name : Str) (p : Path) (k : Nat) : Prop :=
  ∃ kind, disk.header (p ++ go! "/" ++ name ++ go! "/module.yaml") = some kind ∧ r.kinds kind = some k

/-- The first of a list with a property. -/
def First {α : Type} (P : α → Prop) (l : List α) (x : α) : Prop := ∃ pre post, l = pre ++ x :: post ∧ P x ∧ ∀ y ∈ pre, ¬ P y

/-- The definition of a name that holds when there are several: the last that is not empty; if all
are empty, the first. -/
def holding (defs : List (Str × Body)) (n : Str) : Option Body :=
  match (defs.filter fun d => d.1 = n ∧ d.2.empty = false).getLast? with
  | some d => some d.2
  | none => (defs.find? fun d => d.1 = n).map Prod.snd

/-- Including a name gives these texts: those of the templates of the first search path that holds
the module with a directory of templates (an own directory may be missing). -/
def Includes (disk : Disk) (r : Runner) (own : Path) (name : Str) (texts : List Parsed) : Prop :=
  ∃ p, First (fun p => (∃ k, Holds disk r name p k) ∧ (disk.templates (p ++ go! "/" ++ name) = none → p ++ go! "/" ++ name = own)) r.paths p ∧
    ((disk.templates (p ++ go! "/" ++ name) = some (texts.map some)) ∨ (disk.templates (p ++ go! "/" ++ name) = none ∧ texts = []))

/-- All the texts of a list of included names. -/
inductive IncludesAll (disk : Disk) (r : Runner) (own : Path) : List Str → List Parsed → Prop where
  | nil : IncludesAll disk r own [] []
  | cons {name names texts rest} : Includes disk r own name texts → IncludesAll disk r own names rest →
      IncludesAll disk r own (name :: names) (texts ++ rest)

/-- Every file of templates on the disk can be read and parsed. -/
def Readable (disk : Disk) : Prop := ∀ p fs, disk.templates p = some fs → ∃ texts : List Parsed, fs = texts.map some

/-- How the directories there are behave: the empty path cannot be entered, and a directory can be
entered from itself and from every directory entered from it. -/
structure Os (dirs : Path → Prop) (world : Path → Disk) : Prop where
  none : ∀ c, (world c).enter [] = none
  back : ∀ c d e, dirs c → (world c).enter d = some e → (world e).enter c = some c
  here : ∀ c, dirs c → (world c).enter c = some c

end Verif.GoModule.Spec
