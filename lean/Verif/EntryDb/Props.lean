import Verif.EntryDb.Lemmas
/-
Property theorems of the entry database (C13, C51).
-/
namespace Verif.EntryDb
open Verif Verif.EntryDb.Spec
variable {E : Type}

/-- C13.  On every strictly sorted table the lookup returns, for every file, location
name and variable name, the entry of the only record with that triple, and NULL if there
is no such record or more than one.  With a NULL table, location, location name or
variable name it returns NULL. -/
theorem C13_lookup_unique (db : List (FileItem E)) (hs : Sorted db) :
    (∀ file loc name : Str,
      lookup (some db) (some (some file, some loc)) (some name) =
        .ok (unique (matching (records db) file loc name))) ∧
    (∀ dl n, lookup (E := E) none dl n = .ok none) ∧
    (∀ d n, lookup (E := E) d none n = .ok none) ∧
    (∀ d f n, lookup (E := E) d (some (f, none)) n = .ok none) ∧
    (∀ d dl, lookup (E := E) d dl none = .ok none) := by
  refine ⟨lookup_spec db hs, ?_, ?_, ?_, ?_⟩
  · intros; rfl
  · intro d n; cases d <;> rfl
  · intro d f n; cases d <;> rfl
  · intro d dl
    cases d with
    | none => rfl
    | some d =>
      cases dl with
      | none => rfl
      | some dl => obtain ⟨f, l⟩ := dl; cases l <;> rfl

/-- A table with two files, three locations and an ambiguous name. -/
def exDb : List (FileItem Nat) :=
  [⟨[97], [⟨[97], [⟨[98], [1]⟩, ⟨[98, 99], [2]⟩]⟩, ⟨[98], [⟨[98], [3, 4]⟩]⟩]⟩,
   ⟨[97, 47], [⟨[95], [⟨[97], [5]⟩, ⟨[98], [6]⟩, ⟨[99], [7]⟩]⟩]⟩]

theorem exDb_sorted : Sorted exDb := by
  have h1 : Before [97] [97, 47] := .eq _ _ _ (.nil _ _)
  have h2 : Before [97] [98] := .lt _ _ _ _ (by decide)
  have h3 : Before [98] [98, 99] := .eq _ _ _ (.nil _ _)
  have h4 : Before [97] [99] := .lt _ _ _ _ (by decide)
  have h5 : Before [98] [99] := .lt _ _ _ _ (by decide)
  simp [Sorted, exDb, h1, h2, h3, h4, h5]

example : lookup (some exDb) (some (some [97, 47], some [95])) (some [98]) = .ok (some 6) := by
  rw [(C13_lookup_unique exDb exDb_sorted).1]; rfl
example : lookup (some exDb) (some (some [97], some [98])) (some [98]) = .ok none := by
  rw [(C13_lookup_unique exDb exDb_sorted).1]; rfl
/-- A NULL file name is not checked by the code. -/
example : lookup (some exDb) (some (none, some [98])) (some [98]) = .ub := by
  simp [lookup, exDb]

/-- C51 (partial: file paths without backslashes).  The tables generated from any list of
records whose location and variable names are C identifiers are strictly sorted, and the
lookup in them returns exactly the unambiguous record.
Missing: paths with backslashes, for which the claim is false, see
`C51_backslash_breaks_lookup`. -/
theorem C51_generated_table_partial (rs : List (Rec E))
    (hr : ∀ r ∈ rs, NoBackslash r.file ∧ IsIdent r.loc ∧ IsIdent r.name) :
    Sorted (generate rs) ∧
    ∀ file loc name : Str,
      lookup (some (generate rs)) (some (some file, some loc)) (some name) =
        .ok (unique (matching rs file loc name)) := by
  obtain ⟨h1, h2⟩ := buildDict_spec rs hr
  have hs := emit_sorted h1
  refine ⟨hs, ?_⟩
  intro file loc name
  unfold generate
  rw [lookup_spec _ hs, matching_emit h1, h2]

def exRecs : List (Rec Nat) :=
  [⟨[97, 90], [120], [121], 1⟩, ⟨[97], [120], [121, 49], 2⟩, ⟨[97], [120], [121], 3⟩, ⟨[97], [120, 95], [121], 4⟩,
   ⟨[97], [120], [121], 5⟩]

example : ∀ r ∈ exRecs, NoBackslash r.file ∧ IsIdent r.loc ∧ IsIdent r.name := by
  simp [exRecs, NoBackslash, IsIdent]

example : lookup (some (generate exRecs)) (some (some [97], some [120])) (some [121, 49]) = .ok (some 2) := by
  rw [(C51_generated_table_partial exRecs (by simp [exRecs, NoBackslash, IsIdent])).2]
  rfl

/-- The full claim is false: with the files `aZ` and `a\b` the paths are sorted before the
backslash is replaced by a slash, the emitted table is not sorted, and the lookup of the
only record of `aZ` fails. -/
theorem C51_backslash_breaks_lookup :
    ∃ (rs : List (Rec Nat)) (file loc name : Str),
      (∀ r ∈ rs, IsIdent r.loc ∧ IsIdent r.name) ∧
      unique (matching rs file loc name) = some 7 ∧
      lookup (some (generate rs)) (some (some file, some loc)) (some name) = .ok none := by
  refine ⟨[⟨[97, 90], [120], [121], 7⟩, ⟨[97, 92, 98], [120], [121], 8⟩], [97, 90], [120], [121], ?_, ?_, ?_⟩
  · simp [IsIdent]
  · rfl
  · have : generate (E := Nat) [⟨[97, 90], [120], [121], 7⟩, ⟨[97, 92, 98], [120], [121], 8⟩] =
      [⟨[97, 90], [⟨[120], [⟨[121], [7]⟩]⟩]⟩, ⟨[97, 47, 98], [⟨[120], [⟨[121], [8]⟩]⟩]⟩] := by decide
    rw [this]
    simp only [lookup, bsearch]
    unfold bsearchLoop
    simp [strcmp]
    unfold bsearchLoop
    simp

end Verif.EntryDb
