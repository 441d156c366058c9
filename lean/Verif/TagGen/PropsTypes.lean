import Verif.TagGen.ModelTypes
import Verif.EntryDb.Props
import Verif.Entry.Lemmas
/-
Theorems about the macros that find the entry of a type by its name: C120.  Missing from the full
statement: tables with file names that have a backslash or names that are no identifiers, for which
the generated table is not the one asked for (C51).
-/
namespace Verif.TagGen
open Verif Verif.Entry Verif.Entry.Spec Verif.EntryDb Verif.EntryDb.Spec

/-- The generated table is made of records with usual names and paths. -/
def Usual (rs : List (Rec Ref)) : Prop := ∀ r ∈ rs, NoBackslash r.file ∧ IsIdent r.loc ∧ IsIdent r.name

/-- `T * val;` in the debug information: a variable of a type that is a pointer to `t` (`none`
is `void`). -/
def PointerTo (db : Db) (v : Ref) (t : Option Ref) : Prop := ∃ q, (db v).info = .var (some q) ∧ (db q).info = .pointer t

/-- `T p;`: a variable of type `t`. -/
def OfType (db : Db) (v : Ref) (t : Ref) : Prop := (db v).info = .var (some t)

theorem pointerTo_final {db : Db} {v : Ref} {t : Option Ref} (h : PointerTo db v t) : pointerEntry db (some v) = some t := by
  obtain ⟨q, h1, h2⟩ := h
  have hf : Final db v (some q) (own db v ++ []) := .step (.var h1) (.here (by
    intro t h
    cases h <;> rename_i h <;> rw [h2] at h <;> cases h))
  have h3 : finalOf db (some v) isPointer = some (some q) := by
    rw [finalOf_final hf isPointer]
    simp [keep, h2, isPointer]
  simp [pointerEntry, h3, h2]

/-- C120.  `METAC_TAG_MAP_ENTRY_FROM_TYPE` selects the type itself that the name stands for, not
a typedef or a qualified version of it; for `void`, or where the place is not in the table exactly
once, there is no entry. -/
theorem C120_section_partial (db : Db) (rs : List (Rec Ref)) (hu : Usual rs) (file loc : EntryDb.Str) :
    (∀ v t f qs, matching rs file loc [118, 97, 108] = [v] → PointerTo db v (some t) → Final db t f qs →
      sectionEntry db (some (generate rs)) file loc = .ok f) ∧
    (∀ v, matching rs file loc [118, 97, 108] = [v] → PointerTo db v none → sectionEntry db (some (generate rs)) file loc = .ok none) ∧
    ((∀ v, matching rs file loc [118, 97, 108] ≠ [v]) → sectionEntry db (some (generate rs)) file loc = .ok none) ∧
    sectionEntry db none file loc = .ok none := by
  have hl := (C51_generated_table_partial rs hu).2 file loc [118, 97, 108]
  refine ⟨fun v t f qs hm hp hf => ?_, fun v hm hp => ?_, fun hm => ?_, ?_⟩
  · rw [hm] at hl
    have hl : lookup (some (generate rs)) (some (some file, some loc)) (some [118, 97, 108]) = .ok (some v) := hl
    simp [sectionEntry, valName, hl, pointerTo_final hp, final_entry hf, Outcome.ofLoop, bind, pure, Outcome.bind]
  · rw [hm] at hl
    have hl : lookup (some (generate rs)) (some (some file, some loc)) (some [118, 97, 108]) = .ok (some v) := hl
    simp [sectionEntry, valName, hl, pointerTo_final hp, finalEntry, Outcome.ofLoop, bind, pure, Outcome.bind]
  · have hn : unique (matching rs file loc [118, 97, 108]) = none := by
      unfold unique
      split
      · rename_i v h; exact absurd h (hm v)
      · rfl
    rw [hn] at hl
    simp [sectionEntry, valName, hl, pointerEntry, finalOf, finalEntry, Outcome.ofLoop, bind, pure, Outcome.bind]
  · simp [sectionEntry, valName, lookup, pointerEntry, finalOf, finalEntry, Outcome.ofLoop, bind, pure, Outcome.bind]

/-- C120.  `METAC_ENTRY_OF` gives the type itself that the name stands for. -/
theorem C120_entry_partial (db : Db) (rs : List (Rec Ref)) (hu : Usual rs) (file loc : EntryDb.Str) :
    (∀ v t f qs, matching rs file loc [112] = [v] → OfType db v t → Final db t f qs → entryOfType db (some (generate rs)) file loc = .ok f) ∧
    ((∀ v, matching rs file loc [112] ≠ [v]) → entryOfType db (some (generate rs)) file loc = .ok none) ∧
    entryOfType db none file loc = .ok none := by
  have hl := (C51_generated_table_partial rs hu).2 file loc [112]
  refine ⟨fun v t f qs hm hp hf => ?_, fun hm => ?_, ?_⟩
  · rw [hm] at hl
    have hl : lookup (some (generate rs)) (some (some file, some loc)) (some [112]) = .ok (some v) := hl
    have hf' : Final db v f (own db v ++ qs) := .step (.var hp) hf
    simp [entryOfType, pName, hl, final_entry hf', Outcome.ofLoop, bind, pure, Outcome.bind]
  · have hn : unique (matching rs file loc [112]) = none := by
      unfold unique
      split
      · rename_i v h; exact absurd h (hm v)
      · rfl
    rw [hn] at hl
    simp [entryOfType, pName, hl, finalEntry, Outcome.ofLoop, bind, pure, Outcome.bind]
  · simp [entryOfType, pName, lookup, finalEntry, Outcome.ofLoop, bind, pure, Outcome.bind]

/-- C120: by whichever names of one type, at whichever places, the sections are for one entry —
the one which `METAC_ENTRY_OF` gives. -/
theorem C120_names_partial (db : Db) (rs : List (Rec Ref)) (hu : Usual rs) (file loc file' loc' file'' loc'' : EntryDb.Str) (v v' v'' t t' t'' : Ref) (f : Option Ref)
    (qs qs' qs'' : List Qual) (h : matching rs file loc [118, 97, 108] = [v]) (h' : matching rs file' loc' [118, 97, 108] = [v'])
    (h'' : matching rs file'' loc'' [112] = [v'']) (hv : PointerTo db v (some t)) (hv' : PointerTo db v' (some t')) (hv'' : OfType db v'' t'')
    (hf : Final db t f qs) (hf' : Final db t' f qs') (hf'' : Final db t'' f qs'') :
    sectionEntry db (some (generate rs)) file loc = sectionEntry db (some (generate rs)) file' loc' ∧
    sectionEntry db (some (generate rs)) file loc = entryOfType db (some (generate rs)) file'' loc'' := by
  rw [(C120_section_partial db rs hu file loc).1 v t f qs h hv hf, (C120_section_partial db rs hu file' loc').1 v' t' f qs' h' hv' hf',
    (C120_entry_partial db rs hu file'' loc'').1 v'' t'' f qs'' h'' hv'' hf'']
  exact ⟨rfl, rfl⟩

/-- `struct s` (0), a typedef of it (1), pointers to both (2, 3), a variable `val` for each (4, 5)
and a variable `p` of the typedef's type (6). -/
def exTypes : Db
  | 0 => ⟨.struct .struct 8 [], none, false, 0, []⟩
  | 1 => ⟨.typedef (some 0), none, false, 0, []⟩
  | 2 => ⟨.pointer (some 0), none, false, 0, []⟩
  | 3 => ⟨.pointer (some 1), none, false, 0, []⟩
  | 4 => ⟨.var (some 2), none, false, 0, []⟩
  | 5 => ⟨.var (some 3), none, false, 0, []⟩
  | _ => ⟨.var (some 1), none, false, 0, []⟩

/-- Their places: in the file `a`, at the places `l`, `m`, `n`. -/
def exRecs : List (Rec Ref) := [⟨[97], [108], [118, 97, 108], 4⟩, ⟨[97], [109], [118, 97, 108], 5⟩, ⟨[97], [110], [112], 6⟩]

theorem case120 : sectionEntry exTypes (some (generate exRecs)) [97] [108] = .ok (some 0) ∧
    sectionEntry exTypes (some (generate exRecs)) [97] [109] = .ok (some 0) ∧ entryOfType exTypes (some (generate exRecs)) [97] [110] = .ok (some 0) := by
  have hu : Usual exRecs := by simp [Usual, exRecs, NoBackslash, IsIdent]
  have h0 : Final exTypes 0 (some 0) [] := .here (by intro t h; cases h <;> rename_i h <;> simp [exTypes] at h)
  have h1 : Final exTypes 1 (some 0) (own exTypes 1 ++ []) := .step (.typedef rfl) h0
  refine ⟨(C120_section_partial exTypes exRecs hu [97] [108]).1 4 0 _ _ rfl ⟨2, rfl, rfl⟩ h0,
    (C120_section_partial exTypes exRecs hu [97] [109]).1 5 1 _ _ rfl ⟨3, rfl, rfl⟩ h1, (C120_entry_partial exTypes exRecs hu [97] [110]).1 6 1 _ _ rfl rfl h1⟩

/-- The variable `val` (4) in the file `aZ`, another one in the file `a\b`. -/
def exBackslash : List (Rec Ref) := [⟨[97, 90], [120], [118, 97, 108], 4⟩, ⟨[97, 92, 98], [120], [118, 97, 108], 5⟩]

/-- C120 is false of the code if a file name has a backslash: `val` is declared once at its place,
as a pointer to `struct s`, and no entry is found for the section. -/
theorem C120_backslash_false : matching exBackslash [97, 90] [120] [118, 97, 108] = [4] ∧ PointerTo exTypes 4 (some 0) ∧
    Final exTypes 0 (some 0) [] ∧ sectionEntry exTypes (some (generate exBackslash)) [97, 90] [120] = .ok none := by
  refine ⟨rfl, ⟨2, rfl, rfl⟩, .here (by intro t h; cases h <;> rename_i h <;> simp [exTypes] at h), ?_⟩
  have h1 : generate exBackslash = [⟨[97, 90], [⟨[120], [⟨[118, 97, 108], [4]⟩]⟩]⟩, ⟨[97, 47, 98], [⟨[120], [⟨[118, 97, 108], [5]⟩]⟩]⟩] := by decide
  have h2 : lookup (some (generate exBackslash)) (some (some [97, 90], some [120])) (some [118, 97, 108]) = .ok none := by
    rw [h1]
    simp only [lookup, bsearch]
    unfold bsearchLoop
    simp [strcmp]
    unfold bsearchLoop
    simp
  simp [sectionEntry, valName, h2, pointerEntry, finalOf, finalEntry, Outcome.ofLoop, bind, pure, Outcome.bind]

end Verif.TagGen
