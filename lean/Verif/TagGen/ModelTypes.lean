import Verif.Entry.Model
import Verif.EntryDb.Model
/-
Model of the macros that find the entry of a type by its name
(include/metac/reflect/entry_tag.h).
-/
namespace Verif.TagGen
open Verif Verif.Entry Verif.EntryDb

/-- The name `val`. -/
def valName : EntryDb.Str := [118, 97, 108]
/-- The name `p`. -/
def pName : EntryDb.Str := [112]

/-- include/metac/reflect/entry_tag.h:239-240 `METAC_TAG_MAP_ENTRY_FROM_TYPE`: the entry of the
section.  A variable `val`, a pointer to the type, is declared at a place of its own
(`file`, `loc`), and looked up with `metac_entry_from_entry_db` (include/metac/reflect/loc.h:87-90). -/
def sectionEntry (db : Db) (table : Option (List (FileItem Ref))) (file loc : EntryDb.Str) : Outcome (Option Ref) := do
  let v ← lookup table (some (some file, some loc)) (some valName)
  let p ← Outcome.ofLoop (pointerEntry db v)
  let f ← Outcome.ofLoop (finalEntry db p)
  return f.1

/-- include/metac/reflect/entry_tag.h:414 `METAC_ENTRY_OF`: the final entry of the variable `p` of
the type. -/
def entryOfType (db : Db) (table : Option (List (FileItem Ref))) (file loc : EntryDb.Str) : Outcome (Option Ref) := do
  let v ← lookup table (some (some file, some loc)) (some pName)
  let f ← Outcome.ofLoop (finalEntry db v)
  return f.1

end Verif.TagGen
