import Verif.Common
/-
Model of /repo/src/entry_db.c (lookup of an entry by file, location name, variable
name in three levels of sorted tables) and of the part of
/repo/modules/metac-reflect-gen/templates/_entry_db.tpl that generates those tables.

A C string is the list of its bytes before the NUL.
-/
namespace Verif.EntryDb
open Verif

abbrev Str := List UInt8

/-- `strcmp` (C standard 7.24.4.2: the first differing bytes compared as unsigned
char); only the sign of the result is used. -/
def strcmp : Str → Str → Int
  | [], [] => 0
  | [], _ :: _ => -1
  | _ :: _, [] => 1
  | a :: as, b :: bs => if a = b then strcmp as bs else if a < b then -1 else 1

/-- include/metac/reflect/loc.h:11-15 `struct metac_per_name_item`. -/
structure NameItem (E : Type) where
  name : Str
  entries : List E
deriving Repr, DecidableEq

/-- include/metac/reflect/loc.h:18-22 `struct metac_per_loc_item`. -/
structure LocItem (E : Type) where
  locName : Str
  names : List (NameItem E)
deriving Repr, DecidableEq

/-- include/metac/reflect/loc.h:30-34 `struct metac_per_file_item`; the database
(loc.h:37-40) is a list of these.
Simplification: the `metac_num_t` counts are the lengths of the lists. -/
structure FileItem (E : Type) where
  file : Str
  locs : List (LocItem E)
deriving Repr, DecidableEq

/-- `bsearch` as in glibc (`l`, `u` bounds, probe `(l+u)/2`).  `cmp` is the result of
the comparison of the key with an item; `none` stands for an access outside the array. -/
def bsearchLoop {A : Type} (cmp : A → Int) (xs : List A) (l u : Nat) : Outcome (Option A) :=
  if l < u then
    match xs[(l + u) / 2]? with
    | none => .ub
    | some x =>
      if cmp x < 0 then bsearchLoop cmp xs l ((l + u) / 2)
      else if cmp x > 0 then bsearchLoop cmp xs ((l + u) / 2 + 1) u
      else .ok (some x)
  else .ok none
termination_by u - l
decreasing_by all_goals omega

def bsearch {A : Type} (cmp : A → Int) (xs : List A) : Outcome (Option A) :=
  bsearchLoop cmp xs 0 xs.length

/-- src/entry_db.c:24-67 `metac_entry_from_entry_db`.  Pointer arguments are options;
the location is the pair of pointers `p_decl_loc->file`, `p_decl_loc->name`.
`file` is not checked for NULL by the code: `strcmp(NULL, ..)` is undefined unless the
table is empty. -/
def lookup {E : Type} (db : Option (List (FileItem E))) (declLoc : Option (Option Str × Option Str))
    (name : Option Str) : Outcome (Option E) :=
  match db, declLoc, name with
  | some db, some (file, some loc), some name => do
    let pf ← match file with
      | some file => bsearch (fun (x : FileItem E) => strcmp file x.file) db
      | none => if db.isEmpty then .ok none else .ub
    match pf with
    | none => return none
    | some pf =>
      match ← bsearch (fun (x : LocItem E) => strcmp loc x.locName) pf.locs with
      | none => return none
      | some pl =>
        match ← bsearch (fun (x : NameItem E) => strcmp name x.name) pl.names with
        | none => return none
        | some pn =>
          match pn.entries with
          | [e] => return some e        -- entry_count == 1
          | _ => return none
  | _, _, _ => .ok none

/-! ### The generator of the tables -/

/-- A Go `dict` visited by `range` in a text/template is visited in increasing key
order (text/template documentation); it is modelled as the sorted association list.
`dictUpd k dflt f` is the `hasKey`/`get`/`set` idiom of _entry_db.tpl:41-55: replace the
value `v` at `k` by `f v`, or insert `dflt`. -/
def dictUpd {V : Type} (k : Str) (dflt : V) (f : V → V) : List (Str × V) → List (Str × V)
  | [] => [(k, dflt)]
  | (k', v) :: rest =>
    if strcmp k k' = 0 then (k', f v) :: rest
    else if strcmp k k' < 0 then (k, dflt) :: (k', v) :: rest
    else (k', v) :: dictUpd k dflt f rest

/-- `toJson` of a name: quoted.  Simplification: valid for names in which JSON escapes
nothing (C identifiers). -/
def quote (s : Str) : Str := 34 :: s ++ [34]

/-- One record found by the generator: file, location name, variable name, entry. -/
structure Rec (E : Type) where
  file : Str
  loc : Str
  name : Str
  entry : E
deriving Repr, DecidableEq

abbrev Dict3 (E : Type) := List (Str × List (Str × List (Str × List E)))

/-- _entry_db.tpl:39-56: add one record to the three-level dictionary; the two inner
levels are keyed by the *quoted* names (L31 `toJson $sloc_req_var.Name`, L167 `toJson .`). -/
def addRec {E : Type} (d : Dict3 E) (r : Rec E) : Dict3 E :=
  dictUpd r.file [(quote r.loc, [(quote r.name, [r.entry])])]
    (dictUpd (quote r.loc) [(quote r.name, [r.entry])]
      (dictUpd (quote r.name) [r.entry] (fun es => es ++ [r.entry]))) d

def buildDict {E : Type} (rs : List (Rec E)) : Dict3 E := rs.foldl addRec []

/-- The C compiler's reading of the quoted literal. -/
def unquote (s : Str) : Str := (s.drop 1).dropLast

/-- _escape_path.tpl: every backslash becomes a slash.  (What the C compiler reads
back from the literal is taken to be the text itself: no quotes or newlines in paths.) -/
def escapePath (s : Str) : Str := s.map fun c => if c = 92 then 47 else c

/-- _entry_db.tpl:64-93: the emitted tables. -/
def emit {E : Type} (d : Dict3 E) : List (FileItem E) :=
  d.map fun (f, ls) =>
    { file := escapePath f, locs := ls.map fun (l, ns) =>
        { locName := unquote l, names := ns.map fun (n, es) => { name := unquote n, entries := es } } }

def generate {E : Type} (rs : List (Rec E)) : List (FileItem E) := emit (buildDict rs)

end Verif.EntryDb
