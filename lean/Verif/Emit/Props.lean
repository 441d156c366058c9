import Verif.Emit.File
import Verif.Emit.Dead
import Verif.GoMeta.Lemmas
/-
C76, C77: the C file generated for a database.
-/
namespace Verif.Emit
open Verif.GoMeta (Str)
open Spec

/-! ### A database -/

/-- The values of `snakecase` that are used. -/
def exSnake (s : Str) : Str :=
  ((encodings ++ tags.map fun t => (t.1, t.2.1)).lookup s).getD s

theorem exSnake_snake : Snake exSnake := by
  unfold Snake
  decide +kernel

def exHead (id : Str) (name : Option Str) : Head := { id := id, name := name, decl := none, parents := [go! "cu_0000"] }

/-- The members of `struct node`. -/
def exFields : List Field :=
  [{ name := some (go! "next"), type := go! "p_0000", byteSize := none, alignment := none, byteOffset := 0,
     dataBitOffset := none, bitOffset := none, bitSize := none },
   { name := some (go! "key"), type := go! "a_0000", byteSize := none, alignment := none, byteOffset := 8,
     dataBitOffset := none, bitOffset := none, bitSize := none },
   { name := some (go! "lo"), type := go! "int_0000", byteSize := none, alignment := none, byteOffset := 0,
     dataBitOffset := some 96, bitOffset := none, bitSize := some 3 },
   { name := some (go! "hi"), type := go! "int_0000", byteSize := some 4, alignment := none, byteOffset := 12,
     dataBitOffset := none, bitOffset := some 24, bitSize := some 5 },
   { name := some (go! "c"), type := go! "e_color_0000", byteSize := none, alignment := none, byteOffset := 16,
     dataBitOffset := none, bitOffset := none, bitSize := none }]

/-- `typedef struct node {struct node *next; const unsigned char key[4]; int lo:3, hi:5;
enum color {red, blue = -2} c;} node_t;  static node_t root;  int walk(node_t *n, ...);` in a unit
of C11. -/
def exDb : List Obj :=
  [.base (exHead (go! "int_0000") (some (go! "int"))) (some 4) (go! "Signed"),
   .base (exHead (go! "unsigned_char_0000") (some (go! "unsigned char"))) (some 1) (go! "UnsignedChar"),
   .enumeration (exHead (go! "e_color_0000") (some (go! "color"))) (some 4) [(go! "red", 0), (go! "blue", -2)],
   .array (exHead (go! "a_0000") none) 4 0 none none (go! "qual_0000"),
   .pointer (exHead (go! "p_0000") none) (go! "s_node_0000"),
   .pointer (exHead (go! "p_0001") none) (go! "t_node_t_0000"),
   .qual (exHead (go! "qual_0000") none) (go! "ConstType") (go! "unsigned_char_0000"),
   .typedef (exHead (go! "t_node_t_0000") (some (go! "node_t"))) (go! "s_node_0000"),
   .aggregate (exHead (go! "s_node_0000") (some (go! "node"))) (go! "StructType") (some 24) none
     exFields [],
   .subprogram { id := go! "fn_walk_0000", name := some (go! "walk"), decl := none, parent := go! "cu_0000",
                 external := some true, linkage := none }
     (go! "int_0000") [{ unspecified := none, type := go! "p_0001", name := some (go! "n") },
                       { unspecified := some true, type := [], name := none }]
     [],
   .variable { id := go! "var_root_0000", name := some (go! "root"), decl := none, parent := go! "cu_0000",
               external := none, linkage := none } (go! "t_node_t_0000"),
   .unit (go! "cu_0000") (go! "demo/list.c") (some 0x1d) [go! "demo\\list.c"] [] []
     [{ link := go! "var_root_0000", file := some 1, line := some 12, column := some 15 },
      { link := go! "fn_walk_0000", file := some 1, line := none, column := none }]]

instance (s : Str) : Decidable (Plain s) := by unfold Plain; infer_instance
instance (s : Str) : Decidable (CName s) :=
  match s with
  | [] => .isFalse (by rintro ⟨-, _, _, h, -⟩; cases h)
  | c :: t =>
    if h : (∀ d ∈ c :: t, (48 ≤ d ∧ d ≤ 57) ∨ (65 ≤ d ∧ d ≤ 90) ∨ (97 ≤ d ∧ d ≤ 122) ∨ d = 95) ∧ ¬ (48 ≤ c ∧ c ≤ 57) then
      .isTrue ⟨h.1, c, t, rfl, h.2⟩
    else .isFalse (by
      rintro ⟨h1, c', t', he, h2⟩
      injection he with hc ht
      subst hc
      exact h ⟨h1, h2⟩)
instance {α : Type} (o : Option α) (P : α → Prop) [DecidablePred P] : Decidable (∀ v, o = some v → P v) :=
  match o with
  | none => .isTrue (fun _ h => by cases h)
  | some w => if h : P w then .isTrue (fun v hv => by cases hv; exact h) else .isFalse (fun hv => h (hv w rfl))
instance (n : Option Int) : Decidable (Size n) := by unfold Size; infer_instance
instance (n : Int) : Decidable (Spec.Int64 n) := by unfold Spec.Int64; infer_instance
instance {α : Type} (l : List α) : Decidable (Few l) := by unfold Few; infer_instance
instance (n : Option Str) : Decidable (Named n) := by unfold Named; infer_instance
instance (ids : List Str) (l : Str) : Decidable (Link ids l) := by unfold Link; infer_instance
instance (ids : List Str) (h : Head) : Decidable (HeadFits ids h) := by unfold HeadFits; infer_instance
instance (ids : List Str) (h : ObjHead) : Decidable (ObjFits ids h) := by unfold ObjFits; infer_instance
instance (ids : List Str) (h : List Param) : Decidable (ParamsFit ids h) := by unfold ParamsFit; infer_instance
instance (ids : List Str) (h : Field) : Decidable (FieldFits ids h) := by unfold FieldFits; infer_instance
instance (ids : List Str) (h : List Item) : Decidable (HierFits ids h) := by unfold HierFits; infer_instance
instance (s : Str) : Decidable (Printable s) := by unfold Printable; infer_instance
instance (lang : Option Int) : Decidable (∃ l, lang = some l ∧ 1 ≤ l ∧ l ≤ 37) :=
  match lang with
  | none => .isFalse (by rintro ⟨_, h, -⟩; cases h)
  | some w => if h : 1 ≤ w ∧ w ≤ 37 then .isTrue ⟨w, rfl, h⟩ else .isFalse (by rintro ⟨l, hl, h'⟩; cases hl; exact h h')
instance (ids : List Str) (o : Obj) : Decidable (Fits ids o) := by cases o <;> unfold Fits <;> infer_instance

theorem exDb_good : Good exDb :=
  ⟨by decide +kernel, by decide +kernel, by decide +kernel, by decide +kernel, by decide +kernel⟩

/-! ### C76 -/

/-- C76: the file generated for a good database (see `Spec.Good`: names of C as ids, plain texts,
known encodings and languages, sizes where they are needed, no strides, no imports) compiles.
Missing: all other databases; the theorems below show that the property is false for them. -/
theorem C76_compiles_partial (snake : Str → Str) (hs : Snake snake) (db : List Obj) (hg : Good db) :
    ∃ defs, compileFile (file snake db) = some defs :=
  ⟨_, compile_file hs hg⟩

example : Snake exSnake ∧ Good exDb ∧ exDb.length = 12 := ⟨exSnake_snake, exDb_good, rfl⟩

/-- C76 is false: a namespace or a unit with an import (`using namespace std;`) makes the whole
file invalid, whatever else is in the database. -/
theorem C76_imports_false (snake : Str → Str) (db : List Obj)
    (h : ∃ o ∈ db,
      (∃ i name par modules decls hier, o = .namespace i name par modules decls hier ∧ (modules ≠ [] ∨ decls ≠ [])) ∨
      (∃ i name lang files modules decls hier, o = .unit i name lang files modules decls hier ∧
        (modules ≠ [] ∨ decls ≠ []))) :
    compileFile (file snake db) = none := by
  refine file_imports snake db ?_
  obtain ⟨o, ho, h⟩ := h
  refine ⟨o, ho, ?_⟩
  rcases h with ⟨i, name, par, modules, decls, hier, rfl, h⟩ | ⟨i, name, lang, files, modules, decls, hier, rfl, h⟩ <;>
    simpa [hasImports] using h

def exUnit : Obj := .unit (go! "cu_0000") (go! "m.cc") (some 4) [] [] [] []

example : Good [exUnit] ∧ ∃ o ∈ [exUnit, .namespace (go! "ns_n_0000") (some (go! "n")) (go! "cu_0000") [go! "ns_n_0000"] [] []],
    ∃ i name par modules decls hier, o = .namespace i name par modules decls hier ∧ (modules ≠ [] ∨ decls ≠ []) :=
  ⟨⟨by decide +kernel, by decide +kernel, by decide +kernel, by decide +kernel, by decide +kernel⟩,
   .namespace (go! "ns_n_0000") (some (go! "n")) (go! "cu_0000") [go! "ns_n_0000"] [] [], by simp,
   _, _, _, _, _, _, rfl, .inl (by simp)⟩

/-- C76 is false: each of these objects makes the file invalid on its own: an array with a stride,
a base type without an encoding or with one that the library does not know, a structure with
neither a size nor the declaration flag, a unit of an unknown language (Mips assembler, 0x8001), an
id that is not a name of C (`vector<int>`), a unit named `C:\users\a.c`, an array of
`void`, a link to an object that was not put into the database. -/
theorem C76_compiles_false :
    ∀ o ∈ [(.array (exHead (go! "a_0000") none) 4 0 none (some 32) (go! "") : Obj),
        .base (exHead (go! "decltype_nullptr_t_0000") none) none [],
        .base (exHead (go! "x_0000") (some (go! "x"))) (some 1) (go! "Encoding(128)"),
        .aggregate (exHead (go! "s_x_0000") (some (go! "x"))) (go! "StructType") none none [] [],
        .unit (go! "cu_0001") (go! "a.S") (some 0x8001) [] [] [] [],
        .unit (go! "cu_0001") (go! "a.c") none [] [] [] [],
        .aggregate (exHead (go! "s_vector<int>_0000") (some (go! "vector<int>"))) (go! "StructType") (some 24) none [] [],
        .unit (go! "cu_0001") (go! "C:\\users\\a.c") (some 0x1d) [] [] [] [],
        .array (exHead (go! "a_0000") none) 4 0 none none (go! "void"),
        .typedef (exHead (go! "t_x_0000") (some (go! "x"))) (go! "gone_0000")],
      compileFile (file exSnake [exUnit, o]) = none := by
  decide +kernel

/-- What the objects of `C76_compiles_false` should have looked like: these compile. -/
example : ∀ o ∈ [(.array (exHead (go! "a_0000") none) 4 0 none none (go! "") : Obj),
        .base (exHead (go! "decltype_nullptr_t_0000") none) none (go! "Void"),
        .aggregate (exHead (go! "s_x_0000") (some (go! "x"))) (go! "StructType") (some 4) none [] [],
        .unit (go! "cu_0001") (go! "a.c") (some 0x1d) [] [] [] [],
        .typedef (exHead (go! "t_x_0000") (some (go! "x"))) (go! "void")],
      (compileFile (file exSnake [exUnit, o])).isSome = true := by
  decide +kernel

/-- C76: the ids that the builder gives to whatever objects are added in whatever order are
different, none is reserved and none is the name of a generated function; if `snakecase` turns the names of the
objects into words (letters, digits, `_`, no digit first), all ids are names of C. -/
theorem C76_ids (snake : Str → Str) (objs : List GoMeta.Obj) :
    let ids := (GoMeta.addAll snake GoMeta.Db.empty objs).1
    ids.Nodup ∧ (∀ a ∈ ids, a ≠ go! "void") ∧ (∀ a ∈ ids, ∀ b ∈ ids, a ≠ b ++ go! "_va_arg") ∧
    ((∀ o ∈ objs, ∀ n, o.name = some n → snake n ≠ [] → CName (snake n)) → ∀ a ∈ ids, CName a) := by
  obtain ⟨-, h2, -, -, -, -, h7⟩ := GoMeta.addAll_spec snake objs GoMeta.Db.empty (by intro k id o h; cases h)
  refine ⟨h2, ?_, ?_, ?_⟩
  · intro a ha he
    obtain ⟨s, n, rfl⟩ := h7 a ha
    have h95 : (95 : UInt8) ∈ s ++ [95] ++ GoMeta.pad4 n := by simp
    rw [he] at h95
    revert h95
    decide
  · intro a ha b hb he
    obtain ⟨s, n, rfl⟩ := h7 a ha
    have hd : GoMeta.pad4 n ≠ [] := by
      unfold GoMeta.pad4
      rw [GoMeta.dec]
      split <;> simp
    obtain ⟨x, l, hx⟩ : ∃ x l, GoMeta.pad4 n = l ++ [x] := ⟨_, _, (List.dropLast_concat_getLast hd).symm⟩
    have h9 := GoMeta.pad4_digit (n := n) (b := x) (by rw [hx]; simp)
    rw [hx] at he
    have := congrArg List.getLast? he
    rw [← List.append_assoc, List.getLast?_concat] at this
    simp at this
    subst this
    revert h9
    decide
  · intro hn a ha
    clear h2 h7
    generalize GoMeta.Db.empty = db at ha
    induction objs generalizing db with
    | nil => cases ha
    | cons o objs ih =>
      simp only [GoMeta.addAll] at ha
      rcases List.mem_cons.mp ha with rfl | ha
      · have hw : ∀ n, CName (snake n) ∨ snake n = [] → o.name = some n → True := fun _ _ _ => trivial
        simp only [GoMeta.appendDb, GoMeta.commonId]
        generalize (match GoMeta.find (GoMeta.stem snake o) db.names with
          | none => 0
          | some c => c + 1) = cnt
        have hstem : GoMeta.stem snake o = [] ∨ CName (GoMeta.stem snake o) := by
          have hname : GoMeta.nameOf snake o = [] ∨ CName (GoMeta.nameOf snake o) := by
            unfold GoMeta.nameOf
            split
            · exact .inl rfl
            · exact .inl rfl
            · exact .inr (by decide)
            · exact .inl rfl
            · rename_i n hsome _ _
              by_cases hz : snake n = []
              · exact .inl hz
              · exact .inr (hn o List.mem_cons_self n hsome hz)
          have hpre : GoMeta.prefixOf o.kind = [] ∨ CName (GoMeta.prefixOf o.kind) := by
            cases o.kind <;> decide
          unfold GoMeta.stem
          simp only
          split
          · rename_i hne
            rcases hname with h | h
            · exact absurd h hne
            · split
              · rename_i hne'
                rcases hpre with h' | h'
                · exact absurd h' hne'
                · refine .inr ⟨?_, ?_⟩
                  · intro c hc
                    simp only [List.mem_append, List.mem_singleton] at hc
                    rcases hc with (hc | rfl) | hc
                    · exact h'.1 c hc
                    · decide
                    · exact h.1 c hc
                  · obtain ⟨c, t, hc, hd⟩ := h'.2
                    exact ⟨c, _, by rw [hc]; rfl, hd⟩
              · rename_i hz
                rw [Decidable.not_not] at hz
                rw [hz]
                exact .inr h
          · exact hpre
        refine ⟨?_, ?_⟩
        · intro c hc
          simp only [List.mem_append, List.mem_singleton] at hc
          rcases hc with (hc | rfl) | hc
          · rcases hstem with h | h
            · rw [h] at hc
              cases hc
            · exact h.1 c hc
          · decide
          · left
            have := GoMeta.pad4_digit hc
            exact ⟨UInt8.le_iff_toNat_le.mpr this.1, UInt8.le_iff_toNat_le.mpr this.2⟩
        · rcases hstem with h | h
          · rw [h]
            exact ⟨95, _, rfl, by decide⟩
          · obtain ⟨c, t, hc, hd⟩ := h.2
            exact ⟨c, _, by rw [hc]; rfl, hd⟩
      · exact ih (fun o ho => hn o (List.mem_cons_of_mem _ ho)) _ ha

example : ∀ o ∈ [(⟨.structType, some (go! "node")⟩ : GoMeta.Obj), ⟨.structType, none⟩, ⟨.baseType, some (go! "int")⟩],
    ∀ n, o.name = some n → exSnake n ≠ [] → CName (exSnake n) := by
  decide +kernel

/-! ### C77 -/

/-- C77: in the compiled file for a good database every object has exactly one entry, the entry
says what the object says (see `Spec.entry`), and there are no other entries. -/
theorem C77_entries_partial (snake : Str → Str) (hs : Snake snake) (db : List Obj) (hg : Good db)
    (defs : List (Str × CEntry)) (hc : compileFile (file snake db) = some defs) :
    defs.Perm (db.map fun o => (o.id, Spec.entry o)) ∧ ∀ o ∈ db, defs.lookup o.id = some (Spec.entry o) := by
  rw [compile_file hs hg] at hc
  injection hc with hc
  subst hc
  refine ⟨List.reverse_perm _, fun o ho => ?_⟩
  have hnd : ((db.map fun o => (o.id, Spec.entry o)).reverse.map (·.1)).Nodup := by
    rw [List.map_reverse, List.map_map]
    exact List.pairwise_reverse.mpr (hg.ids.imp fun h => h.symm)
  have hmem : (o.id, Spec.entry o) ∈ (db.map fun o => (o.id, Spec.entry o)).reverse :=
    List.mem_reverse.mpr (List.mem_map.mpr ⟨o, ho, rfl⟩)
  revert hnd hmem
  generalize (db.map fun o => (o.id, Spec.entry o)).reverse = l
  intro hnd hmem
  induction l with
  | nil => cases hmem
  | cons x l ih =>
    rw [List.map_cons, List.nodup_cons] at hnd
    rcases List.mem_cons.mp hmem with rfl | hmem
    · simp [List.lookup]
    · have hne : o.id ≠ x.1 := fun h => hnd.1 (h ▸ List.mem_map_of_mem (f := (·.1)) hmem)
      have hb : (o.id == x.1) = false := by simpa using hne
      rw [List.lookup, hb]
      exact ih hnd.2 hmem

/-- The entry of the member `hi` in the example. -/
example : ((compileFile (file exSnake exDb)).bind fun defs =>
    (defs.lookup (go! "s_node_0000")).bind fun e => e.info.members.bind fun ms => ms[3]?) =
    some { kind := 15, name := some (go! "hi"), parentsCount := 1, parents := some [go! "s_node_0000"]
           info := .member (some (go! "int_0000")) (some 4) none 12 none (some 24) (some 5) } := by
  decide +kernel

/-- The head of `operator""_km`. -/
def exKm : ObjHead :=
  { id := go! "fn_operator_km_0000", name := some (go! "operator\"\"_km"), decl := none, parent := go! "cu_0000"
    external := none, linkage := none }

/-- C77 is false: a function or a unit may compile with another name than it has: `operator""_km`
gets the name `operator_km`, and the unit `C:\new.c` one with a line break. -/
theorem C77_name_false :
    (∃ defs, compileFile (file exSnake [exUnit, .subprogram exKm [] [] []]) = some defs ∧
      exKm.name = some (go! "operator\"\"_km") ∧
      (defs.lookup exKm.id).map (·.name) = some (some (go! "operator_km"))) ∧
    ∃ defs, compileFile (file exSnake [.unit (go! "cu_0000") (go! "C:\\new.c") (some 0x1d) [] [] [] []]) = some defs ∧
      (defs.lookup (go! "cu_0000")).map (·.name) = some (some (go! "C:\new.c")) :=
  ⟨⟨_, rfl, rfl, by decide +kernel⟩, _, rfl, by decide +kernel⟩

end Verif.Emit
