import Verif.Emit.Templates
/-
Files that do not compile, whatever else they hold.
-/
namespace Verif.Emit
open Verif.GoMeta (Str)

/-- No items can be read from here. -/
def Dead (t : List Tok) : Prop := ∀ n rest, parseItems n (t ++ rest) = none

/-- In front of a comma, the tokens are an initialiser or nothing at all. -/
def Maybe (t : List Tok) : Prop :=
  Starts t ∧ ∀ n rest, parseInit n (t ++ .p 44 :: rest) = none ∨ ∃ v, parseInit n (t ++ .p 44 :: rest) = some (v, .p 44 :: rest)

/-- In front of a closing brace, the tokens are items or nothing at all. -/
def MaybeItems (t : List Tok) : Prop :=
  ∀ n rest, parseItems n (t ++ .p 125 :: rest) = none ∨ ∃ is, parseItems n (t ++ .p 125 :: rest) = some (is, rest)

theorem Dead.append {t : List Tok} (h : Dead t) (u : List Tok) : Dead (t ++ u) := by
  intro n rest
  rw [List.append_assoc]
  exact h n _

theorem Maybe.dead {t u : List Tok} (k : Str) (h : Maybe t) (hu : Dead u) : Dead (seg k t ++ u) := by
  intro n rest
  cases n with
  | zero => rfl
  | succ n =>
    simp only [seg, List.cons_append, List.append_assoc, List.nil_append]
    rw [parseItems_des]
    rcases h.2 n (u ++ rest) with h | ⟨v, h⟩
    · rw [h]
    · rw [h]
      simp only [hu n rest, Option.map_none]

theorem Dead.braces {t : List Tok} (h : Dead t) (n : Nat) (rest : List Tok) : parseInit n (Emit.braces t ++ rest) = none := by
  cases n with
  | zero => rfl
  | succ n =>
    simp only [Emit.braces, List.cons_append, List.append_assoc, parseInit, h n, Option.map_none]

theorem Dead.seg {t : List Tok} (k : Str) (h : Dead t) : Dead (Emit.seg k (Emit.braces t)) := by
  intro n rest
  cases n with
  | zero => rfl
  | succ n =>
    simp only [Emit.seg, List.cons_append, List.append_assoc, List.nil_append]
    rw [parseItems_des, h.braces]

theorem Gives.maybe_of_reads {t : List Tok} {v : Init} (hs : Starts t) (h : ∀ n rest, parseInit (n + 1) (t ++ .p 44 :: rest) = some (v, .p 44 :: rest)) :
    Maybe t := by
  refine ⟨hs, fun n rest => ?_⟩
  cases n with
  | zero => exact .inl rfl
  | succ n => exact .inr ⟨v, h n rest⟩

theorem maybe_id (s : Str) : Maybe [.id s] :=
  Gives.maybe_of_reads ⟨_, _, rfl, by simp, by simp⟩ (v := .name s) (fun n rest => by simp [parseInit])

theorem maybe_num (k : Nat) : Maybe [.num k] :=
  Gives.maybe_of_reads ⟨_, _, rfl, by simp, by simp⟩ (v := .num k) (fun n rest => by simp [parseInit])

theorem maybe_bad : Maybe [.bad] := by
  refine ⟨⟨_, _, rfl, by simp, by simp⟩, fun n rest => .inl ?_⟩
  cases n <;> rfl

theorem maybe_ident (s : Str) : Maybe (ident s) := by
  unfold ident
  split
  · exact maybe_id s
  · exact maybe_bad

theorem maybe_str (raw : Str) : Maybe [.str raw] := by
  refine ⟨⟨_, _, rfl, by simp, by simp⟩, fun n rest => ?_⟩
  cases n with
  | zero => exact .inl rfl
  | succ n =>
    cases h : literal true raw with
    | none => exact .inl (by simp [parseInit, h])
    | some s => exact .inr ⟨.str s, by simp [parseInit, h]⟩

theorem maybe_addr (s : Str) : Maybe (.p 38 :: ident s) := by
  unfold ident
  split
  · exact Gives.maybe_of_reads ⟨_, _, rfl, by simp, by simp⟩ (v := .addr s) (fun n rest => by simp [parseInit])
  · refine ⟨⟨_, _, rfl, by simp, by simp⟩, fun n rest => .inl ?_⟩
    cases n <;> rfl

theorem maybeItems_nil : MaybeItems [] := by
  intro n rest
  cases n with
  | zero => exact .inl rfl
  | succ n => exact .inr ⟨[], rfl⟩

theorem Maybe.items {t u : List Tok} (h : Maybe t) (hu : MaybeItems u) : MaybeItems (t ++ [.p 44] ++ u) := by
  intro n rest
  cases n with
  | zero => exact .inl rfl
  | succ n =>
    simp only [List.append_assoc, List.cons_append, List.nil_append]
    rw [parseItems_plain h.1]
    rcases h.2 n (u ++ .p 125 :: rest) with h' | ⟨v, h'⟩
    · exact .inl (by rw [h'])
    · rw [h']
      rcases hu n rest with h'' | ⟨is, h''⟩
      · exact .inl (by simp only [h'', Option.map_none])
      · exact .inr ⟨(none, v) :: is, by simp only [h'', Option.map_some]⟩

theorem maybeItems_flatMap {α : Type} (tok : α → List Tok) (l : List α) (h : ∀ a ∈ l, Maybe (tok a)) :
    MaybeItems (l.flatMap fun a => tok a ++ [.p 44]) := by
  induction l with
  | nil => exact maybeItems_nil
  | cons a l ih =>
    rw [List.flatMap_cons]
    exact (h a List.mem_cons_self).items (ih fun x hx => h x (List.mem_cons_of_mem _ hx))

theorem MaybeItems.literal {t : List Tok} (ty : CType) (h : MaybeItems t) : Maybe (literalToks ty t) := by
  refine ⟨⟨_, _, rfl, by simp, by simp⟩, fun n rest => ?_⟩
  cases n with
  | zero => exact .inl rfl
  | succ n =>
    have hp := parseType_toks ty (.p 123 :: (t ++ .p 125 :: .p 44 :: rest))
    simp only [literalToks, List.cons_append, List.append_assoc, braces, List.nil_append, parseInit, hp]
    rcases h n (.p 44 :: rest) with h' | ⟨is, h'⟩
    · exact .inl (by rw [h']; rfl)
    · exact .inr ⟨.array ty is, by rw [h']; rfl⟩

/-- _import.tpl:6-7: the comma that is missing. -/
theorem dead_imports {as as_count : Str} {ids : List Str} (h : ids ≠ []) : Dead (imports as as_count ids) := by
  have hl : ids.length ≠ 0 := fun hz => h (List.length_eq_zero_iff.mp hz)
  intro n rest
  cases n with
  | zero => rfl
  | succ n =>
    unfold imports
    rw [if_neg hl]
    have hi : int ids.length = [.num ids.length] := by
      unfold int
      rw [if_neg (by omega)]
      rfl
    simp only [hi, List.cons_append, List.nil_append, List.append_assoc]
    rw [parseItems_des]
    cases n with
    | zero => rfl
    | succ n => simp [parseInit]

theorem imports_nil {as as_count : Str} : imports as as_count [] = [] := rfl

theorem dead_name {n : Option Str} {u : List Tok} (hu : Dead u) : Dead (nameMixin n ++ u) := by
  cases n with
  | none => exact hu
  | some s => exact (maybe_str s).dead (go! "name") hu

theorem dead_parent {i : Str} {u : List Tok} (hu : Dead u) : Dead (parent i ++ u) := by
  have h2 := (((maybe_addr i).items maybeItems_nil).literal (.ptr (go! "metac_entry_t"))).dead (go! "parents") hu
  have h1 := (maybe_num 1).dead (go! "parents_count") h2
  simpa [parent, seg, literalToks, typeToks, braces] using h1

theorem dead_files {files : List Str} {u : List Tok} (hu : Dead u) :
    Dead ((if files.length = 0 then []
      else c! ".decl_files_count =" ++ int files.length ++ c! ", .decl_files = (metac_name_t[]){" ++
        files.flatMap (fun f => [.str (escapePath f)] ++ c! ",") ++ c! "},") ++ u) := by
  split
  · exact hu
  · have hi : int files.length = [.num files.length] := by
      unfold int
      rw [if_neg (by omega)]
      rfl
    have h2 := ((maybeItems_flatMap (fun f => [.str (escapePath f)]) files fun f _ => maybe_str _).literal
      (.val (go! "metac_name_t"))).dead (go! "decl_files") hu
    have h1 := (maybe_num files.length).dead (go! "decl_files_count") h2
    simpa [hi, seg, literalToks, typeToks, braces] using h1

theorem maybe_lang (l : Option Int) : Maybe (langToks l) := by
  cases l with
  | none => exact maybe_bad
  | some l => exact maybe_ident _

/-- Imports of a namespace or of a compile unit. -/
def hasImports : Obj → Bool
  | .namespace _ _ _ modules decls _ => modules ≠ [] || decls ≠ []
  | .unit _ _ _ _ modules decls _ => modules ≠ [] || decls ≠ []
  | _ => false

theorem dead_bothImports {modules decls : List Str} (h : modules ≠ [] ∨ decls ≠ []) (u : List Tok) :
    Dead (imports (go! "imported_modules") (go! "imported_modules_count") modules ++
      (imports (go! "imported_declarations") (go! "imported_declarations_count") decls ++ u)) := by
  by_cases hm : modules = []
  · subst hm
    rw [imports_nil, List.nil_append]
    exact (dead_imports (h.resolve_left (fun h => h rfl))).append u
  · exact (dead_imports hm).append _

theorem parse_imports {snake : Str → Str} {o : Obj} (h : hasImports o = true) (n : Nat) :
    parseInit n (initialiser snake o) = none := by
  cases o with
  | «namespace» i name par modules decls hier =>
    simp only [hasImports, Bool.or_eq_true, decide_eq_true_eq] at h
    have d1 := dead_bothImports h (hierarchy hier)
    have d2 := (maybe_id (go! "METAC_KND_namespace")).dead (go! "kind")
      (dead_name (n := name) (dead_parent (i := par) (d1.seg (go! "namespace_info"))))
    have := d2.braces n []
    rw [← this]
    congr 1
    simp [initialiser, namespace_, seg, braces]
  | unit i name lang files modules decls hier =>
    simp only [hasImports, Bool.or_eq_true, decide_eq_true_eq] at h
    have d1 := dead_bothImports h (hierarchy hier)
    have d2 := (maybe_lang lang).dead (go! "lang") (dead_files (files := files) d1)
    have d3 := (maybe_id (go! "METAC_KND_compile_unit")).dead (go! "kind")
      ((maybe_str name).dead (go! "name") (d2.seg (go! "compile_unit_info")))
    have := d3.braces n []
    rw [← this]
    congr 1
    simp [initialiser, compileUnit, seg, braces]
  | _ => simp [hasImports] at h

theorem compile_dead (items : List TopItem) (sc : Scope) (defs : List (Str × CEntry)) {t init : List Tok}
    (hi : ∀ n, parseInit n init = none) (h : .define t init ∈ items) : compile sc defs items = none := by
  induction items generalizing sc defs with
  | nil => cases h
  | cons x items ih =>
    rcases List.mem_cons.mp h with rfl | h
    · unfold compile
      split
      · contradiction
      · rename_i heq
        injection heq with h1 _
        cases h1
      · rename_i heq
        injection heq with h1 _
        cases h1
      · rename_i heq
        injection heq with h1 h2
        injection h1 with h3 h4
        subst h4
        rw [hi]
        split <;> rfl
      · rfl
    · unfold compile
      split
      · contradiction
      · rename_i heq
        injection heq with h1 h2
        subst h2
        split
        · rfl
        · exact ih _ _ h
      · rename_i heq
        injection heq with h1 h2
        subst h2
        split
        · exact ih _ _ h
        · rfl
      · rename_i heq
        injection heq with h1 h2
        subst h2
        split
        · rfl
        · split
          · cases structOf (entryTable sc) {} _ with
            | none => rfl
            | some e => exact ih _ _ h
          · rfl
      · rfl

theorem file_imports (snake : Str → Str) (db : List Obj) (h : ∃ o ∈ db, hasImports o = true) :
    compileFile (file snake db) = none := by
  obtain ⟨o, ho, hi⟩ := h
  refine compile_dead _ _ _ (fun n => parse_imports (snake := snake) hi n) (t := ident o.id) ?_
  unfold file
  refine List.mem_append_right _ (List.mem_flatMap.mpr ⟨o, ho, ?_⟩)
  simp

end Verif.Emit
