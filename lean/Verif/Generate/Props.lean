import Verif.Generate.Answers
/-
The properties of the code generated for a program.
-/
namespace Verif.Generate
open Verif Verif.Generate.Spec
open Verif.GoDedup (Go decInt)
open Verif.GoDedup.Spec (Each)
open Verif.EntryDb (quote unquote FileItem dget)
open Verif.EntryDb.Spec (unique)

/-! ### C68: the requests of a program -/

/-- C68.  Requests are found wherever they are in the program, to any depth of scopes.  The modules
are the default one and those declared, without repetition.  For each of them and each type of
request, the requests taken are exactly those made by the variables of the program, in their order. -/
theorem C68_requests {db : Db} {ms : List Str} {res : Res} (h : buildRequests db = Go.ret (ms, res)) :
    ∃ vis, Visits db vis ∧ ms.Nodup ∧ (∀ m, m ∈ ms ↔ IsModule db vis m) ∧
      ∀ m t, m ∈ ms → m ≠ [] → (95 : UInt8) ∉ t →
        (((res.lookup t).getD []).filter (·.module = m)).map (fun r => (r.cu, r.h, r.var, r.reqName)) = requests db vis m t := by
  obtain ⟨h1, h2, h3, h4⟩ := build_sound h
  have hv := walked_iff.mp h1
  exact ⟨visOf db, hv, h2, fun m => (h3 m).trans (isModule_iff hv), fun m t hm h0 ht => refs_requests h hv hm h0 ht⟩

/-- C68.  The requests are read exactly when what is inside each unit is known: no scope is missing
or inside itself, and no variable is missing. -/
theorem C68_succeeds {db : Db} : (∃ r, buildRequests db = Go.ret r) ↔ ∃ vis, Visits db vis := by
  constructor
  · rintro ⟨⟨ms, res⟩, h⟩
    exact ⟨_, walked_iff.mp (build_sound h).1⟩
  · rintro ⟨vis, h⟩
    exact build_total (walked_iff.mpr h)

/-- C68.  Everything inside a unit is one list. -/
theorem C68_everything_unique {db : Db} {items l l' : List Item} (h : All db items l) (h' : All db items l') : l = l' := h.unique h'

/-- A unit with a function `f`; in it the place of declaration `L`, on the line of `x`; then `y`.
Two more variables declare the module `m` and request its symbol `f`. -/
def exVars : List (Str × Var) :=
  [(go! "v1", { name := some (go! "metac__dflt_entry_L"), parentKind := go! "Subprogram", parentId := go! "s1" }),
   (go! "v2", { name := some (go! "x"), parentKind := go! "Subprogram", parentId := go! "s1" }),
   (go! "v3", { name := some (go! "y"), parentKind := go! "Subprogram", parentId := go! "s1" }),
   (go! "v4", { name := some (go! "metac__module_m"), parentKind := go! "CompileUnit", parentId := go! "u1" }),
   (go! "v5", { name := some (go! "metac__m_gsym_f"), parentKind := go! "CompileUnit", parentId := go! "u1" })]

def exInner : List Item :=
  [{ kind := go! "Variable", id := go! "v1", declFile := some 0, declLine := some 3 },
   { kind := go! "Variable", id := go! "v2", declFile := some 0, declLine := some 3 },
   { kind := go! "Variable", id := go! "v3", declFile := some 0, declLine := some 4 }]

def exOuter : List Item :=
  [{ kind := go! "Subprogram", id := go! "s1", declFile := some 0, declLine := some 1 },
   { kind := go! "Variable", id := go! "v4", declFile := some 0, declLine := some 8 },
   { kind := go! "Variable", id := go! "v5", declFile := some 0, declLine := some 9 }]

def exUnit : CUnit := { declFiles := [go! "a.c"], hier := exOuter }

def exDb : Db :=
  { variables := exVars, subprograms := [(go! "s1", { name := some (go! "f"), hier := exInner })],
    namespaces := [], lexBlocks := [], structTypes := [], classTypes := [], unionTypes := [],
    units := [(go! "u1", exUnit)] }

instance (h : Item) : Decidable (IsScope h) := by unfold IsScope; infer_instance

def exVis : Str × CUnit → List Item := fun _ => exOuter.take 1 ++ (exInner ++ exOuter.drop 1)

theorem all_leaves {db : Db} : ∀ {l : List Item}, (∀ h ∈ l, ¬ IsScope h) → All db l l
  | [], _ => .nil
  | h :: _, hl => .leaf (hl h (.head _)) (all_leaves fun x hx => hl x (.tail _ hx))

theorem exVisits : Visits exDb exVis := by
  constructor
  · intro u hu
    simp only [exDb, List.mem_singleton] at hu
    subst hu
    exact .scope (inner := exInner) (k := exInner) (l := exOuter.drop 1) (by decide) rfl (all_leaves (by decide)) (all_leaves (by decide))
  · intro u hu h hh hk
    have : ∀ h ∈ exVis u, h.kind = go! "Variable" → (exDb.variables.lookup h.id).isSome := by
      simp only [exVis]; decide
    obtain ⟨v, hv⟩ := Option.isSome_iff_exists.mp (this h hh hk)
    exact ⟨v, hk, hv⟩

/-- The hypotheses of C68 are met: the requests of the example are read, the module `m` is found,
and so is the request in the function. -/
theorem exBuild : ∃ ms res, buildRequests exDb = Go.ret (ms, res) ∧ go! "dflt" ∈ ms ∧ go! "m" ∈ ms ∧ [] ∉ ms ∧
    requests exDb exVis (go! "dflt") (go! "entry") =
      [(go! "u1", { kind := go! "Variable", id := go! "v1", declFile := some 0, declLine := some 3 },
        { name := some (go! "metac__dflt_entry_L"), parentKind := go! "Subprogram", parentId := go! "s1" }, go! "L")] ∧
    (requests exDb exVis (go! "m") (go! "gsym")).map (·.2.2.2) = [go! "f"] := by
  obtain ⟨⟨ms, res⟩, h⟩ := C68_succeeds.mpr ⟨_, exVisits⟩
  obtain ⟨vis, hv, _, hm, _⟩ := C68_requests h
  refine ⟨ms, res, h, (hm _).mpr (.inl rfl), (hm _).mpr (.inr ?_), fun h0 => ?_, by decide +kernel, by decide +kernel⟩
  · refine ⟨(go! "u1", exUnit), by simp [exDb], { kind := go! "Variable", id := go! "v4", declFile := some 0, declLine := some 8 }, ?_,
      { name := some (go! "metac__module_m"), parentKind := go! "CompileUnit", parentId := go! "u1" }, ⟨rfl, rfl⟩, rfl⟩
    rw [Visits.unique hv exVisits (by simp [exDb])]
    decide
  · rcases (hm _).mp h0 with e | ⟨u, hu, x, hx, v, ⟨_, hv'⟩, hn⟩
    · exact absurd e (by decide)
    · rw [Visits.unique hv exVisits hu] at hx
      have : ∀ x ∈ exVis u, ∀ v, exDb.variables.lookup x.id = some v → v.name ≠ some (go! "metac__module_" ++ []) := by
        have : ∀ x ∈ exVis u, (exDb.variables.lookup x.id).bind Var.name ≠ some (go! "metac__module_" ++ []) := by
          simp only [exVis]; decide
        intro x hx v hv e
        exact this x hx (by rw [hv]; exact e)
      exact this x hx v hv' hn

/-! ### C69: places of declaration -/

/-- C69.  What a lookup by a place of declaration finds in the program built.  The table generated
for a module is sorted, and a lookup of a file, a place of declaration and a name in it returns the
object if exactly one object of that name is declared on the line of a variable of that name, which
makes a request and is declared in that file, and in the same scope; otherwise nothing.  (If nothing
is generated, as for the empty table.)
Missing: files with a backslash; see `C51_backslash_breaks_lookup`, and C69_header_false for the
programs for which no table is generated at all. -/
theorem C69_lookup_partial {db : Db} (hr : Regular db) {ms : List Str} {res : Res} (h : buildRequests db = Go.ret (ms, res)) {vis : Str × CUnit → List Item}
    (hv : Visits db vis) {m : Str} (hm : m ∈ ms) (h0 : m ≠ []) {o : Option (List (FileItem Str))} (ho : entryDb db m res = Go.ret o) :
    EntryDb.Spec.Sorted (o.getD []) ∧ ∀ file loc name,
      EntryDb.lookup (some (o.getD [])) (some (some file, some loc)) (some name) =
        .ok (unique (db.units.flatMap fun u => (vis u).flatMap fun h => answers db m u.2 h file loc name)) :=
  entryDb_lookup hr h hv hm h0 ho

/-- C69.  When the table is generated, under the assumption that parents, siblings and files are
known: exactly when no two requests have the same file, line and name. -/
theorem C69_generated_iff {db : Db} (hr : Regular db) {ms : List Str} {res : Res} (h : buildRequests db = Go.ret (ms, res)) {vis : Str × CUnit → List Item}
    (hv : Visits db vis) {m : Str} (hm : m ∈ ms) (h0 : m ≠ [])
    (hk : ∀ x ∈ requests db vis m (go! "entry"), (whereAsked db x).isSome ∧ ∀ u, db.units.lookup x.1 = some u → Known db u x.2.2.1) :
    (∃ o, entryDb db m res = Go.ret o) ↔ ((requests db vis m (go! "entry")).map (whereAsked db)).Nodup :=
  ⟨fun ⟨_, ho⟩ => (entryDb_nodup h hv hm h0 ho).1, entryDb_total hr h hv hm h0 hk⟩

/-- C69.  A table is never generated if two requests have the same file, line and name, or if the
file of a request is not known. -/
theorem C69_repeats {db : Db} {ms : List Str} {res : Res} (h : buildRequests db = Go.ret (ms, res)) {vis : Str × CUnit → List Item}
    (hv : Visits db vis) {m : Str} (hm : m ∈ ms) (h0 : m ≠ []) {o : Option (List (FileItem Str))} (ho : entryDb db m res = Go.ret o) :
    ((requests db vis m (go! "entry")).map (whereAsked db)).Nodup ∧ ∀ x ∈ requests db vis m (go! "entry"), (whereAsked db x).isSome :=
  entryDb_nodup h hv hm h0 ho

theorem exRegular : Regular exDb := by
  have hv : ∀ x ∈ exVars, ∀ n, x.2.name = some n → EntryDb.Spec.IsIdent n := by
    have : ∀ x ∈ exVars, ∀ c ∈ x.2.name.getD [], ((48 : UInt8) ≤ c ∧ c ≤ 57) ∨ (65 ≤ c ∧ c ≤ 90) ∨ c = 95 ∨ (97 ≤ c ∧ c ≤ 122) := by decide +kernel
    intro x hx n hn c hc
    exact this x hx c (by rw [hn]; exact hc)
  constructor
  · intro i v n hl hn
    rw [lookup_dget] at hl
    exact hv _ (EntryDb.dget_mem hl) n hn
  · intro i s n hl hn
    rw [lookup_dget] at hl
    have := EntryDb.dget_mem hl
    simp only [exDb, List.mem_singleton, Prod.mk.injEq] at this
    obtain ⟨_, rfl⟩ := this
    cases hn
    simp [EntryDb.Spec.IsIdent]
  · intro u hu f hf
    simp only [exDb, List.mem_singleton] at hu
    subst hu
    simp only [exUnit, List.mem_singleton] at hf
    subst hf
    simp [EntryDb.Spec.NoBackslash]
  · intro i
    by_cases e : i = go! "s1"
    · left; subst e; rfl
    · right
      have : (i == go! "s1") = false := by simpa using e
      simp only [exDb, List.lookup, this]
  · simp [exDb]

/-- The hypotheses of C69 are met: the table of the example is generated, and the lookup of `x` by
the place `L` finds `v2`; `y` is on another line. -/
example : ∃ ms res o, buildRequests exDb = Go.ret (ms, res) ∧ entryDb exDb (go! "dflt") res = Go.ret o ∧
    EntryDb.lookup (some (o.getD [])) (some (some (go! "a.c"), some (go! "metac__dflt_entry_L"))) (some (go! "x")) = .ok (some (go! "v2")) ∧
    EntryDb.lookup (some (o.getD [])) (some (some (go! "a.c"), some (go! "metac__dflt_entry_L"))) (some (go! "y")) = .ok none := by
  obtain ⟨ms, res, h, hm, _, _, hreq, _⟩ := exBuild
  obtain ⟨o, ho⟩ := (C69_generated_iff exRegular h exVisits hm (by decide) (by
      rw [hreq]
      intro x hx
      simp only [List.mem_singleton] at hx
      subst hx
      refine ⟨by decide +kernel, fun u hu => ?_⟩
      have : exUnit = u := by simpa [exDb] using hu
      subst this
      refine ⟨.inr (by decide +kernel), ?_⟩
      decide +kernel)).mpr (by rw [hreq]; simp)
  obtain ⟨_, hl⟩ := C69_lookup_partial exRegular h exVisits hm (by decide) ho
  exact ⟨ms, res, o, h, ho, by rw [hl]; decide +kernel, by rw [hl]; decide +kernel⟩

/-- Two units that include the same header; the header has a static function with a place of
declaration `L` in it. -/
def hdVar (s : Str) : Var := { name := some (go! "metac__dflt_entry_L"), parentKind := go! "Subprogram", parentId := s }
def hdItem (v : Str) : Item := { kind := go! "Variable", id := v, declFile := some 0, declLine := some 3 }
def hdUnit (s : Str) : CUnit := { declFiles := [go! "h.h"], hier := [{ kind := go! "Subprogram", id := s, declFile := some 0, declLine := some 1 }] }

def hdDb (units : List (Str × CUnit)) : Db :=
  { variables := [(go! "v1", hdVar (go! "s1")), (go! "v2", hdVar (go! "s2"))],
    subprograms := [(go! "s1", { name := some (go! "f"), hier := [hdItem (go! "v1")] }), (go! "s2", { name := some (go! "f"), hier := [hdItem (go! "v2")] })],
    namespaces := [], lexBlocks := [], structTypes := [], classTypes := [], unionTypes := [], units }

def hdUnits : List (Str × CUnit) := [(go! "u1", hdUnit (go! "s1")), (go! "u2", hdUnit (go! "s2"))]

def hdVis : Str × CUnit → List Item := fun u => u.2.hier ++ if u.1 = go! "u1" then [hdItem (go! "v1")] else [hdItem (go! "v2")]

theorem hdVisits {us : List (Str × CUnit)} (hus : ∀ u ∈ us, u ∈ hdUnits) : Visits (hdDb us) hdVis := by
  constructor
  · intro u hu
    have := hus u hu
    simp only [hdUnits, List.mem_cons, List.not_mem_nil, or_false] at this
    rcases this with rfl | rfl
    · exact .scope (inner := [hdItem (go! "v1")]) (k := [hdItem (go! "v1")]) (l := []) (by decide) rfl (all_leaves (by decide)) .nil
    · exact .scope (inner := [hdItem (go! "v2")]) (k := [hdItem (go! "v2")]) (l := []) (by decide) rfl (all_leaves (by decide)) .nil
  · intro u hu h hh hk
    have := hus u hu
    have key : ∀ u ∈ hdUnits, ∀ h ∈ hdVis u, h.kind = go! "Variable" → ((hdDb []).variables.lookup h.id).isSome := by decide +kernel
    obtain ⟨v, hv⟩ := Option.isSome_iff_exists.mp (key u this h hh hk)
    exact ⟨v, hk, hv⟩

theorem hdRegular {us : List (Str × CUnit)} (hus : ∀ u ∈ us, u ∈ hdUnits) (hn : (us.map (·.1)).Nodup) : Regular (hdDb us) := by
  constructor
  · intro i v n hl hn
    rw [lookup_dget] at hl
    have := EntryDb.dget_mem hl
    simp only [hdDb, List.mem_cons, List.not_mem_nil, or_false, Prod.mk.injEq] at this
    rcases this with ⟨_, rfl⟩ | ⟨_, rfl⟩ <;> (cases hn; simp [EntryDb.Spec.IsIdent])
  · intro i v n hl hn
    rw [lookup_dget] at hl
    have := EntryDb.dget_mem hl
    simp only [hdDb, List.mem_cons, List.not_mem_nil, or_false, Prod.mk.injEq] at this
    rcases this with ⟨_, rfl⟩ | ⟨_, rfl⟩ <;> (cases hn; simp [EntryDb.Spec.IsIdent])
  · intro u hu f hf
    have := hus u hu
    simp only [hdUnits, List.mem_cons, List.not_mem_nil, or_false] at this
    rcases this with rfl | rfl <;> (simp only [hdUnit, List.mem_singleton] at hf; subst hf; simp [EntryDb.Spec.NoBackslash])
  · intro i
    by_cases e : i = go! "s1"
    · left; subst e; rfl
    · by_cases e' : i = go! "s2"
      · left; subst e'; rfl
      · right
        have h1 : (i == go! "s1") = false := by simpa using e
        have h2 : (i == go! "s2") = false := by simpa using e'
        simp only [hdDb, List.lookup, h1, h2]
  · exact hn

/-- C69 is false of the code in full: of a program of two units that include a header with a static
function, in which there is a place of declaration, no table is generated, although the table of
each unit alone is. -/
theorem C69_header_false : ∃ db : Db, Regular db ∧ (∃ ms res, buildRequests db = Go.ret (ms, res) ∧ go! "dflt" ∈ ms ∧ ¬ ∃ o, entryDb db (go! "dflt") res = Go.ret o) ∧
    ∀ u ∈ db.units, ∃ ms res o, buildRequests { db with units := [u] } = Go.ret (ms, res) ∧ go! "dflt" ∈ ms ∧ entryDb { db with units := [u] } (go! "dflt") res = Go.ret o := by
  have build : ∀ {us : List (Str × CUnit)}, (∀ u ∈ us, u ∈ hdUnits) → ∃ ms res, buildRequests (hdDb us) = Go.ret (ms, res) ∧ go! "dflt" ∈ ms := by
    intro us hus
    obtain ⟨⟨ms, res⟩, h⟩ := C68_succeeds.mpr ⟨_, hdVisits hus⟩
    obtain ⟨vis, _, _, hm, _⟩ := C68_requests h
    exact ⟨ms, res, h, (hm _).mpr (.inl rfl)⟩
  refine ⟨hdDb hdUnits, hdRegular (fun _ h => h) (by decide), ?_, ?_⟩
  · obtain ⟨ms, res, h, hm⟩ := build (us := hdUnits) fun _ h => h
    refine ⟨ms, res, h, hm, ?_⟩
    rintro ⟨o, ho⟩
    have := (C69_repeats h (hdVisits fun _ h => h) hm (by decide) ho).1
    revert this
    decide +kernel
  · intro u hu
    have hus : ∀ x ∈ [u], x ∈ hdUnits := by intro x hx; simp only [List.mem_singleton] at hx; subst hx; exact hu
    obtain ⟨ms, res, h, hm⟩ := build hus
    have hnd : ([u].map (·.1)).Nodup := by simp
    have hx : (∀ x ∈ requests (hdDb [u]) hdVis (go! "dflt") (go! "entry"), (whereAsked (hdDb [u]) x).isSome ∧ ∀ u', (hdDb [u]).units.lookup x.1 = some u' → Known (hdDb [u]) u' x.2.2.1) ∧
        ((requests (hdDb [u]) hdVis (go! "dflt") (go! "entry")).map (whereAsked (hdDb [u]))).Nodup := by
      simp only [hdDb, hdUnits, List.mem_cons, List.not_mem_nil, or_false] at hu
      clear h hm hus hnd
      have one : ∀ s v n : Str, requests (hdDb [(n, hdUnit s)]) hdVis (go! "dflt") (go! "entry") = [(n, hdItem v, hdVar s, go! "L")] →
          (hdDb []).subprograms.lookup s = some { name := some (go! "f"), hier := [hdItem v] } → ((hdDb []).variables.lookup v).isSome →
          (∀ x ∈ requests (hdDb [(n, hdUnit s)]) hdVis (go! "dflt") (go! "entry"), (whereAsked (hdDb [(n, hdUnit s)]) x).isSome ∧
            ∀ u', (hdDb [(n, hdUnit s)]).units.lookup x.1 = some u' → Known (hdDb [(n, hdUnit s)]) u' x.2.2.1) ∧
          ((requests (hdDb [(n, hdUnit s)]) hdVis (go! "dflt") (go! "entry")).map (whereAsked (hdDb [(n, hdUnit s)]))).Nodup := by
        intro s v n hreq hs hvar
        rw [hreq]
        refine ⟨?_, by simp⟩
        intro x hx
        simp only [List.mem_singleton] at hx
        subst hx
        refine ⟨by simp [whereAsked, hdDb, hdUnit, hdItem, placeOf], ?_⟩
        intro u' hu'
        have : hdUnit s = u' := by simpa [hdDb] using hu'
        subst this
        have hc : contents (hdDb [(n, hdUnit s)]) (go! "Subprogram") s = some [hdItem v] := by
          rw [contents_eq]
          have : scopeMap (hdDb [(n, hdUnit s)]) (go! "Subprogram") = some (hdDb []).subprograms := rfl
          rw [this]
          simp only [Option.bind_some, hs]
          rfl
        refine ⟨.inr (by simp only [hdVar]; rw [hc]; rfl), ?_⟩
        have hb : beside (hdDb [(n, hdUnit s)]) (hdVar s) = [hdItem v] := by
          unfold beside
          rw [if_neg (by simp [hdVar])]
          show (contents _ (go! "Subprogram") s).getD [] = _
          rw [hc]; rfl
        rw [hb]
        intro o ho
        simp only [List.mem_singleton] at ho
        subst ho
        exact ⟨fun _ => ⟨hvar, by simp [hdUnit, hdItem, placeOf]⟩, fun h => absurd h (by simp [hdItem])⟩
      rcases hu with rfl | rfl
      · exact one _ (go! "v1") _ (by decide +kernel) rfl rfl
      · exact one _ (go! "v2") _ (by decide +kernel) rfl rfl
    obtain ⟨o, ho⟩ := (C69_generated_iff (hdRegular hus hnd) h (hdVisits hus) hm (by decide) hx.1).mpr hx.2
    exact ⟨ms, res, o, h, hm, ho⟩

/-! ### C70: global symbols -/

theorem flat_of {db : Db} {o : Item} (h : o.kind ≠ go! "Namespace") : Flat db o := fun e => absurd e h

/-- C70.  In a program whose namespaces (if it has any) hold no functions, types or further scopes,
the definitions written for the requests of global
symbols are, for each request of each module, one for each object the request should get.
Missing: programs with other namespaces (C70_namespace_false); and the definitions are those of all
modules, whichever the file is compiled for (C70_modules_false). -/
theorem C70_definitions_partial {db : Db} (hu : (db.units.map (·.1)).Nodup) (hns : ∀ u ∈ db.units, ∀ o ∈ u.2.hier, Flat db o) {ms : List Str} {res : Res}
    (h : buildRequests db = Go.ret (ms, res)) {vis : Str × CUnit → List Item} (hv : Visits db vis) (h0 : [] ∉ ms) :
    globResponses db res = Go.ret (ms.flatMap fun m => (requests db vis m (go! "gsym")).flatMap fun x =>
      (((db.units.lookup x.1).map fun u => answer db u x.2.2.2).getD []).map fun i => (x.2.2.2, i)) :=
  globResponses_eq hu hns h hv h0

theorem flatMap_only {α β : Type} {f : α → List β} {a : α} : ∀ {l : List α}, l.Nodup → a ∈ l → (∀ x ∈ l, x ≠ a → f x = []) → l.flatMap f = f a
  | x :: l, hn, hm, ho => by
    simp only [List.nodup_cons] at hn
    rw [List.flatMap_cons]
    rcases List.mem_cons.mp hm with rfl | hm
    · have : l.flatMap f = [] := by
        rw [List.flatMap_eq_nil_iff]
        intro y hy
        exact ho y (.tail _ hy) (fun e => hn.1 (e ▸ hy))
      rw [this, List.append_nil]
    · rw [ho x (.head _) (fun e => hn.1 (e ▸ hm)), List.nil_append, flatMap_only hn.2 hm fun y hy => ho y (.tail _ hy)]

theorem nodup_inj {α β : Type} {k : α → β} : ∀ {l : List α}, (l.map k).Nodup → ∀ {x y : α}, x ∈ l → y ∈ l → k x = k y → x = y
  | a :: l, hn, x, y, hx, hy, e => by
    simp only [List.map_cons, List.nodup_cons] at hn
    rcases List.mem_cons.mp hx with rfl | hx'
    · rcases List.mem_cons.mp hy with rfl | hy'
      · rfl
      · exact absurd (e ▸ List.mem_map_of_mem hy') hn.1
    · rcases List.mem_cons.mp hy with rfl | hy'
      · exact absurd (e ▸ List.mem_map_of_mem hx') hn.1
      · exact nodup_inj hn.2 hx' hy' e

/-- C70.  If only one module requests global symbols, each of them once, then in the file compiled
for this module each requested symbol is defined exactly once if exactly one object should be found,
and the definition is that object: what `METAC_GSYM_LINK_ENTRY` gives. -/
theorem C70_linked_partial {db : Db} (hu : (db.units.map (·.1)).Nodup) (hns : ∀ u ∈ db.units, ∀ o ∈ u.2.hier, Flat db o) {ms : List Str} {res : Res}
    (h : buildRequests db = Go.ret (ms, res)) {vis : Str × CUnit → List Item} (hv : Visits db vis) (h0 : [] ∉ ms) {m : Str} (hm : m ∈ ms)
    (only : ∀ m' ∈ ms, m' ≠ m → requests db vis m' (go! "gsym") = []) (once : ((requests db vis m (go! "gsym")).map (·.2.2.2)).Nodup)
    {x : Str × Item × Var × Str} (hx : x ∈ requests db vis m (go! "gsym")) {u : CUnit} (hxu : db.units.lookup x.1 = some u) {i : Str} (ha : answer db u x.2.2.2 = [i]) :
    ∃ defs, globResponses db res = Go.ret defs ∧
      (defs.map fun d => (gsymName m d.1, d.2)).filter (·.1 = gsymName m x.2.2.2) = [(gsymName m x.2.2.2, i)] := by
  refine ⟨_, globResponses_eq hu hns h hv h0, ?_⟩
  rw [flatMap_only (build_sound h).2.1 hm (by intro y hy hne; rw [only y hy hne]; rfl)]
  rw [List.map_flatMap, List.filter_flatMap]
  have key : ∀ y ∈ requests db vis m (go! "gsym"), y ≠ x →
      (((((db.units.lookup y.1).map fun u => answer db u y.2.2.2).getD []).map fun i => (y.2.2.2, i)).map fun d => (gsymName m d.1, d.2)).filter (·.1 = gsymName m x.2.2.2) = [] := by
    intro y hy hne
    rw [List.filter_eq_nil_iff]
    intro d hd
    simp only [List.map_map, List.mem_map, Function.comp] at hd
    obtain ⟨j, _, rfl⟩ := hd
    simp only [decide_eq_true_eq, gsymName, List.append_cancel_left_eq]
    exact fun e => hne (nodup_inj (k := fun z : Str × Item × Var × Str => z.2.2.2) once hy hx e)
  rw [flatMap_only (nodup_of_map once) hx key]
  rw [hxu, Option.map_some, Option.getD_some, ha]
  simp

theorem two {l : List Str} {a b : Str} (hn : l.Nodup) (hab : a ≠ b) (h : ∀ x, x ∈ l ↔ x = a ∨ x = b) : l.Perm [a, b] := by
  rw [List.perm_ext_iff_of_nodup hn (by simp [hab])]
  intro x; rw [h]; simp

/-- The hypotheses of C70 are met: the definition of the symbol `f` of the module `m`. -/
example : ∃ ms res defs, buildRequests exDb = Go.ret (ms, res) ∧ globResponses exDb res = Go.ret defs ∧
    (defs.map fun d => (gsymName (go! "m") d.1, d.2)).filter (·.1 = go! "metac_m_gsym_f") = [(go! "metac_m_gsym_f", go! "s1")] := by
  obtain ⟨ms, res, h, _, hm, h0, _, hreq⟩ := exBuild
  obtain ⟨vis, hv, hnd, hmod, _⟩ := C68_requests h
  have hother : ∀ m' ∈ ms, m' ≠ go! "m" → requests exDb exVis m' (go! "gsym") = [] := by
    intro m' hm' hne
    have : m' = go! "dflt" := by
      rcases (hmod m').mp hm' with e | ⟨u, hu, x, hx, v, ⟨_, hv'⟩, hn⟩
      · exact e
      · rw [Visits.unique hv exVisits hu] at hx
        exfalso
        have : ∀ x ∈ exVis u, go! "metac__module_" <+: ((exDb.variables.lookup x.id).bind Var.name).getD [] →
            ((exDb.variables.lookup x.id).bind Var.name) = some (go! "metac__module_m") := by
          simp only [exVis]; decide +kernel
        have := this x hx (by rw [hv']; simp only [Option.bind_some, hn, Option.getD_some]; exact List.prefix_append _ _)
        rw [hv'] at this
        simp only [Option.bind_some, hn, Option.some.injEq] at this
        exact hne (List.append_cancel_left (as := go! "metac__module_") this)
    subst this
    decide +kernel
  have hx : (go! "u1", ({ kind := go! "Variable", id := go! "v5", declFile := some 0, declLine := some 9 } : Item),
      ({ name := some (go! "metac__m_gsym_f"), parentKind := go! "CompileUnit", parentId := go! "u1" } : Var), go! "f") ∈ requests exDb exVis (go! "m") (go! "gsym") := by
    decide +kernel
  obtain ⟨defs, h1, h2⟩ := C70_linked_partial exRegular.units (fun u hu o ho => flat_of ((by decide : ∀ u ∈ exDb.units, ∀ o ∈ u.2.hier, o.kind ≠ go! "Namespace") u hu o ho)) h exVisits h0 hm hother (by rw [hreq]; simp) hx (u := exUnit) rfl (i := go! "s1") (by decide +kernel)
  exact ⟨ms, res, defs, h, h1, h2⟩

/-- A program with two modules, `a` and `b`, that both request the symbol `f`. -/
def twoVars : List (Str × Var) :=
  [(go! "v1", { name := some (go! "metac__module_a"), parentKind := go! "CompileUnit", parentId := go! "u1" }),
   (go! "v2", { name := some (go! "metac__module_b"), parentKind := go! "CompileUnit", parentId := go! "u1" }),
   (go! "v3", { name := some (go! "metac__a_gsym_f"), parentKind := go! "CompileUnit", parentId := go! "u1" }),
   (go! "v4", { name := some (go! "metac__b_gsym_f"), parentKind := go! "CompileUnit", parentId := go! "u1" })]

def twoItems : List Item :=
  [{ kind := go! "Variable", id := go! "v1", declFile := none, declLine := none },
   { kind := go! "Variable", id := go! "v2", declFile := none, declLine := none },
   { kind := go! "Variable", id := go! "v3", declFile := none, declLine := none },
   { kind := go! "Variable", id := go! "v4", declFile := none, declLine := none }]

def twoDb (extra : List Item) (ns : List (Str × Scope)) : Db :=
  { variables := twoVars, subprograms := [(go! "s1", { name := some (go! "f"), hier := [] })],
    namespaces := ns, lexBlocks := [], structTypes := [], classTypes := [], unionTypes := [],
    units := [(go! "u1", { declFiles := [], hier := { kind := go! "Subprogram", id := go! "s1", declFile := none, declLine := none } :: (twoItems ++ extra) })] }

theorem twoVisits : Visits (twoDb [] []) (fun u => u.2.hier) := by
  constructor
  · intro u hu
    simp only [twoDb, List.mem_singleton] at hu
    subst hu
    exact .scope (inner := []) (k := []) (l := twoItems ++ []) (by decide) rfl .nil (all_leaves (by decide))
  · intro u hu h hh hk
    simp only [twoDb, List.mem_singleton] at hu
    subst hu
    have : ∀ h ∈ ({ kind := go! "Subprogram", id := go! "s1", declFile := none, declLine := none } : Item) :: (twoItems ++ []), h.kind = go! "Variable" → (twoVars.lookup h.id).isSome := by
      decide
    obtain ⟨v, hv⟩ := Option.isSome_iff_exists.mp (this h hh hk)
    exact ⟨v, hk, hv⟩

/-- A namespace that holds a variable does not disturb. -/
example : Flat (twoDb [] [(go! "n1", { name := some (go! "n"), hier := twoItems })]) { kind := go! "Namespace", id := go! "n1", declFile := none, declLine := none } := by
  intro _
  refine ⟨twoItems, rfl, ?_⟩
  have : ∀ x ∈ twoItems, ¬ IsScope x ∧ (twoVars.lookup x.id).isSome := by decide
  intro x hx
  obtain ⟨v, hv⟩ := Option.isSome_iff_exists.mp (this x hx).2
  exact ⟨(this x hx).1, fun hk => ⟨v, hk, hv⟩⟩

/-- C70 is false of the code in full: if two modules request the same symbol, then for whichever
module the generated file is compiled, the symbol of neither is defined exactly once: that of the
module compiled for is defined twice, the other not at all. -/
theorem C70_modules_false : ∃ (db : Db) (vis : Str × CUnit → List Item) (ms : List Str) (res : Res) (defs : List (Str × Str)),
    Visits db vis ∧ buildRequests db = Go.ret (ms, res) ∧ globResponses db res = Go.ret defs ∧
    ∀ m ∈ [go! "a", go! "b"], m ∈ ms ∧ (∃ x ∈ requests db vis m (go! "gsym"), x.2.2.2 = go! "f") ∧
      ∀ c, (defs.map fun d => gsymName c d.1).count (gsymName m (go! "f")) ≠ 1 := by
  obtain ⟨⟨ms, res⟩, h⟩ := C68_succeeds.mpr ⟨_, twoVisits⟩
  obtain ⟨vis, hv, hnd, hmod, _⟩ := C68_requests h
  have hvis : ∀ u ∈ (twoDb [] []).units, vis u = u.2.hier := fun u hu => Visits.unique hv twoVisits hu
  have hms : ∀ m, m ∈ ms ↔ m = go! "dflt" ∨ m = go! "a" ∨ m = go! "b" := by
    intro m
    rw [hmod]
    refine or_congr_right ?_
    constructor
    · rintro ⟨u, hu, x, hx, v, ⟨_, hv'⟩, hn⟩
      rw [hvis u hu] at hx
      simp only [twoDb, List.mem_singleton] at hu
      subst hu
      have : ∀ x ∈ ({ kind := go! "Subprogram", id := go! "s1", declFile := none, declLine := none } : Item) :: (twoItems ++ []),
          go! "metac__module_" <+: ((twoVars.lookup x.id).bind Var.name).getD [] →
          (twoVars.lookup x.id).bind Var.name = some (go! "metac__module_" ++ go! "a") ∨ (twoVars.lookup x.id).bind Var.name = some (go! "metac__module_" ++ go! "b") := by
        decide +kernel
      have hv'' : twoVars.lookup x.id = some v := hv'
      have := this x hx (by rw [hv'']; simp only [Option.bind_some, hn, Option.getD_some]; exact List.prefix_append _ _)
      rw [hv''] at this
      simp only [Option.bind_some, hn, Option.some.injEq] at this
      exact this.imp (fun e => List.append_cancel_left (as := go! "metac__module_") e) (fun e => List.append_cancel_left (as := go! "metac__module_") e)
    · rintro (rfl | rfl)
      · refine ⟨_, .head _, { kind := go! "Variable", id := go! "v1", declFile := none, declLine := none }, ?_, _, ⟨rfl, rfl⟩, rfl⟩
        rw [hvis _ (.head _)]; decide
      · refine ⟨_, .head _, { kind := go! "Variable", id := go! "v2", declFile := none, declLine := none }, ?_, _, ⟨rfl, rfl⟩, rfl⟩
        rw [hvis _ (.head _)]; decide
  have hperm : ms.Perm [go! "dflt", go! "a", go! "b"] := by
    rw [List.perm_ext_iff_of_nodup hnd (by decide)]
    intro x; rw [hms]; simp
  have hg := C70_definitions_partial (db := twoDb [] []) (by simp [twoDb]) (fun u hu o ho => flat_of ((by decide : ∀ u ∈ (twoDb [] []).units, ∀ o ∈ u.2.hier, o.kind ≠ go! "Namespace") u hu o ho)) h twoVisits (by rw [hms]; decide)
  refine ⟨twoDb [] [], _, ms, res, _, twoVisits, h, hg, ?_⟩
  have hdefs := hperm.flatMap_right (fun m => (requests (twoDb [] []) (fun u => u.2.hier) m (go! "gsym")).flatMap fun x =>
      ((((twoDb [] []).units.lookup x.1).map fun u => answer (twoDb [] []) u x.2.2.2).getD []).map fun i => (x.2.2.2, i))
  have hval : ([go! "dflt", go! "a", go! "b"].flatMap (fun m => (requests (twoDb [] []) (fun u => u.2.hier) m (go! "gsym")).flatMap fun x =>
      ((((twoDb [] []).units.lookup x.1).map fun u => answer (twoDb [] []) u x.2.2.2).getD []).map fun i => (x.2.2.2, i))) = [(go! "f", go! "s1"), (go! "f", go! "s1")] := by
    decide +kernel
  rw [hval] at hdefs
  intro m hm
  refine ⟨(hms m).mpr (.inr (by simpa using hm)), ?_, ?_⟩
  · revert m; decide +kernel
  · intro c
    rw [(hdefs.map _).count_eq]
    simp only [List.map_cons, List.map_nil, List.count_cons, List.count_nil]
    split <;> decide

/-- C70 is false of programs with namespaces: if a namespace at the top of the unit has a function
in it, no response is generated, although the symbol requested is there. -/
theorem C70_namespace_false : ∃ (db : Db) (ms : List Str) (res : Res) (vis : Str × CUnit → List Item), (db.units.map (·.1)).Nodup ∧ Visits db vis ∧
    buildRequests db = Go.ret (ms, res) ∧ (∃ m ∈ ms, ∃ x ∈ requests db vis m (go! "gsym"), ∃ u, db.units.lookup x.1 = some u ∧ answer db u x.2.2.2 = [go! "s1"]) ∧
    globResponses db res = Go.fail := by
  let extra : List Item := [{ kind := go! "Namespace", id := go! "n1", declFile := none, declLine := none }]
  let ns : List (Str × Scope) := [(go! "n1", { name := some (go! "n"), hier := [{ kind := go! "Subprogram", id := go! "s1", declFile := none, declLine := none }] })]
  let inner : List Item := [{ kind := go! "Subprogram", id := go! "s1", declFile := none, declLine := none }]
  let vis : Str × CUnit → List Item := fun u => u.2.hier ++ inner
  have hv : Visits (twoDb extra ns) vis := by
    constructor
    · intro u hu
      simp only [twoDb, List.mem_singleton] at hu
      subst hu
      refine .scope (inner := []) (k := []) (l := twoItems ++ (extra ++ inner)) (by decide) rfl .nil ?_
      refine .leaf (by decide) (.leaf (by decide) (.leaf (by decide) (.leaf (by decide) ?_)))
      exact .scope (inner := inner) (k := inner) (l := []) (by decide) rfl (.scope (inner := []) (k := []) (l := []) (by decide) rfl .nil .nil) .nil
    · intro u hu h hh hk
      simp only [twoDb, List.mem_singleton] at hu
      subst hu
      have : ∀ h ∈ (({ kind := go! "Subprogram", id := go! "s1", declFile := none, declLine := none } : Item) :: (twoItems ++ extra)) ++ inner, h.kind = go! "Variable" → (twoVars.lookup h.id).isSome := by
        decide
      obtain ⟨v, hv⟩ := Option.isSome_iff_exists.mp (this h hh hk)
      exact ⟨v, hk, hv⟩
  obtain ⟨⟨ms, res⟩, h⟩ := C68_succeeds.mpr ⟨_, hv⟩
  obtain ⟨vis', hv', hnd, hmod, hreq⟩ := C68_requests h
  have ha : go! "a" ∈ ms := by
    refine (hmod _).mpr (.inr ⟨_, .head _, { kind := go! "Variable", id := go! "v1", declFile := none, declLine := none }, ?_, _, ⟨rfl, rfl⟩, rfl⟩)
    rw [Visits.unique hv' hv (.head _)]; decide
  have hx : (go! "u1", ({ kind := go! "Variable", id := go! "v3", declFile := none, declLine := none } : Item),
      ({ name := some (go! "metac__a_gsym_f"), parentKind := go! "CompileUnit", parentId := go! "u1" } : Var), go! "f") ∈ requests (twoDb extra ns) vis (go! "a") (go! "gsym") := by
    decide +kernel
  refine ⟨twoDb extra ns, ms, res, vis, by simp [twoDb], hv, h, ⟨go! "a", ha, _, hx, _, rfl, by decide +kernel⟩, ?_⟩
  have hr := refs_requests h hv ha (by decide) (t := go! "gsym") (by decide)
  have hne : get res (go! "gsym") ≠ [] := by
    intro e
    rw [e] at hr
    rw [← hr] at hx
    simp at hx
  have hcu : ∀ r ∈ get res (go! "gsym"), r.cu = go! "u1" := by
    intro r hr
    have : proj r ∈ (get res (go! "gsym")).map proj := List.mem_map_of_mem hr
    rw [build_all h] at this
    obtain ⟨m, _, hy⟩ := List.mem_flatMap.mp this
    unfold foundAll at hy
    obtain ⟨u, hu, hy⟩ := List.mem_flatMap.mp hy
    simp only [twoDb, List.mem_singleton] at hu
    subst hu
    unfold found at hy
    obtain ⟨h', _, hy⟩ := List.mem_filterMap.mp hy
    obtain ⟨z, _, hy⟩ := Option.bind_eq_some_iff.mp hy
    split at hy
    · simp only [Option.some.injEq, proj, Prod.mk.injEq] at hy
      exact hy.1.symm
    · cases hy
  unfold globResponses
  have hg : (List.lookup (go! "gsym") res).getD [] = get res (go! "gsym") := rfl
  rw [hg]
  generalize get res (go! "gsym") = l at hne hcu
  match l, hne with
  | r :: l, _ =>
    have : globRequest (twoDb extra ns) r = Go.fail := by
      unfold globRequest
      rw [hcu r (.head _)]
      rfl
    rw [List.mapM_cons, this]
    rfl

/-! ### C71: tables of names -/

/-- C71.  The tables of the database.  In the table of each kind, each name is once, and it is there
exactly if an object has it; with it are exactly the objects that have it, in their order.  (Objects
without a name are with "".)
Missing: a program cannot read them, see C71_link_false. -/
theorem C71_tables_partial {maps : List (List (Str × Option Str))} {res : Res} {s : Symbol (List (List (Str × List Str)))} (h : dbV0 maps res = Go.ret (some s)) :
    ∃ tables, s = .object tables ∧ Each (fun m t => (t.map (·.1)).Nodup ∧ ∀ name ids, (name, ids) ∈ t ↔ ids = idsOf m name ∧ ids ≠ []) maps tables := by
  unfold dbV0 at h
  split at h
  · exact absurd (Go.ret_inj.mp h) (by simp)
  · split at h
    · have := Go.ret_inj.mp h
      simp only [Option.some.injEq] at this
      subst this
      refine ⟨_, rfl, ?_⟩
      clear h
      induction maps with
      | nil => exact .nil
      | cons m maps ih =>
        refine .cons ?_ ih
        obtain ⟨h1, h2, h3⟩ := byName_spec m
        have hmem : ∀ name ids, (name, ids) ∈ (byName m).map (fun x => (unquote x.1, x.2)) ↔ (quote name, ids) ∈ byName m := by
          intro name ids
          simp only [List.mem_map, Prod.mk.injEq]
          constructor
          · rintro ⟨x, hx, rfl, rfl⟩
            obtain ⟨s, hs⟩ := h2 x hx
            rw [hs, EntryDb.unquote_quote, ← hs]; exact hx
          · intro hx
            exact ⟨_, hx, EntryDb.unquote_quote _, rfl⟩
        constructor
        · simp only [List.map_map]
          have := nodup_of_sorted h1
          clear hmem h3 h1 ih
          generalize byName m = l at this h2
          induction l with
          | nil => exact .nil
          | cons x l ih =>
            simp only [List.map_cons, List.nodup_cons, Function.comp] at this ⊢
            refine ⟨fun hm => this.1 ?_, ih this.2 (fun y hy => h2 y (.tail _ hy))⟩
            obtain ⟨y, hy, e⟩ := List.mem_map.mp hm
            obtain ⟨s, hs⟩ := h2 x (.head _)
            obtain ⟨s', hs'⟩ := h2 y (.tail _ hy)
            simp only [Function.comp, hs, hs', EntryDb.unquote_quote] at e
            refine List.mem_map.mpr ⟨y, hy, ?_⟩
            rw [hs', hs, e]
        · intro name ids
          show (name, ids) ∈ (byName m).map (fun x => (unquote x.1, x.2)) ↔ _
          rw [hmem, ← dget_iff_mem h1, h3]
          constructor
          · intro e
            split at e
            · cases e
            · rename_i hne
              cases e; exact ⟨rfl, hne⟩
          · rintro ⟨rfl, hne⟩
            rw [if_neg hne]
    · exact absurd h Go.fail_ne

/-- C71.  The database is generated if it is requested, and all requests have the same name;
otherwise the generation fails. -/
theorem C71_generated (maps : List (List (Str × Option Str))) (res : Res) :
    (dbV0 maps res = Go.ret none ↔ res.lookup (go! "db") = none) ∧
    ∀ rs, res.lookup (go! "db") = some rs → ((∃ s, dbV0 maps res = Go.ret (some s)) ↔ ∀ r ∈ rs, ∀ r' ∈ rs, r.reqName = r'.reqName) := by
  unfold dbV0
  constructor
  · cases res.lookup (go! "db") with
    | none => simp
    | some rs =>
      simp only [reduceCtorEq, iff_false]
      split
      · intro h; exact absurd (Go.ret_inj.mp h) (by simp)
      · exact Go.fail_ne
  · intro rs hrs
    rw [hrs]
    simp only
    split
    · rename_i hall
      simp only [List.all_eq_true, decide_eq_true_eq] at hall
      refine ⟨fun _ r hr r' hr' => ?_, fun _ => ⟨_, rfl⟩⟩
      exact Option.some.inj ((hall r hr).trans (hall r' hr').symm)
    · rename_i hall
      constructor
      · rintro ⟨s, hs⟩; exact absurd hs Go.fail_ne
      · intro hsame
        refine absurd ?_ hall
        simp only [List.all_eq_true, decide_eq_true_eq]
        intro r hr
        match rs, hr with
        | r0 :: rs, hr => simp only [List.head?_cons, Option.map_some]; rw [hsame r hr r0 (.head _)]

/-- The hypotheses of C71 are met: two kinds, names that repeat, an object without a name. -/
example : dbV0 [[(go! "t1", some (go! "int")), (go! "t2", none), (go! "t3", some (go! "int"))], []]
    [(go! "db", [{ reqName := go! "dflt", «module» := go! "dflt", cu := go! "u1", path := [0], isLocal := false, h := { kind := go! "Variable", id := go! "v1", declFile := none, declLine := none }, var := { name := some (go! "metac__dflt_db_dflt"), parentKind := go! "CompileUnit", parentId := go! "u1" } }])] =
    Go.ret (some (.object [[([], [go! "t2"]), (go! "int", [go! "t1", go! "t3"])], []])) := by
  rfl

/-- C71 is false of the code in full, for every program: the symbol that is generated is the object,
but `METAC_DB_LINK_PTR` reads it as a pointer. -/
theorem C71_link_false (maps : List (List (Str × Option Str))) (res : Res) (s : Symbol (List (List (Str × List Str)))) (h : dbV0 maps res = Go.ret (some s)) :
    dbLinkPtr s = .ub := by
  obtain ⟨t, rfl, _⟩ := C71_tables_partial h
  rfl

end Verif.Generate
