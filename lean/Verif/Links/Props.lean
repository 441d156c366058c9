import Verif.Chain.Props
import Verif.Generate.Props
import Verif.Links.Tests
import Verif.Links.Places
import Verif.Links.Case
/-
C97-C100: requests, global symbols, places of declaration and tests, from the debug information to the program.
-/
namespace Verif.Links
open Verif.GoMeta (Str)
open GoDwarf.Spec (Die)
open GoBuild.Spec (Tree Placed text num isTag parts)
open GoDedup (Off World St Go)
open Chain (Extra link Core)
open Chain.Spec (Input Read Program Told)
open Spec

variable {units : List (Nat × Tree)} {w : World} {st st0 : St} {order : List Off} {snake : Str → Str} {x : Extra} {db : Generate.Db}

/-! ### C97 -/

/-- C97: whatever the debug information, the requests are read, and are exactly those made by its
variables: in whatever unit and at whatever depth, and each as often as it is made; so are the
modules. -/
theorem C97_requests (hi : Input units) (hm : Members units) (hr : Read units w st) (hT : Tables snake w st x db) :
    ∃ ms res, Generate.buildRequests db = Go.ret (ms, res) ∧ ms.Nodup ∧ (∀ m, m ∈ ms ↔ Module units m) ∧
      ∀ m t, m ∈ ms → m ≠ [] → (95 : UInt8) ∉ t →
        ((((res.lookup t).getD []).filter (·.module = m)).map fun r => (r.cu, r.h.id, r.reqName)).Perm
          ((asks units m t).map fun a => (link snake w st a.1.off, link snake w st a.2.1.off, a.2.2)) := by
  obtain ⟨st0, order, hc⟩ := Chain.core hi hr
  have hv := db_visits hi hm hc hT
  obtain ⟨⟨ms, res⟩, h⟩ := Generate.C68_succeeds.mpr ⟨_, hv⟩
  obtain ⟨_, h2, h3, -⟩ := Generate.build_sound h
  refine ⟨ms, res, h, h2, fun m => ?_, fun m t hmm h0 ht => ?_⟩
  · rw [h3 m, Generate.isModule_iff hv, module_iff hi hc hT]
  · have := Generate.refs_requests h hv hmm h0 ht
    have e : (((res.lookup t).getD []).filter (·.module = m)).map (fun r => (r.cu, r.h.id, r.reqName)) =
        (Generate.Spec.requests db (visits snake w st x units) m t).map known := by
      rw [← this, List.map_map]
      rfl
    rw [e]
    exact requests_perm hi hc hT m t

theorem case97_asks : asks case97 (go! "dflt") (go! "gsym") = [(kUnitA, kAskY, go! "y")] ∧ asks case97 (go! "dflt") (go! "entry") = [(kUnitA, kAskI, go! "i1")] ∧
    tests case97 = [go! "one", go! "two"] := ⟨rfl, rfl, rfl⟩

/-- C97 for the case: a request outside of functions and one in a block. -/
example : ∃ w st db, Input case97 ∧ Members case97 ∧ Read case97 w st ∧ Tables Chain.exSnake w st extra97 db ∧
    ∃ ms res, Generate.buildRequests db = Go.ret (ms, res) ∧
      (((res.lookup (go! "entry")).getD []).filter (·.module = go! "dflt")).map (fun r => (r.cu, r.h.id, r.reqName)) =
        [(link Chain.exSnake w st 11, link Chain.exSnake w st 56, go! "i1")] := by
  obtain ⟨w, st, edb, defs, addr, rt, h⟩ := case97_program
  have hT := tablesOf_tables Chain.exSnake w st extra97
  obtain ⟨ms, res, h1, -, h3, h4⟩ := C97_requests case97_input case97_members h.read hT
  refine ⟨w, st, _, case97_input, case97_members, h.read, hT, ms, res, h1, ?_⟩
  have := h4 (go! "dflt") (go! "entry") ((h3 _).mpr (.inl rfl)) (by decide) (by decide)
  rw [case97_asks.2.1] at this
  exact List.perm_singleton.mp this

/-! ### C98 -/

/-- C98: in a program of one module that requests the symbol `name` once, from the unit `u`, and in
which no unit has two variables or functions of that name at its top: the symbol that
`METAC_GSYM_LINK(name)` links with is defined once, as the entry `e` of this name of the unit
`u`, or of another unit if there is none in `u`; and at run time that is the kind and the name of `e`.
Missing: several modules and namespaces (C70_modules_false, C70_namespace_false). -/
theorem C98_symbols_partial {edb : List Emit.Obj} {defs : List (Str × Emit.CEntry)} {addr : Str → Entry.Ref} {rt : Entry.Db}
    (h : Program units snake w st x edb defs addr rt) (hm : Members units) (hns : ∀ u ∈ units, ∀ d ∈ parts u.2, d.tag ≠ go! "Namespace")
    (hT : Tables snake w st x db) {m : Str} (hmod : Module units m) (h0 : ¬ Module units [])
    (only : ∀ m', Module units m' → m' ≠ m → asks units m' (go! "gsym") = []) (once : ((asks units m (go! "gsym")).map (·.2.2)).Nodup)
    {u : Nat × Tree} (hu : u ∈ units) {d : Tree} {name : Str} (hd : (d, name) ∈ asksIn m (go! "gsym") u.2)
    (one : ∀ v ∈ units, (top name v.2).length ≤ 1) (there : ∃ v ∈ units, top name v.2 ≠ []) :
    ∃ ms res gs, Generate.buildRequests db = Go.ret (ms, res) ∧ Generate.globResponses db res = Go.ret gs ∧
      ∃ v ∈ units, ∃ e, top name v.2 = [e] ∧ (top name u.2 ≠ [] → v = u) ∧
        (gs.map fun g => (Generate.gsymName m g.1, g.2)).filter (·.1 = Generate.gsymName m name) = [(Generate.gsymName m name, link snake w st e.off)] ∧
        Told rt (addr (link snake w st e.off)) e := by
  have hi := h.input
  obtain ⟨st0, order, hc⟩ := Chain.core hi h.read
  have hv := db_visits hi hm hc hT
  obtain ⟨⟨ms, res⟩, hb⟩ := Generate.C68_succeeds.mpr ⟨_, hv⟩
  have hms : ∀ m, m ∈ ms ↔ Module units m := fun m => by rw [(Generate.build_sound hb).2.2.1 m, Generate.isModule_iff hv, module_iff hi hc hT]
  have hnames : (Generate.Spec.requests db (visits snake w st x units) m (go! "gsym")).map (·.2.2.2) |>.Nodup := by
    have := (requests_perm hi hc hT m (go! "gsym")).map (·.2.2)
    rw [List.map_map, List.map_map] at this
    exact this.nodup_iff.mpr once
  have hnone : ∀ m' ∈ ms, m' ≠ m → Generate.Spec.requests db (visits snake w st x units) m' (go! "gsym") = [] := by
    intro m' h1 h2
    have := requests_perm hi hc hT m' (go! "gsym")
    rw [only m' ((hms m').mp h1) h2] at this
    exact List.map_eq_nil_iff.mp (List.perm_nil.mp this)
  obtain ⟨y, hy, hk⟩ : ∃ y ∈ Generate.Spec.requests db (visits snake w st x units) m (go! "gsym"), known y = (link snake w st u.2.off, link snake w st d.off, name) := by
    have : (u.2, d, name) ∈ asks units m (go! "gsym") := List.mem_flatMap.mpr ⟨u, hu, List.mem_map.mpr ⟨_, hd, rfl⟩⟩
    have := (requests_perm hi hc hT m (go! "gsym")).mem_iff.mpr (List.mem_map.mpr ⟨_, this, rfl⟩)
    exact List.mem_map.mp this
  obtain ⟨k1, k2⟩ := Prod.mk.inj hk
  obtain ⟨-, k3⟩ := Prod.mk.inj k2
  have hlook : db.units.lookup y.1 = some (unitOf snake w st x u.2).2 := by
    rw [k1]
    exact Generate.lookup_of_mem (units_nodup hc hT) ((unit_mem hi hc hT).mpr ⟨u, hu, rfl⟩)
  obtain ⟨v, hv', e, e1, e2, e3⟩ := answer_eq hi hc hT hu one there
  rw [← k3] at e3
  have hns' : ∀ r ∈ db.units, ∀ o ∈ r.2.hier, o.kind ≠ go! "Namespace" := by
    intro r hr o ho
    obtain ⟨v, hv, rfl⟩ := (unit_mem hi hc hT).mp hr
    obtain ⟨k, hk, rfl⟩ := List.mem_map.mp ho
    obtain ⟨c, c1, c2⟩ := kind_tag snake x hi hc (part_placed hv hk)
    rw [c2, ne_eq, cat_namespace, ← c1]
    exact hns v hv k hk
  obtain ⟨gs, g1, g2⟩ := Generate.C70_linked_partial (units_nodup hc hT) (fun u hu o ho => Generate.flat_of (hns' u hu o ho)) hb hv (fun hh => h0 ((hms _).mp hh)) ((hms m).mpr hmod) hnone hnames hy hlook e3
  have he : e ∈ parts v.2 := by
    have : e ∈ top name v.2 := by rw [e1]; exact List.mem_cons_self ..
    exact (List.mem_filter.mp this).1
  refine ⟨ms, res, gs, hb, g1, v, hv', e, e1, e2, ?_, Chain.C79_entries_partial h _ e (part_placed hv' he)⟩
  have hn : y.2.2.2 = name := k3
  rw [hn] at g2
  exact g2

theorem case97_module {m : Str} : Module case97 m ↔ m = go! "dflt" := by
  refine ⟨?_, .inl⟩
  rintro (h | ⟨u, hu, d, hd, -, hn⟩)
  · exact h
  · exfalso
    have : ∀ u ∈ case97, ∀ d ∈ inside u.2, (text d (go! "Name")).map (List.isPrefixOf (go! "metac__module_")) ≠ some true := by decide +kernel
    refine this u hu d hd ?_
    rw [hn, Option.map_some]
    exact congrArg some (List.isPrefixOf_iff_prefix.mpr ⟨m, rfl⟩)

/-- C98 for the case: the request for `y` gets the variable of the other unit. -/
example : ∃ w st db defs addr rt tdb, Program case97 Chain.exSnake w st extra97 db defs addr rt ∧ Tables Chain.exSnake w st extra97 tdb ∧
    ∃ ms res gs, Generate.buildRequests tdb = Go.ret (ms, res) ∧ Generate.globResponses tdb res = Go.ret gs ∧
      (gs.map fun g => (Generate.gsymName (go! "dflt") g.1, g.2)).filter (·.1 = Generate.gsymName (go! "dflt") (go! "y")) =
        [(Generate.gsymName (go! "dflt") (go! "y"), link Chain.exSnake w st kY.off)] ∧
      Told rt (addr (link Chain.exSnake w st kY.off)) kY := by
  obtain ⟨w, st, edb, defs, addr, rt, h⟩ := case97_program
  have hT := tablesOf_tables Chain.exSnake w st extra97
  refine ⟨w, st, edb, defs, addr, rt, _, h, hT, ?_⟩
  obtain ⟨ms, res, gs, h1, h2, v, hv, e, he, -, h3, h4⟩ := C98_symbols_partial h case97_members (by decide +kernel) hT (m := go! "dflt") (.inl rfl)
    (fun h => absurd (case97_module.mp h) (by decide)) (fun m' hm hne => absurd (case97_module.mp hm) hne) (by rw [case97_asks.1]; simp)
    (u := (1, kUnitA)) (by simp [case97]) (d := kAskY) (name := go! "y") (by rw [show asksIn (go! "dflt") (go! "gsym") kUnitA = [(kAskY, go! "y")] from rfl]; simp)
    (by decide +kernel) ⟨(0, kUnitB), by simp [case97], by rw [show top (go! "y") kUnitB = [kY] from rfl]; simp⟩
  have hv' : v = (1, kUnitA) ∨ v = (0, kUnitB) := by simpa [case97] using hv
  rcases hv' with rfl | rfl
  · rw [show top (go! "y") (1, kUnitA).2 = [] from rfl] at he
    cases he
  · rw [show top (go! "y") (0, kUnitB).2 = [kY] from rfl] at he
    cases he
    exact ⟨ms, res, gs, h1, h2, h3, h4⟩

/-! ### C99 -/

/-- C99: if no two requests for entries of the module `m` have the same file, line and name, its table
of places of declaration is generated.  A lookup of a name at a place of declaration in it finds the
entry that it is meant to find if there is exactly one, and otherwise nothing; and at run time what it
found is the kind and the name of that entry.
Missing: requests that share file, line and name, as in headers (C69_header_false). -/
theorem C99_places_partial {edb : List Emit.Obj} {defs : List (Str × Emit.CEntry)} {addr : Str → Entry.Ref} {rt : Entry.Db} {files : Off → List Str}
    (h : Program units snake w st x edb defs addr rt) (hm : Members units) (hT : Tables snake w st x db) (hl : Located units st x files) (hp : Places units files)
    {m : Str} (hmod : Module units m) (h0 : m ≠ [])
    (once : ((asks units m (go! "entry")).map fun a => (place files a.1 a.2.1, a.2.2)).Nodup) :
    ∃ ms res table, Generate.buildRequests db = Go.ret (ms, res) ∧ Generate.entryDb db m res = Go.ret table ∧
      ∀ file loc name, ∃ r, EntryDb.lookup (some (table.getD [])) (some (some file, some loc)) (some name) = .ok r ∧
        (∀ i, r = some i ↔ ∃ d e, Answer units files m file loc name d e ∧ (∀ d' e', Answer units files m file loc name d' e' → d' = d ∧ e' = e) ∧
          i = link snake w st e.off) ∧
        ∀ d e, Answer units files m file loc name d e → Told rt (addr (link snake w st e.off)) e := by
  have hi := h.input
  obtain ⟨st0, order, hc⟩ := Chain.core hi h.read
  have hv := db_visits hi hm hc hT
  obtain ⟨⟨ms, res⟩, hb⟩ := Generate.C68_succeeds.mpr ⟨_, hv⟩
  have hms : m ∈ ms := by rw [(Generate.build_sound hb).2.2.1 m, Generate.isModule_iff hv, module_iff hi hc hT]; exact hmod
  have hreg := regular hi hc hT hl hp
  have hnd : ((Generate.Spec.requests db (visits snake w st x units) m (go! "entry")).map (Generate.Spec.whereAsked db)).Nodup := by
    refine (places_perm hi hc hT hl m (go! "entry")).nodup_iff.mpr (nodup_map_of ?_ once)
    intro a ha b hb e
    have known : ∀ a ∈ asks units m (go! "entry"), place files a.1 a.2.1 ≠ none := by
      intro a ha
      obtain ⟨u, hu, h1⟩ := List.mem_flatMap.mp ha
      obtain ⟨⟨d, n⟩, h2, rfl⟩ := List.mem_map.mp h1
      obtain ⟨d', h3, h4⟩ := List.mem_filterMap.mp h2
      split at h4
      · rename_i ht
        cases hb : (text d' (go! "Name")).bind (Generate.Spec.asked m (go! "entry")) with
        | none => rw [hb] at h4; cases h4
        | some z => rw [hb] at h4; cases h4; exact hp.known u hu d h3 (.inl ht)
      · cases h4
    cases h1 : place files a.1 a.2.1 with
    | none => exact absurd h1 (known a ha)
    | some p =>
      cases h2 : place files b.1 b.2.1 with
      | none => exact absurd h2 (known b hb)
      | some p' =>
        rw [h1, h2] at e
        simp only [Option.map_some, Option.some.injEq, Prod.mk.injEq] at e
        rw [e.2.2]
        refine congrArg (fun z => (some z, b.2.2)) ?_
        exact Prod.ext e.1 e.2.1
  obtain ⟨table, ht⟩ := (Generate.C69_generated_iff hreg hb hv hms h0 (known_requests hi hm hc hT hl hp m (go! "entry"))).mpr hnd
  refine ⟨ms, res, table, hb, ht, fun file loc name => ?_⟩
  refine ⟨_, (Generate.C69_lookup_partial hreg hb hv hms h0 ht).2 file loc name, fun i => ?_, ?_⟩
  · rw [unique_perm (answers_all hi hm hc hT hl m file loc name), unique_some]
    constructor
    · intro e
      cases hs : allSols units files m file loc name with
      | nil => rw [hs] at e; cases e
      | cons p l =>
        rw [hs, List.map_cons] at e
        obtain ⟨e1, e2⟩ := List.cons.inj e
        have e2 := List.map_eq_nil_iff.mp e2
        subst e2
        refine ⟨p.1, p.2, mem_allSols.mp (by rw [hs]; exact List.mem_cons_self ..), ?_, e1.symm⟩
        intro d' e' ha
        have := mem_allSols.mpr ha
        rw [hs, List.mem_singleton] at this
        exact Prod.mk.inj this
    · rintro ⟨d, e, ha, hu, rfl⟩
      rw [(nodup_single (allSols_nodup hi m file loc name) (d, e)).mpr ⟨mem_allSols.mpr ha, ?_⟩]
      · rfl
      · rintro ⟨d', e'⟩ hb
        obtain ⟨rfl, rfl⟩ := hu d' e' (mem_allSols.mp hb)
        rfl
  · rintro d e ⟨u, hu, s, hs, -, he, -⟩
    obtain ⟨q, hq⟩ := scope_placed hu hs
    exact Chain.C79_entries_partial h _ e (Chain.placed_part hq he)

theorem case97_answer : Answer case97 files97 (go! "dflt") (go! "a.c") (go! "metac__dflt_entry_i1") (go! "i") kAskI kI :=
  ⟨(1, kUnitA), by simp [case97], kBlock, by rw [show inside (1, kUnitA).2 = [kInt 0, kX, kAskY, kOne, kF, kBlock, kI, kAskI] from rfl]; simp,
    by rw [show parts kBlock = [kI, kAskI] from rfl]; simp, by rw [show parts kBlock = [kI, kAskI] from rfl]; simp, rfl, rfl, by decide, ⟨.inl rfl, rfl⟩, 9, rfl, rfl⟩

/-- C99 for the case: the local variable of the block. -/
example : ∃ w st db defs addr rt tdb, Program case97 Chain.exSnake w st extra97 db defs addr rt ∧ Tables Chain.exSnake w st extra97 tdb ∧
    ∃ ms res table, Generate.buildRequests tdb = Go.ret (ms, res) ∧ Generate.entryDb tdb (go! "dflt") res = Go.ret table ∧
      EntryDb.lookup (some (table.getD [])) (some (some (go! "a.c"), some (go! "metac__dflt_entry_i1"))) (some (go! "i")) = .ok (some (link Chain.exSnake w st kI.off)) ∧
      EntryDb.lookup (some (table.getD [])) (some (some (go! "a.c"), some (go! "metac__dflt_entry_i1"))) (some (go! "x")) = .ok none ∧
      Told rt (addr (link Chain.exSnake w st kI.off)) kI := by
  obtain ⟨w, st, edb, defs, addr, rt, h⟩ := case97_program
  have hT := tablesOf_tables Chain.exSnake w st extra97
  refine ⟨w, st, edb, defs, addr, rt, _, h, hT, ?_⟩
  obtain ⟨ms, res, table, h1, h2, h3⟩ := C99_places_partial h case97_members hT (case97_located st) case97_places (m := go! "dflt") (.inl rfl) (by decide)
    (by rw [case97_asks.2.1]; simp)
  have all : ∀ name d e, Answer case97 files97 (go! "dflt") (go! "a.c") (go! "metac__dflt_entry_i1") name d e → d = kAskI ∧ ((name = go! "i" ∧ e = kI) ∨ (name = go! "metac__dflt_entry_i1" ∧ e = kAskI)) := by
    intro name d e ha
    obtain ⟨u, hu, s, hs, hd, he, -, hn, -, ⟨-, hne⟩, line, hpd, hpe⟩ := ha
    have hsd : ∀ u ∈ case97, ∀ p ∈ pairs u.2, text p.2 (go! "Name") = some (go! "metac__dflt_entry_i1") → u.2.off = 11 ∧ p.1.off = 52 ∧ p.2.off = 56 := by decide +kernel
    have hk : u.2.off = 11 ∧ s.off = 52 ∧ d.off = 56 := hsd u hu (s, d) (mem_pairs.mpr ⟨hs, hd⟩) hn
    have hu' : u = (1, kUnitA) := by
      have : u = (1, kUnitA) ∨ u = (0, kUnitB) := by simpa [case97] using hu
      rcases this with rfl | rfl
      · rfl
      · exact absurd hk.1 (by decide)
    subst hu'
    have hs' : s = kBlock := by
      rw [show (1, kUnitA).2 :: inside (1, kUnitA).2 = [kUnitA, kInt 0, kX, kAskY, kOne, kF, kBlock, kI, kAskI] from rfl] at hs
      simp only [List.mem_cons, List.not_mem_nil, or_false] at hs
      rcases hs with rfl | rfl | rfl | rfl | rfl | rfl | rfl | rfl | rfl <;> first | rfl | exact absurd hk.2.1 (by decide)
    subst hs'
    rw [show parts kBlock = [kI, kAskI] from rfl] at hd he
    simp only [List.mem_cons, List.not_mem_nil, or_false] at hd he
    refine ⟨?_, ?_⟩
    · rcases hd with rfl | rfl
      · exact absurd hk.2.2 (by decide)
      · rfl
    · rcases he with rfl | rfl
      · exact .inl ⟨(Option.some.inj hne).symm, rfl⟩
      · exact .inr ⟨(Option.some.inj hne).symm, rfl⟩
  refine ⟨ms, res, table, h1, h2, ?_, ?_, ?_⟩
  · obtain ⟨r, r1, r2, -⟩ := h3 (go! "a.c") (go! "metac__dflt_entry_i1") (go! "i")
    rw [r1, (r2 _).mpr ⟨kAskI, kI, case97_answer, ?_, rfl⟩]
    intro d e ha
    obtain ⟨rfl, ⟨-, rfl⟩ | ⟨h, -⟩⟩ := all _ d e ha
    · exact ⟨rfl, rfl⟩
    · exact absurd h (by decide)
  · obtain ⟨r, r1, r2, -⟩ := h3 (go! "a.c") (go! "metac__dflt_entry_i1") (go! "x")
    rw [r1]
    cases r with
    | none => rfl
    | some i =>
      obtain ⟨d, e, ha, -⟩ := (r2 i).mp rfl
      obtain ⟨-, ⟨h, -⟩ | ⟨h, -⟩⟩ := all _ d e ha <;> exact absurd h (by decide)
  · obtain ⟨r, -, -, r3⟩ := h3 (go! "a.c") (go! "metac__dflt_entry_i1") (go! "i")
    exact r3 _ _ case97_answer

/-! ### C100 -/

/-- C100: whatever the debug information of the test files, the program for running the tests is
generated; it adds every test written with `METAC_START_TEST` once for each variable or declaration of
it outside of functions, and nothing else; it exits with 0 exactly if all of them pass, and with 1 if not. -/
theorem C100_tests (hi : Input units) (hr : Read units w st) (hT : Tables snake w st x db) :
    ∃ ts, testsOf db = Go.ret ts ∧ ts.Perm (tests units) ∧
      ∀ passes, mainOf passes ts = if ∀ t ∈ tests units, passes t = true then 0 else 1 := by
  obtain ⟨st0, order, hc⟩ := Chain.core hi hr
  obtain ⟨ts, h1, h2⟩ := testsOf_eq hi hc hT
  refine ⟨ts, h1, h2, fun passes => ?_⟩
  have : (ts.filter fun t => !passes t).length = 0 ↔ ∀ t ∈ tests units, passes t = true := by
    rw [List.length_eq_zero_iff, List.filter_eq_nil_iff]
    constructor
    · intro h t ht
      have := h t (h2.mem_iff.mpr ht)
      simpa using this
    · intro h t ht
      have := h t (h2.mem_iff.mp ht)
      simpa using this
  unfold mainOf
  simp only [this]

/-- C100 for the case: both tests are run. -/
example : ∃ w st db, Input case97 ∧ Read case97 w st ∧ Tables Chain.exSnake w st extra97 db ∧
    ∃ ts, testsOf db = Go.ret ts ∧ ts.Perm [go! "one", go! "two"] ∧ mainOf (fun _ => true) ts = 0 ∧ mainOf (fun t => t = go! "one") ts = 1 := by
  obtain ⟨w, st, edb, defs, addr, rt, h⟩ := case97_program
  have hT := tablesOf_tables Chain.exSnake w st extra97
  obtain ⟨ts, h1, h2, h3⟩ := C100_tests case97_input h.read hT
  rw [case97_asks.2.2] at h2 h3
  refine ⟨w, st, _, case97_input, h.read, hT, ts, h1, h2, ?_, ?_⟩
  · rw [h3]; decide
  · rw [h3]; decide

end Verif.Links
