import Verif.Chain.Parents
import Verif.Chain.CompileProps
/-
C81: the parents a program is told of.
-/
namespace Verif.Chain
open Verif.GoMeta (Str)
open GoDwarf.Spec (Die)
open GoBuild.Spec (Tree Placed text num ref declared isTag paramTags)
open GoDedup (World St Off)
open GoDedup.Spec (cat tagName)
open Spec

variable {units : List (Nat × Tree)} {w : World} {st : St} {snake : Str → Str} {x : Extra} {db : List Emit.Obj}
  {defs : List (Str × Emit.CEntry)} {addr : Str → Entry.Ref} {rt : Entry.Db}

theorem unit_tag {c : GoDedup.Spec.Cat} : tagName c = go! "CompileUnit" ↔ c = .compileUnit := by
  cases c with
  | qual q => cases q <;> decide
  | reference r => cases r <;> decide
  | aggregate a => cases a <;> decide
  | _ => decide

/-- The entry of an entry's parent. -/
theorem under_at {p c : Off} (h : Under units p c) : At units p := by
  cases h with
  | entry hp =>
    rcases placed_parent hp with h | ⟨q', e, h1, h2⟩
    · cases h
    · cases h2; exact ⟨q', e, h1, rfl⟩
  | dim hp => exact ⟨_, _, hp, rfl⟩

/-- C81: an entry that is no unit has, at run time, one parent for each entry of the debug
information that it stands for: what that entry is a part of. -/
theorem C81_parents (h : Program units snake w st x db defs addr rt) (q : List Off) (d : Tree) (hp : Placed [] (units.map Prod.snd) q d)
    (ht : d.tag ≠ go! "CompileUnit") (r : Entry.Ref) (hr : r = addr (link snake w st d.off)) :
    ∃ l : List (Off × Off), l.Nodup ∧ (∀ p c, (p, c) ∈ l ↔ Under units p c ∧ link snake w st c = link snake w st d.off) ∧
      Entry.parentCount rt (some r) = (l.length : Int) ∧
      (∀ (k : Nat) p c, l[k]? = some (p, c) → ∃ q' e, Placed [] (units.map Prod.snd) q' e ∧ e.off = p ∧
        Entry.parentEntry rt (some r) k = some (some (addr (link snake w st p))) ∧ Told rt (addr (link snake w st p)) e) ∧
      (∀ k : Int, k < 0 ∨ k ≥ l.length → Entry.parentEntry rt (some r) k = some none) := by
  subst hr
  obtain ⟨st0, order, hrun⟩ := h.run
  obtain ⟨t, o, h1, h2, h3, h4, h5⟩ := hrun.link_eq hp
  have hu : cat (w.obj o) ≠ .compileUnit := by
    rw [(for_head h5).1]
    intro e
    rw [GoBuild.describes_tag h2] at ht
    exact ht (unit_tag.mpr e)
  obtain ⟨l, l1, l2, l3⟩ := hrun.parents h3 hu
  have hv := hrun.parents_view h3 hu
  obtain ⟨c1, c2, c3⟩ := Emit.C78_parents_partial h.ids h.good h.compiled h.loaded _ (hrun.mem h3)
  rw [view_id, hv, l3] at c1 c2 c3
  rw [h4]
  simp only [List.length_map] at c1 c3
  refine ⟨l, l1, l2, c1, ?_, c3⟩
  intro k p c hk
  obtain ⟨q', e, e1, rfl⟩ := under_at ((l2 p c).mp (List.mem_of_getElem? hk)).1
  refine ⟨q', e, e1, rfl, c2 k _ (by simp [hk]), C79_entries_partial h q' e e1⟩

/-- C81: what an entry is a part of is found among its parents. -/
theorem C81_own (h : Program units snake w st x db defs addr rt) (q : List Off) (d : Tree) (hp : Placed [] (units.map Prod.snd) q d)
    (p : Off) (hq : p ∈ q) (r : Entry.Ref) (hr : r = addr (link snake w st d.off)) :
    ∃ k : Nat, k < Entry.parentCount rt (some r) ∧ ∃ q' e, Placed [] (units.map Prod.snd) q' e ∧ e.off = p ∧
      Entry.parentEntry rt (some r) k = some (some (addr (link snake w st p))) ∧ Told rt (addr (link snake w st p)) e := by
  have hne : d.tag ≠ go! "CompileUnit" ∧ q = [p] := by
    rcases GoBuild.placed_top hp with ⟨rfl, -⟩ | ⟨u, hu, hp'⟩
    · cases hq
    · obtain ⟨q0, h0, -⟩ := placed_one hp' _ _ rfl (fun x hx => GoBuild.parts_sub hx)
      subst h0
      refine ⟨?_, by rw [List.mem_singleton.mp hq]⟩
      intro ht
      cases (h.input.good u hu).2 _ d hp' with
      | base h1 | enumeration h1 | unspecified h1 | block h1 | scope h1 | typedef h1 | array h1 => rw [h1] at ht; exact absurd ht (by decide)
      | struct h1 h2 | func h1 h2 | link h1 h2 => rw [h2] at ht; rw [ht] at h1; exact absurd h1 (by decide)
  obtain ⟨hne, rfl⟩ := hne
  obtain ⟨l, -, l2, l3, l4, -⟩ := C81_parents h _ d hp hne r hr
  obtain ⟨k, hk⟩ := List.mem_iff_getElem?.mp ((l2 p d.off).mpr ⟨.entry hp, rfl⟩)
  refine ⟨k, ?_, l4 k p _ hk⟩
  rw [l3]
  have := (List.getElem?_eq_some_iff.mp hk).1
  omega

/-- C81: units have no parents. -/
theorem C81_units (h : Program units snake w st x db defs addr rt) (q : List Off) (d : Tree) (hp : Placed [] (units.map Prod.snd) q d)
    (ht : d.tag = go! "CompileUnit") (r : Entry.Ref) (hr : r = addr (link snake w st d.off)) :
    Entry.parentCount rt (some r) = 0 ∧ ∀ k : Int, Entry.parentEntry rt (some r) k = some none := by
  subst hr
  obtain ⟨st0, order, hrun⟩ := h.run
  obtain ⟨t, o, h1, h2, h3, h4, h5⟩ := hrun.link_eq hp
  have hu : cat (w.obj o) = .compileUnit := by
    rw [(for_head h5).1]
    rw [GoBuild.describes_tag h2] at ht
    exact unit_tag.mp ht
  obtain ⟨c1, -, c3⟩ := Emit.C78_parents_partial h.ids h.good h.compiled h.loaded _ (hrun.mem h3)
  have hv : Emit.Spec.parentsOf (view snake w st x o) = [] := by
    unfold view
    generalize w.obj o = y at hu
    cases y <;> first | rfl | cases hu
  rw [view_id, hv] at c1 c3
  rw [h4]
  exact ⟨c1, fun k => c3 k (by simp; omega)⟩

/-- C81: the parent of a member is the structure. -/
theorem C81_members (h : Program units snake w st x db defs addr rt) (q : List Off) (d : Tree) (hp : Placed [] (units.map Prod.snd) q d)
    (ht : d.tag ∈ [go! "ClassType", go! "StructType", go! "UnionType"]) (hd : declared d = false) (r : Entry.Ref) (hr : r = addr (link snake w st d.off))
    (j : Nat) (hj : j < (d.kids.filter (isTag [go! "Member"])).length) :
    ∃ e, Entry.byMemberId rt (some r) j = some (some e) ∧ Entry.parentCount rt (some e) = 1 ∧ Entry.parentEntry rt (some e) 0 = some (some r) := by
  obtain ⟨e, e1, -⟩ := (C79_structures_partial h q d hp ht hd r hr _ rfl).2.1 j _ (List.getElem?_eq_getElem hj)
  refine ⟨e, e1, ?_⟩
  subst hr
  obtain ⟨st0, order, hrun⟩ := h.run
  obtain ⟨o, hh, a, fs, hs, ho, hl, hobj, hdecl, hsize, he⟩ := hrun.struct hp ht hd
  have hview : view snake w st x o = .aggregate (head snake w st o hh) a.tag hh.byteSize hh.alignment (fs.map (field snake w st)) (hs.map (item snake w st x)) := by
    unfold view; rw [hobj]
  have hlead := hrun.leads ho hview (by simp) (by simp) (by simp)
  have hnd : (head snake w st o hh).decl ≠ some true := by simp [head, flagOf, hdecl]
  rw [hl] at e1 ⊢
  exact Emit.C78_parents_members_partial h.ids h.good h.compiled h.loaded _ hlead hnd j e e1

/-- C81: the parent of a parameter is the function. -/
theorem C81_parameters (h : Program units snake w st x db defs addr rt) (q : List Off) (d : Tree) (hp : Placed [] (units.map Prod.snd) q d)
    (ht : d.tag ∈ [go! "SubroutineType", go! "Subprogram"]) (hd : d.tag = go! "SubroutineType" → declared d = false) (r : Entry.Ref)
    (hr : r = addr (link snake w st d.off)) (j : Nat) (hj : j < (d.kids.filter (isTag paramTags)).length) :
    ∃ e, Entry.byParameterId rt (some r) j = some (some e) ∧ Entry.parentCount rt (some e) = 1 ∧ Entry.parentEntry rt (some e) 0 = some (some r) := by
  obtain ⟨e, e1, -⟩ := (C79_functions_partial h q d hp ht hd r hr _ rfl).2.2.1 j _ (List.getElem?_eq_getElem hj)
  refine ⟨e, e1, ?_⟩
  subst hr
  obtain ⟨st0, order, hrun⟩ := h.run
  obtain ⟨o, t, ps, ho, hl, hview, -⟩ := hrun.func hp ht hd
  have hlead : Emit.Spec.Leads db (GoDedup.idOf snake w st.added o) (view snake w st x o) := by
    rcases hview with ⟨_, _, hv⟩ | ⟨_, hv⟩ <;> exact hrun.leads ho rfl (by simp [hv]) (by simp [hv]) (by simp [hv])
  rw [hl] at e1 ⊢
  have := Emit.C78_parents_parameters_partial h.ids h.good h.compiled h.loaded _ _ _ _ hview hlead j e e1
  rwa [view_id] at this

/-- The hypotheses of C81 hold for `GoBuild.case66` (see `case_program`): the unit is a parent of the
structure, the structure is the parent of its second member, the function is the parent of its first
parameter, and the unit has no parents. -/
example : ∃ w st db defs addr rt, Program GoBuild.case66 exSnake w st exExtra db defs addr rt ∧
    (∃ r, Told rt r GoBuild.dStruct ∧
      (∃ (k : Nat) (u : Entry.Ref), k < Entry.parentCount rt (some r) ∧ Entry.parentEntry rt (some r) k = some (some u) ∧ Told rt u GoBuild.unitA ∧ Entry.parentCount rt (some u) = 0) ∧
      ∃ e, Entry.byMemberId rt (some r) 1 = some (some e) ∧ Entry.parentCount rt (some e) = 1 ∧ Entry.parentEntry rt (some e) 0 = some (some r)) ∧
    ∃ r, Told rt r GoBuild.dFunc ∧ ∃ e, Entry.byParameterId rt (some r) 0 = some (some e) ∧ Entry.parentEntry rt (some e) 0 = some (some r) := by
  obtain ⟨w, st, db, defs, addr, rt, h⟩ := case_program
  have hs := case_top (d := GoBuild.dStruct) (by simp)
  have hf := case_top (d := GoBuild.dFunc) (by simp)
  have hu : Placed [] (GoBuild.case66.map Prod.snd) [] GoBuild.unitA := .here (by simp [GoBuild.case66])
  refine ⟨w, st, db, defs, addr, rt, h, ⟨_, C79_entries_partial h _ _ hs, ?_, ?_⟩, _, C79_entries_partial h _ _ hf, ?_⟩
  · obtain ⟨k, k1, q', e, e1, e2, e3, -⟩ := C81_own h _ _ hs 11 (by simp) _ rfl
    exact ⟨k, _, k1, e3, C79_entries_partial h _ _ hu, (C81_units h _ _ hu rfl _ rfl).1⟩
  · exact C81_members h _ _ hs (by decide) rfl _ rfl 1 (by decide)
  · obtain ⟨e, e1, -, e3⟩ := C81_parameters h _ _ hf (by decide) (fun h => absurd h (by decide)) _ rfl 0 (by decide)
    exact ⟨e, e1, e3⟩

end Verif.Chain
