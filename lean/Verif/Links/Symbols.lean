import Verif.Generate.Props
import Verif.Links.Requests
/-
Lemmas for C98: the objects global symbols lead to.
-/
namespace Verif.Links
open Verif.GoMeta (Str)
open GoDwarf.Spec (Die)
open GoBuild.Spec (Tree Placed text num isTag parts)
open GoDedup (Off World St Go)
open GoDedup.Spec (tagName)
open Chain (Extra link Core)
open Chain.Spec (Input Read Program Told)
open Spec

variable {units : List (Nat × Tree)} {w : World} {st st0 : St} {order : List Off} {snake : Str → Str} {x : Extra} {db : Generate.Db}

/-- The name of a variable or function. -/
theorem nameOf_eq (hi : Input units) (hc : Core units w st st0 order) (hT : Tables snake w st x db) {q : List Off} {d : Tree}
    (hp : Placed [] (units.map Prod.snd) q d) (name : Str) : Generate.Spec.nameOf db (item snake w st x d.off) = some name ↔ Named name d := by
  obtain ⟨c, c1, c2⟩ := kind_tag snake x hi hc hp
  have k1 : (item snake w st x d.off).kind = go! "Variable" ↔ d.tag = go! "Variable" := by rw [c2, cat_variable, c1]
  have k2 : (item snake w st x d.off).kind = go! "Subprogram" ↔ d.tag = go! "Subprogram" := by rw [c2, cat_subprogram, c1]
  unfold Generate.Spec.nameOf Named
  by_cases h1 : d.tag = go! "Variable"
  · rw [if_pos (k1.mpr h1)]
    show (db.variables.lookup (link snake w st d.off)).bind _ = _ ↔ _
    rw [var_row hi hc hT hp h1]
    exact ⟨fun h => ⟨.inl h1, h⟩, fun h => h.2⟩
  · rw [if_neg (fun h => h1 (k1.mp h))]
    by_cases h2 : d.tag = go! "Subprogram"
    · rw [if_pos (k2.mpr h2)]
      show (db.subprograms.lookup (link snake w st d.off)).bind _ = _ ↔ _
      rw [sub_row hi hc hT hp h2]
      exact ⟨fun h => ⟨.inr h2, h⟩, fun h => h.2⟩
    · rw [if_neg (fun h => h2 (k2.mp h))]
      constructor
      · intro h; cases h
      · rintro ⟨h | h, -⟩
        · exact absurd h h1
        · exact absurd h h2

theorem filter_map_congr {α β : Type} {f : α → β} {p : β → Bool} {q : α → Bool} : ∀ {l : List α}, (∀ a ∈ l, p (f a) = q a) → (l.map f).filter p = (l.filter q).map f
  | [], _ => rfl
  | a :: l, h => by
    have ih := filter_map_congr (l := l) fun b hb => h b (List.mem_cons_of_mem _ hb)
    have ha := h a (List.mem_cons_self ..)
    rw [List.map_cons, List.filter_cons, List.filter_cons, ha, ih]
    split <;> rfl

theorem part_placed {u : Nat × Tree} (hu : u ∈ units) {d : Tree} (hd : d ∈ parts u.2) : Placed [] (units.map Prod.snd) [u.2.off] d :=
  .there (List.mem_map.mpr ⟨u, hu, rfl⟩) (.here hd)

theorem top_eq (hi : Input units) (hc : Core units w st st0 order) (hT : Tables snake w st x db) {u : Nat × Tree} (hu : u ∈ units) (name : Str) :
    Generate.Spec.top db (unitOf snake w st x u.2).2 name = (top name u.2).map fun d => link snake w st d.off := by
  unfold Generate.Spec.top top unitOf
  simp only
  rw [filter_map_congr (p := fun o => decide (Generate.Spec.nameOf db o = some name)) (q := fun d => decide (Named name d)) (fun d hd => decide_eq_decide.mpr (nameOf_eq hi hc hT (part_placed hu hd) name)), List.map_map]
  rfl

theorem firstOf_some {ls : List (List Str)} (h : Generate.Spec.firstOf ls ≠ []) : Generate.Spec.firstOf ls ∈ ls := by
  induction ls with
  | nil => exact absurd rfl h
  | cons l ls ih =>
    unfold Generate.Spec.firstOf at h ⊢
    split
    · rename_i hl
      rw [if_pos hl] at h
      exact List.mem_cons_of_mem _ (ih h)
    · exact List.mem_cons_self ..

theorem firstOf_nil {ls : List (List Str)} (h : Generate.Spec.firstOf ls = []) : ∀ l ∈ ls, l = [] := by
  induction ls with
  | nil => simp
  | cons l ls ih =>
    unfold Generate.Spec.firstOf at h
    split at h
    · rename_i hl
      intro k hk
      rcases List.mem_cons.mp hk with rfl | hk
      · exact hl
      · exact ih h k hk
    · rename_i hl
      exact absurd h hl

/-- What a request for a symbol gets: the object of the unit itself, else that of another one. -/
theorem answer_eq (hi : Input units) (hc : Core units w st st0 order) (hT : Tables snake w st x db) {u : Nat × Tree} (hu : u ∈ units) {name : Str}
    (one : ∀ v ∈ units, (top name v.2).length ≤ 1) (some' : ∃ v ∈ units, top name v.2 ≠ []) :
    ∃ v ∈ units, ∃ e, top name v.2 = [e] ∧ (top name u.2 ≠ [] → v = u) ∧
      Generate.Spec.answer db (unitOf snake w st x u.2).2 name = [link snake w st e.off] := by
  have single : ∀ v ∈ units, top name v.2 ≠ [] → ∃ e, top name v.2 = [e] := by
    intro v hv hne
    have hl := one v hv
    cases ht : top name v.2 with
    | nil => exact absurd ht hne
    | cons e l =>
      rw [ht] at hl
      cases l with
      | nil => exact ⟨e, rfl⟩
      | cons => simp at hl
  by_cases h0 : top name u.2 = []
  · have ne : Generate.Spec.answer db (unitOf snake w st x u.2).2 name ≠ [] := by
      intro h
      obtain ⟨v, hv, hne⟩ := some'
      have := firstOf_nil h (Generate.Spec.top db (unitOf snake w st x v.2).2 name) (List.mem_cons_of_mem _ (List.mem_map.mpr ⟨_, (unit_mem hi hc hT).mpr ⟨v, hv, rfl⟩, rfl⟩))
      rw [top_eq hi hc hT hv] at this
      exact hne (List.map_eq_nil_iff.mp this)
    have hm := firstOf_some ne
    have key : ∀ v ∈ units, Generate.Spec.answer db (unitOf snake w st x u.2).2 name = Generate.Spec.top db (unitOf snake w st x v.2).2 name →
        ∃ v ∈ units, ∃ e, top name v.2 = [e] ∧ (top name u.2 ≠ [] → v = u) ∧ Generate.Spec.answer db (unitOf snake w st x u.2).2 name = [link snake w st e.off] := by
      intro v hv e
      rw [top_eq hi hc hT hv] at e
      obtain ⟨d, hd⟩ := single v hv (by
        intro h
        rw [h] at e
        exact ne e)
      refine ⟨v, hv, d, hd, fun h => absurd h0 h, ?_⟩
      rw [e, hd]
      rfl
    rcases List.mem_cons.mp hm with h | h
    · exact key u hu h
    · obtain ⟨r, hr, e⟩ := List.mem_map.mp h
      obtain ⟨v, hv, rfl⟩ := (unit_mem hi hc hT).mp hr
      exact key v hv e.symm
  · obtain ⟨d, hd⟩ := single u hu h0
    refine ⟨u, hu, d, hd, fun _ => rfl, ?_⟩
    unfold Generate.Spec.answer
    rw [top_eq hi hc hT hu, hd]
    rfl

end Verif.Links
