import Verif.Links.Lemmas
/-
Lemmas for C97-C100: the units and the requests of the database, and those of the debug information.
-/
namespace Verif.Links
open Verif.GoMeta (Str)
open GoDwarf.Spec (Die)
open GoBuild.Spec (Tree Placed text num isTag parts paramTags codeTags Describes)
open GoDedup (Off World St Go Desc idOf isTypeTag)
open GoDedup.Spec (cat tagName Cat)
open Chain (Extra link parentOf Core link_ptr for_head for_other structTags)
open Chain.Spec (Input typeTags)
open Spec

variable {units : List (Nat × Tree)} {w : World} {st st0 : St} {order : List Off} {snake : Str → Str} {x : Extra} {db : Generate.Db}

theorem offs_sublist : ∀ ds : List Tree, (ds.map Die.off).Sublist (Die.offsAll ds)
  | [] => .slnil
  | .node o t b f s ks :: ds => by
    simp only [Die.offsAll, Die.offs, List.map_cons, List.cons_append]
    exact .cons_cons _ ((offs_sublist ds).trans (List.sublist_append_right _ _))

theorem unit_offs (hi : Input units) : ((units.map Prod.snd).map Die.off).Nodup :=
  (List.nodup_cons.mp hi.distinct).2.sublist (offs_sublist _)

/-- The row of a unit. -/
def unitOf (snake : Str → Str) (w : World) (st : St) (x : Extra) (u : Tree) : Str × Generate.CUnit :=
  (link snake w st u.off, { declFiles := x.files ((st.ptr u.off).getD 0), hier := (parts u).map fun k => item snake w st x k.off })

theorem unit_placed {u : Nat × Tree} (hu : u ∈ units) : Placed [] (units.map Prod.snd) [] u.2 := .here (List.mem_map.mpr ⟨u, hu, rfl⟩)

theorem unit_obj (hi : Input units) (hc : Core units w st st0 order) {u : Nat × Tree} (hu : u ∈ units) :
    ∃ o nm, st0.ptr u.2.off = some o ∧ o ∈ st.added ∧ st.ptr u.2.off = some o ∧ w.obj o = .compileUnit nm ((parts u.2).map Die.off) := by
  have ht := (hi.good u.2 (List.mem_map.mpr ⟨u, hu, rfl⟩)).1.tag
  obtain ⟨o, h1, h2, h3, h4, -⟩ := own hi hc (unit_placed hu) (by rw [ht]; decide)
  generalize hy : w.obj o = y at h2
  cases h2 with
  | compileUnit => exact ⟨o, _, h1, h3, h4, hy⟩
  | @qual _ z h | @reference _ z h | @struct _ z _ h =>
    exfalso
    revert h
    rw [ht]
    cases z <;> decide
  | base h | enumeration h | typedef h | pointer h | unspecified h | subroutine h | array h | subprogram h | namespace_ h | lexBlock h | «variable» h =>
    rw [ht] at h
    exact absurd h (by decide)

theorem filterMap_filter {α β : Type} {f : α → Option β} {p : α → Bool} : ∀ {l : List α}, (∀ a ∈ l, p a = false → f a = none) → (l.filter p).filterMap f = l.filterMap f
  | [], _ => rfl
  | a :: l, h => by
    have ih := filterMap_filter (l := l) fun b hb => h b (List.mem_cons_of_mem _ hb)
    cases hp : p a with
    | false => rw [List.filter_cons_of_neg (by simp [hp]), List.filterMap_cons_none (h a (List.mem_cons_self ..) hp), ih]
    | true =>
      rw [List.filter_cons_of_pos hp]
      cases hf : f a with
      | none => rw [List.filterMap_cons_none hf, List.filterMap_cons_none hf, ih]
      | some b => rw [List.filterMap_cons_some hf, List.filterMap_cons_some hf, ih]

theorem filterMap_all {α β γ : Type} {f : β → Option γ} {g : α → β} {k : α → γ} : ∀ {l : List α}, (∀ a ∈ l, f (g a) = some (k a)) → (l.map g).filterMap f = l.map k
  | [], _ => rfl
  | a :: l, h => by
    rw [List.map_cons, List.filterMap_cons_some (h a (List.mem_cons_self ..)), filterMap_all fun b hb => h b (List.mem_cons_of_mem _ hb), List.map_cons]

/-- The units of the database are those of the debug information. -/
theorem units_perm (hi : Input units) (hc : Core units w st st0 order) (hT : Tables snake w st x db) :
    db.units.Perm (units.map fun u => unitOf snake w st x u.2) := by
  refine hT.units.trans ?_
  let p : Nat → Bool := fun n => decide (cat (w.obj n) = .compileUnit)
  have e1 : st.added.filterMap (unitRow snake w st x) = (st.added.filter p).filterMap (unitRow snake w st x) := by
    refine (filterMap_filter fun a _ ha => ?_).symm
    unfold unitRow
    split
    · rename_i hy
      simp only [p, hy, cat, decide_true] at ha
      cases ha
    · rfl
  have e2 : (units.map fun u => (st.ptr u.2.off).getD 0).filterMap (unitRow snake w st x) = units.map fun u => unitOf snake w st x u.2 := by
    refine filterMap_all fun u hu => ?_
    obtain ⟨o, nm, -, h2, h3, h4⟩ := unit_obj hi hc hu
    simp only [unitRow, unitOf, h3, Option.getD_some, h4, link_ptr h3, List.map_map]
    rfl
  rw [e1, ← e2]
  refine List.Perm.filterMap _ (GoDedup.perm_of_mem (hc.inv.once.filter _) ?_ ?_)
  · have hn := unit_offs hi
    rw [List.map_map] at hn
    have : ∀ l : List (Nat × Tree), (∀ u ∈ l, u ∈ units) → (l.map (Die.off ∘ Prod.snd)).Nodup → (l.map fun u => (st.ptr u.2.off).getD 0).Nodup := by
      intro l
      induction l with
      | nil => intro _ _; exact List.nodup_nil
      | cons u l ih =>
        intro hl hd
        rw [List.map_cons, List.nodup_cons] at hd ⊢
        refine ⟨?_, ih (fun v hv => hl v (List.mem_cons_of_mem _ hv)) hd.2⟩
        intro hm
        obtain ⟨v, hv, e⟩ := List.mem_map.mp hm
        obtain ⟨o, _, g1, -, g3, -⟩ := unit_obj hi hc (hl u (List.mem_cons_self ..))
        obtain ⟨o', _, k1, -, k3, -⟩ := unit_obj hi hc (hl v (List.mem_cons_of_mem _ hv))
        simp only [g3, k3, Option.getD_some] at e
        subst e
        exact hd.1 (List.mem_map.mpr ⟨v, hv, hc.start.own _ _ _ k1 g1⟩)
    exact this units (fun _ h => h) hn
  · intro n
    rw [List.mem_filter, List.mem_map]
    constructor
    · rintro ⟨h1, h2⟩
      have h2 : cat (w.obj n) = .compileUnit := by simpa [p] using h2
      obtain ⟨i, i1, -⟩ := hc.home h1
      obtain ⟨q, d, p1, rfl, p3⟩ := hc.described i1 (by rw [h2]; decide)
      have ht := GoBuild.describes_tag p3
      rw [h2] at ht
      rcases GoBuild.placed_top p1 with ⟨-, hd⟩ | ⟨u, hu, hq⟩
      · obtain ⟨u, hu, rfl⟩ := List.mem_map.mp hd
        obtain ⟨o, _, g1, -, g3, -⟩ := unit_obj hi hc hu
        rw [i1] at g1
        cases g1
        exact ⟨u, hu, by rw [g3]; rfl⟩
      · obtain ⟨v, hv, rfl⟩ := List.mem_map.mp hu
        exact absurd ht (not_unit hi hv (inside_iff.mpr ⟨q, hq⟩))
    · rintro ⟨u, hu, rfl⟩
      obtain ⟨o, _, -, g2, g3, g4⟩ := unit_obj hi hc hu
      rw [g3]
      exact ⟨g2, by simp [p, g4, cat]⟩

/-- The ids of units are different. -/
theorem units_nodup (hc : Core units w st st0 order) (hT : Tables snake w st x db) : (db.units.map (·.1)).Nodup :=
  (hT.units.map _).nodup_iff.mpr ((ids_nodup snake hc).sublist (keys_sublist unitRow_id _))

theorem unit_mem (hi : Input units) (hc : Core units w st st0 order) (hT : Tables snake w st x db) {r : Str × Generate.CUnit} :
    r ∈ db.units ↔ ∃ u ∈ units, r = unitOf snake w st x u.2 := by
  rw [(units_perm hi hc hT).mem_iff, List.mem_map]
  exact ⟨fun ⟨u, h1, h2⟩ => ⟨u, h1, h2.symm⟩, fun ⟨u, h1, h2⟩ => ⟨u, h1, h2.symm⟩⟩

/-- Two units with one id are one. -/
theorem unit_inj (hi : Input units) (hc : Core units w st st0 order) {u v : Nat × Tree} (hu : u ∈ units) (hv : v ∈ units)
    (h : link snake w st u.2.off = link snake w st v.2.off) : u.2 = v.2 := by
  obtain ⟨o, _, g1, g2, g3, -⟩ := unit_obj hi hc hu
  obtain ⟨o', _, k1, k2, k3, -⟩ := unit_obj hi hc hv
  rw [link_ptr g3, link_ptr k3] at h
  have := nodup_inj (ids_nodup snake hc) g2 k2 h
  subst this
  have ho := hc.start.own _ _ _ g1 k1
  exact nodup_inj (unit_offs hi) (List.mem_map.mpr ⟨u, hu, rfl⟩) (List.mem_map.mpr ⟨v, hv, rfl⟩) ho

/-- Everything inside the units. -/
def visits (snake : Str → Str) (w : World) (st : St) (x : Extra) (units : List (Nat × Tree)) (r : Str × Generate.CUnit) : List Generate.Item :=
  match units.find? fun u => link snake w st u.2.off = r.1 with
  | none => []
  | some u => (inside u.2).map fun k => item snake w st x k.off

theorem visits_eq (hi : Input units) (hc : Core units w st st0 order) {u : Nat × Tree} (hu : u ∈ units) :
    visits snake w st x units (unitOf snake w st x u.2) = (inside u.2).map fun k => item snake w st x k.off := by
  unfold visits
  cases h : units.find? fun v => link snake w st v.2.off = (unitOf snake w st x u.2).1 with
  | none =>
    have := List.find?_eq_none.mp h u hu
    simp [unitOf] at this
  | some v =>
    have h1 := List.find?_some h
    have h2 := List.mem_of_find?_eq_some h
    simp only [decide_eq_true_eq] at h1
    show (inside v.2).map _ = _
    rw [unit_inj hi hc h2 hu h1]

theorem db_visits (hi : Input units) (hm : Members units) (hc : Core units w st st0 order) (hT : Tables snake w st x db) :
    Generate.Spec.Visits db (visits snake w st x units) := by
  constructor
  · intro r hr
    obtain ⟨u, hu, rfl⟩ := (unit_mem hi hc hT).mp hr
    rw [visits_eq hi hc hu, inside_eq]
    exact all_inside hi hm hc hT hu _ (parts u.2) fun d hd => ⟨Nat.le_of_lt (kids_size (parts_kids hd)), inside_iff.mpr ⟨_, .here hd⟩⟩
  · intro r hr h hh hk
    obtain ⟨u, hu, rfl⟩ := (unit_mem hi hc hT).mp hr
    rw [visits_eq hi hc hu] at hh
    obtain ⟨d, hd, rfl⟩ := List.mem_map.mp hh
    obtain ⟨q, hq⟩ := inside_placed hu hd
    obtain ⟨c, c1, c2⟩ := kind_tag snake x hi hc hq
    exact ⟨_, hk, var_row hi hc hT hq (by rw [c1, ← cat_variable, ← c2]; exact hk)⟩

/-- The request made by an entry. -/
theorem request_eq (hi : Input units) (hc : Core units w st st0 order) (hT : Tables snake w st x db) {q : List Off} {d : Tree}
    (hp : Placed [] (units.map Prod.snd) q d) (m t : Str) :
    (Generate.Spec.request db m t (item snake w st x d.off)).map Prod.snd =
      if d.tag = go! "Variable" then (text d (go! "Name")).bind (Generate.Spec.asked m t) else none := by
  obtain ⟨c, c1, c2⟩ := kind_tag snake x hi hc hp
  unfold Generate.Spec.request
  by_cases ht : d.tag = go! "Variable"
  · rw [if_pos (by rw [c2, cat_variable, ← c1]; exact ht), if_pos ht]
    show ((db.variables.lookup (link snake w st d.off)).bind _).map _ = _
    rw [var_row hi hc hT hp ht]
    simp only [Option.bind_some]
    cases text d (go! "Name") with
    | none => rfl
    | some n =>
      simp only [Option.bind_some, Option.map_map]
      cases Generate.Spec.asked m t n <;> rfl
  · rw [if_neg (by rw [c2, cat_variable, ← c1]; exact ht), if_neg ht]
    rfl

/-- The part of a request a user knows: unit, variable, and name. -/
def known (y : Str × Generate.Item × Generate.Var × Str) : Str × Str × Str := (y.1, y.2.1.id, y.2.2.2)
def knownItem (y : Str × Generate.Item × Generate.Var × Str) : Str × Generate.Item × Str := (y.1, y.2.1, y.2.2.2)

theorem map_flatMap_congr {α β γ : Type} {f : α → List β} {g : α → List γ} {k : β → γ} : ∀ {l : List α}, (∀ a ∈ l, (f a).map k = g a) → (l.flatMap f).map k = l.flatMap g
  | [], _ => rfl
  | a :: l, h => by
    rw [List.flatMap_cons, List.flatMap_cons, List.map_append, h a (List.mem_cons_self ..), map_flatMap_congr fun b hb => h b (List.mem_cons_of_mem _ hb)]

theorem map_filterMap_congr {α β γ δ : Type} {f : β → Option γ} {g : α → β} {k : γ → δ} {e : α → Option δ} : ∀ {l : List α}, (∀ a ∈ l, (f (g a)).map k = e a) →
    ((l.map g).filterMap f).map k = l.filterMap e
  | [], _ => rfl
  | a :: l, h => by
    have ih := map_filterMap_congr (l := l) fun b hb => h b (List.mem_cons_of_mem _ hb)
    have ha := h a (List.mem_cons_self ..)
    rw [List.map_cons]
    cases hf : f (g a) with
    | none =>
      rw [hf] at ha
      rw [List.filterMap_cons_none hf, List.filterMap_cons_none ha.symm, ih]
    | some c =>
      rw [hf] at ha
      rw [List.filterMap_cons_some hf, List.filterMap_cons_some ha.symm, List.map_cons, ih]

/-- The requests of the database are those of the debug information. -/
theorem requests_items (hi : Input units) (hc : Core units w st st0 order) (hT : Tables snake w st x db) (m t : Str) :
    ((Generate.Spec.requests db (visits snake w st x units) m t).map knownItem).Perm
      ((asks units m t).map fun a => (link snake w st a.1.off, item snake w st x a.2.1.off, a.2.2)) := by
  have e1 : (Generate.Spec.requests db (visits snake w st x units) m t).map knownItem = db.units.flatMap fun r => (visits snake w st x units r).filterMap fun h =>
      ((Generate.Spec.request db m t h).map Prod.snd).map fun n => (r.1, h, n) := by
    refine map_flatMap_congr fun r _ => ?_
    have := map_filterMap_congr (l := visits snake w st x units r) (g := id) (k := knownItem)
      (f := fun h => (Generate.Spec.request db m t h).map fun y => (r.1, h, y.1, y.2)) (e := fun h => ((Generate.Spec.request db m t h).map Prod.snd).map fun n => (r.1, h, n))
      (by intro a _; simp only [id]; cases Generate.Spec.request db m t a <;> rfl)
    rw [List.map_id] at this
    exact this
  rw [e1]
  refine ((units_perm hi hc hT).flatMap_right _).trans (List.Perm.of_eq ?_)
  unfold asks
  rw [List.flatMap_map]
  symm
  refine map_flatMap_congr fun u hu => ?_
  rw [visits_eq hi hc hu, List.map_map]
  unfold asksIn
  have h1 := map_filterMap_congr (l := inside u.2) (g := id)
    (k := (fun a : Tree × Tree × Str => (link snake w st a.1.off, item snake w st x a.2.1.off, a.2.2)) ∘ fun y => (u.2, y.1, y.2))
    (f := fun d => if d.tag = go! "Variable" then ((text d (go! "Name")).bind (Generate.Spec.asked m t)).map fun r => (d, r) else none)
    (e := fun d => (if d.tag = go! "Variable" then (text d (go! "Name")).bind (Generate.Spec.asked m t) else none).map fun n => (link snake w st u.2.off, item snake w st x d.off, n))
    (by
      intro d _
      simp only [id]
      split
      · rw [Option.map_map]; rfl
      · rfl)
  rw [List.map_id] at h1
  rw [h1]
  have h2 := map_filterMap_congr (l := inside u.2) (g := fun k => item snake w st x k.off) (k := id)
    (f := fun h => ((Generate.Spec.request db m t h).map Prod.snd).map fun n => (link snake w st u.2.off, h, n))
    (e := fun d => (if d.tag = go! "Variable" then (text d (go! "Name")).bind (Generate.Spec.asked m t) else none).map fun n => (link snake w st u.2.off, item snake w st x d.off, n))
    (by
      intro d hd
      obtain ⟨q, hq⟩ := inside_placed hu hd
      rw [request_eq hi hc hT hq, Option.map_id]
      rfl)
  rw [List.map_id] at h2
  exact h2.symm

theorem requests_perm (hi : Input units) (hc : Core units w st st0 order) (hT : Tables snake w st x db) (m t : Str) :
    ((Generate.Spec.requests db (visits snake w st x units) m t).map known).Perm
      ((asks units m t).map fun a => (link snake w st a.1.off, link snake w st a.2.1.off, a.2.2)) := by
  have := (requests_items hi hc hT m t).map fun y => (y.1, y.2.1.id, y.2.2)
  rw [List.map_map, List.map_map] at this
  exact this

/-- The modules of the database are those of the debug information. -/
theorem module_iff (hi : Input units) (hc : Core units w st st0 order) (hT : Tables snake w st x db) (m : Str) :
    Generate.Spec.IsModule db (visits snake w st x units) m ↔ Module units m := by
  refine or_congr_right ⟨?_, ?_⟩
  · rintro ⟨r, hr, h, hh, v, ⟨hk, hv⟩, hn⟩
    obtain ⟨u, hu, rfl⟩ := (unit_mem hi hc hT).mp hr
    rw [visits_eq hi hc hu] at hh
    obtain ⟨d, hd, rfl⟩ := List.mem_map.mp hh
    obtain ⟨q, hq⟩ := inside_placed hu hd
    obtain ⟨c, c1, c2⟩ := kind_tag snake x hi hc hq
    have ht : d.tag = go! "Variable" := by rw [c1, ← cat_variable, ← c2]; exact hk
    have := var_row hi hc hT hq ht
    rw [show db.variables.lookup (link snake w st d.off) = some v from hv] at this
    refine ⟨u, hu, d, hd, ht, ?_⟩
    rw [Option.some.inj this] at hn
    exact hn
  · rintro ⟨u, hu, d, hd, ht, hn⟩
    obtain ⟨q, hq⟩ := inside_placed hu hd
    obtain ⟨c, c1, c2⟩ := kind_tag snake x hi hc hq
    refine ⟨_, (unit_mem hi hc hT).mpr ⟨u, hu, rfl⟩, item snake w st x d.off, ?_, _, ⟨?_, var_row hi hc hT hq ht⟩, hn⟩
    · rw [visits_eq hi hc hu]
      exact List.mem_map.mpr ⟨d, hd, rfl⟩
    · rw [c2, cat_variable, ← c1]
      exact ht

end Verif.Links
