import Verif.Generate.Lemmas
/-
All requests of a database.
-/
namespace Verif.Generate
open Verif Verif.Generate.Spec
open Verif.GoDedup (Go decInt)
open Verif.GoDedup.Spec (Each)
open Verif.EntryDb (dictUpd quote unquote Rec FileItem dget dictUpd_sorted dget_dictUpd dictUpd_keys)

/-- What is kept of a reference. -/
def proj (r : Ref) : Str × Item × Var × Str := (r.cu, r.h, r.var, r.reqName)

/-- The requests found in a list of items. -/
def found (db : Db) (m t cu : Str) (l : List Item) : List (Str × Item × Var × Str) :=
  l.filterMap fun h => (noted db m h).bind fun y => if y.2.1 = t then some (cu, h, y.1, y.2.2) else none

theorem Refs.found {db : Db} {m cu : Str} {l : List Item} {refs : List (Str × Ref)} (h : Refs db m cu l refs) (t : Str) :
    ((refs.filter (·.1 = t)).map (·.2)).map proj = found db m t cu l := by
  have h1 : ((refs.filter (·.1 = t)).map (·.2)).map proj =
      ((refs.map (fun x => (x.2.h, x.2.var, x.1, x.2.reqName))).filter (fun q => q.2.2.1 = t)).map (fun q => (cu, q.1, q.2.1, q.2.2.2)) := by
    have hc := h.cu
    clear h
    induction refs with
    | nil => rfl
    | cons x refs ih =>
      have ih := ih fun y hy => hc y (.tail _ hy)
      have hx := hc x (.head _)
      simp only [List.map_cons]
      by_cases e : x.1 = t
      · rw [List.filter_cons_of_pos (by simpa using e), List.filter_cons_of_pos (by simpa using e), List.map_cons, List.map_cons, List.map_cons, ih, proj, hx.1]
      · rw [List.filter_cons_of_neg (by simpa using e), List.filter_cons_of_neg (by simpa using e), ih]
  rw [h1, h.what, Generate.found]
  rw [List.filter_filterMap, List.map_filterMap]
  congr 1
  funext x
  cases noted db m x with
  | none => rfl
  | some y =>
    simp only [Option.map_some, Option.bind_some]
    by_cases e : y.2.1 = t
    · simp [Option.filter, e]
    · simp [Option.filter, e]

/-- The requests of a type that are found in the units. -/
def foundAll (db : Db) (vis : Str × CUnit → List Item) (m t : Str) : List (Str × Item × Var × Str) :=
  db.units.flatMap fun u => found db m t u.1 (vis u)

theorem found_request {db : Db} {m t cu : Str} (hm : m ≠ []) (ht : (95 : UInt8) ∉ t) (l : List Item) :
    found db m t cu l = l.filterMap fun h => (request db m t h).map fun x => (cu, h, x.1, x.2) := by
  unfold found
  congr 1
  funext h
  unfold noted request
  split
  · cases db.variables.lookup h.id with
    | none => rfl
    | some v =>
      simp only [Option.bind_some]
      cases v.name with
      | none => rfl
      | some n =>
        simp only [Option.bind_some]
        rw [asked_hit hm ht]
        cases hit m n with
        | none => rfl
        | some x =>
          simp only [Option.map_some, Option.bind_some]
          by_cases e : x.1 = t <;> simp [e]
  · rfl

theorem each_found {db : Db} {m : Str} {vis : Str × CUnit → List Item} : ∀ {us : List (Str × CUnit)} {refss : List (List (Str × Ref))},
    Each (fun u refs => ∃ l, All db u.2.hier l ∧ Present db l ∧ Refs db m u.1 l refs) us refss → (∀ u ∈ us, ∀ l, All db u.2.hier l → l = vis u) →
    (∀ t, ((refss.flatten.filter (·.1 = t)).map (·.2)).map proj = us.flatMap fun u => found db m t u.1 (vis u)) ∧ ∀ x ∈ refss.flatten, x.2.module = m
  | _, _, .nil, _ => ⟨fun _ => rfl, fun _ h => by simp at h⟩
  | _, _, .cons (as := us) ⟨l, h1, _, h3⟩ h, hv => by
    have ih := each_found h fun u hu => hv u (.tail _ hu)
    constructor
    · intro t
      rw [List.flatten_cons, List.filter_append, List.map_append, List.map_append, List.flatMap_cons, ih.1 t, h3.found t, hv _ (.head _) l h1]
    · intro x hx
      rw [List.flatten_cons, List.mem_append] at hx
      exact hx.elim (fun e => (h3.cu x e).2) (ih.2 x)

open Classical in
/-- Everything inside a unit. -/
noncomputable def visOf (db : Db) (u : Str × CUnit) : List Item :=
  if h : ∃ l, All db u.2.hier l then h.choose else []

theorem visOf_eq {db : Db} {u : Str × CUnit} {l : List Item} (h : All db u.2.hier l) : l = visOf db u := by
  have h' : ∃ l, All db u.2.hier l := ⟨l, h⟩
  rw [visOf, dif_pos h']
  exact h.unique h'.choose_spec

theorem Walked.eq {db : Db} {vis : Str × CUnit → List Item} (h : Walked db vis) {u : Str × CUnit} (hu : u ∈ db.units) : vis u = visOf db u := visOf_eq (h.all u hu)

theorem each_left {α β : Type} {R : α → β → Prop} : ∀ {as : List α} {bs : List β}, Each R as bs → ∀ a ∈ as, ∃ b ∈ bs, R a b
  | _, _, .nil, a, h => by simp at h
  | _, _, .cons (b := b) r rest, a, h => by
    rcases List.mem_cons.mp h with rfl | h
    · exact ⟨b, .head _, r⟩
    · obtain ⟨b', h1, h2⟩ := each_left rest a h
      exact ⟨b', .tail _ h1, h2⟩

theorem walkUnits_sound {db : Db} {m : Str} {res res' : Res} (h : walkUnits db m res = Go.ret res') :
    Walked db (visOf db) ∧ ∃ refs, res' = addAll refs res ∧ (∀ t, ((refs.filter (·.1 = t)).map (·.2)).map proj = foundAll db (visOf db) m t) ∧
      ∀ x ∈ refs, x.2.module = m := by
  obtain ⟨refss, h1, h2⟩ := foldlM_units h
  obtain ⟨h3, h4⟩ := each_found h2 (vis := visOf db) fun u _ l hl => visOf_eq hl
  refine ⟨⟨?_, ?_⟩, refss.flatten, h1, h3, h4⟩
  · intro u hu
    obtain ⟨_, _, l, hl, _⟩ := each_left h2 u hu
    rw [← visOf_eq hl]; exact hl
  · intro u hu
    obtain ⟨_, _, l, hl, hp, _⟩ := each_left h2 u hu
    rw [← visOf_eq hl]; exact hp

theorem walkUnits_total {db : Db} {vis : Str × CUnit → List Item} (hw : Walked db vis) (m : Str) (res : Res) : ∃ res', walkUnits db m res = Go.ret res' :=
  foldlM_units_total fun u hu => ⟨hw.all u hu, hw.present u hu⟩

theorem modules_foldlM {db : Db} : ∀ {ms : List Str} {res res' : Res}, ms.foldlM (fun res m => walkUnits db m res) res = Go.ret res' →
    ∃ refss : List (List (Str × Ref)), res' = addAll refss.flatten res ∧
      Each (fun m refs => (∀ t, ((refs.filter (·.1 = t)).map (·.2)).map proj = foundAll db (visOf db) m t) ∧ ∀ x ∈ refs, x.2.module = m) ms refss
  | [], _, _, h => ⟨[], (Go.ret_inj.mp h).symm, .nil⟩
  | m :: ms, res, res', h => by
    rw [List.foldlM_cons] at h
    obtain ⟨r1, h1, h⟩ := Go.bind_ret.mp h
    obtain ⟨_, refs, a1, a2, a3⟩ := walkUnits_sound h1
    obtain ⟨refss, b1, b2⟩ := modules_foldlM h
    exact ⟨refs :: refss, by rw [b1, a1, List.flatten_cons, addAll_append], .cons ⟨a2, a3⟩ b2⟩

theorem modules_total {db : Db} {vis : Str × CUnit → List Item} (hw : Walked db vis) : ∀ (ms : List Str) (res : Res), ∃ res', ms.foldlM (fun res m => walkUnits db m res) res = Go.ret res'
  | [], res => ⟨_, rfl⟩
  | m :: ms, res => by
    obtain ⟨r1, h1⟩ := walkUnits_total hw m res
    obtain ⟨r2, h2⟩ := modules_total hw ms r1
    exact ⟨r2, by rw [List.foldlM_cons, h1, ret_bind]; exact h2⟩

theorem filter_module {db : Db} {t m : Str} : ∀ {ms : List Str} {refss : List (List (Str × Ref))},
    Each (fun m refs => (∀ t, ((refs.filter (·.1 = t)).map (·.2)).map proj = foundAll db (visOf db) m t) ∧ ∀ x ∈ refs, x.2.module = m) ms refss → ms.Nodup →
    ((((refss.flatten.filter (·.1 = t)).map (·.2)).filter (·.module = m)).map proj) = if m ∈ ms then foundAll db (visOf db) m t else []
  | _, _, .nil, _ => by simp
  | _, _, .cons (a := a) (b := refs) (as := ms) (bs := refss) ⟨h1, h2⟩ h, hn => by
    rw [List.nodup_cons] at hn
    have ih := filter_module (t := t) (m := m) h hn.2
    rw [List.flatten_cons, List.filter_append, List.map_append, List.filter_append, List.map_append, ih]
    have hmod : ∀ r ∈ (refs.filter (·.1 = t)).map (·.2), r.module = a := by
      intro r hr
      obtain ⟨x, hx, rfl⟩ := List.mem_map.mp hr
      exact h2 x (List.mem_filter.mp hx).1
    by_cases e : m = a
    · subst e
      rw [List.filter_eq_self.mpr (by intro r hr; simpa using hmod r hr), h1 t, if_neg hn.1, if_pos (.head _), List.append_nil]
    · rw [List.filter_eq_nil_iff.mpr (by
        intro r hr
        have := hmod r hr
        simp only [this, decide_eq_true_eq]
        exact fun e' => e e'.symm), List.map_nil, List.nil_append]
      by_cases e' : m ∈ ms
      · rw [if_pos e', if_pos (.tail _ e')]
      · rw [if_neg e', if_neg (by simp [e, e'])]

theorem nodup_of_sorted {l : List Str} (h : l.Pairwise EntryDb.Spec.Before) : l.Nodup := by
  unfold List.Nodup
  refine h.imp ?_
  intro a b h e
  subst e
  exact EntryDb.Spec.Before.irrefl _ h

theorem foldl_keys : ∀ (rs : List Ref) (d : List (Str × Unit)), (d.map (·.1)).Pairwise EntryDb.Spec.Before →
    ((rs.foldl (fun d r => dictUpd r.reqName () id d) d).map (·.1)).Pairwise EntryDb.Spec.Before ∧
    ∀ m, m ∈ (rs.foldl (fun d r => dictUpd r.reqName () id d) d).map (·.1) ↔ m ∈ d.map (·.1) ∨ ∃ r ∈ rs, r.reqName = m
  | [], d, h => ⟨h, by simp⟩
  | r :: rs, d, h => by
    have ih := foldl_keys rs _ (dictUpd_sorted r.reqName () id d h)
    refine ⟨ih.1, fun m => ?_⟩
    rw [List.foldl_cons, ih.2 m, dictUpd_keys]
    simp only [List.mem_cons, exists_eq_or_imp]
    constructor
    · rintro ((rfl | h) | h)
      · exact .inr (.inl rfl)
      · exact .inl h
      · exact .inr (.inr h)
    · rintro (h | rfl | h)
      · exact .inl (.inr h)
      · exact .inl (.inl rfl)
      · exact .inr h

theorem modules_spec (tmp : Res) : (modules tmp).Nodup ∧ ∀ m, m ∈ modules tmp ↔ m = go! "dflt" ∨ ∃ r ∈ get tmp (go! "module"), r.reqName = m := by
  have h0 : ((dictUpd (go! "dflt") () id []).map (·.1)).Pairwise EntryDb.Spec.Before := by simp [dictUpd]
  have := foldl_keys ((tmp.lookup (go! "module")).getD []) _ h0
  refine ⟨nodup_of_sorted this.1, fun m => ?_⟩
  rw [modules, this.2 m, get]
  simp [dictUpd]

theorem sorted_nil : Sorted ([] : Res) := List.Pairwise.nil

/-- The request types of the passes with a module. -/
theorem build_sound {db : Db} {ms : List Str} {res : Res} (h : buildRequests db = Go.ret (ms, res)) :
    Walked db (visOf db) ∧ ms.Nodup ∧
    (∀ m, m ∈ ms ↔ m = go! "dflt" ∨ ∃ x ∈ foundAll db (visOf db) [] (go! "module"), x.2.2.2 = m) ∧
    ∀ m t, ((get res t).filter (·.module = m)).map proj = if m ∈ ms then foundAll db (visOf db) m t else [] := by
  obtain ⟨tmp, h1, h⟩ := Go.bind_ret.mp h
  obtain ⟨r, h2, h⟩ := Go.bind_ret.mp h
  have := Go.ret_inj.mp h
  simp only [Prod.mk.injEq] at this
  obtain ⟨rfl, rfl⟩ := this
  obtain ⟨hw, refs, a1, a2, _⟩ := walkUnits_sound h1
  obtain ⟨hn, hm⟩ := modules_spec tmp
  refine ⟨hw, hn, ?_, ?_⟩
  · intro m
    rw [hm m]
    have : (get tmp (go! "module")).map proj = foundAll db (visOf db) [] (go! "module") := by
      rw [a1, get_addAll _ sorted_nil, ← a2]
      simp [get]
    rw [← this]
    simp only [List.mem_map]
    constructor
    · rintro (h | ⟨r, h, e⟩)
      · exact .inl h
      · exact .inr ⟨_, ⟨r, h, rfl⟩, e⟩
    · rintro (h | ⟨_, ⟨r, h, rfl⟩, e⟩)
      · exact .inl h
      · exact .inr ⟨r, h, e⟩
  · intro m t
    obtain ⟨refss, b1, b2⟩ := modules_foldlM h2
    rw [b1, get_addAll _ sorted_nil]
    have : get ([] : Res) t = [] := rfl
    rw [this, List.nil_append]
    exact filter_module b2 hn

theorem build_total {db : Db} {vis : Str × CUnit → List Item} (hw : Walked db vis) : ∃ r, buildRequests db = Go.ret r := by
  obtain ⟨tmp, h1⟩ := walkUnits_total hw [] []
  obtain ⟨res, h2⟩ := modules_total hw (modules tmp) []
  exact ⟨(modules tmp, res), by rw [buildRequests, h1, ret_bind, h2, ret_bind]; rfl⟩

end Verif.Generate
