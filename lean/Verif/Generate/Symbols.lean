import Verif.Generate.Requests
/-
Lemmas about the answers for global symbols and about tables of names.
-/
namespace Verif.Generate
open Verif Verif.Generate.Spec
open Verif.GoDedup (Go decInt)
open Verif.GoDedup.Spec (Each)
open Verif.EntryDb (dictUpd quote unquote Rec FileItem dget dictUpd_sorted dget_dictUpd dictUpd_keys)

theorem each_all {db : Db} {t : Str} : ∀ {ms : List Str} {refss : List (List (Str × Ref))},
    Each (fun m refs => (∀ t, ((refs.filter (·.1 = t)).map (·.2)).map proj = foundAll db (visOf db) m t) ∧ ∀ x ∈ refs, x.2.module = m) ms refss →
    ((refss.flatten.filter (·.1 = t)).map (·.2)).map proj = ms.flatMap fun m => foundAll db (visOf db) m t
  | _, _, .nil => rfl
  | _, _, .cons ⟨h1, _⟩ h => by
    rw [List.flatten_cons, List.filter_append, List.map_append, List.map_append, List.flatMap_cons, each_all h, h1 t]

theorem build_all {db : Db} {ms : List Str} {res : Res} (h : buildRequests db = Go.ret (ms, res)) (t : Str) :
    (get res t).map proj = ms.flatMap fun m => foundAll db (visOf db) m t := by
  obtain ⟨tmp, h1, h⟩ := Go.bind_ret.mp h
  obtain ⟨r, h2, h⟩ := Go.bind_ret.mp h
  have := Go.ret_inj.mp h
  simp only [Prod.mk.injEq] at this
  obtain ⟨rfl, rfl⟩ := this
  obtain ⟨refss, b1, b2⟩ := modules_foldlM h2
  rw [b1, get_addAll _ sorted_nil]
  have : get ([] : Res) t = [] := rfl
  rw [this, List.nil_append]
  exact each_all b2

/-! ### Global symbols -/

theorem globNamespace_flat {db : Db} : ∀ {hier : List Item}, (∀ x ∈ hier, ¬ IsScope x ∧ (x.kind = go! "Variable" → ∃ v, IsVar db x v)) →
    globNamespace db hier = Go.ret ()
  | [], _ => rfl
  | x :: hier, h => by
    obtain ⟨h1, h2⟩ := h x (.head _)
    have h3 : ¬ (x.kind = go! "Variable" ∧ db.variables.lookup x.id = none) := by
      rintro ⟨a, b⟩
      obtain ⟨v, _, hv⟩ := h2 a
      rw [b] at hv
      cases hv
    have h4 : scopeMap db x.kind = none := by
      rw [isScope_iff db, Option.not_isSome_iff_eq_none] at h1
      exact h1
    rw [globNamespace, if_neg h3]
    simp only [h4]
    exact globNamespace_flat fun y hy => h y (.tail _ hy)

theorem globHier_eq {db : Db} {name : Str} : ∀ {hier : List Item}, (∀ o ∈ hier, Flat db o) →
    globHier db name hier = Go.ret (((hier.filter fun o => nameOf db o = some name).map Item.id).map fun i => (name, i))
  | [], _ => rfl
  | o :: hier, h => by
    have ih := globHier_eq (db := db) (name := name) fun x hx => h x (.tail _ hx)
    have hk := h o (.head _)
    have key : ∀ (n : Option (Option Str)), nameOf db o = n.bind id → (if n = some (some name) then [(name, o.id)] else []) ++
        ((hier.filter fun o => nameOf db o = some name).map Item.id).map (fun i => (name, i)) =
        (((o :: hier).filter fun o => nameOf db o = some name).map Item.id).map fun i => (name, i) := by
      intro n hn
      by_cases e : nameOf db o = some name
      · rw [List.filter_cons_of_pos (by simpa using e)]
        have : n = some (some name) := by
          rw [e] at hn
          match n, hn with
          | some (some m), hn => simp only [Option.bind_some, id] at hn; rw [hn]
        rw [if_pos this]; rfl
      · rw [List.filter_cons_of_neg (by simpa using e), if_neg (by rintro rfl; exact e hn), List.nil_append]
    simp only [globHier]
    split
    · rename_i h1
      rw [ret_bind, ih, ret_bind, pure_eq, key]
      simp only [nameOf, if_pos h1]
      cases db.variables.lookup o.id <;> rfl
    · rename_i h1
      split
      · rename_i h2
        rw [ret_bind, ih, ret_bind, pure_eq, key]
        simp only [nameOf, if_neg h1, if_pos h2]
        cases db.subprograms.lookup o.id <;> rfl
      · rename_i h2
        have := key none (by simp only [nameOf, if_neg h1, if_neg h2]; rfl)
        simp only [reduceCtorEq, if_false, List.nil_append] at this
        split
        · rename_i h3
          obtain ⟨l, hl, hf⟩ := hk h3
          rw [h3, contents_eq] at hl
          simp only [scopeMap] at hl
          obtain ⟨s, hs, rfl⟩ := Option.map_eq_some_iff.mp hl
          simp only [hs]
          rw [globNamespace_flat hf, ret_bind, ret_bind, ih, ret_bind, pure_eq, List.nil_append, this]
        · rw [ret_bind, ih, ret_bind, pure_eq, List.nil_append, this]

theorem globAll_eq {db : Db} {name : Str} : ∀ {us : List (Str × CUnit)}, (∀ u ∈ us, ∀ o ∈ u.2.hier, Flat db o) →
    globAll db name us = Go.ret ((firstOf (us.map fun u => top db u.2 name)).map fun i => (name, i))
  | [], _ => rfl
  | u :: us, h => by
    rw [globAll, globHier_eq (h u (.head _)), ret_bind, List.map_cons, firstOf, globAll_eq fun x hx => h x (.tail _ hx)]
    by_cases e : top db u.2 name = []
    · rw [if_pos e, if_pos (by rw [top] at e; rw [e]; rfl)]
    · rw [if_neg e, if_neg (by rw [top] at e; simpa using e)]; rfl

theorem globRequest_eq {db : Db} {r : Ref} {u : CUnit} (hu : db.units.lookup r.cu = some u) (h : ∀ u ∈ db.units, ∀ o ∈ u.2.hier, Flat db o) :
    globRequest db r = Go.ret ((answer db u r.reqName).map fun i => (r.reqName, i)) := by
  have hm : (r.cu, u) ∈ db.units := by rw [lookup_dget] at hu; exact EntryDb.dget_mem hu
  unfold globRequest
  simp only [hu]
  rw [globHier_eq (h _ hm), ret_bind, answer, firstOf, globAll_eq h]
  by_cases e : top db u r.reqName = []
  · rw [if_pos e, if_pos (by rw [top] at e; rw [e]; rfl)]
  · rw [if_neg e, if_neg (by rw [top] at e; simpa using e)]; rfl

theorem mapM_ret_of {α β : Type} {f : α → Go β} {g : α → β} : ∀ {l : List α}, (∀ a ∈ l, f a = Go.ret (g a)) → l.mapM f = Go.ret (l.map g)
  | [], _ => by simp [pure_eq]
  | a :: l, h => by
    rw [List.mapM_cons, h a (.head _), ret_bind, mapM_ret_of fun x hx => h x (.tail _ hx), ret_bind]; rfl

theorem lookup_of_mem {V : Type} : ∀ {us : List (Str × V)}, (us.map (·.1)).Nodup → ∀ {u : Str × V}, u ∈ us → us.lookup u.1 = some u.2
  | [], _, u, h => by simp at h
  | x :: us, hn, u, h => by
    simp only [List.map_cons, List.nodup_cons] at hn
    obtain ⟨a, v⟩ := x
    rcases List.mem_cons.mp h with rfl | hm
    · simp [List.lookup]
    · have hne : (u.1 == a) = false := by
        simp only [beq_eq_false_iff_ne]
        rintro rfl
        exact hn.1 (List.mem_map_of_mem (f := (·.1)) hm)
      simp only [List.lookup, hne]
      exact lookup_of_mem hn.2 hm

/-! ### Tables of names -/

theorem byName_fold : ∀ (m : List (Str × Option Str)) (d : List (Str × List Str)) (pre : List (Str × Option Str)),
    (d.map (·.1)).Pairwise EntryDb.Spec.Before → (∀ x ∈ d, ∃ s, x.1 = quote s) →
    (∀ name, dget (quote name) d = if idsOf pre name = [] then none else some (idsOf pre name)) →
    let d' := m.foldl (fun d x => dictUpd (quote (x.2.getD [])) [x.1] (fun ids => ids ++ [x.1]) d) d
    (d'.map (·.1)).Pairwise EntryDb.Spec.Before ∧ (∀ x ∈ d', ∃ s, x.1 = quote s) ∧
    ∀ name, dget (quote name) d' = if idsOf (pre ++ m) name = [] then none else some (idsOf (pre ++ m) name)
  | [], d, pre, h1, h2, h3 => by simp only [List.foldl_nil, List.append_nil]; exact ⟨h1, h2, h3⟩
  | x :: m, d, pre, h1, h2, h3 => by
    simp only [List.foldl_cons]
    have := byName_fold m (dictUpd (quote (x.2.getD [])) [x.1] (fun ids => ids ++ [x.1]) d) (pre ++ [x]) (dictUpd_sorted _ _ _ _ h1) ?_ ?_
    · simpa [List.append_assoc] using this
    · intro y hy
      rcases (dictUpd_keys _ _ _ d y.1).mp (List.mem_map_of_mem (f := (·.1)) hy) with e | e
      · exact ⟨_, e⟩
      · obtain ⟨z, hz, e⟩ := List.mem_map.mp e
        obtain ⟨s, hs⟩ := h2 z hz
        exact ⟨s, e ▸ hs⟩
    · intro name
      rw [dget_dictUpd _ _ _ _ _ h1]
      by_cases e : x.2.getD [] = name
      · subst e
        rw [if_pos rfl, h3]
        have : idsOf (pre ++ [x]) (x.2.getD []) = idsOf pre (x.2.getD []) ++ [x.1] := by
          simp [idsOf]
        rw [this]
        by_cases e' : idsOf pre (x.2.getD []) = []
        · simp [e']
        · simp [e']
      · rw [if_neg (fun h => e (EntryDb.quote_inj h).symm), h3]
        have : idsOf (pre ++ [x]) name = idsOf pre name := by
          simp [idsOf, e]
        rw [this]

theorem byName_spec (m : List (Str × Option Str)) :
    ((byName m).map (·.1)).Pairwise EntryDb.Spec.Before ∧ (∀ x ∈ byName m, ∃ s, x.1 = quote s) ∧
    ∀ name, dget (quote name) (byName m) = if idsOf m name = [] then none else some (idsOf m name) := by
  have := byName_fold m [] [] (by simp) (by simp) (by intro name; simp [dget, idsOf])
  rw [List.nil_append] at this
  exact this

end Verif.Generate
