import Verif.Generate.Places
import Verif.Generate.Symbols
import Verif.EntryDb.Props
/-
From the lemmas about requests, places and symbols to the terms of the specification.
-/
namespace Verif.Generate
open Verif Verif.Generate.Spec
open Verif.GoDedup (Go decInt decInt_no decInt_inj split_mark)
open Verif.GoDedup.Spec (Each)
open Verif.EntryDb (dictUpd quote unquote Rec FileItem dget dictUpd_sorted dget_dictUpd dictUpd_keys)
open Verif.EntryDb.Spec (unique matching Before)

theorem walked_iff {db : Db} {vis : Str × CUnit → List Item} : Walked db vis ↔ Visits db vis := by
  constructor
  · intro h
    exact ⟨h.all, fun u hu x hx hk => by
      obtain ⟨v, hv⟩ := Option.isSome_iff_exists.mp (h.present u hu x hx hk)
      exact ⟨v, hk, hv⟩⟩
  · intro h
    exact ⟨h.all, fun u hu x hx hk => by
      obtain ⟨v, _, hv⟩ := h.vars u hu x hx hk
      rw [hv]; rfl⟩

theorem Visits.unique {db : Db} {vis vis' : Str × CUnit → List Item} (h : Visits db vis) (h' : Visits db vis') {u : Str × CUnit} (hu : u ∈ db.units) : vis u = vis' u :=
  (h.all u hu).unique (h'.all u hu)

theorem flatMap_congr {α β : Type} {f g : α → List β} : ∀ {l : List α}, (∀ a ∈ l, f a = g a) → l.flatMap f = l.flatMap g
  | [], _ => rfl
  | a :: l, h => by rw [List.flatMap_cons, List.flatMap_cons, h a (.head _), flatMap_congr fun x hx => h x (.tail _ hx)]

theorem foundAll_requests {db : Db} {vis : Str × CUnit → List Item} (hv : Visits db vis) {m t : Str} (hm : m ≠ []) (ht : (95 : UInt8) ∉ t) :
    foundAll db (visOf db) m t = requests db vis m t := by
  unfold foundAll requests
  refine flatMap_congr fun u hu => ?_
  rw [found_request hm ht, ← (walked_iff.mpr hv).eq hu]

theorem isModule_iff {db : Db} {vis : Str × CUnit → List Item} (hv : Visits db vis) {m : Str} :
    (m = go! "dflt" ∨ ∃ x ∈ foundAll db (visOf db) [] (go! "module"), x.2.2.2 = m) ↔ IsModule db vis m := by
  unfold IsModule
  refine or_congr_right ?_
  unfold foundAll found
  simp only [List.mem_flatMap, List.mem_filterMap]
  constructor
  · rintro ⟨x, ⟨u, hu, h, hh, hx⟩, rfl⟩
    refine ⟨u, hu, h, by rw [(walked_iff.mpr hv).eq hu]; exact hh, ?_⟩
    obtain ⟨y, hy, e⟩ := Option.bind_eq_some_iff.mp hx
    split at e
    · rename_i et
      cases e
      unfold noted at hy
      split at hy
      · rename_i hk
        obtain ⟨v, hv', hy⟩ := Option.bind_eq_some_iff.mp hy
        obtain ⟨n, hn, hy⟩ := Option.bind_eq_some_iff.mp hy
        obtain ⟨⟨t, r⟩, hh', rfl⟩ := Option.map_eq_some_iff.mp hy
        simp only at et
        subst et
        refine ⟨v, ⟨hk, hv'⟩, ?_⟩
        rw [hn, (hit_iff.mp hh').2]
        rfl
      · cases hy
    · cases e
  · rintro ⟨u, hu, h, hh, v, ⟨hk, hv'⟩, hn⟩
    refine ⟨(u.1, h, v, m), ⟨u, hu, h, by rw [← (walked_iff.mpr hv).eq hu]; exact hh, ?_⟩, rfl⟩
    have : hit [] (go! "metac__module_" ++ m) = some (go! "module", m) := hit_iff.mpr ⟨by decide, rfl⟩
    rw [noted_eq hk hv' hn, this]
    rfl

/-- The references of a module are the requests of the specification. -/
theorem refs_requests {db : Db} {ms : List Str} {res : Res} (h : buildRequests db = Go.ret (ms, res)) {vis : Str × CUnit → List Item} (hv : Visits db vis) {m t : Str}
    (hm : m ∈ ms) (h0 : m ≠ []) (ht : (95 : UInt8) ∉ t) : ((get res t).filter (·.module = m)).map proj = requests db vis m t := by
  rw [(build_sound h).2.2.2, if_pos hm, foundAll_requests hv h0 ht]

/-! ### Places -/

/-- As `refAnswers`, of the parts of a request. -/
def partAnswers (db : Db) (x : Str × Item × Var × Str) (file loc name : Str) : List Str :=
  match db.units.lookup x.1 with
  | none => []
  | some u =>
    match placeOf u x.2.1 with
    | none => []
    | some p => if p.1 = file ∧ x.2.2.1.name.getD [] = loc then declared db u p x.2.2.1 name else []

theorem refAnswers_part {db : Db} (rs : List Ref) (file loc name : Str) :
    (rs.flatMap fun r => refAnswers db r file loc name) = (rs.map proj).flatMap fun x => partAnswers db x file loc name := by
  rw [List.flatMap_map]; rfl

theorem request_some {db : Db} {m t : Str} {h : Item} {v : Var} {r : Str} (hr : request db m t h = some (v, r)) :
    IsVar db h v ∧ ∃ n, v.name = some n ∧ asked m t n = some r := by
  unfold request at hr
  split at hr
  · rename_i hk
    obtain ⟨v', hv', hr⟩ := Option.bind_eq_some_iff.mp hr
    obtain ⟨n, hn, hr⟩ := Option.bind_eq_some_iff.mp hr
    obtain ⟨r', hr', e⟩ := Option.map_eq_some_iff.mp hr
    cases e
    exact ⟨⟨hk, hv'⟩, n, hn, hr'⟩
  · cases hr

theorem flatMap_filterMap {α β γ : Type} {f : α → Option β} {g : β → List γ} : ∀ (l : List α),
    (l.filterMap f).flatMap g = l.flatMap fun a => ((f a).map g).getD []
  | [] => rfl
  | a :: l => by
    rw [List.flatMap_cons, ← flatMap_filterMap l]
    cases h : f a with
    | none => rw [List.filterMap_cons_none h]; rfl
    | some b => rw [List.filterMap_cons_some h, List.flatMap_cons]; rfl

theorem partAnswers_answers {db : Db} (hn : (db.units.map (·.1)).Nodup) {vis : Str × CUnit → List Item} {m : Str} (file loc name : Str) :
    ((requests db vis m (go! "entry")).flatMap fun x => partAnswers db x file loc name) =
      db.units.flatMap fun u => (vis u).flatMap fun h => answers db m u.2 h file loc name := by
  unfold requests
  rw [List.flatMap_assoc]
  refine flatMap_congr fun u hu => ?_
  rw [flatMap_filterMap]
  refine flatMap_congr fun h _ => ?_
  unfold answers
  cases hr : request db m (go! "entry") h with
  | none => rfl
  | some x =>
    obtain ⟨v, r⟩ := x
    obtain ⟨_, n, hn', _⟩ := request_some hr
    simp only [Option.map_some, Option.getD_some, partAnswers, lookup_of_mem hn hu]
    cases hp : placeOf u.2 h with
    | none => rfl
    | some p => simp [hn']

theorem get_lookup {res : Res} {t : Str} {rs : List Ref} (h : res.lookup t = some rs) : get res t = rs := by
  unfold get; rw [h]; rfl

/-- The generated table answers the lookup with the answers of the specification. -/
theorem entryDb_lookup {db : Db} (hr : Regular db) {ms : List Str} {res : Res} (h : buildRequests db = Go.ret (ms, res)) {vis : Str × CUnit → List Item} (hv : Visits db vis)
    {m : Str} (hm : m ∈ ms) (h0 : m ≠ []) {o : Option (List (FileItem Str))} (ho : entryDb db m res = Go.ret o) :
    EntryDb.Spec.Sorted (o.getD []) ∧ ∀ file loc name,
      EntryDb.lookup (some (o.getD [])) (some (some file, some loc)) (some name) =
        .ok (unique (db.units.flatMap fun u => (vis u).flatMap fun h => answers db m u.2 h file loc name)) := by
  have hreq := refs_requests h hv hm h0 (t := go! "entry") (by decide)
  have key : ∃ recs : List (Rec Str), o.getD [] = EntryDb.generate recs ∧ (∀ r ∈ recs, EntryDb.Spec.NoBackslash r.file ∧ EntryDb.Spec.IsIdent r.loc ∧ EntryDb.Spec.IsIdent r.name) ∧
      ∀ file loc name, (matching recs file loc name).Perm (db.units.flatMap fun u => (vis u).flatMap fun h => answers db m u.2 h file loc name) := by
    unfold entryDb at ho
    cases hl : res.lookup (go! "entry") with
    | none =>
      rw [hl] at ho
      have : get res (go! "entry") = [] := by unfold get; rw [hl]; rfl
      rw [this] at hreq
      refine ⟨[], by rw [← Go.ret_inj.mp ho]; rfl, by simp, fun file loc name => ?_⟩
      rw [← partAnswers_answers hr.units, ← hreq]
      exact .refl _
    | some rs =>
      rw [hl] at ho
      rw [get_lookup hl] at hreq
      obtain ⟨⟨ks, recs⟩, h1, h2⟩ := Go.bind_ret.mp ho
      obtain ⟨recss, _, a1, _, _, _, a5⟩ := addRequests_ret h1
      simp only [List.nil_append] at a5
      subst a5
      refine ⟨recss.flatten, ?_, ?_, fun file loc name => ?_⟩
      · rw [← Go.ret_inj.mp h2]
        split
        · rename_i e
          simp only [EntryDb.generate, e]; rfl
        · rfl
      · intro r hflat
        obtain ⟨rl, hrl, hr'⟩ := List.mem_flatten.mp hflat
        clear hflat
        obtain ⟨ref, hmem, hrec⟩ : ∃ ref ∈ rs.filter (·.module = m), Recs db ref rl := by
          clear h1 h2 hreq hr'
          generalize rs.filter (·.module = m) = l at a1
          induction a1 with
          | nil => simp at hrl
          | cons h hs ih =>
            rcases List.mem_cons.mp hrl with rfl | hrl
            · exact ⟨_, .head _, h⟩
            · obtain ⟨ref, hm, hh⟩ := ih hrl; exact ⟨ref, .tail _ hm, hh⟩
        refine hrec.regular hr ?_ r hr'
        have : proj ref ∈ requests db vis m (go! "entry") := by rw [← hreq]; exact List.mem_map_of_mem hmem
        unfold requests at this
        obtain ⟨u, _, hx⟩ := List.mem_flatMap.mp this
        obtain ⟨h', _, hx⟩ := List.mem_filterMap.mp hx
        obtain ⟨⟨v, q⟩, hq, e⟩ := Option.map_eq_some_iff.mp hx
        obtain ⟨⟨_, hv'⟩, n, hn, _⟩ := request_some hq
        simp only [proj, Prod.mk.injEq] at e
        rw [← e.2.2.1, hn]
        exact hr.vars _ _ _ hv' hn
      · rw [matching_flatten, ← partAnswers_answers hr.units, ← hreq, ← refAnswers_part]
        exact each_matching hr a1
  obtain ⟨recs, e, hreg, hperm⟩ := key
  have := EntryDb.C51_generated_table_partial recs hreg
  rw [e]
  refine ⟨this.1, fun file loc name => ?_⟩
  rw [this.2, unique_perm (hperm file loc name)]

/-! ### When the tables are generated -/

theorem split_last {m : UInt8} {s s' t t' : Str} (ht : m ∉ t) (ht' : m ∉ t') (h : s ++ m :: t = s' ++ m :: t') : s = s' ∧ t = t' := by
  have h' := congrArg List.reverse h
  simp only [List.reverse_append, List.reverse_cons, List.append_assoc, List.singleton_append] at h'
  have := split_mark (s := t.reverse) (s' := t'.reverse) (m := m) (by simpa using ht) (by simpa using ht') (by simpa using h')
  simpa [and_comm] using this

theorem placeText_inj {f f' : Str} {l l' : Int} {n n' : Str} (hn : EntryDb.Spec.IsIdent n) (hn' : EntryDb.Spec.IsIdent n') (h : placeText f l n = placeText f' l' n') :
    f = f' ∧ l = l' ∧ n = n' := by
  have no32 : ∀ {n : Str}, EntryDb.Spec.IsIdent n → (32 : UInt8) ∉ n := by
    intro n hn hc
    have := hn _ hc
    revert this; decide
  unfold placeText at h
  have h1 : (f ++ [58] ++ decInt l) ++ (32 : UInt8) :: n = (f' ++ [58] ++ decInt l') ++ (32 : UInt8) :: n' := by simpa using h
  obtain ⟨e1, e2⟩ := split_last (no32 hn) (no32 hn') h1
  have h2 : f ++ (58 : UInt8) :: decInt l = f' ++ (58 : UInt8) :: decInt l' := by simpa using e1
  obtain ⟨e3, e4⟩ := split_last (decInt_no (by decide) (by decide)) (decInt_no (by decide) (by decide)) h2
  exact ⟨e3, decInt_inj e4, e2⟩

theorem each_keys {db : Db} : ∀ {rs : List Ref} {ks : List Str}, Each (KeyOf db) rs ks →
    (rs.map proj).map (whereAsked db) = (rs.map proj).map (whereAsked db) ∧ ∃ ws : List (Str × Int × Str), (rs.map proj).map (whereAsked db) = ws.map some ∧ ks = ws.map fun w => placeText w.1 w.2.1 w.2.2
  | _, _, .nil => ⟨rfl, [], rfl, rfl⟩
  | _, _, .cons ⟨u, p, h1, h2, h3⟩ hs => by
    obtain ⟨_, ws, e1, e2⟩ := each_keys hs
    refine ⟨rfl, (p.1, p.2, _) :: ws, ?_, by rw [List.map_cons, ← e2, h3]⟩
    rw [List.map_cons, List.map_cons, e1, List.map_cons]
    congr 1
    simp [whereAsked, proj, h1, h2]

theorem nodup_of_map {α β : Type} {f : α → β} : ∀ {l : List α}, (l.map f).Nodup → l.Nodup
  | [], _ => .nil
  | a :: l, h => by
    simp only [List.map_cons, List.nodup_cons] at h ⊢
    exact ⟨fun hm => h.1 (List.mem_map_of_mem hm), nodup_of_map h.2⟩

theorem entryDb_nodup {db : Db} {ms : List Str} {res : Res} (h : buildRequests db = Go.ret (ms, res)) {vis : Str × CUnit → List Item} (hv : Visits db vis)
    {m : Str} (hm : m ∈ ms) (h0 : m ≠ []) {o : Option (List (FileItem Str))} (ho : entryDb db m res = Go.ret o) :
    ((requests db vis m (go! "entry")).map (whereAsked db)).Nodup ∧ ∀ x ∈ requests db vis m (go! "entry"), (whereAsked db x).isSome := by
  have hreq := refs_requests h hv hm h0 (t := go! "entry") (by decide)
  unfold entryDb at ho
  cases hl : res.lookup (go! "entry") with
  | none =>
    have : get res (go! "entry") = [] := by unfold get; rw [hl]; rfl
    rw [this] at hreq
    rw [← hreq]; simp
  | some rs =>
    rw [hl] at ho
    rw [get_lookup hl] at hreq
    obtain ⟨⟨ks, recs⟩, h1, h2⟩ := Go.bind_ret.mp ho
    obtain ⟨_, ks', _, a2, a3, _, _⟩ := addRequests_ret h1
    obtain ⟨_, ws, e1, e2⟩ := each_keys a2
    rw [hreq] at e1
    rw [e2] at a3
    refine ⟨?_, fun x hx => ?_⟩
    · rw [e1]
      have := nodup_of_map a3
      unfold List.Nodup at this ⊢
      rw [List.pairwise_map]
      exact this.imp fun h e => h (Option.some.inj e)
    · have : whereAsked db x ∈ ws.map some := by rw [← e1]; exact List.mem_map_of_mem hx
      obtain ⟨w, _, e⟩ := List.mem_map.mp this
      rw [← e]; rfl

theorem parentHier_total {db : Db} {u : CUnit} {v : Var} (h : Known db u v) : parentHier db v = Go.ret (beside db v) := by
  have : ∃ hier, parentHier db v = Go.ret hier := by
    unfold parentHier
    rcases h.1 with ⟨hk, hs⟩ | hs
    · have hn : scopeMap db v.parentKind = none := by rw [hk]; rfl
      obtain ⟨u', hu⟩ := Option.isSome_iff_exists.mp hs
      simp only [hn, if_pos hk, hu]
      exact ⟨_, rfl⟩
    · rw [contents_eq] at hs
      obtain ⟨l, hl⟩ := Option.isSome_iff_exists.mp hs
      obtain ⟨mp, h1, h2⟩ := Option.bind_eq_some_iff.mp hl
      obtain ⟨s, h3, _⟩ := Option.map_eq_some_iff.mp h2
      simp only [h1, h3]
      exact ⟨_, rfl⟩
  obtain ⟨hier, h1⟩ := this
  rw [h1, parentHier_ret h1]

theorem addSibling_total {db : Db} {u : CUnit} {o : Item} (h1 : o.kind = go! "Variable" → (db.variables.lookup o.id).isSome ∧ (placeOf u o).isSome)
    (h2 : o.kind = go! "Subprogram" → (db.subprograms.lookup o.id).isSome ∧ (placeOf u o).isSome) (p : Str × Int) (vars : List (Str × Str)) :
    ∃ vars', addSibling db u p vars o = Go.ret vars' := by
  have step : ∀ (name : Option (Option Str)), name.isSome → (placeOf u o).isSome → ∃ vars',
      (do let q ← place u o
          if q = p then
            match name with
            | none => Go.fail
            | some none => Go.ret vars
            | some (some n) => Go.ret (dictUpd o.id n id vars)
          else Go.ret vars) = (Go.ret vars' : Go _) := by
    intro name hn hp
    obtain ⟨q, hq⟩ := Option.isSome_iff_exists.mp hp
    rw [place_iff.mpr hq, ret_bind]
    split
    · match name, hn with
      | some none, _ => exact ⟨_, rfl⟩
      | some (some n), _ => exact ⟨_, rfl⟩
    · exact ⟨_, rfl⟩
  unfold addSibling
  simp only
  split
  · rename_i hk; exact step _ (by rw [Option.isSome_map]; exact (h1 hk).1) (h1 hk).2
  · split
    · rename_i hk; exact step _ (by rw [Option.isSome_map]; exact (h2 hk).1) (h2 hk).2
    · exact ⟨_, rfl⟩

theorem siblings_total {db : Db} {u : CUnit} {v : Var} (h : Known db u v) (p : Str × Int) : ∃ vars, siblings db u p v = Go.ret vars := by
  unfold siblings
  rw [parentHier_total h, ret_bind]
  have := h.2
  generalize beside db v = l at this
  generalize ([] : List (Str × Str)) = vars
  induction l generalizing vars with
  | nil => exact ⟨_, rfl⟩
  | cons o l ih =>
    obtain ⟨v1, h1⟩ := addSibling_total (this o (.head _)).1 (this o (.head _)).2 p vars
    rw [List.foldlM_cons, h1, ret_bind]
    exact ih (fun x hx => this x (.tail _ hx)) v1

theorem addRequests_total {db : Db} : ∀ {rs : List Ref} {ws : List (Str × Int × Str)} {st : List Str × List (Rec Str)},
    (rs.map proj).map (whereAsked db) = ws.map some → (∀ r ∈ rs, ∀ u, db.units.lookup r.cu = some u → Known db u r.var) →
    (ws.map fun w => placeText w.1 w.2.1 w.2.2).Nodup → (∀ w ∈ ws, placeText w.1 w.2.1 w.2.2 ∉ st.1) →
    ∃ st', rs.foldlM (addRequest db) st = Go.ret st'
  | [], _, st, _, _, _, _ => ⟨st, rfl⟩
  | r :: rs, [], _, e, _, _, _ => by simp at e
  | r :: rs, w :: ws, st, e, hk, hn, hd => by
    simp only [List.map_cons, List.cons.injEq] at e
    simp only [List.map_cons, List.nodup_cons] at hn
    obtain ⟨u, hu, e1⟩ := Option.bind_eq_some_iff.mp e.1
    obtain ⟨p, hp, e2⟩ := Option.map_eq_some_iff.mp e1
    obtain ⟨vars, hv⟩ := siblings_total (hk r (.head _) u hu) p
    subst e2
    have hstep : addRequest db st r = Go.ret (placeText p.1 p.2 r.reqName :: st.1, st.2 ++ vars.map fun x => { file := p.1, loc := r.var.name.getD [], name := x.2, entry := x.1 }) := by
      unfold addRequest
      have hu' : db.units.lookup r.cu = some u := hu
      have hp' : placeOf u r.h = some p := hp
      simp only [hu', place_iff.mpr hp', ret_bind]
      rw [if_neg (by exact hd _ (.head _))]
      rw [hv, ret_bind]; rfl
    rw [List.foldlM_cons, hstep, ret_bind]
    refine addRequests_total e.2 (fun x hx => hk x (.tail _ hx)) hn.2 fun w' hw' => ?_
    simp only [List.mem_cons, not_or]
    refine ⟨fun e => hn.1 ?_, hd w' (.tail _ hw')⟩
    exact List.mem_map.mpr ⟨w', hw', e⟩

theorem all_some {α β : Type} {f : α → Option β} : ∀ {l : List α}, (∀ a ∈ l, (f a).isSome) → ∃ ws : List β, l.map f = ws.map some
  | [], _ => ⟨[], rfl⟩
  | a :: l, h => by
    obtain ⟨b, hb⟩ := Option.isSome_iff_exists.mp (h a (.head _))
    obtain ⟨ws, hw⟩ := all_some fun x hx => h x (.tail _ hx)
    exact ⟨b :: ws, by rw [List.map_cons, List.map_cons, hb, hw]⟩

theorem asked_ident {m t n r : Str} (h : asked m t n = some r) (hn : EntryDb.Spec.IsIdent n) : EntryDb.Spec.IsIdent r := by
  unfold asked at h
  simp only at h
  split at h
  · cases h; exact fun c hc => hn c (List.mem_of_mem_drop hc)
  · cases h

theorem entryDb_total {db : Db} (hr : Regular db) {ms : List Str} {res : Res} (h : buildRequests db = Go.ret (ms, res)) {vis : Str × CUnit → List Item} (hv : Visits db vis)
    {m : Str} (hm : m ∈ ms) (h0 : m ≠ []) (hk : ∀ x ∈ requests db vis m (go! "entry"), (whereAsked db x).isSome ∧ ∀ u, db.units.lookup x.1 = some u → Known db u x.2.2.1)
    (hn : ((requests db vis m (go! "entry")).map (whereAsked db)).Nodup) : ∃ o, entryDb db m res = Go.ret o := by
  have hreq := refs_requests h hv hm h0 (t := go! "entry") (by decide)
  unfold entryDb
  cases hl : res.lookup (go! "entry") with
  | none => exact ⟨_, rfl⟩
  | some rs =>
    rw [get_lookup hl] at hreq
    obtain ⟨ws, hw⟩ := all_some fun x hx => (hk x hx).1
    have hid : ∀ w ∈ ws, EntryDb.Spec.IsIdent w.2.2 := by
      intro w hwm
      have : some w ∈ (requests db vis m (go! "entry")).map (whereAsked db) := by rw [hw]; exact List.mem_map_of_mem hwm
      obtain ⟨x, hx, e⟩ := List.mem_map.mp this
      obtain ⟨u, _, e⟩ := Option.bind_eq_some_iff.mp e
      obtain ⟨p, _, e⟩ := Option.map_eq_some_iff.mp e
      subst e
      unfold requests at hx
      obtain ⟨u, _, hx⟩ := List.mem_flatMap.mp hx
      obtain ⟨h', _, hx⟩ := List.mem_filterMap.mp hx
      obtain ⟨⟨v, q⟩, hq, e⟩ := Option.map_eq_some_iff.mp hx
      obtain ⟨⟨_, hv'⟩, n, hn, ha⟩ := request_some hq
      subst e
      exact asked_ident ha (hr.vars _ _ _ hv' hn)
    rw [hw] at hn
    obtain ⟨st, hst⟩ := addRequests_total (db := db) (rs := rs.filter (·.module = m)) (ws := ws) (st := ([], [])) (by rw [hreq, hw])
      (fun r hr' u hu => by
        have : proj r ∈ requests db vis m (go! "entry") := by rw [← hreq]; exact List.mem_map_of_mem hr'
        exact (hk _ this).2 u hu)
      (by
        have hn' := nodup_of_map hn
        clear hw hn
        induction ws with
        | nil => exact .nil
        | cons w ws ih =>
          simp only [List.map_cons, List.nodup_cons] at hn' ⊢
          refine ⟨fun hmem => ?_, ih (fun x hx => hid x (.tail _ hx)) hn'.2⟩
          obtain ⟨w', hw', e⟩ := List.mem_map.mp hmem
          obtain ⟨e1, e2, e3⟩ := placeText_inj (hid w' (.tail _ hw')) (hid w (.head _)) e
          have : w = w' := by
            obtain ⟨a, b, c⟩ := w
            obtain ⟨a', b', c'⟩ := w'
            simp only at e1 e2 e3
            rw [e1, e2, e3]
          exact hn'.1 (this ▸ hw'))
      (by simp)
    simp only [hst, ret_bind]
    exact ⟨_, rfl⟩

/-! ### Global symbols -/

theorem globResponses_eq {db : Db} (hu : (db.units.map (·.1)).Nodup) (hns : ∀ u ∈ db.units, ∀ o ∈ u.2.hier, Flat db o) {ms : List Str} {res : Res}
    (h : buildRequests db = Go.ret (ms, res)) {vis : Str × CUnit → List Item} (hv : Visits db vis) (h0 : [] ∉ ms) :
    globResponses db res = Go.ret (ms.flatMap fun m => (requests db vis m (go! "gsym")).flatMap fun x =>
      (((db.units.lookup x.1).map fun u => answer db u x.2.2.2).getD []).map fun i => (x.2.2.2, i)) := by
  have hall : (get res (go! "gsym")).map proj = ms.flatMap fun m => requests db vis m (go! "gsym") := by
    rw [build_all h]
    exact flatMap_congr fun m hm => foundAll_requests hv (fun e => h0 (e ▸ hm)) (by decide)
  have hin : ∀ r ∈ get res (go! "gsym"), ∃ u, db.units.lookup r.cu = some u := by
    intro r hr
    have : proj r ∈ ms.flatMap fun m => requests db vis m (go! "gsym") := by rw [← hall]; exact List.mem_map_of_mem hr
    obtain ⟨m, _, hx⟩ := List.mem_flatMap.mp this
    unfold requests at hx
    obtain ⟨u, hum, hx⟩ := List.mem_flatMap.mp hx
    obtain ⟨h', _, hx⟩ := List.mem_filterMap.mp hx
    obtain ⟨⟨v, q⟩, hq, e⟩ := Option.map_eq_some_iff.mp hx
    simp only [proj, Prod.mk.injEq] at e
    exact ⟨u.2, by rw [← e.1]; exact lookup_of_mem hu hum⟩
  unfold globResponses
  have hm : (get res (go! "gsym")).mapM (globRequest db) = Go.ret ((get res (go! "gsym")).map fun r =>
      (((db.units.lookup r.cu).map fun u => answer db u r.reqName).getD []).map fun i => (r.reqName, i)) := by
    refine mapM_ret_of fun r hr => ?_
    obtain ⟨u, hru⟩ := hin r hr
    rw [globRequest_eq hru hns, hru]; rfl
  have hg : (List.lookup (go! "gsym") res).getD [] = get res (go! "gsym") := rfl
  rw [hg, hm, ret_bind, pure_eq]
  rw [← List.flatMap_assoc, ← hall, List.flatMap_map, List.flatMap_def]
  rfl

end Verif.Generate
