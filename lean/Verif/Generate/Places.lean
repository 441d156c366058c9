import Verif.Generate.Requests
/-
Lemmas about the tables of declaration places.
-/
namespace Verif.Generate
open Verif Verif.Generate.Spec
open Verif.GoDedup (Go decInt)
open Verif.GoDedup.Spec (Each)
open Verif.EntryDb (dictUpd quote unquote Rec FileItem dget dictUpd_sorted dget_dictUpd dictUpd_keys)
open Verif.EntryDb.Spec (unique matching Before)

theorem nodup_eraseDups : ∀ (n : Nat) (l : List Str), l.length ≤ n → l.eraseDups.Nodup
  | _, [], _ => by simp
  | 0, a :: l, h => by simp at h
  | n + 1, a :: l, h => by
    rw [List.eraseDups_cons, List.nodup_cons]
    refine ⟨?_, nodup_eraseDups n _ ?_⟩
    · rw [List.mem_eraseDups]; simp
    · exact Nat.le_trans (List.length_filter_le _ _) (by simpa using h)

theorem unique_perm {E : Type} {l l' : List E} (h : l.Perm l') : unique l = unique l' := by
  match l, l', h with
  | [], l', h => rw [List.nil_perm.mp h]
  | [a], l', h => rw [List.singleton_perm.mp h]
  | a :: b :: l, l', h =>
    match l', h.length_eq with
    | _ :: _ :: _, _ => rfl
    | [], e => simp at e
    | [_], e => simp at e

theorem flatMap_perm {α β : Type} {f g : α → List β} : ∀ {l : List α}, (∀ a ∈ l, (f a).Perm (g a)) → (l.flatMap f).Perm (l.flatMap g)
  | [], _ => .refl _
  | a :: l, h => by
    rw [List.flatMap_cons, List.flatMap_cons]
    exact (h a (.head _)).append (flatMap_perm fun x hx => h x (.tail _ hx))

theorem place_iff {u : CUnit} {h : Item} {p : Str × Int} : place u h = Go.ret p ↔ placeOf u h = some p := by
  unfold place placeOf
  cases h.declFile with
  | none => simp only [ret_bind, pure_eq]; rw [Go.ret_inj]; simp
  | some f =>
    by_cases hf : 0 ≤ f
    · simp only [if_pos hf, if_neg (Int.not_lt.mpr hf)]
      cases u.declFiles[f.toNat]? with
      | none => simp only [fail_bind]; constructor <;> intro h; exact absurd h Go.fail_ne; simp at h
      | some s => simp only [ret_bind, pure_eq]; rw [Go.ret_inj]; simp
    · simp only [if_neg hf, if_pos (Int.not_le.mp hf), fail_bind]
      constructor <;> intro h
      · exact absurd h Go.fail_ne
      · cases h

/-- An object of the scope in the place, with its name. -/
def Fits (db : Db) (u : CUnit) (p : Str × Int) (o : Item) (n : Str) : Prop := nameOf db o = some n ∧ placeOf u o = some p

theorem addSibling_ret {db : Db} {u : CUnit} {p : Str × Int} {vars vars' : List (Str × Str)} {h : Item} (hr : addSibling db u p vars h = Go.ret vars') :
    (vars' = vars ∧ ∀ n, ¬ Fits db u p h n) ∨ ∃ n, Fits db u p h n ∧ vars' = dictUpd h.id n id vars := by
  have step : ∀ (name : Option (Option Str)), (h.kind = go! "Variable" ∨ h.kind = go! "Subprogram" → nameOf db h = name.bind id) → (h.kind = go! "Variable" ∨ h.kind = go! "Subprogram") →
      (do let q ← place u h
          if q = p then
            match name with
            | none => Go.fail
            | some none => Go.ret vars
            | some (some n) => Go.ret (dictUpd h.id n id vars)
          else Go.ret vars) = (Go.ret vars' : Go _) →
      (vars' = vars ∧ ∀ n, ¬ Fits db u p h n) ∨ ∃ n, Fits db u p h n ∧ vars' = dictUpd h.id n id vars := by
    intro name hn hk hr
    obtain ⟨q, hq, hr'⟩ := Go.bind_ret.mp hr
    clear hr
    rw [place_iff] at hq
    split at hr'
    · rename_i e
      subst e
      match name, hn hk, hr' with
      | none, _, hr => exact absurd hr Go.fail_ne
      | some none, hn, hr =>
        exact .inl ⟨(Go.ret_inj.mp hr).symm, fun n hf => by have := hf.1; rw [hn] at this; cases this⟩
      | some (some n), hn, hr => exact .inr ⟨n, ⟨hn, hq⟩, (Go.ret_inj.mp hr).symm⟩
    · rename_i e
      have hr := hr'
      exact .inl ⟨(Go.ret_inj.mp hr).symm, fun n hf => e (by have := hf.2; rw [hq] at this; cases this; rfl)⟩
  unfold addSibling at hr
  simp only at hr
  split at hr
  · rename_i hk
    refine step _ ?_ (.inl hk) hr
    intro _
    simp only [nameOf, if_pos hk]
    cases db.variables.lookup h.id <;> rfl
  · rename_i hk
    split at hr
    · rename_i hk'
      refine step _ ?_ (.inr hk') hr
      intro _
      simp only [nameOf, if_neg hk, if_pos hk']
      cases db.subprograms.lookup h.id <;> rfl
    · rename_i hk'
      refine .inl ⟨(Go.ret_inj.mp hr).symm, fun n hf => ?_⟩
      have := hf.1
      rw [nameOf, if_neg hk, if_neg hk'] at this
      cases this

/-- The dictionary holds the objects found so far. -/
structure Holds (db : Db) (u : CUnit) (p : Str × Int) (seen : List Item) (vars : List (Str × Str)) : Prop where
  sorted : (vars.map (·.1)).Pairwise Before
  get : ∀ i n, dget i vars = some n ↔ ∃ o ∈ seen, o.id = i ∧ Fits db u p o n

theorem nameOf_eq {db : Db} (hr : Regular db) {o o' : Item} {n n' : Str} (h : nameOf db o = some n) (h' : nameOf db o' = some n') (e : o.id = o'.id) : n = n' := by
  unfold nameOf at h h'
  have := hr.ids o.id
  rw [← e] at h'
  repeat' split at h
  all_goals repeat' split at h'
  all_goals first
    | (rw [h] at h'; exact Option.some.inj h')
    | (cases h; done)
    | (cases h'; done)
    | (rcases this with this | this <;> simp [this] at h h')

theorem Holds.step {db : Db} {u : CUnit} {p : Str × Int} {seen : List Item} {vars vars' : List (Str × Str)} {h : Item} (hr : Regular db) (hh : Holds db u p seen vars)
    (hs : addSibling db u p vars h = Go.ret vars') : Holds db u p (seen ++ [h]) vars' := by
  rcases addSibling_ret hs with ⟨rfl, hn⟩ | ⟨n, hf, rfl⟩
  · refine ⟨hh.sorted, fun i m => ?_⟩
    rw [hh.get]
    constructor
    · rintro ⟨o, h1, h2⟩; exact ⟨o, List.mem_append_left _ h1, h2⟩
    · rintro ⟨o, h1, h2⟩
      rcases List.mem_append.mp h1 with h1 | h1
      · exact ⟨o, h1, h2⟩
      · simp only [List.mem_singleton] at h1
        subst h1
        exact absurd h2.2 (hn m)
  · refine ⟨dictUpd_sorted _ _ _ _ hh.sorted, fun i m => ?_⟩
    rw [dget_dictUpd _ _ _ _ _ hh.sorted]
    by_cases e : i = h.id
    · subst e
      rw [if_pos rfl]
      cases hd : dget h.id vars with
      | none =>
        simp only [Option.some.injEq]
        constructor
        · rintro rfl; exact ⟨h, by simp, rfl, hf⟩
        · rintro ⟨o, _, h2, h3⟩; exact nameOf_eq hr hf.1 h3.1 h2.symm
      | some m' =>
        simp only [id, Option.some.injEq]
        obtain ⟨o', a1, a2, a3⟩ := (hh.get _ _).mp hd
        constructor
        · rintro rfl; exact ⟨o', List.mem_append_left _ a1, a2, a3⟩
        · rintro ⟨o, _, h2, h3⟩; exact nameOf_eq hr a3.1 h3.1 (a2.trans h2.symm)
    · rw [if_neg e, hh.get]
      constructor
      · rintro ⟨o, h1, h2⟩; exact ⟨o, List.mem_append_left _ h1, h2⟩
      · rintro ⟨o, h1, h2⟩
        rcases List.mem_append.mp h1 with h1 | h1
        · exact ⟨o, h1, h2⟩
        · simp only [List.mem_singleton] at h1
          subst h1
          exact absurd h2.1.symm e

theorem Holds.fold {db : Db} {u : CUnit} {p : Str × Int} (hr : Regular db) : ∀ {hier seen : List Item} {vars vars' : List (Str × Str)}, Holds db u p seen vars →
    hier.foldlM (addSibling db u p) vars = Go.ret vars' → Holds db u p (seen ++ hier) vars'
  | [], seen, _, _, hh, h => by rw [List.append_nil, ← Go.ret_inj.mp h]; exact hh
  | x :: hier, seen, _, _, hh, h => by
    rw [List.foldlM_cons] at h
    obtain ⟨v1, h1, h⟩ := Go.bind_ret.mp h
    have := Holds.fold hr (hh.step hr h1) h
    simpa using this

theorem parentHier_ret {db : Db} {v : Var} {hier : List Item} (h : parentHier db v = Go.ret hier) : hier = beside db v := by
  unfold parentHier at h
  unfold beside
  cases hs : scopeMap db v.parentKind with
  | some m =>
    rw [hs] at h
    have hk : v.parentKind ≠ go! "CompileUnit" := by
      intro e; rw [e] at hs; cases hs
    rw [if_neg hk, contents_eq, hs]
    simp only at h
    cases hl : m.lookup v.parentId with
    | none => rw [hl] at h; exact absurd h Go.fail_ne
    | some s => rw [hl] at h; simp [hl, (Go.ret_inj.mp h).symm]
  | none =>
    rw [hs] at h
    simp only at h
    split at h
    · rename_i hk
      rw [if_pos hk]
      cases hl : db.units.lookup v.parentId with
      | none => rw [hl] at h; exact absurd h Go.fail_ne
      | some s => rw [hl] at h; simp [(Go.ret_inj.mp h).symm]
    · rename_i hk
      rw [if_neg hk, contents_eq, hs]
      exact (Go.ret_inj.mp h).symm

theorem siblings_holds {db : Db} {u : CUnit} {p : Str × Int} {v : Var} {vars : List (Str × Str)} (hr : Regular db) (h : siblings db u p v = Go.ret vars) :
    Holds db u p (beside db v) vars := by
  obtain ⟨hier, h1, h⟩ := Go.bind_ret.mp h
  rw [← parentHier_ret h1]
  have h0 : Holds db u p [] [] := ⟨by simp, fun i n => by simp [dget]⟩
  simpa using h0.fold hr h

theorem dget_iff_mem {V : Type} {vars : List (Str × V)} (hs : (vars.map (·.1)).Pairwise Before) {i : Str} {n : V} : dget i vars = some n ↔ (i, n) ∈ vars := by
  constructor
  · exact EntryDb.dget_mem
  · intro h
    induction vars with
    | nil => simp at h
    | cons x vars ih =>
      simp only [List.map_cons, List.pairwise_cons] at hs
      rcases List.mem_cons.mp h with rfl | h
      · simp [dget]
      · have hne : ¬ x.1 = i := by
          intro e
          have := hs.1 i (List.mem_map_of_mem (f := (·.1)) h)
          rw [e] at this
          exact Before.irrefl _ this
        have := ih hs.2 h
        simpa [dget, hne] using this

theorem Holds.declared {db : Db} {u : CUnit} {p : Str × Int} {v : Var} {vars : List (Str × Str)} (h : Holds db u p (beside db v) vars) (name : Str) :
    ((vars.filter (·.2 = name)).map (·.1)).Perm (declared db u p v name) := by
  rw [Spec.declared, List.perm_ext_iff_of_nodup ?_ (nodup_eraseDups _ _ (Nat.le_refl _))]
  · intro i
    rw [List.mem_eraseDups]
    simp only [List.mem_map, List.mem_filter, decide_eq_true_eq]
    constructor
    · rintro ⟨⟨j, n⟩, ⟨h1, rfl⟩, rfl⟩
      obtain ⟨o, a1, a2, a3⟩ := (h.get _ _).mp ((dget_iff_mem h.sorted).mpr h1)
      exact ⟨o, ⟨a1, a3⟩, a2⟩
    · rintro ⟨o, ⟨a1, a3⟩, rfl⟩
      exact ⟨(o.id, name), ⟨(dget_iff_mem h.sorted).mp ((h.get _ _).mpr ⟨o, a1, rfl, a3⟩), rfl⟩, rfl⟩
  · have h1 := nodup_of_sorted h.sorted
    exact h1.sublist (List.filter_sublist.map _)

/-! ### The records -/

/-- The records of a request. -/
def Recs (db : Db) (r : Ref) (rs : List (Rec Str)) : Prop :=
  ∃ u p vars, db.units.lookup r.cu = some u ∧ placeOf u r.h = some p ∧ siblings db u p r.var = Go.ret vars ∧
    rs = vars.map fun x => { file := p.1, loc := r.var.name.getD [], name := x.2, entry := x.1 }

/-- The text that must not repeat. -/
def KeyOf (db : Db) (r : Ref) (k : Str) : Prop :=
  ∃ u p, db.units.lookup r.cu = some u ∧ placeOf u r.h = some p ∧ k = placeText p.1 p.2 r.reqName

theorem addRequest_ret {db : Db} {st st' : List Str × List (Rec Str)} {r : Ref} (h : addRequest db st r = Go.ret st') :
    ∃ k rs, KeyOf db r k ∧ k ∉ st.1 ∧ Recs db r rs ∧ st' = (k :: st.1, st.2 ++ rs) := by
  unfold addRequest at h
  cases hu : db.units.lookup r.cu with
  | none => rw [hu] at h; exact absurd h Go.fail_ne
  | some u =>
    rw [hu] at h
    obtain ⟨⟨file, line⟩, hp, h⟩ := Go.bind_ret.mp h
    rw [place_iff] at hp
    simp only at h
    split at h
    · exact absurd h Go.fail_ne
    · rename_i hk
      obtain ⟨vars, hv, h⟩ := Go.bind_ret.mp h
      exact ⟨_, _, ⟨u, (file, line), hu, hp, rfl⟩, hk, ⟨u, (file, line), vars, hu, hp, hv, rfl⟩, (Go.ret_inj.mp h).symm⟩

theorem addRequests_ret {db : Db} : ∀ {rs : List Ref} {st st' : List Str × List (Rec Str)}, rs.foldlM (addRequest db) st = Go.ret st' →
    ∃ recss ks, Each (Recs db) rs recss ∧ Each (KeyOf db) rs ks ∧ ks.Nodup ∧ (∀ k ∈ ks, k ∉ st.1) ∧ st'.2 = st.2 ++ recss.flatten
  | [], st, st', h => ⟨[], [], .nil, .nil, .nil, by simp, by rw [← Go.ret_inj.mp h]; simp⟩
  | r :: rs, st, st', h => by
    rw [List.foldlM_cons] at h
    obtain ⟨st1, h1, h⟩ := Go.bind_ret.mp h
    obtain ⟨k, recs, a1, a2, a3, rfl⟩ := addRequest_ret h1
    obtain ⟨recss, ks, b1, b2, b3, b4, b5⟩ := addRequests_ret h
    refine ⟨recs :: recss, k :: ks, .cons a3 b1, .cons a1 b2, ?_, ?_, ?_⟩
    · rw [List.nodup_cons]
      exact ⟨fun hk => b4 k hk (.head _), b3⟩
    · intro x hx
      rcases List.mem_cons.mp hx with rfl | hx
      · exact a2
      · exact fun hy => b4 x hx (.tail _ hy)
    · rw [b5, List.flatten_cons, List.append_assoc]

/-- The entries recorded for a request. -/
def refAnswers (db : Db) (r : Ref) (file loc name : Str) : List Str :=
  match db.units.lookup r.cu with
  | none => []
  | some u =>
    match placeOf u r.h with
    | none => []
    | some p => if p.1 = file ∧ r.var.name.getD [] = loc then declared db u p r.var name else []

theorem Recs.matching {db : Db} (hr : Regular db) {r : Ref} {rs : List (Rec Str)} (h : Recs db r rs) (file loc name : Str) :
    (matching rs file loc name).Perm (refAnswers db r file loc name) := by
  obtain ⟨u, p, vars, h1, h2, h3, rfl⟩ := h
  have hh := siblings_holds hr h3
  unfold refAnswers
  simp only [h1, h2]
  by_cases e : p.1 = file ∧ r.var.name.getD [] = loc
  · rw [if_pos e]
    refine (List.Perm.of_eq ?_).trans (hh.declared name)
    unfold EntryDb.Spec.matching
    rw [List.filter_map, List.map_map]
    congr 1
    apply List.filter_congr
    intro x _
    simp [e.1, e.2]
  · rw [if_neg e]
    have : EntryDb.Spec.matching (vars.map fun x => ({ file := p.1, loc := r.var.name.getD [], name := x.2, entry := x.1 } : Rec Str)) file loc name = [] := by
      unfold EntryDb.Spec.matching
      rw [List.map_eq_nil_iff, List.filter_eq_nil_iff]
      intro x hx
      obtain ⟨y, _, rfl⟩ := List.mem_map.mp hx
      simp only [Bool.and_eq_true, decide_eq_true_eq]
      rintro ⟨⟨h1, h2⟩, _⟩
      exact e ⟨h1, h2⟩
    rw [this]

theorem matching_flatten (recss : List (List (Rec Str))) (file loc name : Str) :
    matching recss.flatten file loc name = recss.flatMap fun rs => matching rs file loc name := by
  induction recss with
  | nil => rfl
  | cons rs recss ih => rw [List.flatten_cons, EntryDb.matching_append, List.flatMap_cons, ih]

theorem each_matching {db : Db} (hr : Regular db) {file loc name : Str} : ∀ {rs : List Ref} {recss : List (List (Rec Str))}, Each (Recs db) rs recss →
    (recss.flatMap fun x => matching x file loc name).Perm (rs.flatMap fun r => refAnswers db r file loc name)
  | _, _, .nil => .refl _
  | _, _, .cons h hs => by
    rw [List.flatMap_cons, List.flatMap_cons]
    exact (h.matching hr file loc name).append (each_matching hr hs)

theorem placeOf_file {u : CUnit} {h : Item} {p : Str × Int} (hp : placeOf u h = some p) : p.1 = [] ∨ p.1 ∈ u.declFiles := by
  unfold placeOf at hp
  split at hp
  · cases hp; exact .inl rfl
  · split at hp
    · simp only [Option.map_eq_some_iff] at hp
      obtain ⟨s, hs, rfl⟩ := hp
      exact .inr (List.mem_of_getElem? hs)
    · cases hp

theorem nameOf_ident {db : Db} (hr : Regular db) {o : Item} {n : Str} (h : nameOf db o = some n) : EntryDb.Spec.IsIdent n := by
  unfold nameOf at h
  repeat' split at h
  · cases hv : db.variables.lookup o.id with
    | none => rw [hv] at h; cases h
    | some v => rw [hv] at h; exact hr.vars _ _ _ hv h
  · cases hv : db.subprograms.lookup o.id with
    | none => rw [hv] at h; cases h
    | some v => rw [hv] at h; exact hr.subs _ _ _ hv h
  · cases h

theorem Recs.regular {db : Db} (hr : Regular db) {r : Ref} {rs : List (Rec Str)} (h : Recs db r rs) (hn : EntryDb.Spec.IsIdent (r.var.name.getD [])) :
    ∀ x ∈ rs, EntryDb.Spec.NoBackslash x.file ∧ EntryDb.Spec.IsIdent x.loc ∧ EntryDb.Spec.IsIdent x.name := by
  obtain ⟨u, p, vars, h1, h2, h3, rfl⟩ := h
  intro x hx
  obtain ⟨⟨i, n⟩, hm, rfl⟩ := List.mem_map.mp hx
  have hh := siblings_holds hr h3
  obtain ⟨o, _, _, hf⟩ := (hh.get _ _).mp ((dget_iff_mem hh.sorted).mpr hm)
  refine ⟨?_, hn, nameOf_ident hr hf.1⟩
  rcases placeOf_file h2 with e | e
  · simp only [e]; simp [EntryDb.Spec.NoBackslash]
  · have : (r.cu, u) ∈ db.units := by
      rw [lookup_dget] at h1; exact EntryDb.dget_mem h1
    exact hr.files _ this _ e

end Verif.Generate
