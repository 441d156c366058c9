import Verif.Links.Symbols
/-
Lemmas for C99: what lookups by places of declaration find.
-/
namespace Verif.Links
open Verif.GoMeta (Str)
open GoDwarf.Spec (Die)
open GoBuild.Spec (Tree Placed text num isTag parts Describes)
open GoDedup (Off World St Go idOf)
open GoDedup.Spec (tagName cat)
open Chain (Extra link Core link_ptr)
open Chain.Spec (Input Read Program Told typeTags)
open Spec

variable {units : List (Nat × Tree)} {w : World} {st st0 : St} {order : List Off} {snake : Str → Str} {x : Extra} {db : Generate.Db} {files : Off → List Str}

/-! ### Lists -/

theorem flatMap_perm {α β : Type} {f g : α → List β} : ∀ {l : List α}, (∀ a ∈ l, (f a).Perm (g a)) → (l.flatMap f).Perm (l.flatMap g)
  | [], _ => .nil
  | a :: l, h => by
    rw [List.flatMap_cons, List.flatMap_cons]
    exact (h a (List.mem_cons_self ..)).append (flatMap_perm fun b hb => h b (List.mem_cons_of_mem _ hb))

theorem flatMap_cons_perm {α : Type} {f : α → List α} : ∀ l : List α, (l.flatMap fun a => a :: f a).Perm (l ++ l.flatMap f)
  | [] => .nil
  | a :: l => by
    rw [List.flatMap_cons, List.flatMap_cons, List.cons_append, List.cons_append]
    refine .cons a ?_
    refine ((flatMap_cons_perm l).append_left (f a)).trans ?_
    rw [← List.append_assoc, ← List.append_assoc]
    exact List.perm_append_comm.append_right _

theorem nodup_flatMap {α β γ : Type} {k : α → γ} {f : α → List β} {k' : β → γ} : ∀ {l : List α}, (l.map k).Nodup → (∀ a ∈ l, (f a).Nodup) →
    (∀ a ∈ l, ∀ b ∈ f a, k' b = k a) → (l.flatMap f).Nodup
  | [], _, _, _ => by simp
  | a :: l, hn, h1, h2 => by
    rw [List.map_cons, List.nodup_cons] at hn
    rw [List.flatMap_cons, List.nodup_append]
    refine ⟨h1 a (List.mem_cons_self ..), nodup_flatMap hn.2 (fun b hb => h1 b (List.mem_cons_of_mem _ hb)) (fun b hb => h2 b (List.mem_cons_of_mem _ hb)), ?_⟩
    rintro b hb _ hc rfl
    obtain ⟨a', ha', hb'⟩ := List.mem_flatMap.mp hc
    have e1 := h2 a (List.mem_cons_self ..) b hb
    have e2 := h2 a' (List.mem_cons_of_mem _ ha') b hb'
    exact hn.1 (List.mem_map.mpr ⟨a', ha', by rw [← e1, ← e2]⟩)

theorem nodup_single {α : Type} {l : List α} (hn : l.Nodup) (a : α) : l = [a] ↔ a ∈ l ∧ ∀ b ∈ l, b = a := by
  constructor
  · rintro rfl
    simp
  · rintro ⟨h1, h2⟩
    cases l with
    | nil => cases h1
    | cons b l =>
      have hb := h2 b (List.mem_cons_self ..)
      subst hb
      cases l with
      | nil => rfl
      | cons c l =>
        have := h2 c (by simp)
        subst this
        simp at hn

theorem unique_perm {l l' : List Str} (h : l.Perm l') : EntryDb.Spec.unique l = EntryDb.Spec.unique l' := by
  have key : ∀ {l l' : List Str}, l.Perm l' → ∀ i, EntryDb.Spec.unique l = some i → EntryDb.Spec.unique l' = some i := by
    intro l l' h i hi
    unfold EntryDb.Spec.unique at hi
    split at hi
    · cases hi
      rw [List.perm_singleton.mp h.symm]
      rfl
    · cases hi
  cases e : EntryDb.Spec.unique l' with
  | none =>
    cases e' : EntryDb.Spec.unique l with
    | none => rfl
    | some i => rw [key h i e'] at e; cases e
  | some i => exact key h.symm i e

theorem unique_some {l : List Str} {i : Str} : EntryDb.Spec.unique l = some i ↔ l = [i] := by
  constructor
  · intro h
    unfold EntryDb.Spec.unique at h
    split at h
    · cases h; rfl
    · cases h
  · rintro rfl
    rfl

theorem nodup_of_map {α β : Type} {k : α → β} : ∀ {l : List α}, (l.map k).Nodup → l.Nodup
  | [], _ => by simp
  | a :: l, h => by
    rw [List.map_cons, List.nodup_cons] at h
    exact List.nodup_cons.mpr ⟨fun ha => h.1 (List.mem_map.mpr ⟨a, ha, rfl⟩), nodup_of_map h.2⟩

theorem nodup_map_of {α β γ : Type} {f : α → β} {k : α → γ} : ∀ {l : List α}, (∀ a ∈ l, ∀ b ∈ l, f a = f b → k a = k b) → (l.map k).Nodup → (l.map f).Nodup
  | [], _, _ => by simp
  | a :: l, h, hn => by
    rw [List.map_cons, List.nodup_cons] at hn ⊢
    refine ⟨?_, nodup_map_of (fun b hb c hc => h b (List.mem_cons_of_mem _ hb) c (List.mem_cons_of_mem _ hc)) hn.2⟩
    intro hm
    obtain ⟨b, hb, e⟩ := List.mem_map.mp hm
    exact hn.1 (List.mem_map.mpr ⟨b, hb, h b (List.mem_cons_of_mem _ hb) a (List.mem_cons_self ..) e⟩)

/-! ### Entries with their scopes -/

/-- Entries of a unit, each with the one it is directly inside. -/
def pairs (u : Tree) : List (Tree × Tree) := (u :: inside u).flatMap fun s => (parts s).map fun d => (s, d)

theorem inside_parts : ∀ (n : Nat) (u : Tree), sizeOf u ≤ n → ((u :: inside u).flatMap parts).Perm (inside u)
  | 0, u, hn => by cases u; simp [Die.node.sizeOf_spec] at hn
  | n + 1, u, hn => by
    rw [List.flatMap_cons]
    have e : (inside u).flatMap parts = (parts u).flatMap fun k => (k :: inside k).flatMap parts := by
      rw [inside_eq, List.flatMap_assoc]
    rw [e]
    refine ((flatMap_perm fun k hk => ?_).append_left _).trans ((flatMap_cons_perm (f := inside) (parts u)).symm.trans (List.Perm.of_eq (inside_eq u).symm))
    have := kids_size (parts_kids hk)
    exact inside_parts n k (by omega)

theorem pairs_snd (u : Tree) : ((pairs u).map Prod.snd).Perm (inside u) := by
  have : (pairs u).map Prod.snd = (u :: inside u).flatMap parts := by
    unfold pairs
    exact map_flatMap_congr fun s _ => by rw [List.map_map]; exact List.map_id _
  rw [this]
  exact inside_parts _ u (Nat.le_refl _)

theorem mem_pairs {u s d : Tree} : (s, d) ∈ pairs u ↔ s ∈ u :: inside u ∧ d ∈ parts s := by
  unfold pairs
  rw [List.mem_flatMap]
  constructor
  · rintro ⟨s', h1, h2⟩
    obtain ⟨d', h3, h4⟩ := List.mem_map.mp h2
    cases h4
    exact ⟨h1, h3⟩
  · rintro ⟨h1, h2⟩
    exact ⟨s, h1, List.mem_map.mpr ⟨d, h2, rfl⟩⟩

mutual
theorem inside_offs : ∀ d : Tree, ((inside d).map Die.off).Sublist (Die.offsAll d.kids)
  | .node _ t _ _ _ ks => by
    rw [inside]
    exact insideAll_offs t ks
theorem insideAll_offs (t : Str) : ∀ ks : List Tree, ((insideAll t ks).map Die.off).Sublist (Die.offsAll ks)
  | [] => by rw [insideAll]; exact .slnil
  | k :: ks => by
    rw [insideAll, Die.offsAll, List.map_append]
    refine List.Sublist.append ?_ (insideAll_offs t ks)
    split
    · have h := inside_offs k
      cases k with
      | node o t b f s ks' =>
        rw [Die.offs, List.map_cons]
        exact .cons_cons _ h
    · exact List.nil_sublist _
end

theorem all_offs : ∀ us : List (Nat × Tree), ((us.flatMap fun u => inside u.2).map Die.off).Sublist (Die.offsAll (us.map Prod.snd))
  | [] => by simp [Die.offsAll]
  | u :: us => by
    rw [List.flatMap_cons, List.map_append, List.map_cons, Die.offsAll]
    refine List.Sublist.append ?_ (all_offs us)
    have h := inside_offs u.2
    cases hu : u.2 with
    | node o t b f s ks =>
      rw [hu] at h
      rw [Die.offs]
      exact .cons _ h

theorem offs_nodup (hi : Input units) : ((units.flatMap fun u => inside u.2).map Die.off).Nodup :=
  (List.nodup_cons.mp hi.distinct).2.sublist (all_offs units)

theorem inside_nodup (hi : Input units) {u : Nat × Tree} (hu : u ∈ units) : ((inside u.2).map Die.off).Nodup := by
  refine (offs_nodup hi).sublist (List.Sublist.map _ ?_)
  obtain ⟨a, b, rfl⟩ := List.append_of_mem hu
  rw [List.flatMap_append, List.flatMap_cons]
  exact (List.sublist_append_left _ _).trans (List.sublist_append_right _ _)

theorem scope_placed {u : Nat × Tree} (hu : u ∈ units) {s : Tree} (hs : s ∈ u.2 :: inside u.2) : ∃ q, Placed [] (units.map Prod.snd) q s := by
  rcases List.mem_cons.mp hs with rfl | h
  · exact ⟨_, unit_placed hu⟩
  · exact inside_placed hu h

theorem part_inside {u s d : Tree} (hs : s ∈ u :: inside u) (hd : d ∈ parts s) : d ∈ inside u :=
  (pairs_snd u).mem_iff.mp (List.mem_map.mpr ⟨_, mem_pairs.mpr ⟨hs, hd⟩, rfl⟩)

theorem parts_nodup (hi : Input units) {u : Nat × Tree} (hu : u ∈ units) {s : Tree} (hs : s ∈ u.2 :: inside u.2) : ((parts s).map Die.off).Nodup := by
  have h1 : ((u.2 :: inside u.2).flatMap parts).map Die.off |>.Nodup := ((inside_parts _ u.2 (Nat.le_refl _)).map _).nodup_iff.mpr (inside_nodup hi hu)
  obtain ⟨a, b, e⟩ := List.append_of_mem hs
  rw [e, List.flatMap_append, List.flatMap_cons] at h1
  exact h1.sublist (List.Sublist.map _ ((List.sublist_append_left _ _).trans (List.sublist_append_right _ _)))

/-! ### Places -/

theorem placeOf_eq (hi : Input units) (hc : Core units w st st0 order) (hl : Located units st x files) {u : Nat × Tree} (hu : u ∈ units) {q : List Off} {d : Tree}
    (hp : Placed [] (units.map Prod.snd) q d) : Generate.Spec.placeOf (unitOf snake w st x u.2).2 (item snake w st x d.off) = place files u.2 d := by
  obtain ⟨o, _, -, -, h4, -⟩ := unit_obj hi hc hu
  unfold Generate.Spec.placeOf place unitOf item
  simp only [hl.file q d hp, hl.line q d hp, h4, Option.getD_some, hl.paths u hu o h4]
  cases num d (go! "DeclFile") with
  | none => rfl
  | some f =>
    simp only
    by_cases h : f < 0
    · rw [if_pos h, if_neg (by omega)]
    · rw [if_neg h, if_pos (by omega)]

/-- The entries beside a variable. -/
theorem beside_eq (hi : Input units) (hm : Members units) (hc : Core units w st st0 order) (hT : Tables snake w st x db) {u : Nat × Tree} (hu : u ∈ units) {s : Tree}
    (hs : s ∈ u.2 :: inside u.2) {k : Tree} (hk : k ∈ parts s) {v : Generate.Var} (h1 : v.parentKind = linkKind snake w st s.off) (h2 : v.parentId = link snake w st s.off) :
    Generate.Spec.beside db v = (parts s).map (fun d => item snake w st x d.off) ∧
      (v.parentKind = go! "CompileUnit" ∧ (db.units.lookup v.parentId).isSome ∨ (Generate.Spec.contents db v.parentKind v.parentId).isSome) := by
  unfold Generate.Spec.beside
  rcases List.mem_cons.mp hs with rfl | h
  · obtain ⟨o, _, -, -, h4, h5⟩ := unit_obj hi hc hu
    have hk : v.parentKind = go! "CompileUnit" := by rw [h1, linkKind_ptr h4, h5]; rfl
    have hl : db.units.lookup v.parentId = some (unitOf snake w st x u.2).2 := by
      rw [h2]
      exact Generate.lookup_of_mem (units_nodup hc hT) ((unit_mem hi hc hT).mpr ⟨u, hu, rfl⟩)
    rw [if_pos hk, hl]
    exact ⟨rfl, .inl ⟨hk, rfl⟩⟩
  · obtain ⟨q, hq⟩ := inside_placed hu h
    have hu' := not_unit hi hu h
    have ht : s.tag ∈ innerTags := by
      by_cases hn : s.tag ∈ innerTags
      · exact hn
      · rw [no_parts hn hu'] at hk
        cases hk
    have hcon := contents_of hi hm hc hT hq ht
    obtain ⟨c, c1, c2⟩ := kind_tag snake x hi hc hq
    have hn : v.parentKind ≠ go! "CompileUnit" := by
      rw [h1]
      show (item snake w st x s.off).kind ≠ _
      have := (cat_scope c).mpr (c1 ▸ ht)
      rw [← c2] at this
      intro e
      rw [e] at this
      exact absurd this (by decide)
    rw [if_neg hn, h1, h2, show Generate.Spec.contents db (linkKind snake w st s.off) (link snake w st s.off) = _ from hcon]
    exact ⟨rfl, .inr rfl⟩

theorem link_inj (hi : Input units) (hc : Core units w st st0 order) {q q' : List Off} {d e : Tree} (hd : Placed [] (units.map Prod.snd) q d)
    (he : Placed [] (units.map Prod.snd) q' e) (td : d.tag ∉ typeTags) (te : e.tag ∉ typeTags) (h : link snake w st d.off = link snake w st e.off) : d.off = e.off := by
  obtain ⟨o, g1, -, g2, g3, -⟩ := own hi hc hd td
  obtain ⟨o', k1, -, k2, k3, -⟩ := own hi hc he te
  rw [link_ptr g3, link_ptr k3] at h
  have := nodup_inj (ids_nodup snake hc) g2 k2 h
  subst this
  exact hc.start.own _ _ _ g1 k1

/-- What one variable leads to. -/
def sols (files : Off → List Str) (m file loc name : Str) (u s d : Tree) : List Tree :=
  if d.tag = go! "Variable" ∧ text d (go! "Name") = some loc ∧ Generate.Spec.asked m (go! "entry") loc ≠ none then
    match place files u d with
    | some (f, line) => if f = file then (parts s).filter fun e => Named name e ∧ place files u e = some (f, line) else []
    | none => []
  else []

theorem named_type {name : Str} {e : Tree} (h : Named name e) : e.tag ∉ typeTags := by
  rcases h.1 with h | h <;> rw [h] <;> decide

theorem mem_sols {m file loc name : Str} {u s d e : Tree} : e ∈ sols files m file loc name u s d ↔
    e ∈ parts s ∧ d.tag = go! "Variable" ∧ text d (go! "Name") = some loc ∧ Generate.Spec.asked m (go! "entry") loc ≠ none ∧ Named name e ∧
      ∃ line, place files u d = some (file, line) ∧ place files u e = some (file, line) := by
  unfold sols
  split
  · rename_i h
    cases hp : place files u d with
    | none => simp
    | some p =>
      obtain ⟨f, line⟩ := p
      simp only
      by_cases hf : f = file
      · subst hf
        rw [if_pos rfl, List.mem_filter]
        simp only [decide_eq_true_eq]
        constructor
        · rintro ⟨a1, a2, a3⟩
          exact ⟨a1, h.1, h.2.1, h.2.2, a2, line, rfl, a3⟩
        · rintro ⟨a1, -, -, -, a2, l, a3, a4⟩
          cases a3
          exact ⟨a1, a2, a4⟩
      · rw [if_neg hf]
        constructor
        · intro h; cases h
        · rintro ⟨-, -, -, -, -, l, a3, -⟩
          cases a3
          exact absurd rfl hf
  · rename_i h
    constructor
    · intro h; cases h
    · rintro ⟨-, a1, a2, a3, -⟩
      exact absurd ⟨a1, a2, a3⟩ h

theorem var_item (hi : Input units) (hc : Core units w st st0 order) {q : List Off} {d : Tree} (hp : Placed [] (units.map Prod.snd) q d) :
    (item snake w st x d.off).kind = go! "Variable" ↔ d.tag = go! "Variable" := by
  obtain ⟨c, c1, c2⟩ := kind_tag snake x hi hc hp
  rw [c2, cat_variable, c1]

theorem sub_item (hi : Input units) (hc : Core units w st st0 order) {q : List Off} {d : Tree} (hp : Placed [] (units.map Prod.snd) q d) :
    (item snake w st x d.off).kind = go! "Subprogram" ↔ d.tag = go! "Subprogram" := by
  obtain ⟨c, c1, c2⟩ := kind_tag snake x hi hc hp
  rw [c2, cat_subprogram, c1]

theorem eraseDups_perm {l : List Str} (h : l.Nodup) : l.eraseDups.Perm l :=
  (List.perm_ext_iff_of_nodup (Generate.nodup_eraseDups _ _ (Nat.le_refl _)) h).mpr fun i => List.mem_eraseDups

theorem answers_perm (hi : Input units) (hm : Members units) (hc : Core units w st st0 order) (hT : Tables snake w st x db) (hl : Located units st x files)
    {u : Nat × Tree} (hu : u ∈ units) {s d : Tree} (hs : s ∈ u.2 :: inside u.2) (hd : d ∈ parts s) (m file loc name : Str) :
    (Generate.Spec.answers db m (unitOf snake w st x u.2).2 (item snake w st x d.off) file loc name).Perm
      ((sols files m file loc name u.2 s d).map fun e => link snake w st e.off) := by
  obtain ⟨qs, hqs⟩ := scope_placed hu hs
  have hq := Chain.placed_part hqs hd
  unfold Generate.Spec.answers sols
  rw [placeOf_eq hi hc hl hu hq]
  by_cases ht : d.tag = go! "Variable"
  · have hr : Generate.Spec.request db m (go! "entry") (item snake w st x d.off) = (text d (go! "Name")).bind fun n => (Generate.Spec.asked m (go! "entry") n).map fun r =>
        (({ name := text d (go! "Name"), parentKind := linkKind snake w st s.off, parentId := link snake w st s.off } : Generate.Var), r) := by
      unfold Generate.Spec.request
      rw [if_pos ((var_item hi hc hq).mpr ht)]
      show (db.variables.lookup (link snake w st d.off)).bind _ = _
      rw [var_row hi hc hT hq ht]
      rfl
    rw [hr]
    by_cases hn : text d (go! "Name") = some loc
    · rw [hn]
      simp only [Option.bind_some]
      cases ha : Generate.Spec.asked m (go! "entry") loc with
      | none => rw [if_neg (by rintro ⟨-, -, h⟩; exact h rfl)]; exact .nil
      | some r =>
        rw [if_pos ⟨ht, trivial, by simp⟩]
        cases hp : place files u.2 d with
        | none => exact .nil
        | some p =>
          obtain ⟨f, line⟩ := p
          simp only [Option.map_some]
          by_cases hf : f = file
          · rw [if_pos ⟨hf, trivial⟩, if_pos hf]
            unfold Generate.Spec.declared
            rw [(beside_eq hi hm hc hT hu hs hd rfl rfl).1]
            have e : (((parts s).map fun d => item snake w st x d.off).filter fun o => Generate.Spec.nameOf db o = some name ∧ Generate.Spec.placeOf (unitOf snake w st x u.2).2 o = some (f, line)) =
                ((parts s).filter fun e => Named name e ∧ place files u.2 e = some (f, line)).map fun d => item snake w st x d.off :=
              filter_map_congr (p := fun o => decide (Generate.Spec.nameOf db o = some name ∧ Generate.Spec.placeOf (unitOf snake w st x u.2).2 o = some (f, line)))
                (q := fun e => decide (Named name e ∧ place files u.2 e = some (f, line))) fun k hk => by
                have hqk := Chain.placed_part hqs hk
                rw [placeOf_eq hi hc hl hu hqk]
                exact decide_eq_decide.mpr (and_congr_left fun _ => nameOf_eq hi hc hT hqk name)
            rw [e, List.map_map]
            refine eraseDups_perm ?_
            have hnd := (parts_nodup hi hu hs).sublist (List.Sublist.map _ (List.filter_sublist (p := fun e => decide (Named name e ∧ place files u.2 e = some (f, line)))))
            refine nodup_map_of ?_ hnd
            intro a ha b hb hab
            obtain ⟨a1, a2⟩ := List.mem_filter.mp ha
            obtain ⟨b1, b2⟩ := List.mem_filter.mp hb
            exact link_inj hi hc (Chain.placed_part hqs a1) (Chain.placed_part hqs b1) (named_type (of_decide_eq_true a2).1) (named_type (of_decide_eq_true b2).1) hab
          · rw [if_neg (fun h => hf h.1), if_neg hf]
            exact .nil
    · rw [if_neg (fun h => hn h.2.1)]
      cases htx : text d (go! "Name") with
      | none => exact .nil
      | some n =>
        simp only [Option.bind_some]
        rw [htx] at hn
        cases Generate.Spec.asked m (go! "entry") n with
        | none => exact .nil
        | some r =>
          cases place files u.2 d with
          | none => exact .nil
          | some p =>
            simp only [Option.map_some]
            rw [if_neg (fun h => hn h.2)]
            exact .nil
  · have hr : Generate.Spec.request db m (go! "entry") (item snake w st x d.off) = none := by
      unfold Generate.Spec.request
      rw [if_neg (fun h => ht ((var_item hi hc hq).mp h))]
    rw [hr, if_neg (fun h => ht h.1)]
    exact .nil

/-- All answers, each with its variable. -/
def allSols (units : List (Nat × Tree)) (files : Off → List Str) (m file loc name : Str) : List (Tree × Tree) :=
  units.flatMap fun u => (pairs u.2).flatMap fun y => (sols files m file loc name u.2 y.1 y.2).map fun e => (y.2, e)

theorem mem_allSols {m file loc name : Str} {d e : Tree} : (d, e) ∈ allSols units files m file loc name ↔ Answer units files m file loc name d e := by
  unfold allSols Answer
  rw [List.mem_flatMap]
  constructor
  · rintro ⟨u, hu, h⟩
    obtain ⟨⟨s, d'⟩, h1, h2⟩ := List.mem_flatMap.mp h
    obtain ⟨e', h3, h4⟩ := List.mem_map.mp h2
    cases h4
    obtain ⟨p1, p2⟩ := mem_pairs.mp h1
    obtain ⟨a1, a2⟩ := mem_sols.mp h3
    exact ⟨u, hu, s, p1, p2, a1, a2⟩
  · rintro ⟨u, hu, s, p1, p2, a1, a2⟩
    exact ⟨u, hu, List.mem_flatMap.mpr ⟨(s, d), mem_pairs.mpr ⟨p1, p2⟩, List.mem_map.mpr ⟨e, mem_sols.mpr ⟨a1, a2⟩, rfl⟩⟩⟩

theorem sols_sublist {m file loc name : Str} {u s d : Tree} : (sols files m file loc name u s d).Sublist (parts s) := by
  unfold sols
  split
  · split
    · split
      · exact List.filter_sublist
      · exact List.nil_sublist _
    · exact List.nil_sublist _
  · exact List.nil_sublist _

theorem allSols_nodup (hi : Input units) (m file loc name : Str) : (allSols units files m file loc name).Nodup := by
  let l : List (Tree × Tree × Tree) := units.flatMap fun u => (pairs u.2).map fun y => (u.2, y)
  have e : allSols units files m file loc name = l.flatMap fun y => (sols files m file loc name y.1 y.2.1 y.2.2).map fun e => (y.2.2, e) := by
    show _ = (units.flatMap fun u => (pairs u.2).map fun y => (u.2, y)).flatMap _
    rw [List.flatMap_assoc]
    unfold allSols
    congr 1
    funext u
    rw [List.flatMap_map]
  rw [e]
  have hl : (l.map fun y => y.2.2.off).Nodup := by
    have : l.map (fun y => y.2.2.off) = (units.flatMap fun u => ((pairs u.2).map Prod.snd)).map Die.off := by
      rw [List.map_flatMap, List.map_flatMap]
      congr 1
      funext u
      rw [List.map_map, List.map_map]
      rfl
    rw [this]
    exact ((flatMap_perm fun u _ => pairs_snd u.2).map _).nodup_iff.mpr (offs_nodup hi)
  refine nodup_flatMap (k := fun y => y.2.2.off) (k' := fun b => b.1.off) hl ?_ ?_
  · rintro ⟨u, s, d⟩ hy
    obtain ⟨u', hu', h1⟩ := List.mem_flatMap.mp hy
    obtain ⟨y, h2, h3⟩ := List.mem_map.mp h1
    cases h3
    have hs := (mem_pairs.mp h2).1
    have hn := (parts_nodup hi hu' hs).sublist (List.Sublist.map _ (sols_sublist (files := files) (m := m) (file := file) (loc := loc) (name := name) (u := u'.2) (s := s) (d := d)))
    refine nodup_of_map (k := fun b => b.2.off) ?_
    rw [List.map_map]
    exact hn
  · intro y _ b hb
    obtain ⟨e, _, rfl⟩ := List.mem_map.mp hb
    rfl

/-- All answers of the database. -/
theorem answers_all (hi : Input units) (hm : Members units) (hc : Core units w st st0 order) (hT : Tables snake w st x db) (hl : Located units st x files) (m file loc name : Str) :
    (db.units.flatMap fun r => (visits snake w st x units r).flatMap fun h => Generate.Spec.answers db m r.2 h file loc name).Perm
      ((allSols units files m file loc name).map fun y => link snake w st y.2.off) := by
  refine ((units_perm hi hc hT).flatMap_right _).trans ?_
  rw [List.flatMap_map]
  have e : (allSols units files m file loc name).map (fun y => link snake w st y.2.off) =
      units.flatMap fun u => (pairs u.2).flatMap fun y => (sols files m file loc name u.2 y.1 y.2).map fun e => link snake w st e.off :=
    map_flatMap_congr fun u _ => map_flatMap_congr fun y _ => by rw [List.map_map]; rfl
  rw [e]
  refine flatMap_perm fun u hu => ?_
  rw [visits_eq hi hc hu, List.flatMap_map]
  refine ((pairs_snd u.2).symm.flatMap_right _).trans ?_
  rw [List.flatMap_map]
  refine flatMap_perm fun y hy => ?_
  obtain ⟨p1, p2⟩ := mem_pairs.mp hy
  exact answers_perm hi hm hc hT hl hu p1 p2 m file loc name

/-! ### What the tables need -/

theorem added_entry (hc : Core units w st st0 order) {o : Nat} (ho : o ∈ st.added) (ha : cat (w.obj o) ≠ .array) :
    ∃ q d, Placed [] (units.map Prod.snd) q d ∧ Describes d (w.obj o) := by
  obtain ⟨f, f1, -⟩ := hc.home ho
  obtain ⟨q, d, p1, -, p3⟩ := hc.described f1 ha
  exact ⟨q, d, p1, p3⟩

theorem mem_lookup {V : Type} {i : Str} {v : V} : ∀ {L : List (Str × V)}, L.lookup i = some v → (i, v) ∈ L
  | (j, z) :: L, h => by
    rw [List.lookup_cons] at h
    split at h
    · rename_i e
      cases h
      rw [eq_of_beq e]
      exact List.mem_cons_self ..
    · exact List.mem_cons_of_mem _ (mem_lookup h)

theorem lookup_added {V : Type} {L : List (Str × V)} {f : Nat → Option (Str × V)} (hp : L.Perm (st.added.filterMap f)) {i : Str} {v : V} (h : L.lookup i = some v) :
    ∃ o ∈ st.added, f o = some (i, v) := by
  have hm : (i, v) ∈ L := mem_lookup h
  exact List.mem_filterMap.mp (hp.mem_iff.mp hm)

theorem regular (hi : Input units) (hc : Core units w st st0 order) (hT : Tables snake w st x db) (hl : Located units st x files) (hp : Places units files) :
    Generate.Spec.Regular db where
  vars := by
    intro i v n h hn
    obtain ⟨o, ho, h2⟩ := lookup_added hT.variables h
    unfold varRow at h2
    split at h2
    · rename_i hh t hy
      cases h2
      obtain ⟨q, d, p1, p2⟩ := added_entry hc ho (by rw [hy]; intro h; cases h)
      rw [hy] at p2
      cases p2 with
      | «variable» ht hd => exact hp.names q d p1 n ⟨.inl ht, by rw [← hd.name]; exact hn⟩
    · cases h2
  subs := by
    intro i v n h hn
    obtain ⟨o, ho, h2⟩ := lookup_added hT.subprograms h
    unfold scopeRow at h2
    split at h2
    · rename_i hk
      split at h2
      · rename_i hh a b c hy
        rw [hy] at hk
        cases a <;> cases hk
      · rename_i hh t ps b hy
        cases h2
        obtain ⟨q, d, p1, p2⟩ := added_entry hc ho (by rw [hy]; intro h; cases h)
        rw [hy] at p2
        cases p2 with
        | subprogram ht hd => exact hp.names q d p1 n ⟨.inr ht, by rw [← hd.name]; exact hn⟩
      · rename_i hy
        rw [hy] at hk
        cases hk
      · rename_i hy
        rw [hy] at hk
        cases hk
      · cases h2
    · cases h2
  files := by
    intro r hr f hf
    obtain ⟨u, hu, rfl⟩ := (unit_mem hi hc hT).mp hr
    obtain ⟨o, _, -, -, h4, -⟩ := unit_obj hi hc hu
    simp only [unitOf, h4, Option.getD_some, hl.paths u hu o h4] at hf
    exact hp.paths u hu f hf
  ids := by
    intro i
    cases h : db.variables.lookup i with
    | none => exact .inl rfl
    | some v =>
      right
      cases h' : db.subprograms.lookup i with
      | none => rfl
      | some s =>
        exfalso
        obtain ⟨o, ho, h2⟩ := lookup_added hT.variables h
        obtain ⟨o', ho', h2'⟩ := lookup_added hT.subprograms h'
        have e1 := varRow_id o _ h2
        have e2 := scopeRow_id _ o' _ h2'
        have := nodup_inj (ids_nodup snake hc) ho ho' (e1.symm.trans e2)
        subst this
        unfold varRow at h2
        unfold scopeRow at h2'
        split at h2
        · rename_i hh t hy
          rw [hy] at h2'
          cases h2'
        · cases h2
  units := units_nodup hc hT

/-- Parents, siblings and files of requests are known. -/
theorem known_requests (hi : Input units) (hm : Members units) (hc : Core units w st st0 order) (hT : Tables snake w st x db) (hl : Located units st x files) (hp : Places units files)
    (m t : Str) : ∀ y ∈ Generate.Spec.requests db (visits snake w st x units) m t,
      (Generate.Spec.whereAsked db y).isSome ∧ ∀ r, db.units.lookup y.1 = some r → Generate.Spec.Known db r y.2.2.1 := by
  intro y hy
  unfold Generate.Spec.requests at hy
  obtain ⟨r, hr, h1⟩ := List.mem_flatMap.mp hy
  obtain ⟨h, h2, h3⟩ := List.mem_filterMap.mp h1
  obtain ⟨u, hu, rfl⟩ := (unit_mem hi hc hT).mp hr
  rw [visits_eq hi hc hu] at h2
  obtain ⟨d, hd, rfl⟩ := List.mem_map.mp h2
  obtain ⟨⟨s, d'⟩, hsd, e⟩ := List.mem_map.mp ((pairs_snd u.2).mem_iff.mpr hd)
  simp only at e
  subst e
  obtain ⟨hs, hds⟩ := mem_pairs.mp hsd
  obtain ⟨qs, hqs⟩ := scope_placed hu hs
  have hq := Chain.placed_part hqs hds
  have hlook : db.units.lookup (unitOf snake w st x u.2).1 = some (unitOf snake w st x u.2).2 :=
    Generate.lookup_of_mem (units_nodup hc hT) ((unit_mem hi hc hT).mpr ⟨u, hu, rfl⟩)
  cases hreq : Generate.Spec.request db m t (item snake w st x d'.off) with
  | none => rw [hreq] at h3; cases h3
  | some p =>
    rw [hreq] at h3
    cases h3
    unfold Generate.Spec.request at hreq
    split at hreq
    · rename_i hk
      have ht := (var_item hi hc hq).mp hk
      have hv := var_row hi hc hT hq ht
      rw [show db.variables.lookup (item snake w st x d'.off).id = _ from hv] at hreq
      simp only [Option.bind_some] at hreq
      have hp1 : p.1 = { name := text d' (go! "Name"), parentKind := linkKind snake w st s.off, parentId := link snake w st s.off } := by
        cases hn : text d' (go! "Name") with
        | none => rw [hn] at hreq; cases hreq
        | some n =>
          rw [hn] at hreq
          simp only [Option.bind_some] at hreq
          cases ha : Generate.Spec.asked m t n with
          | none => rw [ha] at hreq; cases hreq
          | some z => rw [ha] at hreq; cases hreq; rfl
      obtain ⟨b1, b2⟩ := beside_eq (v := p.1) hi hm hc hT hu hs hds (by rw [hp1]) (by rw [hp1])
      refine ⟨?_, ?_⟩
      · unfold Generate.Spec.whereAsked
        simp only
        rw [hlook, Option.bind_some, placeOf_eq hi hc hl hu hq]
        have := hp.known u hu d' hd (.inl ht)
        cases hpl : place files u.2 d' with
        | none => exact absurd hpl this
        | some z => rfl
      · intro r hr
        simp only at hr
        rw [hlook] at hr
        cases hr
        refine ⟨b2, ?_⟩
        rw [b1]
        intro o ho
        obtain ⟨k, hk, rfl⟩ := List.mem_map.mp ho
        have hqk := Chain.placed_part hqs hk
        rw [placeOf_eq hi hc hl hu hqk]
        have hin := part_inside hs hk
        refine ⟨fun hv => ?_, fun hv => ?_⟩
        · have hv' := (var_item hi hc hqk).mp hv
          refine ⟨?_, Option.isSome_iff_ne_none.mpr (hp.known u hu k hin (.inl hv'))⟩
          rw [show db.variables.lookup (item snake w st x k.off).id = _ from var_row hi hc hT hqk hv']
          rfl
        · have hv' := (sub_item hi hc hqk).mp hv
          refine ⟨?_, Option.isSome_iff_ne_none.mpr (hp.known u hu k hin (.inr hv'))⟩
          rw [show db.subprograms.lookup (item snake w st x k.off).id = _ from sub_row hi hc hT hqk hv']
          rfl
    · cases hreq

/-- Places of the requests. -/
theorem places_perm (hi : Input units) (hc : Core units w st st0 order) (hT : Tables snake w st x db) (hl : Located units st x files) (m t : Str) :
    ((Generate.Spec.requests db (visits snake w st x units) m t).map (Generate.Spec.whereAsked db)).Perm
      ((asks units m t).map fun a => (place files a.1 a.2.1).map fun p => (p.1, p.2, a.2.2)) := by
  have h := (requests_items hi hc hT m t).map fun y => (db.units.lookup y.1).bind fun u => (Generate.Spec.placeOf u y.2.1).map fun p => (p.1, p.2, y.2.2)
  rw [List.map_map, List.map_map] at h
  refine h.trans (List.Perm.of_eq (List.map_congr_left ?_))
  intro a ha
  unfold asks at ha
  obtain ⟨u, hu, h1⟩ := List.mem_flatMap.mp ha
  obtain ⟨⟨d, n⟩, h2, rfl⟩ := List.mem_map.mp h1
  have hd : d ∈ inside u.2 := by
    unfold asksIn at h2
    obtain ⟨d', h3, h4⟩ := List.mem_filterMap.mp h2
    split at h4
    · cases hb : (text d' (go! "Name")).bind (Generate.Spec.asked m t) with
      | none => rw [hb] at h4; cases h4
      | some z => rw [hb] at h4; cases h4; exact h3
    · cases h4
  obtain ⟨q, hq⟩ := inside_placed hu hd
  have hlook : db.units.lookup (link snake w st u.2.off) = some (unitOf snake w st x u.2).2 :=
    Generate.lookup_of_mem (units_nodup hc hT) ((unit_mem hi hc hT).mpr ⟨u, hu, rfl⟩)
  simp only [Function.comp]
  rw [hlook, Option.bind_some, placeOf_eq hi hc hl hu hq]

end Verif.Links
