import Verif.Chain.Parents
import Verif.Generate.Answers
import Verif.Links.Spec
/-
Lemmas for C97-C100: the maps of the database and the entries of the debug information.
-/
namespace Verif.Links
open Verif.GoMeta (Str)
open GoDwarf.Spec (Die)
open GoBuild.Spec (Tree Placed text num isTag parts paramTags codeTags Describes)
open GoDedup (Off World St Go Desc idOf isTypeTag)
open GoDedup.Spec (cat tagName Cat)
open Chain (Extra link parentOf Core link_ptr for_head for_other structTags)
open Chain.Spec (Input typeTags)
open Spec

variable {units : List (Nat × Tree)} {w : World} {st st0 : St} {order : List Off} {snake : Str → Str} {x : Extra} {db : Generate.Db}

/-! ### Trees -/

theorem parts_eq (d : Tree) : parts d = d.kids.filter (isPart d.tag) := by
  unfold parts isPart
  have h1 : isTag [go! "ClassType", go! "StructType", go! "UnionType"] d = true ↔ d.tag ∈ [go! "ClassType", go! "StructType", go! "UnionType"] := List.contains_iff_mem
  have h2 : isTag [go! "Subprogram"] d = true ↔ d.tag = go! "Subprogram" := by unfold isTag; rw [List.contains_iff_mem, List.mem_singleton]
  have h3 : isTag [go! "Namespace", go! "CompileUnit", go! "LexDwarfBlock"] d = true ↔ d.tag ∈ [go! "Namespace", go! "CompileUnit", go! "LexDwarfBlock"] := List.contains_iff_mem
  by_cases a1 : d.tag ∈ [go! "ClassType", go! "StructType", go! "UnionType"]
  · rw [if_pos (h1.mpr a1)]
    exact List.filter_congr fun k _ => by rw [if_pos a1]
  · rw [if_neg (fun h => a1 (h1.mp h))]
    by_cases a2 : d.tag = go! "Subprogram"
    · rw [if_pos (h2.mpr a2)]
      exact List.filter_congr fun k _ => by rw [if_neg a1, if_pos a2]
    · rw [if_neg (fun h => a2 (h2.mp h))]
      by_cases a3 : d.tag ∈ [go! "Namespace", go! "CompileUnit", go! "LexDwarfBlock"]
      · rw [if_pos (h3.mpr a3)]
        exact List.filter_congr fun k _ => by rw [if_neg a1, if_neg a2, if_pos a3]
      · rw [if_neg (fun h => a3 (h3.mp h))]
        rw [eq_comm, List.filter_eq_nil_iff]
        intro k _
        rw [if_neg a1, if_neg a2, if_neg a3]
        decide

theorem insideAll_eq (t : Str) : ∀ ks : List Tree, insideAll t ks = (ks.filter (isPart t)).flatMap fun k => k :: inside k
  | [] => by simp only [insideAll]; rfl
  | k :: ks => by
    rw [insideAll, insideAll_eq t ks]
    by_cases h : isPart t k = true
    · rw [if_pos h, List.filter_cons_of_pos h, List.flatMap_cons]
    · rw [if_neg h, List.filter_cons_of_neg h, List.nil_append]

/-- Everything inside an entry: its parts, each followed by everything inside it. -/
theorem inside_eq (d : Tree) : inside d = (parts d).flatMap fun k => k :: inside k := by
  rw [parts_eq]
  cases d with
  | node o t b f s ks => rw [inside, insideAll_eq]; rfl

theorem kids_size {d k : Tree} (h : k ∈ d.kids) : sizeOf k < sizeOf d := by
  cases d with
  | node o t b f s ks =>
    have := List.sizeOf_lt_of_mem (show k ∈ ks from h)
    simp only [Die.node.sizeOf_spec]
    omega

theorem parts_kids {d k : Tree} (h : k ∈ parts d) : k ∈ d.kids := by
  rw [parts_eq] at h
  exact (List.mem_filter.mp h).1

/-- What is inside an entry is what becomes an object there. -/
theorem mem_inside : ∀ (n : Nat) (d e : Tree), sizeOf d ≤ n → (e ∈ inside d ↔ ∃ q, Placed [d.off] (parts d) q e)
  | 0, d, e, hn => by cases d; simp [Die.node.sizeOf_spec] at hn
  | n + 1, d, e, hn => by
    rw [inside_eq, List.mem_flatMap]
    constructor
    · rintro ⟨k, hk, he⟩
      rcases List.mem_cons.mp he with rfl | he
      · exact ⟨_, .here hk⟩
      · have := kids_size (parts_kids hk)
        obtain ⟨q, hq⟩ := (mem_inside n k e (by omega)).mp he
        exact ⟨q, .there hk hq⟩
    · rintro ⟨q, hq⟩
      cases hq with
      | here h => exact ⟨e, h, List.mem_cons_self ..⟩
      | there hk h =>
        rename_i k
        have := kids_size (parts_kids hk)
        exact ⟨k, hk, List.mem_cons_of_mem _ ((mem_inside n k e (by omega)).mpr ⟨_, h⟩)⟩

theorem inside_iff {d e : Tree} : e ∈ inside d ↔ ∃ q, Placed [d.off] (parts d) q e := mem_inside _ d e (Nat.le_refl _)

theorem inside_placed {u : Nat × Tree} (hu : u ∈ units) {e : Tree} (he : e ∈ inside u.2) : ∃ q, Placed [] (units.map Prod.snd) q e := by
  obtain ⟨q, hq⟩ := inside_iff.mp he
  exact ⟨q, .there (List.mem_map.mpr ⟨u, hu, rfl⟩) hq⟩

/-! ### Maps -/

theorem keys_sublist {V : Type} {id : Nat → Str} {f : Nat → Option (Str × V)} (hf : ∀ n r, f n = some r → r.1 = id n) :
    ∀ added : List Nat, ((added.filterMap f).map Prod.fst).Sublist (added.map id)
  | [] => .slnil
  | n :: ns => by
    rw [List.map_cons]
    cases h : f n with
    | none => rw [List.filterMap_cons_none h]; exact .cons _ (keys_sublist hf ns)
    | some r =>
      rw [List.filterMap_cons_some h, List.map_cons, hf n r h]
      exact .cons_cons _ (keys_sublist hf ns)

theorem nodup_inj {α β : Type} {k : α → β} : ∀ {l : List α}, (l.map k).Nodup → ∀ {a b : α}, a ∈ l → b ∈ l → k a = k b → a = b
  | [], _, _, _, h, _, _ => by cases h
  | c :: l, hn, a, b, ha, hb, e => by
    rw [List.map_cons, List.nodup_cons] at hn
    rcases List.mem_cons.mp ha with rfl | ha' <;> rcases List.mem_cons.mp hb with rfl | hb'
    · rfl
    · exact absurd (List.mem_map.mpr ⟨b, hb', e.symm⟩) hn.1
    · exact absurd (List.mem_map.mpr ⟨a, ha', e⟩) hn.1
    · exact nodup_inj hn.2 ha' hb' e

/-- Looking up an id in a map. -/
theorem lookup_row {V : Type} {L : List (Str × V)} {added : List Nat} {id : Nat → Str} {f : Nat → Option (Str × V)} (hp : L.Perm (added.filterMap f))
    (hf : ∀ n r, f n = some r → r.1 = id n) (hn : (added.map id).Nodup) {o : Nat} (ho : o ∈ added) : L.lookup (id o) = (f o).map Prod.snd := by
  have hk : (L.map Prod.fst).Nodup := (hp.map _).nodup_iff.mpr (hn.sublist (keys_sublist hf added))
  cases h : f o with
  | none =>
    rw [Option.map_none, List.lookup_eq_none_iff]
    rintro ⟨a, v⟩ hm
    obtain ⟨n, h1, h2⟩ := List.mem_filterMap.mp (hp.mem_iff.mp hm)
    simp only [bne_iff_ne, ne_eq]
    intro e
    have := nodup_inj hn ho h1 (e.trans (hf n _ h2))
    subst this
    rw [h] at h2
    cases h2
  | some r =>
    have hm : r ∈ L := hp.mem_iff.mpr (List.mem_filterMap.mpr ⟨o, ho, h⟩)
    rw [Option.map_some]
    refine GoDedup.lookup_mem hk ?_
    rw [← hf o r h]
    exact hm

theorem varRow_id (n : Nat) (r : Str × Generate.Var) (h : varRow snake w st n = some r) : r.1 = idOf snake w st.added n := by
  unfold varRow at h
  split at h
  · cases h; rfl
  · cases h

theorem scopeRow_id (k : GoMeta.Kind) (n : Nat) (r : Str × Generate.Scope) (h : scopeRow snake w st x k n = some r) : r.1 = idOf snake w st.added n := by
  unfold scopeRow at h
  split at h
  · split at h <;> cases h <;> rfl
  · cases h

theorem unitRow_id (n : Nat) (r : Str × Generate.CUnit) (h : unitRow snake w st x n = some r) : r.1 = idOf snake w st.added n := by
  unfold unitRow at h
  split at h
  · cases h; rfl
  · cases h

theorem ids_nodup (snake : Str → Str) (hc : Core units w st st0 order) : (st.added.map (idOf snake w st.added)).Nodup := by
  rw [hc.ids_eq]
  exact (GoMeta.C46_unique snake _).2

/-! ### Kinds -/

/-- The kind of objects. -/
def catKind : Cat → Str
  | .base => go! "BaseType"
  | .enumeration => go! "EnumerationType"
  | .qual _ => go! "QualType"
  | .typedef => go! "Typedef"
  | .pointer => go! "PointerType"
  | .unspecified => go! "UnspecifiedType"
  | .reference _ => go! "ReferenceType"
  | .subroutine => go! "SubroutineType"
  | .array => go! "ArrayType"
  | .aggregate .class_ => go! "ClassType"
  | .aggregate .struct => go! "StructType"
  | .aggregate .union => go! "UnionType"
  | .variable => go! "Variable"
  | .subprogram => go! "Subprogram"
  | .namespace_ => go! "Namespace"
  | .lexBlock => go! "LexBlock"
  | .compileUnit => go! "CompileUnit"

theorem kind_cat (y : Desc) : kindText (GoDedup.kindOf y) = catKind (cat y) := by
  cases y with
  | struct h a => cases a <;> rfl
  | _ => rfl

theorem linkKind_ptr {l : Off} {o : Nat} (h : st.ptr l = some o) : linkKind snake w st l = catKind (cat (w.obj o)) := by
  simp only [linkKind, GoDedup.streamline, h, Option.map_some, Option.getD_some, kind_cat]

/-- The kind and the tag of an entry. -/
theorem kind_tag (snake : Str → Str) (x : Extra) (hi : Input units) (hc : Core units w st st0 order) {q : List Off} {d : Tree} (hp : Placed [] (units.map Prod.snd) q d) :
    ∃ c, d.tag = tagName c ∧ (item snake w st x d.off).kind = catKind c := by
  obtain ⟨t, o, -, h2, -, h4, h5⟩ := hc.placed hi hp
  refine ⟨cat (w.obj t), GoBuild.describes_tag h2, ?_⟩
  rw [← (for_head h5).1]
  exact linkKind_ptr h4

theorem cat_variable (c : Cat) : catKind c = go! "Variable" ↔ tagName c = go! "Variable" := by
  cases c with
  | qual q => cases q <;> decide
  | reference r => cases r <;> decide
  | aggregate a => cases a <;> decide
  | _ => decide

theorem cat_subprogram (c : Cat) : catKind c = go! "Subprogram" ↔ tagName c = go! "Subprogram" := by
  cases c with
  | qual q => cases q <;> decide
  | reference r => cases r <;> decide
  | aggregate a => cases a <;> decide
  | _ => decide

theorem cat_namespace (c : Cat) : catKind c = go! "Namespace" ↔ tagName c = go! "Namespace" := by
  cases c with
  | qual q => cases q <;> decide
  | reference r => cases r <;> decide
  | aggregate a => cases a <;> decide
  | _ => decide

/-- The tags of the entries with parts, other than units. -/
def innerTags : List Str := [go! "Subprogram", go! "Namespace", go! "LexDwarfBlock", go! "StructType", go! "ClassType", go! "UnionType"]

theorem cat_scope (c : Cat) : catKind c ∈ [go! "Subprogram", go! "Namespace", go! "LexBlock", go! "StructType", go! "ClassType", go! "UnionType"] ↔ tagName c ∈ innerTags := by
  cases c with
  | qual q => cases q <;> decide
  | reference r => cases r <;> decide
  | aggregate a => cases a <;> decide
  | _ => decide

theorem no_parts {d : Tree} (h1 : d.tag ∉ innerTags) (h2 : d.tag ≠ go! "CompileUnit") : parts d = [] := by
  rw [parts_eq, List.filter_eq_nil_iff]
  intro k _
  unfold isPart
  rw [if_neg, if_neg, if_neg]
  · decide
  · intro h
    simp only [List.mem_cons, List.not_mem_nil, or_false] at h
    rcases h with h | h | h
    · exact h1 (by rw [h]; decide)
    · exact h2 h
    · exact h1 (by rw [h]; decide)
  · intro h
    exact h1 (by rw [h]; decide)
  · intro h
    simp only [List.mem_cons, List.not_mem_nil, or_false] at h
    rcases h with h | h | h <;> exact h1 (by rw [h]; decide)

theorem member_parts (hm : Members units) {q : List Off} {d : Tree} (hp : Placed [] (units.map Prod.snd) q d) (ht : d.tag ∈ structTags) : parts d = [] := by
  unfold parts
  rw [if_pos (by unfold isTag; exact List.contains_iff_mem.mpr ht), List.filter_eq_nil_iff]
  intro k hk
  have h2 : isTag [go! "Member", go! "TemplateTypeParameter"] k = true := by unfold isTag; exact List.contains_iff_mem.mpr (hm q d hp ht k hk)
  rw [h2]; decide

/-! ### Rows -/

/-- Objects of entries that are no types are kept. -/
theorem own (hi : Input units) (hc : Core units w st st0 order) {q : List Off} {d : Tree} (hp : Placed [] (units.map Prod.snd) q d) (ht : d.tag ∉ typeTags) :
    ∃ o, st0.ptr d.off = some o ∧ Describes d (w.obj o) ∧ o ∈ st.added ∧ st.ptr d.off = some o ∧ st.parents o = q := by
  obtain ⟨t, o, h1, h2, h3, h4, h5⟩ := hc.placed hi hp
  have hf : isTypeTag (w.tag d.off) = false := by
    cases h : isTypeTag (w.tag d.off) with
    | false => rfl
    | true => exact absurd ((hc.tag hp).mp h) ht
  obtain rfl := for_other h5 hf
  obtain ⟨n, n1, -, n3, -⟩ := hc.obj q d hp
  rw [h1] at n1
  cases n1
  exact ⟨t, h1, h2, h3, h4, ((hc.parents hi).own _ _ h1 (.inr hf)).trans n3⟩

/-- A variable. -/
theorem var_row (hi : Input units) (hc : Core units w st st0 order) (hT : Tables snake w st x db) {q : List Off} {d : Tree}
    (hp : Placed [] (units.map Prod.snd) q d) (ht : d.tag = go! "Variable") :
    db.variables.lookup (link snake w st d.off) =
      some { name := text d (go! "Name"), parentKind := (q.map (linkKind snake w st)).headD [], parentId := (q.map (link snake w st)).headD [] } := by
  obtain ⟨o, -, h2, h3, h4, h5⟩ := own hi hc hp (by rw [ht]; decide)
  rw [link_ptr h4, lookup_row hT.variables varRow_id (ids_nodup snake hc) h3]
  have hcat := GoBuild.describes_tag h2
  rw [ht] at hcat
  generalize hy : w.obj o = y at h2 hcat
  cases h2 with
  | «variable» _ hh =>
    unfold varRow
    rw [hy]
    simp only [Option.map_some, hh.name, parentKind, parentOf, h5]
  | @qual _ z h | @reference _ z h | @struct _ z _ h =>
    exfalso
    revert h
    rw [ht]
    cases z <;> decide
  | base h | enumeration h | typedef h | pointer h | unspecified h | subroutine h | array h | subprogram h | namespace_ h | lexBlock h | compileUnit h =>
    rw [ht] at h
    exact absurd h (by decide)

/-- A function. -/
theorem sub_row (hi : Input units) (hc : Core units w st st0 order) (hT : Tables snake w st x db) {q : List Off} {d : Tree}
    (hp : Placed [] (units.map Prod.snd) q d) (ht : d.tag = go! "Subprogram") :
    db.subprograms.lookup (link snake w st d.off) =
      some { name := text d (go! "Name"), hier := (parts d).map fun k => item snake w st x k.off } := by
  obtain ⟨o, -, h2, h3, h4, h5⟩ := own hi hc hp (by rw [ht]; decide)
  rw [link_ptr h4, lookup_row hT.subprograms (scopeRow_id _) (ids_nodup snake hc) h3]
  generalize hy : w.obj o = y at h2
  cases h2 with
  | subprogram _ hh =>
    unfold scopeRow
    rw [hy]
    simp only [GoDedup.kindOf, if_true, Option.map_some, hh.name, List.map_map]
    rfl
  | @qual _ z h | @reference _ z h | @struct _ z _ h =>
    exfalso
    revert h
    rw [ht]
    cases z <;> decide
  | base h | enumeration h | typedef h | pointer h | unspecified h | subroutine h | array h | «variable» h | namespace_ h | lexBlock h | compileUnit h =>
    rw [ht] at h
    exact absurd h (by decide)

/-- The items inside an object, in the map of its kind. -/
def hierOf (snake : Str → Str) (w : World) (st : St) (x : Extra) (n : Nat) : Option (List Generate.Item) :=
  match w.obj n with
  | .struct _ _ _ hs | .subprogram _ _ _ hs | .namespace_ _ hs | .lexBlock hs => some (hs.map (item snake w st x))
  | _ => none

theorem contents_row (hc : Core units w st st0 order) (hT : Tables snake w st x db) {o : Nat} (ho : o ∈ st.added) :
    Generate.Spec.contents db (catKind (cat (w.obj o))) (idOf snake w st.added o) = hierOf snake w st x o := by
  have row : ∀ {L : List (Str × Generate.Scope)} {k : GoMeta.Kind}, L.Perm (st.added.filterMap (scopeRow snake w st x k)) →
      L.lookup (idOf snake w st.added o) = (scopeRow snake w st x k o).map Prod.snd := fun h => lookup_row h (scopeRow_id _) (ids_nodup snake hc) ho
  have none' : ∀ c : Str, c ∉ [go! "Subprogram", go! "Namespace", go! "LexBlock", go! "StructType", go! "ClassType", go! "UnionType"] →
      Generate.Spec.contents db c (idOf snake w st.added o) = none := by
    intro c hn
    unfold Generate.Spec.contents
    simp only [List.mem_cons, List.not_mem_nil, or_false, not_or] at hn
    obtain ⟨a1, a2, a3, a4, a5, a6⟩ := hn
    simp only [List.lookup, beq_eq_false_iff_ne.mpr a1, beq_eq_false_iff_ne.mpr a2, beq_eq_false_iff_ne.mpr a3, beq_eq_false_iff_ne.mpr a4,
      beq_eq_false_iff_ne.mpr a5, beq_eq_false_iff_ne.mpr a6]
    rfl
  unfold hierOf
  cases hy : w.obj o with
  | struct h a fs hs =>
    cases a with
    | class_ =>
      show ((db.classTypes.lookup _).map _) = _
      rw [row hT.classTypes]
      simp [scopeRow, hy, GoDedup.kindOf]
    | struct =>
      show ((db.structTypes.lookup _).map _) = _
      rw [row hT.structTypes]
      simp [scopeRow, hy, GoDedup.kindOf]
    | union =>
      show ((db.unionTypes.lookup _).map _) = _
      rw [row hT.unionTypes]
      simp [scopeRow, hy, GoDedup.kindOf]
  | subprogram h ps r hs =>
    show ((db.subprograms.lookup _).map _) = _
    rw [row hT.subprograms]
    simp [scopeRow, hy, GoDedup.kindOf]
  | namespace_ h hs =>
    show ((db.namespaces.lookup _).map _) = _
    rw [row hT.namespaces]
    simp [scopeRow, hy, GoDedup.kindOf]
  | lexBlock hs =>
    show ((db.lexBlocks.lookup _).map _) = _
    rw [row hT.lexBlocks]
    simp [scopeRow, hy, GoDedup.kindOf]
  | _ => exact none' _ (by simp only [cat, catKind]; decide)

/-- What is directly inside an entry. -/
theorem contents_of (hi : Input units) (hm : Members units) (hc : Core units w st st0 order) (hT : Tables snake w st x db) {q : List Off} {d : Tree}
    (hp : Placed [] (units.map Prod.snd) q d) (ht : d.tag ∈ innerTags) :
    Generate.Spec.contents db (item snake w st x d.off).kind (item snake w st x d.off).id = some ((parts d).map fun k => item snake w st x k.off) := by
  obtain ⟨t, o, h1, h2, h3, h4, h5⟩ := hc.placed hi hp
  show Generate.Spec.contents db (linkKind snake w st d.off) (link snake w st d.off) = _
  rw [linkKind_ptr h4, link_ptr h4, contents_row hc hT h3]
  have hcat := (for_head h5).1
  have htag := GoBuild.describes_tag h2
  by_cases hs : d.tag ∈ structTags
  · rw [member_parts hm hp hs]
    obtain ⟨f, f1, -⟩ := hc.home h3
    have : cat (w.obj o) ≠ .array := by
      intro e
      rw [← hcat, e] at htag
      rw [htag] at hs
      exact absurd hs (by decide)
    obtain ⟨q', d', p1, -, p3⟩ := hc.described f1 this
    have ht' : d'.tag = d.tag := by rw [GoBuild.describes_tag p3, hcat, ← htag]
    have hn := member_parts hm p1 (by rw [ht']; exact hs)
    unfold hierOf
    generalize w.obj o = y at p3
    cases p3 with
    | struct => simp only [hn]; rfl
    | subprogram h | namespace_ h | lexBlock h => rw [← ht', h] at hs; exact absurd hs (by decide)
    | @qual _ z h | @reference _ z h =>
      exfalso
      rw [← ht', h] at hs
      revert hs
      cases z <;> decide
    | base h | enumeration h | typedef h | pointer h | unspecified h | subroutine h | array h | «variable» h | compileUnit h =>
      rw [← ht', h] at hs
      exact absurd hs (by decide)
  · have htt : d.tag ∉ typeTags := by
      intro h
      have : d.tag ∈ innerTags ∧ d.tag ∈ typeTags := ⟨ht, h⟩
      simp only [innerTags, List.mem_cons, List.not_mem_nil, or_false] at ht
      rcases ht with e | e | e | e | e | e <;> rw [e] at h hs <;> first | exact absurd h (by decide) | exact hs (by decide)
    obtain ⟨o', -, g2, -, g4, -⟩ := own hi hc hp htt
    rw [h4] at g4
    cases g4
    unfold hierOf
    generalize w.obj o = y at g2
    cases g2 with
    | subprogram | namespace_ | lexBlock => simp only [List.map_map]; rfl
    | @struct _ z _ h => rw [h] at hs; exact absurd (Chain.aggr_struct z) hs
    | @qual _ z h | @reference _ z h =>
      exfalso
      rw [h] at ht
      revert ht
      cases z <;> decide
    | base h | enumeration h | typedef h | pointer h | unspecified h | subroutine h | array h | «variable» h | compileUnit h =>
      rw [h] at ht
      exact absurd ht (by decide)

/-- Below units there are no units. -/
theorem not_unit (hi : Input units) {u : Nat × Tree} (hu : u ∈ units) {e : Tree} (he : e ∈ inside u.2) : e.tag ≠ go! "CompileUnit" := by
  obtain ⟨q, hq⟩ := inside_iff.mp he
  have := (hi.good u.2 (List.mem_map.mpr ⟨u, hu, rfl⟩)).2 q e hq
  intro ht
  cases this with
  | base h | enumeration h | typedef h | unspecified h | array h | block h | scope h => rw [ht] at h; exact absurd h (by decide)
  | link h1 h2 | func h1 h2 | struct h1 h2 => rw [← h2, ht] at h1; exact absurd h1 (by decide)

/-- The walk over everything inside an entry of a unit. -/
theorem all_inside (hi : Input units) (hm : Members units) (hc : Core units w st st0 order) (hT : Tables snake w st x db) {u : Nat × Tree} (hu : u ∈ units) :
    ∀ (n : Nat) (ds : List Tree), (∀ d ∈ ds, sizeOf d ≤ n ∧ d ∈ inside u.2) →
      Generate.Spec.All db (ds.map fun k => item snake w st x k.off) ((ds.flatMap fun k => k :: inside k).map fun k => item snake w st x k.off)
  | _, [], _ => .nil
  | 0, d :: _, h => by
    have := (h d (List.mem_cons_self ..)).1
    cases d
    simp [Die.node.sizeOf_spec] at this
  | n + 1, d :: ds, h => by
    obtain ⟨h1, h2⟩ := h d (List.mem_cons_self ..)
    have rest := all_inside hi hm hc hT hu (n + 1) ds fun e he => h e (List.mem_cons_of_mem _ he)
    obtain ⟨q, hq⟩ := inside_placed hu h2
    obtain ⟨c, c1, c2⟩ := kind_tag snake x hi hc hq
    rw [List.map_cons, List.flatMap_cons, List.cons_append, List.map_cons, List.map_append]
    by_cases ht : d.tag ∈ innerTags
    · refine .scope ?_ (contents_of hi hm hc hT hq ht) ?_ rest
      · show (item snake w st x d.off).kind ∈ _
        rw [c2, cat_scope, ← c1]
        exact ht
      · rw [inside_eq]
        refine all_inside hi hm hc hT hu n (parts d) fun e he => ⟨?_, ?_⟩
        · have := kids_size (parts_kids he)
          omega
        · obtain ⟨q', hq'⟩ := inside_iff.mp h2
          exact inside_iff.mpr ⟨_, Chain.placed_part hq' he⟩
    · have : inside d = [] := by rw [inside_eq, no_parts ht (not_unit hi hu h2)]; rfl
      rw [this]
      refine .leaf ?_ rest
      show ¬ (item snake w st x d.off).kind ∈ _
      rw [c2, cat_scope, ← c1]
      exact ht
termination_by n ds => (n, ds.length)

end Verif.Links
