import Verif.GoBuild.Props
import Verif.GoDedup.PropsLinks
import Verif.Chain.Spec
/-
Lemmas for C79: the objects of the database and the entries they come from.
-/
namespace Verif.Chain
open Verif.GoMeta (Str)
open GoDwarf.Spec (Die)
open GoBuild.Spec (Tree Placed Good GoodNames text num ref declared isTag parts NameOf encodings paramTags Dim Describes Dims)
open GoDedup (Off World St Go Desc isTypeTag)
open GoDedup.Spec (Start Visits OneType Alike Agree cat tagName links)
open Spec

variable {units : List (Nat × Tree)} {w : World} {st st0 : St} {order : List Off}

theorem type_tags (c : GoDedup.Spec.Cat) : tagName c ∈ typeTags ↔ c.type = true := by
  cases c with
  | qual q => cases q <;> decide
  | reference r => cases r <;> decide
  | aggregate a => cases a <;> decide
  | _ => decide

theorem scope_tags (c : GoDedup.Spec.Cat) (h : tagName c ∈ scopeTags) : c.type = false := by
  revert h
  cases c with
  | qual q => cases q <;> decide
  | reference r => cases r <;> decide
  | aggregate a => cases a <;> decide
  | _ => decide

/-- The build before types were merged. -/
structure Base (units : List (Nat × Tree)) (w : World) (st0 : St) : Prop where
  start : Start w st0
  obj : ∀ q d, Placed [] (units.map Prod.snd) q d → ∃ n, st0.ptr d.off = some n ∧ Describes d (w.obj n) ∧ st0.parents n = q ∧
    (d.tag = go! "ArrayType" → ∃ h p, GoBuild.Spec.TypeHead d h ∧ q = [p] ∧
      Dims st0.ptr w.obj st0.parents (ref d (go! "Type")) h (num d (go! "StrideSize")) d.off p d.kids)
  entry : ∀ o n, st0.ptr o = some n → ∃ q d, Placed [] (units.map Prod.snd) q d ∧ (o = d.off ∨ d.tag = go! "ArrayType" ∧ o ∈ (d.kids.map Die.off).tail)
  decl : ∀ q d, Placed [] (units.map Prod.snd) q d → w.decl d.off = declared d
  parent : ∀ q d, Placed [] (units.map Prod.snd) q d → d.tag ∈ typeTags → ∀ p, GoDedup.Spec.parent w d.off = some p → q = [p]
  inner : ∀ q d, Placed [] (units.map Prod.snd) q d → ∀ k ∈ d.kids, GoDedup.Spec.parent w k.off = some d.off
  has : ∀ q d, Placed [] (units.map Prod.snd) q d → ∃ p, w.entries d.off = some (some p) ∧ w.entries p ≠ none
  kids : ∀ q d, Placed [] (units.map Prod.snd) q d → ∀ k ∈ d.kids, w.decl k.off = declared k
  names : ∀ q d q' d' n n', Placed [] (units.map Prod.snd) q d → Placed [] (units.map Prod.snd) q' d' → d.tag = go! "BaseType" → d'.tag = go! "BaseType" →
    text d (go! "Name") = text d' (go! "Name") → num d (go! "ByteSize") = num d' (go! "ByteSize") → st0.ptr d.off = some n → st0.ptr d'.off = some n' →
    GoDedup.Spec.name (w.obj n) = GoDedup.Spec.name (w.obj n')

/-- The build, before and after types were merged. -/
structure Core (units : List (Nat × Tree)) (w : World) (st st0 : St) (order : List Off) : Prop extends Base units w st0 where
  visits : Visits st0 order
  run : GoDedup.dedup w order st0 = Go.ret st

theorem placed_one {p : List Off} {ds : List Tree} {q : List Off} {d : Tree} (h : Placed p ds q d) :
    ∀ p0 ds', p = [p0] → (∀ x ∈ ds, x ∈ ds') → ∃ q0, q = [q0] ∧ Die.Below p0 ds' q0 d := by
  induction h with
  | here hd => exact fun p0 ds' hp hs => ⟨p0, hp, .here (hs _ hd)⟩
  | there hk _ ih =>
    intro p0 ds' hp hs
    obtain ⟨q0, h0, h1⟩ := ih _ _ rfl (fun x hx => GoBuild.parts_sub hx)
    exact ⟨q0, h0, .there (hs _ hk) h1⟩

theorem below_kid {p0 : Off} {ds : List Tree} {q : Off} {d k : Tree} (h : Die.Below p0 ds q d) (hk : k ∈ d.kids) : Die.Below p0 ds d.off k := by
  induction h with
  | here hd => exact .there hd (.here hk)
  | there h1 _ ih => exact .there h1 (ih hk)

/-- The parts of an entry that becomes an object become objects. -/
theorem placed_part {p : List Off} {ds : List Tree} {q : List Off} {d k : Tree} (h : Placed p ds q d) (hk : k ∈ parts d) : Placed p ds [d.off] k := by
  induction h with
  | here hd => exact .there hd (.here hk)
  | there h1 _ ih => exact .there h1 (ih hk)

theorem below_parent {p0 : Off} {ds : List Tree} {q : Off} {d : Tree} (h : Die.Below p0 ds q d) : q = p0 ∨ ∃ p' e, Die.Below p0 ds p' e ∧ e.off = q := by
  induction h with
  | here hd => exact .inl rfl
  | @there p ds k _ _ hk _ ih =>
    rcases ih with rfl | ⟨p', e, h1, h2⟩
    · exact .inr ⟨_, k, .here hk, rfl⟩
    · exact .inr ⟨p', e, .there hk h1, h2⟩

theorem base (hi : Input units) {E : GoBuild.Data} {b : GoBuild.B} (r1 : GoDwarf.newData (GoDwarf.Spec.storedUnits units) = Go.ret E) (r2 : GoBuild.build E = Go.ret b) :
    Base units (GoBuild.world E b) (GoBuild.start b) := by
  obtain ⟨E', b', e1, e2, e3⟩ := GoBuild.C66_start units hi.sound hi.distinct hi.good hi.names
  rw [r1] at e1
  cases e1
  rw [r2] at e2
  cases e2
  obtain ⟨E', b', e1, e2, e4, e5, -⟩ := GoBuild.C66_objects units hi.sound hi.distinct hi.good
  rw [r1] at e1
  cases e1
  rw [r2] at e2
  cases e2
  obtain ⟨E', g1, g2, g3, -⟩ := GoDwarf.C65_tree units hi.sound hi.distinct
  rw [r1] at g1
  cases g1
  obtain ⟨E', b', x1, x2, x3⟩ := GoBuild.C66_names units hi.sound hi.distinct hi.good
  rw [r1] at x1
  cases x1
  rw [r2] at x2
  cases x2
  refine ⟨e3, e4, e5, ?_, ?_, ?_, ?_, ?_, x3⟩
  · intro q d hp
    obtain ⟨q0, hb⟩ := GoBuild.placed_below hp 0 _ (fun x hx => hx)
    show (match E d.off with | none => false | some e => GoBuild.declOf e) = _
    rw [g2 q0 d hb]
    exact GoBuild.declOf_made q0 d
  · intro q d hp ht p hpar
    rcases GoBuild.placed_top hp with ⟨-, hu⟩ | ⟨u, hu, hp'⟩
    · rw [(hi.good d hu).1.tag] at ht
      exact absurd ht (by decide)
    · obtain ⟨q0, h0, h1⟩ := placed_one hp' _ _ rfl (fun x hx => GoBuild.parts_sub hx)
      have : E d.off = _ := g2 q0 d (.there hu h1)
      have h3 : GoDedup.Spec.parent (GoBuild.world E b) d.off = some q0 := by
        show ((E d.off).map GoDwarf.Entry.parent).bind id = _
        rw [this]
        rfl
      rw [h3] at hpar
      cases hpar
      exact h0
  · intro q d hp k hk
    obtain ⟨q0, hb⟩ := GoBuild.placed_below hp 0 _ (fun x hx => hx)
    have := g2 d.off k (below_kid hb hk)
    show ((E k.off).map GoDwarf.Entry.parent).bind id = _
    rw [this]
    rfl
  · intro q d hp
    obtain ⟨q0, hb⟩ := GoBuild.placed_below hp 0 _ (fun x hx => hx)
    refine ⟨q0, ?_, ?_⟩
    · show (E d.off).map GoDwarf.Entry.parent = _
      rw [g2 q0 d hb]
      rfl
    · show (E q0).map GoDwarf.Entry.parent ≠ none
      rcases below_parent hb with rfl | ⟨p', e, h1, rfl⟩
      · rw [g3]; simp
      · rw [g2 p' e h1]; simp
  · intro q d hp k hk
    obtain ⟨q0, hb⟩ := GoBuild.placed_below hp 0 _ (fun x hx => hx)
    show (match E k.off with | none => false | some e => GoBuild.declOf e) = _
    rw [g2 d.off k (below_kid hb hk)]
    exact GoBuild.declOf_made d.off k

theorem core (hi : Input units) (hr : Read units w st) : ∃ st0 order, Core units w st st0 order := by
  obtain ⟨E, b, order, r1, r2, r3, r4⟩ := hr
  unfold GoBuild.newMetaDb at r4
  rw [r2, GoBuild.ret_bind] at r4
  obtain ⟨st1, h1, h2⟩ := GoDedup.Go.bind_ret.mp r4
  cases h2
  exact ⟨GoBuild.start b, order, base hi r1 r2, r3, h1⟩

/-- `o` stands in the database for the object `t` of the entry `l`. -/
def For (w : World) (st0 : St) (l : Off) (t o : Nat) : Prop :=
  o = t ∨ isTypeTag (w.tag l) = true ∧ ∃ f, f ≠ l ∧ st0.ptr f = some o ∧ w.decl l = w.decl f ∧ OneType w.obj st0.ptr (w.decl l) t o

theorem Core.inv (hc : Core units w st st0 order) : GoDedup.Inv w st0 order.reverse st := GoDedup.inv_final hc.start hc.visits hc.run

theorem Core.tag (hc : Core units w st st0 order) {q : List Off} {d : Tree} (hp : Placed [] (units.map Prod.snd) q d) :
    isTypeTag (w.tag d.off) = true ↔ d.tag ∈ typeTags := by
  obtain ⟨n, h1, h2, -⟩ := hc.obj q d hp
  rw [hc.start.tag _ _ h1, GoBuild.typeTag_cat, GoBuild.describes_tag h2, type_tags]

theorem Core.scope (hc : Core units w st st0 order) {q : List Off} {d : Tree} (hp : Placed [] (units.map Prod.snd) q d) (ht : d.tag ∈ scopeTags) :
    st.dup d.off = false := by
  obtain ⟨n, h1, h2, -⟩ := hc.obj q d hp
  refine (hc.inv.pending d.off (.inr (.inl ?_))).2
  rw [hc.start.tag _ _ h1, GoBuild.typeTag_cat]
  rw [GoBuild.describes_tag h2] at ht
  exact scope_tags _ ht

/-- What an entry ends with. -/
theorem Core.ends (hc : Core units w st st0 order) {l : Off} {t : Nat} (ht : st0.ptr l = some t)
    (hp : isTypeTag (w.tag l) = true → ∀ p, GoDedup.Spec.parent w l = some p → st.dup p = false) :
    ∃ o ∈ st.added, st.ptr l = some o ∧ For w st0 l t o := by
  have inv := hc.inv
  have mem : l ∈ order.reverse := by rw [List.mem_reverse]; exact hc.visits.all _ (by rw [ht]; simp)
  cases htl : isTypeTag (w.tag l) with
  | false =>
    refine ⟨t, inv.base t ((hc.start.others l t ht).mpr htl), ?_, .inl rfl⟩
    rw [(inv.pending l (.inr (.inl htl))).1, ht]
  | true =>
    cases inv.fate l mem t htl ht with
    | rep h1 h2 h3 h4 h5 => exact ⟨t, h3, h1, .inl rfl⟩
    | @merged k f fo h1 h2 h3 h4 h5 h6 h7 =>
      obtain ⟨-, e0, fo', e1, e2, -, e3, e4⟩ := inv.found k f h4
      rw [h6] at e1; cases e1
      obtain ⟨m1, m2⟩ := GoDedup.C61_merged w st0 st order hc.start hc.visits hc.run l f t fo htl e0 ht h6 (Ne.symm h5) (by rw [e2, h7])
      exact ⟨fo, e3, h7, .inr ⟨htl, f, h5, h6, m1, m2⟩⟩
    | @dropped p h1 h2 h3 h4 h5 => rw [hp htl p h4] at h5; cases h5

/-- What is around a type was not merged into something else. -/
def Live (w : World) (st : St) (l : Off) : Prop := isTypeTag (w.tag l) = true → ∀ p, GoDedup.Spec.parent w l = some p → st.dup p = false

theorem Core.live (hi : Input units) (hc : Core units w st st0 order) {q : List Off} {d : Tree} (hp : Placed [] (units.map Prod.snd) q d) : Live w st d.off := by
  intro ht p hpar
  have ht' := (hc.tag hp).mp ht
  obtain ⟨q', s, s1, rfl, s3⟩ := hi.flat q d hp ht' p (by rw [hc.parent q d hp ht' p hpar]; simp)
  exact hc.scope s1 s3

/-- What the entry of an object ends with. -/
theorem Core.placed (hi : Input units) (hc : Core units w st st0 order) {q : List Off} {d : Tree} (hp : Placed [] (units.map Prod.snd) q d) :
    ∃ t o, st0.ptr d.off = some t ∧ Describes d (w.obj t) ∧ o ∈ st.added ∧ st.ptr d.off = some o ∧ For w st0 d.off t o := by
  obtain ⟨t, h1, h2, -⟩ := hc.obj q d hp
  obtain ⟨o, g1, g2, g3⟩ := hc.ends h1 (hc.live hi hp)
  exact ⟨t, o, h1, h2, g1, g2, g3⟩

/-- The entry an object of the database comes from. -/
theorem Core.home (hc : Core units w st st0 order) {o : Nat} (ho : o ∈ st.added) : ∃ i, st0.ptr i = some o ∧ st.dup i = false := by
  rcases hc.inv.added o ho with h | ⟨i, -, -, h1, h2⟩
  · obtain ⟨i, hi⟩ := hc.start.entry o h
    refine ⟨i, hi, (hc.inv.pending i (.inr (.inl ?_))).2⟩
    rw [hc.start.tag i o hi, GoBuild.typeTag_cat]
    exact (hc.start.nontypes i o hi).mp h
  · exact ⟨i, h1, h2⟩

theorem each_mem {α β : Type} {R : α → β → Prop} {as : List α} {bs : List β} (h : GoDedup.Spec.Each R as bs) : ∀ b ∈ bs, ∃ a ∈ as, R a b := by
  induction h with
  | nil => simp
  | cons h _ ih =>
    intro b hb
    rcases List.mem_cons.mp hb with rfl | hb
    · exact ⟨_, by simp, h⟩
    · obtain ⟨a, ha, hr⟩ := ih b hb
      exact ⟨a, by simp [ha], hr⟩

theorem apart {t : Str} {A B : List Str} (h : ∀ x ∈ A, x ∉ B) (ha : t ∈ A) (hb : t ∈ B) : False := h t ha hb

def linkTags : List Str :=
  [go! "PointerType", go! "ReferenceType", go! "RvalueReferenceType", go! "ConstType", go! "VolatileType", go! "RestrictType", go! "MutableType",
   go! "SharedType", go! "PackedType", go! "Variable", go! "Typedef", go! "SubroutineType", go! "Subprogram", go! "ArrayType"]
def funcTags : List Str := [go! "SubroutineType", go! "Subprogram"]
def structTags : List Str := [go! "ClassType", go! "StructType", go! "UnionType"]

theorem complete_link {ty : Off → Prop} {d : Tree} (h : GoBuild.Spec.Complete ty d) (ht : d.tag ∈ linkTags) : GoBuild.Spec.LinkOk ty d := by
  cases h with
  | link _ _ h | typedef _ _ h | func _ _ h _ _ | array _ h _ => exact h
  | base h1 | enumeration h1 | unspecified h1 | block h1 | scope h1 => rw [h1] at ht; exact absurd ht (by decide)
  | struct h1 h2 => rw [h2] at ht; exact (apart (by decide) h1 ht).elim

theorem complete_params {ty : Off → Prop} {d : Tree} (h : GoBuild.Spec.Complete ty d) (ht : d.tag ∈ funcTags) :
    ∀ k ∈ d.kids, isTag paramTags k = true → GoBuild.Spec.LinkOk ty k := by
  cases h with
  | func _ _ _ h _ => exact h
  | base h1 | enumeration h1 | unspecified h1 | block h1 | scope h1 | typedef h1 | array h1 => rw [h1] at ht; exact absurd ht (by decide)
  | struct h1 h2 | link h1 h2 => rw [h2] at ht; exact (apart (by decide) h1 ht).elim

theorem complete_members {ty : Off → Prop} {d : Tree} (h : GoBuild.Spec.Complete ty d) (ht : d.tag ∈ structTags) :
    ∀ k ∈ d.kids, k.tag = go! "Member" → ∃ t, ref k (go! "Type") = some t ∧ ty t := by
  cases h with
  | struct _ _ h => exact fun k hk ht => (h k hk ht).1
  | base h1 | enumeration h1 | unspecified h1 | block h1 | scope h1 | typedef h1 | array h1 => rw [h1] at ht; exact absurd ht (by decide)
  | func h1 h2 | link h1 h2 => rw [h2] at ht; exact (apart (by decide) h1 ht).elim

theorem qual_link (q : GoDedup.Qual) : tagName (.qual q) ∈ linkTags := by cases q <;> decide
theorem ref_link (r : Bool) : tagName (.reference r) ∈ linkTags := by cases r <;> decide
theorem aggr_struct (a : GoDedup.Aggr) : tagName (.aggregate a) ∈ structTags := by cases a <;> decide

theorem complete (hi : Input units) {q : List Off} {d : Tree} (hp : Placed [] (units.map Prod.snd) q d) (ht : d.tag ≠ go! "CompileUnit") :
    GoBuild.Spec.Complete (GoBuild.Spec.TypeAt (units.map Prod.snd)) d := by
  rcases GoBuild.placed_top hp with ⟨-, hu⟩ | ⟨u, hu, hp'⟩
  · exact absurd (hi.good d hu).1.tag ht
  · exact (hi.good u hu).2 q d hp'

/-- There is an entry for an object. -/
def At (units : List (Nat × Tree)) (l : Off) : Prop := ∃ q T, Placed [] (units.map Prod.snd) q T ∧ T.off = l

/-- There is an entry for a type. -/
def Ty (units : List (Nat × Tree)) (l : Off) : Prop := ∃ q T, Placed [] (units.map Prod.snd) q T ∧ T.off = l ∧ T.tag ∈ typeTags

theorem Ty.at {l : Off} (h : Ty units l) : At units l := by
  obtain ⟨q, T, h1, h2, -⟩ := h
  exact ⟨q, T, h1, h2⟩

theorem at_link {k : Tree} (h : GoBuild.Spec.LinkOk (GoBuild.Spec.TypeAt (units.map Prod.snd)) k) {l : Off} (hl : ref k (go! "Type") = some l) : Ty units l := by
  obtain ⟨q', T, c, h1, h2, h3, h4⟩ := h _ hl
  exact ⟨q', T, h1, h2, by rw [h3]; exact (type_tags c).mpr h4⟩

theorem at_params {ks : List Tree} {ps : List GoDedup.Param} (h : ∀ k ∈ ks, isTag paramTags k = true → GoBuild.Spec.LinkOk (GoBuild.Spec.TypeAt (units.map Prod.snd)) k)
    (he : GoDedup.Spec.Each GoBuild.Spec.ParamOf (ks.filter (isTag paramTags)) ps) {l : Off} (hl : l ∈ ps.filterMap GoDedup.Param.type) : At units l := by
  obtain ⟨p, hp, hpl⟩ := List.mem_filterMap.mp hl
  obtain ⟨k, hk, hkp⟩ := each_mem he p hp
  rw [List.mem_filter] at hk
  exact (at_link (h k hk.1 hk.2) (by rw [← hkp.type, hpl])).at

/-- The links of an object lead to entries that become types, or to its parts. -/
theorem describes_links (hi : Input units) {q : List Off} {d : Tree} (hp : Placed [] (units.map Prod.snd) q d) {x : Desc} (hd : Describes d x)
    (ha : d.tag ≠ go! "ArrayType") {l : Off} (hl : l ∈ links x) : At units l := by
  have part : ∀ l ∈ (parts d).map Die.off, At units l := by
    intro l hl
    obtain ⟨k, hk, rfl⟩ := List.mem_map.mp hl
    exact ⟨_, k, placed_part hp hk, rfl⟩
  have comp : ∀ c : GoDedup.Spec.Cat, c ≠ .compileUnit → d.tag = tagName c → GoBuild.Spec.Complete (GoBuild.Spec.TypeAt (units.map Prod.snd)) d := by
    intro c hc ht
    refine complete hi hp ?_
    rw [ht]
    revert hc
    cases c with
    | qual q => cases q <;> decide
    | reference r => cases r <;> decide
    | aggregate a => cases a <;> decide
    | _ => decide
  cases hd with
  | base | enumeration | unspecified => cases hl
  | array h1 => exact absurd h1 ha
  | qual h1 =>
    exact (at_link (complete_link (comp _ (by simp) h1) (by rw [h1]; exact qual_link _)) (by simpa [links] using hl)).at
  | reference h1 =>
    exact (at_link (complete_link (comp _ (by simp) h1) (by rw [h1]; exact ref_link _)) (by simpa [links] using hl)).at
  | typedef h1 =>
    exact (at_link (complete_link (comp .typedef (by simp) h1) (by rw [h1]; decide)) (by simpa [links] using hl)).at
  | pointer h1 =>
    exact (at_link (complete_link (comp .pointer (by simp) h1) (by rw [h1]; decide)) (by simpa [links] using hl)).at
  | «variable» h1 =>
    exact (at_link (complete_link (comp .variable (by simp) h1) (by rw [h1]; decide)) (by simpa [links] using hl)).at
  | subroutine h1 h2 h3 =>
    rcases List.mem_append.mp hl with hl | hl
    · exact at_params (complete_params (comp .subroutine (by simp) h1) (by rw [h1]; decide)) h3 hl
    · exact (at_link (complete_link (comp .subroutine (by simp) h1) (by rw [h1]; decide)) (by simpa using hl)).at
  | subprogram h1 h2 h3 =>
    rcases List.mem_append.mp hl with hl | hl
    · rcases List.mem_append.mp hl with hl | hl
      · exact at_params (complete_params (comp .subprogram (by simp) h1) (by rw [h1]; decide)) h3 hl
      · exact (at_link (complete_link (comp .subprogram (by simp) h1) (by rw [h1]; decide)) (by simpa using hl)).at
    · exact part l hl
  | struct h1 h2 h3 =>
    rcases List.mem_append.mp hl with hl | hl
    · obtain ⟨f, hf, hfl⟩ := List.mem_filterMap.mp hl
      obtain ⟨k, hk, hkf⟩ := each_mem h3 f hf
      rw [List.mem_filter] at hk
      obtain ⟨t, t1, q', T, c, t2, t3, -⟩ := complete_members (comp _ (by simp) h1) (by rw [h1]; exact aggr_struct _) k hk.1 (by simpa [isTag] using hk.2)
      refine ⟨q', T, t2, ?_⟩
      rw [hkf.type, t1] at hfl
      cases hfl
      exact t3
    · exact part l hl
  | namespace_ | lexBlock | compileUnit => exact part l hl

/-- The links of an object of the database lead to objects of the database. -/
theorem Core.link (hi : Input units) (hc : Core units w st st0 order) {o : Nat} (ho : o ∈ st.added) {l : Off} (hl : l ∈ links (w.obj o)) :
    ∃ t o', st0.ptr l = some t ∧ o' ∈ st.added ∧ st.ptr l = some o' ∧ For w st0 l t o' ∧ Live w st l := by
  have at' : At units l → ∃ t o', st0.ptr l = some t ∧ o' ∈ st.added ∧ st.ptr l = some o' ∧ For w st0 l t o' ∧ Live w st l := by
    rintro ⟨q, T, h1, rfl⟩
    obtain ⟨t, o', g1, -, g2, g3, g4⟩ := hc.placed hi h1
    exact ⟨t, o', g1, g2, g3, g4, hc.live hi h1⟩
  obtain ⟨i, h1, h2⟩ := hc.home ho
  obtain ⟨q, d, hp, hd⟩ := hc.entry i o h1
  by_cases ha : d.tag = go! "ArrayType"
  · obtain ⟨n, n1, n2, n3, n4⟩ := hc.obj q d hp
    obtain ⟨h, p, -, rfl, hdims⟩ := n4 ha
    have elem : l ∈ (ref d (go! "Type")).toList → At units l := by
      intro hl
      exact (at_link (complete_link (complete hi hp (by rw [ha]; decide)) (by rw [ha]; decide)) (by simpa using hl)).at
    have hlen := hi.dims _ d hp ha
    have hin := hc.inner _ d hp
    generalize hks : d.kids = ks at hdims hlen hd hin
    cases hdims with
    | none m1 m2 m3 =>
      rcases hd with rfl | ⟨-, hd⟩
      · rw [m1] at h1; cases h1
        rw [m2] at hl
        exact at' (elem hl)
      · cases hd
    | last m1 m2 m3 m4 =>
      rcases hd with rfl | ⟨-, hd⟩
      · rw [m1] at h1; cases h1
        rw [m2] at hl
        exact at' (elem hl)
      · cases hd
    | @cons _ _ _ _ k k' ks' n' c m1 m2 m3 m4 m5 =>
      have : ks' = [] := by
        cases ks' with
        | nil => rfl
        | cons => simp at hlen
      subst this
      rcases hd with rfl | ⟨-, hd⟩
      · rw [m1] at h1; cases h1
        rw [m2] at hl
        have hl' : l = k'.off := by simpa [links] using hl
        subst hl'
        cases m5 with
        | last x1 x2 x3 x4 =>
          have hlive : Live w st k'.off := by
            intro _ p' hp'
            rw [hin k' (by simp)] at hp'
            cases hp'
            exact h2
          obtain ⟨o', g1, g2, g3⟩ := hc.ends x1 hlive
          exact ⟨_, o', x1, g1, g2, g3, hlive⟩
      · have hik : i = k'.off := by simpa using hd
        subst hik
        cases m5 with
        | last x1 x2 x3 x4 =>
          rw [x1] at h1; cases h1
          rw [x2] at hl
          exact at' (elem hl)
  · rcases hd with rfl | ⟨hd, -⟩
    · obtain ⟨n, n1, n2, n3, -⟩ := hc.obj q d hp
      rw [h1] at n1
      cases n1
      exact at' (describes_links hi hp n2 ha hl)
    · exact absurd hd ha

theorem describes_name {d : Tree} {y : Desc} (h : Describes d y) : NameAt d (GoDedup.Spec.name y) := by
  cases h with
  | base h1 h2 h3 h4 => exact .base h1 h2 h3
  | lexBlock h1 => exact .block h1
  | compileUnit h1 h2 =>
    show NameAt d (some _)
    rw [← h2]
    exact .other (by rw [h1]; decide) (by rw [h1]; decide)
  | @qual h q h1 h2 =>
    show NameAt d h.name
    rw [h2.name]
    exact .other (by rw [h1]; cases q <;> decide) (by rw [h1]; cases q <;> decide)
  | @reference h r h1 h2 =>
    show NameAt d h.name
    rw [h2.name]
    exact .other (by rw [h1]; cases r <;> decide) (by rw [h1]; cases r <;> decide)
  | @struct h a _ h1 h2 =>
    show NameAt d h.name
    rw [h2.name]
    exact .other (by rw [h1]; cases a <;> decide) (by rw [h1]; cases a <;> decide)
  | enumeration h1 h2 | typedef h1 h2 | pointer h1 h2 | unspecified h1 h2 | subroutine h1 h2 | array h1 h2 | «variable» h1 h2 | subprogram h1 h2 | namespace_ h1 h2 =>
    simp only [GoDedup.Spec.name]
    rw [h2.name]
    exact .other (by rw [h1]; decide) (by rw [h1]; decide)

def cats : List GoDedup.Spec.Cat :=
  [.base, .enumeration, .qual .const, .qual .volatile, .qual .restrict, .qual .mutable, .qual .shared, .qual .packed, .typedef, .pointer, .unspecified,
   .reference false, .reference true, .subroutine, .array, .aggregate .struct, .aggregate .class_, .aggregate .union, .variable, .subprogram, .namespace_, .lexBlock, .compileUnit]
def catOf (s : Str) : Option GoDedup.Spec.Cat := cats.find? fun c => tagName c == s
theorem catOf_tag (c : GoDedup.Spec.Cat) : catOf (tagName c) = some c := by
  cases c with
  | qual q => cases q <;> decide
  | reference r => cases r <;> decide
  | aggregate a => cases a <;> decide
  | _ => decide

theorem each_get {α β : Type} {R : α → β → Prop} {as : List α} {bs : List β} (h : GoDedup.Spec.Each R as bs) :
    as.length = bs.length ∧ ∀ (k : Nat) a, as[k]? = some a → ∃ b, bs[k]? = some b ∧ R a b := by
  induction h with
  | nil => simp
  | @cons a b as bs h _ ih =>
    refine ⟨by simp [ih.1], ?_⟩
    intro k x hx
    cases k with
    | zero => cases hx; exact ⟨b, rfl, h⟩
    | succ k => exact ih.2 k x (by simpa using hx)

end Verif.Chain
