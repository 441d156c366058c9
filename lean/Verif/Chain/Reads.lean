import Verif.Chain.RunLemmas
/-
Lemmas for C80: the debug information of a C program is read to the end.
-/
namespace Verif.Chain
open Verif.GoMeta (Str)
open GoDwarf.Spec (Die)
open GoBuild.Spec (Tree Placed text num ref declared isTag parts paramTags Describes Dims)
open GoDedup (Off World St Go Desc isTypeTag isType signature sig)
open GoDedup.Spec (Start Visits cat tagName links)
open Spec

variable {units : List (Nat × Tree)} {w : World} {st st0 : St} {order : List Off}

/-! ### Signatures -/

section
variable {link : Off → Go Str}

theorem linked_ends {k : Str} {t : Option Off} (h : ∀ l ∈ t, ∃ s, link l = Go.ret s) : ∃ s, GoDedup.linked link k t = Go.ret s := by
  cases t with
  | none => exact ⟨_, rfl⟩
  | some l =>
    obtain ⟨s, hs⟩ := h l rfl
    exact ⟨_, GoDedup.linked_some hs⟩

theorem mapM_ends {α β : Type} {f : α → Go β} : ∀ (l : List α), (∀ a ∈ l, ∃ s, f a = Go.ret s) → ∃ s, l.mapM f = Go.ret s
  | [], _ => ⟨[], by rw [List.mapM_nil]; rfl⟩
  | a :: l, h => by
    obtain ⟨s, hs⟩ := h a (by simp)
    obtain ⟨ss, hss⟩ := mapM_ends l fun b hb => h b (by simp [hb])
    exact ⟨s :: ss, by rw [List.mapM_cons, hs, GoBuild.ret_bind, hss, GoBuild.ret_bind]; rfl⟩

theorem func_ends {ps : List GoDedup.Param} {r : Option Off} (h : ∀ l ∈ ps.filterMap GoDedup.Param.type ++ r.toList, ∃ s, link l = Go.ret s) :
    ∃ s, GoDedup.funcRest link ps r = Go.ret s := by
  have hps : ∃ s, GoDedup.takesText link ps = Go.ret s := by
    unfold GoDedup.takesText
    split
    · obtain ⟨ss, hs⟩ := mapM_ends (f := GoDedup.paramText link) ps (by
        intro p hp
        unfold GoDedup.paramText
        split
        · exact ⟨_, rfl⟩
        · split
          · exact ⟨_, rfl⟩
          · rename_i l hl
            obtain ⟨s, hs⟩ := h l (List.mem_append_left _ (List.mem_filterMap.mpr ⟨p, hp, hl⟩))
            exact ⟨_, by rw [hs]; rfl⟩)
      exact ⟨_, by rw [hs]; rfl⟩
    · exact ⟨_, rfl⟩
  obtain ⟨a, ha⟩ := hps
  obtain ⟨b, hb⟩ := linked_ends (link := link) (k := go! "Returns") (t := r) (fun l hl => h l (by simp [show r = some l from hl]))
  exact ⟨_, by unfold GoDedup.funcRest; rw [ha, GoBuild.ret_bind, hb, GoBuild.ret_bind]; rfl⟩

theorem struct_ends {h : GoDedup.Head} {fs : List GoDedup.Field} {hs : List Off} (hl : ∀ l ∈ fs.filterMap GoDedup.Field.type ++ hs, ∃ s, link l = Go.ret s) :
    ∃ s, GoDedup.structRest link h fs hs = Go.ret s := by
  have : ∃ s, GoDedup.fieldsText link fs hs = Go.ret s := by
    unfold GoDedup.fieldsText
    split
    · obtain ⟨ss, e1⟩ := mapM_ends (f := GoDedup.fieldText link) fs (by
        intro f hf
        obtain ⟨s, hs⟩ := linked_ends (link := link) (k := go! "Type") (t := f.type) (fun l h => hl l (List.mem_append_left _ (List.mem_filterMap.mpr ⟨f, hf, h⟩)))
        exact ⟨_, by unfold GoDedup.fieldText; rw [hs]; rfl⟩)
      obtain ⟨ss', e2⟩ := mapM_ends (f := GoDedup.otherText link) hs (by
        intro l h
        obtain ⟨s, hs⟩ := hl l (List.mem_append_right _ h)
        exact ⟨_, by unfold GoDedup.otherText; rw [hs]; rfl⟩)
      exact ⟨_, by rw [e1, GoBuild.ret_bind, e2]; rfl⟩
    · exact ⟨_, rfl⟩
  obtain ⟨s, hs⟩ := this
  exact ⟨_, by unfold GoDedup.structRest; rw [hs]; rfl⟩

theorem rest_ends {d : Desc} (ht : isType d = true) (ha : ∀ h s l c v, d ≠ .array h s l c v none) (hl : ∀ l ∈ links d, ∃ s, link l = Go.ret s) :
    ∃ s, GoDedup.rest link d = Go.ret s := by
  cases d with
  | base | enumeration | unspecified => exact ⟨_, rfl⟩
  | qual h q t | typedef h t | pointer h t | reference h q t => exact linked_ends fun l h => hl l (by simp [links, show t = some l from h])
  | subroutine h ps r => exact func_ends hl
  | struct h a fs hs => exact struct_ends hl
  | array h s l c v t =>
    cases t with
    | none => exact absurd rfl (ha h s l c v)
    | some y =>
      obtain ⟨s', hs'⟩ := hl y (by simp [links])
      exact ⟨_, by simp only [GoDedup.rest, GoDedup.arrayRest]; rw [GoDedup.linked_some hs']; rfl⟩
  | _ => cases ht

theorem signature_ends {d : Desc} (ht : isType d = true) (hN : GoDedup.Spec.Names d) (hn : GoDedup.needsName d = true → GoDedup.Spec.name d ≠ none)
    (ha : ∀ h s l c v, d ≠ .array h s l c v none) {c : Bool} (hc : c = true → GoDedup.Spec.declared d = false)
    (hl : c = true ∨ GoDedup.Spec.name d = none → ∀ l ∈ links d, ∃ s, link l = Go.ret s) : ∃ s, signature link c d = Go.ret s := by
  cases c with
  | false =>
    cases hname : GoDedup.Spec.name d with
    | some n => exact ⟨_, (GoDedup.signature_false link d _).mpr (.inl ⟨n, hname, rfl⟩)⟩
    | none =>
      obtain ⟨r, hr⟩ := rest_ends ht ha (hl (.inr hname))
      refine ⟨_, (GoDedup.signature_false link d _).mpr (.inr ⟨hname, GoDedup.checked_false (hN.decl hname), ?_, r, hr, rfl⟩)⟩
      cases h : GoDedup.needsName d with
      | false => rfl
      | true => exact absurd hname (hn h)
  | true =>
    obtain ⟨r, hr⟩ := rest_ends ht ha (hl (.inl rfl))
    refine ⟨_, (GoDedup.signature_true link d _ ht).mpr ⟨?_, GoDedup.checked_false (hc rfl), r, hr, rfl⟩⟩
    intro h
    exact Option.isSome_iff_ne_none.mpr (hn h)
end

theorem named_sig {obj : Nat → Desc} {ptr : Off → Option Nat} {o : Nat} {n : Str} (h : GoDedup.Spec.name (obj o) = some n) : ∃ s, sig obj ptr o false = Go.ret s := by
  rw [GoDedup.sig_eq]
  exact ⟨_, (GoDedup.signature_false _ _ _).mpr (.inl ⟨n, h, rfl⟩)⟩

theorem describes_text {d : Tree} {y : Desc} (h : Describes d y) (ht : isType y = true) (hn : GoDedup.Spec.name y = none) : text d (go! "Name") = none := by
  cases h with
  | base => cases hn
  | «variable» | subprogram | namespace_ | lexBlock | compileUnit => cases ht
  | enumeration _ h | qual _ h | typedef _ h | pointer _ h | unspecified _ h | reference _ h | subroutine _ h | array _ h | struct _ h => rw [← h.name]; exact hn

theorem uses_own {d : Tree} {l : Off} (h : ref d (go! "Type") = some l) : l ∈ uses d := List.mem_filterMap.mpr ⟨d, by simp, h⟩
theorem uses_kid {d k : Tree} {l : Off} (hk : k ∈ d.kids) (h : ref k (go! "Type") = some l) : l ∈ uses d := List.mem_filterMap.mpr ⟨k, by simp [hk], h⟩

theorem no_parts (hC : CTypes units) {q : List Off} {d : Tree} (hp : Placed [] (units.map Prod.snd) q d) (ht : d.tag ∈ structTags) : parts d = [] := by
  have h1 : isTag [go! "ClassType", go! "StructType", go! "UnionType"] d = true := List.contains_iff_mem.mpr ht
  unfold parts
  rw [if_pos h1, List.filter_eq_nil_iff]
  intro k hk
  have h2 : isTag [go! "Member", go! "TemplateTypeParameter"] k = true := List.contains_iff_mem.mpr (hC.members q d hp ht k hk)
  rw [h2]
  simp

/-- The links of a type are to the types it uses. -/
theorem describes_uses (hi : Input units) (hC : CTypes units) {q : List Off} {d : Tree} (hp : Placed [] (units.map Prod.snd) q d) {x : Desc} (hd : Describes d x)
    (ht : isType x = true) (ha : d.tag ≠ go! "ArrayType") {l : Off} (hl : l ∈ links x) : l ∈ uses d ∧ GoBuild.Spec.TypeAt (units.map Prod.snd) l := by
  have comp : d.tag ≠ go! "CompileUnit" → GoBuild.Spec.Complete (GoBuild.Spec.TypeAt (units.map Prod.snd)) d := complete hi hp
  have own : d.tag ∈ linkTags → l ∈ (ref d (go! "Type")).toList → l ∈ uses d ∧ GoBuild.Spec.TypeAt (units.map Prod.snd) l := by
    intro h1 h2
    have h2 : ref d (go! "Type") = some l := by simpa using h2
    exact ⟨uses_own h2, complete_link (comp (fun h => by rw [h] at h1; exact absurd h1 (by decide))) h1 l h2⟩
  cases hd with
  | base | enumeration | unspecified => cases hl
  | «variable» | subprogram | namespace_ | lexBlock | compileUnit => cases ht
  | array h1 => exact absurd h1 ha
  | qual h1 => exact own (by rw [h1]; exact qual_link _) hl
  | reference h1 => exact own (by rw [h1]; exact ref_link _) hl
  | typedef h1 | pointer h1 => exact own (by rw [h1]; decide) hl
  | subroutine h1 h2 h3 =>
    rcases List.mem_append.mp hl with hl | hl
    · obtain ⟨p, hp', hpl⟩ := List.mem_filterMap.mp hl
      obtain ⟨k, hk, hkp⟩ := each_mem h3 p hp'
      rw [List.mem_filter] at hk
      have hr : ref k (go! "Type") = some l := by rw [← hkp.type, hpl]
      exact ⟨uses_kid hk.1 hr, complete_params (comp (by rw [h1]; decide)) (by rw [h1]; decide) k hk.1 hk.2 l hr⟩
    · exact own (by rw [h1]; decide) hl
  | @struct h a fs h1 h2 h3 =>
    have hst : d.tag ∈ structTags := by rw [h1]; exact aggr_struct a
    rcases List.mem_append.mp hl with hl | hl
    · obtain ⟨f, hf, hfl⟩ := List.mem_filterMap.mp hl
      obtain ⟨k, hk, hkf⟩ := each_mem h3 f hf
      rw [List.mem_filter] at hk
      obtain ⟨t, t1, t2⟩ := complete_members (comp (fun h => by rw [h] at hst; exact absurd hst (by decide))) hst k hk.1 (by simpa [isTag] using hk.2)
      rw [hkf.type, t1] at hfl
      cases hfl
      exact ⟨uses_kid hk.1 t1, t2⟩
    · rw [no_parts hC hp hst] at hl
      cases hl

theorem needs_name (hi : Input units) {q : List Off} {d : Tree} (hp : Placed [] (units.map Prod.snd) q d) {x : Desc} (hd : Describes d x)
    (ht : isType x = true) (hn : GoDedup.needsName x = true) : GoDedup.Spec.name x ≠ none := by
  cases hd with
  | base => intro h; cases h
  | typedef h1 h2 =>
    have hc := complete hi hp (by rw [h1]; decide)
    show _ ≠ _
    simp only [GoDedup.Spec.name]
    rw [h2.name]
    cases hc with
    | typedef _ h => exact h
    | base g | enumeration g | unspecified g | block g | scope g | array g => rw [h1] at g; exact absurd g (by decide)
    | link g1 g2 | func g1 g2 | struct g1 g2 => rw [← g2, h1] at g1; exact absurd g1 (by decide)
  | lexBlock | compileUnit => cases ht
  | _ => cases hn

theorem array_sig {obj : Nat → Desc} {ptr : Off → Option Nat} {n : Nat} {hh : GoDedup.Head} {s l : Option Int} {c v : Int} {y : Off} (ho : obj n = .array hh s l c v (some y))
    (hN : GoDedup.Spec.Names (obj n)) (hy : ∃ s, GoDedup.target obj ptr y = Go.ret s) (b : Bool) (hb : b = true → hh.decl = false) : ∃ s, sig obj ptr n b = Go.ret s := by
  rw [GoDedup.sig_eq]
  refine signature_ends (by rw [ho]; rfl) hN (by rw [ho]; intro h; cases h) (by rw [ho]; intros; simp) (by rw [ho]; exact hb) ?_
  intro _ z hz
  rw [ho] at hz
  have : z = y := by simpa [links] using hz
  rw [this]
  exact hy

/-- The signatures of an array and of its dimensions. -/
theorem dims_sig (hi : Input units) (hB : Base units w st0) {q : List Off} {d : Tree} (hp : Placed [] (units.map Prod.snd) q d) (ha : d.tag = go! "ArrayType") {y : Off}
    (hr : ref d (go! "Type") = some y) (hy : ∃ s, GoDedup.target w.obj st0.ptr y = Go.ret s) :
    ∀ i o, (i = d.off ∨ i ∈ (d.kids.map Die.off).tail) → st0.ptr i = some o → ∀ b : Bool, (b = true → i = d.off → declared d = false) → ∃ s, sig w.obj st0.ptr o b = Go.ret s := by
  obtain ⟨n, n1, n2, n3, n4⟩ := hB.obj q d hp
  obtain ⟨hh, p, hT, rfl, hdims⟩ := n4 ha
  have hlen := hi.dims _ d hp ha
  have hd1 := hi.distinct
  intro i o hio h1 b hb
  rw [hr] at hdims
  generalize hks : d.kids = ks at hdims hlen hio
  have hN := hB.start.names o
  cases hdims with
  | none m1 m2 m3 =>
    rcases hio with rfl | hio
    · rw [m1] at h1; cases h1
      exact array_sig m2 hN hy b fun h => by rw [hT.decl]; exact hb h rfl
    · cases hio
  | last m1 m2 m3 m4 =>
    rcases hio with rfl | hio
    · rw [m1] at h1; cases h1
      exact array_sig m2 hN hy b fun h => by rw [hT.decl]; exact hb h rfl
    · cases hio
  | @cons _ _ _ _ k k' ks' n' c m1 m2 m3 m4 m5 =>
    have : ks' = [] := by
      cases ks' with
      | nil => rfl
      | cons => simp at hlen
    subst this
    cases m5 with
    | @last _ _ _ _ _ n'' _ x1 x2 x3 x4 =>
      rcases hio with rfl | hio
      · rw [m1] at h1; cases h1
        obtain ⟨s, hs⟩ := array_sig x2 (hB.start.names n'') hy false (fun h => by cases h)
        exact array_sig m2 hN ⟨s, GoDedup.target_ret.mpr ⟨n'', x1, hs⟩⟩ b fun h => by rw [hT.decl]; exact hb h rfl
      · have hik : i = k'.off := by simpa using hio
        subst hik
        rw [x1] at h1; cases h1
        exact array_sig x2 hN hy b fun _ => rfl

/-- The signature of a type entry by which others refer to it. -/
theorem sig_ends (hi : Input units) (hB : Base units w st0) (hC : CTypes units) :
    ∀ q d, Placed [] (units.map Prod.snd) q d → d.tag ∈ typeTags → ∀ o, st0.ptr d.off = some o → ∃ s, sig w.obj st0.ptr o false = Go.ret s := by
  obtain ⟨rank, hrank⟩ := hC.rank
  -- types by name, or smaller
  have step : ∀ n, (∀ q d, Placed [] (units.map Prod.snd) q d → d.tag ∈ typeTags → rank d.off < n → ∀ o, st0.ptr d.off = some o → ∃ s, sig w.obj st0.ptr o false = Go.ret s) →
      ∀ l, GoBuild.Spec.TypeAt (units.map Prod.snd) l → (∀ q T, Placed [] (units.map Prod.snd) q T → T.off = l → text T (go! "Name") = none → rank T.off < n) →
        ∃ s, GoDedup.target w.obj st0.ptr l = Go.ret s := by
    intro n ih l hl hr
    obtain ⟨q, T, c, h1, rfl, h3, h4⟩ := hl
    obtain ⟨t, g1, g2, -⟩ := hB.obj q T h1
    have ht : T.tag ∈ typeTags := by rw [h3]; exact (type_tags c).mpr h4
    have : ∃ s, sig w.obj st0.ptr t false = Go.ret s := by
      cases hn : GoDedup.Spec.name (w.obj t) with
      | some m => exact named_sig hn
      | none =>
        have ty : isType (w.obj t) = true := by
          rw [GoBuild.describes_tag g2, type_tags] at ht
          rw [(GoDedup.tag_type _).1, ht]
        exact ih q T h1 ht (hr q T h1 rfl (describes_text g2 ty hn)) t g1
    obtain ⟨s, hs⟩ := this
    exact ⟨s, GoDedup.target_ret.mpr ⟨t, g1, hs⟩⟩
  suffices h : ∀ n q d, Placed [] (units.map Prod.snd) q d → d.tag ∈ typeTags → rank d.off < n → ∀ o, st0.ptr d.off = some o → ∃ s, sig w.obj st0.ptr o false = Go.ret s from
    fun q d hp ht => h (rank d.off + 1) q d hp ht (Nat.lt_succ_self _)
  intro n
  induction n with
  | zero => intro q d _ _ h; omega
  | succ n ih =>
    intro q d hp ht hlt o ho
    obtain ⟨t, g1, g2, -⟩ := hB.obj q d hp
    rw [ho] at g1; cases g1
    have ty : isType (w.obj o) = true := by
      rw [GoBuild.describes_tag g2, type_tags] at ht
      rw [(GoDedup.tag_type _).1, ht]
    have ih' : ∀ q d, Placed [] (units.map Prod.snd) q d → d.tag ∈ typeTags → rank d.off < n → ∀ o, st0.ptr d.off = some o → ∃ s, sig w.obj st0.ptr o false = Go.ret s := ih
    by_cases ha : d.tag = go! "ArrayType"
    · obtain ⟨y, hy⟩ := Option.ne_none_iff_exists'.mp (hC.elements q d hp ha)
      refine dims_sig hi hB hp ha hy (step n ih' y (complete_link (complete hi hp (by rw [ha]; decide)) (by rw [ha]; decide) y hy) ?_) d.off o (.inl rfl) ho false (fun h => by cases h)
      rintro q' T hT rfl hn
      have := hrank q d hp ht (.inr ha) q' T hT (uses_own hy) hn
      omega
    · cases hn : GoDedup.Spec.name (w.obj o) with
      | some m => exact named_sig hn
      | none =>
        rw [GoDedup.sig_eq]
        refine signature_ends ty (hB.start.names o) (needs_name hi hp g2 ty) ?_ (fun h => by cases h) ?_
        · intro h s l c v he
          rw [he] at g2
          cases g2
          exact ha ‹_›
        · intro _ l hl
          obtain ⟨u1, u2⟩ := describes_uses hi hC hp g2 ty ha hl
          refine step n ih' l u2 ?_
          rintro q' T hT rfl hn'
          have := hrank q d hp ht (.inl (describes_text g2 ty hn)) q' T hT u1 hn'
          omega

/-- All signatures of a type entry. -/
theorem all_sigs (hi : Input units) (hB : Base units w st0) (hC : CTypes units) (i : Off) (o : Nat) (ho : st0.ptr i = some o) (ht : isTypeTag (w.tag i) = true) :
    ∃ k, GoDedup.Sigs w st0 o (w.decl i) k := by
  have targets : ∀ l, GoBuild.Spec.TypeAt (units.map Prod.snd) l → ∃ s, GoDedup.target w.obj st0.ptr l = Go.ret s := by
    rintro l ⟨q, T, c, h1, rfl, h3, h4⟩
    obtain ⟨t, g1, -⟩ := hB.obj q T h1
    obtain ⟨s, hs⟩ := sig_ends hi hB hC q T h1 (by rw [h3]; exact (type_tags c).mpr h4) t g1
    exact ⟨s, GoDedup.target_ret.mpr ⟨t, g1, hs⟩⟩
  have both : ∀ b : Bool, (b = true → w.decl i = false) → ∃ s, sig w.obj st0.ptr o b = Go.ret s := by
    intro b hb
    obtain ⟨q, d, hp, hd⟩ := hB.entry i o ho
    by_cases ha : d.tag = go! "ArrayType"
    · obtain ⟨y, hy⟩ := Option.ne_none_iff_exists'.mp (hC.elements q d hp ha)
      refine dims_sig hi hB hp ha hy (targets y (complete_link (complete hi hp (by rw [ha]; decide)) (by rw [ha]; decide) y hy)) i o (hd.imp_right And.right) ho b ?_
      rintro h rfl
      rw [← hB.decl q d hp]
      exact hb h
    · rcases hd with rfl | ⟨hd, -⟩
      · obtain ⟨t, g1, g2, -⟩ := hB.obj q d hp
        rw [ho] at g1; cases g1
        have ty : isType (w.obj o) = true := by rw [hB.start.type _ o ho]; exact ht
        rw [GoDedup.sig_eq]
        refine signature_ends ty (hB.start.names o) (needs_name hi hp g2 ty) ?_ ?_ ?_
        · intro h s l c v he
          rw [he] at g2
          cases g2
          exact ha ‹_›
        · intro h
          have hdd : declared d = false := by rw [← hB.decl q d hp]; exact hb h
          generalize w.obj o = y at g2 ty
          cases g2 with
          | «variable» | subprogram | namespace_ | lexBlock | compileUnit => cases ty
          | base _ _ _ h | enumeration _ h | qual _ h | typedef _ h | pointer _ h | unspecified _ h | reference _ h | subroutine _ h | array _ h | struct _ h =>
            simp only [GoDedup.Spec.declared]
            rw [h.decl, hdd]
        · exact fun _ l hl => targets l (describes_uses hi hC hp g2 ty ha hl).2
      · exact absurd hd ha
  cases hdecl : w.decl i with
  | true =>
    obtain ⟨s, hs⟩ := both false (fun h => by cases h)
    exact ⟨_, .decl hs⟩
  | false =>
    obtain ⟨s, hs⟩ := both false (fun h => by cases h)
    obtain ⟨s', hs'⟩ := both true (fun _ => hdecl)
    exact ⟨_, .defn hs hs'⟩

/-! ### Merging -/

theorem goes (hi : Input units) (hB : Base units w st0) (hC : CTypes units) (i : Off) (o : Nat) (ho : st0.ptr i = some o) (ht : isTypeTag (w.tag i) = true) :
    GoDedup.Goes w st0 i o := by
  refine ⟨?_, all_sigs hi hB hC i o ho ht⟩
  obtain ⟨q, d, hp, hd⟩ := hB.entry i o ho
  obtain ⟨p, h1, h2⟩ := hB.has q d hp
  rcases hd with rfl | ⟨-, hd⟩
  · exact ⟨p, h1, h2⟩
  · obtain ⟨k, hk, rfl⟩ := List.mem_map.mp (List.mem_of_mem_tail hd)
    have h3 := hB.inner q d hp k hk
    refine ⟨d.off, ?_, by rw [h1]; simp⟩
    unfold GoDedup.Spec.parent at h3
    cases he : w.entries k.off with
    | none => rw [he] at h3; cases h3
    | some a => rw [he] at h3; simpa using h3

/-- A step whose signatures end. -/
theorem step_goes {done : List Off} {i : Off} (hs : Start w st0) (inv : GoDedup.Inv w st0 done st) (hn : i ∉ done)
    (hg : ∀ o, st0.ptr i = some o → isTypeTag (w.tag i) = true → GoDedup.Goes w st0 i o) : ∃ st', GoDedup.stepWith (sig w.obj) w i st = Go.ret st' := by
  have hp := (inv.pending i (.inl hn)).1
  unfold GoDedup.stepWith
  rw [hp]
  cases ho : st0.ptr i with
  | none => exact ⟨_, rfl⟩
  | some o =>
    cases ht : isTypeTag (w.tag i) with
    | false => exact ⟨_, rfl⟩
    | true =>
      have ty : isType (w.obj o) = true := by rw [hs.type i o ho]; exact ht
      obtain ⟨⟨p, e1, e2⟩, k, hk⟩ := hg o ho ht
      have hk' := hk.of_start inv.kept ty
      have hmerge : ∀ f, GoDedup.lookupKey st k = some f → ∃ st', GoDedup.merge w i o f st = Go.ret st' := by
        intro f hf
        obtain ⟨-, ht', fo, g1, g2, -, -, -⟩ := inv.found k f hf
        unfold GoDedup.merge
        rw [g2]
        have : isType (w.obj fo) = true := by rw [hs.type f fo g1]; exact ht'
        simp only [ty, this, Bool.and_self, if_true]
        exact ⟨_, rfl⟩
      simp only [e1]
      cases e3 : w.entries p with
      | none => exact absurd e3 e2
      | some q =>
        cases hdup : st.dup p with
        | true => exact ⟨_, rfl⟩
        | false =>
        simp only [Bool.true_eq_false, if_false, Bool.false_eq_true]
        generalize hd : w.decl i = d at hk'
        cases hk' with
        | @decl hs1 g =>
          rw [g]
          cases hl : GoDedup.lookupKey st (.inl _) with
          | some f =>
            obtain ⟨st', h⟩ := hmerge f hl
            refine ⟨st', GoDedup.Go.bind_ret.mpr ⟨_, rfl, ?_⟩⟩
            simp only [GoDedup.lookupKey] at hl
            simp only [if_true, hl]
            exact h
          | none =>
            refine ⟨{ st with heads := (hs1, i) :: st.heads, added := st.added ++ [o] }, GoDedup.Go.bind_ret.mpr ⟨_, rfl, ?_⟩⟩
            simp only [GoDedup.lookupKey] at hl
            simp only [if_true, hl]
        | @defn hs1 cs1 g g' =>
          rw [g]
          cases hl : GoDedup.lookupKey st (.inr _) with
          | some f =>
            obtain ⟨st', h⟩ := hmerge f hl
            refine ⟨st', GoDedup.Go.bind_ret.mpr ⟨_, rfl, ?_⟩⟩
            simp only [GoDedup.lookupKey] at hl
            simp only [Bool.false_eq_true, if_false]
            refine GoDedup.Go.bind_ret.mpr ⟨_, g', ?_⟩
            simp only [hl]
            exact h
          | none =>
            refine ⟨{ st with sigs := ((hs1, cs1), i) :: st.sigs, added := st.added ++ [o] }, GoDedup.Go.bind_ret.mpr ⟨_, rfl, ?_⟩⟩
            simp only [GoDedup.lookupKey] at hl
            simp only [Bool.false_eq_true, if_false]
            refine GoDedup.Go.bind_ret.mpr ⟨_, g', ?_⟩
            simp only [hl]

theorem dedup_goes (hs : Start w st0) (hg : ∀ i o, st0.ptr i = some o → isTypeTag (w.tag i) = true → GoDedup.Goes w st0 i o) :
    ∀ (order done : List Off) (st : St), GoDedup.Inv w st0 done st → order.Nodup → (∀ i ∈ order, i ∉ done) → ∃ st', GoDedup.dedup w order st = Go.ret st'
  | [], _, _, _, _, _ => ⟨_, rfl⟩
  | i :: is, done, st, hi, hnd, hdis => by
    have hid := hdis i (List.mem_cons_self ..)
    obtain ⟨st1, h1⟩ := step_goes hs hi hid (hg i)
    obtain ⟨st', h2⟩ := dedup_goes hs hg is (i :: done) st1 (GoDedup.inv_step hs hi hid h1) (List.nodup_cons.mp hnd).2 (by
      intro j hj hm
      rcases List.mem_cons.mp hm with rfl | hm
      · exact (List.nodup_cons.mp hnd).1 hj
      · exact hdis j (List.mem_cons_of_mem _ hj) hm)
    exact ⟨st', GoDedup.Go.bind_ret.mpr ⟨_, h1, h2⟩⟩

/-- The debug information of a C program is read to the end. -/
theorem reads (hi : Input units) (hC : CTypes units) : ∃ E b, GoDwarf.newData (GoDwarf.Spec.storedUnits units) = Go.ret E ∧ GoBuild.build E = Go.ret b ∧
    ∀ order, Visits (GoBuild.start b) order → ∃ st, GoBuild.newMetaDb E order = Go.ret (GoBuild.world E b, st) := by
  obtain ⟨E, b, e1, e2, -⟩ := GoBuild.C66_start units hi.sound hi.distinct hi.good hi.names
  refine ⟨E, b, e1, e2, ?_⟩
  intro order hv
  have hB := base hi e1 e2
  obtain ⟨st, hst⟩ := dedup_goes hB.start (goes hi hB hC) order [] _ (GoDedup.inv_start hB.start) hv.once (by simp)
  refine ⟨st, ?_⟩
  unfold GoBuild.newMetaDb
  rw [e2, GoBuild.ret_bind, hst]
  rfl

end Verif.Chain
