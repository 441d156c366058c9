import Verif.Chain.Lemmas
/-
Lemmas for C82: types that say the same in several units.
-/
namespace Verif.Chain
open Verif.GoMeta (Str)
open GoDwarf.Spec (Die)
open GoBuild.Spec (Tree Placed text num ref declared isTag parts NameOf paramTags Dim Describes Dims)
open GoDedup (Off World St Go Desc isTypeTag idOf)
open GoDedup.Spec (Start Visits OneType Alike Agree Known cat tagName links Links Each)
open Spec

variable {units : List (Nat × Tree)} {w : World} {st st0 : St} {order : List Off} {R : Off → Off → Prop}

theorem tag_inj {c c' : GoDedup.Spec.Cat} (h : tagName c = tagName c') : c = c' := by
  have h1 := catOf_tag c
  rw [h, catOf_tag c'] at h1
  exact (Option.some.inj h1).symm

theorem each_filter {α : Type} {P : α → α → Prop} {p : α → Bool} {l l' : List α} (h : Each P l l') (hp : ∀ a b, P a b → p a = p b) : Each P (l.filter p) (l'.filter p) := by
  induction h with
  | nil => exact .nil
  | @cons a b as bs h _ ih =>
    cases hb : p b with
    | true =>
      rw [List.filter_cons_of_pos (by rw [hp a b h, hb]), List.filter_cons_of_pos hb]
      exact .cons h ih
    | false =>
      rw [List.filter_cons_of_neg (by rw [hp a b h, hb]; simp), List.filter_cons_of_neg (by simp [hb])]
      exact ih

theorem each_square {α β : Type} {P : α → α → Prop} {Q : α → β → Prop} {T : β → β → Prop} {l l' : List α} (h : Each P l l') :
    ∀ {m m' : List β}, Each Q l m → Each Q l' m' → (∀ a a' b b', P a a' → Q a b → Q a' b' → T b b') → Each T m m' := by
  induction h with
  | nil => intro m m' h1 h2 _; cases h1; cases h2; exact .nil
  | cons h _ ih =>
    intro m m' h1 h2 f
    cases h1 with
    | cons h1 h1' =>
      cases h2 with
      | cons h2 h2' => exact .cons (f _ _ _ _ h h1 h2) (ih h1' h2' f)

theorem each_eq {α : Type} {l l' : List α} (h : Each (fun a b => a = b) l l') : l = l' := by
  induction h with
  | nil => rfl
  | cons h _ ih => rw [h, ih]

theorem level_tag {k k' : Tree} {ts : List Str} (h : Level R k k') : isTag ts k = isTag ts k' := by unfold isTag; rw [h.tag]

theorem dim_level {k k' : Tree} (h : Level R k k') {c c' : Int} (hc : Dim k c) (hc' : Dim k' c') : c = c' := by
  have h1 := h.measures (go! "Count") (by decide)
  have h2 := h.measures (go! "UpperBound") (by decide)
  have h3 := h.measures (go! "LowerBound") (by decide)
  cases hc with
  | count g1 =>
    cases hc' with
    | count g2 => rw [h1, g2] at g1; exact (Option.some.inj g1).symm
    | bounds g2 | unknown g2 => rw [h1, g2] at g1; cases g1
  | bounds g1 g3 =>
    cases hc' with
    | count g2 => rw [h1, g2] at g1; cases g1
    | bounds g2 g4 => rw [h2, g4] at g3; rw [Option.some.inj g3, h3]
    | unknown g2 g4 => rw [h2, g4] at g3; cases g3
  | unknown g1 g3 =>
    cases hc' with
    | count g2 => rw [h1, g2] at g1; cases g1
    | bounds g2 g4 => rw [h2, g4] at g3; cases g3
    | unknown => rfl

section
variable {ptr : Off → Option Nat} {obj : Nat → Desc} {parents parents' : Nat → List Off}

/-- The objects at the references are alike. -/
def Ends (obj : Nat → Desc) (ptr : Off → Option Nat) (l l' : Off) : Prop := ∃ a b, ptr l = some a ∧ ptr l' = some b ∧ Alike obj ptr a b

theorem level_links {k k' : Tree} (h : Level (Ends obj ptr) k k') : Links ptr (Alike obj ptr) (ref k (go! "Type")) (ref k' (go! "Type")) := by
  rcases h.type with ⟨h1, h2⟩ | ⟨t, t', h1, h2, a, b, h3, h4, h5⟩
  · rw [h1, h2]; exact .none
  · rw [h1, h2]; exact .some h3 h4 h5

/-- Arrays. -/
theorem dims_agree {elem elem' : Option Off} {h h' : GoDedup.Head} {s : Option Int} {o o' par par' : Off} {ks ks' : List Tree}
    (hd : Dims ptr obj parents elem h s o par ks) (hd' : Dims ptr obj parents elem' h' s o' par' ks') (he : Links ptr (Alike obj ptr) elem elem')
    (hk : Each (Level (Ends obj ptr)) ks ks') : ∃ a b, ptr o = some a ∧ ptr o' = some b ∧ Agree ptr (Alike obj ptr) (obj a) (obj b) := by
  induction hd generalizing h' o' par' ks' with
  | none h1 h2 h3 =>
    cases hk
    cases hd' with
    | none g1 g2 g3 => exact ⟨_, _, h1, g1, by rw [h2, g2]; exact .array he⟩
  | last h1 h2 h3 h4 =>
    cases hk with
    | cons hk hk' =>
      cases hk'
      cases hd' with
      | last g1 g2 g3 g4 =>
        refine ⟨_, _, h1, g1, ?_⟩
        rw [h2, g2, hk.measures (go! "LowerBound") (by decide), dim_level hk h3 g3]
        exact .array he
  | cons h1 h2 h3 h4 h5 ih =>
    cases hk with
    | cons hk hk' =>
      cases hk' with
      | cons hk1 hk2 =>
        cases hd' with
        | cons g1 g2 g3 g4 g5 =>
          refine ⟨_, _, h1, g1, ?_⟩
          obtain ⟨a, b, e1, e2, e3⟩ := ih g5 (.cons hk1 hk2)
          have hl := (each_get hk2).1
          rw [h2, g2, hk.measures (go! "LowerBound") (by decide), dim_level hk h3 g3]
          simp only [List.length_cons, hl]
          refine .array (.some e1 e2 (GoDedup.Alike.intro (.unnamed ?_ ?_ e3)))
          · cases h5 with
            | last x1 x2 | cons x1 x2 => rw [e1] at x1; cases x1; rw [x2]; rfl
          · cases g5 with
            | last x1 x2 | cons x1 x2 => rw [e2] at x1; cases x1; rw [x2]; rfl

end

theorem struct_parts (hC : CTypes units) {q : List Off} {d : Tree} (hp : Placed [] (units.map Prod.snd) q d) (ht : d.tag ∈ [go! "ClassType", go! "StructType", go! "UnionType"]) :
    parts d = [] := by
  unfold parts
  rw [if_pos (by simpa [isTag] using ht)]
  rw [List.filter_eq_nil_iff]
  intro k hk
  have := hC.members q d hp ht k hk
  have h2 : isTag [go! "Member", go! "TemplateTypeParameter"] k = true := by unfold isTag; exact List.contains_iff_mem.mpr this
  rw [h2]; decide

/-- Entries that say the same become objects that agree. -/
theorem Base.agree (hC : CTypes units) (hB : Base units w st0) {q q' : List Off} {d d' : Tree} (hp : Placed [] (units.map Prod.snd) q d)
    (hp' : Placed [] (units.map Prod.snd) q' d') (ht : d.tag ∈ typeTags) (h : Says (Ends w.obj st0.ptr) d d') {a b : Nat} (ha : st0.ptr d.off = some a) (hb : st0.ptr d'.off = some b) :
    Agree st0.ptr (Alike w.obj st0.ptr) (w.obj a) (w.obj b) := by
  obtain ⟨n, n1, n2, -, n4⟩ := hB.obj q d hp
  rw [ha] at n1; cases n1
  obtain ⟨n', n1', n2', -, n4'⟩ := hB.obj q' d' hp'
  rw [hb] at n1'; cases n1'
  have hm := h.measures
  by_cases harr : d.tag = go! "ArrayType"
  · obtain ⟨hh, p, -, -, hd⟩ := n4 harr
    obtain ⟨hh', p', -, -, hd'⟩ := n4' (h.tag ▸ harr)
    rw [← hm (go! "StrideSize") (by decide)] at hd'
    obtain ⟨a', b', e1, e2, e3⟩ := dims_agree hd hd' (level_links h.toLevel) h.kids
    rw [ha] at e1; cases e1
    rw [hb] at e2; cases e2
    exact e3
  have hcat : cat (w.obj a) = cat (w.obj b) := tag_inj (by rw [← GoBuild.describes_tag n2, ← GoBuild.describes_tag n2', h.tag])
  have hl := level_links h.toLevel
  generalize w.obj a = y at n2 hcat
  generalize w.obj b = y' at n2' hcat
  clear n4 n4'
  cases n2 with
  | base h1 h2 h3 h4 =>
    cases n2' with
    | base g1 g2 g3 g4 =>
      rw [hm (go! "Encoding") (by decide)]
      exact .base (by show _ = _; simp only [h4.size, g4.size]; exact hm _ (by decide))
    | _ => cases hcat
  | enumeration h1 h2 h3 =>
    cases n2' with
    | enumeration g1 g2 g3 =>
      have := each_eq (each_square (T := fun a b => a = b) h.kids h3 g3 (by
        rintro k k' ⟨n, v⟩ ⟨n', v'⟩ hk ⟨k1, k2⟩ ⟨k3, k4⟩
        rw [hk.name, k3] at k1
        rw [hk.measures _ (by decide), k4] at k2
        rw [Prod.mk.injEq]
        exact ⟨(Option.some.inj k1).symm, (Option.some.inj k2).symm⟩))
      rw [this]
      exact .enumeration (by rw [h2.size, g2.size]; exact hm _ (by decide)) (by rw [h2.alignment, g2.alignment]; exact hm _ (by decide))
    | _ => cases hcat
  | qual h1 =>
    cases n2' with
    | qual g1 => cases hcat; exact .qual hl
    | _ => cases hcat
  | typedef =>
    cases n2' with
    | typedef => exact .typedef hl
    | _ => cases hcat
  | pointer =>
    cases n2' with
    | pointer => exact .pointer hl
    | _ => cases hcat
  | unspecified =>
    cases n2' with
    | unspecified => exact .unspecified
    | _ => cases hcat
  | reference =>
    cases n2' with
    | reference => cases hcat; exact .reference hl
    | _ => cases hcat
  | subroutine h1 h2 h3 =>
    cases n2' with
    | subroutine g1 g2 g3 =>
      refine .subroutine (each_square (each_filter h.kids fun _ _ h => level_tag h) h3 g3 ?_) hl
      intro k k' p p' hk k1 k2
      cases hr : isTag [go! "UnspecifiedParameters"] k with
      | true => exact .rest (by rw [k1.rest, hr]) (by rw [k2.rest, ← level_tag hk, hr])
      | false =>
        refine .typed (by rw [k1.rest, hr]) (by rw [k2.rest, ← level_tag hk, hr]) ?_
        rw [k1.type, k2.type]
        exact level_links hk
    | _ => cases hcat
  | array h1 => exact absurd h1 harr
  | struct h1 h2 h3 =>
    cases n2' with
    | struct g1 g2 g3 =>
      cases hcat
      have e1 := struct_parts hC hp (by rw [h1]; exact aggr_struct _)
      have e2 := struct_parts hC hp' (by rw [g1]; exact aggr_struct _)
      rw [e1, e2]
      refine .struct (by rw [h2.size, g2.size]; exact hm _ (by decide)) (by rw [h2.alignment, g2.alignment]; exact hm _ (by decide)) ?_ (fun _ => .nil)
      refine each_square (each_filter h.kids fun _ _ h => level_tag h) h3 g3 ?_
      intro k k' f f' hk k1 k2
      have hs := hk.measures
      exact ⟨by rw [k1.name, k2.name, hk.name], by rw [k1.type, k2.type]; exact level_links hk, by rw [k1.alignment, k2.alignment]; exact hs _ (by decide),
        by rw [k1.bitSize, k2.bitSize]; exact hs _ (by decide), by rw [k1.bitOffset, k2.bitOffset]; exact hs _ (by decide),
        fun _ => by rw [k1.offset, k2.offset, hs _ (by decide)], by rw [k1.dataBitOffset, k2.dataBitOffset]; exact hs _ (by decide)⟩
    | _ => cases hcat
  | «variable» h1 | subprogram h1 | namespace_ h1 | lexBlock h1 | compileUnit h1 => rw [h1] at ht; exact absurd ht (by decide)

/-- The name of an object that is no base type. -/
theorem name_other {d : Tree} {y : Desc} (h : Describes d y) (hb : d.tag ≠ go! "BaseType") (hl : d.tag ≠ go! "LexDwarfBlock") :
    GoDedup.Spec.name y = text d (go! "Name") := by
  have := describes_name h
  generalize hn : GoDedup.Spec.name y = n at this
  cases this with
  | base h1 => exact absurd h1 hb
  | block h1 => exact absurd h1 hl
  | other => rfl

theorem base_named {d : Tree} {y : Desc} (h : Describes d y) (hn : text d (go! "Name") = none) : d.tag ≠ go! "BaseType" := by
  intro hb
  have := describes_name h
  generalize GoDedup.Spec.name y = n at this
  cases this with
  | base h1 h2 => rw [hn] at h2; cases h2
  | block h1 => rw [h1] at hb; exact absurd hb (by decide)
  | other h1 => exact h1 hb

theorem type_block {d : Tree} (ht : d.tag ∈ typeTags) : d.tag ≠ go! "LexDwarfBlock" := by
  intro h; rw [h] at ht; exact absurd ht (by decide)

/-- Entries that are called the same become objects that are. -/
theorem Base.called (hB : Base units w st0) {q q' : List Off} {d d' : Tree} (hp : Placed [] (units.map Prod.snd) q d) (hp' : Placed [] (units.map Prod.snd) q' d')
    (ht : d.tag ∈ typeTags) (htag : d.tag = d'.tag) (hname : text d (go! "Name") = text d' (go! "Name"))
    (hsize : d.tag = go! "BaseType" → num d (go! "ByteSize") = num d' (go! "ByteSize")) {a b : Nat} (ha : st0.ptr d.off = some a) (hb : st0.ptr d'.off = some b) :
    GoDedup.Spec.name (w.obj a) = GoDedup.Spec.name (w.obj b) ∧ (text d (go! "Name") = none ↔ GoDedup.Spec.name (w.obj a) = none) := by
  obtain ⟨n, n1, n2, -⟩ := hB.obj q d hp
  rw [ha] at n1; cases n1
  obtain ⟨n', n1', n2', -⟩ := hB.obj q' d' hp'
  rw [hb] at n1'; cases n1'
  by_cases hbt : d.tag = go! "BaseType"
  · refine ⟨hB.names q d q' d' a b hp hp' hbt (htag ▸ hbt) hname (hsize hbt) ha hb, ?_⟩
    constructor
    · intro hn; exact absurd hbt (base_named n2 hn)
    · intro hn
      have := describes_name n2
      rw [hn] at this
      generalize hm : (none : Option Str) = m at this
      cases this with
      | base => cases hm
      | block h1 => rw [h1] at hbt; exact absurd hbt (by decide)
      | other h1 => exact absurd hbt h1
  · have hl := type_block ht
    rw [name_other n2 hbt hl, name_other n2' (htag ▸ hbt) (htag ▸ hl)]
    exact ⟨hname, Iff.rfl⟩

/-- Entries that say the same become objects that are alike, given that references do. -/
theorem Base.alike (hC : CTypes units) (hB : Base units w st0) {q q' : List Off} {d d' : Tree} (hp : Placed [] (units.map Prod.snd) q d)
    (hp' : Placed [] (units.map Prod.snd) q' d') (ht : d.tag ∈ typeTags) (h : Says (Ends w.obj st0.ptr) d d') {a b : Nat} (ha : st0.ptr d.off = some a) (hb : st0.ptr d'.off = some b) :
    Alike w.obj st0.ptr a b := by
  obtain ⟨c1, c2⟩ := hB.called hp hp' ht h.tag h.name (fun _ => h.measures _ (by decide)) ha hb
  have hag := hB.agree hC hp hp' ht h ha hb
  cases hn : GoDedup.Spec.name (w.obj a) with
  | none => exact GoDedup.Alike.intro (.unnamed hn (by rw [← c1, hn]) hag)
  | some m =>
    obtain ⟨n, n1, n2, -⟩ := hB.obj q d hp
    rw [ha] at n1; cases n1
    obtain ⟨n', n1', n2', -⟩ := hB.obj q' d' hp'
    rw [hb] at n1'; cases n1'
    exact GoDedup.Alike.intro (.named (tag_inj (by rw [← GoBuild.describes_tag n2, ← GoBuild.describes_tag n2', h.tag])) hn (by rw [← c1, hn]))

/-- References that are taken for one lead to objects that are alike. -/
theorem Base.ends (hC : CTypes units) (hB : Base units w st0) {l l' : Off} (h : Like units l l') : Ends w.obj st0.ptr l l' := by
  refine h _ ?_
  intro l l' hs
  cases hs with
  | @named q q' d d' hp hp' ht htag hn hname hsize =>
    obtain ⟨a, a1, a2, -⟩ := hB.obj q d hp
    obtain ⟨b, b1, b2, -⟩ := hB.obj q' d' hp'
    refine ⟨a, b, a1, b1, ?_⟩
    obtain ⟨c1, c2⟩ := hB.called hp hp' ht htag hname hsize a1 b1
    cases hm : GoDedup.Spec.name (w.obj a) with
    | none => exact absurd (c2.mpr hm) hn
    | some m => exact GoDedup.Alike.intro (.named (tag_inj (by rw [← GoBuild.describes_tag a2, ← GoBuild.describes_tag b2, htag])) hm (by rw [← c1, hm]))
  | @unnamed q q' d d' hp hp' ht hn hsays =>
    obtain ⟨a, a1, -⟩ := hB.obj q d hp
    obtain ⟨b, b1, -⟩ := hB.obj q' d' hp'
    exact ⟨a, b, a1, b1, hB.alike hC hp hp' ht hsays a1 b1⟩

theorem Level.imp {R' : Off → Off → Prop} {k k' : Tree} (h : Level R k k') (f : ∀ a b, R a b → R' a b) : Level R' k k' :=
  ⟨h.tag, h.name, h.measures, h.type.imp id fun ⟨t, t', h1, h2, h3⟩ => ⟨t, t', h1, h2, f _ _ h3⟩⟩

theorem Says.imp {R' : Off → Off → Prop} {d d' : Tree} (h : Says R d d') (f : ∀ a b, R a b → R' a b) : Says R' d d' := by
  refine ⟨Level.imp h.toLevel f, ?_⟩
  have := h.kids
  generalize d.kids = l at this
  generalize d'.kids = l' at this
  induction this with
  | nil => exact .nil
  | cons h _ ih => exact .cons (Level.imp h f) ih

/-- Types that say the same are merged. -/
theorem Core.merged (hi : Input units) (hC : CTypes units) (hc : Core units w st st0 order) {q q' : List Off} {d d' : Tree} (hp : Placed [] (units.map Prod.snd) q d)
    (hp' : Placed [] (units.map Prod.snd) q' d') (ht : d.tag ∈ typeTags) (hd : declared d = declared d') (h : Says (Like units) d d') : st.ptr d.off = st.ptr d'.off := by
  have h' := Says.imp h fun a b => hc.toBase.ends hC (l := a) (l' := b)
  obtain ⟨a, a1, -⟩ := hc.obj q d hp
  obtain ⟨b, b1, -⟩ := hc.obj q' d' hp'
  have t1 := (hc.tag hp).mpr ht
  have t2 := (hc.tag hp').mpr (h.tag ▸ ht)
  have hal := hc.toBase.alike hC hp hp' ht h' a1 b1
  have hag := hc.toBase.agree hC hp hp' ht h' a1 b1
  refine (GoDedup.C61_found w st0 st order hc.start hc.visits hc.run d.off d'.off a b t1 t2 a1 b1 (hc.live hi hp t1) (hc.live hi hp' t2)
    (by rw [hc.decl q d hp, hc.decl q' d' hp', hd]) ?_).1
  cases hx : w.decl d.off with
  | true => exact .declaration rfl hal
  | false => exact .definition rfl hal hag

/-- The types of the dimensions of an array after the first have no name. -/
theorem dims_unnamed {ptr : Off → Option Nat} {obj : Nat → Desc} {parents : Nat → List Off} {elem : Option Off} {h : GoDedup.Head} {s : Option Int} {o par : Off} {ks : List Tree}
    (hd : Dims ptr obj parents elem h s o par ks) : ∀ l ∈ (ks.map Die.off).tail, ∀ a, ptr l = some a → GoDedup.Spec.name (obj a) = none := by
  induction hd with
  | none | last => intro l hl; cases hl
  | cons h1 h2 h3 h4 h5 ih =>
    intro l hl a ha
    rcases List.mem_cons.mp hl with rfl | hl
    · cases h5 with
      | last x1 x2 | cons x1 x2 => rw [ha] at x1; cases x1; rw [x2]; rfl
    · exact ih l hl a ha

/-- Objects and the entries they come from. -/
theorem Core.from (hc : Core units w st st0 order) {l : Off} {a : Nat} (h : st0.ptr l = some a) (ht : isTypeTag (w.tag l) = true) :
    (∃ q d, Placed [] (units.map Prod.snd) q d ∧ l = d.off ∧ d.tag ∈ typeTags ∧ Describes d (w.obj a)) ∨
      GoDedup.Spec.name (w.obj a) = none ∧ ∃ q d k, Placed [] (units.map Prod.snd) q d ∧ d.tag = go! "ArrayType" ∧ k ∈ d.kids ∧ l = k.off := by
  obtain ⟨q, d, hp, hl⟩ := hc.entry l a h
  obtain ⟨n, n1, n2, -, n4⟩ := hc.obj q d hp
  rcases hl with rfl | ⟨harr, hl⟩
  · rw [h] at n1; cases n1
    exact .inl ⟨q, d, hp, rfl, (hc.tag hp).mp ht, n2⟩
  · obtain ⟨hh, p, -, -, hd⟩ := n4 harr
    obtain ⟨k, hk, rfl⟩ := List.mem_map.mp (List.mem_of_mem_tail hl)
    exact .inr ⟨dims_unnamed hd _ hl a h, q, d, k, hp, harr, hk, rfl⟩

theorem Core.unnamed (hi : Input units) (hC : CTypes units) (hc : Core units w st st0 order) {l : Off} {a : Nat} (h : st0.ptr l = some a) (ht : isTypeTag (w.tag l) = true)
    (hn : GoDedup.Spec.name (w.obj a) = none) : w.decl l = false := by
  rcases hc.from h ht with ⟨q, d, hp, rfl, htt, -⟩ | ⟨-, q, d, k, hp, harr, hk, rfl⟩
  · rw [hc.decl q d hp]
    exact (hi.names q d hp).decl ((hc.toBase.called hp hp htt rfl rfl (fun _ => rfl) h h).2.mpr hn)
  · rw [hc.kids q d hp k hk]
    exact hC.dims q d hp harr k hk

/-- Objects that are alike are merged if the units agree on the entry of one. -/
theorem Core.exact (hi : Input units) (hC : CTypes units) (hc : Core units w st st0 order) {q : List Off} {d : Tree} {l' : Off} {a b : Nat}
    (hp : Placed [] (units.map Prod.snd) q d) (hK : Agreed units d) (h : st0.ptr d.off = some a)
    (h' : st0.ptr l' = some b) (ht : isTypeTag (w.tag d.off) = true) (ht' : isTypeTag (w.tag l') = true) (hl : Live w st d.off) (hl' : Live w st l') (hal : Alike w.obj st0.ptr a b) :
    st.ptr d.off = st.ptr l' := by
  have found := GoDedup.C61_found w st0 st order hc.start hc.visits hc.run d.off l' a b ht ht' h h' (hl ht) (hl' ht')
  cases GoDedup.Alike.known hal with
  | unnamed n1 n2 hag =>
    have d1 := hc.unnamed hi hC h ht n1
    exact (found (by rw [d1, hc.unnamed hi hC h' ht' n2]) (.definition d1 hal hag)).1
  | named hcat n1 n2 =>
    have htt := (hc.tag hp).mp ht
    obtain ⟨n, m1, hd, -⟩ := hc.obj q d hp
    rw [h] at m1; cases m1
    rcases hc.from h' ht' with ⟨q', d', hp', rfl, htt', hd'⟩ | ⟨hn, -⟩
    case inr => rw [hn] at n2; cases n2
    have htag : d.tag = d'.tag := by rw [GoBuild.describes_tag hd, GoBuild.describes_tag hd', hcat]
    have e1 := describes_name hd
    have e2 := describes_name hd'
    rw [n1] at e1
    rw [n2] at e2
    obtain ⟨k1, k2, k3⟩ := hK q' d' _ hp' htag e1 e2
    by_cases hb : d.tag = go! "BaseType"
    · obtain ⟨k4, k5⟩ := k2 hb
      have hdecl : w.decl d.off = w.decl d'.off := by rw [hc.decl q d hp, hc.decl q' d' hp', k1]
      refine (found hdecl ?_).1
      cases hx : w.decl d.off with
      | true => exact .declaration rfl hal
      | false =>
        refine .definition rfl hal ?_
        generalize w.obj a = y at hd hcat
        generalize w.obj b = y' at hd' hcat
        cases hd with
        | base h1 h2 h3 h4 =>
          cases hd' with
          | base g1 g2 g3 g4 =>
            rw [k5]
            exact .base (by show _ = _; simp only [h4.size, g4.size]; exact k4)
          | _ => cases hcat
        | qual h1 => rw [h1] at hb; exact absurd (tag_inj (c' := .base) hb) (by simp)
        | reference h1 => rw [h1] at hb; exact absurd (tag_inj (c' := .base) hb) (by simp)
        | struct h1 => rw [h1] at hb; exact absurd (tag_inj (c' := .base) hb) (by simp)
        | enumeration h1 | typedef h1 | pointer h1 | unspecified h1 | subroutine h1 | array h1 | «variable» h1 | subprogram h1 | namespace_ h1 | lexBlock h1 | compileUnit h1 =>
          rw [h1] at hb; exact absurd hb (by decide)
    · exact hc.merged hi hC hp hp' htt k1 (k3 hb)

end Verif.Chain
