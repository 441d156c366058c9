import Verif.Chain.Same
import Verif.GoDedup.PropsSame
import Verif.Emit.RunProps
/-
Lemmas for C79: from the entries to the answers.
-/
namespace Verif.Chain
open Verif.GoMeta (Str)
open GoDwarf.Spec (Die)
open GoBuild.Spec (Tree Placed text num ref declared isTag parts NameOf paramTags Dim Describes Dims)
open GoDedup (Off World St Go Desc isTypeTag idOf)
open GoDedup.Spec (Start Visits OneType Alike Agree cat tagName links Links)
open Spec

variable {units : List (Nat × Tree)} {w : World} {st st0 : St} {order : List Off} {snake : Str → Str} {x : Extra} {db : List Emit.Obj}
  {defs : List (Str × Emit.CEntry)} {addr : Str → Entry.Ref} {rt : Entry.Db}

theorem view_id (n : Nat) : (view snake w st x n).id = idOf snake w st.added n := by
  unfold view
  cases w.obj n <;> rfl

theorem kind_qual (q : GoDedup.Qual) : Emit.Spec.kindOfTag q.tag = kindOf (tagName (.qual q)) := by cases q <;> decide +kernel
theorem kind_ref (r : Bool) : Emit.Spec.kindOfTag (GoDedup.refTag r) = kindOf (tagName (.reference r)) := by cases r <;> decide +kernel
theorem kind_aggr (a : GoDedup.Aggr) : Emit.Spec.kindOfTag a.tag = kindOf (tagName (.aggregate a)) := by cases a <;> decide +kernel

theorem view_kind (n : Nat) : Emit.Spec.kind (view snake w st x n) = kindOf (tagName (cat (w.obj n))) := by
  unfold view
  cases w.obj n with
  | qual h q t => exact kind_qual q
  | reference h r t => exact kind_ref r
  | struct h a fs hs => exact kind_aggr a
  | _ => simp only [Emit.Spec.kind, cat]; decide +kernel

theorem view_name (n : Nat) : Emit.Spec.nameOf (view snake w st x n) = GoDedup.Spec.name (w.obj n) := by
  unfold view
  cases w.obj n <;> rfl

theorem for_head {l : Off} {t o : Nat} (h : For w st0 l t o) :
    cat (w.obj o) = cat (w.obj t) ∧ GoDedup.Spec.name (w.obj o) = GoDedup.Spec.name (w.obj t) := by
  rcases h with rfl | ⟨-, f, -, -, -, h⟩
  · exact ⟨rfl, rfl⟩
  · have al : Alike w.obj st0.ptr t o := by cases h <;> assumption
    obtain ⟨h1, h2⟩ := GoBuild.alike_head al
    exact ⟨h1.symm, h2.symm⟩

theorem link_ptr {l : Off} {o : Nat} (h : st.ptr l = some o) : link snake w st l = idOf snake w st.added o := by
  simp only [link, GoDedup.streamline, h]

/-- `o` stands for the defined object `t`. -/
def Def (w : World) (st0 : St) (t o : Nat) : Prop :=
  t = o ∨ Agree st0.ptr (Alike w.obj st0.ptr) (w.obj t) (w.obj o) ∧ ∃ f, st0.ptr f = some o ∧ w.decl f = false

theorem for_def {l : Off} {t o : Nat} (h : For w st0 l t o) (hd : w.decl l = false) : Def w st0 t o := by
  rcases h with rfl | ⟨-, f, -, hf, hdf, h⟩
  · exact .inl rfl
  · cases h with
    | declaration h => rw [hd] at h; cases h
    | definition _ _ h => exact .inr ⟨h, f, hf, by rw [← hdf, hd]⟩

theorem for_other {l : Off} {t o : Nat} (h : For w st0 l t o) (hd : isTypeTag (w.tag l) = false) : t = o := by
  rcases h with rfl | ⟨h, -⟩
  · rfl
  · rw [hd] at h; cases h

/-! ### Composition -/

section
variable {ptr : Off → Option Nat} {R S T : Nat → Nat → Prop}

theorem links_comp (hc : ∀ a b c, R a b → S b c → T a c) {l m n : Option Off} (h : Links ptr R l m) (g : Links ptr S m n) : Links ptr T l n := by
  cases h with
  | none => cases g; exact .none
  | some h1 h2 h3 =>
    cases g with
    | some g1 g2 g3 =>
      rw [h2] at g1; cases g1
      exact .some h1 g2 (hc _ _ _ h3 g3)

theorem each_comp {α β γ : Type} {R : α → β → Prop} {S : β → γ → Prop} {T : α → γ → Prop} (hc : ∀ a b c, R a b → S b c → T a c) {l : List α} {m : List β}
    (h : GoDedup.Spec.Each R l m) : ∀ {n : List γ}, GoDedup.Spec.Each S m n → GoDedup.Spec.Each T l n := by
  induction h with
  | nil => intro n g; cases g; exact .nil
  | cons h _ ih =>
    intro n g
    cases g with
    | cons g1 g2 => exact .cons (hc _ _ _ h g1) (ih g2)

theorem params_comp (hc : ∀ a b c, R a b → S b c → T a c) {l m n : GoDedup.Param} (h : GoDedup.Spec.Params ptr R l m) (g : GoDedup.Spec.Params ptr S m n) :
    GoDedup.Spec.Params ptr T l n := by
  cases h with
  | rest h1 h2 =>
    cases g with
    | rest g1 g2 => exact .rest h1 g2
    | typed g1 => rw [h2] at g1; cases g1
  | typed h1 h2 h3 =>
    cases g with
    | rest g1 g2 => rw [h2] at g1; cases g1
    | typed g1 g2 g3 => exact .typed h1 g2 (links_comp hc h3 g3)

theorem fields_comp (hc : ∀ a b c, R a b → S b c → T a c) {l m n : GoDedup.Field} (h : GoDedup.Spec.Fields ptr R l m) (g : GoDedup.Spec.Fields ptr S m n) :
    GoDedup.Spec.Fields ptr T l n :=
  ⟨h.name.trans g.name, links_comp hc h.type g.type, h.alignment.trans g.alignment, h.bitSize.trans g.bitSize, h.bitOffset.trans g.bitOffset,
    fun x => (h.byteOffset x).trans (g.byteOffset (h.bitOffset ▸ x)), h.dataBitOffset.trans g.dataBitOffset⟩

theorem agree_comp (hc : ∀ a b c, R a b → S b c → T a c) {l m n : Desc} (h : Agree ptr R l m) (g : Agree ptr S m n) : Agree ptr T l n := by
  cases h with
  | base h => cases g with | base g => exact .base (h.trans g)
  | enumeration h1 h2 => cases g with | enumeration g1 g2 => exact .enumeration (h1.trans g1) (h2.trans g2)
  | qual h => cases g with | qual g => exact .qual (links_comp hc h g)
  | typedef h => cases g with | typedef g => exact .typedef (links_comp hc h g)
  | pointer h => cases g with | pointer g => exact .pointer (links_comp hc h g)
  | unspecified => cases g; exact .unspecified
  | reference h => cases g with | reference g => exact .reference (links_comp hc h g)
  | subroutine h1 h2 => cases g with | subroutine g1 g2 => exact .subroutine (each_comp (R := GoDedup.Spec.Params ptr R) (S := GoDedup.Spec.Params ptr S) (T := GoDedup.Spec.Params ptr T) (fun _ _ _ a b => params_comp hc a b) h1 g1) (links_comp hc h2 g2)
  | array h => cases g with | array g => exact .array (links_comp hc h g)
  | struct h1 h2 h3 h4 =>
    cases g with
    | struct g1 g2 g3 g4 =>
      refine .struct (h1.trans g1) (h2.trans g2) (each_comp (R := GoDedup.Spec.Fields ptr R) (S := GoDedup.Spec.Fields ptr S) (T := GoDedup.Spec.Fields ptr T) (fun _ _ _ a b => fields_comp hc a b) h3 g3) fun x => ?_
      refine each_comp (R := fun l l' => Links ptr R (some l) (some l')) (S := fun l l' => Links ptr S (some l) (some l')) (T := fun l l' => Links ptr T (some l) (some l')) (fun _ _ _ a b => links_comp hc a b) (h4 x) (g4 ?_)
      cases h3 with
      | nil => exact absurd rfl x
      | cons => simp
  | «variable» h => cases g with | «variable» g => exact .variable (links_comp hc h g)
  | subprogram h1 h2 => cases g with | subprogram g1 g2 => exact .subprogram (each_comp (R := GoDedup.Spec.Params ptr R) (S := GoDedup.Spec.Params ptr S) (T := GoDedup.Spec.Params ptr T) (fun _ _ _ a b => params_comp hc a b) h1 g1) (links_comp hc h2 g2)
  | namespace_ => cases g; exact .namespace_

theorem alike_trans {obj : Nat → Desc} {a b c : Nat} (h : Alike obj ptr a b) (g : Alike obj ptr b c) : Alike obj ptr a c := by
  refine h (fun x y => ∀ z, Alike obj ptr y z → Alike obj ptr x z) ?_ c g
  intro x y hxy z hz
  refine GoDedup.Alike.intro ?_
  have hz := GoDedup.Alike.known hz
  cases hxy with
  | named h1 h2 h3 =>
    cases hz with
    | named g1 g2 g3 => rw [h3] at g2; cases g2; exact .named (h1.trans g1) h2 g3
    | unnamed g1 => rw [h3] at g1; cases g1
  | unnamed h1 h2 h3 =>
    cases hz with
    | named g1 g2 g3 => rw [h2] at g2; cases g2
    | unnamed g1 g2 g3 => exact .unnamed h1 g2 (agree_comp (fun _ _ _ r s => r _ s) h3 g3)

end

/-- Everything about a program. -/
structure Run (units : List (Nat × Tree)) (snake : Str → Str) (w : World) (st st0 : St) (order : List Off) (x : Extra) (db : List Emit.Obj)
    (defs : List (Str × Emit.CEntry)) (addr : Str → Entry.Ref) (rt : Entry.Db) : Prop where
  p : Program units snake w st x db defs addr rt
  core : Core units w st st0 order

theorem _root_.Verif.Chain.Spec.Program.run (h : Program units snake w st x db defs addr rt) : ∃ st0 order, Run units snake w st st0 order x db defs addr rt := by
  obtain ⟨st0, order, hc⟩ := Chain.core h.input h.read
  exact ⟨st0, order, h, hc⟩

theorem Run.mem (h : Run units snake w st st0 order x db defs addr rt) {o : Nat} (ho : o ∈ st.added) : view snake w st x o ∈ db :=
  h.p.emitted.mem_iff.mpr (List.mem_map.mpr ⟨o, ho, rfl⟩)

/-- What is found for an object of the database. -/
theorem Run.told (h : Run units snake w st st0 order x db defs addr rt) {o : Nat} (ho : o ∈ st.added) {t : Nat} {d : Tree}
    (h1 : cat (w.obj o) = cat (w.obj t)) (h2 : GoDedup.Spec.name (w.obj o) = GoDedup.Spec.name (w.obj t)) (h3 : Describes d (w.obj t)) :
    Told rt (addr (idOf snake w st.added o)) d := by
  obtain ⟨g1, g2⟩ := Emit.C78_kind_partial h.p.ids h.p.good h.p.compiled h.p.loaded _ (h.mem ho)
  rw [view_id] at g1 g2
  refine ⟨?_, ?_⟩
  · rw [g1, view_kind, h1, GoBuild.describes_tag h3]
  · rw [g2, view_name, h2]
    exact describes_name h3

theorem Run.target (h : Run units snake w st st0 order x db defs addr rt) {o : Nat} (ho : o ∈ st.added) :
    Emit.Spec.target (idOf snake w st.added o) = some (idOf snake w st.added o) := by
  have hm := h.mem ho
  have h1 := h.p.good.reserved _ hm
  obtain ⟨-, c, s, h2⟩ := h.p.good.names _ hm
  rw [view_id] at h1 h2
  unfold Emit.Spec.target
  rw [if_neg]
  rintro (h3 | h3)
  · rw [h3] at h2; exact absurd h2.1 (by simp)
  · exact h1 h3

/-- What a link of an object of the database leads to. -/
theorem Run.answer (h : Run units snake w st st0 order x db defs addr rt) {o : Nat} (ho : o ∈ st.added) {l l' : Option Off}
    (hl : ∀ y ∈ l', y ∈ links (w.obj o)) (ha : ∀ y ∈ l, Ty units y) (hr : l = l' ∨ Links st0.ptr (Alike w.obj st0.ptr) l l') :
    Answer units (fun l => addr (link snake w st l)) rt l ((Emit.Spec.target (typeLink snake w st l')).map addr) := by
  cases l' with
  | none =>
    have : l = none := by
      rcases hr with hr | hr
      · exact hr
      · cases hr; rfl
    subst this
    show Answer units (fun l => addr (link snake w st l)) rt none ((Emit.Spec.target (go! "void")).map addr)
    have : Emit.Spec.target (go! "void") = none := by decide
    rw [this]
    exact .none
  | some y' =>
    obtain ⟨b, o', g1, g2, g3, g4, g5⟩ := h.core.link h.p.input ho (hl y' rfl)
    obtain ⟨y, a, hy, hya, hab, hal⟩ : ∃ y a, l = some y ∧ st0.ptr y = some a ∧ (cat (w.obj b) = cat (w.obj a) ∧ GoDedup.Spec.name (w.obj b) = GoDedup.Spec.name (w.obj a)) ∧
        (y = y' ∨ Alike w.obj st0.ptr a b) := by
      rcases hr with hr | hr
      · exact ⟨y', b, hr, g1, ⟨rfl, rfl⟩, .inl rfl⟩
      · cases hr with
        | some x1 x2 x3 =>
          rw [g1] at x2
          cases x2
          obtain ⟨z1, z2⟩ := GoBuild.alike_head x3
          exact ⟨_, _, rfl, x1, ⟨z1.symm, z2.symm⟩, .inr x3⟩
    subst hy
    obtain ⟨q, T, hp, rfl, htt⟩ := ha y rfl
    obtain ⟨n, n1, n2, -⟩ := h.core.obj q T hp
    rw [hya] at n1
    cases n1
    show Answer units (fun l => addr (link snake w st l)) rt (some T.off) ((Emit.Spec.target (link snake w st y')).map addr)
    rw [link_ptr g3, h.target g2]
    obtain ⟨f1, f2⟩ := for_head g4
    refine .some hp (h.told g2 (f1.trans hab.1) (f2.trans hab.2) n2) ?_
    intro hC hK
    have hT := (h.core.tag hp).mpr htt
    have hst : st.ptr T.off = st.ptr y' := by
      rcases hal with hal | hal
      · rw [hal]
      · refine h.core.exact h.p.input hC hp hK hya g1 hT ?_ (h.core.live h.p.input hp) g5 hal
        rw [h.core.start.tag _ _ g1, GoBuild.typeTag_cat, hab.1, ← GoBuild.typeTag_cat, ← h.core.start.tag _ _ hya, hT]
    rw [link_ptr (hst.trans g3)]

/-! ### Objects of the database for an entry -/

theorem Run.link_eq (h : Run units snake w st st0 order x db defs addr rt) {q : List Off} {d : Tree} (hp : Placed [] (units.map Prod.snd) q d) :
    ∃ t o, st0.ptr d.off = some t ∧ Describes d (w.obj t) ∧ o ∈ st.added ∧ link snake w st d.off = idOf snake w st.added o ∧ For w st0 d.off t o := by
  obtain ⟨t, o, h1, h2, h3, h4, h5⟩ := h.core.placed h.p.input hp
  exact ⟨t, o, h1, h2, h3, link_ptr h4, h5⟩

/-- For an entry that is no declaration of a type. -/
theorem Run.defined (h : Run units snake w st st0 order x db defs addr rt) {q : List Off} {d : Tree} (hp : Placed [] (units.map Prod.snd) q d)
    (hd : d.tag ∈ typeTags → declared d = false) :
    ∃ t o, st0.ptr d.off = some t ∧ Describes d (w.obj t) ∧ o ∈ st.added ∧ link snake w st d.off = idOf snake w st.added o ∧
      Def w st0 t o ∧ (d.tag ∉ typeTags → t = o) := by
  obtain ⟨t, o, h1, h2, h3, h4, h5⟩ := h.link_eq hp
  by_cases ht : d.tag ∈ typeTags
  · exact ⟨t, o, h1, h2, h3, h4, for_def h5 (by rw [h.core.decl q d hp, hd ht]), fun hn => absurd ht hn⟩
  · suffices heq : t = o from ⟨t, o, h1, h2, h3, h4, .inl heq, fun _ => heq⟩
    refine for_other h5 ?_
    cases hc : isTypeTag (w.tag d.off) with
    | false => rfl
    | true => exact absurd ((h.core.tag hp).mp hc) ht

/-- The object itself is described at run time, if it is no typedef, no qualifier and no variable. -/
theorem Run.leads (h : Run units snake w st st0 order x db defs addr rt) {o : Nat} (ho : o ∈ st.added) {v : Emit.Obj} (hv : view snake w st x o = v)
    (h1 : ∀ h t, v ≠ .typedef h t) (h2 : ∀ h q t, v ≠ .qual h q t) (h3 : ∀ h t, v ≠ .variable h t) : Emit.Spec.Leads db (idOf snake w st.added o) v := by
  have hm := h.mem ho
  rw [← view_id (x := x), hv]
  rw [hv] at hm
  exact .here hm (Emit.not_behind h.p.good hm h1 h2 h3)

theorem each_refl {α : Type} {R : α → α → Prop} : ∀ (l : List α), (∀ a ∈ l, R a a) → GoDedup.Spec.Each R l l
  | [], _ => .nil
  | a :: l, h => .cons (h a (by simp)) (each_refl l fun b hb => h b (by simp [hb]))

theorem dims_tail {ptr : Off → Option Nat} {obj : Nat → Desc} {parents : Nat → List Off} {elem : Option Off} {h : GoDedup.Head} {s : Option Int} {o par : Off} {ks : List Tree}
    (hd : Dims ptr obj parents elem h s o par ks) : (∃ n, ptr o = some n ∧ cat (obj n) = .array) ∧ ∀ y ∈ (ks.map Die.off).tail, ∃ n, ptr y = some n ∧ cat (obj n) = .array := by
  induction hd with
  | none h1 h2 => exact ⟨⟨_, h1, by rw [h2]; rfl⟩, by simp⟩
  | last h1 h2 => exact ⟨⟨_, h1, by rw [h2]; rfl⟩, by simp⟩
  | cons h1 h2 _ _ _ ih =>
    refine ⟨⟨_, h1, by rw [h2]; rfl⟩, ?_⟩
    intro y hy
    rcases List.mem_cons.mp hy with rfl | hy
    · exact ih.1
    · exact ih.2 y (by simpa using hy)

/-- The entry of an object that is no array. -/
theorem Core.described (hc : Core units w st st0 order) {f : Off} {o : Nat} (hf : st0.ptr f = some o) (ha : cat (w.obj o) ≠ .array) :
    ∃ q d, Placed [] (units.map Prod.snd) q d ∧ f = d.off ∧ Describes d (w.obj o) := by
  obtain ⟨q, d, h1, h2⟩ := hc.entry f o hf
  obtain ⟨n, g1, g2, -, g4⟩ := hc.obj q d h1
  rcases h2 with rfl | ⟨h2, h3⟩
  · rw [hf] at g1; cases g1
    exact ⟨q, d, h1, rfl, g2⟩
  · obtain ⟨_, _, _, _, hd⟩ := g4 h2
    obtain ⟨n', n1, n2⟩ := (dims_tail hd).2 f h3
    rw [hf] at n1; cases n1
    exact absurd n2 ha

/-- The field of the object for a member. -/
structure FieldFor (w : World) (st0 : St) (k : Tree) (f : GoDedup.Field) : Prop where
  name : f.name = text k (go! "Name")
  type : ref k (go! "Type") = f.type ∨ Links st0.ptr (Alike w.obj st0.ptr) (ref k (go! "Type")) f.type
  offset : num k (go! "BitOffset") = none → f.byteOffset = (num k (go! "DataMemberLoc")).getD 0
  bitOffset : f.bitOffset = num k (go! "BitOffset")
  dataBitOffset : f.dataBitOffset = num k (go! "DataBitOffset")
  bitSize : f.bitSize = num k (go! "BitSize")

theorem Run.struct (h : Run units snake w st st0 order x db defs addr rt) {q : List Off} {d : Tree} (hp : Placed [] (units.map Prod.snd) q d)
    (ht : d.tag ∈ structTags) (hd : declared d = false) :
    ∃ o hh a fs hs, o ∈ st.added ∧ link snake w st d.off = idOf snake w st.added o ∧ w.obj o = .struct hh a fs hs ∧ hh.decl = false ∧
      hh.byteSize = num d (go! "ByteSize") ∧ GoDedup.Spec.Each (FieldFor w st0) (d.kids.filter (isTag [go! "Member"])) fs := by
  obtain ⟨t, o, h1, h2, h3, h4, h5, -⟩ := h.defined hp fun _ => hd
  obtain ⟨hh, a, fs, ho, hT, hE⟩ : ∃ hh a fs, w.obj t = .struct hh a fs ((parts d).map Die.off) ∧ GoBuild.Spec.TypeHead d hh ∧
      GoDedup.Spec.Each GoBuild.Spec.FieldOf (d.kids.filter (isTag [go! "Member"])) fs := by
    generalize w.obj t = y at h2
    cases h2 with
    | @struct hh a fs _ g1 g2 => exact ⟨hh, a, fs, rfl, g1, g2⟩
    | qual h1 => rw [h1] at ht; exact absurd ht (by rename_i q _; cases q <;> decide)
    | reference h1 => rw [h1] at ht; exact absurd ht (by rename_i r _; cases r <;> decide)
    | base h1 | enumeration h1 | typedef h1 | pointer h1 | unspecified h1 | subroutine h1 | array h1 | «variable» h1 | subprogram h1 | namespace_ h1 | lexBlock h1 | compileUnit h1 =>
      rw [h1] at ht; exact absurd ht (by decide)
  rcases h5 with rfl | ⟨h5, f, f1, f2⟩
  · refine ⟨t, hh, a, fs, _, h3, h4, ho, by rw [hT.decl, hd], hT.size, ?_⟩
    refine each_comp (R := GoBuild.Spec.FieldOf) (S := Eq) ?_ hE (each_refl _ fun _ _ => rfl)
    rintro k f _ hk rfl
    exact ⟨hk.name, .inl hk.type.symm, fun _ => hk.offset, hk.bitOffset, hk.dataBitOffset, hk.bitSize⟩
  · rw [ho] at h5
    generalize hoo : w.obj o = y at h5
    cases h5 with
    | @struct _ h' _ _ fs' _ hs' g1 g2 g3 g4 =>
      obtain ⟨q', d', e1, rfl, e2⟩ := h.core.described f1 (by rw [hoo]; simp [cat])
      rw [h.core.decl q' d' e1] at f2
      rw [hoo] at e2
      refine ⟨o, h', a, fs', hs', h3, h4, hoo, ?_, by rw [← g1, hT.size], ?_⟩
      · cases e2 with
        | struct e3 e4 => rw [e4.decl, f2]
      · refine each_comp (R := GoBuild.Spec.FieldOf) (S := GoDedup.Spec.Fields st0.ptr (Alike w.obj st0.ptr)) ?_ hE g3
        intro k f f' hk hf
        exact ⟨hf.name ▸ hk.name, .inr (hk.type ▸ hf.type), fun hb => by rw [← hf.byteOffset (by rw [hk.bitOffset, hb]), hk.offset], hf.bitOffset ▸ hk.bitOffset,
          hf.dataBitOffset ▸ hk.dataBitOffset, hf.bitSize ▸ hk.bitSize⟩

theorem each_back {α β : Type} {R : α → β → Prop} {as : List α} {bs : List β} (h : GoDedup.Spec.Each R as bs) :
    ∀ (k : Nat) b, bs[k]? = some b → ∃ a, as[k]? = some a ∧ R a b := by
  induction h with
  | nil => simp
  | @cons a b as bs h _ ih =>
    intro k x hx
    cases k with
    | zero => cases hx; exact ⟨a, rfl, h⟩
    | succ k => exact ih k x (by simpa using hx)

theorem first_named {α β γ : Type} {R : α → β → Prop} {f : β → γ} {na : α → Option Str} {nc : γ → Option Str} {as : List α} {bs : List β} (h : GoDedup.Spec.Each R as bs)
    (hn : ∀ a b, R a b → nc (f b) = na a) {n : Str} {k : Nat} (hf : Emit.Spec.FirstNamed na as n k) : Emit.Spec.FirstNamed nc (bs.map f) n k := by
  obtain ⟨⟨a, h1, h2⟩, h3⟩ := hf
  obtain ⟨b, g1, g2⟩ := (each_get h).2 k a h1
  refine ⟨⟨f b, by simp [g1], by rw [hn a b g2, h2]⟩, ?_⟩
  intro j hj c hc
  rw [List.getElem?_map, Option.map_eq_some_iff] at hc
  obtain ⟨b', e1, rfl⟩ := hc
  obtain ⟨a', e2, e3⟩ := each_back h j b' e1
  rw [hn a' b' e3]
  exact h3 j hj a' e2

/-- The members of a placed structure have links to types. -/
theorem member_at (hi : Input units) {q : List Off} {d : Tree} (hp : Placed [] (units.map Prod.snd) q d) (ht : d.tag ∈ structTags) {k : Tree}
    (hk : k ∈ d.kids.filter (isTag [go! "Member"])) : ∀ y ∈ ref k (go! "Type"), Ty units y := by
  intro y hy
  rw [List.mem_filter] at hk
  obtain ⟨t, t1, q', T, c, t2, t3, t4, t5⟩ := complete_members (complete hi hp (by intro h; rw [h] at ht; exact absurd ht (by decide))) ht k hk.1 (by simpa [isTag] using hk.2)
  rw [t1] at hy; cases hy
  exact ⟨q', T, t2, t3, by rw [t4]; exact (type_tags c).mpr t5⟩

theorem describes_cat {d : Tree} {y : Desc} (h : Describes d y) : catOf d.tag = some (cat y) := by
  rw [GoBuild.describes_tag h, catOf_tag]

theorem Run.enumeration (h : Run units snake w st st0 order x db defs addr rt) {q : List Off} {d : Tree} (hp : Placed [] (units.map Prod.snd) q d)
    (ht : d.tag = go! "EnumerationType") (hd : declared d = false) :
    ∃ o hh es, o ∈ st.added ∧ link snake w st d.off = idOf snake w st.added o ∧ w.obj o = .enumeration hh es ∧ hh.byteSize = num d (go! "ByteSize") ∧
      GoDedup.Spec.Each (fun k e => text k (go! "Name") = some e.1 ∧ num k (go! "ConstValue") = some e.2) d.kids es := by
  obtain ⟨t, o, h1, h2, h3, h4, h5, -⟩ := h.defined hp fun _ => hd
  have hcat : cat (w.obj t) = .enumeration := by
    have := describes_cat h2
    rw [ht] at this
    exact (Option.some.inj this).symm
  generalize hot : w.obj t = y at h2 hcat
  cases h2 with
  | @enumeration hh es g1 g2 g3 =>
    rcases h5 with rfl | ⟨h5, -⟩
    · exact ⟨t, hh, es, h3, h4, hot, g2.size, g3⟩
    · rw [hot] at h5
      generalize hoo : w.obj o = y at h5
      cases h5 with
      | enumeration a1 a2 => exact ⟨o, _, es, h3, h4, hoo, by rw [← a1, g2.size], g3⟩
  | _ => cases hcat

/-! ### Links -/

theorem Run.inMem (h : Run units snake w st st0 order x db defs addr rt) : Emit.InMem db addr rt :=
  ⟨h.p.good, Emit.loaded_entry h.p.ids h.p.good h.p.compiled h.p.loaded⟩

/-- The type of an object with one. -/
def oneLink : Desc → Option (Option Off)
  | .qual _ _ t | .typedef _ t | .pointer _ t | .reference _ _ t | .variable _ t => some t
  | _ => none

theorem describes_one {d : Tree} {y : Desc} (h : Describes d y) {t : Option Off} (hy : oneLink y = some t) : t = ref d (go! "Type") := by
  cases h <;> first | exact (Option.some.inj hy).symm | cases hy

theorem agree_cat {ptr : Off → Option Nat} {R : Nat → Nat → Prop} {a b : Desc} (h : Agree ptr R a b) : cat a = cat b := by
  cases h <;> rfl

theorem agree_one {ptr : Off → Option Nat} {R : Nat → Nat → Prop} {a b : Desc} (h : Agree ptr R a b) {t : Option Off} (ha : oneLink a = some t) :
    ∃ t', oneLink b = some t' ∧ Links ptr R t t' := by
  cases h with
  | qual h | typedef h | pointer h | reference h | «variable» h => cases ha; exact ⟨_, rfl, h⟩
  | _ => cases ha

theorem one_links {y : Desc} {t : Option Off} (h : oneLink y = some t) : ∀ l ∈ t, l ∈ links y := by
  intro l hl
  cases y <;> first | cases h; done | (cases h; cases hl; simp [links])

/-- The object for an entry with one link. -/
theorem Run.one (h : Run units snake w st st0 order x db defs addr rt) {q : List Off} {d : Tree} (hp : Placed [] (units.map Prod.snd) q d)
    (ht : d.tag ∈ [go! "PointerType", go! "ReferenceType", go! "RvalueReferenceType", go! "ConstType", go! "VolatileType", go! "RestrictType", go! "MutableType",
      go! "SharedType", go! "PackedType", go! "Variable", go! "Typedef"]) (hd : d.tag ∈ typeTags → declared d = false) :
    ∃ o t, o ∈ st.added ∧ link snake w st d.off = idOf snake w st.added o ∧ catOf d.tag = some (cat (w.obj o)) ∧ oneLink (w.obj o) = some t ∧
      Answer units (fun l => addr (link snake w st l)) rt (ref d (go! "Type")) ((Emit.Spec.target (typeLink snake w st t)).map addr) := by
  obtain ⟨t, o, h1, h2, h3, h4, h5, -⟩ := h.defined hp hd
  obtain ⟨l, hl⟩ : ∃ l, oneLink (w.obj t) = some l := by
    generalize w.obj t = y at h2
    cases h2 with
    | qual | reference | typedef | pointer | «variable» => exact ⟨_, rfl⟩
    | @struct _ a _ g => rw [g] at ht; exact absurd ht (by cases a <;> decide)
    | base g | enumeration g | unspecified g | subroutine g | array g | subprogram g | namespace_ g | lexBlock g | compileUnit g => rw [g] at ht; exact absurd ht (by decide)
  have hlr := describes_one h2 hl
  subst hlr
  have hat : ∀ y ∈ ref d (go! "Type"), Ty units y := fun y hy =>
    at_link (complete_link (complete h.p.input hp (by intro ha; rw [ha] at ht; exact absurd ht (by decide)))
      ((by decide : ∀ s ∈ [go! "PointerType", go! "ReferenceType", go! "RvalueReferenceType", go! "ConstType", go! "VolatileType", go! "RestrictType", go! "MutableType",
        go! "SharedType", go! "PackedType", go! "Variable", go! "Typedef"], s ∈ linkTags) _ ht)) hy
  rcases h5 with rfl | ⟨h5, -⟩
  · exact ⟨t, _, h3, h4, describes_cat h2, hl, h.answer h3 (one_links hl) hat (.inl rfl)⟩
  · obtain ⟨t', g1, g2⟩ := agree_one h5 hl
    exact ⟨o, t', h3, h4, by rw [describes_cat h2, agree_cat h5], g1, h.answer h3 (one_links g1) hat (.inr g2)⟩

def aliasTags : List Str := [go! "Typedef", go! "Variable", go! "ConstType", go! "VolatileType", go! "RestrictType", go! "MutableType", go! "SharedType", go! "PackedType"]

theorem alias_one {s : Str} (h : s ∈ aliasTags) : s ∈ [go! "PointerType", go! "ReferenceType", go! "RvalueReferenceType", go! "ConstType", go! "VolatileType",
    go! "RestrictType", go! "MutableType", go! "SharedType", go! "PackedType", go! "Variable", go! "Typedef"] :=
  (by decide : ∀ s ∈ aliasTags, s ∈ [go! "PointerType", go! "ReferenceType", go! "RvalueReferenceType", go! "ConstType", go! "VolatileType",
    go! "RestrictType", go! "MutableType", go! "SharedType", go! "PackedType", go! "Variable", go! "Typedef"]) s h

theorem catOf_mem {s : Str} (h : s ∈ aliasTags) {c : GoDedup.Spec.Cat} (hc : catOf s = some c) : c ∈ aliasTags.filterMap catOf :=
  List.mem_filterMap.mpr ⟨s, h, hc⟩

theorem alias_size {r : Entry.Ref} {e : Option Entry.Ref} (h : Entry.Spec.Alias rt r e) :
    Entry.byteSize rt (some r) true = Entry.byteSize rt e true := by
  show Entry.byteSizeLoop rt (some r) 1 = Entry.byteSizeLoop rt e 1
  rw [Entry.byteSizeLoop.eq_def rt (some r)]
  cases h with
  | typedef h | var h | member h | qual h | param h => simp only [h]

theorem no_pointer : GoDedup.Spec.Cat.pointer ∉ aliasTags.filterMap catOf := by decide
theorem no_reference (k : Bool) : GoDedup.Spec.Cat.reference k ∉ aliasTags.filterMap catOf := by cases k <;> decide

/-! ### Base types -/

theorem Run.base (h : Run units snake w st st0 order x db defs addr rt) {q : List Off} {d : Tree} (hp : Placed [] (units.map Prod.snd) q d)
    (ht : d.tag = go! "BaseType") (hd : declared d = false) :
    ∃ o hh e, o ∈ st.added ∧ link snake w st d.off = idOf snake w st.added o ∧ w.obj o = .base hh e ∧ hh.byteSize = num d (go! "ByteSize") ∧
      e = ((num d (go! "Encoding")).bind fun v => GoBuild.Spec.encodings.lookup v).getD [] := by
  obtain ⟨t, o, h1, h2, h3, h4, h5, -⟩ := h.defined hp fun _ => hd
  have hcat : cat (w.obj t) = .base := by
    have := describes_cat h2
    rw [ht] at this
    exact (Option.some.inj this).symm
  generalize hot : w.obj t = y at h2 hcat
  cases h2 with
  | @base n n' hh g1 g2 g3 g4 =>
    rcases h5 with rfl | ⟨h5, -⟩
    · exact ⟨t, _, _, h3, h4, hot, g4.size, rfl⟩
    · rw [hot] at h5
      generalize hoo : w.obj o = y at h5
      cases h5 with
      | base a1 => exact ⟨o, _, _, h3, h4, hoo, by rw [← a1]; exact g4.size, rfl⟩
  | _ => cases hcat

theorem encoding_code (code : Nat) (h : ((some (code : Int)).bind fun v => GoBuild.Spec.encodings.lookup v).getD [] ∈ Emit.Spec.encodings.map (·.1)) :
    (Emit.Spec.encodingCode (((some (code : Int)).bind fun v => GoBuild.Spec.encodings.lookup v).getD [])).toNat = code + 1 := by
  by_cases hc : code < 256
  · have : ∀ c ∈ List.range 256, ((some (c : Int)).bind fun v => GoBuild.Spec.encodings.lookup v).getD [] ∈ Emit.Spec.encodings.map (·.1) →
      (Emit.Spec.encodingCode (((some (c : Int)).bind fun v => GoBuild.Spec.encodings.lookup v).getD [])).toNat = c + 1 := by decide +kernel
    exact this code (List.mem_range.mpr hc) h
  · exfalso
    have hn : GoBuild.Spec.encodings.lookup (code : Int) = none := by
      rw [List.lookup_eq_none_iff]
      intro p hp
      have : p.1 < 256 := (by decide : ∀ p ∈ GoBuild.Spec.encodings, p.1 < 256) p hp
      exact bne_iff_ne.mpr (fun hc => by have : (code : Int) = p.1 := hc; omega)
    rw [Option.bind_some, hn] at h
    exact absurd h (by decide)

/-! ### Functions -/

structure ParamFor (w : World) (st0 : St) (named : Prop) (k : Tree) (p : GoDedup.Param) : Prop where
  rest : p.unspecified = isTag [go! "UnspecifiedParameters"] k
  type : isTag [go! "UnspecifiedParameters"] k = false → ref k (go! "Type") = p.type ∨ Links st0.ptr (Alike w.obj st0.ptr) (ref k (go! "Type")) p.type
  name : named → p.name = text k (go! "Name")

theorem Run.func (h : Run units snake w st st0 order x db defs addr rt) {q : List Off} {d : Tree} (hp : Placed [] (units.map Prod.snd) q d)
    (ht : d.tag ∈ funcTags) (hd : d.tag = go! "SubroutineType" → declared d = false) :
    ∃ o t ps, o ∈ st.added ∧ link snake w st d.off = idOf snake w st.added o ∧
      ((∃ hh hs, view snake w st x o = .subprogram hh (typeLink snake w st t) (ps.map (param snake w st)) hs) ∨
        ∃ hh, view snake w st x o = .subroutine hh (typeLink snake w st t) (ps.map (param snake w st))) ∧
      (ref d (go! "Type") = t ∨ Links st0.ptr (Alike w.obj st0.ptr) (ref d (go! "Type")) t) ∧ (∀ y ∈ t, y ∈ links (w.obj o)) ∧
      (∀ y ∈ ps.filterMap GoDedup.Param.type, y ∈ links (w.obj o)) ∧
      GoDedup.Spec.Each (ParamFor w st0 (d.tag = go! "Subprogram")) (d.kids.filter (isTag paramTags)) ps := by
  obtain ⟨t, o, h1, h2, h3, h4, h5, hother⟩ := h.defined hp (by
    intro hx
    rcases List.mem_cons.mp ht with g | g
    · exact hd g
    · rw [List.mem_singleton.mp g] at hx; exact absurd hx (by decide))
  have own : ∀ (P : Prop) (k : Tree) (p p' : GoDedup.Param), GoBuild.Spec.ParamOf k p → p = p' → ParamFor w st0 P k p' := by
    rintro P k p _ hk rfl
    exact ⟨hk.rest, fun _ => .inl hk.type.symm, fun _ => hk.name⟩
  rcases List.mem_cons.mp ht with g | g
  · have hcat : cat (w.obj t) = .subroutine := by
      have := describes_cat h2
      rw [g] at this
      exact (Option.some.inj this).symm
    have hno : d.tag ≠ go! "Subprogram" := by rw [g]; decide
    generalize hot : w.obj t = y at h2 hcat
    cases h2 with
    | @subroutine hh ps g1 g2 g3 =>
      rcases h5 with rfl | ⟨h5, -⟩
      · refine ⟨t, _, ps, h3, h4, .inr ⟨_, by unfold view; rw [hot]⟩, .inl rfl, ?_, ?_, each_comp (own _) g3 (each_refl _ fun _ _ => rfl)⟩
        · intro y hy; rw [hot]; simp only [links, List.mem_append]; exact .inr (by simpa using hy)
        · intro y hy; rw [hot]; exact List.mem_append_left _ hy
      · rw [hot] at h5
        generalize hoo : w.obj o = y at h5
        cases h5 with
        | @subroutine _ h' _ ps' _ r' a1 a2 =>
          refine ⟨o, r', ps', h3, h4, .inr ⟨_, by unfold view; rw [hoo]⟩, .inr a2, ?_, ?_, each_comp (S := GoDedup.Spec.Params st0.ptr (Alike w.obj st0.ptr)) ?_ g3 a1⟩
          · intro y hy; rw [hoo]; simp only [links, List.mem_append]; exact .inr (by simpa using hy)
          · intro y hy; rw [hoo]; exact List.mem_append_left _ hy
          · intro k p p' hk hp'
            cases hp' with
            | rest r1 r2 => exact ⟨by rw [r2, ← r1, hk.rest], (fun hc => by rw [← hk.rest, r1] at hc; cases hc), fun hs => absurd hs hno⟩
            | typed r1 r2 r3 => exact ⟨by rw [r2, ← r1, hk.rest], fun _ => .inr (hk.type ▸ r3), fun hs => absurd hs hno⟩
    | _ => cases hcat
  · have g := List.mem_singleton.mp g
    have hcat : cat (w.obj t) = .subprogram := by
      have := describes_cat h2
      rw [g] at this
      exact (Option.some.inj this).symm
    have hto : t = o := by
      rcases h5 with h5 | ⟨-, f, f1, f2⟩
      · exact h5
      · exact hother (by rw [g]; decide)
    subst hto
    generalize hot : w.obj t = y at h2 hcat
    cases h2 with
    | @subprogram hh ps g1 g2 g3 =>
      refine ⟨t, _, ps, h3, h4, .inl ⟨_, _, by unfold view; rw [hot]⟩, .inl rfl, ?_, ?_, each_comp (own _) g3 (each_refl _ fun _ _ => rfl)⟩
      · intro y hy; rw [hot]; simp only [links, List.mem_append]; exact .inl (.inr (by simpa using hy))
      · intro y hy; rw [hot]; exact List.mem_append_left _ (List.mem_append_left _ hy)
    | _ => cases hcat

theorem func_at (hi : Input units) {q : List Off} {d : Tree} (hp : Placed [] (units.map Prod.snd) q d) (ht : d.tag ∈ funcTags) : ∀ y ∈ ref d (go! "Type"), Ty units y := by
  have hne : d.tag ≠ go! "CompileUnit" := by intro h; rw [h] at ht; exact absurd ht (by decide)
  exact fun y hy => at_link (complete_link (complete hi hp hne) ((by decide : ∀ s ∈ funcTags, s ∈ linkTags) _ ht)) hy

theorem param_at (hi : Input units) {q : List Off} {d : Tree} (hp : Placed [] (units.map Prod.snd) q d) (ht : d.tag ∈ funcTags) {k : Tree}
    (hk : k ∈ d.kids.filter (isTag paramTags)) : ∀ y ∈ ref k (go! "Type"), Ty units y := by
  have hne : d.tag ≠ go! "CompileUnit" := by intro h; rw [h] at ht; exact absurd ht (by decide)
  rw [List.mem_filter] at hk
  exact fun y hy => at_link (complete_params (complete hi hp hne) ht k hk.1 hk.2) hy

/-! ### Arrays -/

theorem dims_head {ptr : Off → Option Nat} {obj : Nat → Desc} {parents : Nat → List Off} {elem : Option Off} {h : GoDedup.Head} {s : Option Int} {o par : Off} {ks : List Tree}
    (hd : Dims ptr obj parents elem h s o par ks) : ∃ n lo c lv e, ptr o = some n ∧ obj n = .array h s lo c lv e := by
  cases hd <;> exact ⟨_, _, _, _, _, by assumption, by assumption⟩

theorem dim_eq {k : Tree} {c c' : Int} (h : Dim k c) (h' : Dim k c') : c = c' := by
  cases h with
  | count h => cases h' with | count h' => rw [h] at h'; cases h'; rfl | bounds h' | unknown h' => rw [h] at h'; cases h'
  | bounds h1 h2 =>
    cases h' with
    | count h' => rw [h1] at h'; cases h'
    | bounds _ h' => rw [h2] at h'; cases h'; rfl
    | unknown _ h' => rw [h2] at h'; cases h'
  | unknown h1 h2 =>
    cases h' with
    | count h' => rw [h1] at h'; cases h'
    | bounds _ h' => rw [h2] at h'; cases h'
    | unknown => rfl

theorem alike_unnamed {obj : Nat → Desc} {ptr : Off → Option Nat} {a b : Nat} (h : Alike obj ptr a b) (hn : GoDedup.Spec.name (obj a) = none) :
    Agree ptr (Alike obj ptr) (obj a) (obj b) := by
  cases GoDedup.Alike.known h with
  | named _ h1 => rw [hn] at h1; cases h1
  | unnamed _ _ h => exact h

theorem for_alike {l : Off} {t o : Nat} (h : For w st0 l t o) : t = o ∨ Alike w.obj st0.ptr t o := by
  rcases h with rfl | ⟨-, f, -, -, -, h⟩
  · exact .inl rfl
  · exact .inr (by cases h <;> assumption)

/-- An array object that stands for `t`. -/
theorem Run.array (h : Run units snake w st st0 order x db defs addr rt) {elem : Option Off} (hat : ∀ y ∈ elem, Ty units y) {hh : GoDedup.Head} {s : Option Int} {l p : Off} {ks : List Tree}
    (hd : Dims st0.ptr w.obj st0.parents elem hh s l p ks) : ∀ {t o : Nat}, st0.ptr l = some t → o ∈ st.added →
      (t = o ∨ Agree st0.ptr (Alike w.obj st0.ptr) (w.obj t) (w.obj o)) → ArrayAt units (fun l => addr (link snake w st l)) rt elem (addr (idOf snake w st.added o)) ks := by
  have main : ∀ {t o : Nat} {hh s lo c lv e}, o ∈ st.added → w.obj t = .array hh s lo c lv e → (t = o ∨ Agree st0.ptr (Alike w.obj st0.ptr) (w.obj t) (w.obj o)) →
      ∃ e', (∀ y ∈ e', y ∈ links (w.obj o)) ∧ (e = e' ∨ Links st0.ptr (Alike w.obj st0.ptr) e e') ∧ Entry.kind rt (some (addr (idOf snake w st.added o))) = 5 ∧
        (-2 ^ 31 ≤ c → c < 2 ^ 31 → Entry.elementCount rt (some (addr (idOf snake w st.added o))) = some c) ∧
        Entry.elementEntry rt (some (addr (idOf snake w st.added o))) = some ((Emit.Spec.target (typeLink snake w st e')).map addr) := by
    intro t o hh s lo c lv e ho ht hto
    obtain ⟨hh', e', he, hl⟩ : ∃ hh' e', w.obj o = .array hh' s lo c lv e' ∧ (e = e' ∨ Links st0.ptr (Alike w.obj st0.ptr) e e') := by
      rcases hto with rfl | hto
      · exact ⟨hh, e, ht, .inl rfl⟩
      · rw [ht] at hto
        generalize hoo : w.obj o = y at hto
        cases hto with
        | array a => exact ⟨_, _, rfl, .inr a⟩
    have hview : view snake w st x o = .array (head snake w st o hh') c lv lo s (typeLink snake w st e') := by unfold view; rw [he]
    have hlead := h.leads ho hview (by simp) (by simp) (by simp)
    obtain ⟨k1, k2⟩ := (Emit.C78_links_partial h.p.ids h.p.good h.p.compiled h.p.loaded _).2 _ _ _ _ _ _ hlead
    refine ⟨e', ?_, hl, ?_, k2, k1⟩
    · intro y hy; rw [he]; simpa [links] using hy
    · have := (Emit.C78_kind_partial h.p.ids h.p.good h.p.compiled h.p.loaded _ (h.mem ho)).1
      rw [view_id, hview] at this
      exact this
  induction hd with
  | none g1 g2 =>
    intro t o h1 h2 h3
    rw [g1] at h1; cases h1
    obtain ⟨e', m1, m2, m3, m4, m5⟩ := main h2 g2 h3
    exact .none m3 (m4 (by decide) (by decide)) m5 (h.answer h2 m1 hat m2)
  | last g1 g2 g3 =>
    intro t o h1 h2 h3
    rw [g1] at h1; cases h1
    obtain ⟨e', m1, m2, m3, m4, m5⟩ := main h2 g2 h3
    exact .last m3 (fun c hc => by rw [dim_eq hc g3]; exact m4) m5 (h.answer h2 m1 hat m2)
  | @cons hh s l p k k' ks n c g1 g2 g3 g4 g5 ih =>
    intro t o h1 h2 h3
    rw [g1] at h1; cases h1
    obtain ⟨e', m1, m2, m3, m4, m5⟩ := main h2 g2 h3
    obtain ⟨b, lo', c', lv', e'', b1, b2⟩ := dims_head g5
    obtain ⟨b', o', y', n1, n2, n3, n4, n5, n6⟩ : ∃ b' o' y', e' = some y' ∧ st0.ptr y' = some b' ∧ o' ∈ st.added ∧ st.ptr y' = some o' ∧ For w st0 y' b' o' ∧
        (b = b' ∨ Alike w.obj st0.ptr b b') := by
      cases e' with
      | none => rcases m2 with m2 | m2 <;> cases m2
      | some y' =>
        obtain ⟨b', o', x1, x2, x3, x4, -⟩ := h.core.link h.p.input h2 (m1 y' rfl)
        refine ⟨b', o', y', rfl, x1, x2, x3, x4, ?_⟩
        rcases m2 with m2 | m2
        · cases m2; rw [b1] at x1; cases x1; exact .inl rfl
        · cases m2 with
          | some z1 z2 z3 =>
            rw [b1] at z1; cases z1
            rw [x1] at z2; cases z2
            exact .inr z3
    subst n1
    have key := ih b1 n3 ?_
    · have m5' : Entry.elementEntry rt (some (addr (idOf snake w st.added o))) = some (some (addr (idOf snake w st.added o'))) := by
        rw [m5]
        show some ((Emit.Spec.target (link snake w st y')).map addr) = _
        rw [link_ptr n4, h.target n3]
        rfl
      exact .cons m3 (fun c hc => by rw [dim_eq hc g3]; exact m4) m5' key
    · have hb : GoDedup.Spec.name (w.obj b) = none := by rw [b2]; rfl
      have hal : b = o' ∨ Alike w.obj st0.ptr b o' := by
        rcases n6 with rfl | n6
        · exact for_alike n5
        · rcases for_alike n5 with rfl | n5
          · exact .inr n6
          · exact .inr (alike_trans n6 n5)
      exact hal.imp id fun hal => alike_unnamed hal hb

end Verif.Chain
