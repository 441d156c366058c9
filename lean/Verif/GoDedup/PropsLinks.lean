import Verif.GoDedup.PropsSame
import Verif.GoMeta.Props
/-
C63, C64: links of the finished database; dependence on the order of the visits.
-/
namespace Verif.GoDedup
open Spec
open GoMeta (Str)

/-- The database the objects were added to. -/
def itemsOf (snake : Str → Str) (w : World) (added : List Nat) : List ((GoMeta.Kind × Str) × GoMeta.Obj) :=
  (GoMeta.addAll snake GoMeta.Db.empty (added.map fun o => ⟨kindOf (w.obj o), nameOf (w.obj o)⟩)).2.items

theorem lookup_mem {α β : Type} [BEq α] [LawfulBEq α] : ∀ {l : List (α × β)} {a : α} {b : β}, (l.map Prod.fst).Nodup → (a, b) ∈ l → l.lookup a = some b
  | [], _, _, _, h => by cases h
  | (a', b') :: l, a, b, hn, h => by
    rw [List.map_cons, List.nodup_cons] at hn
    rcases List.mem_cons.mp h with h | hm
    · cases h
      simp
    · have hne : a ≠ a' := by rintro rfl; exact hn.1 (List.mem_map.mpr ⟨_, hm, rfl⟩)
      rw [List.lookup_cons]
      simp only [beq_eq_false_iff_ne.mpr hne]
      exact lookup_mem hn.2 hm

theorem idOf_found (snake : Str → Str) (w : World) {added : List Nat} (hn : added.Nodup) {o : Nat} (ho : o ∈ added) :
    ((kindOf (w.obj o), idOf snake w added o), (⟨kindOf (w.obj o), nameOf (w.obj o)⟩ : GoMeta.Obj)) ∈ itemsOf snake w added ∧
      ∀ k x, ((k, idOf snake w added o), x) ∈ itemsOf snake w added → k = kindOf (w.obj o) ∧ x = ⟨kindOf (w.obj o), nameOf (w.obj o)⟩ := by
  obtain ⟨i, hi⟩ := List.getElem?_of_mem ho
  obtain ⟨hlen, -⟩ := GoMeta.C46_unique snake (added.map fun o => ⟨kindOf (w.obj o), nameOf (w.obj o)⟩)
  have hlt : i < (idsOf snake w added).length := by
    show i < (GoMeta.addAll snake GoMeta.Db.empty _).1.length
    rw [hlen, List.length_map]
    exact (List.getElem?_eq_some_iff.mp hi).1
  have hid : (idsOf snake w added)[i]? = some (idsOf snake w added)[i] := List.getElem?_eq_getElem hlt
  have e : idOf snake w added o = (idsOf snake w added)[i] := by
    have hl2 : (idsOf snake w added).length = added.length := by
      show (GoMeta.addAll snake GoMeta.Db.empty _).1.length = _
      rw [hlen, List.length_map]
    unfold idOf
    rw [lookup_mem (b := (idsOf snake w added)[i])]
    · rfl
    · rw [List.map_reverse, List.map_fst_zip (by omega)]
      exact List.pairwise_reverse.mpr (hn.imp fun h => Ne.symm h)
    · rw [List.mem_reverse]
      refine List.mem_of_getElem? (i := i) ?_
      rw [List.getElem?_zip_eq_some]
      exact ⟨hi, hid⟩
  rw [e]
  exact GoMeta.C46_found snake _ i ⟨kindOf (w.obj o), nameOf (w.obj o)⟩ _ (by rw [List.getElem?_map, hi]; rfl) hid

theorem kindOf_stored (d : Desc) : kindOf d = stored (cat d) := by
  cases d with
  | struct h a fs hs => cases a <;> rfl
  | _ => rfl

theorem nameOf_name {d : Desc} (h : (cat d).type = true) : nameOf d = name d := by
  cases d <;> first | rfl | cases h

/-- What an entry ends with. -/
theorem ends {w : World} {st0 st : St} {order : List Off} (hs : Start w st0) (hv : Visits st0 order) (h : dedup w order st0 = Go.ret st)
    {l t : Nat} (ht : st0.ptr l = some t) (hp : ∀ p, parent w l = some p → st.dup p = true → False) :
    ∃ o' ∈ st.added, st.ptr l = some o' ∧ kindOf (w.obj o') = kindOf (w.obj t) ∧ nameOf (w.obj o') = nameOf (w.obj t) := by
  have inv := inv_final hs hv h
  have mem : ∀ {x o}, st0.ptr x = some o → x ∈ order.reverse := fun hx => by rw [List.mem_reverse]; exact hv.all _ (by rw [hx]; simp)
  cases htl : isTypeTag (w.tag l) with
  | false =>
    refine ⟨t, inv.base t ((hs.others l t ht).mpr htl), ?_, rfl, rfl⟩
    rw [(inv.pending l (.inr (.inl htl))).1, ht]
  | true =>
    cases inv.fate l (mem ht) t htl ht with
    | rep h1 h2 h3 h4 h5 => exact ⟨t, h3, h1, rfl, rfl⟩
    | @merged k f fo h1 h2 h3 h4 h5 h6 h7 =>
      obtain ⟨-, e0, fo', e1, e2, -, e3, e4⟩ := inv.found k f h4
      rw [h6] at e1; cases e1
      have := (C61_merged w st0 st order hs hv h f l fo t e0 htl h6 ht h5 (by rw [e2, h7])).2
      have hal : Alike w.obj st0.ptr fo t := by
        cases this with
        | declaration _ h => exact h
        | definition _ h _ => exact h
      have tt : isType (w.obj t) = true := by rw [hs.type l t ht]; exact htl
      have hc : cat (w.obj fo) = cat (w.obj t) ∧ name (w.obj fo) = name (w.obj t) := by
        cases Alike.known hal with
        | named g1 g2 g3 => exact ⟨g1, by rw [g2, g3]⟩
        | unnamed g1 g2 g3 => exact ⟨g3.cat, by rw [g1, g2]⟩
      refine ⟨fo, e3, h7, ?_, ?_⟩
      · have := hc.1
        revert this tt
        generalize w.obj fo = d
        generalize w.obj t = d'
        intro tt hc
        cases d <;> cases d' <;> first | rfl | (cases hc; done) | skip
        rename_i a _ _ _ a' _ _
        simp only [cat, Cat.aggregate.injEq] at hc
        subst hc
        cases a <;> rfl
      · have := hc.2
        revert this tt
        have tf : isType (w.obj fo) = true := by rw [hs.type f fo h6]; exact e0
        revert tf
        generalize w.obj fo = d
        generalize w.obj t = d'
        intro tf tt hc
        cases d <;> first | (cases tf; done) | skip
        all_goals cases d' <;> first | (cases tt; done) | exact hc
    | @dropped p h1 h2 h3 h4 h5 => exact (hp p h4 h5).elim

/-! ### C63: links lead to objects of the database -/

/-- A type within a type is referred to only by the type around it. -/
def NestedLocal (w : World) (st : St) : Prop :=
  ∀ i o l p, st.ptr i = some o → l ∈ links (w.obj o) → isTypeTag (w.tag l) = true → parent w l = some p → isTypeTag (w.tag p) = true → i = p

/-- Where types within types are referred to only by the type around them, each link of an object
of the database ends with the kind and identifier of one object of the database, of the kind and name
of the object it was read with.  Without that condition it is false: `C63_false`. -/
theorem C63_links_partial (snake : Str → Str) (w : World) (st0 st : St) (order : List Off) (hs : Start w st0) (hv : Visits st0 order) (h : dedup w order st0 = Go.ret st)
    (hn : NestedLocal w st0)
    (o l t : Nat) (ho : o ∈ st.added) (hlo : l ∈ links (w.obj o)) (ht : st0.ptr l = some t) :
    ∃ id x, streamline snake w st l = (some x.kind, id) ∧ ((x.kind, id), x) ∈ itemsOf snake w st.added ∧
      (∀ k x', ((k, id), x') ∈ itemsOf snake w st.added → k = x.kind ∧ x' = x) ∧
      x.kind = stored (cat (w.obj t)) ∧ ((cat (w.obj t)).type = true → x.name = name (w.obj t)) := by
  have inv := inv_final hs hv h
  have key : ∃ o' ∈ st.added, st.ptr l = some o' ∧ kindOf (w.obj o') = kindOf (w.obj t) ∧ nameOf (w.obj o') = nameOf (w.obj t) := by
    cases htl : isTypeTag (w.tag l) with
    | false =>
      refine ⟨t, inv.base t ((hs.others l t ht).mpr htl), ?_, rfl, rfl⟩
      rw [(inv.pending l (.inr (.inl htl))).1, ht]
    | true =>
      refine ends hs hv h ht ?_
      intro p h4 h5
      have htp : isTypeTag (w.tag p) = true := by
        cases hp : isTypeTag (w.tag p) with
        | true => rfl
        | false => rw [(inv.pending p (.inr (.inl hp))).2] at h5; cases h5
      have hp0 : st0.ptr p ≠ none := by
        intro hp
        rw [(inv.pending p (.inr (.inr hp))).2] at h5; cases h5
      obtain ⟨i, hi, hd⟩ : ∃ i, st0.ptr i = some o ∧ st.dup i = false := by
        rcases inv.added o ho with h | ⟨i, _, _, h, h'⟩
        · obtain ⟨i, hi⟩ := hs.entry o h
          exact ⟨i, hi, (inv.pending i (.inr (.inl ((hs.others i o hi).mp h)))).2⟩
        · exact ⟨i, h, h'⟩
      have := hn i o l p hi hlo htl h4 htp
      subst this
      rw [hd] at h5
      cases h5
  obtain ⟨o', h1, h2, h3, h4⟩ := key
  obtain ⟨g1, g2⟩ := idOf_found snake w inv.once h1
  refine ⟨idOf snake w st.added o', ⟨kindOf (w.obj o'), nameOf (w.obj o')⟩, ?_, g1, g2, by rw [← kindOf_stored]; exact h3, fun ht => by rw [← nameOf_name ht]; exact h4⟩
  unfold streamline
  rw [h2]

def nestedB (rows : List Row) : Bool :=
  rows.all fun r => (links (r.desc.getD (.lexBlock []))).all fun l =>
    !isTypeTag ((world rows).tag l) || match parent (world rows) l with
      | none => true
      | some p => !isTypeTag ((world rows).tag p) || r.off == p

theorem nestedB_local {rows : List Row} (h : nestedB rows = true) : NestedLocal (world rows) (start rows) := by
  intro i o l p hi hl ht hp htp
  obtain ⟨rfl, r, d, hr1, hr2⟩ := start_ptr hi
  have hm := rowOf_some hr1
  have e : (world rows).obj o = (r.desc).getD (.lexBlock []) := by
    show ((rowOf rows o).bind Row.desc).getD (.lexBlock []) = _
    rw [hr1]; rfl
  rw [e] at hl
  have := List.all_eq_true.mp (List.all_eq_true.mp h r hm.1) l hl
  rw [ht, hp] at this
  simp only [htp, Bool.not_true, Bool.false_or, beq_iff_eq] at this
  rw [← this, hm.2]

/-- Two units with `struct O { struct I { int x; } i; }`. -/
def exInner : List Row := [
  ⟨0, none, [], false, none⟩,
  ⟨1, some 0, go! "CompileUnit", false, some (.compileUnit (go! "a.cc") [])⟩,
  ⟨2, some 1, go! "BaseType", false, some (.base { name := some (go! "int"), byteSize := some 4 } (go! "signed"))⟩,
  ⟨3, some 1, go! "StructType", false, some (.struct { name := some (go! "O"), byteSize := some 4 } .struct [{ name := some (go! "i"), type := some 4 }] [4])⟩,
  ⟨4, some 3, go! "StructType", false, some (.struct { name := some (go! "I"), byteSize := some 4 } .struct [{ name := some (go! "x"), type := some 2 }] [])⟩,
  ⟨11, some 0, go! "CompileUnit", false, some (.compileUnit (go! "b.cc") [])⟩,
  ⟨12, some 11, go! "BaseType", false, some (.base { name := some (go! "int"), byteSize := some 4 } (go! "signed"))⟩,
  ⟨13, some 11, go! "StructType", false, some (.struct { name := some (go! "O"), byteSize := some 4 } .struct [{ name := some (go! "i"), type := some 14 }] [14])⟩,
  ⟨14, some 13, go! "StructType", false, some (.struct { name := some (go! "I"), byteSize := some 4 } .struct [{ name := some (go! "x"), type := some 12 }] [])⟩]

/-- `I` of the first unit was merged with that of the second, then the second `O` with the first. -/
example : ∃ st, Start (world exInner) (start exInner) ∧ NestedLocal (world exInner) (start exInner) ∧ Visits (start exInner) [14, 4, 3, 13, 1, 2, 12, 11] ∧
    dedup (world exInner) [14, 4, 3, 13, 1, 2, 12, 11] (start exInner) = Go.ret st ∧ 3 ∈ st.added ∧ 4 ∈ links ((world exInner).obj 3) ∧ (start exInner).ptr 4 = some 4 ∧
    st.ptr 4 = some 14 ∧ st.ptr 13 = some 3 := by
  have hr : rowsB exInner = true := by decide +kernel
  obtain ⟨st, h1, h2⟩ := runs_dedup (rows := exInner) (order := [14, 4, 3, 13, 1, 2, 12, 11]) (n := 5)
    (p := fun st => decide (3 ∈ st.added ∧ st.ptr 4 = some 14 ∧ st.ptr 13 = some 3)) hr (by decide) (by decide +kernel)
  obtain ⟨e1, e2, e3⟩ := of_decide_eq_true h2
  exact ⟨st, start_start hr, nestedB_local (by decide +kernel), visits_start (by decide) (by decide), h1, e1, by decide, rfl, e2, e3⟩

/-- Two units with `struct O { struct I { int x; } i; }` and a pointer to `struct I`. -/
def exNested : List Row := [
  ⟨0, none, [], false, none⟩,
  ⟨1, some 0, go! "CompileUnit", false, some (.compileUnit (go! "a.cc") [])⟩,
  ⟨2, some 1, go! "BaseType", false, some (.base { name := some (go! "int"), byteSize := some 4 } (go! "signed"))⟩,
  ⟨3, some 1, go! "StructType", false, some (.struct { name := some (go! "O"), byteSize := some 4 } .struct [{ name := some (go! "i"), type := some 4 }] [4])⟩,
  ⟨4, some 3, go! "StructType", false, some (.struct { name := some (go! "I"), byteSize := some 4 } .struct [{ name := some (go! "x"), type := some 2 }] [])⟩,
  ⟨5, some 1, go! "PointerType", false, some (.pointer { name := none, byteSize := some 8 } (some 4))⟩,
  ⟨11, some 0, go! "CompileUnit", false, some (.compileUnit (go! "b.cc") [])⟩,
  ⟨12, some 11, go! "BaseType", false, some (.base { name := some (go! "int"), byteSize := some 4 } (go! "signed"))⟩,
  ⟨13, some 11, go! "StructType", false, some (.struct { name := some (go! "O"), byteSize := some 4 } .struct [{ name := some (go! "i"), type := some 14 }] [14])⟩,
  ⟨14, some 13, go! "StructType", false, some (.struct { name := some (go! "I"), byteSize := some 4 } .struct [{ name := some (go! "x"), type := some 12 }] [])⟩,
  ⟨15, some 11, go! "PointerType", false, some (.pointer { name := none, byteSize := some 8 } (some 14))⟩]

/-- FALSE of the code: a link of an object of the database can end with an empty identifier.  Go
visits the pointer of the second unit, then the two structures `O`, then the `I` of the second unit: it
is a duplicate like its parent, but the pointer keeps referring to it. -/
theorem C63_false : ∃ (w : World) (st0 st : St) (order : List Off), Start w st0 ∧ Visits st0 order ∧ dedup w order st0 = Go.ret st ∧
    ∃ o ∈ st.added, ∃ l ∈ links (w.obj o), ∃ t, st0.ptr l = some t ∧ ∀ snake, streamline snake w st l = (some .structType, []) ∧ ∀ k x, ((k, []), x) ∉ itemsOf snake w st.added := by
  have hr : rowsB exNested = true := by decide +kernel
  obtain ⟨st, h1, h2⟩ := runs_dedup (rows := exNested) (order := [15, 3, 13, 14, 4, 1, 2, 12, 11, 5]) (n := 5)
    (p := fun st => decide (st.ptr 14 = some 14 ∧ st.added = [1, 11, 15, 3, 4, 2])) hr (by decide) (by decide +kernel)
  obtain ⟨e1, e2⟩ := of_decide_eq_true h2
  refine ⟨_, _, st, _, start_start hr, visits_start (by decide) (by decide), h1, 15, by rw [e2]; decide, 14, by decide, 14, rfl, ?_⟩
  · intro snake
    constructor
    · unfold streamline
      rw [e1]
      have : idOf snake (world exNested) st.added 14 = [] := by
        unfold idOf
        rw [List.lookup_eq_none_iff.mpr]
        · rfl
        · intro p hp
          have := (List.of_mem_zip (List.mem_reverse.mp hp)).1
          rw [e2] at this
          revert this
          generalize p.1 = q
          simp only [List.mem_cons, List.not_mem_nil, or_false]
          intro h
          rcases h with h | h | h | h | h | h <;> subst h <;> rfl
      simp only [this]
      rfl
    · intro k x hx
      obtain ⟨-, -, -, -, h5, -, h7⟩ := GoMeta.addAll_spec snake (st.added.map fun o => ⟨kindOf ((world exNested).obj o), GoDedup.nameOf ((world exNested).obj o)⟩) GoMeta.Db.empty (by intro k id o h; cases h)
      by_cases hm : [] ∈ (GoMeta.addAll snake GoMeta.Db.empty (st.added.map fun o => ⟨kindOf ((world exNested).obj o), GoDedup.nameOf ((world exNested).obj o)⟩)).1
      · obtain ⟨s, n, e⟩ := h7 [] hm
        simp at e
      · have := h5 k [] x hx hm
        cases this

/-- Two units with `int m[2][3][4]`: the dimensions after the first are entries within the array. -/
def exDims : List Row := [
  ⟨0, none, [], false, none⟩,
  ⟨1, some 0, go! "CompileUnit", false, some (.compileUnit (go! "a.c") [])⟩,
  ⟨2, some 1, go! "BaseType", false, some (.base { name := some (go! "int"), byteSize := some 4 } (go! "signed"))⟩,
  ⟨3, some 1, go! "ArrayType", false, some (.array { name := none } none none 2 2 (some 5))⟩,
  ⟨5, some 3, go! "ArrayType", false, some (.array { name := none } none none 3 1 (some 6))⟩,
  ⟨6, some 3, go! "ArrayType", false, some (.array { name := none } none none 4 0 (some 2))⟩,
  ⟨11, some 0, go! "CompileUnit", false, some (.compileUnit (go! "b.c") [])⟩,
  ⟨12, some 11, go! "BaseType", false, some (.base { name := some (go! "int"), byteSize := some 4 } (go! "signed"))⟩,
  ⟨13, some 11, go! "ArrayType", false, some (.array { name := none } none none 2 2 (some 15))⟩,
  ⟨15, some 13, go! "ArrayType", false, some (.array { name := none } none none 3 1 (some 16))⟩,
  ⟨16, some 13, go! "ArrayType", false, some (.array { name := none } none none 4 0 (some 12))⟩]

/-- FALSE of the code, also without types within types: arrays of three dimensions in two units.  Go
visits the second dimension of the second unit, then the two arrays, then the third dimension of the
second unit: it is a duplicate like its array, but the second dimension keeps referring to it. -/
theorem C63_dims_false : ∃ (w : World) (st0 st : St) (order : List Off), Start w st0 ∧ Visits st0 order ∧ dedup w order st0 = Go.ret st ∧
    (∀ i p, isTypeTag (w.tag i) = true → parent w i = some p → isTypeTag (w.tag p) = true → w.tag p = go! "ArrayType") ∧
    ∃ o ∈ st.added, ∃ l ∈ links (w.obj o), ∃ t, st0.ptr l = some t ∧ ∀ snake, streamline snake w st l = (some .arrayType, []) ∧ ∀ k x, ((k, []), x) ∉ itemsOf snake w st.added := by
  have hr : rowsB exDims = true := by decide +kernel
  obtain ⟨st, h1, h2⟩ := runs_dedup (rows := exDims) (order := [15, 3, 13, 16, 5, 6, 1, 2, 12, 11]) (n := 7)
    (p := fun st => decide (st.ptr 16 = some 16 ∧ st.added = [1, 11, 15, 3, 6, 2])) hr (by decide) (by decide +kernel)
  obtain ⟨e1, e2⟩ := of_decide_eq_true h2
  refine ⟨_, _, st, _, start_start hr, visits_start (by decide) (by decide), h1, ?_, 15, by rw [e2]; decide, 16, by decide, 16, rfl, ?_⟩
  · intro i p ht hp
    have hm : i ∈ exDims.map Row.off := by
      simp only [world] at ht
      cases hr : rowOf exDims i with
      | none => rw [hr] at ht; cases ht
      | some r => exact List.mem_map.mpr ⟨r, rowOf_some hr⟩
    have : ∀ i ∈ exDims.map Row.off, ∀ p ∈ (parent (world exDims) i).toList, isTypeTag ((world exDims).tag p) = true → (world exDims).tag p = go! "ArrayType" := by decide +kernel
    exact this i hm p (by rw [hp]; simp)
  · intro snake
    constructor
    · unfold streamline
      rw [e1]
      have : idOf snake (world exDims) st.added 16 = [] := by
        unfold idOf
        rw [List.lookup_eq_none_iff.mpr]
        · rfl
        · intro p hp
          have := (List.of_mem_zip (List.mem_reverse.mp hp)).1
          rw [e2] at this
          revert this
          generalize p.1 = q
          simp only [List.mem_cons, List.not_mem_nil, or_false]
          intro h
          rcases h with h | h | h | h | h | h <;> subst h <;> rfl
      simp only [this]
      rfl
    · intro k x hx
      obtain ⟨-, -, -, -, h5, -, h7⟩ := GoMeta.addAll_spec snake (st.added.map fun o => ⟨kindOf ((world exDims).obj o), GoDedup.nameOf ((world exDims).obj o)⟩) GoMeta.Db.empty (by intro k id o h; cases h)
      by_cases hm : [] ∈ (GoMeta.addAll snake GoMeta.Db.empty (st.added.map fun o => ⟨kindOf ((world exDims).obj o), GoDedup.nameOf ((world exDims).obj o)⟩)).1
      · obtain ⟨s, n, e⟩ := h7 [] hm
        simp at e
      · have := h5 k [] x hx hm
        cases this

/-! ### C64: the order of the visits -/

/-- No type is within a type. -/
def Flat (w : World) : Prop := ∀ i p, isTypeTag (w.tag i) = true → parent w i = some p → isTypeTag (w.tag p) = false

theorem flat_dup {w : World} {st0 st : St} {done : List Off} (hf : Flat w) (inv : Inv w st0 done st) {i p : Off} (ht : isTypeTag (w.tag i) = true) (hp : parent w i = some p) :
    st.dup p = false := (inv.pending p (.inr (.inl (hf i p ht hp)))).2

/-- A step goes well. -/
structure Goes (w : World) (st0 : St) (i : Off) (o : Nat) : Prop where
  place : ∃ p, w.entries i = some (some p) ∧ w.entries p ≠ none
  sigs : ∃ k, Sigs w st0 o (w.decl i) k

theorem Sigs.of_start {w : World} {st0 st : St} (hk : Kept w.obj st0.ptr st.ptr) {o : Nat} (ho : isType (w.obj o) = true) {d : Bool} {k : Key'} (h : Sigs w st0 o d k) :
    Sigs w st o d k := by
  cases h with
  | decl h => exact .decl ((sig_kept hk _ o false _ rfl (.inr rfl)).mpr h)
  | defn h h' => exact .defn ((sig_kept hk _ o false _ rfl (.inr rfl)).mpr h) ((sig_kept hk _ o true _ rfl (.inl ho)).mpr h')

theorem goes_of_step {w : World} {st0 st st' : St} {done : List Off} {i : Off} (hs : Start w st0) (hf : Flat w) (inv : Inv w st0 done st) (hn : i ∉ done)
    (h : stepWith (sig w.obj) w i st = Go.ret st') {o : Nat} (ho : st0.ptr i = some o) (ht : isTypeTag (w.tag i) = true) : Goes w st0 i o := by
  have hp := (inv.pending i (.inl hn)).1
  rw [ho] at hp
  have ty : isType (w.obj o) = true := by rw [hs.type i o ho]; exact ht
  have hstep := step_ret h
  constructor
  · unfold stepWith at h
    rw [hp] at h
    simp only [ht] at h
    split at h
    · rename_i hx; cases hx
    · split at h
      · rename_i p he
        refine ⟨p, he, ?_⟩
        intro hn
        rw [hn] at h
        exact absurd h Go.fail_ne
      · exact absurd h Go.panic_ne
  · rcases hstep with ⟨-, h | h⟩ | ⟨o', p, h1, h2, h3, h4⟩
    · rw [hp] at h; cases h
    · rw [ht] at h; cases h
    · rw [hp] at h1; cases h1
      rcases h4 with ⟨h4, -⟩ | ⟨-, k, h4, -⟩
      · rw [flat_dup hf inv ht h3] at h4; cases h4
      · exact ⟨k, h4.start inv.kept ty⟩

theorem step_of_goes {w : World} {st0 st : St} {done : List Off} {i : Off} (hs : Start w st0) (hf : Flat w) (inv : Inv w st0 done st) (hn : i ∉ done)
    (hg : ∀ o, st0.ptr i = some o → isTypeTag (w.tag i) = true → Goes w st0 i o) : ∃ st', stepWith (sig w.obj) w i st = Go.ret st' := by
  have hp := (inv.pending i (.inl hn)).1
  unfold stepWith
  rw [hp]
  cases ho : st0.ptr i with
  | none => exact ⟨_, rfl⟩
  | some o =>
    cases ht : isTypeTag (w.tag i) with
    | false => exact ⟨_, rfl⟩
    | true =>
      have ty : isType (w.obj o) = true := by rw [hs.type i o ho]; exact ht
      obtain ⟨⟨p, e1, e2⟩, k, hk⟩ := hg o ho ht
      have hpar : parent w i = some p := by simp [parent, e1]
      have hk' := hk.of_start inv.kept ty
      have hmerge : ∀ f, lookupKey st k = some f → ∃ st', merge w i o f st = Go.ret st' := by
        intro f hf
        obtain ⟨-, ht', fo, g1, g2, -, -, -⟩ := inv.found k f hf
        unfold merge
        rw [g2]
        have : isType (w.obj fo) = true := by rw [hs.type f fo g1]; exact ht'
        simp only [ty, this, Bool.and_self, if_true]
        exact ⟨_, rfl⟩
      simp only [e1]
      cases e3 : w.entries p with
      | none => exact absurd e3 e2
      | some q =>
        simp only [flat_dup hf inv ht hpar, Bool.true_eq_false, if_false, Bool.false_eq_true]
        generalize hd : w.decl i = d at hk'
        cases hk' with
        | @decl hs1 g =>
          rw [g]
          cases hl : lookupKey st (.inl _) with
          | some f =>
            obtain ⟨st', h⟩ := hmerge f hl
            refine ⟨st', Go.bind_ret.mpr ⟨_, rfl, ?_⟩⟩
            simp only [lookupKey] at hl
            simp only [if_true, hl]
            exact h
          | none =>
            refine ⟨{ st with heads := (hs1, i) :: st.heads, added := st.added ++ [o] }, Go.bind_ret.mpr ⟨_, rfl, ?_⟩⟩
            simp only [lookupKey] at hl
            simp only [if_true, hl]
        | @defn hs1 cs1 g g' =>
          rw [g]
          cases hl : lookupKey st (.inr _) with
          | some f =>
            obtain ⟨st', h⟩ := hmerge f hl
            refine ⟨st', Go.bind_ret.mpr ⟨_, rfl, ?_⟩⟩
            simp only [lookupKey] at hl
            simp only [Bool.false_eq_true, if_false]
            refine Go.bind_ret.mpr ⟨_, g', ?_⟩
            simp only [hl]
            exact h
          | none =>
            refine ⟨{ st with sigs := ((hs1, cs1), i) :: st.sigs, added := st.added ++ [o] }, Go.bind_ret.mpr ⟨_, rfl, ?_⟩⟩
            simp only [lookupKey] at hl
            simp only [Bool.false_eq_true, if_false]
            refine Go.bind_ret.mpr ⟨_, g', ?_⟩
            simp only [hl]

theorem goes_of_dedup {w : World} {st0 : St} (hs : Start w st0) (hf : Flat w) : ∀ (order done : List Off) (st st' : St), Inv w st0 done st → order.Nodup → (∀ i ∈ order, i ∉ done) →
    dedup w order st = Go.ret st' → ∀ i ∈ order, ∀ o, st0.ptr i = some o → isTypeTag (w.tag i) = true → Goes w st0 i o
  | [], _, _, _, _, _, _, _ => by simp
  | i :: is, done, st, st', hi, hnd, hdis, h => by
    obtain ⟨st1, h1, h2⟩ := Go.bind_ret.mp h
    have hid := hdis i (List.mem_cons_self ..)
    have := goes_of_dedup hs hf is (i :: done) st1 st' (inv_step hs hi hid h1) (List.nodup_cons.mp hnd).2 (by
      intro j hj hm
      rcases List.mem_cons.mp hm with rfl | hm
      · exact (List.nodup_cons.mp hnd).1 hj
      · exact hdis j (List.mem_cons_of_mem _ hj) hm) h2
    intro j hj o ho ht
    rcases List.mem_cons.mp hj with rfl | hj
    · exact goes_of_step hs hf hi hid h1 ho ht
    · exact this j hj o ho ht

theorem dedup_of_goes {w : World} {st0 : St} (hs : Start w st0) (hf : Flat w) (hg : ∀ i o, st0.ptr i = some o → isTypeTag (w.tag i) = true → Goes w st0 i o) :
    ∀ (order done : List Off) (st : St), Inv w st0 done st → order.Nodup → (∀ i ∈ order, i ∉ done) → ∃ st', dedup w order st = Go.ret st'
  | [], _, _, _, _, _ => ⟨_, rfl⟩
  | i :: is, done, st, hi, hnd, hdis => by
    have hid := hdis i (List.mem_cons_self ..)
    obtain ⟨st1, h1⟩ := step_of_goes hs hf hi hid (hg i)
    obtain ⟨st', h2⟩ := dedup_of_goes hs hf hg is (i :: done) st1 (inv_step hs hi hid h1) (List.nodup_cons.mp hnd).2 (by
      intro j hj hm
      rcases List.mem_cons.mp hm with rfl | hm
      · exact (List.nodup_cons.mp hnd).1 hj
      · exact hdis j (List.mem_cons_of_mem _ hj) hm)
    exact ⟨st', Go.bind_ret.mpr ⟨_, h1, h2⟩⟩

theorem perm_of_mem {l : List Nat} : ∀ {l' : List Nat}, l.Nodup → l'.Nodup → (∀ x, x ∈ l ↔ x ∈ l') → l.Perm l' := by
  induction l with
  | nil =>
    intro l' _ _ h
    cases l' with
    | nil => exact .nil
    | cons a l' => exact absurd ((h a).mpr (List.mem_cons_self ..)) (by simp)
  | cons a l ih =>
    intro l' h1 h2 h
    have ha : a ∈ l' := (h a).mp (List.mem_cons_self ..)
    have := List.perm_cons_erase ha
    refine .trans (.cons a (ih (List.nodup_cons.mp h1).2 (h2.erase a) ?_)) this.symm
    intro x
    rw [h2.mem_erase_iff, ← h x, List.mem_cons]
    constructor
    · intro hx
      exact ⟨fun e => (List.nodup_cons.mp h1).1 (e ▸ hx), .inr hx⟩
    · rintro ⟨e, rfl | hx⟩
      · exact absurd rfl e
      · exact hx

theorem alike_kept {w : World} {st0 st1 st2 : St} {o1 o2 : List Off} (hs : Start w st0) (hf : Flat w) (hv1 : Visits st0 o1) (hv2 : Visits st0 o2)
    (h1 : dedup w o1 st0 = Go.ret st1) (h2 : dedup w o2 st0 = Go.ret st2) {i j a b : Nat} (hti : isTypeTag (w.tag i) = true) (htj : isTypeTag (w.tag j) = true)
    (hi : st0.ptr i = some a) (hj : st0.ptr j = some b) (he : st1.ptr i = st1.ptr j) : st2.ptr i = st2.ptr j := by
  by_cases hij : i = j
  · rw [hij]
  · obtain ⟨e1, e2⟩ := C61_merged w st0 st1 o1 hs hv1 h1 i j a b hti htj hi hj hij he
    have inv := inv_final hs hv2 h2
    exact (C61_found w st0 st2 o2 hs hv2 h2 i j a b hti htj hi hj (fun p hp => flat_dup hf inv hti hp) (fun p hp => flat_dup hf inv htj hp) e1 e2).1

theorem ends_flat {w : World} {st0 st : St} {order : List Off} (hs : Start w st0) (hf : Flat w) (hv : Visits st0 order) (h : dedup w order st0 = Go.ret st)
    {l t : Nat} (ht : st0.ptr l = some t) :
    ∃ o' ∈ st.added, st.ptr l = some o' ∧ kindOf (w.obj o') = kindOf (w.obj t) ∧ nameOf (w.obj o') = nameOf (w.obj t) := by
  have inv := inv_final hs hv h
  cases htl : isTypeTag (w.tag l) with
  | false =>
    refine ⟨t, inv.base t ((hs.others l t ht).mpr htl), ?_, rfl, rfl⟩
    rw [(inv.pending l (.inr (.inl htl))).1, ht]
  | true => exact ends hs hv h ht fun p hp hd => by rw [flat_dup hf inv htl hp] at hd; cases hd

/-- The entry an object of the database comes from still has it. -/
theorem home {w : World} {st0 st : St} {order : List Off} (hs : Start w st0) (hv : Visits st0 order) (h : dedup w order st0 = Go.ret st) {o : Nat} (ho : o ∈ st.added) :
    ∃ i, st0.ptr i = some o ∧ st.ptr i = some o := by
  have inv := inv_final hs hv h
  rcases inv.added o ho with h | ⟨i, hi, ht, h, hd⟩
  · obtain ⟨i, hi⟩ := hs.entry o h
    exact ⟨i, hi, by rw [(inv.pending i (.inr (.inl ((hs.others i o hi).mp h)))).1, hi]⟩
  · refine ⟨i, h, ?_⟩
    cases inv.fate i hi o ht h with
    | rep h1 => exact h1
    | merged h1 => rw [hd] at h1; cases h1
    | dropped h1 => exact h1

/-- If no type is within a type, the order of the visits does not decide whether the build goes
well, which types become one, nor how many objects of a kind and name the database has.  The full claim,
that all orders give one database, is false: `C64_false`. -/
theorem C64_order_partial (w : World) (st0 st1 : St) (order1 order2 : List Off) (hs : Start w st0) (hf : Flat w) (hv1 : Visits st0 order1) (hv2 : Visits st0 order2)
    (h1 : dedup w order1 st0 = Go.ret st1) : ∃ st2, dedup w order2 st0 = Go.ret st2 ∧
      (∀ i j a b, isTypeTag (w.tag i) = true → isTypeTag (w.tag j) = true → st0.ptr i = some a → st0.ptr j = some b → (st1.ptr i = st1.ptr j ↔ st2.ptr i = st2.ptr j)) ∧
      (st1.added.map fun o => (kindOf (w.obj o), nameOf (w.obj o))).Perm (st2.added.map fun o => (kindOf (w.obj o), nameOf (w.obj o))) := by
  obtain ⟨st2, h2⟩ := dedup_of_goes hs hf (fun i o ho ht => goes_of_dedup hs hf order1 [] st0 st1 (inv_start hs) hv1.once (by simp) h1 i (hv1.all i (by rw [ho]; simp)) o ho ht)
    order2 [] st0 (inv_start hs) hv2.once (by simp)
  have inv1 := inv_final hs hv1 h1
  have inv2 := inv_final hs hv2 h2
  refine ⟨st2, h2, fun i j a b hti htj hi hj => ⟨alike_kept hs hf hv1 hv2 h1 h2 hti htj hi hj, alike_kept hs hf hv2 hv1 h2 h1 hti htj hi hj⟩, ?_⟩
  have kinds : ∀ {st' : St} {order : List Off}, Visits st0 order → dedup w order st0 = Go.ret st' → ∀ {i j a b o}, st0.ptr i = some a → st0.ptr j = some b → st'.ptr i = some o → st'.ptr j = some o →
      isTypeTag (w.tag i) = isTypeTag (w.tag j) := by
    intro st' order hv h
    have key : ∀ {i a o}, st0.ptr i = some a → st'.ptr i = some o → isTypeTag (w.tag i) = isType (w.obj o) := by
      intro i a o hi ho
      cases ht : isTypeTag (w.tag i) with
      | false =>
        rw [((inv_final hs hv h).pending i (.inr (.inl ht))).1] at ho
        rw [hs.type i o ho, ht]
      | true =>
        have ta : isType (w.obj a) = true := by rw [hs.type i a hi, ht]
        obtain ⟨o', -, e1, e2, -⟩ := ends_flat hs hf hv h hi
        rw [ho] at e1; cases e1
        revert ta e2
        generalize w.obj a = d
        generalize w.obj o = d'
        intro ta e2
        cases d <;> first | (cases ta; done) | skip
        all_goals
          first
          | (cases d' <;> first | rfl | (cases e2; done) | (rename_i x _ _; cases x <;> cases e2; done))
          | (rename_i x _ _; cases x <;> cases d' <;> first | rfl | (cases e2; done))
    intro i j a b o hi hj e1 e2
    rw [key hi e1, key hj e2]
  have same : ∀ {st' st'' : St} {o' o'' : List Off}, Visits st0 o' → Visits st0 o'' → dedup w o' st0 = Go.ret st' → dedup w o'' st0 = Go.ret st'' →
      ∀ {i j a b o}, st0.ptr i = some a → st0.ptr j = some b → st'.ptr i = some o → st'.ptr j = some o → st''.ptr i = st''.ptr j := by
    intro st' st'' o' o'' hv' hv'' h' h'' i j a b o hi hj e1 e2
    have hk := kinds hv' h' hi hj e1 e2
    cases ht : isTypeTag (w.tag i) with
    | true => exact alike_kept hs hf hv' hv'' h' h'' ht (hk ▸ ht) hi hj (by rw [e1, e2])
    | false =>
      rw [((inv_final hs hv' h').pending i (.inr (.inl ht))).1] at e1
      rw [((inv_final hs hv' h').pending j (.inr (.inl (hk ▸ ht)))).1] at e2
      rw [hs.own i j o e1 e2]
  -- the object that stands in the second database for one of the first
  have hf1 : ∀ o, ∃ o', o ∈ st1.added → o' ∈ st2.added ∧ ∃ i, st0.ptr i = some o ∧ st1.ptr i = some o ∧ st2.ptr i = some o' ∧ kindOf (w.obj o') = kindOf (w.obj o) ∧ nameOf (w.obj o') = nameOf (w.obj o) := by
    intro o
    by_cases ho : o ∈ st1.added
    · obtain ⟨i, e1, e2⟩ := home hs hv1 h1 ho
      obtain ⟨o', g1, g2, g3, g4⟩ := ends_flat hs hf hv2 h2 e1
      exact ⟨o', fun _ => ⟨g1, i, e1, e2, g2, g3, g4⟩⟩
    · exact ⟨0, fun h => absurd h ho⟩
  obtain ⟨f, hf1⟩ := Classical.axiomOfChoice hf1
  have hperm : (st1.added.map f).Perm st2.added := by
    apply perm_of_mem
    · have : ∀ l : List Nat, l.Nodup → (∀ x ∈ l, x ∈ st1.added) → (l.map f).Nodup := by
        intro l
        induction l with
        | nil => intro _ _; exact .nil
        | cons a l ih =>
          intro hn hm
          rw [List.map_cons, List.nodup_cons]
          refine ⟨?_, ih (List.nodup_cons.mp hn).2 fun x hx => hm x (List.mem_cons_of_mem _ hx)⟩
          intro hx
          obtain ⟨b, hb, e⟩ := List.mem_map.mp hx
          obtain ⟨-, i, g1, g2, g3, -⟩ := hf1 a (hm a (List.mem_cons_self ..))
          obtain ⟨-, j, k1, k2, k3, -⟩ := hf1 b (hm b (List.mem_cons_of_mem _ hb))
          rw [e] at k3
          have := same hv2 hv1 h2 h1 g1 k1 g3 k3
          rw [g2, k2] at this
          cases this
          exact (List.nodup_cons.mp hn).1 hb
      exact this _ inv1.once fun _ h => h
    · exact inv2.once
    · intro x
      constructor
      · intro hx
        obtain ⟨o, ho, rfl⟩ := List.mem_map.mp hx
        exact (hf1 o ho).1
      · intro hx
        obtain ⟨j, e1, e2⟩ := home hs hv2 h2 hx
        obtain ⟨o, g1, g2, -, -⟩ := ends_flat hs hf hv1 h1 e1
        obtain ⟨-, i, k1, k2, k3, -⟩ := hf1 o g1
        have := same hv1 hv2 h1 h2 k1 e1 k2 g2
        rw [k3, e2] at this
        cases this
        exact List.mem_map.mpr ⟨o, g1, rfl⟩
  refine .trans ?_ (hperm.map _)
  rw [List.map_map]
  refine .of_eq (List.map_congr_left fun o ho => ?_)
  obtain ⟨-, i, -, -, -, g1, g2⟩ := hf1 o ho
  simp only [Function.comp, g1, g2]

theorem exUnits_flat : Flat (world exUnits) := by
  intro i p ht hp
  have hm : i ∈ exUnits.map Row.off := by
    simp only [world] at ht
    cases hr : rowOf exUnits i with
    | none => rw [hr] at ht; cases ht
    | some r => exact List.mem_map.mpr ⟨r, rowOf_some hr⟩
  have : ∀ i ∈ exUnits.map Row.off, ∀ p ∈ (parent (world exUnits) i).toList, isTypeTag ((world exUnits).tag p) = false := by decide +kernel
  exact this i hm p (by rw [hp]; simp)

/-- The example of C61, in the order of the offsets. -/
example : ∃ st, dedup (world exUnits) [1, 2, 3, 4, 11, 12, 13, 14] (start exUnits) = Go.ret st ∧ st.ptr 3 = st.ptr 13 := by
  obtain ⟨hr, hv, st, h1, h2, h3, -⟩ := exUnits_run
  obtain ⟨st2, g1, g2, -⟩ := C64_order_partial _ _ st _ [1, 2, 3, 4, 11, 12, 13, 14] (start_start hr) exUnits_flat hv (visits_start (by decide) (by decide)) h1
  exact ⟨st2, g1, (g2 3 13 3 13 (by decide +kernel) (by decide +kernel) rfl rfl).mp (by rw [h2, h3])⟩

/-- A unit with `enum { A }` and `enum { B }`. -/
def exEnums : List Row := [
  ⟨0, none, [], false, none⟩,
  ⟨1, some 0, go! "CompileUnit", false, some (.compileUnit (go! "a.c") [])⟩,
  ⟨2, some 1, go! "EnumerationType", false, some (.enumeration { name := none, byteSize := some 4 } [(go! "A", 0)])⟩,
  ⟨3, some 1, go! "EnumerationType", false, some (.enumeration { name := none, byteSize := some 4 } [(go! "B", 0)])⟩]

/-- FALSE of the code: the identifiers in the database depend on the order in which Go visits a
map, which is not the same from run to run.  One type has the identifier that another has in a second
run on the same input. -/
theorem C64_false : ∃ (w : World) (st0 st1 st2 : St) (order1 order2 : List Off), Start w st0 ∧ Flat w ∧ Visits st0 order1 ∧ Visits st0 order2 ∧
    dedup w order1 st0 = Go.ret st1 ∧ dedup w order2 st0 = Go.ret st2 ∧
    ∃ a b : Off, st0.ptr a = some a ∧ st0.ptr b = some b ∧ a ≠ b ∧ ∀ snake, streamline snake w st1 a = streamline snake w st2 b ∧ streamline snake w st1 a ≠ streamline snake w st2 a := by
  have hr : rowsB exEnums = true := by decide +kernel
  obtain ⟨st1, h1, e1⟩ := runs_dedup (rows := exEnums) (order := [1, 2, 3]) (n := 5)
    (p := fun st => decide (st.ptr 2 = some 2 ∧ st.ptr 3 = some 3 ∧ st.added = [1, 2, 3])) hr (by decide) (by decide +kernel)
  obtain ⟨st2, h2, e2⟩ := runs_dedup (rows := exEnums) (order := [3, 2, 1]) (n := 5)
    (p := fun st => decide (st.ptr 2 = some 2 ∧ st.ptr 3 = some 3 ∧ st.added = [1, 3, 2])) hr (by decide) (by decide +kernel)
  obtain ⟨a1, a2, a3⟩ := of_decide_eq_true e1
  obtain ⟨b1, b2, b3⟩ := of_decide_eq_true e2
  refine ⟨_, _, st1, st2, _, _, start_start hr, ?_, visits_start (by decide) (by decide), visits_start (by decide) (by decide), h1, h2, 2, 3, rfl, rfl, by decide, ?_⟩
  · intro i p ht hp
    have hm : i ∈ exEnums.map Row.off := by
      simp only [world] at ht
      cases hr : rowOf exEnums i with
      | none => rw [hr] at ht; cases ht
      | some r => exact List.mem_map.mpr ⟨r, rowOf_some hr⟩
    have : ∀ i ∈ exEnums.map Row.off, ∀ p ∈ (parent (world exEnums) i).toList, isTypeTag ((world exEnums).tag p) = false := by decide +kernel
    exact this i hm p (by rw [hp]; simp)
  · intro snake
    have i1 : idOf snake (world exEnums) [1, 2, 3] 2 = go! "e_0000" := by
      simp [idOf, idsOf, world, rowOf, exEnums, kindOf, GoDedup.nameOf, GoMeta.addAll, GoMeta.appendDb, GoMeta.commonId, GoMeta.Db.empty, GoMeta.stem, GoMeta.nameOf, GoMeta.prefixOf, GoMeta.find, GoMeta.pad4, GoMeta.dec, List.replicate]
      rfl
    have i2 : idOf snake (world exEnums) [1, 3, 2] 2 = go! "e_0001" := by
      simp [idOf, idsOf, world, rowOf, exEnums, kindOf, GoDedup.nameOf, GoMeta.addAll, GoMeta.appendDb, GoMeta.commonId, GoMeta.Db.empty, GoMeta.stem, GoMeta.nameOf, GoMeta.prefixOf, GoMeta.find, GoMeta.pad4, GoMeta.dec, List.replicate]
    have i3 : idOf snake (world exEnums) [1, 3, 2] 3 = go! "e_0000" := by
      simp [idOf, idsOf, world, rowOf, exEnums, kindOf, GoDedup.nameOf, GoMeta.addAll, GoMeta.appendDb, GoMeta.commonId, GoMeta.Db.empty, GoMeta.stem, GoMeta.nameOf, GoMeta.prefixOf, GoMeta.find, GoMeta.pad4, GoMeta.dec, List.replicate]
      rfl
    unfold streamline
    rw [a1, b1, b2, a3, b3]
    simp only [i1, i2, i3]
    exact ⟨rfl, by decide +kernel⟩

end Verif.GoDedup
