import Verif.GoDedup.Props
/-
C62: merged types are the same type.
-/
namespace Verif.GoDedup
open Spec
open GoMeta (Str)

theorem known_mono {obj : Nat → Desc} {ptr : Off → Option Nat} {R S : Nat → Nat → Prop} (hRS : ∀ a b, R a b → S a b) {a b : Nat}
    (h : Known obj ptr R a b) : Known obj ptr S a b := by
  have hl : ∀ t t', Links ptr R t t' → Links ptr S t t' := by
    intro t t' h
    cases h with
    | none => exact .none
    | some h1 h2 h3 => exact .some h1 h2 (hRS _ _ h3)
  have hp : ∀ p p', Params ptr R p p' → Params ptr S p p' := by
    intro p p' h
    cases h with
    | rest h1 h2 => exact .rest h1 h2
    | typed h1 h2 h3 => exact .typed h1 h2 (hl _ _ h3)
  have hf : ∀ p p', Fields ptr R p p' → Fields ptr S p p' := fun p p' h =>
    ⟨h.name, hl _ _ h.type, h.alignment, h.bitSize, h.bitOffset, h.byteOffset, h.dataBitOffset⟩
  cases h with
  | named h1 h2 h3 => exact .named h1 h2 h3
  | unnamed h1 h2 h =>
    refine .unnamed h1 h2 ?_
    generalize obj a = d at h
    generalize obj b = d' at h
    cases h with
    | base h => exact .base h
    | enumeration h1 h2 => exact .enumeration h1 h2
    | qual h => exact .qual (hl _ _ h)
    | typedef h => exact .typedef (hl _ _ h)
    | pointer h => exact .pointer (hl _ _ h)
    | unspecified => exact .unspecified
    | reference h => exact .reference (hl _ _ h)
    | subroutine h1 h2 => exact .subroutine (h1.imp fun a b _ _ => hp a b) (hl _ _ h2)
    | array h => exact .array (hl _ _ h)
    | struct h1 h2 h3 h4 => exact .struct h1 h2 (h3.imp fun a b _ _ => hf a b) (fun h => (h4 h).imp fun a b _ _ => hl _ _)
    | «variable» h => exact .variable (hl _ _ h)
    | subprogram h1 h2 => exact .subprogram (h1.imp fun a b _ _ => hp a b) (hl _ _ h2)
    | namespace_ => exact .namespace_

theorem Alike.known {obj : Nat → Desc} {ptr : Off → Option Nat} {a b : Nat} (h : Alike obj ptr a b) : Known obj ptr (Alike obj ptr) a b := by
  refine h _ ?_
  intro x y hk
  exact known_mono (fun _ _ h => Alike.intro h) hk

theorem Spec.Each.and {α β : Type} {R S : α → β → Prop} {as : List α} {bs : List β} (h1 : Each R as bs) (h2 : Each S as bs) : Each (fun a b => R a b ∧ S a b) as bs := by
  induction h1 with
  | nil => exact .nil
  | cons a b ih =>
    cases h2 with
    | cons c d => exact .cons ⟨a, c⟩ (ih d)

theorem layout_of_agree {obj : Nat → Desc} {ptr : Off → Option Nat} {R : Nat → Nat → Prop} (hp : PlainFields obj) {a b : Nat}
    (h : Agree ptr R (obj a) (obj b)) : Layout ptr R (obj a) (obj b) := by
  have ha := hp a
  have hb := hp b
  generalize obj a = d at h ha
  generalize obj b = d' at h hb
  cases h with
  | @struct h h' t fs fs' hs hs' h1 h2 h3 h4 =>
    obtain ⟨p1, p2⟩ := ha _ _ _ _ rfl
    obtain ⟨p1', p2'⟩ := hb _ _ _ _ rfl
    refine .struct (h3.imp fun f f' hf hf' hx => ⟨hx.byteOffset (p1 f hf).1, by rw [(p1 f hf).2, (p1' f' hf').2]⟩) ?_
    by_cases hfs : fs = []
    · have : fs' = [] := by
        subst hfs
        cases h3
        rfl
      rw [p2 hfs, p2' this]
      exact .nil
    · exact h4 hfs
  | base h => exact .other (by simp)
  | enumeration h1 h2 => exact .other (by simp)
  | qual h => exact .other (by simp)
  | typedef h => exact .other (by simp)
  | pointer h => exact .other (by simp)
  | unspecified => exact .other (by simp)
  | reference h => exact .other (by simp)
  | subroutine h1 h2 => exact .other (by simp)
  | array h => exact .other (by simp)
  | «variable» h => exact .other (by simp)
  | subprogram h1 h2 => exact .other (by simp)
  | namespace_ => exact .other (by simp)

/-- If types of one kind and name have one definition, and fields say where they are, merged types
are the same.  The full claim has neither condition and is false: `C62_names_false`,
`C62_fields_false`. -/
theorem C62_same_partial (w : World) (st0 st : St) (order : List Off) (hs : Start w st0) (hv : Visits st0 order) (h : dedup w order st0 = Go.ret st)
    (h1 : OneDefinition w.obj st0.ptr) (h2 : PlainFields w.obj)
    (i j a b : Nat) (hti : isTypeTag (w.tag i) = true) (htj : isTypeTag (w.tag j) = true) (hi : st0.ptr i = some a) (hj : st0.ptr j = some b) (hij : i ≠ j)
    (he : st.ptr i = st.ptr j) : SameType w.obj st0.ptr a b := by
  have hal : Alike w.obj st0.ptr a b := by
    cases (C61_merged w st0 st order hs hv h i j a b hti htj hi hj hij he).2 with
    | declaration _ h => exact h
    | definition _ h _ => exact h
  refine ⟨Alike w.obj st0.ptr, hal, ?_⟩
  intro x y hxy
  cases Alike.known hxy with
  | named g1 g2 g3 =>
    refine ⟨g1, by rw [g2, g3], ?_⟩
    intro ty d1 d2
    have := h1 x y _ ty g1 g2 g3 d1 d2
    exact ⟨this, layout_of_agree h2 this⟩
  | unnamed g1 g2 g3 => exact ⟨g3.cat, by rw [g1, g2], fun _ _ _ => ⟨g3, layout_of_agree h2 g3⟩⟩

theorem world_type {rows : List Row} {x : Nat} (h : isType ((world rows).obj x) = true) : x ∈ rows.map Row.off := by
  simp only [world] at h
  cases hr : rowOf rows x with
  | none => rw [hr] at h; cases h
  | some r => exact List.mem_map.mpr ⟨r, rowOf_some hr⟩

theorem cat_type {d d' : Desc} (h : cat d = cat d') : isType d = isType d' := by
  cases d <;> cases d' <;> first | rfl | cases h

theorem world_struct {rows : List Row} {o : Nat} {h a fs hs} (e : (world rows).obj o = .struct h a fs hs) : o ∈ rows.map Row.off :=
  world_type (by rw [e]; rfl)

theorem exUnits_one : OneDefinition (world exUnits).obj (start exUnits).ptr ∧ PlainFields (world exUnits).obj := by
  have o2 : ∀ x y, x = 2 ∨ x = 12 → y = 2 ∨ y = 12 → Alike (world exUnits).obj (start exUnits).ptr x y := by
    intro x y hx hy
    apply Alike.intro
    rcases hx with rfl | rfl <;> rcases hy with rfl | rfl <;> exact .named rfl rfl rfl
  have o3 : ∀ x y, x = 3 ∨ x = 13 → y = 3 ∨ y = 13 → Alike (world exUnits).obj (start exUnits).ptr x y := by
    intro x y hx hy
    apply Alike.intro
    rcases hx with rfl | rfl <;> rcases hy with rfl | rfl <;> exact .named rfl rfl rfl
  have o4 : ∀ x y, x = 4 ∨ x = 14 → y = 4 ∨ y = 14 → Alike (world exUnits).obj (start exUnits).ptr x y := by
    intro x y hx hy
    apply Alike.intro
    rcases hx with rfl | rfl <;> rcases hy with rfl | rfl <;> exact .unnamed rfl rfl (.pointer (.some rfl rfl (o3 _ _ (by simp) (by simp))))
  constructor
  · intro x y n ty hc hn hn' _ _
    rw [← (tag_type _).1] at ty
    have ty' : isType ((world exUnits).obj y) = true := by rw [← cat_type hc]; exact ty
    have hx := world_type ty
    have hy := world_type ty'
    simp only [exUnits, List.map_cons, List.map_nil, List.mem_cons, List.not_mem_nil, or_false] at hx hy
    have hst : ∀ a b, a = 3 ∨ a = 13 → b = 3 ∨ b = 13 → Agree (start exUnits).ptr (Alike (world exUnits).obj (start exUnits).ptr) ((world exUnits).obj a) ((world exUnits).obj b) := by
      intro a b ha hb
      rcases ha with rfl | rfl <;> rcases hb with rfl | rfl <;>
        exact .struct rfl rfl (.cons ⟨rfl, .some rfl rfl (o2 _ _ (by simp) (by simp)), rfl, rfl, rfl, fun _ => rfl, rfl⟩
          (.cons ⟨rfl, .some rfl rfl (o4 _ _ (by simp) (by simp)), rfl, rfl, rfl, fun _ => rfl, rfl⟩ .nil)) (fun _ => .nil)
    have hb : ∀ a b, a = 2 ∨ a = 12 → b = 2 ∨ b = 12 → Agree (start exUnits).ptr (Alike (world exUnits).obj (start exUnits).ptr) ((world exUnits).obj a) ((world exUnits).obj b) := by
      intro a b ha hb
      rcases ha with rfl | rfl <;> rcases hb with rfl | rfl <;> exact .base rfl
    rcases hx with rfl | rfl | rfl | rfl | rfl | rfl | rfl | rfl | rfl <;> first | (cases ty; done) | (cases hn; done) | skip
    all_goals
      rcases hy with rfl | rfl | rfl | rfl | rfl | rfl | rfl | rfl | rfl <;> first | (cases hc; done) | (cases ty'; done) | (refine hst _ _ ?_ ?_ <;> decide) | (refine hb _ _ ?_ ?_ <;> decide)
  · intro o h a fs hs e
    have ho := world_struct e
    simp only [exUnits, List.map_cons, List.map_nil, List.mem_cons, List.not_mem_nil, or_false] at ho
    rcases ho with rfl | rfl | rfl | rfl | rfl | rfl | rfl | rfl | rfl <;> first | (cases e; done) | skip
    all_goals
      cases e
      simp

/-- In the example the two `struct A` are merged, and so are the pointers. -/
example : ∃ st, dedup (world exUnits) exOrder (start exUnits) = Go.ret st ∧ st.ptr 3 = st.ptr 13 ∧ SameType (world exUnits).obj (start exUnits).ptr 3 13 := by
  obtain ⟨hr, hv, st, h1, h2, h3, -⟩ := exUnits_run
  refine ⟨st, h1, by rw [h2, h3], ?_⟩
  exact C62_same_partial _ _ st _ (start_start hr) hv h1 exUnits_one.1 exUnits_one.2 3 13 3 13 (by decide +kernel) (by decide +kernel) rfl rfl (by decide) (by rw [h2, h3])

/-- Two units: each has `struct A { struct B *b; }`, with its own `struct B`. -/
def exNames : List Row := [
  ⟨0, none, [], false, none⟩,
  ⟨1, some 0, go! "CompileUnit", false, some (.compileUnit (go! "a.c") [])⟩,
  ⟨2, some 1, go! "BaseType", false, some (.base { name := some (go! "int"), byteSize := some 4 } (go! "signed"))⟩,
  ⟨3, some 1, go! "StructType", false, some (.struct { name := some (go! "B"), byteSize := some 4 } .struct [{ name := some (go! "x"), type := some 2 }] [])⟩,
  ⟨4, some 1, go! "PointerType", false, some (.pointer { name := none, byteSize := some 8 } (some 3))⟩,
  ⟨5, some 1, go! "StructType", false, some (.struct { name := some (go! "A"), byteSize := some 8 } .struct [{ name := some (go! "b"), type := some 4 }] [])⟩,
  ⟨11, some 0, go! "CompileUnit", false, some (.compileUnit (go! "b.c") [])⟩,
  ⟨12, some 11, go! "BaseType", false, some (.base { name := some (go! "int"), byteSize := some 4 } (go! "signed"))⟩,
  ⟨13, some 11, go! "StructType", false, some (.struct { name := some (go! "B"), byteSize := some 8 } .struct [{ name := some (go! "p"), type := some 12 }, { name := some (go! "q"), type := some 12, byteOffset := 4 }] [])⟩,
  ⟨14, some 11, go! "PointerType", false, some (.pointer { name := none, byteSize := some 8 } (some 13))⟩,
  ⟨15, some 11, go! "StructType", false, some (.struct { name := some (go! "A"), byteSize := some 8 } .struct [{ name := some (go! "b"), type := some 14 }] [])⟩]

/-- FALSE of the code: merged types need not be the same.  Structures that differ in what their
pointers refer to are merged, and so are the pointers; the structures pointed to are not. -/
theorem C62_names_false : ∃ (w : World) (st0 st : St) (order : List Off), Start w st0 ∧ Visits st0 order ∧ dedup w order st0 = Go.ret st ∧
    ∃ a a' p p' b b' : Nat, st0.ptr a = some a ∧ st0.ptr a' = some a' ∧ isTypeTag (w.tag a) = true ∧ isTypeTag (w.tag a') = true ∧ a ≠ a' ∧
      st.ptr a = st.ptr a' ∧ ¬ SameType w.obj st0.ptr a a' ∧
      w.obj p = .pointer { name := none, byteSize := some 8 } (some b) ∧ w.obj p' = .pointer { name := none, byteSize := some 8 } (some b') ∧ st.ptr p = st.ptr p' ∧ st.ptr b ≠ st.ptr b' := by
  have hr : rowsB exNames = true := by decide +kernel
  obtain ⟨st, h1, h2⟩ := runs_dedup (rows := exNames) (order := [5, 4, 1, 2, 12, 3, 13, 14, 11, 15]) (n := 5)
    (p := fun st => decide (st.ptr 5 = st.ptr 15 ∧ st.ptr 4 = st.ptr 14 ∧ st.ptr 3 ≠ st.ptr 13)) hr (by decide) (by decide +kernel)
  obtain ⟨e1, e2, e3⟩ := of_decide_eq_true h2
  refine ⟨_, _, st, _, start_start hr, visits_start (by decide) (by decide), h1, 5, 15, 4, 14, 3, 13, rfl, rfl, by decide +kernel, by decide +kernel, by decide, e1, ?_, rfl, rfl, e2, e3⟩
  rintro ⟨R, hR, hx⟩
  obtain ⟨-, -, h5⟩ := hx 5 15 hR
  obtain ⟨h5, -⟩ := h5 rfl rfl rfl
  have r4 : R 4 14 := by
    have : ∀ d d', Agree (start exNames).ptr R d d' → d = (world exNames).obj 5 → d' = (world exNames).obj 15 → R 4 14 := by
      intro d d' h e e'
      cases h <;> cases e <;> cases e'
      rename_i _ _ h3 _
      cases h3 with
      | cons h4 _ =>
        cases h4.type with
        | some a1 a2 a3 => cases a1; cases a2; exact a3
    exact this _ _ h5 rfl rfl
  obtain ⟨-, -, h4⟩ := hx 4 14 r4
  obtain ⟨h4, -⟩ := h4 rfl rfl rfl
  have r3 : R 3 13 := by
    have : ∀ d d', Agree (start exNames).ptr R d d' → d = (world exNames).obj 4 → d' = (world exNames).obj 14 → R 3 13 := by
      intro d d' h e e'
      cases h <;> cases e <;> cases e'
      rename_i h3
      cases h3 with
      | some a1 a2 a3 => cases a1; cases a2; exact a3
    exact this _ _ h4 rfl rfl
  obtain ⟨-, -, h3⟩ := hx 3 13 r3
  obtain ⟨h3, -⟩ := h3 rfl rfl rfl
  have : ∀ d d', Agree (start exNames).ptr R d d' → d = (world exNames).obj 3 → d' = (world exNames).obj 13 → False := by
    intro d d' h e e'
    cases h <;> cases e <;> cases e'
    rename_i h3 _ _ _
    exact absurd h3 (by decide)
  exact this _ _ h3 rfl rfl

/-- Two units: each has a structure `S` of 8 bytes with one bit-field, in the first word of one and
in the second word of the other; bits are counted from the end, as compilers did before DWARF 4. -/
def exFields : List Row := [
  ⟨0, none, [], false, none⟩,
  ⟨1, some 0, go! "CompileUnit", false, some (.compileUnit (go! "a.c") [])⟩,
  ⟨2, some 1, go! "BaseType", false, some (.base { name := some (go! "int"), byteSize := some 4 } (go! "signed"))⟩,
  ⟨3, some 1, go! "StructType", false, some (.struct { name := some (go! "S"), byteSize := some 8 } .struct
      [{ name := some (go! "x"), type := some 2, byteSize := some 4, bitSize := some 3, bitOffset := some 29 }] [])⟩,
  ⟨11, some 0, go! "CompileUnit", false, some (.compileUnit (go! "b.c") [])⟩,
  ⟨12, some 11, go! "BaseType", false, some (.base { name := some (go! "int"), byteSize := some 4 } (go! "signed"))⟩,
  ⟨13, some 11, go! "StructType", false, some (.struct { name := some (go! "S"), byteSize := some 8 } .struct
      [{ name := some (go! "x"), type := some 12, byteSize := some 4, byteOffset := 4, bitSize := some 3, bitOffset := some 29 }] [])⟩]

/-- FALSE of the code: structures whose only bit-fields are in different words are merged. -/
theorem C62_fields_false : ∃ (w : World) (st0 st : St) (order : List Off), Start w st0 ∧ Visits st0 order ∧ dedup w order st0 = Go.ret st ∧
    ∃ (a a' : Nat) (h h' : Head) (f f' : Field), st0.ptr a = some a ∧ st0.ptr a' = some a' ∧ w.obj a = .struct h .struct [f] [] ∧ w.obj a' = .struct h' .struct [f'] [] ∧
      f.byteOffset = 0 ∧ f'.byteOffset = 4 ∧ st.ptr a = st.ptr a' ∧ ¬ SameType w.obj st0.ptr a a' := by
  have hr : rowsB exFields = true := by decide +kernel
  obtain ⟨st, h1, h2⟩ := runs_dedup (rows := exFields) (order := [3, 1, 2, 12, 13, 11]) (n := 5)
    (p := fun st => decide (st.ptr 3 = st.ptr 13)) hr (by decide) (by decide +kernel)
  refine ⟨_, _, st, _, start_start hr, visits_start (by decide) (by decide), h1, 3, 13, _, _, _, _, rfl, rfl, rfl, rfl, rfl, rfl, of_decide_eq_true h2, ?_⟩
  rintro ⟨R, hR, hx⟩
  obtain ⟨-, -, h5⟩ := hx 3 13 hR
  obtain ⟨-, h5⟩ := h5 rfl rfl rfl
  have : ∀ d d', Layout (start exFields).ptr R d d' → d = (world exFields).obj 3 → d' = (world exFields).obj 13 → False := by
    intro d d' h e e'
    cases h with
    | struct h1 h2 =>
      cases e; cases e'
      cases h1 with
      | cons h3 _ => exact absurd h3.1 (by decide)
    | other h => exact h _ _ _ _ e
  exact this _ _ h5 rfl rfl

end Verif.GoDedup
