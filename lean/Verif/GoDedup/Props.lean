import Verif.GoDedup.Witness
/-
C61-C64: merging of types read from debug information.
-/
namespace Verif.GoDedup
open Spec
open GoMeta (Str)

/-! ### C61: which types are merged -/

/-- Types that became one are taken for one type: kind, name and listed attributes are equal, and
so it is for what they refer to, down to names. -/
theorem C61_merged (w : World) (st0 st : St) (order : List Off) (hs : Start w st0) (hv : Visits st0 order) (h : dedup w order st0 = Go.ret st)
    (i j a b : Nat) (hti : isTypeTag (w.tag i) = true) (htj : isTypeTag (w.tag j) = true) (hi : st0.ptr i = some a) (hj : st0.ptr j = some b) (hij : i ≠ j)
    (he : st.ptr i = st.ptr j) : w.decl i = w.decl j ∧ OneType w.obj st0.ptr (w.decl i) a b := by
  have inv := inv_final hs hv h
  have mem : ∀ {x o}, st0.ptr x = some o → x ∈ order.reverse := fun hx => by rw [List.mem_reverse]; exact hv.all _ (by rw [hx]; simp)
  have hcls : ∀ {x o}, isTypeTag (w.tag x) = true → st0.ptr x = some o → st.ptr x = some o ∧ st.dup x = true ∧ o ∉ st.added ∨
      ∃ f fo k, st.ptr x = some fo ∧ st0.ptr f = some fo ∧ Sigs w st0 o (w.decl x) k ∧ Sigs w st0 fo (w.decl f) k ∧ fo ∈ st.added := by
    intro x o ht hx
    cases inv.fate x (mem hx) o ht hx with
    | @rep k h1 h2 h3 h4 h5 =>
      exact .inr ⟨x, o, k, h1, hx, h4, h4, h3⟩
    | @merged k f fo h1 h2 h3 h4 h5 h6 h7 =>
      obtain ⟨-, -, fo', e1, e2, -, e3, e4⟩ := inv.found k f h4
      rw [h6] at e1; cases e1
      exact .inr ⟨f, fo, k, h7, h6, h3, e4, e3⟩
    | dropped h1 h2 h3 h4 h5 => exact .inl ⟨h1, h2, h3⟩
  rcases hcls hti hi with ⟨d1, d2, d3⟩ | ⟨f, fo, k, f1, f2, f3, f4, f5⟩ <;> rcases hcls htj hj with ⟨d1', d2', d3'⟩ | ⟨f', fo', k', f1', f2', f3', f4', f5'⟩
  · rw [d1, d1'] at he
    cases he
    exact absurd (hs.own i j a hi hj) hij
  · rw [d1, f1'] at he
    cases he
    exact absurd f5' d3
  · rw [f1, d1'] at he
    cases he
    exact absurd f5 d3'
  · rw [f1, f1'] at he
    cases he
    have := hs.own f f' fo f2 f2'
    subst this
    have hk := f4.unique f4' rfl
    subst hk
    obtain ⟨e1, e2⟩ := f3.head f3'
    have ta : isType (w.obj a) = true := by rw [hs.type i a hi]; exact hti
    have tb : isType (w.obj b) = true := by rw [hs.type j b hj]; exact htj
    refine ⟨e1, ?_⟩
    rw [← e1] at f3'
    generalize w.decl i = d at f3 f3'
    cases f3 with
    | decl g1 =>
      cases f3' with
      | decl g2 => exact .declaration rfl (alike_of_sig hs.names _ _ a b _ rfl g1 g2)
    | defn g1 g2 =>
      cases f3' with
      | defn g3 g4 =>
        obtain ⟨r1, r2⟩ := one_of_sigs hs.names ta tb g1 g3 g2 g4
        exact .definition rfl r1 r2

/-- Types taken for one type become one, unless they are nested in a type that was merged. -/
theorem C61_found (w : World) (st0 st : St) (order : List Off) (hs : Start w st0) (hv : Visits st0 order) (h : dedup w order st0 = Go.ret st)
    (i j a b : Nat) (hti : isTypeTag (w.tag i) = true) (htj : isTypeTag (w.tag j) = true) (hi : st0.ptr i = some a) (hj : st0.ptr j = some b)
    (hpi : ∀ p, parent w i = some p → st.dup p = false) (hpj : ∀ p, parent w j = some p → st.dup p = false)
    (hd : w.decl i = w.decl j) (he : OneType w.obj st0.ptr (w.decl i) a b) : st.ptr i = st.ptr j ∧ ∃ o ∈ st.added, st.ptr i = some o := by
  have inv := inv_final hs hv h
  have mem : ∀ {x o}, st0.ptr x = some o → x ∈ order.reverse := fun hx => by rw [List.mem_reverse]; exact hv.all _ (by rw [hx]; simp)
  have hcls : ∀ {x o}, isTypeTag (w.tag x) = true → st0.ptr x = some o → (∀ p, parent w x = some p → st.dup p = false) →
      ∃ f fo k, st.ptr x = some fo ∧ st0.ptr f = some fo ∧ Sigs w st0 o (w.decl x) k ∧ lookupKey st k = some f ∧ fo ∈ st.added := by
    intro x o ht hx hp
    cases inv.fate x (mem hx) o ht hx with
    | @rep k h1 h2 h3 h4 h5 => exact ⟨x, o, k, h1, hx, h4, h5, h3⟩
    | @merged k f fo h1 h2 h3 h4 h5 h6 h7 =>
      obtain ⟨-, -, fo', e1, e2, -, e3, e4⟩ := inv.found k f h4
      rw [h6] at e1; cases e1
      exact ⟨f, fo, k, h7, h6, h3, h4, e3⟩
    | dropped h1 h2 h3 h4 h5 => rw [hp _ h4] at h5; cases h5
  obtain ⟨f, fo, k, f1, f2, f3, f4, f5⟩ := hcls hti hi hpi
  obtain ⟨f', fo', k', f1', f2', f3', f4', f5'⟩ := hcls htj hj hpj
  have ta : isType (w.obj a) = true := by rw [hs.type i a hi]; exact hti
  have tb : isType (w.obj b) = true := by rw [hs.type j b hj]; exact htj
  have hk : k = k' := by
    rw [← hd] at f3'
    cases he with
    | declaration e1 e2 =>
      rw [e1] at f3 f3'
      have := sig_of_alike hs.names e2
      cases f3 with
      | decl g1 =>
        cases f3' with
        | decl g2 =>
          rw [this, g2] at g1
          rw [Go.ret_inj.mp g1]
    | definition e1 e2 e3 =>
      rw [e1] at f3 f3'
      have := sig_of_alike hs.names e2
      cases f3 with
      | defn g1 g2 =>
        cases f3' with
        | defn g3 g4 =>
          rw [this, g3] at g1
          rw [Go.ret_inj.mp g1, sigs_of_one hs.names ta tb e2 e3 g2 g4]
  subst hk
  rw [f4] at f4'
  cases f4'
  rw [f2] at f2'
  cases f2'
  exact ⟨by rw [f1, f1'], fo, f5, f1⟩

/-- Two units with `int` and `struct A { int x; struct A *next; }`, as read. -/
def exUnits : List Row := [
  ⟨0, none, [], false, none⟩,
  ⟨1, some 0, go! "CompileUnit", false, some (.compileUnit (go! "a.c") [])⟩,
  ⟨2, some 1, go! "BaseType", false, some (.base { name := some (go! "int"), byteSize := some 4 } (go! "signed"))⟩,
  ⟨3, some 1, go! "StructType", false, some (.struct { name := some (go! "A"), byteSize := some 16 } .struct
      [{ name := some (go! "x"), type := some 2 }, { name := some (go! "next"), type := some 4, byteOffset := 8 }] [])⟩,
  ⟨4, some 1, go! "PointerType", false, some (.pointer { name := none, byteSize := some 8 } (some 3))⟩,
  ⟨11, some 0, go! "CompileUnit", false, some (.compileUnit (go! "b.c") [])⟩,
  ⟨12, some 11, go! "BaseType", false, some (.base { name := some (go! "int"), byteSize := some 4 } (go! "signed"))⟩,
  ⟨13, some 11, go! "StructType", false, some (.struct { name := some (go! "A"), byteSize := some 16 } .struct
      [{ name := some (go! "x"), type := some 12 }, { name := some (go! "next"), type := some 14, byteOffset := 8 }] [])⟩,
  ⟨14, some 11, go! "PointerType", false, some (.pointer { name := none, byteSize := some 8 } (some 13))⟩]

def exOrder : List Off := [13, 4, 1, 2, 12, 3, 14, 11]

theorem exUnits_run : rowsB exUnits = true ∧ Visits (start exUnits) exOrder ∧
    ∃ st, dedup (world exUnits) exOrder (start exUnits) = Go.ret st ∧ st.ptr 3 = some 13 ∧ st.ptr 13 = some 13 ∧ st.ptr 14 = some 4 ∧ st.added = [1, 11, 13, 4, 2] := by
  have hr : rowsB exUnits = true := by decide +kernel
  refine ⟨hr, visits_start (by decide) (by decide), ?_⟩
  obtain ⟨st, h1, h2⟩ := runs_dedup (rows := exUnits) (order := exOrder) (n := 5)
    (p := fun st => decide (st.ptr 3 = some 13 ∧ st.ptr 13 = some 13 ∧ st.ptr 14 = some 4 ∧ st.added = [1, 11, 13, 4, 2])) hr (by decide) (by decide +kernel)
  exact ⟨st, h1, of_decide_eq_true h2⟩

end Verif.GoDedup
