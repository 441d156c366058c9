import Verif.SameText.Lemmas
/-
Values that agree are printed as the same text: all types.
-/
namespace Verif.SameText
open Verif Verif.Entry Verif.Entry.Spec Verif.Value Verif.Value.Spec Verif.Handlers Verif.ValueString.Spec Verif.PrintString.Spec Verif.Deep.Spec Verif.SameText.Spec
open Verif.Deep (Node Map typed_unique)
open Verif.ValueString (isArray_unique)
open Verif.Lifecycle (reply_unique node_cases struct_kids union_kids array_kids pointer_node target_same counted_same wrapped_copy)

variable {env : Deep.Env} {mode : Deep.Mode} {db : Db} {m : Mem} {M₁ M₂ : Map}

/-- Two corresponding nodes with what is around them. -/
structure Pair (env : Deep.Env) (mode : Deep.Mode) (db : Db) (m : Mem) (M₁ M₂ : Map) (o o' : List Value) (x y : Node) : Prop where
  paired : Paired M₁.top M₂.top x y
  left : Tree env mode db m o x
  right : Tree env mode db m o' y
  related : Related db x.val y.val

section
variable (hs : Sane db) (hh : Honest env.vs db) (A : Agree env.cfg mode db m M₁ M₂) (D : Data env mode db M₁ M₂) (R : AlikeReplies env mode db m M₁ M₂)
  {o o' : List Value} {x y : Node} (P : Pair env mode db m M₁ M₂ o o' x y)
include D P

theorem Pair.leftCalls : ¬ Packed env.vs db x.val ∧ (∀ t ps, ¬ Typed db x.val (.subprogram t ps)) ∧ ∀ t ps, ¬ Typed db x.val (.subroutine t ps) :=
  D.calls x (.inl (Deep.paired_within P.paired).1)

theorem Pair.rightCalls : ¬ Packed env.vs db y.val ∧ (∀ t ps, ¬ Typed db y.val (.subprogram t ps)) ∧ ∀ t ps, ¬ Typed db y.val (.subroutine t ps) :=
  D.calls y (.inr (Deep.paired_within P.paired).2)

theorem Pair.nonnull : y.val.addr ≠ 0 := tree_nonnull P.right (P.rightCalls D)

theorem Pair.object {i : Info} (h : Object env.vs db x.val i) (hn : ∀ e n, i ≠ .array e n) : x.val.entry = y.val.entry ∧ Object env.vs db y.val i := by
  have he := related_entry P.related h.2.2 hn
  exact ⟨he, (P.rightCalls D).1, P.nonnull D, by rw [← he]; exact h.2.2⟩

/-- Pointers that are not followed are the same. -/
theorem Pair.unfollowed (A : Agree env.cfg mode db m M₁ M₂) {ty : Option Ref} (ht : Typed db x.val (.pointer ty)) (hk : x.kids = []) {a : Nat} (ha : Holds m x.val.addr 8 a) :
    Holds m y.val.addr 8 a := by
  obtain ⟨b, h1, h2⟩ := (A x y P.paired).pointer D.asValues hk ⟨_, ht⟩
  rw [holds_unique ha h1]
  exact h2

theorem Pair.null_kids {ty : Option Ref} (ht : Typed db x.val (.pointer ty)) (ha : Holds m x.val.addr 8 0) : x.kids = [] := by
  have no : ∀ {i : Info} {P : Prop}, ValueString.Spec.Object env.vs db x.val i → i ≠ .pointer ty → P := fun h1 h2 => absurd (typed_unique h1.2.2 ht) h2
  rcases node_cases P.left (P.leftCalls D) with ⟨n, hk, _⟩ | ⟨n, _, _, h⟩ | ⟨n, k, _, _, h⟩
  · exact hk
  · generalize x.kids.map Node.val = vs at h
    cases h with
    | struct h => exact no h (by simp)
    | union h => exact no h (by simp)
    | unionMember h => exact no h (by simp)
    | array h => exact no h (by simp)
    | noElements h => exact no h (by simp)
  · cases h with
    | target _ _ h3 h4 => exact absurd (holds_unique h3 ha) h4

omit D in
theorem Pair.kid {i : Nat} {k k' : Node} (hk : x.kids[i]? = some k) (hk' : y.kids[i]? = some k') (hr : Related db k.val k'.val) :
    Pair env mode db m M₁ M₂ (x.val :: o) (y.val :: o') k k' :=
  ⟨.part P.paired hk hk', kid_tree P.left (List.mem_of_getElem? hk), kid_tree P.right (List.mem_of_getElem? hk'), hr⟩

/-- The second pointer, where nothing is followed. -/
theorem Pair.void_right (A : Agree env.cfg mode db m M₁ M₂) (ht : Typed db x.val (.pointer none)) (hk : x.kids = []) (hl : x.loop = 0) {a : Nat} (ha : Holds m x.val.addr 8 a) (h0 : a ≠ 0) :
    Fresh db m o' a ∧ Reply env.vs .pointerArrayCount y.val o' none := by
  have he := related_entry P.related ht (by simp)
  have ht' : Typed db y.val (.pointer none) := by unfold Typed; rw [← he]; exact ht
  have ha' := P.unfollowed D A ht hk ha
  have hk' : y.kids = [] := List.length_eq_zero_iff.mp (by rw [← (A x y P.paired).parts, hk]; rfl)
  have no : ∀ {i : Info} {P : Prop}, ValueString.Spec.Object env.vs db y.val i → i ≠ .pointer none → P := fun h1 h2 => absurd (typed_unique h1.2.2 ht') h2
  rcases node_cases P.right (P.rightCalls D) with ⟨n, _, _, _, h⟩ | ⟨n, _, _, h⟩ | ⟨n, k, hk2, _, _⟩
  · have hl' : y.loop = 0 := by rw [← (A x y P.paired).loop, hl]
    generalize hll : y.loop = l at h
    cases h with
    | base h => exact no h (by simp)
    | enumeration h => exact no h (by simp)
    | null _ _ h => exact absurd (holds_unique ha' h) h0
    | loop _ _ _ _ h => obtain ⟨i, w, h1, _⟩ := h; omega
    | unknown h1 h2 h3 h4 h5 h6 => rw [holds_unique ha' h3]; exact ⟨h5, h6⟩
  · generalize y.kids.map Node.val = vs at h
    cases h with
    | struct h => exact no h (by simp)
    | union h => exact no h (by simp)
    | unionMember h => exact no h (by simp)
    | array h => exact no h (by simp)
    | noElements h => exact no h (by simp)
  · rw [hk'] at hk2; cases hk2

include hs hh A R

omit hs hh in
/-- What a pointer of the second value points to. -/
theorem Pair.target {ty : Option Ref} {a : Nat} {arr : Value} (ht : Typed db x.val (.pointer ty)) (ha : Holds m x.val.addr 8 a) (h0 : a ≠ 0) (hf : Fresh db m o a)
    (htg : ValueString.Spec.Target env.vs db x.val o ty a arr) {e : Ref} {n : Int} (hia : IsArray db arr (some e) n) :
    ∃ k k' a', k.val = arr ∧ Pair env mode db m M₁ M₂ (x.val :: o) (y.val :: o') k k' ∧ Holds m y.val.addr 8 a' ∧ a' ≠ 0 ∧ Fresh db m o' a' ∧
      ValueString.Spec.Target env.vs db y.val o' ty a' k'.val ∧ ∃ n', IsArray db k'.val (some e) n' := by
  have hx := (Deep.paired_within P.paired).1
  have hm : mode.uptr ≠ .oneByte := by rw [D.asValues]; simp
  rcases pointer_node P.left (P.leftCalls D) ht ha h0 hf with ⟨_, _, hr, hkn, _⟩ | ⟨k, hk, hd, htg'⟩
  · exfalso
    cases htg with
    | reply hr' => have := reply_unique hr hr'; cases this
    | one _ he => subst he; exact hkn ⟨_, rfl, D.complete x _ hx ht⟩
  have hkv := target_same htg htg' hm
  have hlen := (A x y P.paired).parts
  rw [hk] at hlen
  obtain ⟨k', hk'⟩ := List.length_eq_one_iff.mp hlen.symm
  have he := related_entry P.related ht (by simp)
  have ht' : Typed db y.val (.pointer ty) := by unfold Typed; rw [← he]; exact ht
  have no : ∀ {i : Info} {P : Prop}, ValueString.Spec.Object env.vs db y.val i → i ≠ .pointer ty → P := fun h1 h2 => absurd (typed_unique h1.2.2 ht') h2
  have key : ∃ a', Holds m y.val.addr 8 a' ∧ a' ≠ 0 ∧ Fresh db m o' a' ∧ Deep.Spec.Target env mode db y.val o' ty a' k'.val := by
    rcases node_cases P.right (P.rightCalls D) with ⟨n, h, _⟩ | ⟨n, _, _, h⟩ | ⟨n, k2, hk2, _, h⟩
    · rw [hk'] at h; cases h
    · generalize y.kids.map Node.val = vs at h
      cases h with
      | struct h => exact no h (by simp)
      | union h => exact no h (by simp)
      | unionMember h => exact no h (by simp)
      | array h => exact no h (by simp)
      | noElements h => exact no h (by simp)
    · rw [hk'] at hk2
      cases hk2
      generalize k'.val = kv at h ⊢
      cases h with
      | target h1 h2 h3 h4 h5 h6 =>
        have := typed_unique h1.2.2 ht'
        cases this
        exact ⟨_, h3, h4, h5, h6⟩
  obtain ⟨a', g1, g2, g3, g4⟩ := key
  have hkm' : k' ∈ y.kids := by rw [hk']; simp
  have hcalls' := D.calls k' (.inr (.part (Deep.paired_within P.paired).2 hkm'))
  have hk0 := tree_nonnull (kid_tree P.right hkm') hcalls'
  have fin : Related db arr k'.val ∧ ValueString.Spec.Target env.vs db y.val o' ty a' k'.val := by
    generalize hv : k'.val = kv at g4 hk0
    cases g4 with
    | reply hr' _ =>
      cases htg with
      | reply hr hae hia' =>
        rcases R.pointer x y o o' _ _ P.paired P.left P.right hr hr' with ⟨h, _⟩ | ⟨w, w', h1, h2, h3, h4⟩
        · cases h
        · cases h1; cases h2
          obtain ⟨n', h5, _⟩ := related_array h3 hia' hk0
          exact ⟨h3, .reply hr' (holds_unique h4 g1) h5⟩
      | one hr _ =>
        rcases R.pointer x y o o' _ _ P.paired P.left P.right hr hr' with ⟨_, h⟩ | ⟨w, w', h1, _⟩
        · cases h
        · cases h1
    | one hr' _ he' =>
      cases htg with
      | reply hr _ _ =>
        rcases R.pointer x y o o' _ _ P.paired P.left P.right hr hr' with ⟨h, _⟩ | ⟨w, w', _, h2, _⟩
        · cases h
        · cases h2
      | one hr he => rw [he] at he'; cases he'; exact ⟨.inl rfl, .one hr' he⟩
    | byte _ _ h => exact absurd h hm
  obtain ⟨n', h5, _⟩ := related_array fin.1 hia hk0
  exact ⟨k, k', a', hkv, P.kid (i := 0) (by rw [hk]; rfl) (by rw [hk']; rfl) (by rw [hkv]; exact fin.1), g1, g2, g3, fin.2, n', h5⟩

omit hs in
/-- The array printed in place of the second value. -/
theorem Pair.counted {e e' : Option Ref} {n k : Int} {arr : Value} (ho : Object env.vs db x.val (.array e n)) (hc : ValueString.Spec.Counted env.vs x.val o e n arr)
    (hia : IsArray db arr e' k) :
    ∃ n' k' arr', Object env.vs db y.val (.array e n') ∧ ValueString.Spec.Counted env.vs y.val o' e n' arr' ∧ IsArray db arr' e' k' ∧ k'.toNat = k.toNat ∧
      x.kids.length = k.toNat ∧ y.kids.length = k.toNat ∧ (∀ (i : Nat) z, x.kids[i]? = some z → Element db arr e' i z.val) ∧
      ∀ (i : Nat) z, y.kids[i]? = some z → Element db arr' e' i z.val := by
  have h0 := P.nonnull D
  obtain ⟨n', h1, h2⟩ := related_array P.related ⟨ho.2.1, ho.2.2⟩ h0
  have ho' : Object env.vs db y.val (.array e n') := ⟨(P.rightCalls D).1, h0, h1.2⟩
  have key : ∃ arr' k', ValueString.Spec.Counted env.vs y.val o' e n' arr' ∧ IsArray db arr' e' k' := by
    cases hc with
    | known h =>
      obtain ⟨rfl, rfl⟩ := isArray_unique hia ⟨ho.2.1, ho.2.2⟩
      refine ⟨_, n', .known ?_, h1⟩
      rcases h2 with rfl | h2
      · exact h
      · exact h2.2
    | empty ht he =>
      obtain rfl : -1 = n' := by
        rcases h2 with rfl | h2
        · rfl
        · exact absurd rfl h2.1
      exact ⟨_, k, .empty ht he, h0, hia.2⟩
    | reply ht hr =>
      obtain rfl : -1 = n' := by
        rcases h2 with rfl | h2
        · rfl
        · exact absurd rfl h2.1
      obtain ⟨r', hr'⟩ := R.answered _ x y o o' _ P.paired P.left P.right hr
      rcases R.flexible x y o o' _ _ P.paired P.left P.right hr hr' with ⟨h, _⟩ | ⟨w, w', e1, e2, h3⟩
      · cases h
      · cases e1
        subst e2
        obtain ⟨_, _, h4⟩ := hh _ _ _ hr'
        obtain ⟨k', h5, _⟩ := related_array h3 hia h4.1
        exact ⟨_, k', .reply ht hr', h5⟩
  obtain ⟨arr', k', h3, h4⟩ := key
  obtain ⟨_, a1, _, a2⟩ := array_kids P.left (P.leftCalls D) ho.2.2 hc hia
  obtain ⟨_, b1, _, b2⟩ := array_kids P.right (P.rightCalls D) ho'.2.2 h3 h4
  have := (A x y P.paired).parts
  exact ⟨n', k', arr', ho', h3, h4, by omega, a1, by omega, a2, b2⟩

omit hh R in
/-- Characters of arrays that agree. -/
theorem Pair.chars {arr arr' : Value} {k : Nat} {e' : Option Ref} (hch : Chars db arr k) (hia : IsArray db arr e' k) (hx : x.kids.length = k) (hy : y.kids.length = k)
    (he : ∀ (i : Nat) z, x.kids[i]? = some z → Element db arr e' i z.val) (he' : ∀ (i : Nat) z, y.kids[i]? = some z → Element db arr' e' i z.val) :
    ∀ i < k, m (arr'.addr + i) = m (arr.addr + i) ∧ m (arr.addr + i) ≠ none := by
  obtain ⟨h0, z, qs, t, f, qs', bs, be, g1, g2, g3, g4, g5⟩ := hch
  obtain ⟨rfl, _⟩ := isArray_unique hia ⟨h0, z, qs, g1, g2⟩
  have hbs := D.chars _ _ _ g4 g5
  subst hbs
  have hone : ∀ {sz}, Size db t sz → sz = 1 := fun h => Deep.size_unique hs h ((DeepCopy.size_final g3 rfl).mpr (.stored (.base (n := 1) g4)))
  intro i hi
  have a1 : x.kids[i]? = some x.kids[i] := List.getElem?_eq_getElem (by omega)
  have b1 : y.kids[i]? = some y.kids[i] := List.getElem?_eq_getElem (by omega)
  obtain ⟨r, sz, hr, hsz, hval⟩ := he i _ a1
  cases hr
  obtain ⟨r, sz', hr, hsz', hval'⟩ := he' i _ b1
  cases hr
  have := hone hsz
  subst this
  have := hone hsz'
  subst this
  obtain ⟨c, d, hc, hd, hcd⟩ := (A _ _ (.part P.paired a1 b1)).leaf (.inl ⟨_, _, by rw [hval]; exact ⟨f, qs', g3, g4⟩⟩)
  have := char_alike hs (by rw [hval, hval']) (by rw [hval]; exact D.elements _ _ _ g2) (f := f) (qs := qs') (by rw [hval]; exact g3) g4 g5 hc hd hcd
  rw [hval, hval'] at this
  simp only [Nat.mul_one] at this
  exact ⟨this.1.symm, this.2⟩

end

theorem chars_array {v : Value} {n : Nat} (h : Chars db v n) : ∃ t, IsArray db v (some t) n := by
  obtain ⟨h0, x, qs, t, f, qs', bs, be, h1, h2, _⟩ := h
  exact ⟨t, h0, x, qs, h1, h2⟩

theorem chars_of {v w : Value} {n : Nat} {e : Option Ref} (h : Chars db v n) (hv : IsArray db v e n) (hw : IsArray db w e n) : Chars db w n := by
  obtain ⟨h0, x, qs, t, f, qs', bs, be, h1, h2, h3⟩ := h
  obtain ⟨rfl, _⟩ := isArray_unique hv ⟨h0, x, qs, h1, h2⟩
  obtain ⟨w0, y, q, w1, w2⟩ := hw
  exact ⟨w0, y, q, t, f, qs', bs, be, w1, w2, h3⟩

theorem literal_alike {pr : UInt8 → Bool} {v w : Value} {e : Option Ref} {n n' : Int} (hv : IsArray db v e n) (hw : IsArray db w e n') (hn : n'.toNat = n.toNat)
    (hb : ∀ k : Nat, Chars db v k → n = k → ∀ i < k, m (w.addr + i) = m (v.addr + i)) {t : ValueString.Text} (h : Literal pr db m v t) : Literal pr db m w t := by
  obtain ⟨cs, u, h1, h2, h3, h4⟩ := h
  obtain ⟨t', ha⟩ := chars_array h1
  obtain ⟨rfl, rfl⟩ := isArray_unique hv ha
  obtain rfl : n' = ((cs.length + 1 : Nat) : Int) := by omega
  have := hb _ h1 rfl
  refine ⟨cs, u, chars_of h1 hv hw, h2, fun k c hk => ?_, h4⟩
  have hlt : k < (cs ++ [0]).length := (List.getElem?_eq_some_iff.mp hk).1
  rw [this k (by simpa using hlt)]
  exact h3 k c hk

theorem noLiteral_alike {pr : UInt8 → Bool} {v w : Value} {e : Option Ref} {n n' : Int} (hv : IsArray db v e n) (hw : IsArray db w e n') (hn : n'.toNat = n.toNat)
    (hb : ∀ k : Nat, Chars db v k → n = k → ∀ i < k, m (w.addr + i) = m (v.addr + i)) (h : NoLiteral pr db m v) : NoLiteral pr db m w := by
  by_cases h2 : n' < 2
  · exact .short hw h2
  obtain rfl : n' = n := by omega
  cases h with
  | other h =>
    refine .other fun k hk => ?_
    obtain ⟨t, ha⟩ := chars_array hk
    obtain ⟨rfl, rfl⟩ := isArray_unique hw ha
    exact h k (chars_of hk hw hv)
  | short h3 h4 =>
    obtain ⟨_, rfl⟩ := isArray_unique hv h3
    exact absurd h4 h2
  | @unterminated k c h3 h4 h5 h6 =>
    obtain ⟨t, ha⟩ := chars_array h3
    obtain ⟨rfl, rfl⟩ := isArray_unique hv ha
    exact .unterminated (chars_of h3 hv hw) h4 (by rw [hb _ h3 rfl _ (by omega)]; exact h5) h6
  | @unprintable k cs c h3 h4 h5 h6 h7 h8 =>
    obtain ⟨t, ha⟩ := chars_array h3
    obtain ⟨rfl, rfl⟩ := isArray_unique hv ha
    refine .unprintable (chars_of h3 hv hw) h4 (by rw [hb _ h3 rfl _ (by omega)]; exact h5) (fun j d hj => ?_) h7 h8
    have hlt : j < (cs ++ [c]).length := (List.getElem?_eq_some_iff.mp hj).1
    simp at hlt
    rw [hb _ h3 rfl j (by omega)]
    exact h6 j d hj

theorem membersText_alike : ∀ {ws ws' : List (Value × ValueString.Text)}, ws.map (fun w => (w.1.entry, w.2)) = ws'.map (fun w => (w.1.entry, w.2)) → membersText db ws = membersText db ws' := by
  intro ws ws' h
  unfold membersText
  have key : ∀ l : List (Value × ValueString.Text), (l.flatMap fun w => memberText (db w.1.entry).name w.2) = (l.map (fun w => (w.1.entry, w.2))).flatMap fun w => memberText (db w.1).name w.2 := by
    intro l
    rw [List.flatMap_map]
  rw [key, key, h]

/-- A text for each of the kids, the texts being given. -/
def pairUp (ks : List Node) (ws : List (Value × ValueString.Text)) : List (Value × ValueString.Text) := (ks.zip ws).map fun p => (p.1.val, p.2.2)

theorem pairUp_get {ks : List Node} {ws : List (Value × ValueString.Text)} {i : Nat} {w : Value} {u : ValueString.Text} (h : (pairUp ks ws)[i]? = some (w, u)) :
    ∃ k v, ks[i]? = some k ∧ ws[i]? = some (v, u) ∧ w = k.val := by
  unfold pairUp at h
  rw [List.getElem?_map, Option.map_eq_some_iff] at h
  obtain ⟨⟨k, v, u'⟩, h1, h2⟩ := h
  rw [List.getElem?_zip_eq_some] at h1
  cases h2
  exact ⟨k, v, h1.1, h1.2, rfl⟩

theorem pairUp_length {ks : List Node} {ws : List (Value × ValueString.Text)} (h : ks.length = ws.length) : (pairUp ks ws).length = ws.length := by
  unfold pairUp
  simp [h]

theorem pairUp_texts {ks : List Node} {ws : List (Value × ValueString.Text)} (h : ks.length = ws.length) : elementsText (pairUp ks ws) = elementsText ws := by
  unfold elementsText
  congr 1
  apply List.ext_getElem?
  intro i
  rw [List.getElem?_map, List.getElem?_map]
  cases hw : ws[i]? with
  | none => rw [List.getElem?_eq_none (by rw [pairUp_length h]; exact List.getElem?_eq_none_iff.mp hw)]
  | some p =>
    have hlt := (List.getElem?_eq_some_iff.mp hw).1
    rw [List.getElem?_eq_getElem (by rw [pairUp_length h]; exact hlt)]
    obtain ⟨k, v, h1, h2, h3⟩ := pairUp_get (List.getElem?_eq_getElem (l := pairUp ks ws) (i := i) (by rw [pairUp_length h]; exact hlt))
    rw [hw] at h2
    cases h2
    rfl

/-- Values that agree are printed as the same text. -/
theorem shown_alike (hs : Sane db) (hh : Honest env.vs db) (A : Agree env.cfg mode db m M₁ M₂) (D : Data env mode db M₁ M₂) (R : AlikeReplies env mode db m M₁ M₂)
    {o : List Value} {v : Value} {t : ValueString.Text} (h : Shown env.vs true db m o v t) :
    ∀ (x y : Node) (o' : List Value), v = x.val → Pair env mode db m M₁ M₂ o o' x y → Shown env.vs true db m o' y.val t := by
  induction h with
  | base ho hb =>
    rintro x y o' rfl P
    obtain ⟨c, d, h1, h2, h3⟩ := (A x y P.paired).leaf (.inl ⟨_, _, ho.2.2⟩)
    exact .base (P.object D ho (by simp)).2 (base_alike hs D ho.2.2 h1 h2 h3 hb)
  | enumeration ho hb =>
    rintro x y o' rfl P
    obtain ⟨c, d, h1, h2, h3⟩ := (A x y P.paired).leaf (.inr ⟨_, _, _, ho.2.2⟩)
    obtain ⟨he, ho'⟩ := P.object D ho (by simp)
    exact .enumeration ho' (enum_alike he ho.2.2 h1 h2 h3 hb)
  | null ho ha =>
    rintro x y o' rfl P
    exact .null (P.object D ho (by simp)).2 (P.unfollowed D A ho.2.2 (P.null_kids D ho.2.2 ha) ha)
  | address hd => cases hd
  | void hd ho ha h0 hf hr =>
    rintro x y o' rfl P
    rcases pointer_node P.left (P.leftCalls D) ho.2.2 ha h0 hf with ⟨hk, hl, _⟩ | ⟨k, hk, _, htg⟩
    · obtain ⟨g1, g2⟩ := P.void_right D A ho.2.2 hk hl ha h0
      exact .void rfl (P.object D ho (by simp)).2 (P.unfollowed D A ho.2.2 hk ha) h0 g1 g2
    · exfalso
      generalize k.val = kv at htg
      cases htg with
      | reply hr' => have := reply_unique hr hr'; cases this
      | one _ _ he => cases he
      | byte _ _ h => rw [D.asValues] at h; cases h
  | target hd ho ha h0 hf htg hst hia htt hq ih =>
    rintro x y o' rfl P
    obtain ⟨k, k', a', g1, g2, g3, g4, g5, g6, n', g7⟩ := P.target A D R ho.2.2 ha h0 hf htg hia
    exact .target rfl (P.object D ho (by simp)).2 g3 g4 g5 g6 (ih k k' _ g1.symm g2) g7 htt hq
  | string hd ho ha h0 hf htg hst hia htt hq ih =>
    rintro x y o' rfl P
    obtain ⟨k, k', a', g1, g2, g3, g4, g5, g6, n', g7⟩ := P.target A D R ho.2.2 ha h0 hf htg hia
    exact .string rfl (P.object D ho (by simp)).2 g3 g4 g5 g6 (ih k k' _ g1.symm g2) g7 htt hq
  | @struct o v s ms ws t ho hlen hmem hsub hwr ih =>
    rintro x y o' rfl P
    obtain ⟨he, ho'⟩ := P.object D ho (by simp)
    obtain ⟨_, a1, a2⟩ := struct_kids P.left (P.leftCalls D) ho.2.2
    obtain ⟨_, b1, b2⟩ := struct_kids P.right (P.rightCalls D) ho'.2.2
    have hl : y.kids.length = ws.length := by omega
    have key : ∀ (i : Nat) k' w u, y.kids[i]? = some k' → ws[i]? = some (w, u) → ∃ k, x.kids[i]? = some k ∧ w = k.val ∧ w.entry = k'.val.entry := by
      intro i k' w u h1 h2
      have hlt := (List.getElem?_eq_some_iff.mp h2).1
      have hk : x.kids[i]? = some (x.kids[i]'(by omega)) := List.getElem?_eq_getElem (by omega)
      obtain ⟨r1, m1, p1, p2, p3⟩ := a2 i _ hk
      obtain ⟨r2, m2, q1, q2, q3⟩ := b2 i _ h1
      obtain ⟨r3, m3, s1, s2, s3⟩ := hmem i w u h2
      rw [p1] at q1 s1
      cases q1; cases s1
      rw [p2] at q2 s2
      cases q2; cases s2
      exact ⟨_, hk, by rw [p3, s3], by rw [q3, s3]⟩
    refine .struct (ws := pairUp y.kids ws) ho' (by rw [pairUp_length hl]; exact hlen) ?_ ?_ ?_
    · intro i w u hi
      obtain ⟨k, v, h1, h2, rfl⟩ := pairUp_get hi
      exact b2 i k h1
    · intro w u hu
      obtain ⟨i, hi, hiu⟩ := List.getElem_of_mem hu
      obtain ⟨k', v, h1, h2, rfl⟩ := pairUp_get (by rw [List.getElem?_eq_getElem hi, hiu])
      obtain ⟨k, h3, rfl, h4⟩ := key i k' v u h1 h2
      exact ih _ _ (List.mem_of_getElem? h2) k k' _ rfl (P.kid h3 h1 (.inl h4))
    · rw [← membersText_alike (ws := ws)]
      · exact wrapped_copy he.symm hwr
      · apply List.ext_getElem?
        intro i
        rw [List.getElem?_map, List.getElem?_map]
        cases hw : ws[i]? with
        | none => rw [List.getElem?_eq_none (by rw [pairUp_length hl]; exact List.getElem?_eq_none_iff.mp hw)]
        | some p =>
          have hlt := (List.getElem?_eq_some_iff.mp hw).1
          have hi : (pairUp y.kids ws)[i]? = some ((pairUp y.kids ws)[i]'(by rw [pairUp_length hl]; exact hlt)) := List.getElem?_eq_getElem _
          obtain ⟨k', v, h1, h2, h3⟩ := pairUp_get hi
          obtain ⟨k, _, _, h4⟩ := key i k' v _ h1 h2
          rw [hi]
          rw [hw] at h2
          cases h2
          exact congrArg some (Prod.ext (h4.trans (congrArg Value.entry h3).symm) rfl)
  | @union o v s ms t ho hr hwr =>
    rintro x y o' rfl P
    obtain ⟨he, ho'⟩ := P.object D ho (by simp)
    refine .union ho' (fun hne => ?_) (wrapped_copy he.symm hwr)
    obtain ⟨r', hr'⟩ := R.answered _ x y o o' _ P.paired P.left P.right (hr hne)
    rcases R.union x y o o' _ _ P.paired P.left P.right (hr hne) hr' with ⟨_, rfl⟩ | ⟨w, w', h, _⟩
    · exact hr'
    · cases h
  | @unionMember o v s ms w u t ho hne hr hsub hwr ih =>
    rintro x y o' rfl P
    obtain ⟨he, ho'⟩ := P.object D ho (by simp)
    obtain ⟨r', hr'⟩ := R.answered _ x y o o' _ P.paired P.left P.right hr
    rcases R.union x y o o' _ _ P.paired P.left P.right hr hr' with ⟨h, _⟩ | ⟨w1, w', h1, rfl, h2⟩
    · cases h
    cases h1
    obtain ⟨_, k, hk, hkv⟩ := union_kids P.left (P.leftCalls D) ho.2.2 hne hr
    obtain ⟨_, k', hk', hkv'⟩ := union_kids P.right (P.rightCalls D) ho'.2.2 hne hr'
    have := ih k k' (y.val :: o') hkv.symm (P.kid (i := 0) (by rw [hk]; rfl) (by rw [hk']; rfl) (.inl (by rw [hkv, hkv', h2])))
    rw [hkv'] at this
    refine .unionMember ho' hne hr' this ?_
    rw [← membersText_alike (ws := [(w, u)]) (by simp [h2])]
    exact wrapped_copy he.symm hwr
  | @skipped o v e ho ht hr =>
    rintro x y o' rfl P
    obtain ⟨n', h1, h2⟩ := related_array P.related ⟨ho.2.1, ho.2.2⟩ (P.nonnull D)
    obtain rfl : -1 = n' := by
      rcases h2 with rfl | h2
      · rfl
      · exact absurd rfl h2.1
    obtain ⟨r', hr'⟩ := R.answered _ x y o o' _ P.paired P.left P.right hr
    rcases R.flexible x y o o' _ _ P.paired P.left P.right hr hr' with ⟨_, rfl⟩ | ⟨w, w', h, _⟩
    · exact .skipped ⟨(P.rightCalls D).1, P.nonnull D, h1.2⟩ ht hr'
    · cases h
  | literal ho hc hl =>
    rintro x y o' rfl P
    obtain ⟨cs, u, h1, _⟩ := id hl
    obtain ⟨t', ha⟩ := chars_array h1
    obtain ⟨n', k', arr', g1, g2, g3, g4, g5, g6, g7, g8⟩ := P.counted hh A D R ho hc ha
    refine .literal g1 g2 (literal_alike ha g3 g4 (fun k hk hkn i hi => ?_) hl)
    have e : cs.length + 1 = k := by omega
    subst e
    exact (P.chars hs A D hk ha (by omega) (by omega) g7 g8 i hi).1
  | @array o v e n arr e' n' ws ho hc hnl hia hlen hel hsub ih =>
    rintro x y o' rfl P
    obtain ⟨n2, k', arr', g1, g2, g3, g4, g5, g6, g7, g8⟩ := P.counted hh A D R ho hc hia
    have hl : y.kids.length = ws.length := by omega
    rw [← pairUp_texts hl]
    refine .array (ws := pairUp y.kids ws) g1 g2 (noLiteral_alike hia g3 g4 (fun k hk hkn i hi => ?_) hnl) g3 (by rw [pairUp_length hl]; omega) ?_ ?_
    · subst hkn
      exact (P.chars hs A D hk hia (by omega) (by omega) g7 g8 i hi).1
    · intro i w u hi
      obtain ⟨k, v, h1, h2, rfl⟩ := pairUp_get hi
      exact g8 i k h1
    · intro w u hu
      obtain ⟨i, hi, hiu⟩ := List.getElem_of_mem hu
      obtain ⟨z, v, h1, h2, rfl⟩ := pairUp_get (by rw [List.getElem?_eq_getElem hi, hiu])
      have hlt := (List.getElem?_eq_some_iff.mp h2).1
      have hk : x.kids[i]? = some (x.kids[i]'(by omega)) := List.getElem?_eq_getElem (by omega)
      obtain ⟨r1, m1, p1, p2, p3⟩ := g7 i _ hk
      obtain ⟨r2, m2, q1, q2, q3⟩ := g8 i _ h1
      obtain ⟨r3, m3, s1, s2, s3⟩ := hel i v u h2
      rw [p1] at q1 s1
      cases q1; cases s1
      have := Deep.size_unique hs p2 s2
      subst this
      exact ih _ _ (List.mem_of_getElem? h2) _ z _ (by rw [s3, p3]) (P.kid hk h1 (.inl (by rw [p3, q3])))
  | arguments hpk => rintro x y o' rfl P; exact absurd hpk (P.leftCalls D).1
  | vaList hpk => rintro x y o' rfl P; exact absurd hpk (P.leftCalls D).1
  | call ho => rintro x y o' rfl P; exact absurd ho.2.2 ((P.leftCalls D).2.1 _ _)
  | callPointer ho => rintro x y o' rfl P; exact absurd ho.2.2 ((P.leftCalls D).2.2 _ _)

end Verif.SameText
