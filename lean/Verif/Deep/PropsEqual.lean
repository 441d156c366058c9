import Verif.Deep.Equal
import Verif.Deep.Props
import Verif.Deep.EqualWorld
/-
Property theorems of the comparison of two values: C31.
-/
namespace Verif.Deep
open Verif Verif.Entry Verif.Entry.Spec Verif.Value Verif.Value.Spec Verif.Handlers Verif.ValueString Verif.ValueString.Spec Spec

section
variable {env : Env} {order : Table → Table} {mode : Mode} {db : Db} {m : Mem}

theorem equal_verdict (hs : Sane db) (hin : Interned env.vs db) (hh : Honest env.vs db) (hva : VaLists env db) (ho : Order order)
    {v₁ v₂ : Value} {M₁ M₂ : Map} (h₁ : memoryMap env order mode db m (some v₁) = .ok (some M₁)) (h₂ : memoryMap env order mode db m (some v₂) = .ok (some M₂))
    (hr₁ : Readable env.cfg mode db m M₁.top) (hr₂ : Readable env.cfg mode db m M₂.top) :
    ∃ f d, equalEx env order mode db m (some v₁) (some v₂) = .ok (if f then -14 else if d then 0 else 1) ∧ Verdict env.cfg mode db m M₁ M₂ M₁.top M₂.top f d := by
  obtain ⟨t₁, _⟩ := map_facts hs hin hh ho h₁
  obtain ⟨t₂, _⟩ := map_facts hs hin hh ho h₂
  obtain ⟨f, d, h, hv⟩ := cmp_spec (M₁ := M₁) (M₂ := M₂) hs.named hs.acyclic _ _ (ready_of hva t₁ hr₁) (ready_of hva t₂ hr₂)
  exact ⟨f, d, by simp only [equalEx, h₁, h₂, Outcome.bind_ok, h]; rfl, hv⟩

/-- C31: two values are found equal exactly when all corresponding objects of their trees agree;
the comparison fails exactly when numbers of different types correspond; otherwise the values
are found different.
Partial: whether the same object is reached in both on the same ways (sharing) is not part of
the agreement (see `C31_sharing_false`); nor, unless pointers are compared as values, is whether
a pointer that was not followed is `NULL` (`C31_null_false`). -/
theorem C31_equal_partial (hs : Sane db) (hin : Interned env.vs db) (hh : Honest env.vs db) (hva : VaLists env db) (ho : Order order)
    (v₁ v₂ : Value) (M₁ M₂ : Map) (h₁ : memoryMap env order mode db m (some v₁) = .ok (some M₁)) (h₂ : memoryMap env order mode db m (some v₂) = .ok (some M₂))
    (hr₁ : Readable env.cfg mode db m M₁.top) (hr₂ : Readable env.cfg mode db m M₂.top) :
    ∃ r : Int, equalEx env order mode db m (some v₁) (some v₂) = .ok r ∧ (r = 1 ∨ r = 0 ∨ r = -14) ∧
      (r = 1 ↔ Agree env.cfg mode db m M₁ M₂) ∧ (r = -14 ↔ Clash env.cfg mode db m M₁ M₂) := by
  obtain ⟨f, d, h, hv⟩ := equal_verdict hs hin hh hva ho h₁ h₂ hr₁ hr₂
  refine ⟨_, h, ?_, ?_, ?_⟩
  · cases f <;> cases d <;> simp
  · show _ ↔ ∀ x y, _
    rw [← hv.agree]
    cases f <;> cases d <;> simp
  · show _ ↔ ∃ x y, _
    rw [← hv.clash]
    cases f <;> cases d <;> simp

/-- C31: without a value the comparison fails; and if one of the values has no tree, it does not
find them equal or different. -/
theorem C31_fails (hs : Sane db) (hin : Interned env.vs db) (hh : Honest env.vs db) (ho : Order order) :
    (∀ a b : Option Value, a = none ∨ b = none → equalEx env order mode db m a b = .ok (-22)) ∧
    (∀ v₁ v₂ r, equalEx env order mode db m (some v₁) (some v₂) = .ok r →
      (¬ ∃ k, Tree env mode db m [] k ∧ k.val = v₁) ∨ (¬ ∃ k, Tree env mode db m [] k ∧ k.val = v₂) → r = -14) := by
  constructor
  · rintro a b (rfl | rfl)
    · rfl
    · cases a <;> rfl
  · intro v₁ v₂ r h hno
    simp only [equalEx] at h
    rw [bind_ok_iff] at h
    obtain ⟨o₁, h₁, h⟩ := h
    cases o₁ with
    | none => simpa using h.symm
    | some M₁ =>
      simp only at h
      rw [bind_ok_iff] at h
      obtain ⟨o₂, h₂, h⟩ := h
      cases o₂ with
      | none => simpa using h.symm
      | some M₂ =>
        obtain ⟨t₁, e₁, _⟩ := map_facts hs hin hh ho h₁
        obtain ⟨t₂, e₂, _⟩ := map_facts hs hin hh ho h₂
        rcases hno with h | h
        · exact absurd ⟨_, t₁, e₁⟩ h
        · exact absurd ⟨_, t₂, e₂⟩ h

theorem paired_self {k x y : Node} (h : Paired k k x y) : x = y := by
  induction h with
  | top => rfl
  | part _ h1 h2 ih =>
    subst ih
    rw [h1] at h2
    exact Option.some.inj h2

theorem paired_within {k₁ k₂ x y : Node} (h : Paired k₁ k₂ x y) : Within k₁ x ∧ Within k₂ y := by
  induction h with
  | top => exact ⟨.top, .top⟩
  | part _ h1 h2 ih => exact ⟨.part ih.1 (List.mem_of_getElem? h1), .part ih.2 (List.mem_of_getElem? h2)⟩

/-- C31: a value is equal to itself, if every floating-point number in it is equal to itself
under C's `==`.
Partial: NaNs are not (`C31_nan_false`). -/
theorem C31_reflexive_partial (hs : Sane db) (hin : Interned env.vs db) (hh : Honest env.vs db) (hva : VaLists env db) (ho : Order order)
    (v : Value) (M : Map) (h : memoryMap env order mode db m (some v) = .ok (some M)) (hr : Readable env.cfg mode db m M.top)
    (hnan : ∀ x t n, Within M.top x → Content env.cfg db m x.val (.real t n) → env.cfg.feq t n n = true) :
    equalEx env order mode db m (some v) (some v) = .ok 1 := by
  obtain ⟨r, he, _, h1, _⟩ := C31_equal_partial hs hin hh hva ho v v M M h h hr hr
  have : r = 1 := h1.mpr ?_
  · rw [he, this]
  intro x y hp
  obtain ⟨hw, _⟩ := paired_within hp
  have := paired_self hp
  subst this
  refine ⟨rfl, rfl, rfl, rfl, ?_, ?_, ?_, fun _ _ _ _ _ => rfl⟩
  · obtain ⟨f, qs, hf⟩ := final_exists (hs.acyclic x.val.entry)
    cases f with
    | none => exact .void hf hf
    | some z => exact .same hf hf ((kind_iff (final_info hf) (final_info hf)).mp rfl)
  · intro hsc
    obtain ⟨c, hc⟩ := hr.leaf x hw hsc
    refine ⟨c, c, hc, hc, ?_⟩
    cases c with
    | num t i => exact ⟨rfl, rfl⟩
    | real t n => exact ⟨rfl, hnan x t n hw hc⟩
    | enumeration i => exact rfl
  · intro hm hk ht
    obtain ⟨a, ha⟩ := hr.pointer hm x hw hk ht
    exact ⟨a, ha, ha⟩

theorem sameKind_symm {i j : Info} (h : SameKind i j) : SameKind j i := by
  cases i <;> cases j <;> simp only [SameKind] at h ⊢ <;> exact h.symm

theorem alike_symm {v w : Value} (h : Alike db v w) : Alike db w v := by
  cases h with
  | void h1 h2 => exact .void h2 h1
  | same h1 h2 h3 => exact .same h2 h1 (sameKind_symm h3)

theorem scalar_same {v w : Value} (h : Alike db v w) (hs : Scalar db v) : Scalar db w := by
  obtain ⟨a1, a2, _⟩ := scalar_alike h
  rcases hs with ⟨s, e, h⟩ | ⟨s, e, es, h⟩
  · exact .inl (a1 _ _ h)
  · exact .inr (a2 _ _ _ h)

theorem sameLeaf_symm {cfg : Plat} (hf : ∀ t a b, cfg.feq t a b = cfg.feq t b a) {c d : Leaf} (h : SameLeaf cfg c d) : SameLeaf cfg d c := by
  cases c <;> cases d <;> simp only [SameLeaf] at h ⊢
  · exact ⟨h.1.symm, h.2.symm⟩
  · obtain ⟨rfl, h⟩ := h
    exact ⟨rfl, by rw [hf]; exact h⟩
  · exact h.symm

theorem agree_symm {cfg : Plat} (hf : ∀ t a b, cfg.feq t a b = cfg.feq t b a) {M₁ M₂ : Map} {x y : Node} (h : AgreeNode cfg mode db m M₁ M₂ x y) :
    AgreeNode cfg mode db m M₂ M₁ y x where
  size := h.size.symm
  parts := h.parts.symm
  loop := h.loop.symm
  offset := h.offset.symm
  kind := alike_symm h.kind
  leaf hs := by
    obtain ⟨c, d, h1, h2, h3⟩ := h.leaf (scalar_same (alike_symm h.kind) hs)
    exact ⟨d, c, h2, h1, sameLeaf_symm hf h3⟩
  pointer hm hk := by
    rintro ⟨t, ht⟩
    obtain ⟨a, h1, h2⟩ := h.pointer hm (List.length_eq_zero_iff.mp (by rw [h.parts, hk]; rfl)) ((scalar_alike (alike_symm h.kind)).2.2.1 t ht)
    exact ⟨a, h2, h1⟩
  union hm hk := by
    rintro ⟨s, ms, ht⟩ i hi
    exact (h.union hm (List.length_eq_zero_iff.mp (by rw [h.parts, hk]; rfl)) ((scalar_alike (alike_symm h.kind)).2.2.2 s ms ht) i (by rw [h.size]; exact hi)).symm

theorem paired_symm {k₁ k₂ x y : Node} (h : Paired k₁ k₂ x y) : Paired k₂ k₁ y x := by
  induction h with
  | top => exact .top
  | part _ h1 h2 ih => exact .part ih h2 h1

theorem met_symm {cfg : Plat} (hf : ∀ t a b, cfg.feq t a b = cfg.feq t b a) {M₁ M₂ : Map} {k₁ k₂ x y : Node} (h : Met cfg mode db m M₁ M₂ k₁ k₂ x y) :
    Met cfg mode db m M₂ M₁ k₂ k₁ y x := by
  induction h with
  | top => exact .top
  | part _ h1 h2 h3 ih => exact .part ih (agree_symm hf h1) h3 h2

theorem clash_symm {cfg : Plat} {M₁ M₂ : Map} {x y : Node} (h : ClashNode cfg db m M₁ M₂ x y) : ClashNode cfg db m M₂ M₁ y x := by
  obtain ⟨h1, h2, h3, h4, c, d, t, t', a, b, e, f, g⟩ := h
  exact ⟨h1.symm, h2.symm, h3.symm, h4.symm, d, c, t', t, b, a, f, e, fun h => g h.symm⟩

/-- C31: the comparison gives the same both ways round. -/
theorem C31_symmetric (hs : Sane db) (hin : Interned env.vs db) (hh : Honest env.vs db) (hva : VaLists env db) (ho : Order order)
    (hf : ∀ t a b, env.cfg.feq t a b = env.cfg.feq t b a)
    (v₁ v₂ : Value) (M₁ M₂ : Map) (h₁ : memoryMap env order mode db m (some v₁) = .ok (some M₁)) (h₂ : memoryMap env order mode db m (some v₂) = .ok (some M₂))
    (hr₁ : Readable env.cfg mode db m M₁.top) (hr₂ : Readable env.cfg mode db m M₂.top) :
    equalEx env order mode db m (some v₁) (some v₂) = equalEx env order mode db m (some v₂) (some v₁) := by
  obtain ⟨r, he, hc, h1, h2⟩ := C31_equal_partial hs hin hh hva ho v₁ v₂ M₁ M₂ h₁ h₂ hr₁ hr₂
  obtain ⟨r', he', hc', h1', h2'⟩ := C31_equal_partial hs hin hh hva ho v₂ v₁ M₂ M₁ h₂ h₁ hr₂ hr₁
  have a : r = 1 ↔ r' = 1 := by
    rw [h1, h1']
    exact ⟨fun h x y hp => agree_symm hf (h y x (paired_symm hp)), fun h x y hp => agree_symm hf (h y x (paired_symm hp))⟩
  have b : r = -14 ↔ r' = -14 := by
    rw [h2, h2']
    exact ⟨fun ⟨x, y, h, h'⟩ => ⟨y, x, met_symm hf h, clash_symm h'⟩, fun ⟨x, y, h, h'⟩ => ⟨y, x, met_symm hf h, clash_symm h'⟩⟩
  rw [he, he']
  congr 1
  omega

/-- An object holds one thing. -/
theorem content_unique {cfg : Plat} {v : Value} (hn : Named db) {d d' : Leaf} (h : Content cfg db m v d) (h' : Content cfg db m v d') : d = d' := by
  have en : ∀ {d d' : Leaf}, Content cfg db m v d → Content cfg db m v d' → d.type = none → d = d' := by
    intro d d' h h' hn
    cases d with
    | enumeration i =>
      cases hd' : d'.type with
      | some t =>
        obtain ⟨_, _, _, k1⟩ := (content_type h).2 rfl
        obtain ⟨_, _, k2⟩ := (content_type h').1 t hd'
        have := typed_unique k1 k2
        cases this
      | none =>
        cases d' with
        | enumeration j =>
          have k := content_enum h
          rw [content_enum h'] at k
          cases k
          rfl
        | _ => cases hd'
    | _ => cases hn
  cases hd : d.type with
  | none => exact en h h' hd
  | some t =>
    cases hd' : d'.type with
    | none => exact (en h' h hd').symm
    | some t' =>
      have ht := content_ty hn h h' hd hd'
      subst ht
      obtain ⟨_, _, n, _, _, k1, _, k2⟩ := content_get hn h hd
      obtain ⟨_, _, n', _, _, k3, _, k4⟩ := content_get hn h' hd'
      rw [k1] at k3
      cases k3
      cases k2 with
      | num k5 => cases k4 with
        | num => rfl
        | real k6 => exact absurd k5 k6
      | real k5 => cases k4 with
        | num k6 => exact absurd k6 k5
        | real => rfl

theorem paired_trans {cfg : Plat} {M₁ M₂ : Map} {k₁ k₂ k₃ x z : Node} (hag : ∀ x y, Paired k₁ k₂ x y → AgreeNode cfg mode db m M₁ M₂ x y) (h : Paired k₁ k₃ x z) :
    ∃ y, Paired k₁ k₂ x y ∧ Paired k₂ k₃ y z := by
  induction h with
  | top => exact ⟨_, .top, .top⟩
  | @part x z x' z' i _ h1 h2 ih =>
    obtain ⟨y, h3, h4⟩ := ih
    have hl := (hag x y h3).parts
    obtain ⟨hi, _⟩ := List.getElem?_eq_some_iff.mp h1
    have hy : y.kids[i]? = some (y.kids[i]'(by omega)) := List.getElem?_eq_getElem _
    exact ⟨_, .part h3 h1 hy, .part h4 hy h2⟩

theorem sameKind_trans {i j k : Info} (h : SameKind i j) (h' : SameKind j k) : SameKind i k := by
  cases i <;> cases j <;> simp only [SameKind] at h <;> cases k <;> simp only [SameKind] at h' ⊢ <;> exact h.trans h'

/-- C31: what is equal to an equal value is equal, if that holds of floating-point numbers under
C's `==`. -/
theorem C31_transitive (hs : Sane db) (hin : Interned env.vs db) (hh : Honest env.vs db) (hva : VaLists env db) (ho : Order order)
    (hf : ∀ t a b c, env.cfg.feq t a b = true → env.cfg.feq t b c = true → env.cfg.feq t a c = true)
    (v₁ v₂ v₃ : Value) (M₁ M₂ M₃ : Map) (h₁ : memoryMap env order mode db m (some v₁) = .ok (some M₁)) (h₂ : memoryMap env order mode db m (some v₂) = .ok (some M₂))
    (h₃ : memoryMap env order mode db m (some v₃) = .ok (some M₃))
    (hr₁ : Readable env.cfg mode db m M₁.top) (hr₂ : Readable env.cfg mode db m M₂.top) (hr₃ : Readable env.cfg mode db m M₃.top)
    (e₁ : equalEx env order mode db m (some v₁) (some v₂) = .ok 1) (e₂ : equalEx env order mode db m (some v₂) (some v₃) = .ok 1) :
    equalEx env order mode db m (some v₁) (some v₃) = .ok 1 := by
  obtain ⟨r, he, _, h1, _⟩ := C31_equal_partial hs hin hh hva ho v₁ v₂ M₁ M₂ h₁ h₂ hr₁ hr₂
  obtain ⟨r', he', _, h1', _⟩ := C31_equal_partial hs hin hh hva ho v₂ v₃ M₂ M₃ h₂ h₃ hr₂ hr₃
  obtain ⟨r'', he'', _, h1'', _⟩ := C31_equal_partial hs hin hh hva ho v₁ v₃ M₁ M₃ h₁ h₃ hr₁ hr₃
  rw [he] at e₁
  rw [he'] at e₂
  have a := h1.mp (Outcome.ok.inj e₁)
  have b := h1'.mp (Outcome.ok.inj e₂)
  have : r'' = 1 := h1''.mpr ?_
  · rw [he'', this]
  intro x z hp
  obtain ⟨y, p1, p2⟩ := paired_trans a hp
  have u := a x y p1
  have w := b y z p2
  have hky : x.kids = [] → y.kids = [] := fun hk => List.length_eq_zero_iff.mp (by rw [← u.parts, hk]; rfl)
  refine ⟨u.size.trans w.size, u.parts.trans w.parts, u.loop.trans w.loop, u.offset.trans w.offset, ?_, ?_, ?_, ?_⟩
  · have k1 := u.kind
    have k2 := w.kind
    cases k1 with
    | void g1 g2 =>
      cases k2 with
      | void g3 g4 => exact .void g1 g4
      | same g3 g4 => have := final_unique g2 g3; cases this
    | same g1 g2 g3 =>
      cases k2 with
      | void g4 => have := final_unique g2 g4; cases this
      | same g4 g5 g6 =>
        have := final_unique g2 g4
        cases this
        exact .same g1 g5 (sameKind_trans g3 g6)
  · intro hsc
    obtain ⟨c, d, g1, g2, g3⟩ := u.leaf hsc
    obtain ⟨d', e, g4, g5, g6⟩ := w.leaf (scalar_same u.kind hsc)
    have hd : d = d' := content_unique hs.named g2 g4
    subst hd
    refine ⟨c, e, g1, g5, ?_⟩
    cases c <;> cases d <;> simp only [SameLeaf] at g3 <;> cases e <;> simp only [SameLeaf] at g6 ⊢
    · exact ⟨g3.1.trans g6.1, g3.2.trans g6.2⟩
    · obtain ⟨rfl, g3⟩ := g3
      obtain ⟨rfl, g6⟩ := g6
      exact ⟨rfl, hf _ _ _ _ g3 g6⟩
    · exact g3.trans g6
  · rintro hm hk ⟨t, ht⟩
    obtain ⟨p, g1, g2⟩ := u.pointer hm hk ⟨t, ht⟩
    obtain ⟨q, g3, g4⟩ := w.pointer hm (hky hk) ((scalar_alike u.kind).2.2.1 t ht)
    have := holds_unique g2 g3
    subst this
    exact ⟨p, g1, g4⟩
  · rintro hm hk ⟨s, ms, ht⟩ i hi
    exact (u.union hm hk ⟨s, ms, ht⟩ i hi).trans (w.union hm (hky hk) ((scalar_alike u.kind).2.2.2 s ms ht) i (by rw [← u.size]; exact hi))

end

/-! ### Concrete data -/

namespace Example
open World

/-- `unsigned char` (0), `int` (1), `double` (2), `unsigned` (3), `void *` (4), `int *` (5), `enum` (6),
`struct node *` (7), `struct node { struct node *next; int *data; int x; enum e; }` (12),
`struct root { struct node *a, *b; }` (15), `struct mix { double d; void *p; }` (18). -/
def forms : List Entry := [
  { info := .base 1 9, name := some (typeName .uchar) },
  { info := .base 4 6, name := some (typeName .int) },
  { info := .base 8 5, name := some (typeName .double) },
  { info := .base 4 8, name := some (typeName .uint) },
  { info := .pointer none },
  { info := .pointer (some 1) },
  { info := .enumeration 4 8 [], name := some [101] },
  { info := .pointer (some 12) },
  { info := .member { type := some 7, byteOffset := 0 }, name := some [110] },
  { info := .member { type := some 5, byteOffset := 8 }, name := some [100] },
  { info := .member { type := some 1, byteOffset := 16 }, name := some [120] },
  { info := .member { type := some 6, byteOffset := 20 }, name := some [101] },
  { info := .struct .struct 24 [8, 9, 10, 11], name := some [110] },
  { info := .member { type := some 7, byteOffset := 0 }, name := some [97] },
  { info := .member { type := some 7, byteOffset := 8 }, name := some [98] },
  { info := .struct .struct 16 [13, 14], name := some [114] },
  { info := .member { type := some 2, byteOffset := 0 }, name := some [100] },
  { info := .member { type := some 4, byteOffset := 8 }, name := some [112] },
  { info := .struct .struct 16 [16, 17], name := some [109] }]

theorem forms_ok : worldOk forms [1, 4, 8, 4, 8, 8, 4, 8, 8, 8, 4, 4, 24, 8, 8, 16, 8, 8, 16] = true := by decide

def valued : Mode := ⟨true, .asValues, .asMem, false⟩

/-- The map of a value. -/
def mapOf (mode : Mode) (m : Mem) (v : Value) : Option Map :=
  (build forms mode m 30 [] v).bind fun k =>
    let t := if mode.dag then (targets (number k 0).1).foldl reg [] else []
    match identify id t with
    | .ok offs => some ⟨(number k 0).1, t, offs⟩
    | _ => none

theorem mapOf_sound {mode : Mode} {m : Mem} {v : Value} {M : Map} (h : mapOf mode m v = some M) :
    memoryMap (env forms) id mode (world forms) m (some v) = .ok (some M) := by
  simp only [mapOf, Option.bind_eq_some_iff] at h
  obtain ⟨k, hb, h⟩ := h
  split at h
  · next offs hi =>
    cases h
    exact map_of forms_ok hb hi
  · cases h

/-- Values with maps that can be read. -/
def read (mode : Mode) (m : Mem) (v : Value) : Bool :=
  match mapOf mode m v with
  | some M => readTree mode (world forms) m M.top
  | none => false

theorem read_map {mode : Mode} {m : Mem} {v : Value} (h : read mode m v = true) :
    ∃ M, mapOf mode m v = some M ∧ memoryMap (env forms) id mode (world forms) m (some v) = .ok (some M) ∧ Readable (env forms).cfg mode (world forms) m M.top := by
  simp only [read] at h
  split at h
  · next M hM => exact ⟨M, hM, mapOf_sound hM, read_sound h⟩
  · cases h

def agrees (mode : Mode) (m : Mem) (v w : Value) : Bool :=
  match mapOf mode m v, mapOf mode m w with
  | some M₁, some M₂ => agreeTree (env forms).cfg mode (world forms) m M₁ M₂ M₁.top M₂.top
  | _, _ => false

theorem equal_of {mode : Mode} {m : Mem} {v w : Value} (hv : read mode m v = true) (hw : read mode m w = true) (h : agrees mode m v w = true) :
    equalEx (env forms) id mode (world forms) m (some v) (some w) = .ok 1 := by
  obtain ⟨M₁, e₁, h₁, r₁⟩ := read_map hv
  obtain ⟨M₂, e₂, h₂, r₂⟩ := read_map hw
  simp only [agrees, e₁, e₂] at h
  obtain ⟨r, he, _, h1, _⟩ := C31_equal_partial (world_sane forms_ok) (world_interned _) (world_honest _) (world_vaLists _) id_order v w M₁ M₂ h₁ h₂ r₁ r₂
  rw [he, h1.mpr (agree_sound h)]

/-- A node of a tree. -/
def nodeAt : List Nat → Node → Option Node
  | [], k => some k
  | i :: p, k => (k.kids[i]?).bind (nodeAt p)

theorem nodeAt_paired : ∀ {p : List Nat} {k₁ k₂ x y : Node}, nodeAt p k₁ = some x → nodeAt p k₂ = some y → Paired k₁ k₂ x y
  | [], _, _, _, _, h1, h2 => by cases h1; cases h2; exact .top
  | i :: p, k₁, k₂, x, y, h1, h2 => by
    simp only [nodeAt, Option.bind_eq_some_iff] at h1 h2
    obtain ⟨a, h1, h3⟩ := h1
    obtain ⟨b, h2, h4⟩ := h2
    exact paired_of h1 h2 (nodeAt_paired h3 h4)

/-- The numbers there are different, or the addresses in the pointers. -/
def differAt (mode : Mode) (m : Mem) (v w : Value) (p : List Nat) : Bool :=
  match (mapOf mode m v).bind fun M => nodeAt p M.top, (mapOf mode m w).bind fun M => nodeAt p M.top with
  | some x, some y =>
    (match leafOf (world forms) m x.val, leafOf (world forms) m y.val with | some c, some d => !sameLeaf (env forms).cfg c d | _, _ => false) ||
    (decide (mode.uptr = .asValues) && x.kids.isEmpty && (match fin (world forms) 100 x.val.entry with | some a => isPointer (world forms a).info | none => false) &&
      match m.loadN x.val.addr 8, m.loadN y.val.addr 8 with | .ok a, .ok b => decide (a ≠ b) | _, _ => false)
  | _, _ => false

theorem unequal_of {mode : Mode} {m : Mem} {v w : Value} {p : List Nat} (hv : read mode m v = true) (hw : read mode m w = true) (h : differAt mode m v w p = true) :
    ∃ r, equalEx (env forms) id mode (world forms) m (some v) (some w) = .ok r ∧ r ≠ 1 := by
  obtain ⟨M₁, e₁, h₁, r₁⟩ := read_map hv
  obtain ⟨M₂, e₂, h₂, r₂⟩ := read_map hw
  obtain ⟨r, he, _, h1, _⟩ := C31_equal_partial (world_sane forms_ok) (world_interned _) (world_honest _) (world_vaLists _) id_order v w M₁ M₂ h₁ h₂ r₁ r₂
  refine ⟨r, he, fun hr => ?_⟩
  have hag := h1.mp hr
  simp only [differAt, e₁, e₂, Option.bind_some] at h
  split at h
  · next x y hx hy =>
    have hxy := hag x y (nodeAt_paired hx hy)
    rw [Bool.or_eq_true] at h
    rcases h with h | h
    · split at h
      · next c d hc hd =>
        have hc := leafOf_sound (cfg := (env forms).cfg) hc
        have hd := leafOf_sound (cfg := (env forms).cfg) hd
        obtain ⟨c', d', hc', hd', hs⟩ := hxy.leaf (content_scalar hc)
        have hn := (world_sane forms_ok).named
        rw [← content_unique hn hc hc', ← content_unique hn hd hd'] at hs
        rw [sameLeaf_iff.mpr hs] at h
        cases h
      · cases h
    · simp only [Bool.and_eq_true, decide_eq_true_eq, List.isEmpty_iff] at h
      obtain ⟨⟨⟨hm, hk⟩, hp⟩, h⟩ := h
      split at hp
      · next a ha =>
        obtain ⟨qs, hf⟩ := fin_sound ha
        have ht : ∃ t, Typed (world forms) x.val (.pointer t) := by
          cases hi : (world forms a).info <;> rw [hi] at hp <;> first | cases hp; done | exact ⟨_, a, qs, hf, hi⟩
        obtain ⟨b, k1, k2⟩ := hxy.pointer hm hk ht
        rw [holds_loadN.mp k1, holds_loadN.mp k2] at h
        simp at h
      · cases hp
  · cases h

/-- Roots at 100 and 116 with equal rings of two nodes each; the data of a node is its own
number.  Nodes: 200, 300; 400, 500. -/
def rings : Mem := words [(100, 200), (108, 300), (116, 400), (124, 500),
  (200, 300), (208, 216), (216, 7), (300, 200), (308, 316), (316, 2 ^ 32 + 8),
  (400, 500), (408, 416), (416, 7), (500, 400), (508, 516), (516, 2 ^ 32 + 8)]

/-- Roots at 100 and 116: the first with one node twice, the second with two equal nodes. -/
def shared : Mem := words [(100, 200), (108, 200), (116, 400), (124, 500),
  (200, 0), (208, 0), (216, 7), (400, 0), (408, 0), (416, 7), (500, 0), (508, 0), (516, 7)]

/-- `struct mix` at 100 and 116: a `NULL` pointer, a pointer elsewhere; a NaN at 200, 201 and -1 at 208 and 212. -/
def mixed : Mem := words [(100, 0), (108, 0), (116, 2 ^ 63), (124, 1000), (200, 2047 * 2 ^ 52 + 1), (208, 201 + 2 ^ 32 * (2 ^ 32 - 1))]

/-- Pointers at 100 and 108 to nodes that are followed by themselves, at 200 and 300. -/
def loops : Mem := words [(100, 200), (108, 300), (200, 200), (208, 0), (216, 7), (300, 300), (308, 0), (316, 7)]

end Example

open Example World

/-- C31: the hypotheses are met: equal rings at different places are found equal. -/
example : read Example.mode rings ⟨15, 100⟩ = true ∧ read Example.mode rings ⟨15, 116⟩ = true ∧
    equalEx (env forms) id Example.mode (world forms) rings (some ⟨15, 100⟩) (some ⟨15, 116⟩) = .ok 1 :=
  ⟨by decide +kernel, by decide +kernel, equal_of (by decide +kernel) (by decide +kernel) (by decide +kernel)⟩

/-- C31: the first node of a ring and the second one are different. -/
example : ∃ r, equalEx (env forms) id Example.mode (world forms) rings (some ⟨12, 200⟩) (some ⟨12, 300⟩) = .ok r ∧ r ≠ 1 := by
  exact unequal_of (p := [2]) (by decide +kernel) (by decide +kernel) (by decide +kernel)

/-- C31 is false as stated: a value in which two pointers point to the same object and one in
which they point to equal objects are found equal. -/
theorem C31_sharing_false : equalEx (env forms) id Example.mode (world forms) shared (some ⟨15, 100⟩) (some ⟨15, 116⟩) = .ok 1 ∧
    Holds shared 100 8 200 ∧ Holds shared 108 8 200 ∧ Holds shared 116 8 400 ∧ Holds shared 124 8 500 := by
  refine ⟨equal_of (by decide +kernel) (by decide +kernel) (by decide +kernel), ?_, ?_, ?_, ?_⟩ <;> exact holds_loadN.mpr (by decide +kernel)

/-- C31 is false as stated: `NULL` and a pointer to something unknown are found equal if
pointers that are not followed are ignored. -/
theorem C31_null_false : equalEx (env forms) id Example.mode (world forms) mixed (some ⟨18, 100⟩) (some ⟨18, 116⟩) = .ok 1 ∧
    Holds mixed 108 8 0 ∧ Holds mixed 124 8 1000 := by
  refine ⟨equal_of (by decide +kernel) (by decide +kernel) (by decide +kernel), ?_, ?_⟩ <;> exact holds_loadN.mpr (by decide +kernel)

/-- C31 is false as stated: a NaN is not equal to itself. -/
theorem C31_nan_false : ∃ r, equalEx (env forms) id Example.mode (world forms) mixed (some ⟨2, 200⟩) (some ⟨2, 200⟩) = .ok r ∧ r ≠ 1 :=
  unequal_of (p := []) (by decide +kernel) (by decide +kernel) (by decide +kernel)

/-- C31 is false as stated: of two pointers to equal nodes, each followed by itself, the way back
to the node is compared as an address if pointers that are not followed are compared as values. -/
theorem C31_loop_false : ∃ r, equalEx (env forms) id valued (world forms) loops (some ⟨7, 100⟩) (some ⟨7, 108⟩) = .ok r ∧ r ≠ 1 :=
  unequal_of (p := [0, 0, 0]) (by decide +kernel) (by decide +kernel) (by decide +kernel)

/-- They are equal if such pointers are ignored. -/
example : equalEx (env forms) id Example.mode (world forms) loops (some ⟨7, 100⟩) (some ⟨7, 108⟩) = .ok 1 :=
  equal_of (by decide +kernel) (by decide +kernel) (by decide +kernel)

/-- C31: an `int` and an `unsigned` cannot be compared. -/
example : equalEx (env forms) id Example.mode (world forms) mixed (some ⟨1, 208⟩) (some ⟨3, 208⟩) = .ok (-14) := by
  obtain ⟨M₁, e₁, h₁, r₁⟩ := read_map (mode := Example.mode) (m := mixed) (v := ⟨1, 208⟩) (by decide +kernel)
  obtain ⟨M₂, e₂, h₂, r₂⟩ := read_map (mode := Example.mode) (m := mixed) (v := ⟨3, 208⟩) (by decide +kernel)
  obtain ⟨r, he, _, _, h1⟩ := C31_equal_partial (world_sane forms_ok) (world_interned _) (world_honest _) (world_vaLists _) id_order _ _ M₁ M₂ h₁ h₂ r₁ r₂
  have k₁ : mapOf Example.mode mixed ⟨1, 208⟩ = some ⟨.mk 0 ⟨1, 208⟩ 4 0 false [], [], []⟩ := by rfl
  have k₂ : mapOf Example.mode mixed ⟨3, 208⟩ = some ⟨.mk 0 ⟨3, 208⟩ 4 0 false [], [], []⟩ := by rfl
  rw [k₁] at e₁
  rw [k₂] at e₂
  cases e₁
  cases e₂
  rw [he, h1.mpr ⟨_, _, .top, rfl, rfl, rfl, rfl, .num .int 201, .num .uint 201, .int, .uint, leafOf_sound (by rfl), leafOf_sound (by rfl), rfl, rfl, by decide⟩]

/-- C31, reflexive: the hypotheses are met by a struct with a negative zero. -/
example : equalEx (env forms) id Example.mode (world forms) mixed (some ⟨18, 116⟩) (some ⟨18, 116⟩) = .ok 1 := by
  have hm : ∃ M, mapOf Example.mode mixed ⟨18, 116⟩ = some M ∧ readTree Example.mode (world forms) mixed M.top = true ∧ numTree cfg (world forms) mixed M.top = true :=
    ⟨(mapOf Example.mode mixed ⟨18, 116⟩).get (by decide +kernel), (Option.some_get _).symm, by decide +kernel, by decide +kernel⟩
  obtain ⟨M, h1, h2, h3⟩ := hm
  refine C31_reflexive_partial (world_sane forms_ok) (world_interned _) (world_honest _) (world_vaLists _) id_order _ M (mapOf_sound h1) (read_sound h2) ?_
  intro x t n hx hc
  obtain ⟨c, hl⟩ := read_leaf h2 hx (content_scalar hc)
  have := content_unique (world_sane forms_ok).named (leafOf_sound hl) hc
  subst this
  exact num_sound h3 hx hl

/-- C31, symmetric and transitive: the hypotheses are met by two rings. -/
example : equalEx (env forms) id Example.mode (world forms) rings (some ⟨15, 100⟩) (some ⟨15, 116⟩) =
    equalEx (env forms) id Example.mode (world forms) rings (some ⟨15, 116⟩) (some ⟨15, 100⟩) ∧
    equalEx (env forms) id Example.mode (world forms) rings (some ⟨15, 100⟩) (some ⟨15, 100⟩) = .ok 1 := by
  have e := equal_of (mode := Example.mode) (m := rings) (v := ⟨15, 100⟩) (w := ⟨15, 116⟩) (by decide +kernel) (by decide +kernel) (by decide +kernel)
  obtain ⟨M₁, e₁, h₁, r₁⟩ := read_map (mode := Example.mode) (m := rings) (v := ⟨15, 100⟩) (by decide +kernel)
  obtain ⟨M₂, e₂, h₂, r₂⟩ := read_map (mode := Example.mode) (m := rings) (v := ⟨15, 116⟩) (by decide +kernel)
  have s := C31_symmetric (world_sane forms_ok) (world_interned _) (world_honest _) (world_vaLists _) id_order cfg_symm _ _ M₁ M₂ h₁ h₂ r₁ r₂
  exact ⟨s, C31_transitive (world_sane forms_ok) (world_interned _) (world_honest _) (world_vaLists _) id_order cfg_trans _ _ _ M₁ M₂ M₁ h₁ h₂ h₁ r₁ r₂ r₁ e (s ▸ e)⟩

end Verif.Deep
