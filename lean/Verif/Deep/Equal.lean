import Verif.Deep.EqualSpec
import Verif.Deep.Sweep
/-
Lemmas on the comparison of two values.
-/
namespace Verif.Deep
open Verif Verif.Entry Verif.Entry.Spec Verif.Value Verif.Value.Spec Verif.Handlers Verif.ValueString Verif.ValueString.Spec Spec

section
variable {cfg : Plat} {mode : Mode} {db : Db} {m : Mem}

theorem twos_inj {k a b : Nat} (ha : a < 256 ^ k) (hb : b < 256 ^ k) (h : twos k a = twos k b) : a = b := by
  unfold twos at h
  have e : ((256 : Int) ^ k) = ((256 ^ k : Nat) : Int) := by simp
  rw [e] at h
  generalize 256 ^ k = p at *
  split at h <;> split at h <;> omega

theorem intOf_inj {t : Ty} {a b : Nat} (ha : a < 256 ^ Value.Spec.sizeOf t) (hb : b < 256 ^ Value.Spec.sizeOf t) (h : intOf t a = intOf t b) : a = b := by
  cases t <;> simp only [intOf] at h <;> first | exact twos_inj ha hb h | omega

/-- What reading a number gives. -/
inductive Got (t : Ty) (n : Nat) : Leaf → Prop where
  | num : Integral t → n < 256 ^ Value.Spec.sizeOf t → Got t n (.num t (intOf t n))
  | real : ¬ Integral t → Got t n (.real t n)

theorem content_get (hn : Named db) {v : Value} {c : Leaf} (h : Content cfg db m v c) {t : Ty} (ht : c.type = some t) :
    ∃ x qs n, Final db v.entry (some x) qs ∧ Describes db x t ∧ getTy cfg db m (some v) t = .ok (.ok n) ∧ useOk t n = true ∧ Got t n c := by
  cases h with
  | @integer t' n ho hi =>
    cases ht
    have hu := object_use ho
    obtain ⟨⟨x, qs, hf, hd⟩, hb, h0, hh, _⟩ := ho
    exact ⟨x, qs, n, hf, hd, (getTy_plain hn hf h0 hd hb).1 n hh, hu, .num hi hh.1⟩
  | @real t' n ho hi =>
    cases ht
    have hu := object_use ho
    obtain ⟨⟨x, qs, hf, hd⟩, hb, h0, hh, _⟩ := ho
    exact ⟨x, qs, n, hf, hd, (getTy_plain hn hf h0 hd hb).1 n hh, hu, .real hi⟩
  | @bits t' be base bit size qs c h h30 hw hf hiso hbool hchar =>
    cases ht
    obtain ⟨n, hg, hv, hlt⟩ := bit_read (cfg := cfg) hn h h30 hw hf hiso
    obtain ⟨⟨x, bs, hfin, hd, hi⟩, hint, _⟩ := h
    have hc := hf.1
    have hu : useOk t n = true := by
      simp only [useOk, decide_eq_true_eq]
      by_cases e : t = .bool
      · subst e
        simp [signedTy, Bitfield.Spec.meaning] at hv
        exact .inr (by have := hbool rfl; omega)
      · exact .inl e
    have hm : intOf t n = Bitfield.Spec.meaning (signedTy t be) size c := by
      rw [← hv]
      by_cases hs : signedTy t be = true
      · rw [if_pos hs]
        cases t <;> simp [signedTy] at hs <;> rfl
      · rw [if_neg hs]
        have hnc : (n : Int) = c := by
          rw [if_neg hs] at hv
          simp [Bitfield.Spec.meaning, hs] at hv
          omega
        by_cases e : t = .char
        · subst e
          have h9 : be = 9 := by simpa [signedTy] using hs
          have h7 : 2 ^ size ≤ 2 ^ 7 := Nat.pow_le_pow_right (by decide) (hchar rfl h9)
          simp only [intOf, twos]
          rw [if_pos (by show 2 * n < 256; omega)]
        · cases t <;> simp [signedTy] at hs <;> first | rfl | exact absurd rfl e
    exact ⟨x, qs, n, hfin, hd, hg, hu, by rw [← hm]; exact .num hint hlt⟩
  | enumeration => cases ht

theorem got_eq {t : Ty} {a b : Nat} {c d : Leaf} (hc : Got t a c) (hd : Got t b d) : cfg.eq t a b = true ↔ SameLeaf cfg c d := by
  cases hc with
  | num hi ha =>
    cases hd with
    | num _ hb =>
      have : cfg.eq t a b = (a == b) := by cases t <;> simp [Integral] at hi <;> rfl
      simp only [this, beq_iff_eq, SameLeaf, true_and]
      exact ⟨fun h => by rw [h], intOf_inj ha hb⟩
    | real hi' => exact absurd hi hi'
  | real hi =>
    cases hd with
    | num hi' _ => exact absurd hi' hi
    | real _ =>
      have : cfg.eq t a b = cfg.feq t a b := by cases t <;> simp [Integral] at hi <;> rfl
      simp [this, SameLeaf]

theorem equal_numbers (hn : Named db) {v w : Value} {c d : Leaf} (hc : Content cfg db m v c) (hd : Content cfg db m w d) {t t' : Ty}
    (ht : c.type = some t) (ht' : d.type = some t') :
    (t ≠ t' → equalBaseType cfg db m (some v) (some w) = .ok (-14)) ∧
    (t = t' → ∃ b : Bool, equalBaseType cfg db m (some v) (some w) = .ok (if b then 1 else 0) ∧ (b = true ↔ SameLeaf cfg c d)) := by
  obtain ⟨x, qs, n, hf, hx, hg, hu, hgot⟩ := content_get hn hc ht
  obtain ⟨x', qs', n', hf', hx', hg', hu', hgot'⟩ := content_get hn hd ht'
  obtain ⟨k1, k2⟩ := equalLoop_hit (cfg := cfg) (m := m) (w := w) hn hf hx hf' allOrder (all_order t)
  constructor
  · intro hne
    refine k2 ?_
    rintro ⟨y, hy, hy'⟩
    cases hy
    exact hne (describes_unique hy' hx')
  · rintro rfl
    exact ⟨_, k1 n n' ⟨x', rfl, hx'⟩ hg hg' hu hu', got_eq hgot hgot'⟩

theorem content_enum {v : Value} {i : Int} (h : Content cfg db m v (.enumeration i)) : enumeration db m (some v) = .ok (.ok i) := by
  cases h with
  | enumeration hf hi ha hs hh => exact enum_get hf hi ha hs hh

theorem equal_enums {v w : Value} {i j : Int} (hc : Content cfg db m v (.enumeration i)) (hd : Content cfg db m w (.enumeration j)) :
    equalEnumeration db m (some v) (some w) = .ok (if i = j then 1 else 0) := by
  simp only [equalEnumeration, content_enum hc, content_enum hd, Outcome.bind_ok]
  rfl

/-- The content tells the sort of type. -/
theorem content_type {v : Value} {c : Leaf} (h : Content cfg db m v c) :
    (∀ t, c.type = some t → ∃ s e, Typed db v (.base s e)) ∧ (c.type = none → ∃ s e es, Typed db v (.enumeration s e es)) := by
  cases h with
  | integer h =>
    obtain ⟨⟨x, qs, hf, bs, be, hi, _⟩, _⟩ := h
    exact ⟨fun _ _ => ⟨bs, be, x, qs, hf, hi⟩, fun h => by cases h⟩
  | real h =>
    obtain ⟨⟨x, qs, hf, bs, be, hi, _⟩, _⟩ := h
    exact ⟨fun _ _ => ⟨bs, be, x, qs, hf, hi⟩, fun h => by cases h⟩
  | bits h =>
    obtain ⟨⟨x, bs, hf, _, hi⟩, _⟩ := h
    exact ⟨fun _ _ => ⟨_, _, x, _, hf, hi⟩, fun h => by cases h⟩
  | enumeration hf hi => exact ⟨fun _ h => (by cases h), fun _ => ⟨_, _, _, _, _, hf, hi⟩⟩

theorem typed_unique {v : Value} {i j : Info} (h : Typed db v i) (h' : Typed db v j) : i = j := by
  obtain ⟨x, qs, hf, rfl⟩ := h
  obtain ⟨y, qs', hf', rfl⟩ := h'
  have := final_unique hf hf'
  cases this
  rfl

/-! ### Kinds -/

theorem kind_iff {i j : Info} (hi : ∀ t q m, i ≠ .typedef t ∧ i ≠ .qual q t ∧ i ≠ .member m ∧ i ≠ .var t) (hj : ∀ t q m, j ≠ .typedef t ∧ j ≠ .qual q t ∧ j ≠ .member m ∧ j ≠ .var t) :
    kindOf i = kindOf j ↔ SameKind i j := by
  have nq : ∀ {i : Info}, (∀ t q m, i ≠ .typedef t ∧ i ≠ .qual q t ∧ i ≠ .member m ∧ i ≠ .var t) → ∀ q t, i ≠ .qual q t := fun h q t => (h t q { type := none }).2.1
  have nt : ∀ {i : Info}, (∀ t q m, i ≠ .typedef t ∧ i ≠ .qual q t ∧ i ≠ .member m ∧ i ≠ .var t) → ∀ t, i ≠ .typedef t := fun h t => (h t .const { type := none }).1
  have nm : ∀ {i : Info}, (∀ t q m, i ≠ .typedef t ∧ i ≠ .qual q t ∧ i ≠ .member m ∧ i ≠ .var t) → ∀ m, i ≠ .member m := fun h m => (h none .const m).2.2.1
  have nv : ∀ {i : Info}, (∀ t q m, i ≠ .typedef t ∧ i ≠ .qual q t ∧ i ≠ .member m ∧ i ≠ .var t) → ∀ t, i ≠ .var t := fun h t => (h t .const { type := none }).2.2.2
  have ref : ∀ v a b, kindOf (.reference v a b) = if v then 13 else 12 := by intro v a b; cases v <;> rfl
  have str : ∀ k a b, kindOf (.struct k a b) = match k with | .struct => 16 | .union => 17 | .class => 18 := by intro k a b; cases k <;> rfl
  cases i with
  | typedef t => exact absurd rfl (nt hi t)
  | qual q t => exact absurd rfl (nq hi q t)
  | member t => exact absurd rfl (nm hi t)
  | var t => exact absurd rfl (nv hi t)
  | reference v a b =>
    cases j with
    | typedef t => exact absurd rfl (nt hj t)
    | qual q t => exact absurd rfl (nq hj q t)
    | member t => exact absurd rfl (nm hj t)
    | var t => exact absurd rfl (nv hj t)
    | reference w _ _ => cases v <;> cases w <;> simp [kindOf, SameKind]
    | struct k _ _ => cases v <;> cases k <;> simp [kindOf, SameKind]
    | _ => cases v <;> simp [kindOf, SameKind]
  | struct k a b =>
    cases j with
    | typedef t => exact absurd rfl (nt hj t)
    | qual q t => exact absurd rfl (nq hj q t)
    | member t => exact absurd rfl (nm hj t)
    | var t => exact absurd rfl (nv hj t)
    | reference w _ _ => cases k <;> cases w <;> simp [kindOf, SameKind]
    | struct k' _ _ => cases k <;> cases k' <;> simp [kindOf, SameKind]
    | _ => cases k <;> simp [kindOf, SameKind]
  | _ =>
    cases j with
    | typedef t => exact absurd rfl (nt hj t)
    | qual q t => exact absurd rfl (nq hj q t)
    | member t => exact absurd rfl (nm hj t)
    | var t => exact absurd rfl (nv hj t)
    | reference w _ _ => cases w <;> simp [kindOf, SameKind]
    | struct k' _ _ => cases k' <;> simp [kindOf, SameKind]
    | _ => simp [kindOf, SameKind]

theorem final_info {r x : Ref} {qs : List Qual} (h : Final db r (some x) qs) :
    ∀ t q m, (db x).info ≠ .typedef t ∧ (db x).info ≠ .qual q t ∧ (db x).info ≠ .member m ∧ (db x).info ≠ .var t := by
  have hn := final_not_alias h
  intro t q m
  exact ⟨fun h => hn _ (.typedef h), fun h => hn _ (.qual h), fun h => hn _ (.member h), fun h => hn _ (.var h)⟩

/-- What the kinds of two values are. -/
theorem kinds {v w : Value} (hv : v.addr ≠ 0) (hw : w.addr ≠ 0) {f f' : Option Ref} {qs qs' : List Qual} (hf : Final db v.entry f qs) (hf' : Final db w.entry f' qs') :
    finalKind db v = .ok (kind db f) ∧ finalKind db w = .ok (kind db f') ∧ (kind db f = kind db f' ↔ Alike db v w) := by
  have fk : ∀ {v : Value} {f qs}, v.addr ≠ 0 → Final db v.entry f qs → finalKind db v = .ok (kind db f) := by
    intro v f qs hv hf
    simp only [finalKind, Outcome.assert, hv, ne_eq, not_false_eq_true, if_true, Outcome.bind_ok, final_entry hf, Outcome.ofLoop_some]
    rfl
  have nn : ∀ i, kindOf i ≠ -1 := by
    intro i
    cases i with
    | qual q _ => cases q <;> simp [kindOf]
    | reference v _ _ => cases v <;> simp [kindOf]
    | struct k _ _ => cases k <;> simp [kindOf]
    | _ => simp [kindOf]
  refine ⟨fk hv hf, fk hw hf', ?_⟩
  constructor
  · intro h
    cases f with
    | none =>
      cases f' with
      | none => exact .void hf hf'
      | some y => exact absurd h.symm (nn _)
    | some x =>
      cases f' with
      | none => exact absurd h (nn _)
      | some y => exact .same hf hf' ((kind_iff (final_info hf) (final_info hf')).mp h)
  · intro h
    cases h with
    | void h1 h2 =>
      rw [final_unique hf h1, final_unique hf' h2]
    | same h1 h2 h3 =>
      rw [final_unique hf h1, final_unique hf' h2]
      exact (kind_iff (final_info h1) (final_info h2)).mpr h3

theorem isA_final {v : Value} {x : Ref} {qs : List Qual} (h : Final db v.entry (some x) qs) (p : Info → Bool) : isA db p v = .ok (p (db x).info) := by
  simp only [isA, finalOf_some h, Outcome.ofLoop_some, Outcome.bind_ok]
  cases p (db x).info <;> rfl

theorem isA_void {v : Value} {qs : List Qual} (h : Final db v.entry none qs) (p : Info → Bool) : isA db p v = .ok false := by
  simp only [isA, finalOf_none h p (fun x hx => by cases hx), Outcome.ofLoop_some, Outcome.bind_ok]
  rfl

theorem memcmp_spec {a b n : Nat} (ha : ∀ i < n, m (a + i) ≠ none) (hb : ∀ i < n, m (b + i) ≠ none) :
    (memcmp m a b n = .ok .same ∧ ∀ i < n, m (a + i) = m (b + i)) ∨ (memcmp m a b n = .ok .differ ∧ ¬ ∀ i < n, m (a + i) = m (b + i)) := by
  obtain ⟨as, h1⟩ := Mem.load_mapped (mapped_of ha)
  obtain ⟨bs, h2⟩ := Mem.load_mapped (mapped_of hb)
  have l1 := Mem.load_length h1
  have l2 := Mem.load_length h2
  simp only [memcmp, h1, h2, Outcome.bind_ok]
  by_cases h : as = bs
  · subst h
    refine .inl ⟨by simp, fun i hi => ?_⟩
    rw [(Mem.load_get h1 i hi).1, (Mem.load_get h2 i hi).1]
  · refine .inr ⟨by simp [h], fun hall => h ?_⟩
    refine List.ext_getElem? fun i => ?_
    by_cases hi : i < n
    · rw [← (Mem.load_get h1 i hi).1, ← (Mem.load_get h2 i hi).1, hall i hi]
    · rw [List.getElem?_eq_none (by omega), List.getElem?_eq_none (by omega)]

/-- One node can be compared. -/
structure Ready (cfg : Plat) (mode : Mode) (db : Db) (m : Mem) (x : Node) : Prop where
  nonNull : x.val.addr ≠ 0
  leaf : Scalar db x.val → (∃ c, Content cfg db m x.val c) ∧ x.kids = []
  pointer : mode.uptr = .asValues → x.kids = [] → (∃ t, Typed db x.val (.pointer t)) → ∃ a, Holds m x.val.addr 8 a
  union : mode.union = .asMem → x.kids = [] → (∃ s ms, Typed db x.val (.struct .union s ms)) → ∀ i < x.size, m (x.val.addr + i) ≠ none

variable {M₁ M₂ : Map}

/-- What comparing two entries gives. -/
inductive Judged (cfg : Plat) (mode : Mode) (db : Db) (m : Mem) (M₁ M₂ : Map) (x y : Node) : Option Cmp → Prop where
  | go : AgreeNode cfg mode db m M₁ M₂ x y → Judged cfg mode db m M₁ M₂ x y none
  | same : AgreeNode cfg mode db m M₁ M₂ x y → x.kids = [] → Judged cfg mode db m M₁ M₂ x y (some .same)
  | differ : ¬ AgreeNode cfg mode db m M₁ M₂ x y → ¬ ClashNode cfg db m M₁ M₂ x y → Judged cfg mode db m M₁ M₂ x y (some .differ)
  | fail : ¬ AgreeNode cfg mode db m M₁ M₂ x y → ClashNode cfg db m M₁ M₂ x y → Judged cfg mode db m M₁ M₂ x y (some .fail)

theorem content_scalar {v : Value} {c : Leaf} (h : Content cfg db m v c) : Scalar db v := by
  cases hc : c.type with
  | some t => exact .inl ((content_type h).1 t hc)
  | none => exact .inr ((content_type h).2 hc)

theorem scalar_alike {v w : Value} (h : Alike db v w) : (∀ s e, Typed db v (.base s e) → ∃ s e, Typed db w (.base s e)) ∧
    (∀ s e es, Typed db v (.enumeration s e es) → ∃ s e es, Typed db w (.enumeration s e es)) ∧
    (∀ t, Typed db v (.pointer t) → ∃ t, Typed db w (.pointer t)) ∧
    (∀ s ms, Typed db v (.struct .union s ms) → ∃ s ms, Typed db w (.struct .union s ms)) := by
  cases h with
  | void h1 h2 =>
    have no : ∀ i, ¬ Typed db v i := by
      rintro i ⟨x, qs, hf, _⟩
      have := final_unique h1 hf
      cases this
    exact ⟨fun _ _ h => absurd h (no _), fun _ _ _ h => absurd h (no _), fun _ h => absurd h (no _), fun _ _ h => absurd h (no _)⟩
  | @same x y qs qs' h1 h2 h3 =>
    have eq : ∀ {i}, Typed db v i → (db x).info = i := fun h => typed_unique ⟨x, qs, h1, rfl⟩ h
    have to : ∀ {i}, (db y).info = i → Typed db w i := fun h => ⟨y, qs', h2, h⟩
    refine ⟨fun s e h => ?_, fun s e es h => ?_, fun t h => ?_, fun s ms h => ?_⟩
    all_goals
      rw [eq h] at h3
      cases hy : (db y).info <;> rw [hy] at h3 <;> simp only [SameKind] at h3
    · exact ⟨_, _, to hy⟩
    · exact ⟨_, _, _, to hy⟩
    · exact ⟨_, to hy⟩
    · subst h3; exact ⟨_, _, to hy⟩

theorem cmpNode_spec (hn : Named db) (ha : ∀ r, Acyclic db r) {x y : Node} (hx : Ready cfg mode db m x) (hy : Ready cfg mode db m y) :
    ∃ o, cmpNode cfg mode db m M₁ M₂ x y = .ok o ∧ Judged cfg mode db m M₁ M₂ x y o := by
  obtain ⟨f, qs, hf⟩ := final_exists (ha x.val.entry)
  obtain ⟨f', qs', hf'⟩ := final_exists (ha y.val.entry)
  obtain ⟨k1, k2, k3⟩ := kinds hx.nonNull hy.nonNull hf hf'
  unfold cmpNode
  by_cases hd : x.size ≠ y.size ∨ x.kids.length ≠ y.kids.length ∨ x.loop ≠ y.loop ∨ M₁.offset x.id ≠ M₂.offset y.id
  · refine ⟨some .differ, by simp only [hd, if_true]; rfl, .differ (fun h => ?_) (fun h => ?_)⟩
    · rcases hd with e | e | e | e
      · exact e h.size
      · exact e h.parts
      · exact e h.loop
      · exact e h.offset
    · rcases hd with e | e | e | e
      · exact e h.size
      · exact e h.parts
      · exact e h.loop
      · exact e h.offset
  · simp only [hd, if_false, k1, k2, Outcome.bind_ok]
    simp only [not_or, ne_eq, Decidable.not_not] at hd
    obtain ⟨d1, d2, d3, d4⟩ := hd
    by_cases hk : kind db f = kind db f'
    · have hal := k3.mp hk
      obtain ⟨a1, a2, a3, a4⟩ := scalar_alike hal
      simp only [hk, ne_eq, not_true, if_false]
      have mk : (Scalar db x.val → ∃ c d, Content cfg db m x.val c ∧ Content cfg db m y.val d ∧ SameLeaf cfg c d) →
          (mode.uptr = .asValues → x.kids = [] → (∃ t, Typed db x.val (.pointer t)) → ∃ a, Holds m x.val.addr 8 a ∧ Holds m y.val.addr 8 a) →
          (mode.union = .asMem → x.kids = [] → (∃ s ms, Typed db x.val (.struct .union s ms)) → ∀ i < x.size, m (x.val.addr + i) = m (y.val.addr + i)) →
          AgreeNode cfg mode db m M₁ M₂ x y := fun h1 h2 h3 => ⟨d1, d2, d3, d4, hal, h1, h2, h3⟩
      have noclash : ¬ Scalar db x.val → ¬ ClashNode cfg db m M₁ M₂ x y := by
        rintro hs ⟨_, _, _, _, c, _, _, _, hc, _⟩
        exact hs (content_scalar hc)
      cases f with
      | none =>
        have hnt : ∀ i, ¬ Typed db x.val i := by
          rintro i ⟨z, qz, hz, _⟩
          have := final_unique hf hz
          cases this
        have hv' : ∃ qs', Final db y.val.entry none qs' := by
          cases hal with
          | void _ h2 => exact ⟨_, h2⟩
          | same h1 => have := final_unique hf h1; cases this
        obtain ⟨qs'', hf''⟩ := hv'
        simp only [isA_void hf, isA_void hf'', Outcome.bind_ok]
        have hne : ¬ (mode.union = .asMem ∧ x.kids.length = 0 ∧ kind db f' = 17 ∧ x.size > 0) := by
          rintro ⟨_, _, h, _⟩
          rw [← hk] at h
          simp [kind] at h
        refine ⟨none, ?_, .go (mk ?_ ?_ ?_)⟩
        · simp only [Bool.false_and, Bool.false_eq_true, if_false, hne, Outcome.pure_eq, Bool.and_self]
        · rintro (⟨_, _, h⟩ | ⟨_, _, _, h⟩) <;> exact absurd h (hnt _)
        · rintro _ _ ⟨_, h⟩; exact absurd h (hnt _)
        · rintro _ _ ⟨_, _, h⟩; exact absurd h (hnt _)
      | some z =>
        cases f' with
        | none =>
          cases hal with
          | void h1 => have := final_unique hf h1; cases this
          | same _ h2 => have := final_unique hf' h2; cases this
        | some w =>
        have tz : Typed db x.val (db z).info := ⟨z, qs, hf, rfl⟩
        have tw : Typed db y.val (db w).info := ⟨w, qs', hf', rfl⟩
        have hsk : SameKind (db z).info (db w).info := (kind_iff (final_info hf) (final_info hf')).mp hk
        have no : ∀ {i}, (db z).info ≠ i → ¬ Typed db x.val i := fun h h' => h (typed_unique tz h')
        simp only [isA_final hf, isA_final hf', Outcome.bind_ok]
        by_cases hp : ∃ t, (db z).info = .pointer t
        · obtain ⟨t, hp⟩ := hp
          have hpt : Typed db x.val (.pointer t) := hp ▸ tz
          obtain ⟨t', hpt'⟩ := a3 t hpt
          have hp' : (db w).info = .pointer t' := typed_unique tw hpt'
          have hns : ¬ Scalar db x.val := by
            rintro (⟨_, _, h⟩ | ⟨_, _, _, h⟩) <;> (have := typed_unique hpt h; cases this)
          have hnu : ¬ ∃ s ms, Typed db x.val (.struct .union s ms) := by
            rintro ⟨_, _, h⟩
            have := typed_unique hpt h
            cases this
          simp only [hp, hp', isPointer, Bool.and_self, if_true]
          by_cases hl : x.kids.length = 0
          · have hkx : x.kids = [] := List.length_eq_zero_iff.mp hl
            have hky : y.kids = [] := List.length_eq_zero_iff.mp (by omega)
            simp only [hl, if_true]
            by_cases hm : mode.uptr = .asValues
            · obtain ⟨a, hA⟩ := hx.pointer hm hkx ⟨_, hpt⟩
              obtain ⟨b, hB⟩ := hy.pointer hm hky ⟨_, hpt'⟩
              have p1 : pointer db m (some x.val) = .ok (.ok a) := pointer_get ⟨hx.nonNull, ⟨z, qs, t, hf, hp⟩, hA⟩
              have p2 : pointer db m (some y.val) = .ok (.ok b) := pointer_get ⟨hy.nonNull, ⟨w, qs', t', hf', hp'⟩, hB⟩
              have pe : equalPointer db m (some x.val) (some y.val) = .ok (if a = b then 1 else 0) := by
                simp only [equalPointer, p1, p2, Outcome.bind_ok]
                rfl
              simp only [hm, if_true, pe, Outcome.bind_ok]
              by_cases hab : a = b
              · subst hab
                exact ⟨some .same, by simp [ofCode], .same (mk (fun h => absurd h hns) (fun _ _ _ => ⟨a, hA, hB⟩) (fun _ _ h => absurd h hnu)) hkx⟩
              · refine ⟨some .differ, by simp [ofCode, hab], .differ (fun h => ?_) (noclash hns)⟩
                obtain ⟨c, hc, hc'⟩ := h.pointer hm hkx ⟨_, hpt⟩
                exact hab ((holds_unique hA hc).trans (holds_unique hB hc').symm)
            · simp only [hm, if_false]
              exact ⟨some .same, rfl, .same (mk (fun h => absurd h hns) (fun h => absurd h hm) (fun _ _ h => absurd h hnu)) hkx⟩
          · simp only [hl, if_false]
            exact ⟨none, rfl, .go (mk (fun h => absurd h hns) (fun _ h => by rw [h] at hl; exact absurd rfl hl) (fun _ _ h => absurd h hnu))⟩
        · have hpf : isPointer (db z).info = false := by
            cases hz : (db z).info <;> first | rfl | exact absurd ⟨_, hz⟩ hp
          have hnp : ¬ ∃ t, Typed db x.val (.pointer t) := by
            rintro ⟨t, h⟩
            exact hp ⟨t, typed_unique tz h⟩
          simp only [hpf, Bool.false_and, Bool.false_eq_true, if_false]
          by_cases he : ∃ s e es, (db z).info = .enumeration s e es
          · obtain ⟨s, e, es, he⟩ := he
            have het : Typed db x.val (.enumeration s e es) := he ▸ tz
            obtain ⟨s', e', es', het'⟩ := a2 _ _ _ het
            have he' : (db w).info = .enumeration s' e' es' := typed_unique tw het'
            have hsx : Scalar db x.val := .inr ⟨_, _, _, het⟩
            have hsy : Scalar db y.val := .inr ⟨_, _, _, het'⟩
            have hnu : ¬ ∃ s ms, Typed db x.val (.struct .union s ms) := by
              rintro ⟨_, _, h⟩
              have := typed_unique het h
              cases this
            obtain ⟨⟨c, hc⟩, hkx⟩ := hx.leaf hsx
            obtain ⟨⟨d, hd⟩, _⟩ := hy.leaf hsy
            have en : ∀ {v : Value} {c : Leaf} {s e es}, Content cfg db m v c → Typed db v (.enumeration s e es) → ∃ i, c = .enumeration i := by
              intro v c s e es hc ht
              cases c with
              | enumeration i => exact ⟨i, rfl⟩
              | num t i =>
                obtain ⟨_, _, h⟩ := (content_type hc).1 t rfl
                have := typed_unique ht h
                cases this
              | real t i =>
                obtain ⟨_, _, h⟩ := (content_type hc).1 t rfl
                have := typed_unique ht h
                cases this
            obtain ⟨i, rfl⟩ := en hc het
            obtain ⟨j, rfl⟩ := en hd het'
            simp only [he, he', isEnum, Bool.and_self, if_true, equal_enums hc hd, Outcome.bind_ok]
            by_cases hij : i = j
            · subst hij
              exact ⟨some .same, by simp [ofCode], .same (mk (fun _ => ⟨_, _, hc, hd, rfl⟩) (fun _ _ h => absurd h hnp) (fun _ _ h => absurd h hnu)) hkx⟩
            · refine ⟨some .differ, by simp [ofCode, hij], .differ (fun h => ?_) ?_⟩
              · obtain ⟨c', d', hc', hd', hs⟩ := h.leaf hsx
                obtain ⟨i', rfl⟩ := en hc' het
                obtain ⟨j', rfl⟩ := en hd' het'
                have e1 := content_enum hc
                rw [content_enum hc'] at e1
                have e2 := content_enum hd
                rw [content_enum hd'] at e2
                cases e1
                cases e2
                exact hij hs
              · rintro ⟨_, _, _, _, c', d', t, t', hc', _, ht, _⟩
                obtain ⟨i', rfl⟩ := en hc' het
                cases ht
          · have hef : isEnum (db z).info = false := by
              cases hz : (db z).info <;> first | rfl | exact absurd ⟨_, _, _, hz⟩ he
            simp only [hef, Bool.false_and, Bool.false_eq_true, if_false]
            by_cases hb : ∃ s e, (db z).info = .base s e
            · obtain ⟨s, e, hb⟩ := hb
              have hbt : Typed db x.val (.base s e) := hb ▸ tz
              obtain ⟨s', e', hbt'⟩ := a1 _ _ hbt
              have hb' : (db w).info = .base s' e' := typed_unique tw hbt'
              have hsx : Scalar db x.val := .inl ⟨_, _, hbt⟩
              have hsy : Scalar db y.val := .inl ⟨_, _, hbt'⟩
              have hnu : ¬ ∃ s ms, Typed db x.val (.struct .union s ms) := by
                rintro ⟨_, _, h⟩
                have := typed_unique hbt h
                cases this
              have nb : ∀ {v : Value} {c : Leaf} {s e}, Content cfg db m v c → Typed db v (.base s e) → ∃ t, c.type = some t := by
                intro v c s e hc ht
                cases hct : c.type with
                | some t => exact ⟨t, rfl⟩
                | none =>
                  obtain ⟨_, _, _, h⟩ := (content_type hc).2 hct
                  have := typed_unique ht h
                  cases this
              obtain ⟨⟨c, hc⟩, hkx⟩ := hx.leaf hsx
              obtain ⟨⟨d, hd⟩, _⟩ := hy.leaf hsy
              obtain ⟨t, ht⟩ := nb hc hbt
              obtain ⟨t', ht'⟩ := nb hd hbt'
              obtain ⟨e1, e2⟩ := equal_numbers hn hc hd ht ht'
              have ty : ∀ {v : Value} {c c' : Leaf} {t t'}, Content cfg db m v c → Content cfg db m v c' → c.type = some t → c'.type = some t' → t = t' := by
                intro v c c' t t' h h' ht ht'
                obtain ⟨x, _, _, hf, hdx, _⟩ := content_get hn h ht
                obtain ⟨x', _, _, hf', hdx', _⟩ := content_get hn h' ht'
                have := final_unique hf hf'
                cases this
                exact describes_unique hdx hdx'
              have same : ∀ {c' d'}, Content cfg db m x.val c' → Content cfg db m y.val d' → SameLeaf cfg c' d' → t = t' ∧ SameLeaf cfg c d := by
                intro c' d' hc' hd' hs
                obtain ⟨u, hu⟩ := nb hc' hbt
                obtain ⟨u', hu'⟩ := nb hd' hbt'
                have huu : u = u' := by
                  cases c' <;> cases d' <;> simp only [SameLeaf] at hs <;> simp only [Leaf.type] at hu hu' <;> cases hu <;> cases hu' <;> exact hs.1
                have h1 := ty hc hc' ht hu
                have h2 := ty hd hd' ht' hu'
                have h3 : t = t' := by rw [h1, h2, huu]
                refine ⟨h3, ?_⟩
                obtain ⟨b, h4, h5⟩ := e2 h3
                obtain ⟨b', h6, h7⟩ := (equal_numbers hn hc' hd' hu hu').2 huu
                have h8 := h7.mpr hs
                subst h8
                rw [h4] at h6
                refine h5.mp ?_
                cases b with
                | true => rfl
                | false => cases h6
              simp only [hb, hb', isBase, Bool.and_self, if_true]
              by_cases htt : t = t'
              · obtain ⟨b, h1, h2⟩ := e2 htt
                simp only [h1, Outcome.bind_ok]
                cases b with
                | true =>
                  exact ⟨some .same, by simp [ofCode], .same (mk (fun _ => ⟨_, _, hc, hd, h2.mp rfl⟩) (fun _ _ h => absurd h hnp) (fun _ _ h => absurd h hnu)) hkx⟩
                | false =>
                  refine ⟨some .differ, by simp [ofCode], .differ (fun h => ?_) ?_⟩
                  · obtain ⟨c', d', hc', hd', hs⟩ := h.leaf hsx
                    have := h2.mpr (same hc' hd' hs).2
                    cases this
                  · rintro ⟨_, _, _, _, c', d', u, u', hc', hd', hu, hu', hne⟩
                    exact hne (by rw [← ty hc hc' ht hu, ← ty hd hd' ht' hu', htt])
              · simp only [e1 htt, Outcome.bind_ok]
                refine ⟨some .fail, by simp [ofCode], .fail (fun h => ?_) ⟨d1, d2, d3, d4, c, d, t, t', hc, hd, ht, ht', htt⟩⟩
                obtain ⟨c', d', hc', hd', hs⟩ := h.leaf hsx
                exact htt (same hc' hd' hs).1
            · have hbf : isBase (db z).info = false := by
                cases hz : (db z).info <;> first | rfl | exact absurd ⟨_, _, hz⟩ hb
              have hns : ¬ Scalar db x.val := by
                rintro (⟨_, _, h⟩ | ⟨_, _, _, h⟩)
                · exact hb ⟨_, _, typed_unique tz h⟩
                · exact he ⟨_, _, _, typed_unique tz h⟩
              simp only [hbf, Bool.false_and, Bool.false_eq_true, if_false]
              by_cases hu : mode.union = .asMem ∧ x.kids.length = 0 ∧ kind db (some w) = 17 ∧ x.size > 0
              · simp only [hu, and_self, if_true]
                obtain ⟨u1, u2, u3, u4⟩ := hu
                have hkx : x.kids = [] := List.length_eq_zero_iff.mp u2
                have hky : y.kids = [] := List.length_eq_zero_iff.mp (by omega)
                have un : ∀ {r : Ref}, kind db (some r) = 17 → ∃ s ms, (db r).info = .struct .union s ms := by
                  intro r hr
                  simp only [kind] at hr
                  cases hi : (db r).info with
                  | struct k s ms => cases k <;> simp [hi, kindOf] at hr ⊢
                  | qual q t => cases q <;> simp [hi, kindOf] at hr
                  | reference v s t => cases v <;> simp [hi, kindOf] at hr
                  | _ => simp [hi, kindOf] at hr
                obtain ⟨s, ms, hz⟩ := un (hk.trans u3)
                obtain ⟨s', ms', hw⟩ := un u3
                have hux : ∃ s ms, Typed db x.val (.struct .union s ms) := ⟨s, ms, hz ▸ tz⟩
                rcases memcmp_spec (hx.union u1 hkx hux) (d1 ▸ hy.union u1 hky ⟨s', ms', hw ▸ tw⟩) with ⟨h1, h2⟩ | ⟨h1, h2⟩
                · exact ⟨none, by simp [h1], .go (mk (fun h => absurd h hns) (fun _ _ h => absurd h hnp) (fun _ _ _ => h2))⟩
                · exact ⟨some .differ, by simp [h1], .differ (fun h => h2 (h.union u1 hkx hux)) (noclash hns)⟩
              · simp only [hu, if_false]
                refine ⟨none, rfl, .go (mk (fun h => absurd h hns) (fun _ _ h => absurd h hnp) ?_)⟩
                intro u1 u2 ⟨s, ms, h⟩ i hi
                have hz := typed_unique tz h
                refine absurd ⟨u1, by rw [u2]; rfl, ?_, by omega⟩ hu
                rw [← hk]
                simp only [kind, hz]
                rfl
    · simp only [hk, ne_eq, not_false_eq_true, if_true]
      refine ⟨some .differ, rfl, .differ (fun h => hk (k3.mpr h.kind)) ?_⟩
      rintro ⟨_, _, _, _, c, d, t, t', hc, hd, ht, ht', _⟩
      obtain ⟨_, _, z, qz, hz, hzi⟩ := (content_type hc).1 t ht
      obtain ⟨_, _, w, qw, hw, hwi⟩ := (content_type hd).1 t' ht'
      rw [final_unique hf hz, final_unique hf' hw] at hk
      simp only [kind, hzi, hwi, kindOf, not_true] at hk

/-! ### Trees -/

theorem content_ty (hn : Named db) {v : Value} {c c' : Leaf} {t t' : Ty} (h : Content cfg db m v c) (h' : Content cfg db m v c') (ht : c.type = some t) (ht' : c'.type = some t') :
    t = t' := by
  obtain ⟨x, _, _, hf, hdx, _⟩ := content_get hn h ht
  obtain ⟨x', _, _, hf', hdx', _⟩ := content_get hn h' ht'
  have := final_unique hf hf'
  cases this
  exact describes_unique hdx hdx'

theorem agree_not_clash (hn : Named db) {x y : Node} (h : AgreeNode cfg mode db m M₁ M₂ x y) : ¬ ClashNode cfg db m M₁ M₂ x y := by
  rintro ⟨_, _, _, _, c, d, t, t', hc, hd, ht, ht', hne⟩
  obtain ⟨c', d', hc', hd', hs⟩ := h.leaf (content_scalar hc)
  have en : ∀ {v : Value} {c c' : Leaf} {t}, Content cfg db m v c → Content cfg db m v c' → c.type = some t → c'.type = some t := by
    intro v c c' t h h' ht
    cases hc' : c'.type with
    | some t' => rw [content_ty hn h h' ht hc']
    | none =>
      obtain ⟨_, _, h1⟩ := (content_type h).1 t ht
      obtain ⟨_, _, _, h2⟩ := (content_type h').2 hc'
      have := typed_unique h1 h2
      cases this
  have h1 := en hc hc' ht
  have h2 := en hd hd' ht'
  apply hne
  cases c' <;> cases d' <;> simp only [SameLeaf] at hs <;> simp only [Leaf.type] at h1 h2 <;> cases h1 <;> cases h2 <;> exact hs.1

theorem paired_head {k₁ k₂ x y : Node} (h : Paired k₁ k₂ x y) :
    (x = k₁ ∧ y = k₂) ∨ ∃ (i : Nat) (a b : Node), k₁.kids[i]? = some a ∧ k₂.kids[i]? = some b ∧ Paired a b x y := by
  induction h with
  | top => exact .inl ⟨rfl, rfl⟩
  | part _ h1 h2 ih =>
    rcases ih with ⟨rfl, rfl⟩ | ⟨i, a, b, h3, h4, h5⟩
    · exact .inr ⟨_, _, _, h1, h2, .top⟩
    · exact .inr ⟨i, a, b, h3, h4, .part h5 h1 h2⟩

theorem paired_of {k₁ k₂ : Node} {i : Nat} {a b : Node} (h1 : k₁.kids[i]? = some a) (h2 : k₂.kids[i]? = some b) {x y : Node} (h : Paired a b x y) : Paired k₁ k₂ x y := by
  induction h with
  | top => exact .part .top h1 h2
  | part _ h3 h4 ih => exact .part ih h3 h4

theorem met_head {k₁ k₂ x y : Node} (h : Met cfg mode db m M₁ M₂ k₁ k₂ x y) :
    (x = k₁ ∧ y = k₂) ∨ (AgreeNode cfg mode db m M₁ M₂ k₁ k₂ ∧
      ∃ (i : Nat) (a b : Node), k₁.kids[i]? = some a ∧ k₂.kids[i]? = some b ∧ Met cfg mode db m M₁ M₂ a b x y) := by
  induction h with
  | top => exact .inl ⟨rfl, rfl⟩
  | part _ hag h1 h2 ih =>
    rcases ih with ⟨rfl, rfl⟩ | ⟨h0, i, a, b, h3, h4, h5⟩
    · exact .inr ⟨hag, _, _, _, h1, h2, .top⟩
    · exact .inr ⟨h0, i, a, b, h3, h4, .part h5 hag h1 h2⟩

theorem met_of {k₁ k₂ : Node} {i : Nat} {a b : Node} (h0 : AgreeNode cfg mode db m M₁ M₂ k₁ k₂) (h1 : k₁.kids[i]? = some a) (h2 : k₂.kids[i]? = some b)
    {x y : Node} (h : Met cfg mode db m M₁ M₂ a b x y) : Met cfg mode db m M₁ M₂ k₁ k₂ x y := by
  induction h with
  | top => exact .part .top h0 h1 h2
  | part _ hag h3 h4 ih => exact .part ih hag h3 h4

theorem within_kid {k a x : Node} (ha : a ∈ k.kids) (h : Within a x) : Within k x := by
  induction h with
  | top => exact .part .top ha
  | part _ h1 ih => exact .part ih h1

/-- What the comparison of two trees is to find. -/
structure Verdict (cfg : Plat) (mode : Mode) (db : Db) (m : Mem) (M₁ M₂ : Map) (k₁ k₂ : Node) (f d : Bool) : Prop where
  clash : f = true ↔ ∃ x y, Met cfg mode db m M₁ M₂ k₁ k₂ x y ∧ ClashNode cfg db m M₁ M₂ x y
  agree : (f = false ∧ d = false) ↔ ∀ x y, Paired k₁ k₂ x y → AgreeNode cfg mode db m M₁ M₂ x y

structure VerdictAll (cfg : Plat) (mode : Mode) (db : Db) (m : Mem) (M₁ M₂ : Map) (ks₁ ks₂ : List Node) (f d : Bool) : Prop where
  clash : f = true ↔ ∃ (i : Nat) (a b : Node), ks₁[i]? = some a ∧ ks₂[i]? = some b ∧ ∃ x y, Met cfg mode db m M₁ M₂ a b x y ∧ ClashNode cfg db m M₁ M₂ x y
  agree : (f = false ∧ d = false) ↔ ∀ (i : Nat) (a b : Node), ks₁[i]? = some a → ks₂[i]? = some b → ∀ x y, Paired a b x y → AgreeNode cfg mode db m M₁ M₂ x y

mutual
theorem cmp_spec (hn : Named db) (ha : ∀ r, Acyclic db r) : ∀ (k₁ k₂ : Node), (∀ x, Within k₁ x → Ready cfg mode db m x) → (∀ x, Within k₂ x → Ready cfg mode db m x) →
    ∃ f d, cmp cfg mode db m M₁ M₂ k₁ k₂ = .ok (f, d) ∧ Verdict cfg mode db m M₁ M₂ k₁ k₂ f d
  | .mk i v s l dr ks, k₂, h1, h2 => by
    obtain ⟨o, ho, hj⟩ := cmpNode_spec (M₁ := M₁) (M₂ := M₂) hn ha (h1 _ .top) (h2 _ .top)
    have only : ∀ {x y}, ¬ AgreeNode cfg mode db m M₁ M₂ (.mk i v s l dr ks) k₂ → Met cfg mode db m M₁ M₂ (.mk i v s l dr ks) k₂ x y → x = .mk i v s l dr ks ∧ y = k₂ := by
      intro x y hna hm
      rcases met_head hm with h | ⟨h, _⟩
      · exact h
      · exact absurd h hna
    rw [cmp.eq_def]
    simp only [ho, Outcome.bind_ok]
    cases hj with
    | same hag hk =>
      refine ⟨false, false, by simp, ⟨by simp, ?_⟩, ⟨fun _ => ?_, by simp⟩⟩
      · rintro ⟨x, y, hm, hc⟩
        rcases met_head hm with ⟨rfl, rfl⟩ | ⟨_, i, a, b, h3, _⟩
        · exact absurd hc (agree_not_clash hn hag)
        · rw [hk] at h3
          cases h3
      · intro x y hp
        rcases paired_head hp with ⟨rfl, rfl⟩ | ⟨i, a, b, h3, _⟩
        · exact hag
        · rw [hk] at h3
          cases h3
    | differ hna hnc =>
      refine ⟨false, true, by simp, ⟨by simp, ?_⟩, ⟨by simp, fun h => absurd (h _ _ .top) hna⟩⟩
      rintro ⟨x, y, hm, hc⟩
      obtain ⟨rfl, rfl⟩ := only hna hm
      exact absurd hc hnc
    | fail hna hc =>
      exact ⟨true, false, by simp, ⟨fun _ => ⟨_, _, .top, hc⟩, by simp⟩, ⟨by simp, fun h => absurd (h _ _ .top) hna⟩⟩
    | go hag =>
      obtain ⟨f, d, h3, h4⟩ := cmpAll_spec hn ha ks k₂.kids hag.parts (fun k hk x hx => h1 x (within_kid (k := .mk i v s l dr ks) hk hx)) (fun k hk x hx => h2 x (within_kid hk hx))
      refine ⟨f, d, h3, ⟨?_, ?_⟩⟩
      · rw [h4.clash]
        constructor
        · rintro ⟨j, a, b, e1, e2, x, y, e3, e4⟩
          exact ⟨x, y, met_of hag e1 e2 e3, e4⟩
        · rintro ⟨x, y, e3, e4⟩
          rcases met_head e3 with ⟨rfl, rfl⟩ | ⟨_, j, a, b, e1, e2, e5⟩
          · exact absurd e4 (agree_not_clash hn hag)
          · exact ⟨j, a, b, e1, e2, x, y, e5, e4⟩
      · rw [h4.agree]
        constructor
        · intro h x y hp
          rcases paired_head hp with ⟨rfl, rfl⟩ | ⟨j, a, b, e1, e2, e3⟩
          · exact hag
          · exact h j a b e1 e2 x y e3
        · intro h j a b e1 e2 x y e3
          exact h x y (paired_of (k₁ := .mk i v s l dr ks) e1 e2 e3)
theorem cmpAll_spec (hn : Named db) (ha : ∀ r, Acyclic db r) : ∀ (ks₁ ks₂ : List Node), ks₁.length = ks₂.length →
    (∀ k ∈ ks₁, ∀ x, Within k x → Ready cfg mode db m x) → (∀ k ∈ ks₂, ∀ x, Within k x → Ready cfg mode db m x) →
    ∃ f d, cmpAll cfg mode db m M₁ M₂ ks₁ ks₂ = .ok (f, d) ∧ VerdictAll cfg mode db m M₁ M₂ ks₁ ks₂ f d
  | [], ks₂, _, _, _ => ⟨false, false, by simp [cmpAll], by simp, by simp⟩
  | k₁ :: ks₁, [], h, _, _ => by cases h
  | k₁ :: ks₁, k₂ :: ks₂, h, h1, h2 => by
    obtain ⟨f, d, h3, h4⟩ := cmp_spec hn ha k₁ k₂ (h1 k₁ (.head _)) (h2 k₂ (.head _))
    obtain ⟨f', d', h5, h6⟩ := cmpAll_spec hn ha ks₁ ks₂ (Nat.succ.inj h) (fun k hk => h1 k (.tail _ hk)) (fun k hk => h2 k (.tail _ hk))
    refine ⟨f || f', d || d', by rw [cmpAll.eq_def]; simp only [h3, h5, Outcome.bind_ok]; rfl, ?_, ?_⟩
    · rw [Bool.or_eq_true, h4.clash, h6.clash]
      constructor
      · rintro (h | ⟨i, a, b, e1, e2, e3⟩)
        · exact ⟨0, k₁, k₂, rfl, rfl, h⟩
        · exact ⟨i + 1, a, b, by simpa using e1, by simpa using e2, e3⟩
      · rintro ⟨i, a, b, e1, e2, e3⟩
        cases i with
        | zero => cases e1; cases e2; exact .inl e3
        | succ i => exact .inr ⟨i, a, b, by simpa using e1, by simpa using e2, e3⟩
    · have : ((f || f') = false ∧ (d || d') = false) ↔ (f = false ∧ d = false) ∧ (f' = false ∧ d' = false) := by
        cases f <;> cases f' <;> cases d <;> cases d' <;> simp
      rw [this, h4.agree, h6.agree]
      constructor
      · rintro ⟨e3, e4⟩ i a b e1 e2
        cases i with
        | zero => cases e1; cases e2; exact e3
        | succ i => exact e4 i a b (by simpa using e1) (by simpa using e2)
      · intro e
        exact ⟨e 0 k₁ k₂ rfl rfl, fun i a b e1 e2 => e (i + 1) a b (by simpa using e1) (by simpa using e2)⟩
end

/-! ### Numbers have no parts -/

theorem within_tree {env : Env} {outer : List Value} {k x : Node} (ht : Tree env mode db m outer k) (h : Within k x) : ∃ outer', Tree env mode db m outer' x := by
  induction h with
  | top => exact ⟨_, ht⟩
  | part _ hy ih =>
    obtain ⟨o, h⟩ := ih
    cases h with
    | leaf => cases hy
    | parts _ _ _ h => exact ⟨_, h _ hy⟩
    | target _ h =>
      rw [show Node.kids _ = [_] from rfl, List.mem_singleton] at hy
      subst hy
      exact ⟨_, h⟩
    | args _ _ h => exact ⟨_, h _ hy⟩

theorem object_typed {env : ValueString.Env} {v : Value} {i : Info} (h : ValueString.Spec.Object env db v i) : Typed db v i := h.2.2

theorem scalar_bare {env : Env} (hva : VaLists env db) {outer : List Value} {x : Node} (h : Tree env mode db m outer x) (hs : Scalar db x.val) : x.kids = [] := by
  have no : ∀ {v : Value} {i}, Typed db v i → (∀ s e, i ≠ .base s e) → (∀ s e es, i ≠ .enumeration s e es) → ¬ Scalar db v := by
    rintro v i hi h1 h2 (⟨_, _, h⟩ | ⟨_, _, _, h⟩)
    · exact h1 _ _ (typed_unique hi h)
    · exact h2 _ _ _ (typed_unique hi h)
  cases h with
  | leaf => rfl
  | parts hc _ _ _ =>
    refine absurd hs ?_
    cases hc with
    | struct h => exact no (object_typed h) (by simp) (by simp)
    | union h => exact no (object_typed h) (by simp) (by simp)
    | unionMember h => exact no (object_typed h) (by simp) (by simp)
    | array h => exact no (object_typed h) (by simp) (by simp)
    | noElements h => exact no (object_typed h) (by simp) (by simp)
  | target hc =>
    refine absurd hs ?_
    cases hc with
    | target h => exact no (object_typed h) (by simp) (by simp)
  | args hc =>
    refine absurd hs ?_
    cases hc with
    | arguments hp _ _ =>
      obtain ⟨u, t, hi, h⟩ := hp
      rcases h with rfl | h | ⟨x, qs, t', ps, hf, h⟩
      · exact no ⟨_, _, .here (fun t ha => by cases ha <;> rename_i h <;> exact absurd (hi.symm.trans h) (by simp)), hi⟩ (by simp) (by simp)
      · exact hva _ h
      · rcases h with h | h
        · exact no ⟨x, qs, hf, h⟩ (by simp) (by simp)
        · exact no ⟨x, qs, hf, h⟩ (by simp) (by simp)
    | call h =>
      rcases h with h | h
      · exact no (object_typed h) (by simp) (by simp)
      · exact no (object_typed h) (by simp) (by simp)

theorem ready_of {env : Env} (hva : VaLists env db) {k : Node} (ht : Tree env mode db m [] k) (hr : Readable cfg mode db m k) :
    ∀ x, Within k x → Ready cfg mode db m x := fun x hx => by
  obtain ⟨o, h⟩ := within_tree ht hx
  exact ⟨hr.nonNull x hx, fun hs => ⟨hr.leaf x hx hs, scalar_bare hva h hs⟩, fun hm => hr.pointer hm x hx, fun hm => hr.union hm x hx⟩

end
end Verif.Deep
