import Verif.DeepCopy.ImageMap
import Verif.Deep.PropsEqual
/-
The copy is equal to the source.
-/
namespace Verif.DeepCopy
open Verif Verif.Entry Verif.Entry.Spec Verif.Value Verif.Value.Spec Verif.Handlers Verif.ValueString.Spec Verif.Deep.Spec Verif.DeepCopy.Spec
open Verif.Bitfield.Spec (Field)
open Verif.Deep (Node Map Table Keys Ids typed_unique number)

theorem copy_kid {W : Nat → Nat} {k : Node} {dst : Value} {x y : Node} {w : Value} (hc : Copy W k dst x w) (hy : y ∈ x.kids) :
    Copy W k dst y (spot W x.val w x.deref y.val) := by
  cases hd : x.deref with
  | true => exact .target hc hd hy
  | false => exact .part hc hd hy

theorem paired_image {W : Nat → Nat} {k : Node} {dst : Value} {x y : Node} (h : Paired k (image W k dst) x y) : ∃ w, Copy W k dst x w ∧ y = image W x w := by
  induction h with
  | top => exact ⟨dst, .top, rfl⟩
  | @part x y x' y' i _ hx hy ih =>
    obtain ⟨w, hc, rfl⟩ := ih
    rw [image_kids, List.getElem?_map, hx] at hy
    simp only [Option.map_some, Option.some.injEq] at hy
    exact ⟨_, copy_kid hc (List.mem_of_getElem? hx), hy.symm⟩

theorem within_image {W : Nat → Nat} {k : Node} {dst : Value} {y : Node} (h : Within (image W k dst) y) : ∃ x w, Copy W k dst x w ∧ y = image W x w := by
  induction h with
  | top => exact ⟨k, dst, .top, rfl⟩
  | part _ hy ih =>
    obtain ⟨x, w, hc, rfl⟩ := ih
    rw [image_kids] at hy
    obtain ⟨x', hx', rfl⟩ := List.mem_map.mp hy
    exact ⟨_, _, copy_kid hc hx', rfl⟩

theorem within_copy {W : Nat → Nat} {k : Node} {dst : Value} {x : Node} (h : Within k x) : ∃ w, Copy W k dst x w := by
  induction h with
  | top => exact ⟨dst, .top⟩
  | part _ hy ih =>
    obtain ⟨w, hc⟩ := ih
    exact ⟨_, copy_kid hc hy⟩

section
variable {env : Env} {order : Table → Table} {mode : Deep.Mode} {db : Db} {st₀ st₁ : State} {M : Map} {dst : Value} {B : Blocks}

theorem Setup.content_number (h : Setup env order mode db st₀ M dst st₁ B) {st' : State} (hi : Inv env mode db st₀ M dst B st'.m)
    {m : Mem} (H : Has env mode db st₀ M dst B m) {x : Node} {w : Value} (hc : Copy (place B) M.top dst x w) {t : Ty} {n : Nat} (ho : Value.Object db st₀.m x.val t n) :
    Value.Object db st'.m x.val t n ∧ (env.cfg.passed t n % 256 ^ Value.Spec.sizeOf t ≤ 1 ∨ t ≠ .bool → Value.Object db m w t (env.cfg.passed t n % 256 ^ Value.Spec.sizeOf t)) := by
  have hx := copy_within hc
  obtain ⟨f, qs, hf, hd⟩ := ho.type
  obtain ⟨s, e, hb⟩ := describes_typed hf hd
  obtain ⟨o, l, u, hw⟩ := h.copyable.numbers x hx (.inl ⟨s, e, hb⟩)
  have no : ∀ {i : Info} {P : Prop}, Typed db x.val i → (∀ s e, i ≠ .base s e) → P := fun h1 h2 => absurd (typed_unique h1 hb) (h2 s e)
  cases hw with
  | @number t' n' ho' hs =>
    obtain ⟨f', qs', hf', hd'⟩ := ho'.type
    have := Value.final_unique hf hf'
    cases this
    have := describes_unique hd hd'
    subst this
    have := Value.holds_unique ho.content ho'.content
    subst this
    have hw : Wants env.cfg mode db st₀.m x 0 (8 * x.size) _ := .number ho' hs
    obtain ⟨⟨qs'', g1, _⟩, g2⟩ := h.entry hc hf
    refine ⟨⟨ho.type, ho.plain, ho.nonNull, h.holds hi hx hw (by omega) ho.content, ho.valid⟩, fun hv => ⟨⟨f, qs'', g1, hd⟩, fun hb => ho.plain (g2.mp hb), h.nonNull hc, ?_, ?_⟩⟩
    · have := H.values _ _ _ _ _ hc hw
      rw [hs] at this
      exact holds_of_field (by simpa [Want.value] using this)
    · intro ht
      exact hv.resolve_right (fun hn => hn ht)
  | bits hbo => exact absurd (bit_plain hbo) ho.plain
  | enumeration ht => exact no ht (by simp)
  | null ht => exact no ht (by simp)
  | followed ht => exact no ht (by simp)
  | dropped ht => exact no ht (by simp)
  | kept ht => exact no ht (by simp)
  | bytes ht => exact no ht (by simp)
  | zero ht => exact no ht (by simp)

/-- The copy of a number holds the same number; a floating-point number is passed by value. -/
theorem Setup.content_same (h : Setup env order mode db st₀ M dst st₁ B) {st' : State} (hi : Inv env mode db st₀ M dst B st'.m)
    {m : Mem} (H : Has env mode db st₀ M dst B m) {x : Node} {w : Value} (hc : Copy (place B) M.top dst x w) {c : Leaf}
    (hcon : Content env.cfg db st₀.m x.val c) : Content env.cfg db st'.m x.val c ∧ ∃ d, Content env.cfg db m w d ∧
      ((d = c ∧ ∀ t n, c ≠ .real t n) ∨ ∃ t n, c = .real t n ∧ Value.Object db st₀.m x.val t n ∧ ¬ Integral t ∧ d = .real t (env.cfg.passed t n % 256 ^ Value.Spec.sizeOf t)) := by
  have hx := copy_within hc
  cases hcon with
  | @integer t n ho hint =>
    obtain ⟨h1, h2⟩ := h.content_number hi H hc ho
    rw [passed_integral hint, Nat.mod_eq_of_lt ho.content.1] at h2
    refine ⟨.integer h1 hint, _, .integer (h2 ?_) hint, .inl ⟨rfl, by simp⟩⟩
    by_cases ht : t = .bool
    · exact .inl (ho.valid ht)
    · exact .inr ht
  | @real t n ho hint =>
    obtain ⟨h1, h2⟩ := h.content_number hi H hc ho
    refine ⟨.real h1 hint, _, .real (h2 (.inr ?_)) hint, .inr ⟨t, n, rfl, ho, hint, rfl⟩⟩
    rintro rfl
    exact hint trivial
  | @bits t be base bit l qs c hbo h30 hwd hf hiso hbool hch =>
    obtain ⟨f, bs, hff, hdd, hinf⟩ := hbo.type
    have hb := describes_typed hff hdd
    obtain ⟨s, e, hb⟩ := hb
    obtain ⟨o, l', u, hw⟩ := h.copyable.numbers x hx (.inl ⟨s, e, hb⟩)
    have no : ∀ {i : Info} {P : Prop}, Typed db x.val i → (∀ s e, i ≠ .base s e) → P := fun h1 h2 => absurd (typed_unique h1 hb) (h2 s e)
    cases hw' : hw with
    | number ho => exact absurd (bit_plain hbo) ho.plain
    | @bits t' be' base' bit' _ qs' _ c' hbo' _ _ _ _ _ heq hf' =>
      obtain ⟨mi, h1, h2, h3⟩ := hbo.field
      obtain ⟨mi', g1, g2, g3⟩ := hbo'.field
      rw [h1] at g1
      cases g1
      obtain ⟨rfl, rfl⟩ := dwarf_unique h2 g2
      rw [g3] at h3
      have hbase := Nat.add_right_cancel h3
      subst hbase
      have := field_unique hf hf'
      subst this
      have hbf := bit_plain hbo
      have hbm : ∀ i < l, st'.m ((8 * base' + bit + i) / 8) = st₀.m ((8 * base' + bit + i) / 8) := fun i hi' =>
        (h.source hi hx hw (hbo.mapped i hi') (by omega) (by omega)).1
      have hbo1 : BitObject db st'.m x.val t be base' bit l qs :=
        ⟨hbo.type, hbo.integral, hbo.field, hbo.nonNull, fun i hi' => by rw [hbm i hi']; exact hbo.mapped i hi', hbo.nonempty⟩
      have hf1 : Field st'.m (8 * base' + bit) l c := field_congr hf fun i a1 a2 => bit_congr (by
        have := hbm (i - (8 * base' + bit)) (by omega)
        rw [show 8 * base' + bit + (i - (8 * base' + bit)) = i by omega] at this
        exact this)
      refine ⟨.bits hbo1 h30 hwd hf1 hiso hbool hch, ?_⟩
      obtain ⟨r, hr, c1, c2, c3⟩ := h.cell hc hw
      have hval := H.values _ _ _ _ _ hc hw
      cases hc with
      | top => exact absurd hbf h.copyable.whole
      | @part y wy _ hy hd hk =>
        obtain ⟨_, h5, _⟩ := h.copyable.bits _ _ mi (copy_within hy) hk h1 hbf
        have h0 := h.nonNull hy
        simp only at c3 hval
        have hbw : BitObject db m ⟨x.val.entry, wy.addr + (x.val.addr - y.val.addr)⟩ t be (wy.addr + (base' - y.val.addr)) bit l qs := by
          refine ⟨⟨f, bs, hff, hdd, hinf⟩, hbo.integral, ⟨mi, h1, h2, by simp only; omega⟩, by omega, ?_, hbo.nonempty⟩
          intro i hi'
          exact H.mapped r hr _ ⟨by omega, by omega⟩
        rw [show 8 * (wy.addr + (x.val.addr - y.val.addr)) + o = 8 * (wy.addr + (base' - y.val.addr)) + bit by omega] at hval
        exact ⟨_, .bits hbw h30 hwd hval hiso hbool hch, .inl ⟨rfl, by simp⟩⟩
      | target hy hd hk =>
        obtain ⟨g2, _⟩ := h.copyable.bits _ _ mi (copy_within hy) hk h1 hbf
        rw [hd] at g2
        cases g2
    | enumeration ht => exact no ht (by simp)
    | null ht => exact no ht (by simp)
    | followed ht => exact no ht (by simp)
    | dropped ht => exact no ht (by simp)
    | kept ht => exact no ht (by simp)
    | bytes ht => exact no ht (by simp)
    | zero ht => exact no ht (by simp)
  | @enumeration f qs n size enc es hf hinf h0 hsz hh =>
    have hb : Typed db x.val (.enumeration size enc es) := ⟨f, qs, hf, hinf⟩
    obtain ⟨o, l, u, hw⟩ := h.copyable.numbers x hx (.inr ⟨_, _, _, hb⟩)
    have no : ∀ {i : Info} {P : Prop}, Typed db x.val i → (∀ s e es, i ≠ .enumeration s e es) → P := fun h1 h2 => absurd (typed_unique h1 hb) (h2 _ _ _)
    cases hw' : hw with
    | enumeration ht h0 hs hsz' hh' =>
      have := typed_unique hb ht
      cases this
      have := Value.holds_unique hh hh'
      subst this
      obtain ⟨⟨qs', g1, _⟩, _⟩ := h.entry hc hf
      have hval := H.values _ _ _ _ _ hc hw
      rw [hs] at hval
      exact ⟨.enumeration hf hinf h0 hsz (h.holds hi hx hw (by omega) hh), _,
        .enumeration g1 hinf (h.nonNull hc) hsz (holds_of_field (by simpa [Want.value] using hval)), .inl ⟨rfl, by simp⟩⟩
    | number ho =>
      obtain ⟨f, qs, hf, hd⟩ := ho.type
      obtain ⟨_, _, ht⟩ := describes_typed hf hd
      exact no ht (by simp)
    | bits ho =>
      obtain ⟨f, qs, hf, hd, _⟩ := ho.type
      obtain ⟨_, _, ht⟩ := describes_typed hf hd
      exact no ht (by simp)
    | null ht => exact no ht (by simp)
    | followed ht => exact no ht (by simp)
    | dropped ht => exact no ht (by simp)
    | kept ht => exact no ht (by simp)
    | bytes ht => exact no ht (by simp)
    | zero ht => exact no ht (by simp)

/-- The copy of a number is equal to it. -/
theorem Setup.content (h : Setup env order mode db st₀ M dst st₁ B) {st' : State} (hi : Inv env mode db st₀ M dst B st'.m)
    (C : Copied env mode db st₀ M dst st' (place B)) (hcmp : Comparable env mode db st₀.m M) {x : Node} {w : Value} (hc : Copy (place B) M.top dst x w) {c : Leaf}
    (hcon : Content env.cfg db st₀.m x.val c) : Content env.cfg db st'.m x.val c ∧ ∃ d, Content env.cfg db st'.m w d ∧ SameLeaf env.cfg c d := by
  obtain ⟨h1, d, h2, h3⟩ := h.content_same hi (.of hi C) hc hcon
  refine ⟨h1, d, h2, ?_⟩
  rcases h3 with ⟨rfl, hne⟩ | ⟨t, n, rfl, ho, hint, rfl⟩
  · cases d with
    | num => exact ⟨rfl, rfl⟩
    | real t n => exact absurd rfl (hne t n)
    | enumeration => exact rfl
  · exact ⟨rfl, hcmp.reals x t n (copy_within hc) ho hint⟩

/-- Pointers that were kept. -/
theorem Setup.kept (h : Setup env order mode db st₀ M dst st₁ B) {st' : State} (hi : Inv env mode db st₀ M dst B st'.m)
    (C : Copied env mode db st₀ M dst st' (place B)) (hcmp : Comparable env mode db st₀.m M) {x : Node} {w : Value} (hc : Copy (place B) M.top dst x w)
    (hm : mode.uptr = .asValues) (hk : x.kids = []) (ht : ∃ t, Typed db x.val (.pointer t)) : ∃ a, Holds st'.m x.val.addr 8 a ∧ Holds st'.m w.addr 8 a := by
  have hx := copy_within hc
  obtain ⟨a, ha⟩ := hcmp.readable.pointer hm x hx hk ht
  obtain ⟨t, ht⟩ := ht
  have hw : Wants env.cfg mode db st₀.m x 0 64 (.num a) := by
    by_cases h0 : a = 0
    · subst h0; exact .null ht ha
    · exact .kept ht ha h0 hk (hcmp.loops hm x hx) hm
  exact ⟨a, h.holds hi hx hw (by omega) ha, holds_of_field8 (by simpa [Want.value] using C.values _ _ _ _ _ hc hw)⟩

/-- Unions that were copied as bytes. -/
theorem Setup.bytes (h : Setup env order mode db st₀ M dst st₁ B) {st' : State} (hi : Inv env mode db st₀ M dst B st'.m)
    (C : Copied env mode db st₀ M dst st' (place B)) {x : Node} {w : Value} (hc : Copy (place B) M.top dst x w)
    (hm : mode.union = .asMem) (hk : x.kids = []) (ht : ∃ s ms, Typed db x.val (.struct .union s ms)) :
    ∀ i < x.size, st'.m (x.val.addr + i) = st'.m (w.addr + i) ∧ st'.m (x.val.addr + i) ≠ none := by
  have hx := copy_within hc
  intro i hin
  obtain ⟨n, hn⟩ := Mem.load_mapped (mapped_of (h.copyable.unions hm x hx hk ht))
  obtain ⟨s, ms, ht⟩ := ht
  have hh : Holds st₀.m x.val.addr x.size (Mem.le n) := by
    rw [holds_loadN]
    simp [Mem.loadN, hn]
  have hw : Wants env.cfg mode db st₀.m x 0 (8 * x.size) (.num (Mem.le n)) := .bytes ht hk (by omega) hm hh
  have h1 := h.holds hi hx hw (by omega) hh
  have h2 : Holds st'.m w.addr x.size (Mem.le n) := holds_of_field (by simpa [Want.value] using C.values _ _ _ _ _ hc hw)
  rw [h1.2 i hin, h2.2 i hin]
  simp

theorem Setup.alike (h : Setup env order mode db st₀ M dst st₁ B) {x : Node} {w : Value} (hc : Copy (place B) M.top dst x w) : Alike db x.val w := by
  have refl : ∀ {f qs}, Final db x.val.entry (some f) qs → SameKind (db f).info (db f).info := by
    intro f qs hf
    have hn := Deep.final_info hf
    cases hif : (db f).info with
    | typedef t => exact absurd hif (hn t .const ⟨none, 0, none, none, none, none⟩).1
    | qual q t => exact absurd hif (hn t q ⟨none, 0, none, none, none, none⟩).2.1
    | member mi => exact absurd hif (hn none .const mi).2.2.1
    | var t => exact absurd hif (hn t .const ⟨none, 0, none, none, none, none⟩).2.2.2
    | _ => simp_all [SameKind]
  obtain ⟨f, qs, hf⟩ := Entry.final_exists (h.sane.acyclic x.val.entry)
  cases f with
  | some f =>
    obtain ⟨⟨qs', g1, _⟩, _⟩ := h.entry hc hf
    exact .same hf g1 (refl hf)
  | none =>
    cases hc with
    | top =>
      obtain ⟨f', qs', qs'', _, g1, _⟩ := h.room.type
      have := Value.final_unique g1 hf
      cases this
    | part => exact .void hf hf
    | target => exact .void hf hf

/-- The copy that was made is equal to the source. -/
theorem Setup.equal (h : Setup env order mode db st₀ M dst st₁ B) {st' : State} (hi : Inv env mode db st₀ M dst B st'.m)
    (C : Copied env mode db st₀ M dst st' (place B)) {env' : Deep.Env} (ha : Answers env.deep env' (place B) M.top dst) (hp : ¬ Packed env.vs db dst)
    (hcmp : Comparable env mode db st₀.m M) (hva : VaLists env.deep db) (hh : Honest env'.vs db) :
    Deep.equalEx env' order mode db st'.m (some M.top.val) (some dst) = .ok 1 := by
  have hin : Interned env'.vs db := by
    intro t c hc
    rw [ha.dyn]
    exact h.interned t c hc
  have hva' : VaLists env' db := by
    intro v hv
    rw [ha.vaList] at hv
    exact hva v hv
  obtain ⟨t1, t2⟩ := h.trees hi C ha hp hcmp.kept h.tree [] dst rfl .top
  obtain ⟨e1, e2, e3⟩ := h.of_tree
  -- the map of the source is as before
  have m1 : Deep.memoryMap env' order mode db st'.m (some M.top.val) = .ok (some M) := by
    obtain ⟨offs, a1, a2⟩ := memoryMap_tree h.sane hin hh h.perm h.dag t1
    rw [e1, e2] at a1 a2
    rw [e3] at a1
    cases a1
    exact a2
  -- the map of the copy
  obtain ⟨offs, a1, a2⟩ := memoryMap_tree h.sane hin hh h.perm h.dag t2
  rw [number_image, e1, image_val, h.table_image] at a2
  obtain ⟨_, _, _, _, _, hk₂, hi₂, S₂, hb₂⟩ := Deep.map_facts h.sane hin hh h.perm a2
  have hoff := h.offsets (M₂ := ⟨image (place B) M.top dst, M.map.map (shift (place B)), offs⟩) rfl hk₂ hi₂ hb₂
  have scal : ∀ {x : Node} {w : Value}, Copy (place B) M.top dst x w → Scalar db w → Scalar db x.val := by
    intro x w hc hs
    have hal := h.alike hc
    have back : Alike db w x.val := by
      cases hal with
      | void a b => exact .void b a
      | same a b c =>
        refine .same b a ?_
        revert c
        generalize (db _).info = i
        generalize (db _).info = j
        cases i <;> cases j <;> simp [SameKind] <;> exact fun h => h.symm
    obtain ⟨k1, k2, _⟩ := Deep.scalar_alike back
    rcases hs with ⟨s, e, hs⟩ | ⟨s, e, es, hs⟩
    · obtain ⟨s', e', h'⟩ := k1 s e hs
      exact .inl ⟨s', e', h'⟩
    · obtain ⟨s', e', es', h'⟩ := k2 s e es hs
      exact .inr ⟨s', e', es', h'⟩
  have ptr : ∀ {x : Node} {w : Value} {i : Info}, Copy (place B) M.top dst x w → Typed db w i → Typed db x.val i := by
    intro x w i hc ht
    obtain ⟨f, qs, hf⟩ := Entry.final_exists (h.sane.acyclic x.val.entry)
    cases f with
    | some f =>
      have := typed_unique (h.typed hc (i := (db f).info) ⟨f, qs, hf, rfl⟩) ht
      exact ⟨f, qs, hf, this⟩
    | none =>
      obtain ⟨f', qs', hf', _⟩ := ht
      cases hc with
      | top =>
        obtain ⟨f', qs', qs'', _, g1, _⟩ := h.room.type
        have := Value.final_unique g1 hf
        cases this
      | part => have := Value.final_unique hf' hf; cases this
      | target => have := Value.final_unique hf' hf; cases this
  have r1 : Readable env'.cfg mode db st'.m M.top := by
    rw [ha.cfg]
    refine ⟨hcmp.readable.nonNull, ?_, ?_, ?_⟩
    · intro x hx hs
      obtain ⟨c, hc⟩ := hcmp.readable.leaf x hx hs
      obtain ⟨w, hw⟩ := within_copy (W := place B) (dst := dst) hx
      exact ⟨c, (h.content hi C hcmp hw hc).1⟩
    · intro hm x hx hk ht
      obtain ⟨w, hw⟩ := within_copy (W := place B) (dst := dst) hx
      obtain ⟨a, h1, _⟩ := h.kept hi C hcmp hw hm hk ht
      exact ⟨a, h1⟩
    · intro hm x hx hk ht i hin
      obtain ⟨w, hw⟩ := within_copy (W := place B) (dst := dst) hx
      exact (h.bytes hi C hw hm hk ht i hin).2
  have kids : ∀ {x : Node} {w : Value}, (image (place B) x w).kids = [] → x.kids = [] := by
    intro x w hk
    rw [image_kids] at hk
    exact List.map_eq_nil_iff.mp hk
  have r2 : Readable env'.cfg mode db st'.m (image (place B) M.top dst) := by
    rw [ha.cfg]
    refine ⟨?_, ?_, ?_, ?_⟩
    · intro y hy
      obtain ⟨x, w, hc, rfl⟩ := within_image hy
      rw [image_val]
      exact h.nonNull hc
    · intro y hy hs
      obtain ⟨x, w, hc, rfl⟩ := within_image hy
      rw [image_val] at hs ⊢
      obtain ⟨c, hcon⟩ := hcmp.readable.leaf x (copy_within hc) (scal hc hs)
      obtain ⟨_, d, hd, _⟩ := h.content hi C hcmp hc hcon
      exact ⟨d, hd⟩
    · intro hm y hy hk ht
      obtain ⟨x, w, hc, rfl⟩ := within_image hy
      rw [image_val] at ht ⊢
      obtain ⟨t, ht⟩ := ht
      obtain ⟨a, _, h2⟩ := h.kept hi C hcmp hc hm (kids hk) ⟨t, ptr hc ht⟩
      exact ⟨a, h2⟩
    · intro hm y hy hk ht i hin
      obtain ⟨x, w, hc, rfl⟩ := within_image hy
      rw [image_val] at ht ⊢
      rw [image_size] at hin
      obtain ⟨s, ms, ht⟩ := ht
      obtain ⟨b1, b2⟩ := h.bytes hi C hc hm (kids hk) ⟨s, ms, ptr hc ht⟩ i hin
      rw [← b1]
      exact b2
  obtain ⟨r, hr, _, hiff, _⟩ := Deep.C31_equal_partial h.sane hin hh hva' h.perm _ _ _ _ m1 a2 r1 r2
  rw [hr, hiff.mpr ?_]
  intro x y hpair
  obtain ⟨w, hc, rfl⟩ := paired_image hpair
  refine ⟨(image_size ..).symm, by rw [image_kids, List.length_map], (image_loop ..).symm, ?_, ?_, ?_, ?_, ?_⟩
  · rw [image_id]; exact (hoff x.id).symm
  · rw [image_val]; exact h.alike hc
  · intro hs
    rw [image_val, ha.cfg]
    obtain ⟨c, hcon⟩ := hcmp.readable.leaf x (copy_within hc) hs
    obtain ⟨h1, d, h2, h3⟩ := h.content hi C hcmp hc hcon
    exact ⟨c, d, h1, h2, h3⟩
  · intro hm hk ht
    rw [image_val]
    exact h.kept hi C hcmp hc hm hk ht
  · intro hm hk ht i hin
    rw [image_val]
    exact (h.bytes hi C hc hm hk ht i hin).1
end
end Verif.DeepCopy
