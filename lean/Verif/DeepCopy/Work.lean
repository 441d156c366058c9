import Verif.DeepCopy.Layout
/-
Copying the objects one after another.
-/
namespace Verif.DeepCopy
open Verif Verif.Entry Verif.Entry.Spec Verif.Value Verif.Value.Spec Verif.Handlers Verif.ValueString.Spec Verif.Deep.Spec Verif.DeepCopy.Spec
open Verif.Bitfield.Spec (Field)
open Verif.Deep (Node Map Table Keys Ids typed_unique)

theorem size_pointer {db : Db} {r f : Ref} {qs : List Qual} (hf : Final db r (some f) qs) {t : Option Ref} (hi : (db f).info = .pointer t) {n : Nat}
    (h : Size db r n) : n = 8 := by
  generalize hg : (some f : Option Ref) = g at hf
  induction hf generalizing n with
  | here h0 =>
    cases hg
    cases h with
    | stored h => cases h <;> simp_all
    | through ha => exact absurd ha (h0 _)
    | dots hd => simp_all
    | array hd => simp_all
  | void => cases hg
  | @step r t' f' qs ha _ ih =>
    subst hg
    cases h with
    | stored h => generalize (some t' : Option Ref) = o1 at ha; cases h <;> cases ha <;> simp_all
    | @through _ t'' _ ha' hs =>
      have : t' = t'' := by
        generalize e1 : some t' = o1 at ha
        generalize e2 : some t'' = o2 at ha'
        have : o1 = o2 := by cases ha <;> cases ha' <;> simp_all
        rw [← e1, ← e2] at this
        exact Option.some.inj this
      subst this
      exact ih hs rfl
    | dots hd => generalize (some t' : Option Ref) = o1 at ha; cases ha <;> simp_all
    | array hd => generalize (some t' : Option Ref) = o1 at ha; cases ha <;> simp_all

theorem tree_pointer {deep : Deep.Env} {mode : Deep.Mode} {db : Db} {m : Mem} {outer : List Value} {x : Node} (ht : Tree deep mode db m outer x) {t : Option Ref}
    (hp : Typed db x.val (.pointer t)) (hc : ¬ Packed deep.vs db x.val) : x.size = 8 ∧ x.val.addr ≠ 0 := by
  have key : ∀ {v : Value} {i : Info} {n : Nat}, ValueString.Spec.Object deep.vs db v i → Typed db v (.pointer t) → Size db v.entry n → n = 8 ∧ v.addr ≠ 0 := by
    rintro v i n ⟨_, h0, _⟩ ⟨f, qs, hf, hi⟩ hsz
    exact ⟨size_pointer hf hi hsz, h0⟩
  have no : ∀ {v : Value} {i : Info} {P : Prop}, ValueString.Spec.Object deep.vs db v i → Typed db v (.pointer t) → (∀ t, i ≠ .pointer t) → P := by
    intro v i P h1 h2 h3
    exact absurd (typed_unique h1.2.2 h2) (h3 t)
  cases ht with
  | leaf h =>
    cases h with
    | base h hs => exact key h hp hs
    | enumeration h hs => exact key h hp hs
    | null h hs => exact key h hp hs
    | loop h hs => exact key h hp hs
    | unknown h hs => exact key h hp hs
  | parts h =>
    cases h with
    | struct h => exact no h hp (by simp)
    | union h => exact no h hp (by simp)
    | unionMember h => exact no h hp (by simp)
    | array h => exact no h hp (by simp)
    | noElements h => exact no h hp (by simp)
  | target h =>
    cases h with
    | target h hs => exact key h hp hs
  | args h =>
    cases h with
    | arguments h => exact absurd h hc
    | call h =>
      rcases h with h | h
      · exact no h hp (by simp)
      · exact no h hp (by simp)

section
variable {cfg : Plat} {mode : Deep.Mode} {db : Db} {m : Mem}

theorem dwarf_unique {mi : MemberInfo} {b s b' s' : Nat} (h : Dwarf3 mi b s ∨ Dwarf4 mi b s) (h' : Dwarf3 mi b' s' ∨ Dwarf4 mi b' s') : b = b' ∧ s = s' := by
  rcases h with ⟨u, o, z, h1, h2, h3, h4, h5, h6, h7⟩ | ⟨d, z, h1, h2, h3, h4, h5⟩
  · rcases h' with ⟨u', o', z', g1, g2, g3, g4, g5, g6, g7⟩ | ⟨d', z', g1, g2, g3, g4, g5⟩
    · rw [h1] at g1; rw [h2] at g2; rw [h3] at g3
      cases g1; cases g2; cases g3
      exact ⟨by omega, by omega⟩
    · rw [h2] at g1; cases g1
  · rcases h' with ⟨u', o', z', g1, g2, g3, g4, g5, g6, g7⟩ | ⟨d', z', g1, g2, g3, g4, g5⟩
    · rw [h1] at g2; cases g2
    · rw [h2] at g2; rw [h3] at g3
      cases g2; cases g3
      exact ⟨by omega, by omega⟩

theorem bit_plain {v : Value} {t : Ty} {be base bit size : Nat} {qs : List Qual} (h : BitObject db m v t be base bit size qs) : IsBitfield db v.entry := by
  obtain ⟨mi, h1, h2, _⟩ := h.field
  refine ⟨mi, h1, ?_⟩
  rcases h2 with ⟨u, o, z, _, h2, _⟩ | ⟨d, z, _, h2, _⟩
  · exact .inl (by simp [h2])
  · exact .inr (.inr (by simp [h2]))

theorem describes_typed {v : Value} {x : Ref} {qs : List Qual} {t : Ty} (hf : Final db v.entry (some x) qs) (hd : Describes db x t) : ∃ s e, Typed db v (.base s e) := by
  obtain ⟨s, e, h1, _⟩ := hd
  exact ⟨s, e, x, qs, hf, h1⟩


theorem wants_unique {x : Node} {o l o' l' : Nat} {u u' : Want} (h : Wants cfg mode db m x o l u) (h' : Wants cfg mode db m x o' l' u') : o = o' ∧ l = l' ∧ u = u' := by
  have no : ∀ {i j : Info} {P : Prop}, Typed db x.val i → Typed db x.val j → i ≠ j → P := fun h1 h2 h3 => absurd (typed_unique h1 h2) h3
  have nb : ∀ {j : Info} {P : Prop}, (∃ s e, Typed db x.val (.base s e)) → Typed db x.val j → (∀ s e, j ≠ .base s e) → P :=
    fun ⟨s, e, h1⟩ h2 h3 => absurd (typed_unique h2 h1) (h3 s e)
  have ob : ∀ {t n}, Value.Object db m x.val t n → ∃ s e, Typed db x.val (.base s e) := fun h => by
    obtain ⟨f, qs, hf, hd⟩ := h.type
    exact describes_typed hf hd
  have bb : ∀ {t be base bit size qs}, BitObject db m x.val t be base bit size qs → ∃ s e, Typed db x.val (.base s e) := fun h => by
    obtain ⟨f, qs, hf, hd, _⟩ := h.type
    exact describes_typed hf hd
  cases h with
  | number ho hs =>
    cases h' with
    | number ho' hs' =>
      obtain ⟨f, qs, hf, hd⟩ := ho.type
      obtain ⟨f', qs', hf', hd'⟩ := ho'.type
      have := final_unique hf hf'
      cases this
      have := describes_unique hd hd'
      subst this
      have := holds_unique ho.content ho'.content
      subst this
      exact ⟨rfl, rfl, rfl⟩
    | bits hb => exact absurd (bit_plain hb) ho.plain
    | enumeration h => exact nb (ob ho) h (by simp)
    | null h => exact nb (ob ho) h (by simp)
    | followed h => exact nb (ob ho) h (by simp)
    | dropped h => exact nb (ob ho) h (by simp)
    | kept h => exact nb (ob ho) h (by simp)
    | bytes h => exact nb (ob ho) h (by simp)
    | zero h => exact nb (ob ho) h (by simp)
  | bits hb _ _ _ _ _ ho hf =>
    cases h' with
    | number ho' => exact absurd (bit_plain hb) ho'.plain
    | bits hb' _ _ _ _ _ ho' hf' =>
      obtain ⟨mi, h1, h2, h3⟩ := hb.field
      obtain ⟨mi', g1, g2, g3⟩ := hb'.field
      rw [h1] at g1
      cases g1
      obtain ⟨rfl, rfl⟩ := dwarf_unique h2 g2
      rw [g3] at h3
      have hbase := Nat.add_right_cancel h3
      subst hbase
      have := field_unique hf hf'
      subst this
      exact ⟨by omega, rfl, rfl⟩
    | enumeration h => exact nb (bb hb) h (by simp)
    | null h => exact nb (bb hb) h (by simp)
    | followed h => exact nb (bb hb) h (by simp)
    | dropped h => exact nb (bb hb) h (by simp)
    | kept h => exact nb (bb hb) h (by simp)
    | bytes h => exact nb (bb hb) h (by simp)
    | zero h => exact nb (bb hb) h (by simp)
  | enumeration h _ _ _ hh =>
    cases h' with
    | number ho => exact nb (ob ho) h (by simp)
    | bits hb => exact nb (bb hb) h (by simp)
    | enumeration h' _ _ _ hh' =>
      have := typed_unique h h'
      cases this
      have := holds_unique hh hh'
      subst this
      exact ⟨rfl, rfl, rfl⟩
    | null h' => exact no h h' (by simp)
    | followed h' => exact no h h' (by simp)
    | dropped h' => exact no h h' (by simp)
    | kept h' => exact no h h' (by simp)
    | bytes h' => exact no h h' (by simp)
    | zero h' => exact no h h' (by simp)
  | null h hh =>
    cases h' with
    | number ho => exact nb (ob ho) h (by simp)
    | bits hb => exact nb (bb hb) h (by simp)
    | enumeration h' => exact no h h' (by simp)
    | null => exact ⟨rfl, rfl, rfl⟩
    | followed h' hh' h0 => exact absurd (holds_unique hh hh').symm h0
    | dropped h' hh' h0 => exact absurd (holds_unique hh hh').symm h0
    | kept h' hh' h0 => exact absurd (holds_unique hh hh').symm h0
    | bytes h' => exact no h h' (by simp)
    | zero h' => exact no h h' (by simp)
  | followed h hh h0 hk =>
    cases h' with
    | number ho => exact nb (ob ho) h (by simp)
    | bits hb => exact nb (bb hb) h (by simp)
    | enumeration h' => exact no h h' (by simp)
    | null h' hh' => exact absurd (holds_unique hh hh') h0
    | followed h' hh' =>
      have := holds_unique hh hh'
      subst this
      exact ⟨rfl, rfl, rfl⟩
    | dropped h' hh' _ hk' hl' => exact absurd hk (by simp [hk', hl'])
    | kept h' hh' _ hk' hl' => exact absurd hk (by simp [hk', hl'])
    | bytes h' => exact no h h' (by simp)
    | zero h' => exact no h h' (by simp)
  | dropped h hh h0 hk hl hm =>
    cases h' with
    | number ho => exact nb (ob ho) h (by simp)
    | bits hb => exact nb (bb hb) h (by simp)
    | enumeration h' => exact no h h' (by simp)
    | null h' hh' => exact absurd (holds_unique hh hh') h0
    | followed h' hh' _ hk' => exact absurd hk' (by simp [hk, hl])
    | dropped => exact ⟨rfl, rfl, rfl⟩
    | kept h' hh' _ hk' hl' hm' => rw [hm] at hm'; cases hm'
    | bytes h' => exact no h h' (by simp)
    | zero h' => exact no h h' (by simp)
  | kept h hh h0 hk hl hm =>
    cases h' with
    | number ho => exact nb (ob ho) h (by simp)
    | bits hb => exact nb (bb hb) h (by simp)
    | enumeration h' => exact no h h' (by simp)
    | null h' hh' => exact absurd (holds_unique hh hh') h0
    | followed h' hh' _ hk' => exact absurd hk' (by simp [hk, hl])
    | dropped h' hh' _ hk' hl' hm' => rw [hm] at hm'; cases hm'
    | kept h' hh' =>
      have := holds_unique hh hh'
      subst this
      exact ⟨rfl, rfl, rfl⟩
    | bytes h' => exact no h h' (by simp)
    | zero h' => exact no h h' (by simp)
  | bytes h _ _ hm hh =>
    cases h' with
    | number ho => exact nb (ob ho) h (by simp)
    | bits hb => exact nb (bb hb) h (by simp)
    | enumeration h' => exact no h h' (by simp)
    | null h' => exact no h h' (by simp)
    | followed h' => exact no h h' (by simp)
    | dropped h' => exact no h h' (by simp)
    | kept h' => exact no h h' (by simp)
    | bytes h' _ _ _ hh' =>
      have := holds_unique hh hh'
      subst this
      exact ⟨rfl, rfl, rfl⟩
    | zero h' _ _ hm' => rw [hm] at hm'; cases hm'
  | zero h _ _ hm =>
    cases h' with
    | number ho => exact nb (ob ho) h (by simp)
    | bits hb => exact nb (bb hb) h (by simp)
    | enumeration h' => exact no h h' (by simp)
    | null h' => exact no h h' (by simp)
    | followed h' => exact no h h' (by simp)
    | dropped h' => exact no h h' (by simp)
    | kept h' => exact no h h' (by simp)
    | bytes h' _ _ hm' => rw [hm] at hm'; cases hm'
    | zero => exact ⟨rfl, rfl, rfl⟩
end

section
variable {env : Env} {order : Table → Table} {mode : Deep.Mode} {db : Db} {st₀ st₁ : State} {M : Map} {dst : Value} {B : Blocks}

/-- The bits to be written are in a region, as those of the object are in the block. -/
theorem Setup.cell (h : Setup env order mode db st₀ M dst st₁ B) {x : Node} {w : Value} (hc : Copy (place B) M.top dst x w) {o l : Nat} {u : Want}
    (hw : Wants env.cfg mode db st₀.m x o l u) :
    ∃ r ∈ regions M dst B, r.1 ≤ x.val.addr ∧ 8 * x.val.addr + o + l ≤ 8 * (r.1 + r.2.2) ∧ w.addr = r.2.1 + (x.val.addr - r.1) := by
  have plain : o = 0 → l ≤ 8 * x.size → ∃ r ∈ regions M dst B, r.1 ≤ x.val.addr ∧ 8 * x.val.addr + o + l ≤ 8 * (r.1 + r.2.2) ∧ w.addr = r.2.1 + (x.val.addr - r.1) := by
    intro h1 h2
    obtain ⟨r, hr, h3, h4, h5⟩ := h.region hc
    exact ⟨r, hr, h3, by omega, h5⟩
  have ptr : ∀ {t}, Typed db x.val (.pointer t) → x.size = 8 := by
    intro t hp
    obtain ⟨_, ht⟩ := Deep.within_tree h.tree (copy_within hc)
    exact (tree_pointer ht hp (h.copyable.calls _ (copy_within hc)).1).1
  cases hw' : hw with
  | number => exact plain rfl (Nat.le_refl _)
  | bits hb =>
    have hbf := bit_plain hb
    obtain ⟨mi, h1, _⟩ := hb.field
    cases hc with
    | top => exact absurd hbf h.copyable.whole
    | @part y wy _ hy hd hk =>
      obtain ⟨_, h2, h3⟩ := h.copyable.bits _ _ mi (copy_within hy) hk h1 hbf
      obtain ⟨r, hr, h4, h5, h6⟩ := h.region hy
      have h7 := h3 _ _ _ hw
      exact ⟨r, hr, by omega, by omega, by simp only; omega⟩
    | target hy hd hk =>
      obtain ⟨h2, _⟩ := h.copyable.bits _ _ mi (copy_within hy) hk h1 hbf
      rw [hd] at h2
      cases h2
  | enumeration => exact plain rfl (Nat.le_refl _)
  | null hp => exact plain rfl (by have := ptr hp; omega)
  | followed hp => exact plain rfl (by have := ptr hp; omega)
  | dropped hp => exact plain rfl (by have := ptr hp; omega)
  | kept hp => exact plain rfl (by have := ptr hp; omega)
  | bytes => exact plain rfl (Nat.le_refl _)
  | zero => exact plain rfl (Nat.le_refl _)

/-- What memory is while objects are copied. -/
structure Inv (env : Env) (mode : Deep.Mode) (db : Db) (st₀ : State) (M : Map) (dst : Value) (B : Blocks) (m : Mem) : Prop where
  outside : ∀ a, (∀ r ∈ regions M dst B, ¬ In a r) → m a = st₀.m a
  mapped : ∀ r ∈ regions M dst B, ∀ a, In a r → m a ≠ none
  null : mode.uptr = .fail ∨ mode.uptr = .oneByte → ∀ x w t, Copy (place B) M.top dst x w → Typed db x.val (.pointer t) → Holds st₀.m x.val.addr 8 0 →
    Field m (8 * w.addr) 64 0

/-- The copy holds what it is to hold. -/
def Done (env : Env) (mode : Deep.Mode) (db : Db) (st₀ : State) (B : Blocks) (m : Mem) (x : Node) (w : Value) : Prop :=
  ∀ o l u, Wants env.cfg mode db st₀.m x o l u → Field m (8 * w.addr + o) l (u.value (place B))

/-- What was done stays done. -/
def Keeps (env : Env) (mode : Deep.Mode) (db : Db) (st₀ : State) (M : Map) (dst : Value) (B : Blocks) (m m' : Mem) : Prop :=
  ∀ x w, Copy (place B) M.top dst x w → Done env mode db st₀ B m x w → Done env mode db st₀ B m' x w

/-- An object was copied. -/
structure Made (env : Env) (mode : Deep.Mode) (db : Db) (st₀ : State) (M : Map) (dst : Value) (B : Blocks) (m m' : Mem) (x : Node) (w : Value) : Prop where
  inv : Inv env mode db st₀ M dst B m'
  keeps : Keeps env mode db st₀ M dst B m m'
  done : Done env mode db st₀ B m' x w

theorem Wrote.stays {m m' : Mem} {q l c q' l' c' : Nat} (h : Wrote m m' q l c) (hf : Field m q' l' c')
    (hd : (∀ i, q ≤ i → i < q + l → q' ≤ i → i < q' + l' → False) ∨ (q = q' ∧ l = l' ∧ c = c')) : Field m' q' l' c' := by
  rcases hd with hd | ⟨rfl, rfl, rfl⟩
  · refine field_congr hf fun i h1 h2 => h.2 i ?_
    by_cases h3 : i < q
    · exact .inl h3
    · refine .inr (by
        by_cases h4 : q + l ≤ i
        · exact h4
        · exact (hd i (by omega) (by omega) h1 h2).elim)
  · exact h.1

theorem Setup.step (h : Setup env order mode db st₀ M dst st₁ B) {m m' : Mem} (hi : Inv env mode db st₀ M dst B m) {x : Node} {w : Value}
    (hc : Copy (place B) M.top dst x w) {o l : Nat} {u : Want} (hw : Wants env.cfg mode db st₀.m x o l u)
    (hwr : Wrote m m' (8 * w.addr + o) l (u.value (place B))) : Made env mode db st₀ M dst B m m' x w := by
  obtain ⟨r, hr, h1, h2, h3⟩ := h.cell hc hw
  have keep : ∀ y wy o' l' u', Copy (place B) M.top dst y wy → Wants env.cfg mode db st₀.m y o' l' u' → Field m (8 * wy.addr + o') l' (u'.value (place B)) →
      Field m' (8 * wy.addr + o') l' (u'.value (place B)) := by
    intro y wy o' l' u' hcy hwy hf
    obtain ⟨r', hr', g1, g2, g3⟩ := h.cell hcy hwy
    apply hwr.stays hf
    by_cases hrr : r = r'
    · subst hrr
      rcases h.copyable.consistent x y o l u o' l' u' (copy_within hc) (copy_within hcy) hw hwy with hd | hd | ⟨hd1, hd2, hd3⟩
      · left; intro i a1 a2 a3 a4; omega
      · left; intro i a1 a2 a3 a4; omega
      · right; exact ⟨by omega, hd2, by rw [hd3]⟩
    · left
      intro i a1 a2 a3 a4
      exact hrr (h.disjoint hr hr' (a := i / 8) ⟨by omega, by omega⟩ ⟨by omega, by omega⟩)
  refine ⟨⟨?_, ?_, ?_⟩, ?_, ?_⟩
  · intro a ha
    rw [← hi.outside a ha]
    apply byte_of_bits
    intro i hi8
    apply hwr.2
    by_cases hlt : 8 * a + i < 8 * w.addr + o
    · exact .inl hlt
    · right
      by_cases hge : 8 * w.addr + o + l ≤ 8 * a + i
      · exact hge
      · exact absurd (⟨by omega, by omega⟩ : In a r) (ha r hr)
  · intro r' hr' a ha
    exact hwr.mapped (hi.mapped r' hr' a ha)
  · intro hm y wy t hcy hty hny
    have := keep y wy 0 64 (.num 0) hcy (.null hty hny) (by simpa [Want.value] using hi.null hm y wy t hcy hty hny)
    simpa [Want.value] using this
  · intro y wy hcy hd o' l' u' hwy
    exact keep y wy o' l' u' hcy hwy (hd _ _ _ hwy)
  · intro o' l' u' hw'
    obtain ⟨rfl, rfl, rfl⟩ := wants_unique hw hw'
    exact hwr.1

theorem idle {m : Mem} (hi : Inv env mode db st₀ M dst B m) {x : Node} {w : Value} (hn : ∀ o l u, ¬ Wants env.cfg mode db st₀.m x o l u) :
    Made env mode db st₀ M dst B m m x w :=
  ⟨hi, fun _ _ _ hd => hd, fun o l u hw => absurd hw (hn o l u)⟩

/-- The source is not changed. -/
theorem Setup.source (h : Setup env order mode db st₀ M dst st₁ B) {m : Mem} (hi : Inv env mode db st₀ M dst B m) {x : Node} (hx : Within M.top x) {o l : Nat} {u : Want}
    (hw : Wants env.cfg mode db st₀.m x o l u) {a : Nat} (hm : st₀.m a ≠ none) (h1 : 8 * x.val.addr + o < 8 * a + 8) (h2 : 8 * a < 8 * x.val.addr + o + l) :
    m a = st₀.m a ∧ ∀ r ∈ regions M dst B, ¬ In a r := by
  have : ∀ r ∈ regions M dst B, ¬ In a r := by
    intro r hr ⟨h3, h4⟩
    unfold regions at hr
    rw [List.mem_cons] at hr
    rcases hr with rfl | hr
    · have := h.room.apart x o l u hx hw
      simp only at h3 h4
      omega
    · have := h.new.fresh r hr (a - r.2.1) (by omega)
      rw [show r.2.1 + (a - r.2.1) = a by omega] at this
      exact hm this
  exact ⟨hi.outside a this, this⟩

theorem mapped_ne {m : Mem} {a n v : Nat} (h : Holds m a n v) : ∀ i < n, m (a + i) ≠ none := fun i hi => by rw [h.2 i hi]; simp

theorem Setup.holds (h : Setup env order mode db st₀ M dst st₁ B) {m : Mem} (hi : Inv env mode db st₀ M dst B m) {x : Node} (hx : Within M.top x) {l n v : Nat} {u : Want}
    (hw : Wants env.cfg mode db st₀.m x 0 l u) (hl : 8 * n ≤ l) (hh : Holds st₀.m x.val.addr n v) : Holds m x.val.addr n v :=
  holds_congr hh fun i hi' => (h.source hi hx hw (mapped_ne hh i hi') (by omega) (by omega)).1

/-- The copy may be written. -/
theorem Setup.room_for (h : Setup env order mode db st₀ M dst st₁ B) {m : Mem} (hi : Inv env mode db st₀ M dst B m) {x : Node} {w : Value}
    (hc : Copy (place B) M.top dst x w) {l n : Nat} {u : Want} (hw : Wants env.cfg mode db st₀.m x 0 l u) (hl : 8 * n ≤ l) : ∀ i < n, m (w.addr + i) ≠ none := by
  intro i hin
  obtain ⟨r, hr, h1, h2, h3⟩ := h.cell hc hw
  exact hi.mapped r hr _ ⟨by omega, by omega⟩
end

end Verif.DeepCopy
