import Verif.DeepCopy.Result
/-
The tree of the copy.
-/
namespace Verif.DeepCopy
open Verif Verif.Entry Verif.Entry.Spec Verif.Value Verif.Value.Spec Verif.Handlers Verif.ValueString.Spec Verif.Deep.Spec Verif.DeepCopy.Spec
open Verif.Bitfield.Spec (Field)
open Verif.Deep (Node Map Table Keys Ids)

theorem site_copy {W : Nat → Nat} {k : Node} {dst : Value} {outs : List (Node × Value)} {x : Node} {w : Value} (h : Site W k dst outs x w) :
    Copy W k dst x w ∧ ∀ p ∈ outs, Copy W k dst p.1 p.2 ∧ p.1.kids ≠ [] := by
  have ne : ∀ {x y : Node}, y ∈ x.kids → x.kids ≠ [] := fun hy he => by rw [he] at hy; cases hy
  induction h with
  | top => exact ⟨.top, by simp⟩
  | part _ hd hy ih =>
    refine ⟨.part ih.1 hd hy, ?_⟩
    intro p hp
    rw [List.mem_cons] at hp
    rcases hp with rfl | hp
    · exact ⟨ih.1, ne hy⟩
    · exact ih.2 p hp
  | target _ hd hy ih =>
    refine ⟨.target ih.1 hd hy, ?_⟩
    intro p hp
    rw [List.mem_cons] at hp
    rcases hp with rfl | hp
    · exact ⟨ih.1, ne hy⟩
    · exact ih.2 p hp

/-- A type has the size of its final type. -/
theorem size_final {db : Db} {r : Ref} {o : Option Ref} {qs : List Qual} (hf : Final db r o qs) {f : Ref} (ho : o = some f) {n : Nat} : Size db r n ↔ Size db f n := by
  induction hf with
  | here _ => cases ho; rfl
  | void _ => cases ho
  | @step r t f' qs ha _ ih =>
    rw [← ih ho]
    refine ⟨fun h => ?_, fun h => .through ha h⟩
    cases h with
    | stored hs =>
      generalize (some t : Option Ref) = o at ha
      cases ha <;> cases hs <;> simp_all
    | through ha' hs =>
      rename_i t'
      have : t' = t := by
        generalize e : (some t : Option Ref) = o at ha
        generalize e' : (some t' : Option Ref) = o' at ha'
        have : o = o' := by cases ha <;> cases ha' <;> simp_all
        subst this
        rw [← e] at e'
        exact Option.some.inj e'
      rw [← this]
      exact hs
    | dots hd =>
      generalize (some t : Option Ref) = o at ha
      cases ha <;> simp_all
    | array hd =>
      generalize (some t : Option Ref) = o at ha
      cases ha <;> simp_all

/-- Where a part of an object is, if the object is at `w` instead of at `v`. -/
def spot (W : Nat → Nat) (v w : Value) (d : Bool) (u : Value) : Value := ⟨u.entry, if d then W u.addr else w.addr + (u.addr - v.addr)⟩

mutual
/-- The tree of the copy. -/
def image (W : Nat → Nat) : Node → Value → Node
  | .mk i v s l d ks, w => .mk i w s l d (imageAll W v w d ks)
def imageAll (W : Nat → Nat) (v w : Value) (d : Bool) : List Node → List Node
  | [] => []
  | k :: ks => image W k (spot W v w d k.val) :: imageAll W v w d ks
end

theorem imageAll_map (W : Nat → Nat) (v w : Value) (d : Bool) : ∀ ks : List Node, imageAll W v w d ks = ks.map fun k => image W k (spot W v w d k.val)
  | [] => rfl
  | k :: ks => by rw [imageAll, imageAll_map W v w d ks]; rfl

theorem image_val (W : Nat → Nat) (k : Node) (w : Value) : (image W k w).val = w := by cases k; rfl
theorem image_size (W : Nat → Nat) (k : Node) (w : Value) : (image W k w).size = k.size := by cases k; rfl
theorem image_loop (W : Nat → Nat) (k : Node) (w : Value) : (image W k w).loop = k.loop := by cases k; rfl
theorem image_id (W : Nat → Nat) (k : Node) (w : Value) : (image W k w).id = k.id := by cases k; rfl
theorem image_deref (W : Nat → Nat) (k : Node) (w : Value) : (image W k w).deref = k.deref := by cases k; rfl
theorem image_kids (W : Nat → Nat) (k : Node) (w : Value) : (image W k w).kids = k.kids.map fun y => image W y (spot W k.val w k.deref y.val) := by
  cases k; simp only [image, Node.kids, Node.val, Node.deref, imageAll_map]

theorem extent_image (W : Nat → Nat) {v w : Value} : ∀ (ks : List Node) (n : Nat),
    extent w.addr n (ks.map fun k => image W k (spot W v w false k.val)) = extent v.addr n ks
  | [], n => rfl
  | k :: ks, n => by
    have e : ∀ (a n : Nat) (k : Node) (ks : List Node), extent a n (k :: ks) = extent a (max n (k.val.addr - a + k.size)) ks := fun _ _ _ _ => rfl
    rw [List.map_cons, e, e, extent_image W ks, image_val, image_size]
    simp [spot]

section
variable {env : Env} {order : Table → Table} {mode : Deep.Mode} {db : Db} {st₀ st₁ : State} {M : Map} {dst : Value} {B : Blocks}

/-- A pointer around an object was followed. -/
theorem Setup.around (h : Setup env order mode db st₀ M dst st₁ B) {y : Node} (hw : Within M.top y) (hk : y.kids ≠ []) {t} (ht : Typed db y.val (.pointer t)) :
    y.val.addr ≠ 0 ∧ ∃ b, Followed db st₀.m M y b := by
  obtain ⟨outer, hy⟩ := Deep.within_tree h.tree hw
  have no : ∀ {i : Info} {P : Prop}, ValueString.Spec.Object env.vs db y.val i → (∀ t, i ≠ .pointer t) → P := by
    intro i P h1 h3
    exact absurd (Deep.typed_unique h1.2.2 ht) (h3 t)
  have hcal := h.copyable.calls _ hw
  cases hy with
  | leaf _ => exact absurd rfl hk
  | parts h =>
    cases h with
    | struct h => exact no h (by simp)
    | union h => exact no h (by simp)
    | unionMember h => exact no h (by simp)
    | array h => exact no h (by simp)
    | noElements h => exact no h (by simp)
  | target h =>
    cases h with
    | target ho hs hh h0 => exact ⟨ho.2.1, _, hw, ⟨t, ht⟩, hh, h0, .inl hk⟩
  | args h =>
    cases h with
    | arguments h => exact absurd h hcal.1
    | call h =>
      rcases h with h | h
      · exact no h (by simp)
      · exact no h (by simp)

theorem Setup.follow (h : Setup env order mode db st₀ M dst st₁ B) {m' : Mem} (hi : Inv env mode db st₀ M dst B m') {y : Node} {b : Nat}
    (hf : Followed db st₀.m M y b) : Holds m' y.val.addr 8 b := by
  obtain ⟨t, ht⟩ := hf.type
  exact h.holds hi hf.within (.followed ht hf.holds hf.nonNull hf.taken) (by omega) hf.holds

theorem Setup.fresh_source (h : Setup env order mode db st₀ M dst st₁ B) {m' : Mem} (hi : Inv env mode db st₀ M dst B m') {outs : List (Node × Value)}
    (ho : ∀ p ∈ outs, Copy (place B) M.top dst p.1 p.2 ∧ p.1.kids ≠ []) {a : Nat} (hf : Fresh db st₀.m (outs.map (·.1.val)) a) : Fresh db m' (outs.map (·.1.val)) a := by
  intro w hw x qs t h1 h2 h3
  obtain ⟨b, hb, hne⟩ := hf w hw x qs t h1 h2 h3
  obtain ⟨p, hp, rfl⟩ := List.mem_map.mp hw
  obtain ⟨c1, c2⟩ := ho p hp
  obtain ⟨_, b', hb'⟩ := h.around (copy_within c1) c2 (t := t) ⟨x, qs, h1, h2⟩
  have := Value.holds_unique hb hb'.holds
  subst this
  exact ⟨b, h.follow hi hb', hne⟩

/-- The memory `m` has what the copy is to hold. -/
structure Has (env : Env) (mode : Deep.Mode) (db : Db) (st₀ : State) (M : Map) (dst : Value) (B : Blocks) (m : Mem) : Prop where
  values : ∀ x w o l u, Copy (place B) M.top dst x w → Wants env.cfg mode db st₀.m x o l u → Field m (8 * w.addr + o) l (u.value (place B))
  mapped : ∀ r ∈ regions M dst B, ∀ a, In a r → m a ≠ none

theorem Has.of {st' : State} (hi : Inv env mode db st₀ M dst B st'.m) (C : Copied env mode db st₀ M dst st' (place B)) : Has env mode db st₀ M dst B st'.m := ⟨C.values, hi.mapped⟩

theorem Has.followed {m : Mem} (H : Has env mode db st₀ M dst B m) {x : Node} {w : Value} {p : Nat} (hf : Followed db st₀.m M x p) (hc : Copy (place B) M.top dst x w) :
    Holds m w.addr 8 (place B p) := by
  obtain ⟨t, ht⟩ := hf.type
  have hw : Wants env.cfg mode db st₀.m x 0 64 (.copyOf p) := .followed ht hf.holds hf.nonNull hf.taken
  exact holds_of_field8 (by simpa [Want.value] using H.values _ _ _ _ _ hc hw)

theorem Setup.fresh_copy (h : Setup env order mode db st₀ M dst st₁ B) {m : Mem} (H : Has env mode db st₀ M dst B m) {outs : List (Node × Value)}
    (ho : ∀ p ∈ outs, Copy (place B) M.top dst p.1 p.2 ∧ p.1.kids ≠ []) {a a' : Nat} (hf : Fresh db st₀.m (outs.map (·.1.val)) a)
    (hne : ∀ y b, Followed db st₀.m M y b → b ≠ a → place B b ≠ a') : Fresh db m (outs.map (·.2)) a' := by
  intro w hw x qs t h1 h2 h3
  obtain ⟨⟨y, u⟩, hp, rfl⟩ := List.mem_map.mp hw
  obtain ⟨c1, c2⟩ := ho _ hp
  simp only at c1 c2 h1 h3 ⊢
  have ht : Typed db y.val (.pointer t) := by
    obtain ⟨f, hf⟩ := Entry.final_exists (h.sane.acyclic y.val.entry)
    obtain ⟨qs', hf⟩ := hf
    cases f with
    | none =>
      exfalso
      cases c1 with
      | top =>
        obtain ⟨f', qs', qs'', _, g1, _⟩ := h.room.type
        have := Value.final_unique g1 hf
        cases this
      | part => have := Value.final_unique h1 hf; cases this
      | target => have := Value.final_unique h1 hf; cases this
    | some f =>
      obtain ⟨⟨qs'', g, _⟩, _⟩ := h.entry c1 hf
      have := Value.final_unique h1 g
      cases this
      exact ⟨x, qs', hf, h2⟩
  obtain ⟨h0, b, hb⟩ := h.around (copy_within c1) c2 ht
  obtain ⟨f, qs', hff, hfi⟩ := ht
  obtain ⟨b', hb', hbne⟩ := hf y.val (List.mem_map.mpr ⟨_, hp, rfl⟩) f qs' t hff hfi h0
  have := Value.holds_unique hb.holds hb'
  subst this
  exact ⟨_, H.followed hb c1, hne _ _ hb hbne⟩

/-- The copy of an object is an object of the same type. -/
theorem Setup.object (h : Setup env order mode db st₀ M dst st₁ B) {env' : Deep.Env} (hva : env'.vaList = env.vaList) (hp : ¬ Packed env.vs db dst) {x : Node} {w : Value}
    (hc : Copy (place B) M.top dst x w) {i : Info} (ho : Object env.vs db x.val i) :
    Object env'.vs db x.val i ∧ Object env'.vs db w i ∧ ∀ n, Size db x.val.entry n → Size db w.entry n := by
  have pk : ∀ v, Packed env'.vs db v ↔ Packed env.vs db v := by
    intro v
    simp only [Packed, hva]
  obtain ⟨g1, g2, f, qs, g3, g4⟩ := ho
  obtain ⟨⟨qs', k1, _⟩, _⟩ := h.entry hc g3
  refine ⟨⟨by rwa [pk], g2, f, qs, g3, g4⟩, ⟨?_, h.nonNull hc, f, qs', k1, g4⟩, fun n hn => (size_final k1 rfl).mpr ((size_final g3 rfl).mp hn)⟩
  rw [pk]
  cases hc with
  | top => exact hp
  | part => exact g1
  | target => exact g1

theorem getElem_map_val {ks : List Node} {i : Nat} {f : Node → Value} {w : Value} (h : (ks.map f)[i]? = some w) : ∃ k, ks[i]? = some k ∧ f k = w := by
  rw [List.getElem?_map] at h
  cases hk : ks[i]? with
  | none => rw [hk] at h; cases h
  | some k => rw [hk] at h; exact ⟨k, rfl, by simpa using h⟩

/-- What the source and the copy are made of, when the copy has been made. -/
theorem Setup.consists_leaf (h : Setup env order mode db st₀ M dst st₁ B) {st' : State} (hi : Inv env mode db st₀ M dst B st'.m)
    (C : Copied env mode db st₀ M dst st' (place B)) {env' : Deep.Env} (ha : Answers env.deep env' (place B) M.top dst) (hp : ¬ Packed env.vs db dst)
    (hkept : Kept mode db st₀.m M) {outs : List (Node × Value)} {x : Node} {w : Value} (hs : Site (place B) M.top dst outs x w) {n l : Nat} (hk : x.kids = []) (hl : x.loop = l)
    (hc : Consists env.deep mode db st₀.m (outs.map (·.1.val)) x.val (.leaf n l)) :
    Consists env' mode db st'.m (outs.map (·.1.val)) x.val (.leaf n l) ∧ Consists env' mode db st'.m (outs.map (·.2)) w (.leaf n l) := by
  obtain ⟨c1, c2⟩ := site_copy hs
  have ob : ∀ {i}, Object env.vs db x.val i → _ := fun {i} ho => h.object ha.vaList hp c1 (i := i) ho
  cases hc with
  | base h1 h2 => obtain ⟨a1, a2, a3⟩ := ob h1; exact ⟨.base a1 h2, .base a2 (a3 _ h2)⟩
  | enumeration h1 h2 => obtain ⟨a1, a2, a3⟩ := ob h1; exact ⟨.enumeration a1 h2, .enumeration a2 (a3 _ h2)⟩
  | @null ty _ h1 h2 h3 =>
    obtain ⟨a1, a2, a3⟩ := ob h1
    have hw : Wants env.cfg mode db st₀.m x 0 64 (.num 0) := .null h1.2.2 h3
    exact ⟨.null a1 h2 (h.holds hi (copy_within c1) hw (by omega) h3), .null a2 (a3 _ h2) (holds_of_field8 (by simpa [Want.value] using C.values _ _ _ _ _ c1 hw))⟩
  | @loop ty _ a _ h1 h2 h3 h4 h5 =>
    obtain ⟨a1, a2, a3⟩ := ob h1
    have hf : Followed db st₀.m M x a := ⟨copy_within c1, ⟨ty, h1.2.2⟩, h3, h4, .inr (by
      obtain ⟨i, _, e, _⟩ := h5
      rw [hl, e]; omega)⟩
    obtain ⟨i, q, rfl, hq, ⟨hq0, ⟨f, qs, t'', hfi, hinf⟩, hqh⟩, hfr⟩ := h5
    obtain ⟨s1, s2, s3⟩ := C.separate _ _ _ hf c1
    obtain ⟨p, hp, rfl⟩ : ∃ p, outs[i]? = some p ∧ p.1.val = q := by
      rw [List.getElem?_map] at hq
      cases ho : outs[i]? with
      | none => rw [ho] at hq; cases hq
      | some p => rw [ho] at hq; exact ⟨p, rfl, by simpa using hq⟩
    obtain ⟨d1, d2⟩ := c2 p (List.mem_of_getElem? hp)
    obtain ⟨_, b, hb⟩ := h.around (copy_within d1) d2 (t := t'') ⟨f, qs, hfi, hinf⟩
    have := Value.holds_unique hqh hb.holds
    subst this
    obtain ⟨f', qs', g1, g2⟩ := h.typed d1 (i := .pointer t'') ⟨f, qs, hfi, hinf⟩
    have htake : ∀ p ∈ outs.take i, Copy (place B) M.top dst p.1 p.2 ∧ p.1.kids ≠ [] := fun p hp => c2 p (List.mem_of_mem_take hp)
    rw [← List.map_take] at hfr
    refine ⟨.loop a1 h2 (h.follow hi hf) h4 ⟨i, p.1.val, rfl, hq, ⟨hq0, ⟨f, qs, t'', hfi, hinf⟩, h.follow hi hb⟩, ?_⟩,
      .loop a2 (a3 _ h2) s1 s3 ⟨i, p.2, rfl, by rw [List.getElem?_map, hp]; rfl, ⟨h.nonNull d1, ⟨f', qs', t'', g1, g2⟩, (C.separate _ _ _ hb d1).1⟩, ?_⟩⟩
    · rw [← List.map_take]; exact h.fresh_source hi htake hfr
    · rw [← List.map_take]
      exact h.fresh_copy (.of hi C) htake hfr fun y b hb hne he => hne (C.sharing _ _ _ _ hb hf he)
  | @unknown ty _ a h1 h2 h3 h4 h5 h6 h7 h8 =>
    obtain ⟨a1, a2, a3⟩ := ob h1
    have r1 := ha.source _ _ _ _ _ hs h6
    have r2 := ha.copy _ _ _ _ _ hs h6
    have wx : Within M.top x := copy_within c1
    rcases h8 with h8 | h8
    · have hw : Wants env.cfg mode db st₀.m x 0 64 (.num 0) := .dropped h1.2.2 h3 h4 hk hl h8
      exact ⟨.unknown a1 h2 (h.holds hi wx hw (by omega) h3) h4 (h.fresh_source hi c2 h5) r1 h7 (.inl h8),
        .null a2 (a3 _ h2) (holds_of_field8 (by simpa [Want.value] using C.values _ _ _ _ _ c1 hw))⟩
    · have hw : Wants env.cfg mode db st₀.m x 0 64 (.num a) := .kept h1.2.2 h3 h4 hk hl h8
      refine ⟨.unknown a1 h2 (h.holds hi wx hw (by omega) h3) h4 (h.fresh_source hi c2 h5) r1 h7 (.inr h8),
        .unknown a2 (a3 _ h2) (holds_of_field8 (by simpa [Want.value] using C.values _ _ _ _ _ c1 hw)) h4 (h.fresh_copy (.of hi C) c2 h5 ?_) r2 h7 (.inr h8)⟩
      intro y b hb _ he
      have g1 := hkept h8 x ty a wx h1.2.2 hk h3 h4
      obtain ⟨z, n, hz, z1, z2⟩ := C.pointers _ _ hb
      have := (C.fresh _ _ hz).1 (b - z) (by omega)
      rw [← C.inside _ _ _ hz z1 z2, he] at this
      exact g1 this

theorem Setup.counted (h : Setup env order mode db st₀ M dst st₁ B) {env' : Deep.Env} (ha : Answers env.deep env' (place B) M.top dst) (hp : ¬ Packed env.vs db dst)
    {outs : List (Node × Value)} {x : Node} {w : Value} (hs : Site (place B) M.top dst outs x w) {e e' : Option Ref} {c c' : Int} {arr : Value}
    (hob : Object env.vs db x.val (.array e c)) (hc : Counted env.deep mode x.val (outs.map (·.1.val)) e c arr) (hi : IsArray db arr e' c') :
    Counted env' mode x.val (outs.map (·.1.val)) e c arr ∧ ∃ arr', Counted env' mode w (outs.map (·.2)) e c arr' ∧ IsArray db arr' e' c' ∧
      (∀ n, Size db arr.entry n → Size db arr'.entry n) ∧ arr'.addr = w.addr + (arr.addr - x.val.addr) := by
  obtain ⟨c1, _⟩ := site_copy hs
  have hn := h.nonNull c1
  cases hc with
  | known hc =>
    obtain ⟨a1, a2, a3⟩ := h.object ha.vaList hp c1 hob
    refine ⟨.known hc, w, .known hc, ?_, a3, by simp⟩
    have := Deep.typed_unique (v := x.val) hob.2.2 hi.2
    cases this
    exact ⟨hn, a2.2.2⟩
  | reply hr =>
    refine ⟨.reply (ha.source _ _ _ _ _ hs hr), _, .reply (ha.copy _ _ _ _ _ hs hr), ⟨?_, hi.2⟩, fun _ h => h, rfl⟩
    simp only [moved]
    omega
  | @empty r hr hm he =>
    rw [← ha.dyn]
    rw [← ha.dyn] at hi
    refine ⟨.empty (ha.source _ _ _ _ _ hs hr) hm he, _, .empty (ha.copy _ _ _ _ _ hs hr) hm he, ⟨hn, hi.2⟩, fun _ h => h, by simp⟩

theorem Setup.consists_parts (h : Setup env order mode db st₀ M dst st₁ B) {m' : Mem} {env' : Deep.Env} (ha : Answers env.deep env' (place B) M.top dst)
    (hp : ¬ Packed env.vs db dst) {outs : List (Node × Value)} {x : Node} {w : Value} (hs : Site (place B) M.top dst outs x w) {ks : List Node} {n : Nat}
    (hle : ∀ k ∈ ks, x.val.addr ≤ k.val.addr) (hc : Consists env.deep mode db st₀.m (outs.map (·.1.val)) x.val (.parts (ks.map Node.val) n)) :
    Consists env' mode db m' (outs.map (·.1.val)) x.val (.parts (ks.map Node.val) n) ∧
      Consists env' mode db m' (outs.map (·.2)) w (.parts (ks.map fun k => spot (place B) x.val w false k.val) n) := by
  obtain ⟨c1, _⟩ := site_copy hs
  have ob : ∀ {i}, Object env.vs db x.val i → _ := fun {i} ho => h.object ha.vaList hp c1 (i := i) ho
  have hvs : ∀ {vs : List Value}, vs = ks.map Node.val → (ks.map fun k => spot (place B) x.val w false k.val) = vs.map (spot (place B) x.val w false) := by
    intro vs hvs; rw [hvs, List.map_map]; rfl
  have hle' : ∀ u ∈ ks.map Node.val, x.val.addr ≤ u.addr := by
    intro u hu
    obtain ⟨k, hk, rfl⟩ := List.mem_map.mp hu
    exact hle k hk
  rw [hvs rfl]
  generalize ks.map Node.val = vs at hc hle'
  cases hc with
  | struct h1 h2 h3 h4 =>
    obtain ⟨a1, a2, a3⟩ := ob h1
    refine ⟨.struct a1 h2 h3 h4, .struct a2 (a3 _ h2) (by simpa using h3) ?_⟩
    intro i u hu
    rw [List.getElem?_map] at hu
    cases hv : vs[i]? with
    | none => rw [hv] at hu; cases hu
    | some v =>
      rw [hv] at hu
      simp only [Option.map_some, Option.some.injEq] at hu
      subst hu
      obtain ⟨r, mi, g1, g2, rfl⟩ := h4 i v hv
      exact ⟨r, mi, g1, g2, by simp [spot]⟩
  | union h1 h2 h3 =>
    obtain ⟨a1, a2, a3⟩ := ob h1
    exact ⟨.union a1 h2 fun hm => ⟨ha.source _ _ _ _ _ hs (h3 hm).1, (h3 hm).2⟩, .union a2 (a3 _ h2) fun hm => ⟨ha.copy _ _ _ _ _ hs (h3 hm).1, (h3 hm).2⟩⟩
  | unionMember h1 h2 h3 h4 =>
    obtain ⟨a1, a2, a3⟩ := ob h1
    exact ⟨.unionMember a1 h2 h3 (ha.source _ _ _ _ _ hs h4), .unionMember a2 (a3 _ h2) h3 (ha.copy _ _ _ _ _ hs h4)⟩
  | @array e c arr e' c' _ _ h1 h2 h3 h4 h5 h6 h7 =>
    obtain ⟨a1, a2, a3⟩ := ob h1
    obtain ⟨b1, arr', b2, b3, b4, b5⟩ := h.counted ha hp hs h1 h2 h3
    have hge : x.val.addr ≤ arr.addr := by
      cases vs with
      | nil => exact absurd rfl h6
      | cons u us =>
        obtain ⟨r, k, _, _, hu⟩ := h5 0 u rfl
        have := hle' u (by simp)
        rw [hu] at this
        simpa using this
    refine ⟨.array a1 b1 h3 h4 h5 h6 h7, .array a2 b2 b3 (by simpa using h4) ?_ (by simpa using h6) (b4 _ h7)⟩
    intro i u hu
    rw [List.getElem?_map] at hu
    cases hv : vs[i]? with
    | none => rw [hv] at hu; cases hu
    | some v =>
      rw [hv] at hu
      simp only [Option.map_some, Option.some.injEq] at hu
      subst hu
      obtain ⟨r, k, g1, g2, rfl⟩ := h5 i v hv
      refine ⟨r, k, g1, g2, ?_⟩
      simp only [spot, Bool.false_eq_true, if_false, b5]
      congr 1
      omega
  | noElements h1 h2 h3 h4 =>
    obtain ⟨a1, a2, a3⟩ := ob h1
    obtain ⟨b1, arr', b2, b3, b4, b5⟩ := h.counted ha hp hs h1 h2 h3
    exact ⟨.noElements a1 b1 h3 h4, .noElements a2 b2 b3 h4⟩

theorem Setup.consists_target (h : Setup env order mode db st₀ M dst st₁ B) {st' : State} (hi : Inv env mode db st₀ M dst B st'.m)
    (C : Copied env mode db st₀ M dst st' (place B)) {env' : Deep.Env} (ha : Answers env.deep env' (place B) M.top dst) (hp : ¬ Packed env.vs db dst)
    {outs : List (Node × Value)} {x k : Node} {w : Value} (hs : Site (place B) M.top dst outs x w) {n : Nat} (hk : x.kids = [k])
    (hc : Consists env.deep mode db st₀.m (outs.map (·.1.val)) x.val (.target k.val n)) :
    Consists env' mode db st'.m (outs.map (·.1.val)) x.val (.target k.val n) ∧
      Consists env' mode db st'.m (outs.map (·.2)) w (.target (spot (place B) x.val w true k.val) n) := by
  obtain ⟨c1, c2⟩ := site_copy hs
  generalize hkv : k.val = kv at hc
  cases hc with
  | @target ty _ a _ h1 h2 h3 h4 h5 h6 =>
    obtain ⟨a1, a2, a3⟩ := h.object ha.vaList hp c1 h1
    have hf : Followed db st₀.m M x a := ⟨copy_within c1, ⟨ty, h1.2.2⟩, h3, h4, .inl (by simp [hk])⟩
    obtain ⟨s1, s2, s3⟩ := C.separate _ _ _ hf c1
    have f1 := h.fresh_source hi c2 h5
    have f2 : Fresh db st'.m (outs.map (·.2)) (place B a) := h.fresh_copy (.of hi C) c2 h5 fun y b hb hne he => hne (C.sharing _ _ _ _ hb hf he)
    refine ⟨.target a1 h2 (h.follow hi hf) h4 f1 ?_, .target a2 (a3 _ h2) s1 s3 f2 ?_⟩
    · cases h6 with
      | reply g1 g2 => exact .reply (ha.source _ _ _ _ _ hs g1) g2
      | one g1 g2 g3 => rw [← ha.dyn]; exact .one (ha.source _ _ _ _ _ hs g1) g2 g3
      | byte g1 g2 g3 => rw [← ha.dyn, ← ha.uchar]; exact .byte (ha.source _ _ _ _ _ hs g1) g2 g3
    · cases h6 with
      | reply g1 g2 => exact .reply (ha.copy _ _ _ _ _ hs g1) g2
      | one g1 g2 g3 => rw [← ha.dyn]; exact .one (ha.copy _ _ _ _ _ hs g1) g2 g3
      | byte g1 g2 g3 => rw [← ha.dyn, ← ha.uchar]; exact .byte (ha.copy _ _ _ _ _ hs g1) g2 g3

/-- The trees of the source and of the copy, when the copy has been made. -/
theorem Setup.trees (h : Setup env order mode db st₀ M dst st₁ B) {st' : State} (hi : Inv env mode db st₀ M dst B st'.m)
    (C : Copied env mode db st₀ M dst st' (place B)) {env' : Deep.Env} (ha : Answers env.deep env' (place B) M.top dst) (hp : ¬ Packed env.vs db dst)
    (hkept : Kept mode db st₀.m M) {x : Node} {outer : List Value} (ht : Tree env.deep mode db st₀.m outer x) :
    ∀ (outs : List (Node × Value)) (w : Value), outer = outs.map (·.1.val) → Site (place B) M.top dst outs x w →
      Tree env' mode db st'.m (outs.map (·.1.val)) x ∧ Tree env' mode db st'.m (outs.map (·.2)) (image (place B) x w) := by
  induction ht with
  | leaf hc =>
    rintro outs w rfl hs
    obtain ⟨h1, h2⟩ := h.consists_leaf hi C ha hp hkept hs rfl rfl hc
    exact ⟨.leaf h1, .leaf h2⟩
  | @parts outer id v vs n ks hc hv hle hks ih =>
    rintro outs w rfl hs
    subst hv
    obtain ⟨h1, h2⟩ := h.consists_parts (m' := st'.m) ha hp hs (ks := ks) hle hc
    have hkid : ∀ k ∈ ks, _ := fun k hk => ih k hk ((_, w) :: outs) _ rfl (.part hs rfl hk)
    refine ⟨.parts h1 rfl hle fun k hk => (hkid k hk).1, ?_⟩
    simp only [image, imageAll_map]
    rw [← extent_image (place B) (w := w)]
    refine .parts h2 ?_ ?_ ?_
    · rw [List.map_map]
      apply List.map_congr_left
      intro k _
      exact image_val ..
    · intro k hk
      obtain ⟨k', _, rfl⟩ := List.mem_map.mp hk
      rw [image_val]
      simp [spot]
    · intro k hk
      obtain ⟨k', hk', rfl⟩ := List.mem_map.mp hk
      exact (hkid k' hk').2
  | @target outer id v n k hc hk ih =>
    rintro outs w rfl hs
    obtain ⟨h1, h2⟩ := h.consists_target hi C ha hp hs rfl hc
    obtain ⟨g1, g2⟩ := ih ((_, w) :: outs) _ rfl (.target hs rfl (by simp [Node.kids]))
    refine ⟨.target h1 g1, ?_⟩
    simp only [image, imageAll_map, List.map_cons, List.map_nil]
    refine .target ?_ g2
    rw [image_val]
    exact h2
  | @args outer id v vs ks hc =>
    rintro outs w rfl hs
    exfalso
    have hcal := h.copyable.calls _ (copy_within (site_copy hs).1)
    cases hc with
    | arguments hc => exact hcal.1 hc
    | call hc =>
      rcases hc with hc | hc
      · exact hcal.2.1 _ _ hc.2.2
      · exact hcal.2.2 _ _ hc.2.2
end
end Verif.DeepCopy
