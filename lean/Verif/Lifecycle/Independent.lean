import Verif.Lifecycle.Free
/-
A deep copy and its source do not depend on each other.
-/
namespace Verif.Lifecycle
open Verif Verif.Entry Verif.Entry.Spec Verif.Value Verif.Value.Spec Verif.Handlers Verif.ValueString.Spec Verif.Deep.Spec Verif.DeepCopy Verif.DeepCopy.Spec Verif.Lifecycle.Spec
open Verif.Deep (Node Map Table freeEx)

section
variable {env env' : Deep.Env} {mode : Deep.Mode} {db : Db} {m m' : Mem}

/-- If `v` is a pointer, it holds the same. -/
def Steady (db : Db) (m m' : Mem) (v : Value) : Prop := ∀ t, Typed db v (.pointer t) → ∀ i < 8, m' (v.addr + i) = m (v.addr + i)

theorem fresh_same {outer : List Value} (ho : ∀ w ∈ outer, Steady db m m' w) {a : Nat} (h : Fresh db m outer a) : Fresh db m' outer a := by
  intro w hw x qs t h1 h2 h3
  obtain ⟨b, hb, hne⟩ := h w hw x qs t h1 h2 h3
  exact ⟨b, holds_congr hb (ho w hw t ⟨x, qs, h1, h2⟩), hne⟩

theorem looped_same {outer : List Value} (ho : ∀ w ∈ outer, Steady db m m' w) {a l : Nat} (h : Looped db m outer a l) : Looped db m' outer a l := by
  obtain ⟨i, w, h1, h2, ⟨h3, ⟨f, qs, t, h4, h5⟩, h6⟩, h7⟩ := h
  refine ⟨i, w, h1, h2, ⟨h3, ⟨f, qs, t, h4, h5⟩, holds_congr h6 (ho w (List.mem_of_getElem? h2) t ⟨f, qs, h4, h5⟩)⟩, ?_⟩
  exact fresh_same (fun w hw => ho w (List.mem_of_mem_take hw)) h7

section
variable (hdyn : env'.dyn = env.dyn) (huc : env'.uchar = env.uchar) (hva : env'.vaList = env.vaList)
include hva
theorem object_same {v : Value} {i : Info} (h : ValueString.Spec.Object env.vs db v i) : ValueString.Spec.Object env'.vs db v i := by
  refine ⟨?_, h.2⟩
  have := h.1
  simpa only [Packed, hva] using this

include hdyn huc
theorem consists_same {outer : List Value} {v : Value} {s : Shape} (h : Consists env mode db m outer v s) (hv : Steady db m m' v) (ho : ∀ w ∈ outer, Steady db m m' w)
    (hp : ¬ Packed env.vs db v) (hr : ∀ ev r, Reply env.vs ev v outer r → Reply env'.vs ev v outer r) (hc : ∀ t ps, ¬ Typed db v (.subprogram t ps) ∧ ¬ Typed db v (.subroutine t ps)) :
    Consists env' mode db m' outer v s := by
  have cnt : ∀ {e c arr}, Counted env mode v outer e c arr → Counted env' mode v outer e c arr := by
    intro e c arr h
    cases h with
    | known h => exact .known h
    | reply h => exact .reply (hr _ _ h)
    | empty h1 h2 h3 => rw [← hdyn]; exact .empty (hr _ _ h1) h2 h3
  have tgt : ∀ {ty a arr}, Target env mode db v outer ty a arr → Target env' mode db v outer ty a arr := by
    intro ty a arr h
    cases h with
    | reply h1 h2 => exact .reply (hr _ _ h1) h2
    | one h1 h2 h3 => rw [← hdyn]; exact .one (hr _ _ h1) h2 h3
    | byte h1 h2 h3 => rw [← hdyn, ← huc]; exact .byte (hr _ _ h1) h2 h3
  have same : ∀ {t a}, ValueString.Spec.Object env.vs db v (.pointer t) → Holds m v.addr 8 a → Holds m' v.addr 8 a := fun h h' => holds_congr h' (hv _ h.2.2)
  cases h with
  | base h1 h2 => exact .base (object_same hva h1) h2
  | enumeration h1 h2 => exact .enumeration (object_same hva h1) h2
  | struct h1 h2 h3 h4 => exact .struct (object_same hva h1) h2 h3 h4
  | union h1 h2 h3 => exact .union (object_same hva h1) h2 fun hne => ⟨hr _ _ (h3 hne).1, (h3 hne).2⟩
  | unionMember h1 h2 h3 h4 => exact .unionMember (object_same hva h1) h2 h3 (hr _ _ h4)
  | array h1 h2 h3 h4 h5 h6 h7 => exact .array (object_same hva h1) (cnt h2) h3 h4 h5 h6 h7
  | noElements h1 h2 h3 h4 => exact .noElements (object_same hva h1) (cnt h2) h3 h4
  | null h1 h2 h3 => exact .null (object_same hva h1) h2 (same h1 h3)
  | loop h1 h2 h3 h4 h5 => exact .loop (object_same hva h1) h2 (same h1 h3) h4 (looped_same ho h5)
  | unknown h1 h2 h3 h4 h5 h6 h7 h8 => exact .unknown (object_same hva h1) h2 (same h1 h3) h4 (fresh_same ho h5) (hr _ _ h6) h7 h8
  | target h1 h2 h3 h4 h5 h6 => exact .target (object_same hva h1) h2 (same h1 h3) h4 (fresh_same ho h5) (tgt h6)
  | arguments h1 => exact absurd h1 hp
  | call h1 =>
    rcases h1 with h1 | h1
    · exact absurd h1.2.2 (hc _ _).1
    · exact absurd h1.2.2 (hc _ _).2

/-- A tree is what it is in every memory with the same bytes at its nodes. -/
theorem tree_same {outer : List Value} {k : Node} (h : Tree env mode db m outer k) (hsame : ∀ y, Within k y → ∀ i < y.size, m' (y.val.addr + i) = m (y.val.addr + i))
    (ho : ∀ w ∈ outer, Steady db m m' w) (hp : ∀ y, Within k y → ¬ Packed env.vs db y.val ∧ ∀ t ps, ¬ Typed db y.val (.subprogram t ps) ∧ ¬ Typed db y.val (.subroutine t ps))
    (hr : ∀ y, Within k y → ∀ ev outer r, Reply env.vs ev y.val outer r → Reply env'.vs ev y.val outer r) :
    Tree env' mode db m' outer k := by
  have below : ∀ {k c x : Node}, c ∈ k.kids → Within c x → Within k x := by
    intro k c x hc h
    induction h with
    | top => exact .part .top hc
    | part _ hy ih => exact .part ih hy
  have keep : ∀ {outer k}, Tree env mode db m outer k → (∀ i < k.size, m' (k.val.addr + i) = m (k.val.addr + i)) → ¬ Packed env.vs db k.val → Steady db m m' k.val := by
    intro outer k h hs hp t ht i hi
    exact hs i (by rw [(tree_pointer h ht hp).1]; exact hi)
  induction h with
  | @leaf outer id v n l hc =>
    have := keep (.leaf hc) (hsame _ .top) (hp _ .top).1
    exact .leaf (consists_same hdyn huc hva hc this ho (hp _ .top).1 (fun ev r => hr _ .top ev _ r) (hp _ .top).2)
  | @parts outer id v vs n ks hc hv hle hks ih =>
    have hk := keep (.parts hc hv hle hks) (hsame _ .top) (hp _ .top).1
    refine .parts (consists_same hdyn huc hva hc hk ho (hp _ .top).1 (fun ev r => hr _ .top ev _ r) (hp _ .top).2) hv hle fun k hkm => ih k hkm (fun y hy => hsame y (below hkm hy)) ?_
      (fun y hy => hp y (below hkm hy)) (fun y hy => hr y (below hkm hy))
    intro w hw
    rcases List.mem_cons.mp hw with rfl | hw
    · exact hk
    · exact ho w hw
  | @target outer id v n k hc htk ih =>
    have hk := keep (.target (id := id) hc htk) (hsame _ .top) (hp _ .top).1
    have hkm : k ∈ (Node.mk id v n 0 true [k]).kids := List.mem_cons_self ..
    refine .target (consists_same hdyn huc hva hc hk ho (hp _ .top).1 (fun ev r => hr _ .top ev _ r) (hp _ .top).2) (ih (fun y hy => hsame y (below hkm hy)) ?_
      (fun y hy => hp y (below hkm hy)) (fun y hy => hr y (below hkm hy)))
    intro w hw
    rcases List.mem_cons.mp hw with rfl | hw
    · exact hk
    · exact ho w hw
  | @args outer id v vs ks hc hv hks ih =>
    cases hc with
    | arguments h1 => exact absurd h1 (hp _ .top).1
    | call h1 =>
      rcases h1 with h1 | h1
      · exact absurd h1.2.2 ((hp _ .top).2 _ _).1
      · exact absurd h1.2.2 ((hp _ .top).2 _ _).2
end

theorem within_image {W : Nat → Nat} {k : Node} {w : Value} {y' : Node} (h : Within (image W k w) y') : ∃ y u, Copy W k w y u ∧ y' = image W y u := by
  induction h with
  | top => exact ⟨k, w, .top, rfl⟩
  | part _ hy ih =>
    obtain ⟨y, u, h1, rfl⟩ := ih
    rw [image_kids] at hy
    obtain ⟨z, hz, rfl⟩ := List.mem_map.mp hy
    refine ⟨z, _, ?_, rfl⟩
    cases hd : y.deref with
    | true => simp only [spot, if_true]; exact .target h1 hd hz
    | false => simp only [spot]; exact .part h1 hd hz
end

section
variable {env : DeepCopy.Env} {order : Table → Table} {mode : Deep.Mode} {db : Db} {st₀ st₁ : State} {M : Map} {dst : Value} {B : Blocks}

theorem Setup.start (h : Setup env order mode db st₀ M dst st₁ B) {b : Nat × Nat × Nat} (hb : b ∈ B) : place B b.1 = b.2.1 := by
  rw [h.place_in hb (Nat.le_refl _) (by omega)]
  omega

/-- The bytes of a region of the copy. -/
theorem region_bytes (h : Setup env order mode db st₀ M dst st₁ B) {m' m'' : Mem} (hs : SameCopy M dst (place B) m' m'') {r : Nat × Nat × Nat} (hr : r ∈ regions M dst B)
    {a : Nat} (ha : In a r) : m'' a = m' a := by
  obtain ⟨h1, h2⟩ := ha
  rcases List.mem_cons.mp hr with rfl | hr
  · have := hs.root (a - dst.addr) (by simp only at h1 h2; omega)
    simp only at h1
    rwa [show dst.addr + (a - dst.addr) = a by omega] at this
  · have := hs.blocks r.1 r.2.2 (h.block_located hr) (a - r.2.1) (by omega)
    rwa [Setup.start h hr, show r.2.1 + (a - r.2.1) = a by omega] at this

theorem copy_bytes (h : Setup env order mode db st₀ M dst st₁ B) {m' m'' : Mem} (hs : SameCopy M dst (place B) m' m'') {y : Node} {u : Value}
    (hc : Copy (place B) M.top dst y u) : ∀ i < y.size, m'' (u.addr + i) = m' (u.addr + i) := by
  intro i hi
  obtain ⟨r, hr, h1, h2, h3⟩ := h.region hc
  exact region_bytes h hs hr ⟨by omega, by omega⟩

/-- The tree of the copy is what it is in every memory with the same bytes in the copy. -/
theorem copy_tree (h : Setup env order mode db st₀ M dst st₁ B) {m' m'' : Mem} (hs : SameCopy M dst (place B) m' m'') {env' env'' : Deep.Env}
    (ha : Answers env.deep env' (place B) M.top dst) (hst : Still env' env'' (place B) M.top dst) (hp : ¬ Packed env.vs db dst)
    (ht : Tree env' mode db m' [] (image (place B) M.top dst)) : Tree env'' mode db m'' [] (image (place B) M.top dst) := by
  have pk : ∀ v, Packed env'.vs db v ↔ Packed env.vs db v := by
    intro v
    have := ha.vaList
    simp only [Packed, this]
  refine tree_same hst.dyn hst.uchar hst.vaList ht ?_ (by simp) ?_ ?_
  · intro y' hy
    obtain ⟨y, u, h1, rfl⟩ := within_image hy
    rw [image_size, image_val]
    exact copy_bytes h hs h1
  · intro y' hy
    obtain ⟨y, u, h1, rfl⟩ := within_image hy
    rw [image_val, pk]
    have hcalls := h.copyable.calls _ (copy_within h1)
    have back : ∀ i, Typed db u i → Typed db y.val i := by
      intro i hi
      cases h1 with
      | top =>
        obtain ⟨f, qs, qs', _, k1, k2, _⟩ := h.room.type
        obtain ⟨f', qs'', k3, k4⟩ := hi
        have := (final_unique k2 k3)
        simp only [Option.some.injEq] at this
        obtain ⟨rfl, _⟩ := this
        exact ⟨f, qs, k1, k4⟩
      | part => exact hi
      | target => exact hi
    refine ⟨?_, fun t ps => ⟨fun ht => hcalls.2.1 t ps (back _ ht), fun ht => hcalls.2.2 t ps (back _ ht)⟩⟩
    cases h1 with
    | top => exact hp
    | part => exact hcalls.1
    | target => exact hcalls.1
  · intro y' hy ev outer r hr
    obtain ⟨y, u, h1, rfl⟩ := within_image hy
    rw [image_val] at hr ⊢
    exact hst.reply _ _ h1 ev outer r hr

theorem copy_values (h : Setup env order mode db st₀ M dst st₁ B) {m' m'' : Mem} (hs : SameCopy M dst (place B) m' m'') {x : Node} {w : Value} {o l : Nat} {u : Want}
    (hc : Copy (place B) M.top dst x w) (hw : Wants env.cfg mode db st₀.m x o l u) {c : Nat} (hf : Bitfield.Spec.Field m' (8 * w.addr + o) l c) :
    Bitfield.Spec.Field m'' (8 * w.addr + o) l c := by
  obtain ⟨r, hr, h1, h2, h3⟩ := h.cell hc hw
  refine field_congr hf fun i h4 h5 => ?_
  unfold Mem.bit
  rw [region_bytes h hs hr ⟨by omega, by omega⟩]

/-- After the copy the map of the source is what it was before. -/
theorem source_map (h : Setup env order mode db st₀ M dst st₁ B) {m' : Mem} (hi : Inv env mode db st₀ M dst B m')
    (C : Copied env mode db st₀ M dst ⟨m', st₁.live⟩ (place B)) {env' : Deep.Env} (ha : Answers env.deep env' (place B) M.top dst) (hp : ¬ Packed env.vs db dst)
    (hkept : Kept mode db st₀.m M) (hh : Honest env'.vs db) : Deep.memoryMap env' order mode db m' (some M.top.val) = .ok (some M) := by
  obtain ⟨t1, _⟩ := h.trees (st' := ⟨m', st₁.live⟩) hi C ha hp hkept h.tree [] dst rfl .top
  have hin : Interned env'.vs db := by
    intro t c hc
    rw [ha.dyn]
    exact h.interned t c hc
  obtain ⟨e1, e2, e3⟩ := h.of_tree
  obtain ⟨offs, a1, a2⟩ := memoryMap_tree h.sane hin hh h.perm h.dag t1
  rw [e1] at a1 a2
  rw [e2, e3] at a1
  cases a1
  rw [a2, e2]

theorem lookup_filter {a : Nat} {l : List Nat} (ha : a ∉ l) : ∀ {live : List (Nat × Nat)}, List.lookup a (live.filter fun b => b.1 ∉ l) = List.lookup a live
  | [] => rfl
  | (b, n) :: live => by
    rw [List.filter_cons]
    by_cases hb : b ∈ l
    · have hne : (a == b) = false := by
        rw [beq_eq_false_iff_ne]
        rintro rfl
        exact ha hb
      simp [hb, List.lookup, hne]
      simpa using lookup_filter ha (live := live)
    · simp only [hb, not_false_eq_true, decide_true, if_true, List.lookup]
      rw [lookup_filter ha (live := live)]

/-- Releasing blocks that are live. -/
theorem release_live {st : State} {freed : List Nat} (h1 : freed.Nodup) (h2 : ∀ a ∈ freed, ∃ n, List.lookup a st.live = some n) :
    ∃ st', Freed st freed st' ∧ st'.live = st.live.filter (fun b => b.1 ∉ freed) ∧
      (∀ x, (∀ a ∈ freed, ∀ n, List.lookup a st.live = some n → x < a ∨ a + n ≤ x) → st'.m x = st.m x) := by
  obtain ⟨st', r1, r2, _, r4⟩ := releaseAll_spec (freed.map fun a => (0, a)) st (by simpa [List.map_map, Function.comp_def] using h1) (by
    intro e he
    obtain ⟨a, ha', rfl⟩ := List.mem_map.mp he
    exact h2 a ha')
  have hf := freed_of r1
  simp only [List.map_map, Function.comp_def, List.map_id'] at hf r2
  refine ⟨st', hf, r2, fun x hx => r4 x fun e he n hn => ?_⟩
  obtain ⟨a, ha', rfl⟩ := List.mem_map.mp he
  exact hx a ha' n hn

/-- What a copy that succeeded went through. -/
theorem made_setup {src dst : Value} {st st' : State} (h : Made env order mode db src dst M st st') :
    ∃ st₁ B m', M.top.val = src ∧ Setup env order mode db st M dst st₁ B ∧ Inv env mode db st M dst B m' ∧
      Copied env mode db st M dst ⟨m', st₁.live⟩ (place B) ∧ st' = ⟨m', st₁.live⟩ := by
  obtain ⟨hs, hin, hh, ho, ha, he, hd, hput, hm, hc, hr, hp, hk, h⟩ := h
  have hv := (Deep.map_facts hs hin hh ho hm).2.1
  obtain ⟨f, qs, qs', s, f1, f2, f3⟩ := hr.type
  rw [hv] at f1
  have ht : sameType db src dst = .ok true := by
    simp [sameType, (Entry.final_entry f1), (Entry.final_entry f2), Outcome.ofLoop, f3]
  have hpre := preallocate_spec ha M (order M.map) [] st (New.nil st)
  simp only [List.nil_append] at hpre
  have et : Blocks.table [] = [] := rfl
  rw [et] at hpre
  rcases hpre with ⟨B, st₁, h1, h2, h3⟩ | ⟨B, st₁, h1, h2, h3⟩ | ⟨h1, h2, t, h3⟩
  · have S : Setup env order mode db st M dst st₁ B := ⟨hs, hin, hh, ho, hd, by rw [hv]; exact hm, hc, hr, h2, h3⟩
    obtain ⟨m', g1, g2, g3⟩ := S.run
    simp [copyEx, ht, hm, hd, h1, g1] at h
    exact ⟨st₁, B, m', hv, S, g2, S.result g2 g3, h.symm⟩
  · simp [copyEx, ht, hm, hd, h1, h2.undo he] at h
  · rw [hput h2 t] at h3
    cases h3
end
end Verif.Lifecycle
