import Verif.DeepCopy.Alloc
import Verif.DeepCopy.Cells
import Verif.Deep.Props
/-
Where the copies are.
-/
namespace Verif.DeepCopy
open Verif Verif.Entry Verif.Entry.Spec Verif.Value Verif.Value.Spec Verif.Handlers Verif.ValueString.Spec Verif.Deep.Spec Verif.DeepCopy.Spec
open Verif.Bitfield.Spec (Field)
open Verif.Deep (Node Map Table Keys Ids)

/-- A copy about to be made: the blocks have been allocated. -/
structure Setup (env : Env) (order : Table → Table) (mode : Deep.Mode) (db : Db) (st₀ : State) (M : Map) (dst : Value) (st₁ : State) (B : Blocks) : Prop where
  sane : Sane db
  interned : Interned env.vs db
  honest : Honest env.vs db
  perm : Order order
  dag : mode.dag = true
  map : Deep.memoryMap env.deep order mode db st₀.m (some M.top.val) = .ok (some M)
  copyable : Copyable env mode db st₀.m M
  room : Room env mode db st₀.m M dst
  new : New st₀ st₁ B
  blocks : B.map (fun b => (b.1, b.2.2)) = ((order M.map).filter fun e => M.offset e.2.1 = 0).map fun e => (e.1, e.2.2)

/-- Where the copy of what is at `p` is. -/
def place (B : Blocks) (p : Nat) : Nat :=
  match B.find? (fun b => b.1 ≤ p ∧ p < b.1 + max b.2.2 1) with
  | some b => b.2.1 + (p - b.1)
  | none => 0

section
variable {env : Env} {order : Table → Table} {mode : Deep.Mode} {db : Db} {st₀ st₁ : State} {M : Map} {dst : Value} {B : Blocks}

theorem Setup.tree (h : Setup env order mode db st₀ M dst st₁ B) : Tree env.deep mode db st₀.m [] M.top :=
  (Deep.map_facts h.sane h.interned h.honest h.perm h.map).1

theorem Setup.block_located (h : Setup env order mode db st₀ M dst st₁ B) {b : Nat × Nat × Nat} (hb : b ∈ B) : Located M b.1 b.2.2 0 := by
  have : (b.1, b.2.2) ∈ B.map (fun b => (b.1, b.2.2)) := List.mem_map.mpr ⟨b, hb, rfl⟩
  rw [h.blocks, List.mem_map] at this
  obtain ⟨e, he, heq⟩ := this
  rw [List.mem_filter, (h.perm _).mem_iff] at he
  obtain ⟨h1, h2⟩ := he
  simp only [decide_eq_true_eq] at h2
  refine ⟨e.2.1, ?_, h2⟩
  simp only [Prod.mk.injEq] at heq
  rw [← heq.1, ← heq.2]
  exact h1

theorem Setup.located_block (h : Setup env order mode db st₀ M dst st₁ B) {a n : Nat} (hl : Located M a n 0) : ∃ t, (a, t, n) ∈ B := by
  obtain ⟨id, h1, h2⟩ := hl
  have : (a, n) ∈ B.map (fun b => (b.1, b.2.2)) := by
    rw [h.blocks, List.mem_map]
    refine ⟨(a, id, n), ?_, rfl⟩
    rw [List.mem_filter, (h.perm _).mem_iff]
    exact ⟨h1, by simpa using h2⟩
  obtain ⟨⟨a', t, n'⟩, hb, heq⟩ := List.mem_map.mp this
  simp only [Prod.mk.injEq] at heq
  obtain ⟨rfl, rfl⟩ := heq
  exact ⟨t, hb⟩

theorem Setup.keys (h : Setup env order mode db st₀ M dst st₁ B) : (B.map (·.1)).Nodup := by
  have e : B.map (·.1) = (B.map (fun b => (b.1, b.2.2))).map (·.1) := by simp
  obtain ⟨_, _, _, _, _, hk, _⟩ := Deep.map_facts h.sane h.interned h.honest h.perm h.map
  rw [e, h.blocks, List.map_map]
  have hk' : ((order M.map).map (·.1)).Nodup := ((h.perm M.map).map _).nodup_iff.mpr hk
  exact hk'.sublist ((List.filter_sublist).map _)

theorem Setup.same_key (h : Setup env order mode db st₀ M dst st₁ B) {b c : Nat × Nat × Nat} (hb : b ∈ B) (hc : c ∈ B) (he : b.1 = c.1) : b = c :=
  Deep.nodup_map_inj h.keys hb hc he

/-- An address is in one block at most. -/
theorem Setup.one_block (h : Setup env order mode db st₀ M dst st₁ B) {b c : Nat × Nat × Nat} {p : Nat} (hb : b ∈ B) (hc : c ∈ B)
    (h1 : b.1 ≤ p) (h2 : p < b.1 + max b.2.2 1) (h3 : c.1 ≤ p) (h4 : p < c.1 + max c.2.2 1) : b = c := by
  have key : ∀ b c : Nat × Nat × Nat, b ∈ B → c ∈ B → b.1 ≤ p → p < b.1 + max b.2.2 1 → c.1 ≤ p → p < c.1 + max c.2.2 1 → ¬ b.1 < c.1 := by
    intro b c hb hc h1 h2 h3 h4 hlt
    have lb := h.block_located hb
    have lc := h.block_located hc
    have hb0 : 0 < b.2.2 := by omega
    by_cases hc0 : c.2.2 = 0
    · rw [hc0] at lc
      have := h.copyable.empties _ _ _ lc lb hlt
      omega
    · have := (Deep.C32_attribution h.sane h.interned h.honest h.perm h.dag _ M h.map).2.2 _ _ _ _ lb lc hb0 (by omega) hlt
      omega
  apply h.same_key hb hc
  have := key b c hb hc h1 h2 h3 h4
  have := key c b hc hb h3 h4 h1 h2
  omega

theorem Setup.place_in (h : Setup env order mode db st₀ M dst st₁ B) {b : Nat × Nat × Nat} {p : Nat} (hb : b ∈ B) (h1 : b.1 ≤ p) (h2 : p < b.1 + max b.2.2 1) :
    place B p = b.2.1 + (p - b.1) := by
  unfold place
  cases hf : B.find? (fun b => b.1 ≤ p ∧ p < b.1 + max b.2.2 1) with
  | none =>
    rw [List.find?_eq_none] at hf
    exact absurd (by simp only [decide_eq_true_eq]; exact ⟨h1, h2⟩) (hf b hb)
  | some c =>
    have hc := List.mem_of_find?_eq_some hf
    have hp := List.find?_some hf
    simp only [decide_eq_true_eq] at hp
    rw [h.one_block hb hc h1 h2 hp.1 hp.2]

theorem Setup.lookup (h : Setup env order mode db st₀ M dst st₁ B) {b : Nat × Nat × Nat} (hb : b ∈ B) : List.lookup b.1 B.table = some b.2.1 := by
  apply lookup_unique
  · exact List.mem_map.mpr ⟨b, hb, rfl⟩
  · intro s' hs'
    obtain ⟨c, hc, he⟩ := List.mem_map.mp hs'
    simp only [Prod.mk.injEq] at he
    rw [h.same_key hb hc he.1.symm]
    exact he.2.symm

/-- What a pointer points to is inside a block. -/
theorem Setup.target_block (h : Setup env order mode db st₀ M dst st₁ B) {k : Node} (hk : k ∈ targets M.top) :
    ∃ b ∈ B, b.1 ≤ k.val.addr ∧ k.val.addr + k.size ≤ b.1 + b.2.2 ∧ k.val.addr < b.1 + max b.2.2 1 := by
  obtain ⟨_, _, _, hof, _, hks, hi, S, hbl⟩ := Deep.map_facts h.sane h.interned h.honest h.perm h.map
  obtain ⟨id, n, hm, hn⟩ := (hof h.dag).complete k hk
  have hl : Located M k.val.addr n (M.offset id) := ⟨id, hm, rfl⟩
  obtain ⟨s, hs, hle⟩ := h.copyable.fits _ _ _ hl
  have ha := (Deep.C32_attribution h.sane h.interned h.honest h.perm h.dag _ M h.map).2.1 _ _ _ hl
  obtain ⟨t, ht⟩ := h.located_block hs
  refine ⟨_, ht, ?_⟩
  by_cases h0 : M.offset id = 0
  · simp only [h0]
    omega
  · obtain ⟨h1, h2, _⟩ := ha h0
    simp only
    omega

theorem Setup.place_target (h : Setup env order mode db st₀ M dst st₁ B) {k : Node} (hk : k ∈ targets M.top) (h0 : k.val.addr ≠ 0) (st : State) :
    targetPlace env mode db M B.table k st = .ok (some (place B k.val.addr), st) := by
  obtain ⟨_, _, hnd, hof, _, hks, hi, S, hbl⟩ := Deep.map_facts h.sane h.interned h.honest h.perm h.map
  have hz : ∀ n, Located M k.val.addr n 0 → List.lookup k.val.addr B.table = some (place B k.val.addr) := by
    intro n hl
    obtain ⟨t, ht⟩ := h.located_block hl
    rw [h.lookup ht, h.place_in ht (Nat.le_refl _) (by simp only; omega)]
    simp
  have hassert : Outcome.assert (decide (k.val.addr ≠ 0)) = .ok () := by simp [Outcome.assert, h0]
  unfold targetPlace
  simp only [h.dag, if_true]
  rw [show (Outcome.assert (k.val.addr ≠ 0)) = Outcome.ok () from by simp [Outcome.assert, h0]]
  simp only [Outcome.bind_ok]
  obtain ⟨id, n, hm, hn⟩ := (hof h.dag).complete k hk
  by_cases hid : id = k.id
  · subst hid
    have hl : Located M k.val.addr n (M.offset k.id) := ⟨k.id, hm, rfl⟩
    by_cases ho : M.offset k.id = 0
    · rw [ho] at hl
      simp only [ho, ne_eq, not_true, if_false, hz n hl]
      rfl
    · obtain ⟨s, hs, hle⟩ := h.copyable.fits _ _ _ hl
      obtain ⟨hn0, h2, _⟩ := (Deep.C32_attribution h.sane h.interned h.honest h.perm h.dag _ M h.map).2.1 _ _ _ hl ho
      obtain ⟨t, ht⟩ := h.located_block hs
      have e1 := h.lookup ht
      have e2 := h.place_in (p := k.val.addr) ht (by simp only; omega) (by simp only; omega)
      simp only at e1 e2
      rw [if_pos ho, e1, e2]
      simp only [Option.map_some]
      congr 3
      omega
  · obtain ⟨t', ht', h1, h2, h3⟩ := (hof h.dag).sound _ _ _ hm
    have hne : ∀ a n, (a, k.id, n) ∉ M.map := by
      intro a n hc
      obtain ⟨u, hu, h4, h5, _⟩ := (hof h.dag).sound _ _ _ hc
      have := Deep.nodup_map_inj (Deep.targets_nodup hnd) hu hk h5
      subst this
      rw [← h4] at hc
      have := Deep.keys_unique hks hm hc
      simp only [Prod.mk.injEq] at this
      exact hid this.1
    have ho : M.offset k.id = 0 := by
      unfold Map.offset
      cases hl : List.lookup k.id M.offsets with
      | none => rfl
      | some o =>
        have := Deep.lookup_mem hl
        rw [hbl.offs] at this
        obtain ⟨a, n, _, _, _, hc, _⟩ := this
        exact absurd hc (hne a n)
    rcases h.copyable.inner _ _ ht' hk h1 with hc | ⟨n', hl⟩
    · exact absurd (h2 ▸ hc) hid
    · rw [h1] at hl
      simp only [ho, ne_eq, not_true, if_false, hz n' hl]
      rfl

/-! ### Regions -/

/-- The places of the copies: address in the source, address of the copy, size. -/
def regions (M : Map) (dst : Value) (B : Blocks) : Blocks := (M.top.val.addr, dst.addr, M.top.size) :: B

/-- The byte is in the region. -/
def In (a : Nat) (r : Nat × Nat × Nat) : Prop := r.2.1 ≤ a ∧ a < r.2.1 + r.2.2

theorem Setup.disjoint (h : Setup env order mode db st₀ M dst st₁ B) {r r' : Nat × Nat × Nat} (hr : r ∈ regions M dst B) (hr' : r' ∈ regions M dst B) {a : Nat}
    (h1 : In a r) (h2 : In a r') : r = r' := by
  have key : ∀ r' ∈ B, In a (M.top.val.addr, dst.addr, M.top.size) → In a r' → False := by
    intro r' hr' ⟨h1, h2⟩ ⟨h3, h4⟩
    simp only at h1 h2
    have := h.room.mapped (a - dst.addr) (by omega)
    have hf := h.new.fresh r' hr' (a - r'.2.1) (by omega)
    rw [show dst.addr + (a - dst.addr) = a by omega] at this
    rw [show r'.2.1 + (a - r'.2.1) = a by omega] at hf
    exact this hf
  unfold regions at hr hr'
  rw [List.mem_cons] at hr hr'
  rcases hr with rfl | hr
  · rcases hr' with rfl | hr'
    · rfl
    · exact (key r' hr' h1 h2).elim
  · rcases hr' with rfl | hr'
    · exact (key r hr h2 h1).elim
    · by_cases he : r = r'
      · exact he
      · have := pairwise_all (fun _ _ => Or.symm) h.new.apart hr hr' he
        obtain ⟨a1, a2⟩ := h1
        obtain ⟨b1, b2⟩ := h2
        omega

theorem extent_ge (a : Nat) : ∀ (ks : List Node) (n : Nat), n ≤ extent a n ks ∧ ∀ k ∈ ks, k.val.addr - a + k.size ≤ extent a n ks
  | [], n => ⟨Nat.le_refl _, by simp⟩
  | k :: ks, n => by
    obtain ⟨h1, h2⟩ := extent_ge a ks (max n (k.val.addr - a + k.size))
    have e : extent a n (k :: ks) = extent a (max n (k.val.addr - a + k.size)) ks := rfl
    rw [e]
    refine ⟨by omega, ?_⟩
    intro k' hk'
    rw [List.mem_cons] at hk'
    rcases hk' with rfl | hk'
    · omega
    · exact h2 k' hk'

/-- The parts of an object are inside. -/
theorem part_inside {deep : Deep.Env} {m : Mem} {outer : List Value} {x y : Node} (ht : Tree deep mode db m outer x) (hd : x.deref = false) (hy : y ∈ x.kids)
    (hc : ¬ Packed deep.vs db x.val ∧ (∀ t ps, ¬ Typed db x.val (.subprogram t ps)) ∧ ∀ t ps, ¬ Typed db x.val (.subroutine t ps)) :
    x.val.addr ≤ y.val.addr ∧ y.val.addr + y.size ≤ x.val.addr + x.size := by
  cases ht with
  | leaf h => simp [Node.kids] at hy
  | @parts outer id v vs n ks h1 h2 h3 h4 =>
    have h5 := (extent_ge v.addr ks n).2 y hy
    have h6 := h3 y hy
    exact ⟨h6, by show y.val.addr + y.size ≤ v.addr + extent v.addr n ks; omega⟩
  | target => simp [Node.deref] at hd
  | args h =>
    exfalso
    cases h with
    | arguments h => exact hc.1 h
    | call h =>
      rcases h with h | h
      · exact hc.2.1 _ _ h.2.2
      · exact hc.2.2 _ _ h.2.2

theorem copy_within {W : Nat → Nat} {k x : Node} {d w : Value} (h : Copy W k d x w) : Within k x := by
  induction h with
  | top => exact .top
  | part _ _ hy ih => exact .part ih hy
  | target _ _ hy ih => exact .part ih hy

theorem targetsAll_mem {t : Node} : ∀ {ks : List Node}, t ∈ targetsAll ks ↔ ∃ k ∈ ks, t ∈ targets k
  | [] => by simp [targetsAll]
  | k :: ks => by simp [targetsAll, targetsAll_mem (ks := ks)]

theorem targets_kid {x y : Node} (hy : y ∈ x.kids) {t : Node} (h : t ∈ targets y) : t ∈ targets x := by
  cases x
  simp only [Node.kids] at hy
  simp only [targets, List.mem_append]
  exact .inl (targetsAll_mem.mpr ⟨y, hy, h⟩)

theorem targets_deref {x y : Node} (hd : x.deref = true) (hy : y ∈ x.kids) : y ∈ targets x := by
  cases x
  simp only [Node.kids, Node.deref] at hy hd
  simp [targets, hd, hy]

theorem targets_within {k x : Node} (h : Within k x) {t : Node} (ht : t ∈ targets x) : t ∈ targets k := by
  induction h generalizing t with
  | top => exact ht
  | part _ hy ih => exact ih (targets_kid hy ht)

/-- The copy of an object is in a region, as the object is in the block. -/
theorem Setup.region (h : Setup env order mode db st₀ M dst st₁ B) {x : Node} {w : Value} (hc : Copy (place B) M.top dst x w) :
    ∃ r ∈ regions M dst B, r.1 ≤ x.val.addr ∧ x.val.addr + x.size ≤ r.1 + r.2.2 ∧ w.addr = r.2.1 + (x.val.addr - r.1) := by
  induction hc with
  | top => exact ⟨_, List.mem_cons_self .., by simp⟩
  | part hx hd hy ih =>
    obtain ⟨r, hr, h1, h2, h3⟩ := ih
    obtain ⟨_, ht⟩ := Deep.within_tree h.tree (copy_within hx)
    obtain ⟨h4, h5⟩ := part_inside ht hd hy (h.copyable.calls _ (copy_within hx))
    exact ⟨r, hr, by omega, by omega, by simp only; omega⟩
  | target hx hd hy ih =>
    obtain ⟨b, hb, h1, h2, h3⟩ := h.target_block (targets_within (copy_within hx) (targets_deref hd hy))
    exact ⟨b, List.mem_cons_of_mem _ hb, h1, h2, h.place_in hb h1 h3⟩

theorem Setup.nonNull (h : Setup env order mode db st₀ M dst st₁ B) {x : Node} {w : Value} (hc : Copy (place B) M.top dst x w) : w.addr ≠ 0 := by
  obtain ⟨r, hr, _, _, h3⟩ := h.region hc
  unfold regions at hr
  rw [List.mem_cons] at hr
  rcases hr with rfl | hr
  · have := h.room.nonNull
    simp only at h3
    omega
  · have := h.new.nonNull r hr
    omega

/-- The copy is of the type of the object, and may be written. -/
theorem Setup.entry (h : Setup env order mode db st₀ M dst st₁ B) {x : Node} {w : Value} (hc : Copy (place B) M.top dst x w) {f : Ref} {qs : List Qual}
    (hf : Final db x.val.entry (some f) qs) : (∃ qs', Final db w.entry (some f) qs' ∧ Qual.const ∉ qs') ∧ (IsBitfield db w.entry ↔ IsBitfield db x.val.entry) := by
  cases hc with
  | top =>
    obtain ⟨f', qs', qs'', _, h1, h2, _⟩ := h.room.type
    have := final_unique hf h1
    cases this
    exact ⟨⟨qs'', h2, h.room.writable _ _ h2⟩, ⟨fun hb => absurd hb h.room.plain, fun hb => absurd hb h.copyable.whole⟩⟩
  | part hx _ hy => exact ⟨⟨qs, hf, h.copyable.writable _ _ (copy_within hx) hy _ _ hf⟩, Iff.rfl⟩
  | target hx _ hy => exact ⟨⟨qs, hf, h.copyable.writable _ _ (copy_within hx) hy _ _ hf⟩, Iff.rfl⟩

theorem Setup.typed (h : Setup env order mode db st₀ M dst st₁ B) {x : Node} {w : Value} (hc : Copy (place B) M.top dst x w) {i : Info}
    (ht : Typed db x.val i) : Typed db w i := by
  obtain ⟨f, qs, hf, hi⟩ := ht
  obtain ⟨⟨qs', h1, _⟩, _⟩ := h.entry hc hf
  exact ⟨f, qs', h1, hi⟩
end

end Verif.DeepCopy
