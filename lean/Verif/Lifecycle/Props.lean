import Verif.Lifecycle.Independent
/-
C101: freeing a deep copy.  C102: a deep copy and its source do not depend on each other.
-/
namespace Verif.Lifecycle
open Verif Verif.Entry Verif.Entry.Spec Verif.Value Verif.Value.Spec Verif.Handlers Verif.ValueString.Spec Verif.Deep.Spec Verif.DeepCopy.Spec Verif.Lifecycle.Spec
open Verif.Deep (Node Map Table)
open Verif.DeepCopy (State Setup Blocks copyEx place answers_untagged image memoryMap_tree)

section
variable {env : DeepCopy.Env} {order : Table → Table} {mode : Deep.Mode} {db : Db}

/-- C101: if a copy of shared data succeeds, freeing the destination, with the same mode, releases
the blocks the copy allocated, each of them exactly once and nothing else, whatever order the maps
are gone through.  Afterwards exactly the blocks are live that were live before the copy, and
every byte outside the destination is what it was before the copy.  `env'` are the handlers as
they are after the copy: they say the same of the copy as they said of the source.
Partial: as `C30_copy_partial` (see `Made`). -/
theorem C101_copy_free_partial (src dst : Value) (M : Map) (st st' : State) (h : Made env order mode db src dst M st st') :
    ∃ W blocks, Copied env mode db st M dst st' W ∧ st'.live = blocks ++ st.live ∧ (∀ t n, (t, n) ∈ blocks ↔ ∃ a, Located M a n 0 ∧ t = W a) ∧
      ∀ env' order', Answers env.deep env' W M.top dst → Honest env'.vs db → Order order' →
        ∃ freed st'', Deep.freeEx env' order' mode db st'.m (some dst) = .ok (some freed) ∧ Freed st' freed st'' ∧ freed.Perm (blocks.map (·.1)) ∧
          st''.live = st.live ∧ ∀ a, a < dst.addr ∨ dst.addr + M.top.size ≤ a → st''.m a = st.m a := by
  obtain ⟨st₁, B, m', hv, S, g2, C, rfl⟩ := made_setup h
  obtain ⟨B', e1, e2, e3⟩ := C.blocks
  refine ⟨place B, B', C, e1, e3, fun env' order' h4 h5 h6 => ?_⟩
  obtain ⟨freed, st'', k1, k2, k3, k4, k5⟩ := copy_free S g2 C h4 h.plain h.kept h5 h6
  refine ⟨freed, st'', k1, k2, k3.trans ?_, k4, k5⟩
  have := List.append_cancel_right (e1.symm.trans S.new.live)
  rw [this, List.map_reverse, List.map_map]
  exact (List.reverse_perm _).symm

/-- C101: without a tag map: nothing is to be assumed of handlers.  Partial: as
`C101_copy_free_partial`. -/
theorem C101_untagged_partial (ht : env.tags = none) (src dst : Value) (M : Map) (st st' : State) (h : Made env order mode db src dst M st st') :
    ∃ freed st'', Deep.freeEx env.deep order mode db st'.m (some dst) = .ok (some freed) ∧ Freed st' freed st'' ∧ freed.Nodup ∧
      st''.live = st.live ∧ ∀ a, a < dst.addr ∨ dst.addr + M.top.size ≤ a → st''.m a = st.m a := by
  obtain ⟨W, blocks, h1, h2, _, h4⟩ := C101_copy_free_partial src dst M st st' h
  obtain ⟨freed, st'', k1, k2, k3, k4, k5⟩ := h4 env.deep order (answers_untagged ht) h.honest h.perm
  refine ⟨freed, st'', k1, k2, k3.nodup_iff.mpr ?_, k4, k5⟩
  obtain ⟨B', e1, e2, _⟩ := h1.blocks
  rw [List.append_cancel_right (h2.symm.trans e1)]
  exact e2

/-- C102: after a copy the source is what it was: its map is the same, and freeing it releases
the same blocks, in the same order.  Partial: as `C30_copy_partial` (see `Made`). -/
theorem C102_source_partial (src dst : Value) (M : Map) (st st' : State) (h : Made env order mode db src dst M st st') :
    ∃ W, Copied env mode db st M dst st' W ∧ ∀ env', Answers env.deep env' W M.top dst → Honest env'.vs db →
      Deep.memoryMap env' order mode db st'.m (some src) = .ok (some M) ∧
      Deep.freeEx env' order mode db st'.m (some src) = Deep.freeEx env.deep order mode db st.m (some src) := by
  obtain ⟨st₁, B, m', hv, S, g2, C, rfl⟩ := made_setup h
  refine ⟨place B, C, fun env' h4 h5 => ?_⟩
  have := source_map S g2 C h4 h.plain h.kept h5
  rw [hv] at this
  refine ⟨this, ?_⟩
  have hmode : { mode with dag := true } = mode := by rw [← h.dag]
  simp only [Deep.freeEx, hmode, this, h.map]

/-- C102: the copy does not depend on its source, nor on any other memory: as long as the bytes
in the destination and in the new blocks (and what handlers say of the copy) are the same, the
copy holds what it held, and freeing it releases the same blocks.
Partial: as `C30_copy_partial` (see `Made`). -/
theorem C102_copy_partial (src dst : Value) (M : Map) (st st' : State) (h : Made env order mode db src dst M st st') :
    ∃ W, Copied env mode db st M dst st' W ∧
      (∀ m, SameCopy M dst W st'.m m → ∀ x w o l u, Copy W M.top dst x w → Wants env.cfg mode db st.m x o l u → Bitfield.Spec.Field m (8 * w.addr + o) l (u.value W)) ∧
      ∀ env', Answers env.deep env' W M.top dst → Honest env'.vs db → ∀ env'' m, Still env' env'' W M.top dst → Honest env''.vs db → SameCopy M dst W st'.m m →
        ∀ order', Order order' → ∃ freed, Deep.freeEx env'' order' mode db m (some dst) = .ok (some freed) ∧ freed.Nodup ∧
          ∀ a, a ∈ freed ↔ ∃ b n, Located M b n 0 ∧ a = W b := by
  obtain ⟨st₁, B, m', hv, S, g2, C, rfl⟩ := made_setup h
  refine ⟨place B, C, fun m hs x w o l u hc hw => copy_values S hs hc hw (C.values _ _ _ _ _ hc hw), fun env' h4 h5 env'' m h6 h7 h8 order' h9 => ?_⟩
  obtain ⟨_, t2⟩ := S.trees (st' := ⟨m', st₁.live⟩) g2 C h4 h.plain h.kept S.tree [] dst rfl .top
  obtain ⟨freed, f1, f2, f3⟩ := image_free S h6.dyn h4.dyn (copy_tree S h8 h4 h6 h.plain t2) h7 h9
  refine ⟨freed, f1, f2, fun a => ?_⟩
  rw [f3]
  constructor
  · intro ha
    obtain ⟨b, hb, rfl⟩ := List.mem_map.mp ha
    exact ⟨_, _, S.block_located hb, (Setup.start S hb).symm⟩
  · rintro ⟨b, n, hl, rfl⟩
    obtain ⟨t, ht⟩ := S.located_block hl
    rw [Setup.start S ht]
    exact List.mem_map.mpr ⟨_, ht, rfl⟩

/-- C102: source and copy can both be freed, the source first: if the blocks of the source are
live, and the destination is not in one of them, freeing the source and then the copy releases
live blocks only, each once, and exactly the blocks are live afterwards that were live before the
copy, except for those of the source.  Partial: as `C30_copy_partial` (see `Made`). -/
theorem C102_both_partial (src dst : Value) (M : Map) (st st' : State) (h : Made env order mode db src dst M st st')
    (hlive : ∀ a n, Located M a n 0 → List.lookup a st.live = some n) (hout : ∀ a n, Located M a n 0 → a + n ≤ dst.addr ∨ dst.addr + M.top.size ≤ a) :
    ∃ W, Copied env mode db st M dst st' W ∧
      ∀ env' env'', Answers env.deep env' W M.top dst → Honest env'.vs db → Still env' env'' W M.top dst → Honest env''.vs db → ∀ order', Order order' →
        ∃ f₁ s₁ f₂ s₂, Deep.freeEx env' order mode db st'.m (some src) = .ok (some f₁) ∧ Freed st' f₁ s₁ ∧
          Deep.freeEx env'' order' mode db s₁.m (some dst) = .ok (some f₂) ∧ Freed s₁ f₂ s₂ ∧
          (∀ a, a ∈ f₁ ↔ ∃ n, Located M a n 0) ∧ s₂.live = st.live.filter fun b => b.1 ∉ f₁ := by
  obtain ⟨st₁, B, m', hv, S, g2, C, rfl⟩ := made_setup h
  refine ⟨place B, C, fun env' env'' h4 h5 h6 h7 order' h8 => ?_⟩
  obtain ⟨t1, t2⟩ := S.trees (st' := ⟨m', st₁.live⟩) g2 C h4 h.plain h.kept S.tree [] dst rfl .top
  have hin : Interned env'.vs db := by
    intro t c hc
    rw [h4.dyn]
    exact S.interned t c hc
  have hmode : { mode with dag := true } = mode := by rw [← h.dag]
  obtain ⟨M', f₁, a1, _, a3, a4, a5⟩ := Deep.freeEx_located (order := order) S.sane hin h5 S.perm t1
  rw [hmode, source_map S g2 C h4 h.plain h.kept h5] at a1
  cases a1
  rw [hv] at a3
  have key : ∀ b ∈ B, ∀ a ∈ f₁, ∀ n, List.lookup a st.live = some n → b.2.1 + max b.2.2 1 ≤ a ∨ a + max n 1 ≤ b.2.1 := fun b hb a _ n hn =>
    S.new.apartLive b hb a n (Deep.lookup_mem hn)
  have old : ∀ a ∈ f₁, ∃ n, Located M a n 0 ∧ List.lookup a st.live = some n ∧ List.lookup a st₁.live = some n := by
    intro a ha
    obtain ⟨n, hn⟩ := (a5 a).mp ha
    have hl := hlive a n hn
    refine ⟨n, hn, hl, ?_⟩
    rw [S.new.live, List.lookup_append, List.lookup_eq_none_iff.mpr ?_]
    · exact hl
    · intro p hp
      simp only [List.mem_reverse, List.mem_map] at hp
      obtain ⟨b, hb, rfl⟩ := hp
      have := key b hb a ha n hl
      simp only [beq_eq_false_iff_ne, ne_eq, bne_iff_ne]
      omega
  obtain ⟨s₁, r1, r2, r3⟩ := release_live (st := ⟨m', st₁.live⟩) a4 fun a ha => ⟨_, (old a ha).choose_spec.2.2⟩
  have hsame : SameCopy M dst (place B) m' s₁.m := by
    constructor
    · intro i hi
      apply r3
      intro a ha n hn
      obtain ⟨n', k1, k2, k3⟩ := old a ha
      simp only at hn
      rw [k3] at hn
      cases hn
      have := hout a n k1
      omega
    · intro b n hb i hi
      apply r3
      intro a ha n' hn
      obtain ⟨n'', k1, k2, k3⟩ := old a ha
      simp only at hn
      rw [k3] at hn
      cases hn
      obtain ⟨t, ht⟩ := S.located_block hb
      have := key _ ht a ha n' k2
      have e := Setup.start S ht
      simp only at this e
      omega
  obtain ⟨f₂, b1, b2, b3⟩ := image_free S h6.dyn h4.dyn (copy_tree S hsame h4 h6 h.plain t2) h7 h8
  have new : ∀ a ∈ f₂, a ∉ f₁ ∧ ∃ b ∈ B, b.2.1 = a := by
    intro a ha
    obtain ⟨b, hb, rfl⟩ := List.mem_map.mp ((b3 a).mp ha)
    refine ⟨fun hf => ?_, b, hb, rfl⟩
    obtain ⟨n, k1, k2, k3⟩ := old _ hf
    have := key b hb _ hf n k2
    omega
  obtain ⟨s₂, q1, q2, _⟩ := release_live (st := s₁) b2 (by
    intro a ha
    obtain ⟨n1, b, hb, rfl⟩ := new a ha
    rw [r2]
    exact ⟨_, (lookup_filter n1).trans (S.new.lookup hb)⟩)
  refine ⟨f₁, s₁, f₂, s₂, a3, r1, b1, q1, a5, ?_⟩
  rw [q2, r2, List.filter_filter, S.new.live, List.filter_append]
  have e1 : ((B.map fun b => (b.2.1, b.2.2)).reverse.filter fun b => decide (b.1 ∉ f₂) && decide (b.1 ∉ f₁)) = [] := by
    rw [List.filter_eq_nil_iff]
    intro c hc
    simp only [List.mem_reverse, List.mem_map] at hc
    obtain ⟨b, hb, rfl⟩ := hc
    have := (b3 b.2.1).mpr (List.mem_map.mpr ⟨b, hb, rfl⟩)
    simp [this]
  rw [e1, List.nil_append]
  apply List.filter_congr
  rintro ⟨c, n⟩ hc
  have : c ∉ f₂ := by
    intro hf
    obtain ⟨b, hb, hbc⟩ := List.mem_map.mp ((b3 _).mp hf)
    have := S.new.apartLive b hb _ _ hc
    omega
  simp [this]
end

open Deep.World DeepCopy.World DeepCopy.Example
open Verif.Deep.Example (forms forms_ok mapOf)
open Verif.DeepCopy (comparableB comparable_of)

/-- Of the data at 100 with the blocks `L` a copy is made at 600. -/
def makes (e : Ref) (mode : Deep.Mode) (m : Mem) (L : List (Nat × Nat)) : Bool :=
  mode.dag && ready e mode m && comparableB e mode m &&
  match mapOf mode m ⟨e, 100⟩ with
  | none => false
  | some M => servesB (bump 9) ⟨m, L⟩ (DeepCopy.Spec.blockSizes id M)

theorem made {e : Ref} {mode : Deep.Mode} {m : Mem} {L : List (Nat × Nat)} {t : List UInt8} (hc : CDecl.cdecl (world forms) e = .ok (some t)) (he : fin (world forms) 100 e = some e)
    (h : makes e mode m L = true) :
    ∃ M st', mapOf mode m ⟨e, 100⟩ = some M ∧ Made (copier forms 9) id mode (world forms) ⟨e, 100⟩ ⟨e, 600⟩ M ⟨m, L⟩ st' := by
  simp only [makes, Bool.and_eq_true] at h
  obtain ⟨⟨⟨hd, h1⟩, h2⟩, h3⟩ := h
  obtain ⟨M, k1, hv, k2, k3, k4⟩ := ready_spec 9 h1 hc he
  rw [k1] at h3
  rcases DeepCopy.C30_copy_partial (env := copier forms 9) (world_sane forms_ok) (world_interned _) (world_honest _) Deep.Example.id_order (bump_allocator 9) id_each hd (fun h => by cases h) _ _ M ⟨m, L⟩ k2 k3 k4 with
    ⟨st', W, h5, h6⟩ | ⟨_, h5 | ⟨_, h5⟩⟩
  · exact ⟨M, st', k1, world_sane forms_ok, world_interned _, world_honest _, Deep.Example.id_order, bump_allocator 9, id_each, hd, (fun h => by cases h), k2, k3, k4,
      (fun hp => (k3.calls _ .top).1 (by rw [hv]; exact hp)), (comparable_of 9 k1 h2).kept, h5⟩
  · exact absurd (serves_of h3) h5
  · cases h5

/-- C101, C102: rings, rows and pointers that are kept. -/
example : ∃ M st', mapOf drop ring ⟨15, 100⟩ = some M ∧ Made (copier forms 9) id drop (world forms) ⟨15, 100⟩ ⟨15, 600⟩ M ⟨ring, []⟩ st' :=
  made root_cdecl rfl (by decide +kernel)
example : ∃ M st', mapOf strict row ⟨15, 100⟩ = some M ∧ Made (copier forms 9) id strict (world forms) ⟨15, 100⟩ ⟨15, 600⟩ M ⟨row, []⟩ st' :=
  made root_cdecl rfl (by decide +kernel)
example : ∃ M st', mapOf Deep.Example.valued DeepCopy.mix ⟨18, 100⟩ = some M ∧ Made (copier forms 9) id Deep.Example.valued (world forms) ⟨18, 100⟩ ⟨18, 600⟩ M ⟨DeepCopy.mix, []⟩ st' :=
  made (CDecl.no_dep rfl) rfl (by decide +kernel)

/-- The blocks of the source are live, and the destination is not in them. -/
def ownsB (e : Ref) (mode : Deep.Mode) (m : Mem) (L : List (Nat × Nat)) : Bool :=
  match mapOf mode m ⟨e, 100⟩ with
  | none => false
  | some M => M.map.all fun x => M.offset x.2.1 != 0 || (List.lookup x.1 L == some x.2.2 && (decide (x.1 + x.2.2 ≤ 600) || decide (600 + M.top.size ≤ x.1)))

/-- C102: the ring, whose three blocks are live besides another one, is copied; then it is freed,
and so is the copy, and the other block is live. -/
def ringBlocks : List (Nat × Nat) := [(200, 24), (700, 5), (300, 24), (400, 4)]

example : ∃ M st' f₁ s₁ f₂ s₂, Made (copier forms 9) id drop (world forms) ⟨15, 100⟩ ⟨15, 600⟩ M ⟨ring, ringBlocks⟩ st' ∧
    Deep.freeEx (Deep.World.env forms) id drop (world forms) st'.m (some ⟨15, 100⟩) = .ok (some f₁) ∧ Freed st' f₁ s₁ ∧
    Deep.freeEx (Deep.World.env forms) id drop (world forms) s₁.m (some ⟨15, 600⟩) = .ok (some f₂) ∧ Freed s₁ f₂ s₂ ∧ s₂.live = [(700, 5)] := by
  obtain ⟨M, st', hM, h⟩ := made (e := 15) (mode := drop) (m := ring) (L := ringBlocks) root_cdecl rfl (by decide +kernel)
  have ho : ownsB 15 drop ring ringBlocks = true := by decide +kernel
  have hx : (match mapOf drop ring ⟨15, 100⟩ with | none => false | some M => [200, 300, 400].all fun a => M.map.any fun x => x.1 == a && M.offset x.2.1 == 0) = true := by decide +kernel
  simp only [ownsB, hM, List.all_eq_true, Bool.or_eq_true, Bool.and_eq_true, bne_iff_ne, beq_iff_eq, decide_eq_true_eq, List.any_eq_true] at ho hx
  obtain ⟨W, _, h2⟩ := C102_both_partial _ _ M _ st' h (fun a n ⟨id, h1, h2⟩ => ((ho _ h1).resolve_left (by simp [h2])).1) (fun a n ⟨id, h1, h2⟩ => ((ho _ h1).resolve_left (by simp [h2])).2)
  obtain ⟨f₁, s₁, f₂, s₂, k1, k2, k3, k4, k5, k6⟩ := h2 (Deep.World.env forms) (Deep.World.env forms) (answers_untagged rfl) (world_honest _) ⟨rfl, rfl, rfl, fun _ _ _ _ _ _ h => h⟩ (world_honest _) id
    Deep.Example.id_order
  refine ⟨M, st', f₁, s₁, f₂, s₂, h, k1, k2, k3, k4, ?_⟩
  have mem : ∀ a ∈ [200, 300, 400], a ∈ f₁ := by
    intro a ha
    obtain ⟨⟨_, id, n⟩, hm, rfl, h0⟩ := hx a ha
    exact (k5 _).mpr ⟨n, id, hm, h0⟩
  have out : 700 ∉ f₁ := by
    intro hf
    obtain ⟨n, id, hm, h0⟩ := (k5 _).mp hf
    have hy : (match mapOf drop ring ⟨15, 100⟩ with | none => false | some M => M.map.all fun x => x.1 != 700) = true := by decide +kernel
    simp only [hM, List.all_eq_true, bne_iff_ne] at hy
    exact hy _ hm rfl
  rw [k6]
  simp [ringBlocks, List.filter, mem 200 (by simp), mem 300 (by simp), mem 400 (by simp), out]

/-- C102: all bytes of the ring are overwritten; the copy can be freed. -/
example : ∃ M st', Made (copier forms 9) id drop (world forms) ⟨15, 100⟩ ⟨15, 600⟩ M ⟨ring, []⟩ st' ∧
    ∃ freed, Deep.freeEx (Deep.World.env forms) id drop (world forms) (fun a => if a < 600 ∧ ring a ≠ none then some 255 else st'.m a) (some ⟨15, 600⟩) = .ok (some freed) ∧ freed.Nodup := by
  obtain ⟨M, st', hM, h⟩ := made (e := 15) (mode := drop) (m := ring) (L := []) root_cdecl rfl (by decide +kernel)
  obtain ⟨W, C, _, h2⟩ := C102_copy_partial _ _ M _ st' h
  obtain ⟨freed, k1, k2, _⟩ := h2 (Deep.World.env forms) (answers_untagged rfl) (world_honest _) (Deep.World.env forms) (fun a => if a < 600 ∧ ring a ≠ none then some 255 else st'.m a)
    ⟨rfl, rfl, rfl, fun _ _ _ _ _ _ h => h⟩ (world_honest _) ⟨fun i _ => if_neg fun hc => Nat.not_lt.mpr (Nat.le_add_right 600 i) hc.1, fun a n hl i hi => if_neg fun hc => hc.2 ((C.fresh a n hl).1 i (by omega))⟩ id Deep.Example.id_order
  exact ⟨M, st', h, freed, k1, k2⟩
end Verif.Lifecycle
