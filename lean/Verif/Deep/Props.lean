import Verif.Deep.Sweep
import Verif.Deep.Example
/-
Property theorems of memory maps: C29, C32.
-/
namespace Verif.Deep
open Verif Verif.Entry Verif.Entry.Spec Verif.Value Verif.Value.Spec Verif.Handlers Verif.ValueString Verif.ValueString.Spec Spec

section
variable {env : Env} {order : Table → Table} {mode : Mode} {db : Db} {m : Mem}

/-- What a map made from a value is. -/
theorem map_facts (hs : Sane db) (hin : Interned env.vs db) (hh : Honest env.vs db) (ho : Order order) {v : Value} {M : Map}
    (h : memoryMap env order mode db m (some v) = .ok (some M)) :
    Tree env mode db m [] M.top ∧ M.top.val = v ∧ (ids M.top).Nodup ∧
      (mode.dag = true → Table.Of (targets M.top) M.map) ∧ (mode.dag = false → M.map = []) ∧
      Keys M.map ∧ Ids M.map ∧ ∃ S, Blocks M.map S M.offsets := by
  simp only [memoryMap] at h
  rw [bind_ok_iff] at h
  obtain ⟨⟨o, st⟩, h1, h⟩ := h
  cases o with
  | none => cases h
  | some k =>
    simp only at h
    rw [bind_ok_iff] at h
    obtain ⟨offs, h2, h⟩ := h
    cases h
    obtain ⟨b1, b2, b3⟩ := walk_sound hs hin hh h1
    have hmap := b3.map
    have hkeys : Keys st.map ∧ Ids st.map ∧ (mode.dag = true → Table.Of (targets k) st.map) ∧ (mode.dag = false → st.map = []) := by
      cases hd : mode.dag with
      | true =>
        simp only [hd, if_true] at hmap
        have ht : Table.Of (targets k) st.map := by rw [hmap]; exact table_of _
        exact ⟨ht.keys, ids_of b3.nodup ht, fun _ => ht, by simp⟩
      | false =>
        simp only [hd, Bool.false_eq_true, if_false] at hmap
        refine ⟨by rw [hmap]; simp [Keys], by rw [hmap]; simp [Ids], by simp, fun _ => hmap⟩
    obtain ⟨S, offs', h3, h4⟩ := identify_blocks hkeys.1 ho
    rw [h2] at h3
    cases h3
    exact ⟨b1, b2, b3.nodup, hkeys.2.2.1, hkeys.2.2.2, hkeys.1, hkeys.2.1, S, h4⟩

/-- A value that has a tree has a map. -/
theorem map_exists (hs : Sane db) (hin : Interned env.vs db) (hh : Honest env.vs db) (ho : Order order) {k : Node} (h : Tree env mode db m [] k) :
    ∃ M, memoryMap env order mode db m (some k.val) = .ok (some M) ∧ strip M.top = strip k := by
  obtain ⟨k', st, h1, h2, _⟩ := walk_complete hs hin hh h ⟨0, [], []⟩ rfl
  obtain ⟨_, _, b3⟩ := walk_sound hs hin hh h1
  have hmap := b3.map
  have hk : Keys st.map := by
    cases hd : mode.dag with
    | true => simp only [hd, if_true] at hmap; rw [hmap]; exact (table_of _).keys
    | false => simp only [hd, Bool.false_eq_true, if_false] at hmap; rw [hmap]; simp [Keys]
  obtain ⟨S, offs, h3, _⟩ := identify_blocks hk ho
  exact ⟨⟨k', st.map, offs⟩, by simp [memoryMap, h1, h3], h2⟩

/-! ### C32 -/

/-- The sizes of the map are the largest ranges. -/
theorem largest {ts : List Node} {map : Table} (h : Table.Of ts map) (a n : Nat) :
    (∃ id, (a, id, n) ∈ map) ↔ (∃ t ∈ ts, t.val.addr = a ∧ t.size = n) ∧ ∀ k, (∃ t ∈ ts, t.val.addr = a ∧ t.size = k) → k ≤ n := by
  constructor
  · rintro ⟨id, hm⟩
    obtain ⟨t, ht, h1, _, h3⟩ := h.sound _ _ _ hm
    refine ⟨⟨t, ht, h1, h3⟩, ?_⟩
    rintro k ⟨u, hu, h4, h5⟩
    obtain ⟨id', n', h6, h7⟩ := h.complete u hu
    rw [h4] at h6
    have := keys_unique h.keys hm h6
    cases this
    omega
  · rintro ⟨⟨t, ht, h1, h2⟩, hmax⟩
    obtain ⟨id, n', h3, h4⟩ := h.complete t ht
    obtain ⟨u, hu, h5, _, h6⟩ := h.sound _ _ _ h3
    have := hmax n' ⟨u, hu, by rw [h5, h1], h6⟩
    have : n' = n := by omega
    subst this
    rw [h1] at h3
    exact ⟨id, h3⟩

/-- C32: in the map of a value, the entries are the addresses pointed to, each with the size of
the largest object pointed to there.  An entry that is not considered the start of a block lies
inside the block it is attributed to, at the right distance from its start; the blocks do not
overlap. -/
theorem C32_attribution (hs : Sane db) (hin : Interned env.vs db) (hh : Honest env.vs db) (ho : Order order) (hd : mode.dag = true) (v : Value) (M : Map)
    (h : memoryMap env order mode db m (some v) = .ok (some M)) :
    (∀ a n, (∃ o, Located M a n o) ↔ Range M.top a n ∧ ∀ n', Range M.top a n' → n' ≤ n) ∧
    (∀ a n o, Located M a n o → o ≠ 0 → 0 < n ∧ o ≤ a ∧ ∃ n', Located M (a - o) n' 0 ∧ o < n') ∧
    (∀ a n b n', Located M a n 0 → Located M b n' 0 → 0 < n → 0 < n' → a < b → a + n ≤ b) := by
  obtain ⟨_, _, _, hof, _, hk, hi, S, hb⟩ := map_facts hs hin hh ho h
  refine ⟨?_, ?_, ?_⟩
  · intro a n
    rw [show (∃ o, Located M a n o) ↔ ∃ id, (a, id, n) ∈ M.map from ⟨fun ⟨o, id, h, _⟩ => ⟨id, h⟩, fun ⟨id, h⟩ => ⟨_, id, h, rfl⟩⟩]
    exact largest (hof hd) a n
  · rintro a n o ⟨id, hm, rfl⟩ hne
    rcases offset_of hk hi hb hm with ⟨_, h1⟩ | ⟨h1, h2, b, j, s, h3, h4, h5, h6, h7⟩
    · exact absurd h1 hne
    · refine ⟨h2, by omega, s, ⟨j, by rw [h7, show a - (a - b) = b by omega]; exact h4, ?_⟩, by omega⟩
      rcases offset_of hk hi hb h4 with ⟨_, h8⟩ | ⟨h8, _⟩
      · exact h8
      · exact absurd h3 h8
  · rintro a n b n' ⟨i, h1, h2⟩ ⟨j, h3, h4⟩ hn hn' hlt
    have start : ∀ {a i n}, (a, i, n) ∈ M.map → M.offset i = 0 → 0 < n → a ∈ S := by
      intro a i n hm h0 hn
      rcases offset_of hk hi hb hm with ⟨h5 | h5, _⟩ | ⟨_, _, c, j, s, _, _, h6, _, h7⟩
      · exact h5
      · omega
      · omega
    exact hb.apart a (start h1 h2 hn) i n h1 b (start h3 h4 hn') hlt

open World in
/-- The ring: the number inside the first node is found inside it, at 16 bytes. -/
example : Sane (world Example.types) ∧ Interned (World.env Example.types).vs (world Example.types) ∧ Honest (World.env Example.types).vs (world Example.types) ∧
    memoryMap (World.env Example.types) id Example.mode (world Example.types) Example.ring (some ⟨11, 100⟩) = .ok (some Example.ringMap) ∧
    Located Example.ringMap 216 4 16 ∧ Located Example.ringMap 200 24 0 ∧ Located Example.ringMap 300 24 0 ∧ Located Example.ringMap 400 4 0 :=
  ⟨world_sane Example.types_ok, world_interned _, world_honest _, Example.ring_map, ⟨9, by decide, by decide⟩, ⟨13, by decide, by decide⟩, ⟨6, by decide, by decide⟩, ⟨2, by decide, by decide⟩⟩

/-- A located entry is located alike in every map with the same entries. -/
theorem located_same {M₁ M₂ : Map} {S₁ S₂ : List Nat} (hk₁ : Keys M₁.map) (hi₁ : Ids M₁.map) (hb₁ : Blocks M₁.map S₁ M₁.offsets)
    (hk₂ : Keys M₂.map) (hi₂ : Ids M₂.map) (hb₂ : Blocks M₂.map S₂ M₂.offsets)
    (hs : ∀ a n, (∃ j, (a, j, n) ∈ M₁.map) ↔ ∃ j, (a, j, n) ∈ M₂.map) {a n o : Nat} (h : Located M₁ a n o) : Located M₂ a n o := by
  have hS := starts_unique hk₁ hk₂ hb₁ hb₂ hs
  obtain ⟨i, hm, rfl⟩ := h
  obtain ⟨j, hm'⟩ := (hs a n).mp ⟨i, hm⟩
  refine ⟨j, hm', ?_⟩
  rcases offset_of hk₁ hi₁ hb₁ hm with ⟨h1, h2⟩ | ⟨h1, h2, b, i', s, h3, h4, h5, h6, h7⟩
  · rcases offset_of hk₂ hi₂ hb₂ hm' with ⟨_, h4⟩ | ⟨h3, h4, _⟩
    · rw [h2, h4]
    · rcases h1 with h1 | h1
      · exact absurd ((hS a).mp h1) h3
      · omega
  · rcases offset_of hk₂ hi₂ hb₂ hm' with ⟨h8 | h8, _⟩ | ⟨_, _, c, j', s', h9, h10, h11, h12, h13⟩
    · exact absurd ((hS a).mpr h8) h1
    · omega
    · obtain ⟨i'', h4'⟩ := (hs b s).mp ⟨i', h4⟩
      have hbc : b = c := by
        rcases Nat.lt_trichotomy b c with h | h | h
        · have := hb₂.apart b ((hS b).mp h3) i'' s h4' c h9 h
          omega
        · exact h
        · have := hb₂.apart c h9 j' s' h10 b ((hS b).mp h3) h
          omega
      rw [h7, h13, hbc]

/-- C32: which entries are starts of blocks, and where the others are, depends only on the set of
ranges (address, size) pointed to: not on the order in which pointers are met, nor on that of the
hash map, nor on anything else about the values. -/
theorem C32_determined {env' : Env} {order' : Table → Table} {mode' : Mode} {db' : Db} {m' : Mem} (hs : Sane db) (hin : Interned env.vs db) (hh : Honest env.vs db)
    (hs' : Sane db') (hin' : Interned env'.vs db') (hh' : Honest env'.vs db') (ho : Order order) (ho' : Order order') (hd : mode.dag = true) (hd' : mode'.dag = true)
    (v v' : Value) (M M' : Map) (h : memoryMap env order mode db m (some v) = .ok (some M)) (h' : memoryMap env' order' mode' db' m' (some v') = .ok (some M'))
    (hr : ∀ a n, Range M.top a n ↔ Range M'.top a n) : ∀ a n o, Located M a n o ↔ Located M' a n o := by
  obtain ⟨_, _, _, hof, _, hk, hi, S, hb⟩ := map_facts hs hin hh ho h
  obtain ⟨_, _, _, hof', _, hk', hi', S', hb'⟩ := map_facts hs' hin' hh' ho' h'
  have hsame : ∀ a n, (∃ j, (a, j, n) ∈ M.map) ↔ ∃ j, (a, j, n) ∈ M'.map := by
    intro a n
    rw [largest (hof hd), largest (hof' hd')]
    exact ⟨fun ⟨h1, h2⟩ => ⟨(hr a n).mp h1, fun k hk => h2 k ((hr a k).mpr hk)⟩, fun ⟨h1, h2⟩ => ⟨(hr a n).mpr h1, fun k hk => h2 k ((hr a k).mp hk)⟩⟩
  intro a n o
  exact ⟨located_same hk hi hb hk' hi' hb' hsame, located_same hk' hi' hb' hk hi hb (fun a n => (hsame a n).symm)⟩

open World in
/-- The ring met the other way round: the ranges are the same. -/
example : ∃ M M', memoryMap (World.env Example.types) id Example.mode (world Example.types) Example.ring (some ⟨11, 100⟩) = .ok (some M) ∧
    memoryMap (World.env Example.types) List.reverse Example.mode (world Example.types) Example.gnir (some ⟨11, 100⟩) = .ok (some M') ∧
    (∀ a n, Range M.top a n ↔ Range M'.top a n) ∧ strip M.top ≠ strip M'.top := by
  obtain ⟨h1, h2⟩ := build_sound Example.ring_build
  obtain ⟨h3, h4⟩ := build_sound Example.gnir_build
  obtain ⟨M, h5, h6⟩ := map_exists (order := id) (world_sane Example.types_ok) (world_interned _) (world_honest _) Example.id_order h1
  obtain ⟨M', h7, h8⟩ := map_exists (order := List.reverse) (world_sane Example.types_ok) (world_interned _) (world_honest _) (fun l => List.reverse_perm l) h3
  rw [h2] at h5
  rw [h4] at h7
  refine ⟨M, M', h5, h7, fun a n => ?_, ?_⟩
  · rw [range_same h6, range_same h8, range_iff, range_iff, Example.ring_ranges, Example.gnir_ranges]
    simp only [List.mem_cons, List.not_mem_nil, or_false]
    constructor <;> (intro h; rcases h with h | h | h | h | h | h | h | h | h <;> simp [h])
  · intro h
    have h9 : ranges M.top = ranges M'.top := by
      have : ∀ k, ranges (strip k) = ranges k := by
        intro k
        simp only [ranges, targets_strip, List.map_map]
        refine List.map_congr_left fun t _ => ?_
        simp [strip_val, strip_size]
      rw [← this M.top, h, this]
    have h10 : ∀ {k k'}, strip k = strip k' → ranges k = ranges k' := by
      intro k k' h
      have : ∀ k, ranges (strip k) = ranges k := by
        intro k
        simp only [ranges, targets_strip, List.map_map]
        refine List.map_congr_left fun t _ => ?_
        simp [strip_val, strip_size]
      rw [← this k, h, this]
    rw [h10 h6, h10 h8, Example.ring_ranges, Example.gnir_ranges] at h9
    exact absurd h9 (by decide)

/-! ### C29 -/

theorem mode_tree {mode' : Mode} (h1 : mode.uptr = mode'.uptr) (h2 : mode.union = mode'.union) (h3 : mode.flexFail = mode'.flexFail) {outer : List Value} {k : Node}
    (h : Tree env mode db m outer k) : Tree env mode' db m outer k := by
  have hc : ∀ {outer v s}, Consists env mode db m outer v s → Consists env mode' db m outer v s := by
    intro outer v s h
    have hcount : ∀ {e c arr}, Counted env mode v outer e c arr → Counted env mode' v outer e c arr := by
      intro e c arr h
      cases h with
      | known h => exact .known h
      | reply h => exact .reply h
      | empty a b c => exact .empty a (by rw [← h3]; exact b) c
    cases h with
    | base a b => exact .base a b
    | enumeration a b => exact .enumeration a b
    | struct a b c d => exact .struct a b c d
    | union a b c => exact .union a b (fun h => by rw [← h2]; exact c h)
    | unionMember a b c d => exact .unionMember a b c d
    | array a b c d e f g => exact .array a (hcount b) c d e f g
    | noElements a b c d => exact .noElements a (hcount b) c d
    | null a b c => exact .null a b c
    | loop a b c d e => exact .loop a b c d e
    | unknown a b c d e f g h => exact .unknown a b c d e f g (by rw [← h1]; exact h)
    | target a b c d e f =>
      refine .target a b c d e ?_
      cases f with
      | reply a b => exact .reply a b
      | one a b c => exact .one a b c
      | byte a b c => exact .byte a b (by rw [← h1]; exact c)
    | arguments a b c => exact .arguments a b c
    | call a b c => exact .call a b c
  induction h with
  | leaf h => exact .leaf (hc h)
  | parts h a b _ ih => exact .parts (hc h) a b ih
  | target h _ ih => exact .target (hc h) ih
  | args h a _ ih => exact .args (hc h) a ih

/-- What is freed: the addresses of the entries without offset, each once. -/
theorem freeEx_located (hs : Sane db) (hin : Interned env.vs db) (hh : Honest env.vs db) (ho : Order order) {k : Node} (h : Tree env mode db m [] k) :
    ∃ M freed, memoryMap env order { mode with dag := true } db m (some k.val) = .ok (some M) ∧ strip M.top = strip k ∧
      freeEx env order mode db m (some k.val) = .ok (some freed) ∧ freed.Nodup ∧ ∀ a, a ∈ freed ↔ ∃ n, Located M a n 0 := by
  obtain ⟨M, h1, h2⟩ := map_exists (mode := { mode with dag := true }) hs hin hh ho (mode_tree (mode := mode) (mode' := { mode with dag := true }) rfl rfl rfl h)
  obtain ⟨_, _, _, _, _, hk, _, _⟩ := map_facts hs hin hh ho h1
  refine ⟨M, _, h1, h2, by simp only [freeEx, h1, Outcome.bind_ok]; rfl, ?_, ?_⟩
  · have hkeys : ((order M.map).map (·.1)).Nodup := by
      have hp : ((order M.map).map (·.1)).Perm (M.map.map (·.1)) := (ho M.map).map _
      exact hp.nodup_iff.mpr hk
    generalize order M.map = l at hkeys
    induction l with
    | nil => simp
    | cons x l ih =>
      simp only [List.map_cons, List.nodup_cons] at hkeys
      rw [List.filterMap_cons]
      split
      · exact ih hkeys.2
      · next a ha =>
        rw [List.nodup_cons]
        refine ⟨fun hm => hkeys.1 ?_, ih hkeys.2⟩
        obtain ⟨y, hy, hy'⟩ := List.mem_filterMap.mp hm
        have e1 : a = x.1 := by
          split at ha <;> simp_all
        have e2 : a = y.1 := by
          split at hy' <;> simp_all
        exact List.mem_map.mpr ⟨y, hy, by rw [← e2, e1]⟩
  · intro a
    rw [List.mem_filterMap]
    constructor
    · rintro ⟨⟨b, id, n⟩, hm, h3⟩
      simp only at h3
      split at h3
      · next h0 => cases h3; exact ⟨n, id, (ho M.map).mem_iff.mp hm, h0⟩
      · cases h3
    · rintro ⟨n, id, hm, h0⟩
      exact ⟨(a, id, n), (ho M.map).mem_iff.mpr hm, by simp [h0]⟩

/-- C29 (partial): if the value has a tree, and the objects reached lie in blocks as described by
`Allocated`, the addresses given to the free function are exactly the starts of the blocks, each
once.  Missing: blocks no pointer of the data points to as a whole, like the one of the value
itself; empty objects inside a block (`C29_root_false`, `C29_empty_false`). -/
theorem C29_free_partial (hs : Sane db) (hin : Interned env.vs db) (hh : Honest env.vs db) (ho : Order order) (k : Node) (h : Tree env mode db m [] k)
    (B : Nat → Nat → Prop) (hB : Allocated B k) :
    ∃ freed, freeEx env order mode db m (some k.val) = .ok (some freed) ∧ freed.Nodup ∧ ∀ a, a ∈ freed ↔ ∃ n, B a n := by
  obtain ⟨M, freed, h1, h2, h3, h4, h5⟩ := freeEx_located hs hin hh ho h
  refine ⟨freed, h3, h4, fun a => ?_⟩
  rw [h5]
  obtain ⟨c1, c2, c3⟩ := C32_attribution hs hin hh ho rfl k.val M h1
  have hr : ∀ {a n}, Range M.top a n ↔ Range k a n := range_same h2
  -- a start of a block is an entry without offset
  have hstart : ∀ b s, B b s → ∃ n, Located M b n 0 ∧ ∀ a i, Range k a i → b < a → a < b + s → a < b + n := by
    intro b s hb
    obtain ⟨n, h6, h7⟩ := hB.start b s hb
    -- the largest there
    have : ∃ n' o, Located M b n' o ∧ n ≤ n' := by
      obtain ⟨_, _, _, hof, _⟩ := map_facts hs hin hh ho h1
      obtain ⟨t, ht, rfl, rfl⟩ := hr.mpr h6
      obtain ⟨id, n', h8, h9⟩ := (hof rfl).complete t ht
      exact ⟨n', _, ⟨id, h8, rfl⟩, h9⟩
    obtain ⟨n', o, h8, h9⟩ := this
    by_cases h0 : o = 0
    · subst h0
      exact ⟨n', h8, fun a i h10 h11 h12 => by have := h7 a i h10 h11 h12; omega⟩
    · exfalso
      obtain ⟨h10, h11, n'', h12, h13⟩ := c2 b n' o h8 h0
      obtain ⟨h14, _⟩ := (c1 _ _).mp ⟨_, h12⟩
      obtain ⟨c, cs, h15, h16, h17, _⟩ := hB.inside _ _ (hr.mp h14)
      rcases hB.apart _ _ _ _ hb h15 with ⟨h18, _⟩ | h18 | h18
      · omega
      · obtain ⟨d, ds, h19, h20, h21, _⟩ := hB.inside _ _ (hr.mp ((c1 _ _).mp ⟨_, h8⟩).1)
        rcases hB.apart _ _ _ _ hb h19 with ⟨h22, h23⟩ | h22 | h22 <;> omega
      · omega
  constructor
  · rintro ⟨n, hl⟩
    obtain ⟨hra, _⟩ := (c1 a n).mp ⟨0, hl⟩
    obtain ⟨b, s, h6, h7, h8, h9⟩ := hB.inside a n (hr.mp hra)
    by_cases hab : a = b
    · subst hab; exact ⟨s, h6⟩
    · have hn : 0 < n := by
        rcases Nat.eq_zero_or_pos n with h | h
        · exact absurd (h9 h) hab
        · exact h
      obtain ⟨n', h10, h11⟩ := hstart b s h6
      have h12 := h11 a n (hr.mp hra) (by omega) (by omega)
      have := c3 b n' a n h10 hl (by omega) hn (by omega)
      omega
  · rintro ⟨s, hb⟩
    obtain ⟨n, h6, _⟩ := hstart a s hb
    exact ⟨n, h6⟩

open World in
/-- The ring: the two nodes and the number are freed, each once. -/
example : Allocated (fun a n => (a, n) ∈ [(200, 24), (300, 24), (400, 4)]) Example.ringTree ∧ Example.ringTree.val = ⟨11, 100⟩ ∧
    Tree (World.env Example.types) Example.mode (world Example.types) Example.ring [] Example.ringTree ∧
    freeEx (World.env Example.types) id Example.mode (world Example.types) Example.ring (some ⟨11, 100⟩) = .ok (some [400, 300, 200]) := by
  obtain ⟨h1, h2⟩ := build_sound Example.ring_build
  refine ⟨⟨?_, ?_, ?_⟩, h2, h1, ?_⟩
  · intro a n b s h h'
    simp only [List.mem_cons, List.not_mem_nil, or_false, Prod.mk.injEq] at h h'
    omega
  · intro a n h
    rw [range_iff, Example.ring_ranges] at h
    simp only [List.mem_cons, List.not_mem_nil, or_false, Prod.mk.injEq] at h
    have : (a = 200 ∧ n = 24 ∨ a = 216 ∧ n = 4) ∨ (a = 300 ∧ n = 24) ∨ (a = 400 ∧ n = 4) := by omega
    rcases this with h | h | h
    · exact ⟨200, 24, by simp, by omega, by omega, by omega⟩
    · exact ⟨300, 24, by simp, by omega, by omega, by omega⟩
    · exact ⟨400, 4, by simp, by omega, by omega, by omega⟩
  · intro b s h
    simp only [List.mem_cons, List.not_mem_nil, or_false, Prod.mk.injEq] at h
    refine ⟨s, ?_, fun a i _ _ h => h⟩
    rw [range_iff, Example.ring_ranges]
    rcases h with ⟨rfl, rfl⟩ | ⟨rfl, rfl⟩ | ⟨rfl, rfl⟩ <;> decide
  · rw [free_of Example.types_ok rfl Example.ring_build (offs := [(9, 16)]) (by decide +kernel),
      show (targets (number Example.ringTree 0).1).foldl reg [] = Example.ringMap.map by decide +kernel]
    rfl

open World in
/-- C29 is false of the code when data points into the value itself: the node at 100, of 24 bytes,
points to its own number at 116, and 116 is given to the free function.  Nothing was allocated
there. -/
theorem C29_root_false : ∃ (env : Env) (mode : Mode) (db : Db) (m : Mem) (v : Value), Size db v.entry 24 ∧ v.addr = 100 ∧
    freeEx env id mode db m (some v) = .ok (some [116]) :=
  ⟨World.env Example.types, Example.mode, world Example.types, Example.self, ⟨7, 100⟩, sz_sound (f := 100) (by decide), rfl, by
    rw [free_of Example.types_ok rfl Example.self_build (offs := []) (by decide +kernel),
      show (targets (number Example.selfTree 0).1).foldl reg [] = [(116, 2, 4)] by decide +kernel]
    rfl⟩

open World in
/-- C29 is false of the code for empty objects inside a block: the pair at 200, of 8 bytes, is pointed to, and so is
its empty member at 204; both addresses are given to the free function. -/
theorem C29_empty_false : ∃ (env : Env) (mode : Mode) (db : Db) (m : Mem) (v : Value) (k : Node), Tree env mode db m [] k ∧ k.val = v ∧
    (∀ a n, Range k a n ↔ (a = 200 ∧ n = 8) ∨ (a = 204 ∧ n = 0)) ∧ freeEx env id mode db m (some v) = .ok (some [200, 204]) :=
  ⟨World.env Example.types, Example.mode, world Example.types, Example.hollow, ⟨21, 100⟩, Example.hollowTree, (build_sound Example.hollow_build).1, (build_sound Example.hollow_build).2, by
    intro a n
    rw [range_iff, show ranges Example.hollowTree = [(200, 8), (204, 0)] by decide +kernel]
    simp, by
    rw [free_of Example.types_ok rfl Example.hollow_build (offs := []) (by decide +kernel),
      show (targets (number Example.hollowTree 0).1).foldl reg [] = [(200, 4, 8), (204, 7, 0)] by decide +kernel]
    rfl⟩

end
end Verif.Deep
