import Verif.DeepCopy.Spec
/-
Allocation of the blocks of a copy, and their release.
-/
namespace Verif.DeepCopy
open Verif Verif.DeepCopy.Spec
open Verif.Deep (Map)

/-- Blocks: address in the source, address of the new block, size. -/
abbrev Blocks := List (Nat × Nat × Nat)

/-- The table of blocks. -/
def Blocks.table (B : Blocks) : List (Nat × Nat) := B.map fun b => (b.1, b.2.1)

/-- `st` is `st₀` with the new blocks `B`, all zero. -/
structure New (st₀ st : State) (B : Blocks) : Prop where
  live : st.live = (B.map fun b => (b.2.1, b.2.2)).reverse ++ st₀.live
  zero : ∀ b ∈ B, ∀ x, b.2.1 ≤ x → x < b.2.1 + b.2.2 → st.m x = some 0
  other : ∀ x, (∀ b ∈ B, x < b.2.1 ∨ b.2.1 + b.2.2 ≤ x) → st.m x = st₀.m x
  nonNull : ∀ b ∈ B, b.2.1 ≠ 0
  bounded : ∀ b ∈ B, b.2.1 + b.2.2 < 2 ^ 64
  fresh : ∀ b ∈ B, ∀ i < max b.2.2 1, st₀.m (b.2.1 + i) = none
  apart : B.Pairwise fun b c => b.2.1 + max b.2.2 1 ≤ c.2.1 ∨ c.2.1 + max c.2.2 1 ≤ b.2.1
  apartLive : ∀ b ∈ B, ∀ c n, (c, n) ∈ st₀.live → b.2.1 + max b.2.2 1 ≤ c ∨ c + max n 1 ≤ b.2.1

theorem New.nil (st : State) : New st st [] := by
  refine ⟨by simp, by simp, by simp, by simp, by simp, by simp, by simp, by simp⟩

theorem New.push {env : Env} (ha : Allocator env.calloc) {st₀ st : State} {B : Blocks} (h : New st₀ st B) {s t : Nat} {st' : State}
    (h1 : alloc env st 1 s = some (t, st')) (a : Nat) : New st₀ st' (B ++ [(a, t, s)]) ∧ st' = ⟨fill st.m t s (some 0), (t, s) :: st.live⟩ ∧
      (∀ i < max s 1, st.m (t + i) = none) ∧ ∀ b k, (b, k) ∈ st.live → t + max s 1 ≤ b ∨ b + max k 1 ≤ t := by
  simp only [alloc, Nat.one_mul, Option.map_eq_some_iff, Prod.mk.injEq] at h1
  obtain ⟨t', hc, ht, hst⟩ := h1
  obtain rfl : t = t' := ht.symm
  subst hst
  have h0 := ha.nonNull _ _ _ _ hc
  have h1 := ha.bounded _ _ _ _ hc
  have h2 := ha.unmapped _ _ _ _ hc
  have h3 := ha.apart _ _ _ _ hc
  simp only [Nat.one_mul] at h1 h2 h3
  refine ⟨?_, rfl, h2, h3⟩
  have hB : ∀ b ∈ B, t + max s 1 ≤ b.2.1 ∨ b.2.1 + max b.2.2 1 ≤ t := by
    intro b hb
    apply h3
    rw [h.live]
    simp only [List.mem_append, List.mem_reverse, List.mem_map]
    exact .inl ⟨b, hb, rfl⟩
  constructor
  · simp [h.live]
  · intro b hb x hx1 hx2
    simp only [List.mem_append, List.mem_singleton] at hb
    simp only [fill]
    rcases hb with hb | rfl
    · split
      · rfl
      · exact h.zero b hb x hx1 hx2
    · simp only at hx1 hx2
      rw [if_pos ⟨hx1, hx2⟩]
  · intro x hx
    have hx' := hx (a, t, s) (by simp)
    simp only at hx'
    simp only [fill]
    rw [if_neg (by omega)]
    exact h.other x fun b hb => hx b (by simp [hb])
  · intro b hb
    simp only [List.mem_append, List.mem_singleton] at hb
    rcases hb with hb | rfl
    · exact h.nonNull b hb
    · exact h0
  · intro b hb
    simp only [List.mem_append, List.mem_singleton] at hb
    rcases hb with hb | rfl
    · exact h.bounded b hb
    · exact h1
  · intro b hb i hi
    simp only [List.mem_append, List.mem_singleton] at hb
    rcases hb with hb | rfl
    · exact h.fresh b hb i hi
    · simp only at hi ⊢
      rw [← h2 i hi]
      symm
      apply h.other
      intro b hb
      have := hB b hb
      omega
  · rw [List.pairwise_append]
    refine ⟨h.apart, by simp, ?_⟩
    intro b hb c hc
    simp only [List.mem_singleton] at hc
    subst hc
    exact (hB b hb).symm
  · intro b hb c n hc
    simp only [List.mem_append, List.mem_singleton] at hb
    rcases hb with hb | rfl
    · exact h.apartLive b hb c n hc
    · apply h3
      rw [h.live]
      simp [hc]

theorem filter_id {l : List (Nat × Nat)} {t : Nat} (h : ∀ b k, (b, k) ∈ l → b ≠ t) : (l.filter fun b => b.1 ≠ t) = l := by
  rw [List.filter_eq_self]
  rintro ⟨b, k⟩ hb
  simpa using h b k hb

/-- A block just allocated and freed again leaves things as they were. -/
theorem release_alloc {st : State} {t s : Nat} (h : ∀ i < max s 1, st.m (t + i) = none) (hl : ∀ b k, (b, k) ∈ st.live → t + max s 1 ≤ b ∨ b + max k 1 ≤ t) :
    release ⟨fill st.m t s (some 0), (t, s) :: st.live⟩ t = .ok st := by
  simp only [release, List.lookup_cons, beq_self_eq_true, Outcome.ok.injEq]
  have h1 : fill (fill st.m t s (some 0)) t s none = st.m := by
    funext x
    simp only [fill]
    split
    · next hx =>
      have := h (x - t) (by omega)
      rw [show t + (x - t) = x by omega] at this
      exact this.symm
    · rfl
  have h2 : (((t, s) :: st.live).filter fun b => b.1 ≠ t) = st.live := by
    rw [List.filter_cons_of_neg (by simp)]
    apply filter_id
    intro b k hb he
    have := hl b k hb
    omega
  rw [h1, h2]

/-- Preallocation: all blocks are made; or a failure is reported, and the blocks of the table
are those made; or (a failed insertion with another allocator) it is undefined. -/
theorem preallocate_spec {env : Env} (ha : Allocator env.calloc) (M : Map) {st₀ : State} : ∀ (l : List (Nat × Nat × Nat)) (B : Blocks) (st : State), New st₀ st B →
    (∃ B' st', preallocate env M l B.table st = .ok (true, (B ++ B').table, st') ∧ New st₀ st' (B ++ B') ∧
      B'.map (fun b => (b.1, b.2.2)) = (l.filter fun e => M.offset e.2.1 = 0).map fun e => (e.1, e.2.2)) ∨
    (∃ B' st', preallocate env M l B.table st = .ok (false, (B ++ B').table, st') ∧ New st₀ st' (B ++ B') ∧
      (¬ Serves env.calloc st ((l.filter fun e => M.offset e.2.1 = 0).map fun e => e.2.2) ∨ ∃ t, env.put t = false)) ∨
    (preallocate env M l B.table st = .ub ∧ env.custom = true ∧ ∃ t, env.put t = false)
  | [], B, st, h => .inl ⟨[], st, by simp [preallocate], by simpa using h, by simp⟩
  | (a, id, size) :: l, B, st, h => by
    by_cases ho : M.offset id = 0
    · cases hal : alloc env st 1 size with
      | none =>
        right; left
        refine ⟨[], st, by simp [preallocate, ho, hal], by simpa using h, .inl ?_⟩
        have hn : env.calloc st 1 size = none := by simpa [alloc] using hal
        simp [ho, Serves, hn]
      | some r =>
        obtain ⟨t, st'⟩ := r
        obtain ⟨hn, rfl, hu, hl⟩ := h.push ha hal a
        by_cases hp : env.put B.table = true
        · have htb : (B ++ [(a, t, size)]).table = B.table ++ [(a, t)] := by simp [Blocks.table]
          have ih := preallocate_spec ha M l (B ++ [(a, t, size)]) _ hn
          rw [htb] at ih
          simp only [preallocate, ho, if_true, hal, hp]
          rcases ih with ⟨B', st', h1, h2, h3⟩ | ⟨B', st', h1, h2, h3⟩ | ⟨h1, h2⟩
          · refine .inl ⟨(a, t, size) :: B', st', ?_, ?_, ?_⟩
            · rw [h1]; simp
            · simpa using h2
            · simp [ho, h3]
          · refine .inr (.inl ⟨(a, t, size) :: B', st', ?_, ?_, ?_⟩)
            · rw [h1]; simp
            · simpa using h2
            · refine h3.imp (fun h hs => h ?_) (fun h => h)
              simp only [ho, List.filter_cons, decide_true, if_true, List.map_cons, Serves] at hs
              obtain ⟨t', h4, h5⟩ := hs
              have : t' = t := by
                simp only [alloc, h4, Option.map_some, Option.some.injEq, Prod.mk.injEq] at hal
                exact hal.1
              subst this
              exact h5
          · exact .inr (.inr ⟨h1, h2⟩)
        · have hpf : env.put B.table = false := by simpa using hp
          by_cases hcu : env.custom = true
          · right; right
            exact ⟨by simp [preallocate, ho, hal, hpf, plainFree, hcu], hcu, _, hpf⟩
          · right; left
            refine ⟨[], st, ?_, by simpa using h, .inr ⟨_, hpf⟩⟩
            simp [preallocate, ho, hal, hpf, plainFree, hcu, release_alloc hu hl]
    · simp only [preallocate, ho, if_false]
      rcases preallocate_spec ha M l B st h with ⟨B', st', h1, h2, h3⟩ | ⟨B', st', h1, h2, h3⟩ | h
      · exact .inl ⟨B', st', h1, h2, by simp [ho, h3]⟩
      · exact .inr (.inl ⟨B', st', h1, h2, by simpa [ho] using h3⟩)
      · exact .inr (.inr h)

theorem lookup_filter {t u : Nat} (hne : u ≠ t) : ∀ l : List (Nat × Nat), List.lookup u (l.filter fun b => b.1 ≠ t) = List.lookup u l
  | [] => rfl
  | (a, n) :: l => by
    by_cases ha : a = t
    · subst ha
      rw [List.filter_cons_of_neg (by simp), lookup_filter hne l, List.lookup_cons]
      have : (u == a) = false := by simpa using hne
      rw [this]
    · rw [List.filter_cons_of_pos (by simpa using ha), List.lookup_cons, List.lookup_cons, lookup_filter hne l]

/-- Blocks that are live, each given once, can be released. -/
theorem releaseAll_spec : ∀ (L : List (Nat × Nat)) (st : State), (L.map (·.2)).Nodup → (∀ e ∈ L, ∃ n, List.lookup e.2 st.live = some n) →
    ∃ st', releaseAll L st = .ok st' ∧ st'.live = st.live.filter (fun b => b.1 ∉ L.map (·.2)) ∧
      (∀ x, (∃ e ∈ L, ∃ n, List.lookup e.2 st.live = some n ∧ e.2 ≤ x ∧ x < e.2 + n) → st'.m x = none) ∧
      (∀ x, (∀ e ∈ L, ∀ n, List.lookup e.2 st.live = some n → x < e.2 ∨ e.2 + n ≤ x) → st'.m x = st.m x)
  | [], st, _, _ => by
    refine ⟨st, rfl, ?_, by simp, by simp⟩
    symm
    rw [List.filter_eq_self]
    simp
  | (a, t) :: L, st, hn, hl => by
    obtain ⟨n, hlt⟩ := hl (a, t) (by simp)
    simp only [List.map_cons, List.nodup_cons] at hn
    have hne : ∀ e ∈ L, e.2 ≠ t := fun e he heq => hn.1 (List.mem_map.mpr ⟨e, he, heq⟩)
    have hlk : ∀ e ∈ L, List.lookup e.2 (st.live.filter fun b => b.1 ≠ t) = List.lookup e.2 st.live := fun e he => lookup_filter (hne e he) _
    obtain ⟨st', h1, h2, h3, h4⟩ := releaseAll_spec L ⟨fill st.m t n none, st.live.filter fun b => b.1 ≠ t⟩ hn.2 (fun e he => by
      obtain ⟨k, hk⟩ := hl e (by simp [he])
      exact ⟨k, by simp only; rw [hlk e he]; exact hk⟩)
    simp only at h2 h3 h4 hlt
    refine ⟨st', by simp only [releaseAll, release, hlt, Outcome.bind_ok]; exact h1, ?_, ?_, ?_⟩
    · rw [h2, List.filter_filter]
      apply List.filter_congr
      intro b _
      rw [Bool.eq_iff_iff]
      simp only [List.map_cons, List.mem_cons, not_or, Bool.and_eq_true, decide_eq_true_iff]
      exact and_comm
    · rintro x ⟨e, he, k, hk, hx1, hx2⟩
      by_cases hxL : ∃ e ∈ L, ∃ n, List.lookup e.2 (st.live.filter fun b => b.1 ≠ t) = some n ∧ e.2 ≤ x ∧ x < e.2 + n
      · exact h3 x hxL
      · rw [h4 x (fun e' he' k' hk' => by
          by_cases hc : x < e'.2 ∨ e'.2 + k' ≤ x
          · exact hc
          · exact absurd ⟨e', he', k', hk', by omega, by omega⟩ hxL)]
        rw [List.mem_cons] at he
        rcases he with rfl | he
        · simp only at hk hx1 hx2
          rw [hlt] at hk
          cases hk
          simp only [fill]
          rw [if_pos ⟨hx1, hx2⟩]
        · exact absurd ⟨e, he, k, by rw [hlk e he]; exact hk, hx1, hx2⟩ hxL
    · intro x hx
      rw [h4 x (fun e he k hk => hx e (by simp [he]) k (by rw [← hlk e he]; exact hk))]
      have := hx (a, t) (by simp) n hlt
      simp only at this
      simp only [fill]
      rw [if_neg (by omega)]

theorem lookup_unique : ∀ {l : List (Nat × Nat)} {t s : Nat}, (t, s) ∈ l → (∀ s', (t, s') ∈ l → s' = s) → List.lookup t l = some s
  | (a, n) :: l, t, s, h, hu => by
    rw [List.lookup_cons]
    by_cases ha : t = a
    · subst ha
      have := hu n (by simp)
      simp [this]
    · have : (t == a) = false := by simpa using ha
      rw [this]
      simp only [List.mem_cons, Prod.mk.injEq, ha, false_and, false_or] at h
      exact lookup_unique h fun s' hs' => hu s' (by simp [hs'])

theorem pairwise_all {α : Type} {R : α → α → Prop} (hs : ∀ x y, R x y → R y x) : ∀ {l : List α}, l.Pairwise R → ∀ {x y : α}, x ∈ l → y ∈ l → x ≠ y → R x y
  | _ :: l, h, x, y, hx, hy, hne => by
    rw [List.pairwise_cons] at h
    rw [List.mem_cons] at hx hy
    rcases hx with rfl | hx
    · rcases hy with rfl | hy
      · exact absurd rfl hne
      · exact h.1 y hy
    · rcases hy with rfl | hy
      · exact hs _ _ (h.1 x hx)
      · exact pairwise_all hs h.2 hx hy hne

theorem New.distinct {st₀ st : State} {B : Blocks} (h : New st₀ st B) : (B.map (·.2.1)).Nodup := by
  have := h.apart
  rw [List.Nodup, List.pairwise_map]
  exact this.imp fun h he => by omega

theorem New.lookup {st₀ st : State} {B : Blocks} (h : New st₀ st B) {b : Nat × Nat × Nat} (hb : b ∈ B) : List.lookup b.2.1 st.live = some b.2.2 := by
  apply lookup_unique
  · rw [h.live]
    simp only [List.mem_append, List.mem_reverse, List.mem_map]
    exact .inl ⟨b, hb, rfl⟩
  · intro s' hs'
    rw [h.live] at hs'
    simp only [List.mem_append, List.mem_reverse, List.mem_map] at hs'
    rcases hs' with ⟨c, hc, he⟩ | hs'
    · simp only [Prod.mk.injEq] at he
      have : c = b := by
        by_cases hcb : c = b
        · exact hcb
        · have := pairwise_all (fun _ _ => Or.symm) h.apart hc hb hcb
          omega
      rw [← he.2, this]
    · have := h.apartLive b hb _ _ hs'
      omega

/-- Releasing the new blocks, in any order, leaves the blocks there were; and memory, if
nothing else was changed. -/
theorem New.release {st₀ st : State} {B : Blocks} (h : New st₀ st B) {each} (he : Each each) {st₂ : State} (hl : st₂.live = st.live) :
    ∃ st', releaseAll (each B.table) st₂ = .ok st' ∧ st'.live = st₀.live ∧ (∀ x, st₀.m x = st₂.m x → st'.m x = st₀.m x) ∧
      (∀ b ∈ B, ∀ x, b.2.1 ≤ x → x < b.2.1 + b.2.2 → st'.m x = none) ∧ (∀ x, (∀ b ∈ B, x < b.2.1 ∨ b.2.1 + b.2.2 ≤ x) → st'.m x = st₂.m x) := by
  have hp := he B.table
  have hmap : B.table.map (·.2) = B.map (·.2.1) := by simp [Blocks.table]
  have hmem : ∀ e, e ∈ each B.table ↔ ∃ b ∈ B, e = (b.1, b.2.1) := by
    intro e
    rw [hp.mem_iff]
    simp only [Blocks.table, List.mem_map]
    exact ⟨fun ⟨b, h1, h2⟩ => ⟨b, h1, h2.symm⟩, fun ⟨b, h1, h2⟩ => ⟨b, h1, h2.symm⟩⟩
  obtain ⟨st', h1, h2, h3, h4⟩ := releaseAll_spec (each B.table) st₂ (by
      rw [(hp.map _).nodup_iff, hmap]
      exact h.distinct) (fun e he => by
      obtain ⟨b, hb, rfl⟩ := (hmem e).mp he
      exact ⟨_, by rw [hl]; exact h.lookup hb⟩)
  have hin : ∀ b ∈ B, ∀ x, b.2.1 ≤ x → x < b.2.1 + b.2.2 → st'.m x = none := by
    intro b hb x hx1 hx2
    exact h3 x ⟨(b.1, b.2.1), (hmem _).mpr ⟨b, hb, rfl⟩, b.2.2, by rw [hl]; exact h.lookup hb, hx1, hx2⟩
  have hout : ∀ x, (∀ b ∈ B, x < b.2.1 ∨ b.2.1 + b.2.2 ≤ x) → st'.m x = st₂.m x := by
    intro x hx
    apply h4
    intro e he n hn
    obtain ⟨b, hb, rfl⟩ := (hmem e).mp he
    rw [hl, h.lookup hb] at hn
    cases hn
    exact hx b hb
  refine ⟨st', h1, ?_, ?_, hin, hout⟩
  · rw [h2, hl, h.live, List.filter_append]
    have e1 : ((B.map fun b => (b.2.1, b.2.2)).reverse.filter fun b => b.1 ∉ (each B.table).map (·.2)) = [] := by
      rw [List.filter_eq_nil_iff]
      intro c hc
      simp only [List.mem_reverse, List.mem_map] at hc
      obtain ⟨b, hb, rfl⟩ := hc
      simp only [decide_not, Bool.not_eq_true', decide_eq_false_iff_not, Classical.not_not, List.mem_map]
      exact ⟨_, (hmem _).mpr ⟨b, hb, rfl⟩, rfl⟩
    have e2 : (st₀.live.filter fun b => b.1 ∉ (each B.table).map (·.2)) = st₀.live := by
      rw [List.filter_eq_self]
      rintro ⟨c, n⟩ hc
      simp only [decide_not, Bool.not_eq_true', decide_eq_false_iff_not, List.mem_map]
      rintro ⟨e, he, rfl⟩
      obtain ⟨b, hb, rfl⟩ := (hmem e).mp he
      have := h.apartLive b hb _ _ hc
      simp only at this
      omega
    rw [e1, e2]
    rfl
  · intro x hx
    by_cases hxB : ∃ b ∈ B, b.2.1 ≤ x ∧ x < b.2.1 + b.2.2
    · obtain ⟨b, hb, h1, h2⟩ := hxB
      rw [hin b hb x h1 h2]
      have := h.fresh b hb (x - b.2.1) (by omega)
      rw [show b.2.1 + (x - b.2.1) = x by omega] at this
      exact this.symm
    · rw [hout x (fun b hb => by
        by_cases hc : x < b.2.1 ∨ b.2.1 + b.2.2 ≤ x
        · exact hc
        · exact absurd ⟨b, hb, by omega, by omega⟩ hxB), hx]

/-- Releasing the new blocks at once undoes the allocation. -/
theorem New.undo {st₀ st : State} {B : Blocks} (h : New st₀ st B) {each} (he : Each each) : releaseAll (each B.table) st = .ok st₀ := by
  obtain ⟨st', h1, h2, _, h4, h5⟩ := h.release he (st₂ := st) rfl
  rw [h1]
  congr 1
  have hm : st'.m = st₀.m := by
    funext x
    by_cases hxB : ∃ b ∈ B, b.2.1 ≤ x ∧ x < b.2.1 + b.2.2
    · obtain ⟨b, hb, h1, h2⟩ := hxB
      rw [h4 b hb x h1 h2]
      have := h.fresh b hb (x - b.2.1) (by omega)
      rw [show b.2.1 + (x - b.2.1) = x by omega] at this
      exact this.symm
    · have hx : ∀ b ∈ B, x < b.2.1 ∨ b.2.1 + b.2.2 ≤ x := fun b hb => by
        by_cases hc : x < b.2.1 ∨ b.2.1 + b.2.2 ≤ x
        · exact hc
        · exact absurd ⟨b, hb, by omega, by omega⟩ hxB
      rw [h5 x hx, h.other x hx]
  cases st'
  cases st₀
  simp only at h2 hm
  rw [h2, hm]

end Verif.DeepCopy
