import Verif.Deep.Lemmas
/-
Helper lemmas for `Verif.Deep.Props`: the hash map of addresses and the sweep over it.
-/
namespace Verif.Deep
open Verif Verif.Entry Verif.Entry.Spec Verif.Value Verif.Value.Spec Verif.Handlers Verif.ValueString Verif.ValueString.Spec Spec

abbrev Table := List (Nat × Nat × Nat)

def Keys (map : Table) : Prop := (map.map (·.1)).Nodup

theorem Keys.tail {x : Nat × Nat × Nat} {map : Table} (h : Keys (x :: map)) : Keys map := by
  unfold Keys at *
  simp only [List.map_cons, List.nodup_cons] at h
  exact h.2

theorem Keys.head {x : Nat × Nat × Nat} {map : Table} (h : Keys (x :: map)) : ∀ y ∈ map, y.1 ≠ x.1 := by
  unfold Keys at *
  simp only [List.map_cons, List.nodup_cons] at h
  intro y hy he
  exact h.1 (List.mem_map.mpr ⟨y, hy, he⟩)

theorem lookup_iff : ∀ {map : Table} (_ : Keys map) {a : Nat} {e : Nat × Nat}, lookup a map = some e ↔ (a, e) ∈ map
  | [], _, a, e => by simp [lookup]
  | (b, f) :: map, h, a, e => by
    have ih := lookup_iff (map := map) h.tail (a := a) (e := e)
    unfold lookup at *
    by_cases hb : a = b
    · subst hb
      rw [List.lookup_cons_self]
      constructor
      · intro h; cases h; simp
      · intro h'
        rcases List.mem_cons.mp h' with h' | h'
        · cases h'; rfl
        · exact absurd rfl (h.head (a, e) h')
    · rw [List.lookup_cons, show (a == b) = false by simpa using hb]
      simp only [ih, List.mem_cons, Prod.mk.injEq]
      constructor
      · exact .inr
      · rintro (⟨h, _⟩ | h)
        · exact absurd h hb
        · exact h

theorem put_mem : ∀ {map : Table} (_ : Keys map) (a : Nat) (e : Nat × Nat) (x : Nat × Nat × Nat), x ∈ put a e map ↔ x = (a, e) ∨ (x ∈ map ∧ x.1 ≠ a)
  | [], _, a, e, x => by simp [put]
  | (b, f) :: map, h, a, e, x => by
    have ih := put_mem (map := map) h.tail a e x
    unfold put
    by_cases hb : b = a
    · subst hb
      simp only [if_true, List.mem_cons]
      constructor
      · rintro (h1 | h1)
        · exact .inl h1
        · exact .inr ⟨.inr h1, h.head _ h1⟩
      · rintro (h1 | ⟨h1 | h1, h2⟩)
        · exact .inl h1
        · subst h1; exact absurd rfl h2
        · exact .inr h1
    · simp only [hb, if_false, List.mem_cons, ih]
      constructor
      · rintro (h1 | h1 | h1)
        · subst h1; exact .inr ⟨.inl rfl, hb⟩
        · exact .inl h1
        · exact .inr ⟨.inr h1.1, h1.2⟩
      · rintro (h1 | ⟨h1 | h1, h2⟩)
        · exact .inr (.inl h1)
        · exact .inl h1
        · exact .inr (.inr ⟨h1, h2⟩)

theorem put_keys : ∀ {map : Table} (_ : Keys map) (a : Nat) (e : Nat × Nat), Keys (put a e map)
  | [], _, a, e => by simp [put, Keys]
  | (b, f) :: map, h, a, e => by
    have ih := put_keys (map := map) h.tail a e
    unfold put
    by_cases hb : b = a
    · subst hb
      rw [if_pos rfl]
      exact h
    · simp only [hb, if_false]
      unfold Keys
      simp only [List.map_cons, List.nodup_cons]
      refine ⟨fun hm => ?_, ih⟩
      obtain ⟨y, hy, he⟩ := List.mem_map.mp hm
      rcases (put_mem h.tail a e y).mp hy with h1 | h1
      · subst h1; exact hb he.symm
      · exact h.head _ h1.1 he

/-- The hash map of the targets `ts`: for every address one of the largest targets there. -/
structure Table.Of (ts : List Node) (map : Table) : Prop where
  keys : Keys map
  sound : ∀ a id n, (a, id, n) ∈ map → ∃ t ∈ ts, t.val.addr = a ∧ t.id = id ∧ t.size = n
  complete : ∀ t ∈ ts, ∃ id n, (t.val.addr, id, n) ∈ map ∧ t.size ≤ n

theorem Table.Of.reg {ts : List Node} {map : Table} (h : Table.Of ts map) (k : Node) : Table.Of (ts ++ [k]) (reg map k) := by
  have hput : (∀ id n, (k.val.addr, id, n) ∈ map → n ≤ k.size) → Table.Of (ts ++ [k]) (put k.val.addr (k.id, k.size) map) := by
    intro hle
    refine ⟨put_keys h.keys _ _, ?_, ?_⟩
    · intro a id n hm
      rcases (put_mem h.keys _ _ _).mp hm with h1 | ⟨h1, _⟩
      · cases h1
        exact ⟨k, by simp, rfl, rfl, rfl⟩
      · obtain ⟨t, ht, h2⟩ := h.sound _ _ _ h1
        exact ⟨t, by simp [ht], h2⟩
    · intro t ht
      rcases List.mem_append.mp ht with ht | ht
      · obtain ⟨id, n, h1, h2⟩ := h.complete t ht
        by_cases ha : t.val.addr = k.val.addr
        · rw [ha] at h1 ⊢
          exact ⟨k.id, k.size, (put_mem h.keys _ _ _).mpr (.inl rfl), Nat.le_trans h2 (hle _ _ h1)⟩
        · exact ⟨id, n, (put_mem h.keys _ _ _).mpr (.inr ⟨h1, ha⟩), h2⟩
      · simp at ht
        subst ht
        exact ⟨t.id, t.size, (put_mem h.keys _ _ _).mpr (.inl rfl), Nat.le_refl _⟩
  unfold Deep.reg
  split
  · next hn =>
    apply hput
    intro id n hm
    rw [(lookup_iff h.keys).mpr hm] at hn
    cases hn
  · next id size hl =>
    have hmem := (lookup_iff h.keys).mp hl
    split
    · next hgt =>
      apply hput
      intro id' n hm
      rw [(lookup_iff h.keys).mpr hm] at hl
      cases hl
      omega
    · next hle =>
      refine ⟨h.keys, ?_, ?_⟩
      · intro a id n hm
        obtain ⟨t, ht, h2⟩ := h.sound _ _ _ hm
        exact ⟨t, by simp [ht], h2⟩
      · intro t ht
        rcases List.mem_append.mp ht with ht | ht
        · exact h.complete t ht
        · simp at ht
          subst ht
          exact ⟨id, size, hmem, by omega⟩

theorem Table.Of.foldl : ∀ (us : List Node) {ts : List Node} {map : Table}, Table.Of ts map → Table.Of (ts ++ us) (us.foldl Deep.reg map)
  | [], ts, map, h => by simpa using h
  | u :: us, ts, map, h => by
    have := Table.Of.foldl us (h.reg u)
    simpa using this

theorem Table.Of.nil : Table.Of [] [] := ⟨by simp [Keys], by simp, by simp⟩

theorem table_of (ts : List Node) : Table.Of ts (ts.foldl Deep.reg []) := by
  have := Table.Of.foldl ts Table.Of.nil
  simpa using this

/-! ### Sorting -/

theorem insert_perm (a : Nat) : ∀ l : List Nat, (insert a l).Perm (a :: l)
  | [] => .refl _
  | b :: l => by
    unfold insert
    split
    · exact .refl _
    · exact ((insert_perm a l).cons b).trans (.swap a b l)

theorem sort_perm : ∀ l : List Nat, (sort l).Perm l
  | [] => .refl _
  | a :: l => (insert_perm a (sort l)).trans ((sort_perm l).cons a)

theorem insert_sorted (a : Nat) : ∀ {l : List Nat}, l.Pairwise (· ≤ ·) → (insert a l).Pairwise (· ≤ ·)
  | [], _ => by simp [insert]
  | b :: l, h => by
    unfold insert
    rw [List.pairwise_cons] at h
    split
    · next hab =>
      rw [List.pairwise_cons, List.pairwise_cons]
      refine ⟨fun c hc => ?_, h⟩
      rcases List.mem_cons.mp hc with rfl | hc
      · exact hab
      · exact Nat.le_trans hab (h.1 c hc)
    · next hab =>
      rw [List.pairwise_cons]
      refine ⟨fun c hc => ?_, insert_sorted a h.2⟩
      rcases List.mem_cons.mp ((insert_perm a l).mem_iff.mp hc) with rfl | hc
      · omega
      · exact h.1 c hc

theorem sort_sorted : ∀ l : List Nat, (sort l).Pairwise (· ≤ ·)
  | [] => .nil
  | a :: l => insert_sorted a (sort_sorted l)

theorem sort_strict {l : List Nat} (h : l.Nodup) : (sort l).Pairwise (· < ·) := by
  have h1 := sort_sorted l
  have h2 : (sort l).Nodup := (sort_perm l).nodup_iff.mpr h
  exact (h1.and h2).imp fun h => Nat.lt_of_le_of_ne h.1 h.2

/-! ### The sweep -/

/-- `b` with size `s` is the block found before, or one of `S`. -/
def BlockIn (map : Table) (main : Option (Nat × Nat)) (S : List Nat) (b s : Nat) : Prop :=
  main = some (b, s) ∨ b ∈ S ∧ ∃ j, lookup b map = some (j, s)

/-- What the sweep over `as` does: `S` are the starts of blocks. -/
structure Swept (map : Table) (main : Option (Nat × Nat)) (as S : List Nat) (offs : List (Nat × Nat)) : Prop where
  sub : ∀ a ∈ S, a ∈ as ∧ ∃ j n, lookup a map = some (j, n) ∧ 0 < n
  apart : ∀ b s, BlockIn map main S b s → ∀ a ∈ S, b < a → b + s ≤ a
  cover : ∀ a ∈ as, a ∉ S → ∀ j n, lookup a map = some (j, n) → 0 < n → ∃ b s, BlockIn map main S b s ∧ b < a ∧ a < b + s
  offs : ∀ i o, (i, o) ∈ offs ↔ ∃ a n b s, a ∈ as ∧ a ∉ S ∧ lookup a map = some (i, n) ∧ 0 < n ∧ BlockIn map main S b s ∧ b < a ∧ a < b + s ∧ o = a - b

theorem sweep_swept {map : Table} : ∀ (as : List Nat) (main : Option (Nat × Nat)), as.Pairwise (· < ·) → (∀ a ∈ as, ∃ e, lookup a map = some e) →
    (∀ b s, main = some (b, s) → ∀ a ∈ as, b < a) → ∃ S offs, sweep map main as = .ok offs ∧ Swept map main as S offs
  | [], main, _, _, _ => by
    refine ⟨[], [], rfl, ⟨?_, ?_, ?_, ?_⟩⟩ <;> simp
  | a :: as, main, hsort, hall, hmain => by
    rw [List.pairwise_cons] at hsort
    obtain ⟨⟨i, n⟩, hl⟩ := hall a (by simp)
    have hall' : ∀ c ∈ as, ∃ e, lookup c map = some e := fun c hc => hall c (by simp [hc])
    have hmain' : ∀ b s, main = some (b, s) → ∀ c ∈ as, b < c := fun b s h c hc => hmain b s h c (by simp [hc])
    have hni : ∀ S : List Nat, (∀ c ∈ S, c ∈ as) → a ∉ S := by
      intro S hS hm
      have := hsort.1 a (hS a hm)
      omega
    -- skipped: `a` is no start and has size 0
    by_cases hn : n = 0
    · subst hn
      obtain ⟨S, offs, h1, h2⟩ := sweep_swept as main hsort.2 hall' hmain'
      refine ⟨S, offs, by simp [sweep, hl, h1], ⟨?_, h2.apart, ?_, ?_⟩⟩
      · intro c hc
        obtain ⟨h3, h4⟩ := h2.sub c hc
        exact ⟨by simp [h3], h4⟩
      · intro c hc hcS j n hc' hn
        rcases List.mem_cons.mp hc with rfl | hc
        · rw [hl] at hc'; cases hc'; omega
        · exact h2.cover c hc hcS j n hc' hn
      · intro j o
        rw [h2.offs]
        constructor
        · rintro ⟨c, n, b, s, h3, h4⟩
          exact ⟨c, n, b, s, by simp [h3], h4⟩
        · rintro ⟨c, n, b, s, h3, h4, h5, h6, h7⟩
          rcases List.mem_cons.mp h3 with rfl | h3
          · rw [hl] at h5; cases h5; omega
          · exact ⟨c, n, b, s, h3, h4, h5, h6, h7⟩
    · -- a new block
      have hnew : (∀ b s, main = some (b, s) → b + s ≤ a) → sweep map main (a :: as) = sweep map (some (a, n)) as →
          ∃ S offs, sweep map main (a :: as) = .ok offs ∧ Swept map main (a :: as) S offs := by
        intro hfar heq
        obtain ⟨S, offs, h1, h2⟩ := sweep_swept as (some (a, n)) hsort.2 hall' (by
          rintro b s h c hc
          cases h
          exact hsort.1 c hc)
        have haS : a ∉ S := hni S fun c hc => (h2.sub c hc).1
        have hiff : ∀ b s, BlockIn map (some (a, n)) S b s → BlockIn map main (a :: S) b s := by
          rintro b s (h | ⟨h, j, h'⟩)
          · cases h; exact .inr ⟨by simp, i, hl⟩
          · exact .inr ⟨by simp [h], j, h'⟩
        have hinv : ∀ b s, BlockIn map main (a :: S) b s → main = some (b, s) ∨ BlockIn map (some (a, n)) S b s := by
          rintro b s (h | ⟨h, j, h'⟩)
          · exact .inl h
          · rcases List.mem_cons.mp h with rfl | h
            · rw [hl] at h'; cases h'; exact .inr (.inl rfl)
            · exact .inr (.inr ⟨h, j, h'⟩)
        refine ⟨a :: S, offs, by rw [heq, h1], ⟨?_, ?_, ?_, ?_⟩⟩
        · intro c hc
          rcases List.mem_cons.mp hc with rfl | hc
          · exact ⟨by simp, i, n, hl, by omega⟩
          · obtain ⟨h3, h4⟩ := h2.sub c hc
            exact ⟨by simp [h3], h4⟩
        · intro b s hb c hc hlt
          rcases hinv b s hb with hb' | hb'
          · rcases List.mem_cons.mp hc with rfl | hc
            · exact hfar b s hb'
            · have := hsort.1 c (h2.sub c hc).1
              have := hfar b s hb'
              omega
          · rcases List.mem_cons.mp hc with rfl | hc
            · rcases hb' with hb' | ⟨hb', _⟩
              · cases hb'; omega
              · have := hsort.1 b (h2.sub b hb').1
                omega
            · exact h2.apart b s hb' c hc hlt
        · intro c hc hcS j k hc' hk
          rcases List.mem_cons.mp hc with rfl | hc
          · exact absurd (by simp) hcS
          · obtain ⟨b, s, h3, h4⟩ := h2.cover c hc (fun h => hcS (by simp [h])) j k hc' hk
            exact ⟨b, s, hiff b s h3, h4⟩
        · intro j o
          rw [h2.offs]
          constructor
          · rintro ⟨c, k, b, s, h3, h4, h5, h6, h7, h8⟩
            refine ⟨c, k, b, s, by simp [h3], ?_, h5, h6, hiff b s h7, h8⟩
            intro hm
            rcases List.mem_cons.mp hm with rfl | hm
            · exact absurd (hsort.1 c h3) (by omega)
            · exact h4 hm
          · rintro ⟨c, k, b, s, h3, h4, h5, h6, h7, h8, h9, h10⟩
            rcases List.mem_cons.mp h3 with rfl | h3
            · exact absurd (by simp) h4
            · refine ⟨c, k, b, s, h3, fun h => h4 (by simp [h]), h5, h6, ?_, h8, h9, h10⟩
              rcases hinv b s h7 with h | h
              · have := hfar b s h
                have := hsort.1 c h3
                omega
              · exact h
      cases hm : main with
      | none =>
        rw [hm] at hnew
        exact hnew (by simp) (by simp [sweep, hl, hn])
      | some bs =>
        obtain ⟨b, s⟩ := bs
        rw [hm] at hnew
        by_cases hle : b + s ≤ a
        · exact hnew (by rintro _ _ ⟨⟩; exact hle) (by simp [sweep, hl, hn, hle])
        · -- inside the block before
          subst hm
          obtain ⟨S, offs, h1, h2⟩ := sweep_swept as (some (b, s)) hsort.2 hall' hmain'
          have haS : a ∉ S := hni S fun c hc => (h2.sub c hc).1
          have hba := hmain b s rfl a (by simp)
          refine ⟨S, (i, a - b) :: offs, by simp [sweep, hl, hn, hle, h1], ⟨?_, h2.apart, ?_, ?_⟩⟩
          · intro c hc
            obtain ⟨h3, h4⟩ := h2.sub c hc
            exact ⟨by simp [h3], h4⟩
          · intro c hc hcS j k hc' hk
            rcases List.mem_cons.mp hc with rfl | hc
            · exact ⟨b, s, .inl rfl, hba, by omega⟩
            · exact h2.cover c hc hcS j k hc' hk
          · intro j o
            rw [List.mem_cons, h2.offs]
            constructor
            · rintro (h | ⟨c, k, b', s', h3, h4⟩)
              · cases h
                exact ⟨a, n, b, s, by simp, haS, hl, by omega, .inl rfl, hba, by omega, rfl⟩
              · exact ⟨c, k, b', s', by simp [h3], h4⟩
            · rintro ⟨c, k, b', s', h3, h4, h5, h6, h7, h8, h9, h10⟩
              rcases List.mem_cons.mp h3 with rfl | h3
              · left
                rw [hl] at h5
                cases h5
                rcases h7 with h7 | ⟨h7, _⟩
                · cases h7; rw [h10]
                · have := hsort.1 b' (h2.sub b' h7).1
                  omega
              · exact .inr ⟨c, k, b', s', h3, h4, h5, h6, h7, h8, h9, h10⟩

/-- The starts of blocks of a map, and the offsets. -/
structure Blocks (map : Table) (S : List Nat) (offs : List (Nat × Nat)) : Prop where
  sub : ∀ a ∈ S, ∃ j n, (a, j, n) ∈ map ∧ 0 < n
  apart : ∀ b ∈ S, ∀ j s, (b, j, s) ∈ map → ∀ a ∈ S, b < a → b + s ≤ a
  cover : ∀ a j n, (a, j, n) ∈ map → 0 < n → a ∉ S → ∃ b i s, b ∈ S ∧ (b, i, s) ∈ map ∧ b < a ∧ a < b + s
  offs : ∀ i o, (i, o) ∈ offs ↔ ∃ a n b j s, (a, i, n) ∈ map ∧ 0 < n ∧ a ∉ S ∧ b ∈ S ∧ (b, j, s) ∈ map ∧ b < a ∧ a < b + s ∧ o = a - b

theorem identify_blocks {map : Table} (hk : Keys map) {order : Table → Table} (ho : Order order) : ∃ S offs, identify order map = .ok offs ∧ Blocks map S offs := by
  have hperm : ((order map).map (·.1)).Perm (map.map (·.1)) := (ho map).map _
  have hmem : ∀ a, a ∈ sort ((order map).map (·.1)) ↔ ∃ e, (a, e) ∈ map := by
    intro a
    rw [(sort_perm _).mem_iff, hperm.mem_iff, List.mem_map]
    constructor
    · rintro ⟨⟨b, e⟩, h, rfl⟩; exact ⟨e, h⟩
    · rintro ⟨e, h⟩; exact ⟨_, h, rfl⟩
  obtain ⟨S, offs, h1, h2⟩ := sweep_swept (map := map) (sort ((order map).map (·.1))) none (sort_strict (hperm.nodup_iff.mpr hk))
    (fun a ha => by
      obtain ⟨e, he⟩ := (hmem a).mp ha
      exact ⟨e, (lookup_iff hk).mpr he⟩) (by simp)
  refine ⟨S, offs, h1, ⟨?_, ?_, ?_, ?_⟩⟩
  · intro a ha
    obtain ⟨_, j, n, h3, h4⟩ := h2.sub a ha
    exact ⟨j, n, (lookup_iff hk).mp h3, h4⟩
  · intro b hb j s hm a ha
    exact h2.apart b s (.inr ⟨hb, j, (lookup_iff hk).mpr hm⟩) a ha
  · intro a j n hm hn ha
    obtain ⟨b, s, h3 | ⟨h3, i, h4⟩, h5⟩ := h2.cover a ((hmem a).mpr ⟨_, hm⟩) ha j n ((lookup_iff hk).mpr hm) hn
    · cases h3
    · exact ⟨b, i, s, h3, (lookup_iff hk).mp h4, h5⟩
  · intro i o
    rw [h2.offs]
    constructor
    · rintro ⟨a, n, b, s, h3, h4, h5, h6, h7 | ⟨h7, j, h8⟩, h9⟩
      · cases h7
      · exact ⟨a, n, b, j, s, (lookup_iff hk).mp h5, h6, h4, h7, (lookup_iff hk).mp h8, h9⟩
    · rintro ⟨a, n, b, j, s, h3, h4, h5, h6, h7, h8⟩
      exact ⟨a, n, b, s, (hmem a).mpr ⟨_, h3⟩, h5, (lookup_iff hk).mpr h3, h4, .inr ⟨h6, j, (lookup_iff hk).mpr h7⟩, h8⟩

/-- The entries of different addresses are different. -/
def Ids (map : Table) : Prop := ∀ a b i n k, (a, i, n) ∈ map → (b, i, k) ∈ map → a = b

theorem keys_unique {map : Table} (h : Keys map) {a : Nat} {e f : Nat × Nat} (h1 : (a, e) ∈ map) (h2 : (a, f) ∈ map) : e = f := by
  rw [← lookup_iff h] at h1 h2
  rw [h1] at h2
  cases h2
  rfl

theorem lookup_mem {i o : Nat} : ∀ {offs : List (Nat × Nat)}, List.lookup i offs = some o → (i, o) ∈ offs
  | [], h => by cases h
  | (j, p) :: offs, h => by
    rw [List.lookup_cons] at h
    split at h
    · next hj =>
      cases h
      have : i = j := by simpa using hj
      subst this
      simp
    · exact List.mem_cons_of_mem _ (lookup_mem h)

theorem lookup_none {i : Nat} : ∀ {offs : List (Nat × Nat)}, List.lookup i offs = none → ∀ o, (i, o) ∉ offs
  | [], _, o => by simp
  | (j, p) :: offs, h, o => by
    rw [List.lookup_cons] at h
    split at h
    · cases h
    · next hj =>
      intro hm
      rcases List.mem_cons.mp hm with hm | hm
      · cases hm
        simp at hj
      · exact lookup_none h o hm

/-- The offset of an entry: 0 for a start, and for an entry of size 0; else the distance from
the start of the block it lies in. -/
theorem offset_of {M : Map} {S : List Nat} (hk : Keys M.map) (hi : Ids M.map) (h : Blocks M.map S M.offsets) {a i n : Nat} (hm : (a, i, n) ∈ M.map) :
    ((a ∈ S ∨ n = 0) ∧ M.offset i = 0) ∨ (a ∉ S ∧ 0 < n ∧ ∃ b j s, b ∈ S ∧ (b, j, s) ∈ M.map ∧ b < a ∧ a < b + s ∧ M.offset i = a - b) := by
  cases hl : List.lookup i M.offsets with
  | none =>
    left
    refine ⟨?_, by simp [Map.offset, hl]⟩
    by_cases ha : a ∈ S
    · exact .inl ha
    · right
      by_cases hn : n = 0
      · exact hn
      · exfalso
        obtain ⟨b, j, s, h1, h2, h3, h4⟩ := h.cover a i n hm (by omega) ha
        exact lookup_none hl (a - b) ((h.offs i _).mpr ⟨a, n, b, j, s, hm, by omega, ha, h1, h2, h3, h4, rfl⟩)
  | some o =>
    right
    obtain ⟨a', n', b, j, s, h1, h2, h3, h4, h5, h6, h7, rfl⟩ := (h.offs i o).mp (lookup_mem hl)
    obtain rfl := hi _ _ _ _ _ hm h1
    have := keys_unique hk hm h1
    cases this
    exact ⟨h3, h2, b, j, s, h4, h5, h6, h7, by simp [Map.offset, hl]⟩

/-- Starts are determined by addresses and sizes. -/
theorem starts_unique {map map' : Table} {S S' : List Nat} {offs offs'} (hk : Keys map) (hk' : Keys map') (h : Blocks map S offs) (h' : Blocks map' S' offs')
    (hs : ∀ a n, (∃ j, (a, j, n) ∈ map) ↔ ∃ j, (a, j, n) ∈ map') : ∀ a, a ∈ S ↔ a ∈ S' := by
  -- one direction
  have key : ∀ {map map' : Table} {S S' : List Nat} {offs offs'}, Keys map → Blocks map S offs → Blocks map' S' offs' →
      (∀ a n, (∃ j, (a, j, n) ∈ map) ↔ ∃ j, (a, j, n) ∈ map') → ∀ a, (∀ b < a, b ∈ S ↔ b ∈ S') → a ∈ S → a ∈ S' := by
    intro map map' S S' offs offs' hk h h' hs a ih ha
    apply Classical.byContradiction
    intro hna
    obtain ⟨j, n, h1, h2⟩ := h.sub a ha
    obtain ⟨j', h1'⟩ := (hs a n).mp ⟨j, h1⟩
    obtain ⟨b, i, s, h3, h4, h5, h6⟩ := h'.cover a j' n h1' h2 hna
    obtain ⟨i', h4'⟩ := (hs b s).mpr ⟨i, h4⟩
    have := h.apart b ((ih b h5).mpr h3) i' s h4' a ha h5
    omega
  intro a
  induction a using Nat.strongRecOn with
  | ind a ih => exact ⟨key hk h h' hs a ih, key hk' h' h (fun a n => (hs a n).symm) a (fun b hb => (ih b hb).symm)⟩

/-! ### Entries -/

mutual
theorem targets_ids : ∀ (k : Node) (i : Nat), ((targets k).map Node.id).count i ≤ (idsAll k.kids).count i
  | .mk j v n l d ks, i => by
    have h1 := targetsAll_ids ks i
    simp only [targets, List.map_append, List.count_append, Node.kids]
    cases d
    · simpa using targetsAll_le ks i
    · simpa using h1
theorem targetsAll_ids : ∀ (ks : List Node) (i : Nat), ((targetsAll ks).map Node.id).count i + (ks.map Node.id).count i ≤ (idsAll ks).count i
  | [], i => by simp [targetsAll, idsAll]
  | .mk j v n l d ks :: ks', i => by
    have h1 := targets_ids (.mk j v n l d ks) i
    have h2 := targetsAll_ids ks' i
    simp only [Node.kids] at h1
    simp only [targetsAll, idsAll, ids, List.map_append, List.count_append, List.map_cons, Node.id, List.count_cons] at *
    omega
theorem targetsAll_le : ∀ (ks : List Node) (i : Nat), ((targetsAll ks).map Node.id).count i ≤ (idsAll ks).count i
  | [], i => by simp [targetsAll, idsAll]
  | .mk j v n l d ks :: ks', i => by
    have h1 := targets_ids (.mk j v n l d ks) i
    have h2 := targetsAll_le ks' i
    simp only [Node.kids] at h1
    simp only [targetsAll, idsAll, ids, List.map_append, List.count_append, List.count_cons] at *
    omega
end

theorem targets_nodup {k : Node} (h : (ids k).Nodup) : ((targets k).map Node.id).Nodup := by
  rw [List.nodup_iff_count] at *
  intro i
  have h1 := targets_ids k i
  have h2 := h i
  cases k with
  | mk j v n l d ks =>
    simp only [ids, List.count_cons, Node.kids] at h1 h2
    omega

theorem nodup_map_inj {α : Type} {f : α → Nat} : ∀ {l : List α}, (l.map f).Nodup → ∀ {x y : α}, x ∈ l → y ∈ l → f x = f y → x = y
  | [], _, x, y, hx, _, _ => by simp at hx
  | a :: l, h, x, y, hx, hy, he => by
    simp only [List.map_cons, List.nodup_cons] at h
    rcases List.mem_cons.mp hx with h1 | h1 <;> rcases List.mem_cons.mp hy with h2 | h2
    · rw [h1, h2]
    · subst h1; exact absurd (List.mem_map.mpr ⟨y, h2, he.symm⟩) h.1
    · subst h2; exact absurd (List.mem_map.mpr ⟨x, h1, he⟩) h.1
    · exact nodup_map_inj h.2 h1 h2 he

theorem ids_of {k : Node} {map : Table} (hn : (ids k).Nodup) (h : Table.Of (targets k) map) : Ids map := by
  intro a b i n s h1 h2
  obtain ⟨t, ht, h3, h4, _⟩ := h.sound _ _ _ h1
  obtain ⟨u, hu, h5, h6, _⟩ := h.sound _ _ _ h2
  have := nodup_map_inj (targets_nodup hn) ht hu (by rw [h4, h6])
  subst this
  rw [← h3, ← h5]

end Verif.Deep
