import Verif.DeepCopy.Image
/-
The map of the copy.
-/
namespace Verif.DeepCopy
open Verif Verif.Entry Verif.Entry.Spec Verif.Value Verif.Value.Spec Verif.Handlers Verif.ValueString.Spec Verif.Deep.Spec Verif.DeepCopy.Spec
open Verif.Bitfield.Spec (Field)
open Verif.Deep (Node Map Table Keys Ids number numberAll reg lookup put identify)

/-! ### The map is made from the tree -/

/-- The table of the tree. -/
def tableOf (k : Node) : Table := (targets k).foldl reg []

theorem memoryMap_tree {env : Deep.Env} {order : Table → Table} {mode : Deep.Mode} {db : Db} {m : Mem} (hs : Sane db) (hin : Interned env.vs db) (hh : Honest env.vs db)
    (ho : Order order) (hd : mode.dag = true) {k : Node} (ht : Tree env mode db m [] k) :
    ∃ offs, identify order (tableOf (number k 0).1) = .ok offs ∧
      Deep.memoryMap env order mode db m (some k.val) = .ok (some ⟨(number k 0).1, tableOf (number k 0).1, offs⟩) := by
  obtain ⟨st, h1, _, _⟩ := Deep.walk_number hs hin hh ht ⟨0, [], []⟩ rfl
  have hmap := (Deep.walk_sound hs hin hh h1).2.2.map
  simp only [hd, if_true] at hmap
  obtain ⟨S, offs, h3, _⟩ := Deep.identify_blocks (Deep.table_of (targets (number k 0).1)).keys ho
  have hmap' : st.map = tableOf (number k 0).1 := hmap
  refine ⟨offs, h3, ?_⟩
  simp only [Deep.memoryMap, h1, Outcome.bind_ok, hmap']
  rw [show identify order (tableOf (number k 0).1) = .ok offs from h3]
  rfl

theorem number_val (k : Node) (i : Nat) : (number k i).1.val = k.val := by cases k; simp [number, Node.val]

mutual
theorem number_image (W : Nat → Nat) : ∀ (k : Node) (w : Value) (i : Nat), number (image W k w) i = (image W (number k i).1 w, (number k i).2)
  | .mk j v s l d ks, w, i => by
    simp only [number, image, numberAll_image W v w d ks i]
theorem numberAll_image (W : Nat → Nat) (v w : Value) (d : Bool) : ∀ (ks : List Node) (i : Nat),
    numberAll (imageAll W v w d ks) i = (imageAll W v w d (numberAll ks i).1, (numberAll ks i).2)
  | [], i => rfl
  | k :: ks, i => by
    simp only [numberAll, imageAll, number_image W k _ i, numberAll_image W v w d ks, number_val]
end

/-! ### The table of the image -/

/-- What the table keeps of an object. -/
def key (t : Node) : Nat × Nat × Nat := (t.val.addr, t.id, t.size)

/-- An entry for the copy. -/
def shift (W : Nat → Nat) (e : Nat × Nat × Nat) : Nat × Nat × Nat := (W e.1, e.2)

mutual
theorem targets_image (W : Nat → Nat) : ∀ (k : Node) (w : Value), (targets (image W k w)).map key = (targets k).map (fun t => shift W (key t))
  | .mk j v s l d ks, w => by
    simp only [targets, image, List.map_append, targetsAll_image W v w d ks]
    congr 1
    cases d with
    | false => rfl
    | true =>
      simp only [if_true, imageAll_map, List.map_map]
      apply List.map_congr_left
      intro k _
      simp [key, shift, image_val, image_id, image_size, spot]
theorem targetsAll_image (W : Nat → Nat) (v w : Value) (d : Bool) : ∀ ks : List Node, (targetsAll (imageAll W v w d ks)).map key = (targetsAll ks).map (fun t => shift W (key t))
  | [] => rfl
  | k :: ks => by simp only [targetsAll, imageAll, List.map_append, targets_image W k, targetsAll_image W v w d ks]
end

/-- `reg` in terms of what the table keeps. -/
def regKey (map : Table) (e : Nat × Nat × Nat) : Table :=
  match lookup e.1 map with
  | none => put e.1 e.2 map
  | some (_, size) => if e.2.2 > size then put e.1 e.2 map else map

theorem foldl_reg (ts : List Node) (map : Table) : ts.foldl reg map = (ts.map key).foldl regKey map := by
  rw [List.foldl_map]
  rfl

theorem lookup_shift {W : Nat → Nat} {a : Nat} : ∀ {map : Table}, (∀ e ∈ map, W e.1 = W a → e.1 = a) → lookup (W a) (map.map (shift W)) = lookup a map
  | [], _ => rfl
  | (b, e) :: map, h => by
    unfold lookup
    rw [List.map_cons]
    simp only [shift, List.lookup_cons]
    have ih := lookup_shift (W := W) (a := a) (map := map) fun e he => h e (List.mem_cons_of_mem _ he)
    unfold lookup at ih
    by_cases hb : a = b
    · subst hb; simp
    · have : W a ≠ W b := fun hw => hb (h (b, e) (by simp) hw.symm).symm
      have e1 : (W a == W b) = false := by simpa using this
      have e2 : (a == b) = false := by simpa using hb
      simp only [e1, e2]
      exact ih

theorem put_shift {W : Nat → Nat} {a : Nat} {f : Nat × Nat} : ∀ {map : Table}, (∀ e ∈ map, W e.1 = W a → e.1 = a) → put (W a) f (map.map (shift W)) = (put a f map).map (shift W)
  | [], _ => rfl
  | (b, e) :: map, h => by
    rw [List.map_cons]
    simp only [shift, put]
    have ih := put_shift (W := W) (a := a) (f := f) (map := map) fun e he => h e (List.mem_cons_of_mem _ he)
    by_cases hb : b = a
    · subst hb; simp [shift]
    · have : W b ≠ W a := fun hw => hb (h (b, e) (by simp) hw)
      simp only [this, hb, if_false, ih, List.map_cons, shift]

theorem put_addr {a : Nat} {f : Nat × Nat} : ∀ {map : Table} {e : Nat × Nat × Nat}, e ∈ put a f map → e.1 = a ∨ ∃ e' ∈ map, e'.1 = e.1
  | [], e, h => by simp [put] at h; exact .inl (by rw [h])
  | (b, g) :: map, e, h => by
    simp only [put] at h
    split at h
    · rw [List.mem_cons] at h
      rcases h with rfl | h
      · exact .inl rfl
      · exact .inr ⟨e, List.mem_cons_of_mem _ h, rfl⟩
    · rw [List.mem_cons] at h
      rcases h with rfl | h
      · exact .inr ⟨_, List.mem_cons_self .., rfl⟩
      · rcases put_addr h with h | ⟨e', h1, h2⟩
        · exact .inl h
        · exact .inr ⟨e', List.mem_cons_of_mem _ h1, h2⟩

theorem regKey_addr {map : Table} {e x : Nat × Nat × Nat} (h : x ∈ regKey map e) : x.1 = e.1 ∨ ∃ e' ∈ map, e'.1 = x.1 := by
  unfold regKey at h
  split at h
  · exact put_addr h
  · split at h
    · exact put_addr h
    · exact .inr ⟨x, h, rfl⟩

theorem regKey_shift {W : Nat → Nat} {map : Table} {e : Nat × Nat × Nat} (h : ∀ x ∈ map, W x.1 = W e.1 → x.1 = e.1) :
    regKey (map.map (shift W)) (shift W e) = (regKey map e).map (shift W) := by
  obtain ⟨a, f⟩ := e
  unfold regKey
  show (match lookup (W a) (map.map (shift W)) with
    | none => put (W a) f (map.map (shift W))
    | some (_, size) => if f.2 > size then put (W a) f (map.map (shift W)) else map.map (shift W)) = _
  rw [lookup_shift h, put_shift h]
  simp only
  split
  · rfl
  · split <;> rfl

theorem fold_shift {W : Nat → Nat} : ∀ {l : List (Nat × Nat × Nat)} {map : Table}, (∀ x ∈ l ++ map, ∀ y ∈ l ++ map, W x.1 = W y.1 → x.1 = y.1) →
    (l.map (shift W)).foldl regKey (map.map (shift W)) = (l.foldl regKey map).map (shift W)
  | [], _, _ => rfl
  | e :: l, map, h => by
    rw [List.map_cons, List.foldl_cons, List.foldl_cons, regKey_shift fun x hx => h x (by simp [hx]) e (by simp)]
    apply fold_shift
    have rep : ∀ x ∈ l ++ regKey map e, ∃ x' ∈ e :: l ++ map, x'.1 = x.1 := by
      intro x hx
      rw [List.mem_append] at hx
      rcases hx with hx | hx
      · exact ⟨x, by simp [hx], rfl⟩
      · rcases regKey_addr hx with he | ⟨e', h1, h2⟩
        · exact ⟨e, by simp, he.symm⟩
        · exact ⟨e', by simp [h1], h2⟩
    intro x hx y hy hw
    obtain ⟨x', a1, a2⟩ := rep x hx
    obtain ⟨y', b1, b2⟩ := rep y hy
    rw [← a2, ← b2]
    exact h x' a1 y' b1 (by rw [a2, b2]; exact hw)

theorem table_image {W : Nat → Nat} {k : Node} (hi : ∀ t ∈ targets k, ∀ u ∈ targets k, W t.val.addr = W u.val.addr → t.val.addr = u.val.addr) (w : Value) :
    tableOf (image W k w) = (tableOf k).map (shift W) := by
  unfold tableOf
  rw [foldl_reg, foldl_reg, targets_image]
  rw [show (targets k).map (fun t => shift W (key t)) = ((targets k).map key).map (shift W) by rw [List.map_map]; rfl]
  apply fold_shift (map := [])
  intro x hx y hy hw
  rw [List.append_nil] at hx hy
  obtain ⟨t, ht, rfl⟩ := List.mem_map.mp hx
  obtain ⟨u, hu, rfl⟩ := List.mem_map.mp hy
  exact hi t ht u hu hw

section
variable {env : Env} {order : Table → Table} {mode : Deep.Mode} {db : Db} {st₀ st₁ : State} {M : Map} {dst : Value} {B : Blocks}

/-- The map of the source is made from its tree. -/
theorem Setup.of_tree (h : Setup env order mode db st₀ M dst st₁ B) : (number M.top 0).1 = M.top ∧ tableOf M.top = M.map ∧ identify order M.map = .ok M.offsets := by
  obtain ⟨offs, h1, h2⟩ := memoryMap_tree h.sane h.interned h.honest h.perm h.dag h.tree
  rw [h.map] at h2
  have := Option.some.inj (Outcome.ok.inj h2)
  have e1 : M.top = (number M.top 0).1 := congrArg Map.top this
  have e2 : M.map = tableOf (number M.top 0).1 := congrArg Map.map this
  have e3 : M.offsets = offs := congrArg Map.offsets this
  rw [← e2, ← e3] at h1
  refine ⟨e1.symm, ?_, h1⟩
  rw [e2, ← e1]

/-- Different addresses pointed to are copied to different addresses. -/
theorem Setup.place_inj (h : Setup env order mode db st₀ M dst st₁ B) {b c : Nat × Nat × Nat} {p q : Nat} (hb : b ∈ B) (hc : c ∈ B)
    (h1 : b.1 ≤ p) (h2 : p < b.1 + max b.2.2 1) (h3 : c.1 ≤ q) (h4 : q < c.1 + max c.2.2 1) (he : place B p = place B q) : p = q := by
  rw [h.place_in hb h1 h2, h.place_in hc h3 h4] at he
  by_cases hbc : b = c
  · subst hbc; omega
  · have := pairwise_all (fun _ _ => Or.symm) h.new.apart hb hc hbc
    omega

theorem Setup.table_image (h : Setup env order mode db st₀ M dst st₁ B) : tableOf (image (place B) M.top dst) = M.map.map (shift (place B)) := by
  rw [← h.of_tree.2.1]
  apply DeepCopy.table_image
  intro t ht u hu he
  obtain ⟨b, hb, h1, _, h2⟩ := h.target_block ht
  obtain ⟨c, hc, h3, _, h4⟩ := h.target_block hu
  exact h.place_inj hb hc h1 h2 h3 h4 he

/-- The block an entry of the map is in. -/
theorem Setup.entry_block (h : Setup env order mode db st₀ M dst st₁ B) {a i n : Nat} (hm : (a, i, n) ∈ M.map) :
    ∃ b j, b ∈ B ∧ (b.1, j, b.2.2) ∈ M.map ∧ M.offset j = 0 ∧ a = b.1 + M.offset i ∧ M.offset i + n ≤ b.2.2 ∧ place B a = b.2.1 + M.offset i ∧ (n = 0 → M.offset i = 0) := by
  have hl : Located M a n (M.offset i) := ⟨i, hm, rfl⟩
  obtain ⟨s, ⟨j, h1, h2⟩, h3⟩ := h.copyable.fits _ _ _ hl
  obtain ⟨t, ht⟩ := h.located_block ⟨j, h1, h2⟩
  have ha : M.offset i ≤ a ∧ (n = 0 → M.offset i = 0) := by
    by_cases h0 : M.offset i = 0
    · rw [h0]; exact ⟨Nat.zero_le _, fun _ => rfl⟩
    · obtain ⟨g1, g2, _⟩ := (Deep.C32_attribution h.sane h.interned h.honest h.perm h.dag _ M h.map).2.1 _ _ _ hl h0
      exact ⟨g2, by omega⟩
  refine ⟨_, j, ht, h1, h2, ?_, h3, ?_, ha.2⟩
  · simp only; omega
  · rw [h.place_in ht (by simp only; omega) (by simp only; omega)]
    simp only
    omega

/-- What the copy points to is where it is in the source. -/
theorem Setup.offsets (h : Setup env order mode db st₀ M dst st₁ B) {M₂ : Map} {S₂ : List Nat} (hmap : M₂.map = M.map.map (shift (place B))) (hk₂ : Keys M₂.map) (hi₂ : Ids M₂.map)
    (hb₂ : Deep.Blocks M₂.map S₂ M₂.offsets) (i : Nat) : M₂.offset i = M.offset i := by
  obtain ⟨_, _, _, hof, _, hks, hi, S, hbl⟩ := Deep.map_facts h.sane h.interned h.honest h.perm h.map
  have back : ∀ {a i n}, (a, i, n) ∈ M₂.map → ∃ c, (c, i, n) ∈ M.map ∧ place B c = a := by
    intro a i n hm
    rw [hmap] at hm
    obtain ⟨⟨c, e⟩, h1, h2⟩ := List.mem_map.mp hm
    simp only [shift, Prod.mk.injEq] at h2
    obtain ⟨rfl, rfl⟩ := h2
    exact ⟨c, h1, rfl⟩
  have forth : ∀ {a i n}, (a, i, n) ∈ M.map → (place B a, i, n) ∈ M₂.map := by
    intro a i n hm
    rw [hmap]
    exact List.mem_map.mpr ⟨_, hm, rfl⟩
  have one : ∀ {b c : Nat × Nat × Nat} {p : Nat}, b ∈ B → c ∈ B → b.2.1 ≤ p → p < b.2.1 + max b.2.2 1 → c.2.1 ≤ p → p < c.2.1 + max c.2.2 1 → b = c := by
    intro b c p hb hc h1 h2 h3 h4
    by_cases hbc : b = c
    · exact hbc
    · have := pairwise_all (fun _ _ => Or.symm) h.new.apart hb hc hbc
      omega
  have main : ∀ {b : Nat × Nat × Nat} {j : Nat}, b ∈ B → (b.1, j, b.2.2) ∈ M.map → 0 < b.2.2 → b.2.1 ∈ S₂ ∧ (b.2.1, j, b.2.2) ∈ M₂.map := by
    intro b j hb hm hpos
    have hm₂ := forth hm
    have hpl : place B b.1 = b.2.1 := by
      rw [h.place_in hb (Nat.le_refl _) (by omega)]; omega
    rw [hpl] at hm₂
    refine ⟨?_, hm₂⟩
    apply Classical.byContradiction
    intro hn
    obtain ⟨b₂, j₂, s₂, k1, k2, k3, k4⟩ := hb₂.cover _ _ _ hm₂ hpos hn
    obtain ⟨c, m1, rfl⟩ := back k2
    obtain ⟨d, _, d1, _, _, d2, d3, d4, _⟩ := h.entry_block m1
    have := one hb d1 (p := b.2.1) (by omega) (by omega) (by omega) (by omega)
    subst this
    omega
  by_cases hex : ∃ a n, (a, i, n) ∈ M.map
  · obtain ⟨a, n, hm⟩ := hex
    obtain ⟨b, j, b1, b2, b3, b4, b5, b6, b7⟩ := h.entry_block hm
    rcases Deep.offset_of hk₂ hi₂ hb₂ (forth hm) with ⟨hS, h0⟩ | ⟨hS, hpos, b₂, j₂, s₂, k1, k2, k3, k4, k5⟩
    · rw [h0]
      apply Classical.byContradiction
      intro hne
      have hn : n ≠ 0 := fun hn => hne (b7 hn).symm
      have hS := hS.resolve_right hn
      obtain ⟨q1, q2⟩ := main b1 b2 (by omega)
      have := hb₂.apart _ q1 _ _ q2 _ hS (by omega)
      omega
    · obtain ⟨c, m1, rfl⟩ := back k2
      obtain ⟨d, jd, d1, d0, _, d2, d3, d4, d5⟩ := h.entry_block m1
      have := one b1 d1 (p := place B a) (by omega) (by omega) (by omega) (by omega)
      subst this
      have hz : M.offset j₂ = 0 := by
        apply Classical.byContradiction
        intro hne
        obtain ⟨q1, q2⟩ := main b1 b2 (by omega)
        have := hb₂.apart _ q1 _ _ q2 _ k1 (by omega)
        omega
      omega
  · have none : ∀ {N : Map} {T : List Nat}, Deep.Blocks N.map T N.offsets → (¬ ∃ a n, (a, i, n) ∈ N.map) → N.offset i = 0 := by
      intro N T hb hn
      cases hl : List.lookup i N.offsets with
      | none => simp [Map.offset, hl]
      | some o =>
        obtain ⟨a, n, _, _, _, h1, _⟩ := (hb.offs i o).mp (Deep.lookup_mem hl)
        exact absurd ⟨a, n, h1⟩ hn
    rw [none hb₂ ?_, none hbl hex]
    rintro ⟨a, n, hm⟩
    obtain ⟨c, hc, _⟩ := back hm
    exact hex ⟨c, n, hc⟩
end
end Verif.DeepCopy
