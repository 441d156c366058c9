import Verif.DeepCopy.Head
/-
The copy of a tree.
-/
namespace Verif.DeepCopy
open Verif Verif.Entry Verif.Entry.Spec Verif.Value Verif.Value.Spec Verif.Handlers Verif.ValueString.Spec Verif.Deep.Spec Verif.DeepCopy.Spec
open Verif.Bitfield.Spec (Field)
open Verif.Deep (Node Map Table Keys Ids)

/-- The copy of a part. -/
def partPlace (x : Node) (w : Value) (k : Node) : Value := ⟨k.val.entry, w.addr + (k.val.addr - x.val.addr)⟩

theorem copy_trans {W : Nat → Nat} {top k x : Node} {dst d w : Value} (h : Copy W top dst k d) (h' : Copy W k d x w) : Copy W top dst x w := by
  induction h' with
  | top => exact h
  | part _ hd hy ih => exact .part ih hd hy
  | target _ hd hy ih => exact .target ih hd hy

/-- The copies below an object are itself and those below its parts. -/
theorem copy_head {W : Nat → Nat} {k x : Node} {d w : Value} (h : Copy W k d x w) : (x = k ∧ w = d) ∨
    ∃ y ∈ k.kids, Copy W y (if k.deref then ⟨y.val.entry, W y.val.addr⟩ else partPlace k d y) x w := by
  induction h with
  | top => exact .inl ⟨rfl, rfl⟩
  | part hx hd hy ih =>
    right
    rcases ih with ⟨rfl, rfl⟩ | ⟨z, hz, hc⟩
    · exact ⟨_, hy, by rw [if_neg (by simp [hd])]; exact .top⟩
    · exact ⟨z, hz, .part hc hd hy⟩
  | target hx hd hy ih =>
    right
    rcases ih with ⟨rfl, rfl⟩ | ⟨z, hz, hc⟩
    · exact ⟨_, hy, by rw [if_pos hd]; exact .top⟩
    · exact ⟨z, hz, .target hc hd hy⟩

theorem tree_kids {deep : Deep.Env} {mode : Deep.Mode} {db : Db} {m : Mem} {outer : List Value} {x : Node} (h : Tree deep mode db m outer x) :
    ∀ k ∈ x.kids, Tree deep mode db m (x.val :: outer) k := by
  cases h with
  | leaf => simp [Node.kids]
  | parts _ _ _ h => exact h
  | target _ h =>
    intro k hk
    simp only [Node.kids, List.mem_singleton] at hk
    subst hk
    exact h
  | args _ _ h => exact h

section
variable {env : Env} {order : Table → Table} {mode : Deep.Mode} {db : Db} {st₀ st₁ : State} {M : Map} {dst : Value} {B : Blocks}

/-- What is to be shown of the copy of a tree. -/
structure Ran (env : Env) (mode : Deep.Mode) (db : Db) (st₀ : State) (M : Map) (dst : Value) (B : Blocks) (m m' : Mem) : Prop where
  inv : Inv env mode db st₀ M dst B m'
  keeps : Keeps env mode db st₀ M dst B m m'

theorem Around.keeps {m m' : Mem} {outs : List (Node × Value)} (h : Around env mode db st₀ M dst B m outs) (hk : Keeps env mode db st₀ M dst B m m') :
    Around env mode db st₀ M dst B m' outs := fun p hp => ⟨(h p hp).1, hk _ _ (h p hp).1 (h p hp).2.1, (h p hp).2.2⟩

mutual
theorem copyNode_spec (h : Setup env order mode db st₀ M dst st₁ B) : ∀ (x : Node) (w : Value) (outs : List (Node × Value)) (m : Mem) (live : List (Nat × Nat)),
    Copy (place B) M.top dst x w → Inv env mode db st₀ M dst B m → Around env mode db st₀ M dst B m outs → Tree env.deep mode db st₀.m (outs.map (·.1.val)) x →
    ∃ m', copyNode env mode db M B.table (outs.map (·.2)) x w ⟨m, live⟩ = .ok (true, ⟨m', live⟩) ∧ Ran env mode db st₀ M dst B m m' ∧
      ∀ y wy, Copy (place B) x w y wy → Done env mode db st₀ B m' y wy
  | .mk i v s l f ks, w, outs, m, live, hc, hi, ho, ht => by
    obtain ⟨hd, m₁, h1, h2, h3⟩ := h.head hi hc ho ht live
    have ho' : ks ≠ [] → Around env mode db st₀ M dst B m₁ ((.mk i v s l f ks, w) :: outs) := by
      intro hk p hp
      rw [List.mem_cons] at hp
      rcases hp with rfl | hp
      · exact ⟨hc, h2.done, hk⟩
      · exact ho.keeps h2.keeps p hp
    have hplaces : places v w ks hd = ks.map fun k => some (if f then (⟨k.val.entry, place B k.val.addr⟩ : Value) else partPlace (.mk i v s l f ks) w k) := by
      rcases h3 with ⟨h3, rfl⟩ | ⟨h3, k, hk, rfl⟩
      · simp only [Node.deref] at h3
        subst h3
        simp only [places]
        apply List.map_congr_left
        intro k hk
        have : w.addr + (k.val.addr - v.addr) ≠ 0 := by have := h.nonNull hc; omega
        simp only [newValue, if_neg this, partPlace, Bool.false_eq_true, if_false]
        rfl
      · simp only [Node.deref, Node.kids] at h3 hk
        subst h3
        subst hk
        obtain hp : place B k.val.addr ≠ 0 := h.nonNull (x := k) (w := ⟨k.val.entry, place B k.val.addr⟩) (.target hc rfl (by simp [Node.kids]))
        simp [places, newValue, hp]
    obtain ⟨m₂, g1, g2, g3⟩ := copyAll_spec h ks (fun k => if f then (⟨k.val.entry, place B k.val.addr⟩ : Value) else partPlace (.mk i v s l f ks) w k)
      ((.mk i v s l f ks, w) :: outs) m₁ live (by
        intro k hk
        by_cases hf : f = true
        · subst hf
          exact .target hc rfl hk
        · have hf : f = false := by simpa using hf
          subst hf
          exact .part hc rfl hk) h2.inv ho' (by
        intro k hk
        exact tree_kids ht k hk)
    refine ⟨m₂, ?_, ⟨g2.inv, fun y wy hcy hdy => g2.keeps _ _ hcy (h2.keeps _ _ hcy hdy)⟩, ?_⟩
    · rw [← hplaces] at g1
      simp only [List.map_cons] at g1
      simp only [copyNode, h1, Outcome.bind_ok]
      rcases h3 with ⟨_, rfl⟩ | ⟨_, k, _, rfl⟩
      · simp only [g1, Outcome.bind_ok, undo]
        rfl
      · simp only [g1, Outcome.bind_ok, undo]
        simp
    · intro y wy hcy
      rcases copy_head hcy with ⟨rfl, rfl⟩ | ⟨z, hz, hcz⟩
      · exact g2.keeps _ _ hc h2.done
      · exact g3 z hz y wy hcz
theorem copyAll_spec (h : Setup env order mode db st₀ M dst st₁ B) : ∀ (ks : List Node) (pl : Node → Value) (outs : List (Node × Value)) (m : Mem) (live : List (Nat × Nat)),
    (∀ k ∈ ks, Copy (place B) M.top dst k (pl k)) → Inv env mode db st₀ M dst B m → (ks ≠ [] → Around env mode db st₀ M dst B m outs) →
    (∀ k ∈ ks, Tree env.deep mode db st₀.m (outs.map (·.1.val)) k) →
    ∃ m', copyAll env mode db M B.table (outs.map (·.2)) ks (ks.map fun k => some (pl k)) ⟨m, live⟩ = .ok (true, ⟨m', live⟩) ∧ Ran env mode db st₀ M dst B m m' ∧
      ∀ k ∈ ks, ∀ y wy, Copy (place B) k (pl k) y wy → Done env mode db st₀ B m' y wy
  | [], pl, outs, m, live, _, hi, _, _ => ⟨m, by simp [copyAll], ⟨hi, fun _ _ _ hd => hd⟩, by simp⟩
  | k :: ks, pl, outs, m, live, hc, hi, ho, ht => by
    have hoo := ho (by simp)
    obtain ⟨m₁, h1, h2, h3⟩ := copyNode_spec h k (pl k) outs m live (hc k (by simp)) hi hoo (ht k (by simp))
    obtain ⟨m₂, g1, g2, g3⟩ := copyAll_spec h ks pl outs m₁ live (fun k' hk' => hc k' (by simp [hk'])) h2.inv (fun _ => hoo.keeps h2.keeps)
      (fun k' hk' => ht k' (by simp [hk']))
    refine ⟨m₂, by simp [copyAll, h1, g1], ⟨g2.inv, fun y wy hcy hdy => g2.keeps _ _ hcy (h2.keeps _ _ hcy hdy)⟩, ?_⟩
    intro k' hk' y wy hcy
    rw [List.mem_cons] at hk'
    rcases hk' with rfl | hk'
    · exact g2.keeps _ _ (copy_trans (hc k' (by simp)) hcy) (h3 y wy hcy)
    · exact g3 k' hk' y wy hcy
end

/-- After the allocation. -/
theorem Setup.start (h : Setup env order mode db st₀ M dst st₁ B) : Inv env mode db st₀ M dst B st₁.m := by
  refine ⟨?_, ?_, ?_⟩
  · intro a ha
    apply h.new.other
    intro b hb
    have := ha b (List.mem_cons_of_mem _ hb)
    unfold In at this
    omega
  · intro r hr a ⟨h1, h2⟩
    unfold regions at hr
    rw [List.mem_cons] at hr
    rcases hr with rfl | hr
    · by_cases hB : ∃ b ∈ B, In a b
      · obtain ⟨b, hb, h3, h4⟩ := hB
        rw [h.new.zero b hb a h3 h4]
        simp
      · rw [h.new.other a (fun b hb => by
          by_cases hc : a < b.2.1 ∨ b.2.1 + b.2.2 ≤ a
          · exact hc
          · exact absurd ⟨b, hb, by omega, by omega⟩ hB)]
        have := h.room.mapped (a - dst.addr) (by simp only at h1 h2; omega)
        rwa [show dst.addr + (a - dst.addr) = a by simp only at h1; omega] at this
    · rw [h.new.zero r hr a h1 h2]
      simp
  · intro hm x w t hc ht hn
    have hw : Wants env.cfg mode db st₀.m x 0 64 (.num 0) := .null ht hn
    obtain ⟨r, hr, h1, h2, h3⟩ := h.cell hc hw
    have hz : ∀ i < 8, st₁.m (w.addr + i) = some 0 := by
      intro i hi8
      unfold regions at hr
      rw [List.mem_cons] at hr
      rcases hr with rfl | hr
      · simp only at h1 h2 h3
        have h0 := h.room.zero hm (w.addr + i - dst.addr) (by omega)
        rw [show dst.addr + (w.addr + i - dst.addr) = w.addr + i by omega] at h0
        rw [h.new.other (w.addr + i), h0]
        intro b hb
        by_cases hc : w.addr + i < b.2.1 ∨ b.2.1 + b.2.2 ≤ w.addr + i
        · exact hc
        · have := h.new.fresh b hb (w.addr + i - b.2.1) (by omega)
          rw [show b.2.1 + (w.addr + i - b.2.1) = w.addr + i by omega, h0] at this
          cases this
      · exact h.new.zero r hr _ (by omega) (by omega)
    have : Holds st₁.m w.addr 8 0 := ⟨by decide, fun k hk => by rw [hz k hk]; simp⟩
    exact field_of_holds this

/-- The copy. -/
theorem Setup.run (h : Setup env order mode db st₀ M dst st₁ B) : ∃ m', copyNode env mode db M B.table [] M.top dst st₁ = .ok (true, ⟨m', st₁.live⟩) ∧
    Inv env mode db st₀ M dst B m' ∧ ∀ x w, Copy (place B) M.top dst x w → Done env mode db st₀ B m' x w := by
  obtain ⟨m', h1, h2, h3⟩ := copyNode_spec h M.top dst [] st₁.m st₁.live .top h.start (fun p hp => by simp at hp) (by simpa using h.tree)
  exact ⟨m', h1, h2.inv, h3⟩
end

end Verif.DeepCopy
