import Verif.Heap
/-
Ownership of heap blocks: what a program has allocated on top of a given set of live blocks.
-/
namespace Verif.Heap

/-- Permutations of concatenations of lists of block numbers, by counting. -/
macro "perm" : tactic => `(tactic| (
  refine List.perm_iff_count.2 fun x => ?_
  simp only [List.count_append, List.count_cons, List.count_nil, List.append_eq]
  try omega))

/-- The live blocks are those of `base` and, separately, those in `bs`. -/
structure Owns (base : Nat → Bool) (h : Heap) (bs : List Nat) : Prop where
  ok : h.Ok
  live : ∀ x, h.live x = (base x || decide (x ∈ bs))
  nodup : bs.Nodup
  apart : ∀ x ∈ bs, base x = false

theorem Owns.init {h : Heap} (ho : h.Ok) : Owns h.live h [] := ⟨ho, by simp, by simp, by simp⟩

theorem Owns.perm {base : Nat → Bool} {h : Heap} {a b : List Nat} (o : Owns base h a) (p : a.Perm b) : Owns base h b :=
  ⟨o.ok, fun x => by rw [o.live]; congr 1; simp [p.mem_iff], p.nodup_iff.1 o.nodup, fun x hx => o.apart x (p.mem_iff.2 hx)⟩

theorem Owns.alloc_some {base : Nat → Bool} {h h' : Heap} {bs : List Nat} {b : Nat} (o : Owns base h bs) (e : h.alloc = (some b, h')) :
    Owns base h' (b :: bs) ∧ h'.fails = h.fails := by
  unfold Heap.alloc at e
  split at e
  · simp at e
  · simp only [Prod.mk.injEq, Option.some.injEq] at e
    obtain ⟨rfl, rfl⟩ := e
    have hn : h.live h.next = false := by
      cases hl : h.live h.next with
      | false => rfl
      | true => exact absurd (o.ok _ hl) (Nat.lt_irrefl _)
    have hb := o.live h.next
    rw [hn] at hb
    simp only [Bool.false_eq, Bool.or_eq_false_iff, decide_eq_false_iff_not] at hb
    refine ⟨⟨?_, ?_, ?_, ?_⟩, rfl⟩
    · intro x hx
      simp only [Bool.or_eq_true, beq_iff_eq] at hx
      show x < h.next + 1
      rcases hx with hx | hx
      · omega
      · have := o.ok x hx; omega
    · intro x
      simp only [List.mem_cons]
      rw [o.live]
      by_cases hx : x = h.next <;> simp [hx]
    · exact List.nodup_cons.2 ⟨hb.2, o.nodup⟩
    · intro x hx
      rcases List.mem_cons.1 hx with rfl | hx
      · exact hb.1
      · exact o.apart x hx

theorem Owns.alloc_none {base : Nat → Bool} {h h' : Heap} {bs : List Nat} (o : Owns base h bs) (e : h.alloc = (none, h')) :
    Owns base h' bs ∧ h'.fails = h.fails ∧ ∃ k, h.fails k = true := by
  unfold Heap.alloc at e
  split at e
  · rename_i hk
    simp only [Prod.mk.injEq, true_and] at e
    subst e
    exact ⟨⟨fun x hx => Nat.lt_succ_of_lt (o.ok x hx), o.live, o.nodup, o.apart⟩, rfl, _, hk⟩
  · simp at e

theorem Owns.free {base : Nat → Bool} {h : Heap} {bs : List Nat} {b : Nat} (o : Owns base h (b :: bs)) :
    ∃ h', h.free b = .ok h' ∧ Owns base h' bs ∧ h'.fails = h.fails := by
  have hl : h.live b = true := by rw [o.live]; simp
  have hn := List.nodup_cons.1 o.nodup
  refine ⟨{ h with live := fun x => x != b && h.live x }, by simp [Heap.free, hl], ⟨?_, ?_, hn.2, ?_⟩, rfl⟩
  · intro x hx
    simp only [Bool.and_eq_true] at hx
    exact o.ok x hx.2
  · intro x
    simp only []
    rw [o.live]
    by_cases hx : x = b
    · subst hx; simp [hn.1, o.apart x (by simp)]
    · simp [hx]
  · intro x hx; exact o.apart x (by simp [hx])

end Verif.Heap
