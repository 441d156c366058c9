import Verif.BsdList.Spec
namespace Verif.BsdList
open Verif Verif.BsdList.Spec

/-- The pointers of a list starting at variable `s`. -/
def Chain (st : Store) : Slot → List Nat → Prop
  | s, [] => st.get s = none
  | s, x :: xs => st.get s = some x ∧ st.lePrev x = some s ∧ Chain st (.next x) xs

/-- The same without the end. -/
def Seg (st : Store) : Slot → List Nat → Prop
  | _, [] => True
  | s, x :: xs => st.get s = some x ∧ st.lePrev x = some s ∧ Seg st (.next x) xs

def lastSlot : Slot → List Nat → Slot
  | s, [] => s
  | _, x :: xs => lastSlot (.next x) xs

theorem chain_append {st : Store} {s : Slot} {xs ys : List Nat} :
    Chain st s (xs ++ ys) ↔ Seg st s xs ∧ Chain st (lastSlot s xs) ys := by
  induction xs generalizing s with
  | nil => simp [Seg, lastSlot]
  | cons x xs ih => simp [Chain, Seg, lastSlot, ih, and_assoc]

theorem lastSlot_append (s : Slot) (xs : List Nat) (x : Nat) : lastSlot s (xs ++ [x]) = .next x := by
  induction xs generalizing s with
  | nil => rfl
  | cons y xs ih => simp [lastSlot, ih]

theorem lastSlot_cases (h : Nat) (xs : List Nat) : lastSlot (.first h) xs = .first h ∨ ∃ x ∈ xs, lastSlot (.first h) xs = .next x := by
  rcases List.eq_nil_or_concat xs with rfl | ⟨ys, y, rfl⟩
  · exact .inl rfl
  · right
    exact ⟨y, by simp, by rw [List.concat_eq_append, lastSlot_append]⟩

/-- A chain survives changes elsewhere, even of the variable it hangs on. -/
theorem Chain.move {st st' : Store} {s s' : Slot} {xs : List Nat} (h : Chain st s xs) (h0 : st'.get s' = st.get s)
    (hn : ∀ x ∈ xs, st'.leNext x = st.leNext x) (hp : ∀ x ∈ xs.tail, st'.lePrev x = st.lePrev x)
    (h1 : ∀ x, xs.head? = some x → st'.lePrev x = some s') : Chain st' s' xs := by
  induction xs generalizing s s' with
  | nil => simpa [Chain, h0] using h
  | cons x xs ih =>
    obtain ⟨a, _, c⟩ := h
    refine ⟨by rw [h0, a], h1 x rfl, ih c (hn x (by simp)) (fun y hy => hn y (by simp [hy])) ?_ ?_⟩
    · intro y hy
      exact hp y (by cases xs with | nil => simp at hy | cons => simp at hy ⊢; exact .inr hy)
    · intro y hy
      cases xs with
      | nil => simp at hy
      | cons z zs =>
        simp at hy
        subst hy
        rw [hp z (by simp)]
        exact c.2.1

theorem Chain.frame {st st' : Store} {s : Slot} {xs : List Nat} (h : Chain st s xs) (h0 : st'.get s = st.get s)
    (hn : ∀ x ∈ xs, st'.leNext x = st.leNext x) (hp : ∀ x ∈ xs, st'.lePrev x = st.lePrev x) : Chain st' s xs := by
  refine h.move h0 hn (fun x hx => hp x (List.mem_of_mem_tail hx)) ?_
  intro x hx
  cases xs with
  | nil => simp at hx
  | cons y ys =>
    simp at hx; subst hx
    rw [hp y (by simp)]
    exact h.2.1

theorem Seg.frame {st st' : Store} {s : Slot} {xs : List Nat} (h : Seg st s xs) (h0 : xs ≠ [] → st'.get s = st.get s)
    (hn : ∀ x ∈ xs.dropLast, st'.leNext x = st.leNext x) (hp : ∀ x ∈ xs, st'.lePrev x = st.lePrev x) : Seg st' s xs := by
  induction xs generalizing s with
  | nil => trivial
  | cons x xs ih =>
    obtain ⟨a, b, c⟩ := h
    refine ⟨by rw [h0 (by simp), a], by rw [hp x (by simp), b], ih c ?_ ?_ (fun y hy => hp y (by simp [hy]))⟩
    · intro hne
      exact hn x (by cases xs with | nil => simp at hne | cons => simp)
    · intro y hy
      exact hn y (by cases xs with | nil => simp at hy | cons => simp at hy ⊢; exact .inr hy)

theorem Chain.foreachFrom {st : Store} {s : Slot} {xs : List Nat} (h : Chain st s xs) : foreachFrom st (st.get s) = some xs := by
  induction xs generalizing s with
  | nil =>
    rw [show st.get s = none from h, foreachFrom.eq_def]
  | cons x xs ih =>
    obtain ⟨a, _, c⟩ := h
    rw [a, foreachFrom.eq_def]
    have := ih c
    simp only [Store.get] at this
    simp [this]

/-- The store represents the lists. -/
structure Rep (st : Store) (A : Lists) : Prop where
  chain : ∀ h, Chain st (.first h) (A h)
  nodup : ∀ h, (A h).Nodup
  disjoint : ∀ h k x, x ∈ A h → x ∈ A k → h = k

/-- What all the insertions do: put `e` into variable `s`. -/
def insertAt (s : Slot) (e : Nat) (st : Store) : Store :=
  let st1 : Store := ⟨st.lhFirst, set st.leNext e (st.get s), st.lePrev⟩
  let st2 := match st.get s with
    | some x => st1.setPrev x (some (.next e))
    | none => st1
  (st2.put s (some e)).setPrev e (some s)

theorem insertHead_eq (h e : Nat) (st : Store) : insertHead h e st = insertAt (.first h) e st := by
  simp only [insertHead, insertAt, Store.get]
  cases st.lhFirst h <;> rfl

theorem insertAfter_eq {l e : Nat} (hle : l ≠ e) (st : Store) : insertAfter l e st = insertAt (.next l) e st := by
  simp only [insertAfter, insertAt, Store.get, set, if_true, hle, if_false]
  cases st.leNext l <;> rfl

theorem set_other {β : Type} {f : Nat → β} {k x : Nat} {v : β} (h : x ≠ k) : set f k v x = f x := if_neg h
theorem set_self {β : Type} {f : Nat → β} {k : Nat} {v : β} : set f k v k = v := if_pos rfl

section
variable {st : Store} {s : Slot} {e : Nat}

theorem insertAt_next_self (hs : s ≠ .next e) : (insertAt s e st).leNext e = st.get s := by
  cases s with
  | first h =>
    simp only [insertAt, Store.put, Store.setPrev, Store.get]
    cases st.lhFirst h <;> simp [set]
  | next l =>
    have : e ≠ l := fun h => hs (by rw [h])
    simp only [insertAt, Store.put, Store.setPrev, Store.get]
    cases st.leNext l <;> simp [set, this]

theorem insertAt_next {x : Nat} (hx : x ≠ e) (hs : s ≠ .next x) : (insertAt s e st).leNext x = st.leNext x := by
  cases s with
  | first h =>
    simp only [insertAt, Store.put, Store.setPrev, Store.get]
    cases st.lhFirst h <;> simp [set, hx]
  | next l =>
    have : x ≠ l := fun h => hs (by rw [h])
    simp only [insertAt, Store.put, Store.setPrev, Store.get]
    cases st.leNext l <;> simp [set, this, hx]

theorem insertAt_first {h : Nat} (hs : s ≠ .first h) : (insertAt s e st).lhFirst h = st.lhFirst h := by
  cases s with
  | first k =>
    have : h ≠ k := fun h => hs (by rw [h])
    simp only [insertAt, Store.put, Store.setPrev, Store.get]
    cases st.lhFirst k <;> simp [set, this]
  | next l =>
    simp only [insertAt, Store.put, Store.setPrev, Store.get]
    cases st.leNext l <;> simp

theorem insertAt_get : (insertAt s e st).get s = some e := by
  cases s <;> simp [insertAt, Store.put, Store.setPrev, Store.get, set]

theorem insertAt_prev_self : (insertAt s e st).lePrev e = some s := by
  simp [insertAt, Store.setPrev, set]

theorem insertAt_prev_next {x : Nat} (hx : x ≠ e) (h : st.get s = some x) : (insertAt s e st).lePrev x = some (.next e) := by
  simp only [insertAt, h]
  cases s <;> simp [Store.put, Store.setPrev, set, hx]

theorem insertAt_prev {x : Nat} (hx : x ≠ e) (h : st.get s ≠ some x) : (insertAt s e st).lePrev x = st.lePrev x := by
  simp only [insertAt]
  cases hs : st.get s with
  | none => cases s <;> simp [Store.put, Store.setPrev, set, hx]
  | some y =>
    have : x ≠ y := fun e => h (by rw [hs, e])
    cases s <;> simp [Store.put, Store.setPrev, set, hx, this]

end

theorem Chain.head_eq {st : Store} {s : Slot} {xs : List Nat} (h : Chain st s xs) : st.get s = xs.head? := by
  cases xs with
  | nil => exact h
  | cons => exact h.1

theorem Chain.mem_prev {st : Store} {s : Slot} {xs ys : List Nat} {x : Nat} (h : Chain st s (xs ++ x :: ys)) : st.lePrev x = some (lastSlot s xs) := by
  rw [chain_append] at h
  exact h.2.2.1

theorem insertBefore_eq {l e : Nat} {s : Slot} {st : Store} (hle : l ≠ e) (hs : st.lePrev l = some s) (hg : st.get s = some l) (hse : s ≠ .next e) :
    insertBefore l e st = .ok (insertAt s e st) := by
  have h1 : (st.setPrev e (st.lePrev l)).lePrev l = some s := by
    simp [Store.setPrev, set, hle, hs]
  simp only [insertBefore, h1]
  congr 1
  simp only [insertAt, hg]
  cases s with
  | first h =>
    simp only [Store.put, Store.setPrev]
    congr 1
    funext x
    simp only [set, hs]
    grind
  | next k =>
    simp only [Store.put, Store.setPrev]
    congr 1
    funext x
    simp only [set, hs]
    grind

/-- Inserting a free element at a place of a list. -/
theorem Rep.insertAt {st : Store} {A : Lists} (r : Rep st A) {h e : Nat} {xs ys : List Nat} (hf : Free A e) (hA : A h = xs ++ ys) :
    Rep (insertAt (lastSlot (.first h) xs) e st) (A.with h (xs ++ e :: ys)) := by
  have hc := r.chain h
  rw [hA, chain_append] at hc
  obtain ⟨hseg, hch⟩ := hc
  have hnd := r.nodup h
  rw [hA] at hnd
  have hmem : ∀ x, x ∈ xs ∨ x ∈ ys → x ∈ A h := by intro x hx; rw [hA]; simpa using hx
  have hne : ∀ x, x ∈ xs ∨ x ∈ ys → x ≠ e := by intro x hx he; exact hf h (he ▸ hmem x hx)
  have hslot : lastSlot (.first h) xs ≠ .next e := by
    rcases lastSlot_cases h xs with hs | ⟨x, hx, hs⟩
    · rw [hs]; simp
    · rw [hs]; intro he; cases he; exact hne _ (.inl hx) rfl
  have hget := hch.head_eq
  have hdis := (List.nodup_append.mp hnd).2.2
  refine ⟨?_, ?_, ?_⟩
  · intro k
    simp only [Lists.with]
    split
    · rename_i hk
      subst hk
      rw [chain_append]
      constructor
      · apply hseg.frame
        · intro hxs
          cases xs with
          | nil => exact absurd rfl hxs
          | cons x xs =>
            simp only [Store.get]
            apply insertAt_first
            simp only [lastSlot]
            rcases List.eq_nil_or_concat xs with rfl | ⟨zs, z, rfl⟩
            · simp [lastSlot]
            · rw [List.concat_eq_append, lastSlot_append]; simp
        · intro x hx
          have hx' : x ∈ xs := List.dropLast_subset _ hx
          apply insertAt_next (hne x (.inl hx'))
          rcases List.eq_nil_or_concat xs with rfl | ⟨zs, z, rfl⟩
          · simp at hx
          · simp only [List.concat_eq_append] at *
            rw [lastSlot_append]
            intro he
            cases he
            rw [List.dropLast_concat] at hx
            have := (List.nodup_append.mp (List.nodup_append.mp hnd).1).2.2
            exact this _ hx _ (by simp) rfl
        · intro x hx
          apply insertAt_prev (hne x (.inl hx))
          rw [hget]
          intro hy
          have : x ∈ ys := List.mem_of_mem_head? hy
          exact hdis x hx x this rfl
      · refine ⟨insertAt_get, insertAt_prev_self, ?_⟩
        refine hch.move ?_ ?_ ?_ ?_
        · exact insertAt_next_self hslot
        · intro x hx
          apply insertAt_next (hne x (.inr hx))
          rcases lastSlot_cases k xs with hs | ⟨y, hy, hs⟩
          · rw [hs]; simp
          · rw [hs]; intro he; cases he; exact hdis _ hy _ hx rfl
        · intro x hx
          have hx' := List.mem_of_mem_tail hx
          apply insertAt_prev (hne x (.inr hx'))
          rw [hget]
          intro hy
          cases ys with
          | nil => simp at hx
          | cons z zs =>
            simp at hy; subst hy
            have := (List.nodup_append.mp hnd).2.1
            simp at this hx
            exact this.1 hx
        · intro x hx
          exact insertAt_prev_next (hne x (.inr (List.mem_of_mem_head? hx))) (by rw [hget, hx])
    · rename_i hk
      have hothers : ∀ x ∈ A k, x ∉ A h := fun x hx hx' => hk (r.disjoint k h x hx hx')
      apply (r.chain k).frame
      · simp only [Store.get]
        apply insertAt_first
        rcases lastSlot_cases h xs with hs | ⟨y, hy, hs⟩
        · rw [hs]; intro he; cases he; exact hk rfl
        · rw [hs]; simp
      · intro x hx
        apply insertAt_next (by rintro rfl; exact hf k hx)
        rcases lastSlot_cases h xs with hs | ⟨y, hy, hs⟩
        · rw [hs]; simp
        · rw [hs]; intro he; cases he; exact hothers _ hx (hmem _ (.inl hy))
      · intro x hx
        apply insertAt_prev (by rintro rfl; exact hf k hx)
        rw [hget]
        intro hy
        exact hothers x hx (hmem x (.inr (List.mem_of_mem_head? hy)))
  · intro k
    simp only [Lists.with]
    split
    · have hp : (xs ++ e :: ys).Perm (e :: (xs ++ ys)) := List.perm_middle
      rw [hp.nodup_iff, List.nodup_cons]
      refine ⟨?_, hnd⟩
      rw [← hA]; exact hf h
    · exact r.nodup k
  · intro k k' x hx hx'
    have key : ∀ k, x ∈ (A.with h (xs ++ e :: ys)) k → (x ∈ A k) ∨ (x = e ∧ k = h) := by
      intro k hx
      simp only [Lists.with] at hx
      split at hx
      · rename_i hk
        subst hk
        rw [hA]
        simp at hx ⊢
        grind
      · exact .inl hx
    rcases key k hx with a | ⟨a, b⟩ <;> rcases key k' hx' with c | ⟨c, d⟩
    · exact r.disjoint k k' x a c
    · subst c; exact absurd a (hf k)
    · subst a; exact absurd c (hf k')
    · rw [b, d]

/-- What removal does: let variable `s`, which holds `e`, point past `e`. -/
theorem Rep.remove {st : Store} {A : Lists} (r : Rep st A) {h e : Nat} {xs ys : List Nat} (hA : A h = xs ++ e :: ys) :
    ∃ st', remove e st = .ok st' ∧ Rep st' (A.with h (xs ++ ys)) ∧
      (∀ s, s ≠ lastSlot (.first h) xs → st'.get s = st.get s) ∧
      (∀ x, some x ≠ ys.head? → st'.lePrev x = st.lePrev x) := by
  have hc := r.chain h
  rw [hA, chain_append] at hc
  obtain ⟨hseg, hget0, hprev, hch⟩ := hc
  have hnd := r.nodup h
  rw [hA] at hnd
  have hget := hch.head_eq
  simp only [Store.get] at hget
  have hne : ∀ x, x ∈ xs ∨ x ∈ ys → x ≠ e := by
    intro x hx he
    subst he
    have h1 := List.nodup_append.mp hnd
    rcases hx with hx | hx
    · exact h1.2.2 _ hx _ (by simp) rfl
    · exact (List.nodup_cons.mp h1.2.1).1 hx
  have hdis : ∀ x ∈ xs, ∀ y ∈ ys, x ≠ y := fun x hx y hy => (List.nodup_append.mp hnd).2.2 x hx y (by simp [hy])
  have hmem : ∀ x, x ∈ xs ∨ x ∈ ys → x ∈ A h := by intro x hx; rw [hA]; simp; grind
  let s := lastSlot (.first h) xs
  let st1 : Store := match st.leNext e with
    | some x => st.setPrev x (st.lePrev e)
    | none => st
  have e1 : st1.lhFirst = st.lhFirst := by simp only [st1]; cases st.leNext e <;> rfl
  have e2 : st1.leNext = st.leNext := by simp only [st1]; cases st.leNext e <;> rfl
  have e3 : ∀ x, st1.lePrev x = if ys.head? = some x then some s else st.lePrev x := by
    intro x
    simp only [st1, hget]
    cases hys : ys.head? with
    | none => simp
    | some y =>
      simp only [Store.setPrev, set, hprev]
      by_cases hxy : x = y
      · subst hxy; simp [s]
      · have : ¬ (some y = some x) := by simpa using Ne.symm hxy
        simp [hxy, this]
  have hs1 : st1.lePrev e = some s := by
    rw [e3, if_neg, hprev]
    intro hy
    exact hne e (.inr (List.mem_of_mem_head? hy)) rfl
  have hrem : Verif.BsdList.remove e st = .ok (st1.put s (st1.leNext e)) := by
    show (match st1.lePrev e with | none => Outcome.ub | some s => .ok (st1.put s (st1.leNext e))) = _
    rw [hs1]
  have g1 : ∀ t, t ≠ s → (st1.put s (st1.leNext e)).get t = st.get t := by
    intro t ht
    cases hs : s with
    | first k => cases t with
      | first k' =>
        have : k' ≠ k := by intro h; apply ht; rw [hs, h]
        simp [Store.put, Store.get, set, this, e1]
      | next k' => simp [Store.put, Store.get, e2]
    | next k => cases t with
      | first k' => simp [Store.put, Store.get, e1]
      | next k' =>
        have : k' ≠ k := by intro h; apply ht; rw [hs, h]
        simp [Store.put, Store.get, set, this, e2]
  have g2 : (st1.put s (st1.leNext e)).get s = ys.head? := by
    rw [e2, hget]
    cases s <;> simp [Store.put, Store.get, set]
  have g3 : ∀ x, (st1.put s (st1.leNext e)).lePrev x = if ys.head? = some x then some s else st.lePrev x := by
    intro x
    rw [← e3]
    cases s <;> rfl
  have g4 : ∀ x, Slot.next x ≠ s → (st1.put s (st1.leNext e)).leNext x = st.leNext x := fun x hx => g1 (.next x) hx
  refine ⟨_, hrem, ⟨?_, ?_, ?_⟩, fun t ht => g1 t ht, ?_⟩
  · intro k
    simp only [Lists.with]
    split
    · rename_i hk
      subst hk
      rw [chain_append]
      constructor
      · apply hseg.frame
        · intro hxs
          apply g1
          intro hs
          cases xs with
          | nil => exact hxs rfl
          | cons x xs =>
            simp only [s, lastSlot] at hs
            rcases List.eq_nil_or_concat xs with rfl | ⟨zs, z, rfl⟩
            · simp [lastSlot] at hs
            · rw [List.concat_eq_append, lastSlot_append] at hs; simp at hs
        · intro x hx
          apply g4
          simp only [s]
          rcases List.eq_nil_or_concat xs with rfl | ⟨zs, z, rfl⟩
          · simp at hx
          · simp only [List.concat_eq_append] at *
            rw [lastSlot_append]
            intro he
            cases he
            rw [List.dropLast_concat] at hx
            have := (List.nodup_append.mp (List.nodup_append.mp hnd).1).2.2
            exact this _ hx _ (by simp) rfl
        · intro x hx
          rw [g3, if_neg]
          intro hy
          exact hdis x hx x (List.mem_of_mem_head? hy) rfl
      · refine hch.move ?_ ?_ ?_ ?_
        · rw [g2]; simp only [Store.get, hget]
        · intro x hx
          apply g4
          intro hs
          rcases lastSlot_cases k xs with hs' | ⟨y, hy, hs'⟩
          · simp only [s, hs'] at hs; simp at hs
          · simp only [s, hs'] at hs; cases hs; exact hdis _ hy _ hx rfl
        · intro x hx
          rw [g3, if_neg]
          intro hy
          cases ys with
          | nil => simp at hx
          | cons z zs =>
            simp at hy; subst hy
            have := (List.nodup_cons.mp (List.nodup_append.mp hnd).2.1).2
            simp at this hx
            exact this.1 hx
        · intro x hx
          rw [g3, if_pos hx]
    · rename_i hk
      have hothers : ∀ x ∈ A k, x ∉ A h := fun x hx hx' => hk (r.disjoint k h x hx hx')
      apply (r.chain k).frame
      · apply g1
        intro hs
        rcases lastSlot_cases h xs with hs' | ⟨y, hy, hs'⟩
        · simp only [s, hs'] at hs; cases hs; exact hk rfl
        · simp only [s, hs'] at hs; simp at hs
      · intro x hx
        apply g4
        intro hs
        rcases lastSlot_cases h xs with hs' | ⟨y, hy, hs'⟩
        · simp only [s, hs'] at hs; simp at hs
        · simp only [s, hs'] at hs; cases hs; exact hothers _ hx (hmem _ (.inl hy))
      · intro x hx
        rw [g3, if_neg]
        intro hy
        exact hothers x hx (hmem x (.inr (List.mem_of_mem_head? hy)))
  · intro k
    simp only [Lists.with]
    split
    · exact hnd.sublist (by simp)
    · exact r.nodup k
  · intro k k' x hx hx'
    have key : ∀ k, x ∈ (A.with h (xs ++ ys)) k → x ∈ A k := by
      intro k hy
      simp only [Lists.with] at hy
      split at hy
      · rename_i hk
        subst hk
        exact hmem x (by simpa using hy)
      · exact hy
    exact r.disjoint k k' x (key k hx) (key k' hx')
  · intro x hx
    rw [g3, if_neg (fun h => hx h.symm)]

theorem Rep.init {st : Store} {A : Lists} (r : Rep st A) (h : Nat) : Rep (init h st) (A.with h []) := by
  refine ⟨?_, ?_, ?_⟩
  · intro k
    simp only [Lists.with]
    split
    · rename_i hk; subst hk; simp [Chain, Verif.BsdList.init, Store.get, set]
    · rename_i hk
      exact (r.chain k).frame (by simp [Verif.BsdList.init, Store.get, set, hk]) (fun _ _ => rfl) (fun _ _ => rfl)
  · intro k
    simp only [Lists.with]
    split
    · exact List.nodup_nil
    · exact r.nodup k
  · intro k k' x hx hx'
    simp only [Lists.with] at hx hx'
    split at hx
    · simp at hx
    · split at hx'
      · simp at hx'
      · exact r.disjoint k k' x hx hx'

theorem Rep.step {st : Store} {A B : Lists} {o : Op} (r : Rep st A) (hs : Step A o B) : ∃ st', exec st o = .ok st' ∧ Rep st' B := by
  cases hs with
  | init h => exact ⟨_, rfl, r.init h⟩
  | insertHead h e hf =>
    refine ⟨_, rfl, ?_⟩
    rw [insertHead_eq]
    exact r.insertAt (xs := []) (ys := A h) hf rfl
  | insertAfter h xs l ys e hf hA =>
    have hle : l ≠ e := by rintro rfl; exact hf h (by simp [hA])
    refine ⟨_, rfl, ?_⟩
    rw [insertAfter_eq hle]
    have := r.insertAt (h := h) (xs := xs ++ [l]) (ys := ys) hf (by simp [hA])
    rw [lastSlot_append] at this
    simpa using this
  | insertBefore h xs l ys e hf hA =>
    have hle : l ≠ e := by rintro rfl; exact hf h (by simp [hA])
    have hc := r.chain h
    rw [hA] at hc
    have hp := hc.mem_prev
    have hg := (chain_append.mp hc).2.1
    refine ⟨_, insertBefore_eq hle hp hg ?_, r.insertAt hf hA⟩
    rcases lastSlot_cases h xs with hs | ⟨x, hx, hs⟩
    · rw [hs]; simp
    · rw [hs]; intro he; cases he; exact hf h (by simp [hA, hx])
  | remove h xs e ys hA =>
    obtain ⟨st', h1, h2, _⟩ := r.remove hA
    exact ⟨st', h1, h2⟩

theorem Rep.steps {st : Store} {A B : Lists} {os : List Op} (r : Rep st A) (hs : Steps A os B) : ∃ st', execAll os st = .ok st' ∧ Rep st' B := by
  induction hs generalizing st with
  | nil A => exact ⟨st, rfl, r⟩
  | cons h _ ih =>
    obtain ⟨st1, h1, r1⟩ := r.step h
    obtain ⟨st2, h2, r2⟩ := ih r1
    exact ⟨st2, by simp [execAll, h1, h2], r2⟩

theorem Rep.new {st : Store} (h : ∀ k, st.lhFirst k = none) : Rep st (fun _ => []) :=
  ⟨fun k => by simp [Chain, Store.get, h], fun _ => List.nodup_nil, fun _ _ _ hx => by simp at hx⟩

end Verif.BsdList
