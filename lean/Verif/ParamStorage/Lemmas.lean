import Verif.ParamStorage.Spec
namespace Verif.ParamStorage
open Verif Verif.ParamStorage.Spec

theorem wholeL_append (a b : List View) : wholeL (a ++ b) ↔ wholeL a ∧ wholeL b := by
  induction a with
  | nil => simp [wholeL]
  | cons x xs ih => simp [wholeL, ih, and_assoc]
theorem views_append (a b : List Item) : views (a ++ b) = views a ++ views b := by
  induction a with
  | nil => simp [views]
  | cons x xs ih => simp [views, ih]
theorem ownedL_append (a b : List Item) : ownedL (a ++ b) = ownedL a ++ ownedL b := by
  induction a with
  | nil => simp [ownedL]
  | cons x xs ih => simp [ownedL, ih]
theorem GoodL_append (a b : List Item) : GoodL (a ++ b) ↔ GoodL a ∧ GoodL b := by
  induction a with
  | nil => simp [GoodL]
  | cons x xs ih => simp [GoodL, ih, and_assoc]
theorem views_length (a : List Item) : (views a).length = a.length := by
  induction a with
  | nil => rfl
  | cons x xs ih => simp [views, ih]

/-! ### Freeing -/

def freeAll : List Nat → Heap → Outcome Heap
  | [], h => .ok h
  | b :: bs, h => do
    let h ← h.free b
    freeAll bs h

theorem freeAll_append (a b : List Nat) (h : Heap) :
    freeAll (a ++ b) h = (freeAll a h >>= freeAll b) := by
  induction a generalizing h with
  | nil => rfl
  | cons x xs ih =>
    simp only [List.cons_append, freeAll]
    cases h.free x with
    | ok h' => simp only [Outcome.bind_ok]; exact ih h'
    | abort => rfl
    | ub => rfl
    | hang => rfl

theorem freeAll_one (b : Nat) (h : Heap) : freeAll [b] h = h.free b := by
  simp only [freeAll]
  cases h.free b <;> rfl

theorem freeAll_toList (d : Option Nat) (h : Heap) :
    freeAll d.toList h = (match d with | some d => h.free d | none => .ok h) := by
  cases d with
  | none => rfl
  | some d => exact freeAll_one d h

theorem bind_assoc' {α β γ : Type} (x : Outcome α) (f : α → Outcome β) (g : β → Outcome γ) :
    ((x >>= f) >>= g) = (x >>= fun a => f a >>= g) := by cases x <;> rfl

mutual
theorem cleanupItem_eq (x : Item) (hg : Good x) (h : Heap) : cleanupItem x h = freeAll (owned x) h := by
  cases x with
  | buf node e dyn block bs =>
    simp only [cleanupItem, owned, freeAll, freeAll_append, freeAll_toList]
    cases h.free block with
    | ok h' =>
      simp only [Outcome.bind_ok]
      cases dyn with
      | none => simp only [Outcome.bind_ok]; exact (freeAll_one _ _).symm
      | some d =>
        simp only []
        cases h'.free d with
        | ok h'' => simp only [Outcome.bind_ok]; exact (freeAll_one _ _).symm
        | abort => rfl
        | ub => rfl
        | hang => rfl
    | abort => rfl
    | ub => rfl
    | hang => rfl
  | nested node e dyn inner items size last =>
    simp only [Good] at hg
    simp only [cleanupItem, owned, freeAll_append, freeAll_toList]
    cases inner with
    | none =>
      have : items = [] := hg.2.1 rfl
      subst this
      simp only [Outcome.bind_ok]
      show _ = freeAll (dyn.toList ++ [node]) h
      rw [freeAll_append, freeAll_toList]
      cases dyn with
      | none => simp only [Outcome.bind_ok]; exact (freeAll_one _ _).symm
      | some d =>
        simp only []
        cases h.free d with
        | ok h'' => simp only [Outcome.bind_ok]; exact (freeAll_one _ _).symm
        | abort => rfl
        | ub => rfl
        | hang => rfl
    | some b =>
      simp only []
      rw [cleanupItems_eq items hg.2.2.1 h]
      cases freeAll (ownedL items) h with
      | ok h' =>
        simp only [Outcome.bind_ok]
        rw [freeAll_append, freeAll_toList]
        simp only []
        cases h'.free b with
        | ok h' =>
          simp only [Outcome.bind_ok]
          rw [freeAll_append, freeAll_toList]
          cases dyn with
          | none => simp only [Outcome.bind_ok]; exact (freeAll_one _ _).symm
          | some d =>
            simp only []
            cases h'.free d with
            | ok h'' => simp only [Outcome.bind_ok]; exact (freeAll_one _ _).symm
            | abort => rfl
            | ub => rfl
            | hang => rfl
        | abort => rfl
        | ub => rfl
        | hang => rfl
      | abort => rfl
      | ub => rfl
      | hang => rfl
theorem cleanupItems_eq (xs : List Item) (hg : GoodL xs) (h : Heap) : cleanupItems xs h = freeAll (ownedL xs) h := by
  cases xs with
  | nil => rfl
  | cons x xs =>
    simp only [GoodL] at hg
    simp only [cleanupItems, ownedL, freeAll_append]
    rw [cleanupItem_eq x hg.1]
    congr 1
    funext h'
    exact cleanupItems_eq xs hg.2 h'
end

theorem freeAll_ok (bs : List Nat) (h : Heap) (hn : bs.Nodup) (hl : ∀ b ∈ bs, h.live b = true) :
    ∃ h', freeAll bs h = .ok h' ∧ h'.next = h.next ∧ h'.fails = h.fails ∧
      ∀ x, h'.live x = (h.live x && !decide (x ∈ bs)) := by
  induction bs generalizing h with
  | nil => exact ⟨h, rfl, rfl, rfl, by simp⟩
  | cons b bs ih =>
    rw [List.nodup_cons] at hn
    have hb := hl b (by simp)
    simp only [freeAll, Heap.free, hb, if_true, Outcome.bind_ok]
    obtain ⟨h', h1, h2, h3, h4⟩ := ih { h with live := fun x => x != b && h.live x } hn.2 (by
      intro x hx
      have hne : x ≠ b := fun e => hn.1 (e ▸ hx)
      simp [hne, hl x (by simp [hx])])
    refine ⟨h', h1, h2, h3, ?_⟩
    intro x
    rw [h4]
    by_cases e : x = b
    · simp [e]
    · have : (x != b) = true := by simp [e]
      simp [e, this]

theorem delete_ok (st : Sto) (h : Heap) (hc : Consistent st h) :
    ∃ h', delete (some st) h = .ok h' ∧ h'.next = h.next ∧ h'.fails = h.fails ∧
      ∀ x, h'.live x = (h.live x && !decide (x ∈ st.block :: ownedL st.items)) := by
  obtain ⟨h1, h2, h3, h4, _, _⟩ := hc
  have hp : (ownedL st.items ++ [st.block]).Nodup := by
    rw [List.nodup_append]
    rw [List.nodup_cons] at h2
    refine ⟨h2.2, by simp, ?_⟩
    intro a ha b hb
    rw [List.mem_singleton] at hb
    intro e
    subst e; subst hb
    exact h2.1 ha
  obtain ⟨h', e1, e2, e3, e4⟩ := freeAll_ok (ownedL st.items ++ [st.block]) h hp (by
    intro b hb
    apply h3
    rw [List.mem_append, List.mem_singleton] at hb
    rw [List.mem_cons]
    exact hb.symm)
  refine ⟨h', ?_, e2, e3, ?_⟩
  · simp only [delete, cleanup]
    rw [cleanupItems_eq _ h4]
    rw [freeAll_append] at e1
    cases hf : freeAll (ownedL st.items) h with
    | ok h'' =>
      rw [hf] at e1
      simp only [Outcome.bind_ok, Outcome.pure_eq] at e1 ⊢
      rw [freeAll_one] at e1
      exact e1
    | abort => rw [hf] at e1; simp at e1
    | ub => rw [hf] at e1; simp at e1
    | hang => rw [hf] at e1; simp at e1
  · intro x
    rw [e4]
    congr 2
    simp only [decide_eq_decide]
    rw [List.mem_append, List.mem_singleton, List.mem_cons, or_comm]

theorem cleanup_ok (st : Sto) (h : Heap) (hc : Consistent st h) :
    ∃ h', cleanup (some st) h = .ok (some ⟨st.block, [], 0, none⟩, h') ∧ h'.next = h.next ∧ h'.fails = h.fails ∧
      ∀ x, h'.live x = (h.live x && !decide (x ∈ ownedL st.items)) := by
  obtain ⟨h1, h2, h3, h4, _, _⟩ := hc
  rw [List.nodup_cons] at h2
  obtain ⟨h', e1, e2, e3, e4⟩ := freeAll_ok (ownedL st.items) h h2.2 (fun b hb => h3 b (by simp [hb]))
  refine ⟨h', ?_, e2, e3, e4⟩
  simp only [cleanup]
  rw [cleanupItems_eq _ h4, e1]
  rfl

/-! ### Allocation -/

theorem alloc_some {h : Heap} {b : Nat} {h' : Heap} (e : h.alloc = (some b, h')) :
    b = h.next ∧ h'.next = h.next + 1 ∧ h'.fails = h.fails ∧ (∀ x, h'.live x = (x == b || h.live x)) := by
  unfold Heap.alloc at e
  split at e
  · simp at e
  · simp only [Prod.mk.injEq, Option.some.injEq] at e
    obtain ⟨e1, e2⟩ := e
    subst e1; subst e2
    exact ⟨rfl, rfl, rfl, fun x => rfl⟩

theorem alloc_none {h : Heap} {h' : Heap} (e : h.alloc = (none, h')) :
    h'.next = h.next + 1 ∧ h'.fails = h.fails ∧ h'.live = h.live := by
  unfold Heap.alloc at e
  split at e
  · simp only [Prod.mk.injEq] at e
    obtain ⟨_, e2⟩ := e
    subst e2
    exact ⟨rfl, rfl, rfl⟩
  · simp at e

theorem alloc_fail {h : Heap} {h' : Heap} (e : h.alloc = (none, h')) : ∃ k, h.fails k = true := by
  unfold Heap.alloc at e
  split at e
  · rename_i hk; exact ⟨_, hk⟩
  · simp at e

/-- The heap only got new blocks. -/
structure Grows (h h' : Heap) (new : List Nat) : Prop where
  next : h.next ≤ h'.next
  fails : h'.fails = h.fails
  live : ∀ x, h'.live x = (h.live x || decide (x ∈ new))
  fresh : ∀ x ∈ new, h.next ≤ x ∧ x < h'.next
  nodup : new.Nodup

theorem Grows.ok {h h' : Heap} {new : List Nat} (g : Grows h h' new) (ho : h.Ok) : h'.Ok := by
  intro x hx
  rw [g.live] at hx
  simp only [Bool.or_eq_true, decide_eq_true_eq] at hx
  rcases hx with hx | hx
  · exact Nat.lt_of_lt_of_le (ho x hx) g.next
  · exact (g.fresh x hx).2

theorem Grows.refl (h : Heap) : Grows h h [] := ⟨Nat.le_refl _, rfl, by simp, by simp, by simp⟩

theorem Grows.trans {h1 h2 h3 : Heap} {a b : List Nat} (g1 : Grows h1 h2 a) (g2 : Grows h2 h3 b) :
    Grows h1 h3 (a ++ b) := by
  refine ⟨Nat.le_trans g1.next g2.next, by rw [g2.fails, g1.fails], ?_, ?_, ?_⟩
  · intro x; rw [g2.live, g1.live]; simp [Bool.or_assoc]
  · intro x hx
    rcases List.mem_append.1 hx with hx | hx
    · have := g1.fresh x hx; have := g2.next; omega
    · have := g2.fresh x hx; have := g1.next; omega
  · rw [List.nodup_append]
    refine ⟨g1.nodup, g2.nodup, ?_⟩
    intro x hx y hy e
    have h1 := g1.fresh x hx
    have h2 := g2.fresh y hy
    omega

theorem Grows.perm {h1 h2 : Heap} {a b : List Nat} (g : Grows h1 h2 a) (hm : ∀ x, x ∈ a ↔ x ∈ b) (hn : b.Nodup) :
    Grows h1 h2 b :=
  ⟨g.next, g.fails, fun x => by rw [g.live]; congr 1; simp [hm], fun x hx => g.fresh x ((hm x).2 hx), hn⟩

theorem alloc_grows {h h' : Heap} {b : Option Nat} (e : h.alloc = (b, h')) : Grows h h' b.toList := by
  cases b with
  | none =>
    obtain ⟨h1, h2, h3⟩ := alloc_none e
    exact ⟨by omega, h2, by simp [h3], by simp, by simp⟩
  | some b =>
    obtain ⟨h1, h2, h3, h4⟩ := alloc_some e
    refine ⟨by omega, h3, ?_, ?_, by simp⟩
    · intro x; rw [h4]; simp [Bool.or_comm]; cases h.live x <;> rfl
    · simp; omega

/-- Freeing a block just allocated. -/
theorem free_new {h h' : Heap} {b : Nat} {rest : List Nat} (ho : h.Ok) (g : Grows h h' (b :: rest)) :
    ∃ h'', h'.free b = .ok h'' ∧ Grows h h'' rest := by
  have hl : h'.live b = true := by rw [g.live]; simp
  refine ⟨{ h' with live := fun x => x != b && h'.live x }, by simp [Heap.free, hl], g.next, g.fails, ?_, ?_, ?_⟩
  · intro x
    simp only []
    rw [g.live]
    have hb := g.fresh b (by simp)
    have hn := g.nodup
    rw [List.nodup_cons] at hn
    by_cases e : x = b
    · subst e
      have : h.live x = false := by
        cases hlx : h.live x with
        | false => rfl
        | true => have := ho x hlx; omega
      simp [this, hn.1]
    · simp [e]
  · intro x hx; exact g.fresh x (by simp [hx])
  · exact (List.nodup_cons.1 g.nodup).2

/-! ### Appending -/

theorem insertAfter_last (items : List Item) (new x : Item) (hx : items.getLast? = some x)
    (hn : (items.map Item.node).Nodup) : insertAfter x.node new items = some (items ++ [new]) := by
  induction items with
  | nil => simp at hx
  | cons y ys ih =>
    simp only [List.map_cons, List.nodup_cons] at hn
    cases ys with
    | nil => simp at hx; subst hx; simp [insertAfter]
    | cons z zs =>
      have hx' : (z :: zs).getLast? = some x := by simpa [List.getLast?_cons_cons] using hx
      have hne : y.node ≠ x.node := by
        intro e
        apply hn.1
        rw [e]
        exact List.mem_map_of_mem (List.mem_of_getLast? hx')
      unfold insertAfter
      rw [if_neg hne, ih hx' hn.2]
      rfl

theorem node_mem_owned (x : Item) : x.node ∈ owned x := by
  cases x <;> simp [Item.node, owned]

theorem owned_mem_ownedL {x : Item} {xs : List Item} (h : x ∈ xs) {b : Nat} (hb : b ∈ owned x) : b ∈ ownedL xs := by
  induction xs with
  | nil => simp at h
  | cons y ys ih =>
    simp only [ownedL, List.mem_append]
    rcases List.mem_cons.1 h with rfl | h
    · exact .inl hb
    · exact .inr (ih h)

theorem nodes_nodup (xs : List Item) (h : (ownedL xs).Nodup) : (xs.map Item.node).Nodup := by
  induction xs with
  | nil => simp
  | cons x xs ih =>
    simp only [ownedL] at h
    rw [List.nodup_append] at h
    simp only [List.map_cons, List.nodup_cons]
    refine ⟨?_, ih h.2.1⟩
    intro hm
    obtain ⟨y, hy, e⟩ := List.mem_map.1 hm
    exact h.2.2 _ (node_mem_owned x) _ (owned_mem_ownedL hy (node_mem_owned y)) e.symm

theorem appendRaw_spec (st : Sto) (dynamic : Bool) (mk : Nat → Option Nat → Item) (h0 h : Heap) (extra : List Nat)
    (ho : h0.Ok) (hg : Grows h0 h extra)
    (hn : (ownedL st.items).Nodup) (hlast : st.last = (st.items.getLast?).map Item.node)
    (hmk : ∀ n d, (mk n d).node = n) :
    (∃ h', appendRaw (some st) dynamic mk h = .ok (none, h') ∧ Grows h0 h' extra ∧ ∃ k, h.fails k = true) ∨
    (∃ h' n d, appendRaw (some st) dynamic mk h =
        .ok (some { st with items := st.items ++ [mk n d], size := st.size + 1, last := some n }, h') ∧
      Grows h0 h' (extra ++ (n :: d.toList))) := by
  have _ := hmk
  have hins : ∀ new : Item, st.last = none → st.items = [] := by
    intro _ e
    rw [hlast] at e
    simpa using e
  simp only [appendRaw]
  cases ha : h.alloc with
  | mk o h1 =>
    cases o with
    | none =>
      left
      refine ⟨h1, rfl, ?_, alloc_fail ha⟩
      have := hg.trans (alloc_grows ha)
      simpa using this
    | some node =>
      have g1 := hg.trans (alloc_grows ha)
      simp only [Option.toList_some] at g1
      have ins : ∀ (d : Option Nat) (h' : Heap),
          (match st.last with
          | none => Outcome.ok (some { st with items := mk node d :: st.items, size := st.size + 1, last := some node }, h')
          | some k =>
            match insertAfter k (mk node d) st.items with
            | none => .ub
            | some items => .ok (some { st with items := items, size := st.size + 1, last := some node }, h')) =
          .ok (some { st with items := st.items ++ [mk node d], size := st.size + 1, last := some node }, h') := by
        intro d h'
        cases hl : st.last with
        | none => simp [hins (mk node d) hl]
        | some k =>
          rw [hlast] at hl
          obtain ⟨x, hx, hk⟩ := Option.map_eq_some_iff.1 hl
          simp only [← hk, insertAfter_last st.items (mk node d) x hx (nodes_nodup _ hn)]
      cases dynamic with
      | false =>
        right
        refine ⟨h1, node, none, ?_, ?_⟩
        · simp only [Bool.false_eq_true, if_false]
          exact ins none h1
        · simpa using g1
      | true =>
        simp only [if_true]
        cases hb : h1.alloc with
        | mk o2 h2 =>
          have g2 := g1.trans (alloc_grows hb)
          cases o2 with
          | none =>
            left
            simp only [Option.toList_none, List.append_nil] at g2
            have g3 : Grows h0 h2 (node :: extra) := g2.perm (by simp [or_comm]) (by
              have := g2.nodup
              rw [List.nodup_append] at this
              rw [List.nodup_cons]
              refine ⟨?_, this.1⟩
              intro hm
              exact this.2.2 _ hm node (by simp) rfl)
            obtain ⟨h3, e3, g4⟩ := free_new ho g3
            refine ⟨h3, ?_, g4, ?_⟩
            · simp only [e3, Outcome.bind_ok, Outcome.pure_eq]
            · obtain ⟨k, hk⟩ := alloc_fail hb
              rw [(alloc_grows ha).fails] at hk
              exact ⟨k, hk⟩
          | some d =>
            right
            refine ⟨h2, node, some d, ?_, ?_⟩
            · simp only []; exact ins (some d) h2
            · simpa using g2

theorem owned_lt {st : Sto} {h : Heap} (hc : Consistent st h) : ∀ b ∈ st.block :: ownedL st.items, b < h.next :=
  fun b hb => hc.1 b (hc.2.2.1 b hb)

/-- Adding an item made of new blocks keeps the storage consistent. -/
theorem Consistent_append {st : Sto} {h h' : Heap} (hc : Consistent st h) (x : Item) (hg : Grows h h' (owned x))
    (hx : Good x) :
    Consistent { st with items := st.items ++ [x], size := st.size + 1, last := some x.node } h' := by
  have hlt := owned_lt hc
  obtain ⟨h1, h2, h3, h4, h5, h6⟩ := hc
  have hoL : ownedL (st.items ++ [x]) = ownedL st.items ++ owned x := by
    rw [ownedL_append]; simp [ownedL]
  refine ⟨hg.ok h1, ?_, ?_, ?_, ?_, ?_⟩
  · simp only [hoL]
    rw [← List.cons_append, List.nodup_append]
    refine ⟨h2, hg.nodup, ?_⟩
    intro a ha b hb e
    have := hlt a ha
    have := hg.fresh b hb
    omega
  · simp only [hoL]
    intro b hb
    rw [← List.cons_append, List.mem_append] at hb
    rw [hg.live]
    rcases hb with hb | hb
    · simp [h3 b hb]
    · simp [hb]
  · simp only [GoodL_append, GoodL, and_true]
    exact ⟨h4, hx⟩
  · simp [h5]
  · simp

/-- A consistent storage stays so when the heap gets new blocks. -/
theorem Consistent_grows {st : Sto} {h h' : Heap} {new : List Nat} (hc : Consistent st h) (hg : Grows h h' new) :
    Consistent st h' := by
  obtain ⟨h1, h2, h3, h4, h5, h6⟩ := hc
  refine ⟨hg.ok h1, h2, ?_, h4, h5, h6⟩
  intro b hb
  rw [hg.live, h3 b hb]; rfl

theorem nodup_rot {a b : List Nat} (h : (a ++ b).Nodup) : (b ++ a).Nodup := by
  rw [List.nodup_append] at *
  exact ⟨h.2.1, h.1, fun x hx y hy e => h.2.2 y hy x hx e.symm⟩

theorem appendBuffer_spec (st : Sto) (e : Option EntryArg) (n : Int) (h : Heap) (hc : Consistent st h) :
    (∃ r h', appendBuffer (some st) e n h = .ok (r, some st, h') ∧ r ≠ 0 ∧ Grows h h' [] ∧
      ((∃ k, h.fails k = true) ∨ e = none ∨ n ≤ 0)) ∨
    (∃ e0 node d addr h', e = some e0 ∧ 0 < n ∧
      appendBuffer (some st) e n h =
        .ok (0, some { st with items := st.items ++ [.buf node e0 d addr (List.replicate n.toNat 0)],
                               size := st.size + 1, last := some node }, h') ∧
      Grows h h' (owned (.buf node e0 d addr (List.replicate n.toNat 0)))) := by
  cases e with
  | none => left; exact ⟨EINVAL, h, rfl, by decide, Grows.refl h, Or.inr (.inl rfl)⟩
  | some e0 =>
    simp only [appendBuffer]
    by_cases hn : n ≤ 0
    · left; exact ⟨EINVAL, h, by rw [if_pos hn], by decide, Grows.refl h, Or.inr (.inr hn)⟩
    · rw [if_neg hn]
      cases ha : h.alloc with
      | mk o h1 =>
        have g1 := alloc_grows ha
        cases o with
        | none =>
          left
          exact ⟨ENOMEM, h1, rfl, by decide, by simpa using g1, .inl (alloc_fail ha)⟩
        | some addr =>
          simp only [Option.toList_some] at g1
          simp only []
          rcases appendRaw_spec st e0.dyn (fun n' d => .buf n' e0 d addr (List.replicate n.toNat 0)) h h1 [addr]
              hc.1 g1 (List.nodup_cons.1 hc.2.1).2 hc.2.2.2.2.2 (fun _ _ => rfl) with ⟨h2, e2, g2, k, hk⟩ | ⟨h2, node, d, e2, g2⟩
          · left
            obtain ⟨h3, e3, g3⟩ := free_new hc.1 g2
            refine ⟨EFAULT, h3, ?_, by decide, g3, .inl ⟨k, by rw [← g1.fails]; exact hk⟩⟩
            rw [e2]; simp only [Outcome.bind_ok, e3, Outcome.pure_eq]
          · right
            refine ⟨e0, node, d, addr, h2, rfl, by omega, ?_, ?_⟩
            · rw [e2]; rfl
            · refine g2.perm ?_ ?_
              · intro x
                simp only [owned, List.mem_append, List.mem_cons, List.mem_singleton]
                simp only [List.not_mem_nil, or_false]
                constructor
                · rintro (h | h | h) <;> simp [h]
                · rintro (h | h | h) <;> simp [h]
              · have := g2.nodup
                simp only [owned]
                rw [List.cons_append, List.nil_append, List.nodup_cons] at this
                rw [List.nodup_cons]
                refine ⟨?_, nodup_rot (a := [node]) this.2⟩
                intro hm
                apply this.1
                rw [List.mem_append, List.mem_singleton] at hm
                rw [List.mem_cons]
                exact hm.symm

theorem appendNested_spec (st : Sto) (e : EntryArg) (hva : e.va = true) (h : Heap) (hc : Consistent st h) :
    (∃ r h', appendNested (some st) (some e) h = .ok (r, some st, h') ∧ r ≠ 0 ∧ Grows h h' [] ∧
      ∃ k, h.fails k = true) ∨
    (∃ node d inner h',
      appendNested (some st) (some e) h =
        .ok (0, some { st with items := st.items ++ [.nested node e d inner [] 0 none],
                               size := st.size + 1, last := some node }, h') ∧
      (inner = none → ∃ k, h.fails k = true) ∧
      Grows h h' (owned (.nested node e d inner [] 0 none))) := by
  simp only [appendNested, hva, Bool.not_true, Bool.false_eq_true, if_false, newStorage]
  cases ha : h.alloc with
  | mk o h1 =>
    have g1 := alloc_grows ha
    have key : ∀ (inner : Option Sto), inner.map (·.block) = o → (∀ s, inner = some s → s.items = []) →
        (∃ r h', (do
            match ← appendRaw (some st) e.dyn (fun n d => .nested n e d (inner.map (·.block)) [] 0 none) h1 with
            | (none, h) => do
              let h ← delete inner h
              return (EFAULT, some st, h)
            | (some st', h) => return (0, some st', h) : Outcome (Int × Option Sto × Heap)) = .ok (r, some st, h') ∧
            r ≠ 0 ∧ Grows h h' [] ∧ ∃ k, h.fails k = true) ∨
        (∃ node d inner' h', (do
            match ← appendRaw (some st) e.dyn (fun n d => .nested n e d (inner.map (·.block)) [] 0 none) h1 with
            | (none, h) => do
              let h ← delete inner h
              return (EFAULT, some st, h)
            | (some st', h) => return (0, some st', h) : Outcome (Int × Option Sto × Heap)) =
              .ok (0, some { st with items := st.items ++ [.nested node e d inner' [] 0 none],
                                     size := st.size + 1, last := some node }, h') ∧
            (inner' = none → ∃ k, h.fails k = true) ∧
            Grows h h' (owned (.nested node e d inner' [] 0 none))) := by
      intro inner hin hempty
      rcases appendRaw_spec st e.dyn (fun n' d => .nested n' e d (inner.map (·.block)) [] 0 none) h h1 o.toList
          hc.1 g1 (List.nodup_cons.1 hc.2.1).2 hc.2.2.2.2.2 (fun _ _ => rfl) with ⟨h2, e2, g2, k, hk⟩ | ⟨h2, node, d, e2, g2⟩
      · left
        have hk' : ∃ k, h.fails k = true := ⟨k, by rw [← g1.fails]; exact hk⟩
        cases inner with
        | none =>
          simp only [Option.map_none] at hin
          subst hin
          refine ⟨EFAULT, h2, ?_, by decide, by simpa using g2, hk'⟩
          rw [e2]
          simp [delete]
        | some s =>
          simp only [Option.map_some] at hin
          subst hin
          obtain ⟨h3, e3, g3⟩ := free_new hc.1 g2
          refine ⟨EFAULT, h3, ?_, by decide, g3, hk'⟩
          rw [e2]
          simp [delete, cleanup, hempty s rfl, cleanupItems, e3]
      · right
        refine ⟨node, d, inner.map (·.block), h2, ?_, ?_, ?_⟩
        · rw [e2]; rfl
        · intro hn
          rw [hin] at hn
          subst hn
          exact alloc_fail ha
        · rw [hin]
          refine g2.perm ?_ ?_
          · intro x
            simp only [owned, ownedL, List.nil_append, List.mem_append, List.mem_cons, List.not_mem_nil, or_false]
            constructor
            · rintro (h | h | h) <;> simp [h]
            · rintro (h | h | h) <;> simp [h]
          · have := g2.nodup
            simp only [owned, ownedL, List.nil_append]
            rw [List.nodup_append] at *
            refine ⟨this.1, nodup_rot (a := [node]) this.2.1, ?_⟩
            intro a ha b hb
            apply this.2.2 a ha b
            rw [List.mem_append, List.mem_singleton] at hb
            rw [List.mem_cons]
            exact hb.symm
    cases o with
    | none => exact key none rfl (by simp)
    | some b => exact key (some ⟨b, [], 0, none⟩) rfl (by simp)

end Verif.ParamStorage
