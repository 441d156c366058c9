import Verif.ParamStorage.Copy
/-
Property theorems of the parameter storage (C38, C39).
-/
namespace Verif.ParamStorage
open Verif Verif.ParamStorage.Spec

/-- C38 (partial: see the last clause).  Any sequence of requests on a consistent storage is
answered (no crash, whatever allocations fail); afterwards the storage holds what it held
before followed by one item per request answered 0, in order, with the requested entry and
that many zero bytes or an empty nested storage; the size is the number of items; the new
items use only new blocks.  If no allocation fails, exactly the valid requests are
accepted and no nested storage is NULL.
Missing: when an allocation fails a nested storage may be accepted and be NULL
(`Answers.null`), see `C38_null_nested_accepted`. -/
theorem C38_append_history_partial (ops : List Op) (hops : ∀ op ∈ ops, Allowed op) (st : Sto) (h : Heap)
    (hc : Consistent st h) :
    ∃ rs st' h' vs, run ops st h = .ok (rs, st', h') ∧ rs.length = ops.length ∧
      Consistent st' h' ∧ st'.block = st.block ∧
      views st'.items = views st.items ++ vs ∧ AllAnswer (accepted ops rs) vs ∧
      size (some st') = size (some st) + (accepted ops rs).length ∧
      (∀ x, h'.live x = true ↔ h.live x = true ∨ x ∈ ownedL st'.items) ∧
      ((∀ k, h.fails k = false) →
        wholeL vs ∧
        ∀ (i : Nat) (op : Op) (r : Int), ops[i]? = some op → rs[i]? = some r → (r = 0 ↔ Valid op)) := by
  obtain ⟨rs, new, h', e, hlen, g, hg, ha, hw⟩ := run_spec ops hops st h hc
  refine ⟨rs, extend st new, h', views new, e, hlen, Consistent_appendL hc new g hg, rfl,
    views_append _ _, ha, ?_, ?_, hw⟩
  · have := AllAnswer_length ha
    rw [views_length] at this
    simp [size, extend, this]
  · intro x
    rw [g.live]
    simp only [Bool.or_eq_true, decide_eq_true_eq, extend, ownedL_append, List.mem_append]
    constructor
    · rintro (h | h)
      · exact .inl h
      · exact .inr (.inr h)
    · rintro (h | h | h)
      · exact .inl h
      · exact .inl (hc.2.2.1 x (by simp [h]))
      · exact .inr h

/-- C38, reading: an id gives a value exactly if it is in range (and the stored address is
not NULL), with the entry of that item; the addresses of different ids are different
live blocks. -/
theorem C38_index (st : Sto) (h : Heap) (hc : Consistent st h) (id : Int) :
    (id < 0 ∨ (size (some st) : Int) ≤ id → newParamValue st id = none) ∧
    (0 ≤ id → ∀ v, (views st.items)[id.toNat]? = some v →
      match v with
      | .bytes e _ => ∃ b, newParamValue st id = some (e, b) ∧ h.live b = true
      | .list e _ => ∃ b, newParamValue st id = some (e, b) ∧ h.live b = true
      | .null _ => newParamValue st id = none) ∧
    (∀ (id2 : Int) e1 e2 b, newParamValue st id = some (e1, b) → newParamValue st id2 = some (e2, b) → id = id2) := by
  obtain ⟨h1, h2, h3, h4, h5, h6⟩ := hc
  have hviews : ∀ (xs : List Item) (i : Nat), (views xs)[i]? = (xs[i]?).map view := by
    intro xs
    induction xs with
    | nil => simp [views]
    | cons x xs ih =>
      intro i
      cases i with
      | zero => simp [views]
      | succ i => simp [views, ih]
  have hmem : ∀ (id : Int) e b, newParamValue st id = some (e, b) →
      0 ≤ id ∧ ∃ x, st.items[id.toNat]? = some x ∧ b ∈ owned x := by
    intro id e b hh
    unfold newParamValue at hh
    split at hh
    · simp at hh
    · rename_i hid
      refine ⟨by omega, ?_⟩
      split at hh
      · simp at hh
      · rename_i hx
        simp only [Option.some.injEq, Prod.mk.injEq] at hh
        exact ⟨_, hx, by simp [owned, hh.2]⟩
      · rename_i inner _ _ _ hx
        cases inner with
        | none => simp at hh
        | some c =>
          simp only [Option.map_some, Option.some.injEq, Prod.mk.injEq] at hh
          exact ⟨_, hx, by simp [owned, hh.2]⟩
  refine ⟨?_, ?_, ?_⟩
  · intro hid
    unfold newParamValue
    split
    · rfl
    · rename_i h0
      have : st.items[id.toNat]? = none := by
        rw [List.getElem?_eq_none_iff]
        simp only [size] at hid
        omega
      rw [this]
  · intro h0 v hv
    rw [hviews] at hv
    obtain ⟨x, hx, rfl⟩ := Option.map_eq_some_iff.1 hv
    have hlive : ∀ b ∈ owned x, h.live b = true := fun b hb =>
      h3 b (List.mem_cons_of_mem _ (owned_mem_ownedL (List.mem_of_getElem? hx) hb))
    have hnot : ¬ id < 0 := by omega
    cases x with
    | buf n e d b bs =>
      simp only [view]
      refine ⟨b, ?_, hlive b (by simp [owned])⟩
      simp only [newParamValue, if_neg hnot, hx]
    | nested n e d inner items sz la =>
      cases inner with
      | none =>
        simp only [view, newParamValue, if_neg hnot, hx]
        rfl
      | some b =>
        simp only [view]
        refine ⟨b, ?_, hlive b (by simp [owned])⟩
        simp only [newParamValue, if_neg hnot, hx]
        rfl
  · intro id2 e1 e2 b ha hb
    obtain ⟨p1, x1, q1, m1⟩ := hmem id e1 b ha
    obtain ⟨p2, x2, q2, m2⟩ := hmem id2 e2 b hb
    have hn := (List.nodup_cons.1 h2).2
    have key : ∀ (xs : List Item) (i j : Nat) (x y : Item), (ownedL xs).Nodup → xs[i]? = some x → xs[j]? = some y →
        b ∈ owned x → b ∈ owned y → i = j := by
      intro xs
      induction xs with
      | nil => intro i j x y _ hx; simp at hx
      | cons z zs ih =>
        intro i j x y hn hx hy mx my
        simp only [ownedL] at hn
        rw [List.nodup_append] at hn
        cases i with
        | zero =>
          cases j with
          | zero => rfl
          | succ j =>
            simp at hx hy
            subst hx
            exact absurd rfl (hn.2.2 b mx b (owned_mem_ownedL (List.mem_of_getElem? hy) my))
        | succ i =>
          cases j with
          | zero =>
            simp at hx hy
            subst hy
            exact absurd rfl (hn.2.2 b my b (owned_mem_ownedL (List.mem_of_getElem? hx) mx))
          | succ j =>
            simp at hx hy
            rw [ih i j x y hn.2.1 hx hy mx my]
    have := key st.items _ _ x1 x2 hn q1 q2 m1 m2
    omega

/-- C38, failure: a request that is not answered 0 leaves the storage and the allocated
blocks as they were. -/
theorem C38_failed_append_changes_nothing (op : Op) (ha : Allowed op) (st : Sto) (h : Heap) (hc : Consistent st h)
    (r : Int) (st' : Option Sto) (h' : Heap) (e : request op st h = .ok (r, st', h')) (hr : r ≠ 0) :
    st' = some st ∧ ∀ x, h'.live x = h.live x := by
  obtain ⟨r2, new, h2, e2, g, _, hans, _⟩ := request_spec op ha st h hc
  rw [e] at e2
  injection e2 with e2
  simp only [Prod.mk.injEq] at e2
  obtain ⟨rfl, rfl, rfl⟩ := e2
  rw [if_neg hr] at hans
  have : new = [] := by
    cases new with
    | nil => rfl
    | cons x xs => simp only [views] at hans; cases hans
  subst this
  refine ⟨by rw [extend_nil hc], fun x => by rw [g.live]; simp [ownedL]⟩

/-- A NULL storage is refused. -/
theorem C38_null_storage (e : Option EntryArg) (n : Int) (h : Heap) :
    appendBuffer none e n h = .ok (EINVAL, none, h) ∧ size none = 0 := ⟨rfl, rfl⟩

def exE : EntryArg := ⟨1, false, false⟩
def exD : EntryArg := ⟨2, true, false⟩
def exV : EntryArg := ⟨3, false, true⟩

/-- A new storage is consistent. -/
theorem newStorage_consistent (h : Heap) (ho : h.Ok) (st : Sto) (h' : Heap) (e : newStorage h = (some st, h')) :
    Consistent st h' ∧ views st.items = [] ∧ ∀ x, h'.live x = (x == st.block || h.live x) := by
  unfold newStorage at e
  cases ha : h.alloc with
  | mk o h1 =>
    rw [ha] at e
    cases o with
    | none => simp at e
    | some b =>
      simp only [Prod.mk.injEq, Option.some.injEq] at e
      obtain ⟨rfl, rfl⟩ := e
      have g := alloc_grows ha
      obtain ⟨_, _, _, hl⟩ := alloc_some ha
      refine ⟨⟨g.ok ho, by simp [ownedL], ?_, trivial, rfl, rfl⟩, rfl, hl⟩
      intro x hx
      simp only [ownedL, List.mem_singleton] at hx
      subst hx
      rw [hl]; simp

/-- Concrete case: four requests, one refused; the third allocates a copy of its entry. -/
example : ∃ rs st h, run [.buf (some exE) 4, .buf (some exE) 0, .buf (some exD) 2, .nested exV] ⟨0, [], 0, none⟩
    ⟨1, fun x => x == 0, fun _ => false⟩ = .ok (rs, st, h) ∧ rs = [0, EINVAL, 0, 0] ∧ st.size = 3 ∧
    newParamValue st 1 = some (exD, 3) := ⟨_, _, _, rfl, rfl, rfl, rfl⟩

example : Consistent ⟨0, [], 0, none⟩ ⟨1, fun x => x == 0, fun _ => false⟩ := by
  refine ⟨?_, by simp [ownedL], by simp [ownedL], trivial, rfl, rfl⟩
  intro x hx; simp at hx; simp [hx]

/-- The full C38 is false: when the allocation of a nested storage fails, the append still
answers 0, the size grows, and the item cannot be read. -/
theorem C38_null_nested_accepted :
    ∃ (fails : Nat → Bool) (st st' : Sto) (h h' : Heap), newStorage (Heap.empty fails) = (some st, h) ∧
      appendNested (some st) (some exV) h = .ok (0, some st', h') ∧ size (some st') = 1 ∧
      newParamValue st' 0 = none := by
  exact ⟨fun k => k == 1, _, _, _, _, rfl, rfl, rfl, rfl⟩

/-- C39, release.  Deleting a consistent storage frees each of its blocks (at any nesting
depth) exactly once: nothing is freed twice (that would be undefined), nothing it owns
stays allocated, nothing else is touched.  Cleanup does the same except for the storage's
own block and leaves it empty and usable. -/
theorem C39_delete_frees_once (st : Sto) (h : Heap) (hc : Consistent st h) :
    (∃ h', delete (some st) h = .ok h' ∧
      ∀ x, h'.live x = true ↔ h.live x = true ∧ x ∉ st.block :: ownedL st.items) ∧
    (∃ st' h', cleanup (some st) h = .ok (some st', h') ∧ Consistent st' h' ∧ size (some st') = 0 ∧
      ∀ x, h'.live x = true ↔ h.live x = true ∧ x ∉ ownedL st.items) := by
  constructor
  · obtain ⟨h', e, _, _, hl⟩ := delete_ok st h hc
    exact ⟨h', e, fun x => by rw [hl]; simp⟩
  · obtain ⟨h', e, hn, _, hl⟩ := cleanup_ok st h hc
    refine ⟨_, h', e, ⟨?_, by simp [ownedL], ?_, trivial, rfl, rfl⟩, rfl, fun x => by rw [hl]; simp⟩
    · intro x hx
      rw [hl] at hx
      simp only [Bool.and_eq_true] at hx
      rw [hn]
      exact hc.1 x hx.1
    · intro b hb
      simp only [ownedL, List.mem_singleton] at hb
      subst hb
      rw [hl, hc.2.2.1 st.block (by simp)]
      have := (List.nodup_cons.1 hc.2.1).1
      simp [this]

/-- C39, life cycle: create, any requests (whatever fails), delete: the allocated blocks
are those of the beginning. -/
theorem C39_no_leak (h : Heap) (ho : h.Ok) (st : Sto) (h0 : Heap) (e : newStorage h = (some st, h0))
    (ops : List Op) (hops : ∀ op ∈ ops, Allowed op) :
    ∃ rs st' h1 h2, run ops st h0 = .ok (rs, st', h1) ∧ delete (some st') h1 = .ok h2 ∧
      ∀ x, h2.live x = h.live x := by
  obtain ⟨hc, hv, hl0⟩ := newStorage_consistent h ho st h0 e
  have hst : st.items = [] := by
    cases hi : st.items with
    | nil => rfl
    | cons a b => rw [hi] at hv; simp [views] at hv
  have hb : h.live st.block = false := by
    unfold newStorage at e
    cases ha : h.alloc with
    | mk o h1 =>
      rw [ha] at e
      cases o with
      | none => simp at e
      | some b =>
        simp only [Prod.mk.injEq, Option.some.injEq] at e
        obtain ⟨rfl, _⟩ := e
        obtain ⟨rfl, _⟩ := alloc_some ha
        cases hx : h.live h.next with
        | false => rfl
        | true => exact absurd (ho _ hx) (Nat.lt_irrefl _)
  obtain ⟨rs, new, h1, e1, _, g, hg, _, _⟩ := run_spec ops hops st h0 hc
  obtain ⟨h2, e2, _, _, hl2⟩ := delete_ok _ h1 (Consistent_appendL hc new g hg)
  refine ⟨rs, _, h1, h2, e1, e2, ?_⟩
  intro x
  have hfr : x ∈ ownedL new → h.live x = false := by
    intro hx
    have h1 := g.fresh x hx
    cases hlx : h.live x with
    | false => rfl
    | true =>
      have : h0.live x = true := by rw [hl0, hlx]; simp
      have := hc.1 x this
      omega
  rw [hl2, g.live, hl0]
  simp only [hst, List.nil_append]
  by_cases hxn : x ∈ ownedL new
  · simp [hxn, hfr hxn]
  · by_cases hxb : x = st.block
    · subst hxb; simp [hb]
    · have : (x == st.block) = false := by simp [hxb]
      simp [hxn, hxb, this]

/-- C39, copy (partial: sources without NULL nested storages).  Copying never runs into
undefined behaviour; if it returns 0 the destination shows its old items followed by
exactly what the source shows, at every nesting depth; whatever it returns, the
destination stays consistent, all blocks it gained are new ones (so none is shared with
the source or anything else) and all old blocks, the source's included, stay allocated.
It returns an error or fails an assertion only if some allocation fails.
Missing: sources holding a NULL nested storage, see `C39_copy_after_failure_ub`. -/
theorem C39_copy_partial (src dst : Sto) (h : Heap) (hs : Consistent src h) (hw : wholeL (views src.items))
    (hd : Consistent dst h) :
    (copyItems src.items dst h = .abort ∧ ∃ k, h.fails k = true) ∨
    ∃ r dst' h', copyItems src.items dst h = .ok (r, dst', h') ∧
      (r = 0 → views dst'.items = views dst.items ++ views src.items) ∧
      (r ≠ 0 → ∃ k, h.fails k = true) ∧
      Consistent dst' h' ∧ Consistent src h' ∧
      (∀ b ∈ ownedL dst'.items, b ∈ ownedL dst.items ∨ h.live b = false) ∧
      (∀ x, h'.live x = true ↔ h.live x = true ∨ x ∈ ownedL dst'.items) := by
  rcases copyItems_spec src.items hs.2.2.2.1 hw dst h hd with hh | ⟨r, new, h', e, g, hg, hv, hr⟩
  · exact .inl hh
  · right
    refine ⟨r, _, h', e, ?_, hr, Consistent_appendL hd new g hg, Consistent_grows hs g, ?_, ?_⟩
    · intro h0; rw [views_append, hv h0]
    · intro b hb
      simp only [ownedL_append, List.mem_append] at hb
      rcases hb with hb | hb
      · exact .inl hb
      · right
        have := g.fresh b hb
        cases hlx : h.live b with
        | false => rfl
        | true => have := hd.1 b hlx; omega
    · intro x
      rw [g.live]
      simp only [Bool.or_eq_true, decide_eq_true_eq, ownedL_append, List.mem_append]
      constructor
      · rintro (h | h)
        · exact .inl h
        · exact .inr (.inr h)
      · rintro (h | h | h)
        · exact .inl h
        · exact .inl (hd.2.2.1 x (by simp [h]))
        · exact .inr h

/-- A source with a nested storage two levels deep. -/
def exSrc : Sto :=
  ⟨0, [.buf 1 exE none 2 [5, 6], .nested 3 exV none (some 4) [.buf 5 exD (some 6) 7 [9]] 1 (some 5)], 2, some 3⟩
def exHeap (fails : Nat → Bool) : Heap := ⟨9, fun x => decide (x < 9), fails⟩

example (fails) : Consistent exSrc (exHeap fails) := by
  refine ⟨fun x hx => by simpa [exHeap] using hx, by simp [exSrc, ownedL, owned], ?_, ?_, rfl, rfl⟩
  · simp [exSrc, ownedL, owned, exHeap]
  · simp [exSrc, GoodL, Good, exV, Item.node]
example : wholeL (views exSrc.items) := by simp [exSrc, views, view, wholeL, whole]
example (fails) : Consistent ⟨8, [], 0, none⟩ (exHeap fails) := by
  refine ⟨fun x hx => by simpa [exHeap] using hx, by simp [ownedL], by simp [ownedL, exHeap], trivial, rfl, rfl⟩
example : ∃ d h, copyItems exSrc.items ⟨8, [], 0, none⟩ (exHeap fun _ => false) = .ok (0, d, h) ∧
    views d.items = views exSrc.items := ⟨_, _, rfl, rfl⟩

/-- After an allocation failure the storage can hold a NULL nested storage; copying that is
undefined behaviour. -/
theorem C39_copy_after_failure_ub :
    ∃ (fails : Nat → Bool) (st st' : Sto) (h h' : Heap), newStorage (Heap.empty fails) = (some st, h) ∧
      appendNested (some st) (some exV) h = .ok (0, some st', h') ∧
      ∃ dst h'', newStorage h' = (some dst, h'') ∧ copyItems st'.items dst h'' = .ub := by
  exact ⟨fun k => k == 1, _, _, _, _, rfl, rfl, _, _, rfl, rfl⟩

end Verif.ParamStorage
