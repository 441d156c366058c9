import Verif.ParamStorage.Lemmas
namespace Verif.ParamStorage
open Verif Verif.ParamStorage.Spec

theorem setLast_append (xs : List Item) (x y : Item) : setLast y (xs ++ [x]) = xs ++ [y] := by
  induction xs with
  | nil => rfl
  | cons z zs ih =>
    cases zs with
    | nil => rfl
    | cons w ws =>
      simp only [List.cons_append] at ih ⊢
      rw [setLast, ih]
      simp

/-- What a copy of `items` into `dst` may do. -/
def CopyOk (items : List Item) (dst : Sto) (h : Heap) (o : Outcome (Int × Sto × Heap)) : Prop :=
  (o = .abort ∧ ∃ k, h.fails k = true) ∨
  ∃ r new h', o = .ok (r, { dst with items := dst.items ++ new, size := dst.size + new.length,
                                     last := ((dst.items ++ new).getLast?).map Item.node }, h') ∧
    Grows h h' (ownedL new) ∧ GoodL new ∧
    (r = 0 → views new = views items) ∧ (r ≠ 0 → ∃ k, h.fails k = true)

theorem Consistent_appendL {st : Sto} {h h' : Heap} (hc : Consistent st h) (new : List Item) (hg : Grows h h' (ownedL new))
    (hx : GoodL new) :
    Consistent { st with items := st.items ++ new, size := st.size + new.length,
                         last := ((st.items ++ new).getLast?).map Item.node } h' := by
  have hlt := owned_lt hc
  obtain ⟨h1, h2, h3, h4, h5, h6⟩ := hc
  refine ⟨hg.ok h1, ?_, ?_, ?_, ?_, ?_⟩
  · simp only [ownedL_append]
    rw [← List.cons_append, List.nodup_append]
    refine ⟨h2, hg.nodup, ?_⟩
    intro a ha b hb e
    have := hlt a ha
    have := hg.fresh b hb
    omega
  · simp only [ownedL_append]
    intro b hb
    rw [← List.cons_append, List.mem_append] at hb
    rw [hg.live]
    rcases hb with hb | hb
    · simp [h3 b hb]
    · simp [hb]
  · simp only [GoodL_append]
    exact ⟨h4, hx⟩
  · simp [h5]
  · rfl

mutual
theorem copyItem_spec (x : Item) (hgx : Good x) (hw : whole (view x)) (dst : Sto) (h : Heap) (hc : Consistent dst h) :
    CopyOk [x] dst h (copyItem x dst h) := by
  cases x with
  | buf n e d b bytes =>
    simp only [Good] at hgx
    simp only [copyItem]
    rcases appendBuffer_spec dst (some e) bytes.length h hc with ⟨r, h', e1, hr, g, hf⟩ | ⟨e0, node, d', addr, h', he, hn, e1, g⟩
    · right
      refine ⟨EFAULT, [], h', ?_, g, trivial, fun e => by simp [EFAULT] at e, ?_⟩
      · rw [e1]
        simp only [Outcome.bind_ok, ne_eq, hr, not_false_eq_true, if_true, Outcome.pure_eq]
        obtain ⟨_, _, _, _, h5, h6⟩ := hc
        simp [← h6]
      · intro _
        rcases hf with hf | hf | hf
        · exact hf
        · simp at hf
        · have : bytes.length ≠ 0 := by simpa using hgx
          omega
    · right
      injection he with he
      subst he
      refine ⟨0, [.buf node e d' addr bytes], h', ?_, ?_, ?_, ?_, by simp⟩
      · rw [e1]
        simp [setLast_append, Item.node]
      · simp only [owned] at g
        simpa [ownedL, owned] using g
      · simpa [GoodL, Good] using hgx
      · intro _; simp [views, view]
  | nested n e d inner items size last =>
    simp only [Good] at hgx
    simp only [copyItem]
    rcases appendNested_spec dst e hgx.1 h hc with ⟨r, h', e1, hr, g, hf⟩ | ⟨node, d', inner', h', e1, hin, g⟩
    · right
      refine ⟨EFAULT, [], h', ?_, g, trivial, fun e => by simp [EFAULT] at e, fun _ => hf⟩
      rw [e1]
      simp only [Outcome.bind_ok, ne_eq, hr, not_false_eq_true, if_true, Outcome.pure_eq]
      obtain ⟨_, _, _, _, h5, h6⟩ := hc
      simp [← h6]
    · rw [e1]
      simp only [Outcome.bind_ok, ne_eq, not_true_eq_false, if_false]
      cases inner' with
      | none =>
        left
        refine ⟨by simp, hin rfl⟩
      | some b =>
        cases inner with
        | none => simp [view, whole] at hw
        | some b0 =>
          simp only [view, whole] at hw
          have hcin : Consistent ⟨b, [], 0, none⟩ h' := by
            refine ⟨g.ok hc.1, by simp [ownedL], ?_, trivial, rfl, rfl⟩
            intro x hx
            simp only [ownedL, List.mem_singleton] at hx
            subst hx
            rw [g.live]
            simp [owned, ownedL]
          rcases copyItems_spec items hgx.2.2.1 hw ⟨b, [], 0, none⟩ h' hcin with ⟨e2, hf⟩ | ⟨r, new, h2, e2, g2, hgn, hv, hr⟩
          · left
            refine ⟨?_, by rw [g.fails] at hf; exact hf⟩
            simp [e2]
          · right
            have g12 := g.trans g2
            refine ⟨if r ≠ 0 then EFAULT else 0, [.nested node e d' (some b) new new.length ((new.getLast?).map Item.node)], h2, ?_, ?_, ?_, ?_, ?_⟩
            · simp only [List.getLast?_append, List.getLast?_singleton, Option.some_or, e2, Outcome.bind_ok, List.nil_append,
                Nat.zero_add, Option.map_some, Outcome.pure_eq, List.length_singleton, Item.node, setLast_append]
              by_cases h0 : r = 0
              · simp [h0]
              · simp [h0]
            · refine g12.perm ?_ ?_
              · intro x
                simp only [ownedL, owned, List.nil_append, List.append_nil, List.mem_append]
                rw [or_comm]
              · have := nodup_rot g12.nodup
                simpa [ownedL, owned] using this
            · simp only [GoodL, Good, and_true]
              exact ⟨hgx.1, by simp, hgn⟩
            · intro hr0
              have : r = 0 := by
                by_cases h0 : r = 0
                · exact h0
                · simp [h0, EFAULT] at hr0
              simp [views, view, hv this]
            · intro hr0
              have : r ≠ 0 := by
                intro h0; simp [h0] at hr0
              have := hr this
              rw [g.fails] at this
              exact this

theorem copyItems_spec (xs : List Item) (hgx : GoodL xs) (hw : wholeL (views xs)) (dst : Sto) (h : Heap) (hc : Consistent dst h) :
    CopyOk xs dst h (copyItems xs dst h) := by
  cases xs with
  | nil =>
    right
    refine ⟨0, [], h, ?_, Grows.refl h, trivial, fun _ => rfl, by simp⟩
    obtain ⟨_, _, _, _, h5, h6⟩ := hc
    simp [copyItems, ← h6]
  | cons x xs =>
    simp only [GoodL] at hgx
    simp only [views, wholeL] at hw
    simp only [copyItems]
    rcases copyItem_spec x hgx.1 hw.1 dst h hc with ⟨e1, hf⟩ | ⟨r, new, h1, e1, g1, hg1, hv, hr⟩
    · left; rw [e1]; exact ⟨rfl, hf⟩
    · rw [e1]
      simp only [Outcome.bind_ok]
      by_cases h0 : r = 0
      · subst h0
        simp only [ne_eq, not_true_eq_false, if_false]
        have hc1 := Consistent_appendL hc new g1 hg1
        rcases copyItems_spec xs hgx.2 hw.2 _ h1 hc1 with ⟨e2, hf⟩ | ⟨r, new2, h2, e2, g2, hg2, hv2, hr2⟩
        · left; rw [e2]; rw [g1.fails] at hf; exact ⟨rfl, hf⟩
        · right
          refine ⟨r, new ++ new2, h2, ?_, ?_, ?_, ?_, ?_⟩
          · rw [e2]
            simp [List.append_assoc, Nat.add_assoc]
          · rw [ownedL_append]; exact g1.trans g2
          · rw [GoodL_append]; exact ⟨hg1, hg2⟩
          · intro h0
            rw [views_append, hv rfl, hv2 h0]
            simp [views]
          · intro h0
            have := hr2 h0
            rw [g1.fails] at this
            exact this
      · right
        refine ⟨r, new, h1, ?_, g1, hg1, fun e => absurd e h0, hr⟩
        simp [h0]
end

theorem AllAnswer_length {ops : List Op} {vs : List View} (h : AllAnswer ops vs) : vs.length = ops.length := by
  induction h with
  | nil => rfl
  | cons _ _ ih => simp [ih]

/-- The storage with items added at the end. -/
def extend (st : Sto) (new : List Item) : Sto :=
  { st with items := st.items ++ new, size := st.size + new.length,
            last := ((st.items ++ new).getLast?).map Item.node }

theorem extend_nil {st : Sto} {h : Heap} (hc : Consistent st h) : extend st [] = st := by
  obtain ⟨_, _, _, _, _, h6⟩ := hc
  simp [extend, ← h6]

theorem extend_extend (st : Sto) (a b : List Item) : extend (extend st a) b = extend st (a ++ b) := by
  simp [extend, Nat.add_assoc]

theorem request_spec (op : Op) (ha : Allowed op) (st : Sto) (h : Heap) (hc : Consistent st h) :
    ∃ r new h', request op st h = .ok (r, some (extend st new), h') ∧
      Grows h h' (ownedL new) ∧ GoodL new ∧
      AllAnswer (if r = 0 then [op] else []) (views new) ∧
      ((∀ k, h.fails k = false) → wholeL (views new) ∧ (r = 0 ↔ Valid op)) := by
  cases op with
  | buf e n =>
    rcases appendBuffer_spec st e n h hc with ⟨r, h', e1, hr, g, hf⟩ | ⟨e0, node, d, addr, h', he, hn, e1, g⟩
    · refine ⟨r, [], h', by rw [extend_nil hc]; exact e1, g, trivial, ?_, ?_⟩
      · rw [if_neg hr]; exact .nil
      · intro hk
        refine ⟨trivial, fun e => absurd e hr, ?_⟩
        intro hv
        rcases hf with ⟨k, hf⟩ | hf | hf
        · rw [hk k] at hf; simp at hf
        · exact absurd hf hv.1
        · exact absurd hv.2 (by omega)
    · subst he
      refine ⟨0, [.buf node e0 d addr (List.replicate n.toNat 0)], h', ?_, ?_, ?_, ?_, ?_⟩
      · simp only [request]; rw [e1]; simp [extend, Item.node]
      · simpa [ownedL] using g
      · simp [GoodL, Good]; omega
      · rw [if_pos rfl]
        have : n = (n.toNat : Int) := by omega
        rw [this]
        exact .cons (.buf e0 _ (by omega)) .nil
      · intro _
        refine ⟨⟨trivial, trivial⟩, ?_⟩
        simp [Valid, hn]
  | nested e =>
    have hva : e.va = true := ha
    rcases appendNested_spec st e hva h hc with ⟨r, h', e1, hr, g, hf⟩ | ⟨node, d, inner, h', e1, hin, g⟩
    · refine ⟨r, [], h', by rw [extend_nil hc]; exact e1, g, trivial, ?_, ?_⟩
      · rw [if_neg hr]; exact .nil
      · intro hk
        obtain ⟨k, hf⟩ := hf
        rw [hk k] at hf; simp at hf
    · refine ⟨0, [.nested node e d inner [] 0 none], h', ?_, ?_, ?_, ?_, ?_⟩
      · simp only [request]; rw [e1]; simp [extend, Item.node]
      · simpa [ownedL] using g
      · simp [GoodL, Good, hva]
      · rw [if_pos rfl]
        refine .cons ?_ .nil
        cases inner with
        | none => exact .null e
        | some b => exact .nested e
      · intro hk
        refine ⟨⟨?_, trivial⟩, by simp [Valid]⟩
        cases inner with
        | none =>
          obtain ⟨k, hf⟩ := hin rfl
          rw [hk k] at hf; simp at hf
        | some b => simp [view, whole, wholeL, views]

theorem run_spec (ops : List Op) (hops : ∀ op ∈ ops, Allowed op) (st : Sto) (h : Heap) (hc : Consistent st h) :
    ∃ rs new h', run ops st h = .ok (rs, extend st new, h') ∧ rs.length = ops.length ∧
      Grows h h' (ownedL new) ∧ GoodL new ∧
      AllAnswer (accepted ops rs) (views new) ∧
      ((∀ k, h.fails k = false) → wholeL (views new) ∧
        ∀ (i : Nat) (op : Op) (r : Int), ops[i]? = some op → rs[i]? = some r → (r = 0 ↔ Valid op)) := by
  induction ops generalizing st h with
  | nil =>
    exact ⟨[], [], h, by rw [extend_nil hc]; rfl, rfl, Grows.refl h, trivial, .nil, by simp [wholeL, views]⟩
  | cons op ops ih =>
    obtain ⟨r, n1, h1, e1, g1, hg1, ha1, hw1⟩ := request_spec op (hops op (by simp)) st h hc
    obtain ⟨rs, n2, h2, e2, hlen, g2, hg2, ha2, hw2⟩ := ih (fun o ho => hops o (by simp [ho])) (extend st n1) h1
      (Consistent_appendL hc n1 g1 hg1)
    refine ⟨r :: rs, n1 ++ n2, h2, ?_, by simp [hlen], ?_, (GoodL_append _ _).2 ⟨hg1, hg2⟩, ?_, ?_⟩
    · simp only [run, e1, Outcome.bind_ok, e2, extend_extend, Outcome.pure_eq]
    · rw [ownedL_append]; exact g1.trans g2
    · rw [views_append]
      unfold accepted
      by_cases h0 : r = 0
      · rw [if_pos h0] at ha1 ⊢
        generalize hv : views n1 = v1 at ha1
        cases ha1 with
        | cons ha1 hn => cases hn; exact .cons ha1 ha2
      · rw [if_neg h0] at ha1 ⊢
        generalize hv : views n1 = v1 at ha1
        cases ha1
        exact ha2
    · intro hk
      obtain ⟨hwv1, hwr1⟩ := hw1 hk
      obtain ⟨hwv, hwr⟩ := hw2 (by rw [g1.fails]; exact hk)
      refine ⟨by rw [views_append]; exact (wholeL_append _ _).2 ⟨hwv1, hwv⟩, ?_⟩
      intro i op' r' ho hr
      cases i with
      | zero => simp at ho hr; subst ho; subst hr; exact hwr1
      | succ i => exact hwr i op' r' (by simpa using ho) (by simpa using hr)

end Verif.ParamStorage
