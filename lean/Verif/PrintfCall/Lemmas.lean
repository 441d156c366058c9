import Verif.PrintfCall.Spec
import Verif.Printf.Props
import Verif.WrapCall.Lemmas
import Verif.Handlers.Lemmas
import Verif.HeapOwn
namespace Verif.PrintfCall
open Verif Verif.PrintfCall.Spec Verif.ParamStorage Verif.ParamStorage.Spec
open Verif.Printf (Ty Specifier parse count)
open Verif.Printf.Spec (Conv Piece convs promised render WFPiece Separated WF Fits)
open Verif.WrapCall (Arg ArgTy vaArg write write_last extend_one)

theorem Grows.reorder {h h' : Heap} {a b : List Nat} (g : Grows h h' a) (p : a.Perm b) : Grows h h' b :=
  g.perm (fun _ => p.mem_iff) (p.nodup_iff.1 g.nodup)

theorem deleteVal_spec {h h' : Heap} {l : List Nat} (v : Val) (ho : h.Ok) (g : Grows h h' (l ++ v.1 :: v.2.toList)) :
    ∃ h'', deleteVal v h' = .ok h'' ∧ Grows h h'' l := by
  obtain ⟨b, c⟩ := v
  unfold deleteVal
  cases c with
  | none =>
    obtain ⟨h1, e1, g1⟩ := free_new (b := b) (rest := l) ho (Grows.reorder g (by simp only [Option.toList]; perm))
    exact ⟨h1, by simp only [Outcome.bind_ok, e1], g1⟩
  | some c =>
    obtain ⟨h1, e1, g1⟩ := free_new (b := c) (rest := b :: l) ho (Grows.reorder g (by simp only [Option.toList]; perm))
    obtain ⟨h2, e2, g2⟩ := free_new ho g1
    exact ⟨h2, by simp only [Outcome.bind_ok, e1, e2], g2⟩

/-- A handle for an item that is a buffer. -/
theorem newVal_spec {st : Sto} {i : Nat} {n : Nat} {e : EntryArg} {d : Option Nat} {b : Nat} {bs : List UInt8} {h : Heap}
    (hi : st.items[i]? = some (.buf n e d b bs)) (ho : h.Ok) (hd : ∀ x, d = some x → h.live x = true) :
    (∃ h', newVal st i h = .ok (none, h') ∧ Grows h h' [] ∧ ∃ k, h.fails k = true) ∨
    (∃ v h', newVal st i h = .ok (some v, h') ∧ Grows h h' (v.1 :: v.2.toList)) := by
  have hp : newParamValue st i = some (e, b) := by
    unfold newParamValue
    rw [if_neg (by omega)]
    simp [hi]
  unfold newVal
  rw [hp]
  simp only [Int.toNat_natCast, hi]
  cases ha : h.alloc with
  | mk o h1 =>
    have g := alloc_grows ha
    cases o with
    | none => exact .inl ⟨h1, rfl, by simpa using g, alloc_fail ha⟩
    | some x =>
      cases d with
      | none => exact .inr ⟨(x, none), h1, rfl, by simpa using g⟩
      | some d =>
        have hl : h1.live d = true := by rw [g.live, hd d rfl]; rfl
        simp only [hl, if_true]
        cases ha2 : h1.alloc with
        | mk o2 h2 =>
          have g2 := alloc_grows ha2
          cases o2 with
          | none =>
            obtain ⟨h3, e3, g3⟩ := free_new (b := x) (rest := []) ho (by simpa using g.trans g2)
            obtain ⟨k, hk⟩ := alloc_fail ha2
            exact .inl ⟨h3, by simp only [e3, Outcome.bind_ok]; rfl, g3, k, by rw [← g.fails]; exact hk⟩
          | some c => exact .inr ⟨(x, some c), h2, rfl, by simpa using g.trans g2⟩

theorem last_item (st : Sto) (x : Item) : (extend st [x]).items[st.items.length]? = some x := by simp [extend]

/-- What storing one argument may do. -/
def StoreOk (st : Sto) (h : Heap) (left : List Arg) (v : View) (res : Res) : Prop :=
  ∃ r new leak rest h', res = .ok (r, extend st new, rest, h') ∧ GoodL new ∧ Grows h h' (ownedL new ++ leak) ∧ leak.length ≤ 1 ∧
    (r = 0 → leak = [] ∧ rest = left ∧ ∃ x, new = [x] ∧ view x = v) ∧ ((∀ k, h.fails k = false) → r = 0)

theorem StoreOk.fail {st : Sto} {h h' : Heap} {left rest : List Arg} {v : View} (hc : Consistent st h) (g : Grows h h' [])
    (hk : ∃ k, h.fails k = true) {res : Res} (e : res = .ok (EFAULT, st, rest, h')) : StoreOk st h left v res := by
  refine ⟨EFAULT, [], [], rest, h', by rw [e, extend_nil hc], trivial, by simpa [ownedL] using g, by simp, fun h0 => absurd h0 (by decide), ?_⟩
  intro hn; obtain ⟨k, hk⟩ := hk; rw [hn k] at hk; cases hk

theorem sizeOf_eq (ty : Ty) : Printf.sizeOf ty = (passed ty).2 := by cases ty <;> rfl
theorem fetchTy_eq (ty : Ty) : fetchTy ty = (passed ty).1 := by cases ty <;> rfl

theorem width_eq (ty : Ty) : WrapCall.argSize (passed ty).1 = some (width (passed ty).1) := by cases ty <;> rfl

theorem passed_le {ty : Ty} (h : ∀ n, ty ≠ .chars n) : (passed ty).2 ≤ width (passed ty).1 ∧ 0 < (passed ty).2 := by
  cases ty <;> first | decide | exact absurd rfl (h _)

theorem promised_chars {c : Conv} {ty : Ty} (h : promised c = some ty) : ∀ n, ty ≠ .chars n := by
  rintro n rfl
  unfold promised at h
  repeat' split at h
  all_goals simp at h

/-- The common part of all kinds: append a buffer, make a handle and delete it. -/
theorem append_then (st : Sto) (h : Heap) (hc : Consistent st h) (e : EntryArg) (size : Nat) (hs : 0 < size) (bytes : List UInt8)
    (hb : bytes.length ≤ size) (left rest0 : List Arg) :
    StoreOk st h left (.bytes e (bytes ++ List.replicate (size - bytes.length) 0)) (do
      let (r, st', h) ← appendBuffer (some st) (some e) size h
      match st' with
      | none => return (EFAULT, st, rest0, h)
      | some st1 =>
        if r ≠ 0 then return (EFAULT, st1, rest0, h)
        match ← newVal st1 st.items.length h with
        | (none, h) => return (EFAULT, st1, rest0, h)
        | (some v, h) => do
          let h ← deleteVal v h
          let st2 ← write st1 st.items.length bytes
          return (0, st2, left, h)) := by
  rcases appendBuffer_spec st (some e) size h hc with ⟨r, h', e1, hr, g, hf⟩ | ⟨e0, node, d, addr, h1, he, hn, e1, g⟩
  · refine StoreOk.fail hc g ?_ (by rw [e1]; simp only [Outcome.bind_ok]; rw [if_pos hr]; rfl)
    rcases hf with hf | hf | hf
    · exact hf
    · cases hf
    · omega
  · cases he
    rw [e1]
    simp only [Outcome.bind_ok, ne_eq, not_true_eq_false, if_false]
    have hx := extend_one st (.buf node e d addr (List.replicate (size : Int).toNat 0))
    simp only [Item.node] at hx
    rw [hx]
    have hgood : Good (.buf node e d addr (List.replicate (size : Int).toNat 0)) := by
      show List.replicate (size : Int).toNat 0 ≠ []
      simp; omega
    rcases newVal_spec (d := d) (last_item st _) (g.ok hc.1) (fun x hx => by rw [g.live]; simp [owned, hx]) with
      ⟨h2, e2, g2, k, hk⟩ | ⟨v, h2, e2, g2⟩
    · refine ⟨EFAULT, [.buf node e d addr (List.replicate (size : Int).toNat 0)], [], rest0, h2, by rw [e2]; rfl, ⟨hgood, trivial⟩, ?_,
        by simp, fun h0 => absurd h0 (by decide), ?_⟩
      · simpa [ownedL] using g.trans g2
      · intro hnf; rw [g.fails, hnf k] at hk; cases hk
    · obtain ⟨h3, e3, g3⟩ := deleteVal_spec (l := []) v (g.ok hc.1) (by simpa using g2)
      rw [e2]
      simp only [Outcome.bind_ok, e3]
      have hw : write (extend st [.buf node e d addr (List.replicate (size : Int).toNat 0)]) st.items.length bytes =
          .ok (extend st [.buf node e d addr (bytes ++ List.replicate (size - bytes.length) 0)]) := by
        unfold write
        rw [last_item]
        simp only [List.length_replicate, Int.toNat_natCast]
        rw [if_pos hb]
        simp [extend, Item.node]
      rw [hw]
      refine ⟨0, [.buf node e d addr (bytes ++ List.replicate (size - bytes.length) 0)], [], left, h3, rfl, ⟨?_, trivial⟩, ?_, by simp,
        fun _ => ⟨rfl, rfl, _, rfl, rfl⟩, fun _ => rfl⟩
      · intro h0
        have := congrArg List.length h0
        rw [List.length_append, List.length_replicate, List.length_nil] at this
        omega
      · simpa [ownedL, owned] using g.trans g3

theorem process_spec (env : Env) (st : Sto) (h : Heap) (hc : Consistent st h) (ty : Ty) (hty : ∀ n, ty ≠ .chars n) (w : List UInt8)
    (hw : w.length = width (passed ty).1) (left : List Arg) :
    StoreOk st h left (.bytes ⟨env.entry ty, false, false⟩ (w.take (passed ty).2))
      (process env st st.items.length ty (.val (passed ty).1 w :: left) h) := by
  have hp := passed_le hty
  have hl : (w.take (passed ty).2).length = (passed ty).2 := by rw [List.length_take]; omega
  have := append_then st h hc ⟨env.entry ty, false, false⟩ (passed ty).2 hp.2 (w.take (passed ty).2) (by omega) left
    (.val (passed ty).1 w :: left)
  rw [hl, Nat.sub_self, List.replicate_zero, List.append_nil] at this
  have hva : vaArg (passed ty).1 (.val (passed ty).1 w :: left) = .ok (w, left) := by
    simp [vaArg, width_eq, hw]
  unfold process
  rw [sizeOf_eq, fetchTy_eq]
  simp only [hva, Outcome.bind_ok]
  exact this

theorem load_string {m : Mem} {s : List UInt8} {a : Nat} (h : StringAt m a s) : m.load a (s.length + 1) = .ok (s ++ [0]) := by
  induction s generalizing a with
  | nil =>
    have := h.2
    simp only [List.length_nil, Nat.add_zero] at this
    simp [Mem.load, this]
  | cons b s ih =>
    have h0 := h.1 0 b rfl
    rw [Nat.add_zero] at h0
    have : StringAt m (a + 1) s := by
      refine ⟨fun k x hx => ?_, ?_⟩
      · have := h.1 (k + 1) x (by simpa using hx)
        rw [show a + (k + 1) = a + 1 + k by omega] at this
        exact this
      · have := h.2
        rw [List.length_cons, show a + (s.length + 1) = a + 1 + s.length by omega] at this
        exact this
    have ih := ih this
    simp only [List.length_cons]
    unfold Mem.load
    rw [h0.2]
    simp only [ih, Outcome.bind_ok]
    rfl

theorem strlen_string {m : Mem} {s : List UInt8} {a : Nat} (h : StringAt m a s) : Handlers.strlenOf m a = .ok s.length := by
  refine Handlers.strlenOf_spec ⟨fun k hk => ?_, h.2⟩
  obtain ⟨h1, h2⟩ := h.1 k s[k] (by simp [hk])
  exact ⟨_, h2, h1⟩

theorem processChars_spec (env : Env) (st : Sto) (h : Heap) (hc : Consistent st h) (a : Nat) (s : List UInt8) (hs : StringAt env.mem a s)
    (hl : s.length ≤ 7) (left : List Arg) :
    StoreOk st h left (.bytes ⟨env.entry (.chars (s.length + 1)), true, false⟩ (s ++ 0 :: List.replicate (7 - s.length) 0))
      (processChars env st st.items.length a left h) := by
  unfold processChars
  rw [strlen_string hs]
  simp only [Outcome.bind_ok]
  cases ha : h.alloc with
  | mk o h1 =>
    have g1 := alloc_grows ha
    cases o with
    | none => exact StoreOk.fail hc (by simpa using g1) (alloc_fail ha) rfl
    | some made =>
      have hc1 := Consistent_grows hc g1
      simp only []
      rcases appendBuffer_spec st (some ⟨env.entry (.chars (s.length + 1)), true, false⟩) 8 h1 hc1 with
        ⟨r, h2, e2, hr, g2, hf⟩ | ⟨e0, node, d, addr, h2, he, hn, e2, g2⟩
      · refine ⟨EFAULT, [], [made], left, h2, ?_, trivial, by simpa [ownedL] using g1.trans g2, by simp, fun h0 => absurd h0 (by decide), ?_⟩
        · rw [e2]; simp only [Outcome.bind_ok]; rw [if_pos hr, extend_nil hc]; rfl
        · intro hnf
          rcases hf with ⟨k, hk⟩ | hf | hf
          · rw [g1.fails, hnf k] at hk; cases hk
          · cases hf
          · omega
      · cases he
        rw [e2]
        simp only [Outcome.bind_ok, ne_eq, not_true_eq_false, if_false]
        have hx := extend_one st (.buf node ⟨env.entry (.chars (s.length + 1)), true, false⟩ d addr (List.replicate (8 : Int).toNat 0))
        simp only [Item.node] at hx
        rw [hx]
        have hgood : Good (.buf node ⟨env.entry (.chars (s.length + 1)), true, false⟩ d addr (List.replicate (8 : Int).toNat 0)) := by
          show List.replicate (8 : Int).toNat 0 ≠ []
          decide
        rcases newVal_spec (d := d) (last_item st _) (g2.ok hc1.1) (fun x hx => by rw [g2.live]; simp [owned, hx]) with
          ⟨h3, e3, g3, k, hk⟩ | ⟨v, h3, e3, g3⟩
        · obtain ⟨h4, e4, g4⟩ := free_new (b := made) hc.1 (by simpa using (g1.trans g2).trans g3)
          refine ⟨EFAULT, [.buf node ⟨env.entry (.chars (s.length + 1)), true, false⟩ d addr (List.replicate (8 : Int).toNat 0)], [], left, h4,
            by rw [e3]; simp only [Outcome.bind_ok, e4]; rfl, ⟨hgood, trivial⟩, by simpa [ownedL] using g4,
            by simp, fun h0 => absurd h0 (by decide), ?_⟩
          intro hnf; rw [g2.fails, g1.fails, hnf k] at hk; cases hk
        · obtain ⟨h4, e4, g4⟩ := free_new (b := made) hc.1 (by simpa using (g1.trans g2).trans g3)
          obtain ⟨h5, e5, g5⟩ := deleteVal_spec v hc.1 g4
          rw [e3]
          simp only [Outcome.bind_ok, e4, e5, load_string hs]
          have hw : write (extend st [.buf node ⟨env.entry (.chars (s.length + 1)), true, false⟩ d addr (List.replicate (8 : Int).toNat 0)])
                st.items.length (s ++ [0]) =
              .ok (extend st [.buf node ⟨env.entry (.chars (s.length + 1)), true, false⟩ d addr (s ++ 0 :: List.replicate (7 - s.length) 0)]) := by
            unfold write
            rw [last_item]
            simp only []
            rw [if_pos (by simp; omega)]
            have e8 : (List.replicate (Int.toNat 8) (0 : UInt8)).drop (s ++ [0]).length = List.replicate (7 - s.length) 0 := by
              rw [List.drop_replicate, List.length_append, List.length_singleton]
              congr 1
              show 8 - (s.length + 1) = _
              omega
            rw [e8]
            simp [extend, Item.node]
          rw [hw]
          refine ⟨0, [.buf node ⟨env.entry (.chars (s.length + 1)), true, false⟩ d addr (s ++ 0 :: List.replicate (7 - s.length) 0)], [], left, h5,
            rfl, ⟨by simp [Good], trivial⟩, by simpa [ownedL, owned] using g5, by simp, fun _ => ⟨rfl, rfl, _, rfl, rfl⟩, fun _ => rfl⟩

theorem processNull_spec (env : Env) (st : Sto) (h : Heap) (hc : Consistent st h) (left : List Arg) :
    StoreOk st h left (.bytes ⟨env.entry .charp, false, false⟩ [0, 0, 0, 0, 0, 0, 0, 0])
      (processStr env st st.items.length (.val .ptr [0, 0, 0, 0, 0, 0, 0, 0] :: left) h) := by
  have := append_then st h hc ⟨env.entry .charp, false, false⟩ 8 (by decide) [0, 0, 0, 0, 0, 0, 0, 0] (by decide) left left
  exact this

theorem processStr_spec (env : Env) (st : Sto) (h : Heap) (hc : Consistent st h) (w : List UInt8) (s : List UInt8) (hw : w.length = 8)
    (h0 : Mem.le w ≠ 0) (hs : StringAt env.mem (Mem.le w) s) (hl : s.length ≤ 7) (left : List Arg) :
    StoreOk st h left (.bytes ⟨env.entry (.chars (s.length + 1)), true, false⟩ (s ++ 0 :: List.replicate (7 - s.length) 0))
      (processStr env st st.items.length (.val .ptr w :: left) h) := by
  unfold processStr
  have hva : vaArg .ptr (.val .ptr w :: left) = .ok (w, left) := by simp [vaArg, WrapCall.argSize, hw]
  rw [hva]
  simp only [Outcome.bind_ok]
  rw [if_neg h0]
  exact processChars_spec env st h hc _ s hs hl left

theorem pick_promised {c : Conv} {ty : Ty} (h : promised c = some ty) : pick (Printf.actual c) = .ty ty := by
  have ht : (Printf.actual c).t = c.conv := rfl
  have hl : (Printf.actual c).argLen = c.len := rfl
  unfold pick
  rw [ht, hl]
  unfold promised at h
  by_cases h1 : c.conv = 100 ∨ c.conv = 105
  · simp only [h1, if_true] at h
    have n1 : c.conv ≠ 115 := by rcases h1 with e | e <;> rw [e] <;> decide
    have n2 : c.conv ≠ 112 := by rcases h1 with e | e <;> rw [e] <;> decide
    have n3 : c.conv ≠ 110 := by rcases h1 with e | e <;> rw [e] <;> decide
    have n4 : c.conv ≠ 99 := by rcases h1 with e | e <;> rw [e] <;> decide
    have h1' : c.conv = 105 ∨ c.conv = 100 := by rcases h1 with e | e <;> simp [e]
    simp only [n1, n2, n3, if_false, h1', if_true, n4, false_or]
    cases hc : c.len <;> rw [hc] at h <;> simp at h <;> subst h <;> simp
  · simp only [h1, if_false] at h
    by_cases h2 : c.conv = 117 ∨ c.conv = 111 ∨ c.conv = 120 ∨ c.conv = 88
    · simp only [h2, if_true] at h
      have n1 : c.conv ≠ 115 := by rcases h2 with e | e | e | e <;> rw [e] <;> decide
      have n2 : c.conv ≠ 112 := by rcases h2 with e | e | e | e <;> rw [e] <;> decide
      have n3 : c.conv ≠ 110 := by rcases h2 with e | e | e | e <;> rw [e] <;> decide
      have n4 : ¬ (c.conv = 99 ∨ c.conv = 105 ∨ c.conv = 100) := by rcases h2 with e | e | e | e <;> rw [e] <;> decide
      have h2' : c.conv = 111 ∨ c.conv = 117 ∨ c.conv = 120 ∨ c.conv = 88 := by rcases h2 with e | e | e | e <;> simp [e]
      simp only [n1, n2, n3, if_false, n4, h2', if_true]
      cases hc : c.len <;> rw [hc] at h <;> simp at h <;> subst h <;> simp
    · simp only [h2, if_false] at h
      by_cases h3 : c.conv = 101 ∨ c.conv = 102 ∨ c.conv = 103
      · simp only [h3, if_true] at h
        have n1 : c.conv ≠ 115 := by rcases h3 with e | e | e <;> rw [e] <;> decide
        have n2 : c.conv ≠ 112 := by rcases h3 with e | e | e <;> rw [e] <;> decide
        have n3 : c.conv ≠ 110 := by rcases h3 with e | e | e <;> rw [e] <;> decide
        have n4 : ¬ (c.conv = 99 ∨ c.conv = 105 ∨ c.conv = 100) := by rcases h3 with e | e | e <;> rw [e] <;> decide
        have n5 : ¬ (c.conv = 111 ∨ c.conv = 117 ∨ c.conv = 120 ∨ c.conv = 88) := by rcases h3 with e | e | e <;> rw [e] <;> decide
        have h3' : c.conv = 102 ∨ c.conv = 103 ∨ c.conv = 101 := by rcases h3 with e | e | e <;> simp [e]
        simp only [n1, n2, n3, if_false, n4, n5, h3', if_true]
        cases hc : c.len <;> rw [hc] at h <;> simp at h <;> subst h <;> simp
      · simp only [h3, if_false] at h
        by_cases h4 : c.conv = 99
        · simp only [h4, if_true] at h ⊢
          split at h
          · simp at h; subst h; simp
          · simp at h
        · simp only [h4, if_false] at h
          by_cases h5 : c.conv = 112
          · simp only [h5, if_true] at h ⊢
            split at h
            · simp at h; subst h; simp
            · simp at h
          · simp only [h5, if_false] at h
            by_cases h6 : c.conv = 110
            · simp only [h6, if_true] at h ⊢
              cases hc : c.len <;> rw [hc] at h <;> simp at h <;> subst h <;> simp
            · simp only [h6, if_false] at h; simp at h


end Verif.PrintfCall
