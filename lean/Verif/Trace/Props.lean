import Verif.Trace.Lemmas
/-
C106: a traced call is the call.
-/
namespace Verif.Trace
open Verif Verif.Entry Verif.ParamStorage Verif.ParamStorage.Spec Verif.Handles Verif.Heap Verif.Trace.Spec
open Verif.WrapCall.Spec (text Slot AllFilled Declares Handled Call)

variable {W R : Type}

theorem before_eq (o : Option Text) : before o = o.map calling := rfl
theorem afterVoid_eq (o : Option Text) : afterVoid o = o.map returnedVoid := rfl

/-- The hypotheses about a traced call: the function is declared with the parameters `ps`; `as` are the arguments of such a call, and
can be recorded if `complete`; recorded calls and results can be printed (which need not yield a text). -/
structure Traceable (p : Prog W R) (F : Ref → List WrapCall.Arg → List View → Prop) (as : List WrapCall.Arg) (slots : List Slot) (complete : Bool) : Prop where
  handled : Handled F p.env p.db p.tags
  function : ∃ entry ps, p.entry = some entry ∧ Declares p.db entry ps ∧ Call p.env p.db p.tags ps as slots complete
  addr : ∀ b, p.addrOf b ≠ 0
  text : ∀ w st, AllFilled F slots (views st.items) → ∃ o, p.text w st = .ok o
  result : ∀ w r, ∃ o, p.resText w r = .ok o

/-- C106, in general: the arguments are evaluated twice; what is recorded and printed are the values of the first evaluation, what the function
gets are those of the second. -/
theorem C106_evaluated_twice (p : Prog W R) (F : Ref → List WrapCall.Arg → List View → Prop) (w w1 w2 : W) (as as2 : List WrapCall.Arg) (hargs : p.args w = .ok (as, w1)) (hargs2 : p.args w1 = .ok (as2, w2)) (slots : List Slot) (complete : Bool)
    (ht : Traceable p F as slots complete) (h : Heap) (ho : h.Ok) (hs : h.fails h.next = false) (hiter : h.fails (h.next + 2) = false) :
    ∃ k, traced p w h = (p.fn as2 w2 >>= k) ∧ ∀ r w', ∃ l l' h', k (r, w') = .ok (r, w', l ++ [.call as2] ++ l', h') ∧ (∀ b, h'.live b = h.live b) ∧
      Lines p F slots complete (∀ k, h.fails k = false) (fun w t o => ∃ u, ResultText p w r u ∧ o = after u t) w1 w' l l' := by
  obtain ⟨entry, ps, he, hd, hcall⟩ := ht.function
  obtain ⟨v, st, h1, e1, s1, f1, hv, hvn⟩ := start_ok ht.handled he hd hargs hcall ho hs hiter
  have htext : ∀ w x, some st = some x → v ≠ none → ∃ o, p.text w x = .ok o := by
    rintro w x ⟨⟩ hx
    exact ht.text w st (hv hx).2
  obtain ⟨l, h2, e2, s2, f2, hl0, hl⟩ := announce_ok calling s1 w1 (htext w1)
  refine ⟨(fun x => report p v (some st) x.1 x.2 h2 >>= fun y => finish v (some st) y.2 >>= fun h => .ok (x.1, x.2, l ++ [.call as2] ++ y.1, h)), ?_, ?_⟩
  · unfold traced
    simp only [e1, e2, Outcome.bind_ok, hargs2]
    rfl
  · intro r w'
    obtain ⟨l', h3, e3, s3, f3, hl0', hl'⟩ := report_ok s2 w' r (htext w') (ht.result w' r)
    obtain ⟨h4, e4, f4, hlive⟩ := finish_ok s3
    refine ⟨l, l', h4, ?_, hlive, ?_⟩
    · simp only [e3, e4, Outcome.bind_ok]
    · by_cases hx : v = none
      · refine .not ?_ (hl0 hx) (hl0' hx)
        cases complete with
        | false => exact .inl rfl
        | true => exact .inr fun hm => hvn rfl ht.addr hm hx
      · obtain ⟨t, ht0⟩ := ht.text w1 st (hv hx).2
        obtain ⟨t', ht1⟩ := ht.text w' st (hv hx).2
        obtain ⟨u, hu, hsay⟩ := hl' st t' rfl hx ht1
        rw [f2, f1] at hsay
        have := hl st t rfl hx ht0
        rw [f1] at this
        exact .recorded (hv hx).2 ht0 ht1 ⟨u, hu, rfl⟩ (by rw [before_eq]; exact this) hsay

/-- **C106**, partial: if the evaluation of the arguments has no effects, then METAC_WRAP_FN_RES does what the plain call does: the function is called once,
with the arguments `as`, where the caller is; if it returns, the result and all that it has changed are those of the plain call; nothing stays allocated; and the lines printed
before and after it are those of the recorded call (`Lines`).

Missing: arguments with side effects (`C106_twice_false`), functions without type information (`C106_unlinked_false`), a failing allocation of the
iterator (`hiter`; see `C40_iterator_ub`), and what is missing in C40. -/
theorem C106_traced_partial (p : Prog W R) (F : Ref → List WrapCall.Arg → List View → Prop) (w : W) (as : List WrapCall.Arg) (hargs : p.args w = .ok (as, w)) (slots : List Slot) (complete : Bool)
    (ht : Traceable p F as slots complete) (h : Heap) (ho : h.Ok) (hiter : h.fails (h.next + 2) = false) :
    ∃ k, traced p w h = (p.fn as w >>= k) ∧ ∀ r w', ∃ l l' h', k (r, w') = .ok (r, w', l ++ [.call as] ++ l', h') ∧ (∀ b, h'.live b = h.live b) ∧
      Lines p F slots complete (∀ k, h.fails k = false) (fun w t o => ∃ u, ResultText p w r u ∧ o = after u t) w w' l l' := by
  obtain ⟨entry, ps, he, hd, hcall⟩ := ht.function
  cases hs : h.fails h.next with
  | true =>
    have e0 : start p w h = .ok (none, none, w, { h with next := h.next + 1 }) := by simp [start, newStorage, Heap.alloc, hs]
    refine ⟨(fun x => report p none none x.1 x.2 { h with next := h.next + 1 } >>= fun y => finish none none y.2 >>= fun h => .ok (x.1, x.2, [] ++ [.call as] ++ y.1, h)), ?_, ?_⟩
    · unfold traced
      simp only [e0, Outcome.bind_ok, announce, hargs]
      rfl
    · intro r w'
      exact ⟨[], [], _, rfl, fun _ => rfl, .not (.inr fun hm => by rw [hm] at hs; cases hs) rfl rfl⟩
  | false => exact C106_evaluated_twice p F w w w as as hargs hargs slots complete ht h ho hs hiter

/-- C106, in general, for METAC_WRAP_FN_NORES. -/
theorem C106_void_evaluated_twice (p : Prog W R) (F : Ref → List WrapCall.Arg → List View → Prop) (w w1 w2 : W) (as as2 : List WrapCall.Arg) (hargs : p.args w = .ok (as, w1)) (hargs2 : p.args w1 = .ok (as2, w2)) (slots : List Slot) (complete : Bool)
    (ht : Traceable p F as slots complete) (h : Heap) (ho : h.Ok) (hs : h.fails h.next = false) (hiter : h.fails (h.next + 2) = false) :
    ∃ k, tracedVoid p w h = (p.fn as2 w2 >>= k) ∧ ∀ r w', ∃ l l' h', k (r, w') = .ok (w', l ++ [.call as2] ++ l', h') ∧ (∀ b, h'.live b = h.live b) ∧
      Lines p F slots complete (∀ k, h.fails k = false) (fun _ t o => o = afterVoid t) w1 w' l l' := by
  obtain ⟨entry, ps, he, hd, hcall⟩ := ht.function
  obtain ⟨v, st, h1, e1, s1, f1, hv, hvn⟩ := start_ok ht.handled he hd hargs hcall ho hs hiter
  have htext : ∀ w x, some st = some x → v ≠ none → ∃ o, p.text w x = .ok o := by
    rintro w x ⟨⟩ hx
    exact ht.text w st (hv hx).2
  obtain ⟨l, h2, e2, s2, f2, hl0, hl⟩ := announce_ok calling s1 w1 (htext w1)
  refine ⟨(fun x => announce returnedVoid p v (some st) x.2 h2 >>= fun y => finish v (some st) y.2 >>= fun h => .ok (x.2, l ++ [.call as2] ++ y.1, h)), ?_, ?_⟩
  · unfold tracedVoid
    simp only [e1, e2, Outcome.bind_ok, hargs2]
    rfl
  · intro r w'
    obtain ⟨l', h3, e3, s3, f3, hl0', hl'⟩ := announce_ok returnedVoid s2 w' (htext w')
    obtain ⟨h4, e4, f4, hlive⟩ := finish_ok s3
    refine ⟨l, l', h4, ?_, hlive, ?_⟩
    · simp only [e3, e4, Outcome.bind_ok]
    · by_cases hx : v = none
      · refine .not ?_ (hl0 hx) (hl0' hx)
        cases complete with
        | false => exact .inl rfl
        | true => exact .inr fun hm => hvn rfl ht.addr hm hx
      · obtain ⟨t, ht0⟩ := ht.text w1 st (hv hx).2
        obtain ⟨t', ht1⟩ := ht.text w' st (hv hx).2
        have h5 := hl' st t' rfl hx ht1
        have h6 := hl st t rfl hx ht0
        rw [f2, f1] at h5
        rw [f1] at h6
        exact .recorded (hv hx).2 ht0 ht1 rfl (by rw [before_eq]; exact h6) (by rw [afterVoid_eq]; exact h5)

/-- **C106**, partial: the same for METAC_WRAP_FN_NORES.  Missing: as `C106_traced_partial`. -/
theorem C106_void_partial (p : Prog W R) (F : Ref → List WrapCall.Arg → List View → Prop) (w : W) (as : List WrapCall.Arg) (hargs : p.args w = .ok (as, w)) (slots : List Slot) (complete : Bool)
    (ht : Traceable p F as slots complete) (h : Heap) (ho : h.Ok) (hiter : h.fails (h.next + 2) = false) :
    ∃ k, tracedVoid p w h = (p.fn as w >>= k) ∧ ∀ r w', ∃ l l' h', k (r, w') = .ok (w', l ++ [.call as] ++ l', h') ∧ (∀ b, h'.live b = h.live b) ∧
      Lines p F slots complete (∀ k, h.fails k = false) (fun _ t o => o = afterVoid t) w w' l l' := by
  obtain ⟨entry, ps, he, hd, hcall⟩ := ht.function
  cases hs : h.fails h.next with
  | true =>
    have e0 : start p w h = .ok (none, none, w, { h with next := h.next + 1 }) := by simp [start, newStorage, Heap.alloc, hs]
    refine ⟨(fun x => announce returnedVoid p none none x.2 { h with next := h.next + 1 } >>= fun y => finish none none y.2 >>= fun h => .ok (x.2, [] ++ [.call as] ++ y.1, h)), ?_, ?_⟩
    · unfold tracedVoid
      simp only [e0, Outcome.bind_ok, announce, hargs]
      rfl
    · intro r w'
      exact ⟨[], [], _, rfl, fun _ => rfl, .not (.inr fun hm => by rw [hm] at hs; cases hs) rfl rfl⟩
  | false => exact C106_void_evaluated_twice p F w w w as as hargs hargs slots complete ht h ho hs hiter

end Verif.Trace
