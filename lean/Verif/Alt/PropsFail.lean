import Verif.Alt.Props
/-
C121: arguments that the other way to trace a call cannot record.
-/
namespace Verif.Alt
open Verif Verif.Entry Verif.Entry.Spec Verif.Value Verif.Value.Spec Verif.ParamStorage Verif.ParamStorage.Spec Verif.Handles Verif.Heap Verif.Alt.Spec
open Verif.WrapCall (Arg Handler entryArg newItem write)
open Verif.WrapCall.Spec (Slot AllFilled Filled Declares Plain)
open Verif.Trace (Prog Event announce report finish calling)

variable {W R : Type}

/-- `Fixed ps xs slots`: the expressions `xs` are arguments for the ordinary parameters `ps`, which get the values `slots`. -/
inductive Fixed (env : WrapCall.Env) (db : Db) : List Ref → List Expr → List Slot → Prop where
  | nil : Fixed env db [] [] []
  | cons {p t x bs ps xs slots} : Plain env db p (some t) → Given db t x bs → Fixed env db ps xs slots → Fixed env db (p :: ps) (x :: xs) (.bytes p bs :: slots)

/-- The line `failure ` with the digit `d`. -/
def failed (d : Char) : Trace.Text := ['f', 'a', 'i', 'l', 'u', 'r', 'e', ' ', d, '\n'].map fun c => UInt8.ofNat c.toNat

theorem append_fixed {env : WrapCall.Env} {generic : Bool} {db : Db} {tags : Option (Ref → Option Handler)} (hn : Named db) (ps : List Ref) {ps1 : List Ref} {xs1 : List Expr} {slots : List Slot}
    (hfix : Fixed env db ps1 xs1 slots) (rest : List Ref) (xs : List Expr) :
    ∀ (i : Nat) (st : Sto) (h : Heap), ps.drop i = ps1 ++ rest → Consistent st h → st.items.length = i → (∀ k, h.fails k = false) →
    ∃ new h' j, append env generic db tags ps i (xs1 ++ xs) st h = append env generic db tags ps j xs (extend st new) h' ∧ ps.drop j = rest ∧ (extend st new).items.length = j ∧
      GoodL new ∧ Grows h h' (ownedL new) ∧ AllFilled (fun _ _ _ => False) slots (views new) := by
  induction hfix with
  | nil =>
    intro i st h hd hc hi _
    exact ⟨[], h, i, by simp [extend_nil hc], by simpa using hd, by simp [extend, hi], trivial, by simpa [ownedL] using Grows.refl h, .nil⟩
  | @cons p t x bs ps1 xs1 slots hp hg _ ih =>
    intro i st h hd hc hi hm
    have h1 : ps[i]? = some p := by rw [← List.head?_drop, hd]; rfl
    have h2 : ps.drop (i + 1) = ps1 ++ rest := by rw [← List.tail_drop, hd]; rfl
    obtain ⟨y, h3, e3, hgood, g, hf⟩ := ordinary_ok (F := fun _ _ _ => False) hn hp hg i st h hc hi hm
    have hgl : GoodL [y] := ⟨hgood, trivial⟩
    have gl : Grows h h3 (ownedL [y]) := by simpa [ownedL] using g
    obtain ⟨new, h4, j, e4, hj, hlen, hg4, g4, ha⟩ := ih (i + 1) (extend st [y]) h3 h2 (Consistent_appendL hc [y] gl hgl) (by simp [extend, hi]) (by rw [g.fails]; exact hm)
    refine ⟨[y] ++ new, h4, j, ?_, hj, by rw [← extend_extend]; exact hlen, ?_, ?_, .cons hf ha⟩
    · rw [← extend_extend, ← e4]
      simp only [List.cons_append, append, h1, hp.1, hp.2, Bool.not_false, Bool.and_self, if_true, e3, Outcome.bind_ok, ne_eq, not_true_eq_false, if_false]
    · rw [GoodL_append]; exact ⟨hgl, hg4⟩
    · rw [ownedL_append]; exact gl.trans g4

theorem variable_untagged {env : WrapCall.Env} {db : Db} {tags : Option (Ref → Option Handler)} {p : Ref} (hp : WrapCall.Spec.Dots db p) (ht : tags.bind (· p) = none) (args : List Arg)
    (i : Nat) (st : Sto) (h : Heap) (hc : Consistent st h) (hm : ∀ k, h.fails k = false) :
    ∃ y h', variable_ env db tags i p args st h = .ok (6, extend st [y], h') ∧ Good y ∧ Grows h h' (owned y) ∧ view y = .list (entryArg env db p) [] := by
  have hva : (entryArg env db p).va = true := by
    obtain ⟨t, hp⟩ := hp
    simp [entryArg, hp]
  unfold variable_
  rcases appendNested_spec st (entryArg env db p) hva h hc with ⟨r, h', e1, hr, g, k, hk⟩ | ⟨node, d, inner, h1, e1, hin, g⟩
  · rw [hm k] at hk; cases hk
  · rw [e1]
    simp only [Outcome.bind_ok, ne_eq, not_true_eq_false, if_false]
    have hx := WrapCall.extend_one st (.nested node (entryArg env db p) d inner [] 0 none)
    simp only [Item.node] at hx
    rw [hx]
    cases inner with
    | none => obtain ⟨k, hk⟩ := hin rfl; rw [hm k] at hk; cases hk
    | some b =>
      match ha : h1.alloc with
      | (none, h2) => obtain ⟨k, hk⟩ := alloc_fail ha; rw [g.fails, hm k] at hk; cases hk
      | (some iter, h2) =>
        have ga := alloc_grows ha
        simp only [Option.toList_some] at ga
        obtain ⟨h3, e3, g3⟩ := WrapCall.free_mid hc.1 (l := owned (.nested node (entryArg env db p) d (some b) [] 0 none)) (r := []) (b := iter) (h := h) (h' := h2) (g.trans ga)
        simp only [ht, handle, Outcome.bind_ok, e3]
        exact ⟨_, h3, rfl, ⟨hva, by simp, trivial, rfl, rfl⟩, by simpa using g3, by simp [view, views]⟩

/-- What `start` leaves, whatever the answer for the arguments. -/
theorem start_any {p : Prog W R} {generic : Bool} {ps : List Ref} {xs : List Expr} (hps : ∀ st h, appendAll p generic xs st h = append p.env generic p.db p.tags ps 0 xs st h) {f0 : Nat} {Q : List View → Prop}
    (hap : ∀ b h2, Consistent ⟨b, [], 0, none⟩ h2 → (∀ k, h2.fails k = false) → ∃ new h', append p.env generic p.db p.tags ps 0 xs ⟨b, [], 0, none⟩ h2 = .ok (f0, extend ⟨b, [], 0, none⟩ new, h') ∧
      GoodL new ∧ Grows h2 h' (ownedL new) ∧ Q (views new)) (hadr : ∀ b, p.addrOf b ≠ 0) {h : Heap} (ho : h.Ok) (hm : ∀ k, h.fails k = false) :
    ∃ v st h', start p generic xs h = .ok (some v, some st, failureLine f0, h') ∧ Trace.Started p.entry (some v) (some st) h.live h' ∧ h'.fails = h.fails ∧ Q (views st.items) := by
  have ow : Owns h.live h [] := .init ho
  unfold start
  match ea : h.alloc with
  | (none, h1) => simp [Heap.alloc, hm] at ea
  | (some b, h1) =>
    obtain ⟨o1, f1⟩ := ow.alloc_some ea
    have e1 : newStorage h = (some ⟨b, [], 0, none⟩, h1) := by simp [newStorage, ea]
    simp only [e1]
    obtain ⟨v, h2, e2, f2, n2, on, os, hf⟩ := Trace.static_new p.db p.entry (p.addrOf b) o1
    simp only [e2, Outcome.bind_ok]
    cases v with
    | none => exact absurd rfl (hf (hadr b) (by rw [f1]; exact hm))
    | some v =>
      obtain ⟨h0, h3, h4⟩ := os v rfl
      have hc : Consistent ⟨b, [], 0, none⟩ h2 := by
        refine ⟨h4.ok, by simp [ownedL], ?_, by simp [GoodL], rfl, rfl⟩
        intro x hx
        simp only [ownedL, List.mem_singleton] at hx
        subst hx
        rw [h4.live]
        simp
      obtain ⟨new, h5, e5, hg, g, hall⟩ := hap b h2 hc (by rw [f2, f1]; exact hm)
      simp only [hps, Outcome.bind_ok, e5]
      have hc5 := Consistent_appendL hc new g hg
      have hitems : (extend (⟨b, [], 0, none⟩ : Sto) new).items = new := by simp [extend]
      refine ⟨v, _, h5, rfl, ⟨by simp, ?_, ?_, ?_⟩, g.fails.trans (f2.trans f1), by rw [hitems]; exact hall⟩
      · rintro x ⟨⟩
        exact h3
      · rintro s ⟨⟩
        exact hc5.2.2.2
      · have fresh : ∀ x ∈ ownedL new, h2.live x = false := by
          intro x hx
          cases hl : h2.live x with
          | false => rfl
          | true => have := h4.ok x hl; have := (g.fresh x hx).1; omega
        have hsb : Trace.storageBlocks (some (extend (⟨b, [], 0, none⟩ : Sto) new)) = b :: ownedL new := by simp [Trace.storageBlocks, extend]
        rw [hsb]
        refine ⟨g.ok h4.ok, ?_, ?_, ?_⟩
        · intro x
          rw [g.live, h4.live]
          simp [Bool.or_assoc]
        · have h6 := h4.nodup
          show (v.block :: b :: ownedL new).Nodup
          refine (List.nodup_append (l₁ := [v.block, b])).2 ⟨h6, g.nodup, ?_⟩
          rintro x hx y hy rfl
          have := fresh x hy
          rw [h4.live] at this
          simp at this hx
          rcases hx with rfl | rfl <;> simp at this
        · intro x hx
          simp only [Option.toList_some, List.map_cons, List.map_nil, List.cons_append, List.nil_append, List.mem_cons] at hx
          rcases hx with rfl | rfl | hx
          · exact h4.apart _ (by simp)
          · exact h4.apart _ (by simp)
          · cases hl : h.live x with
            | false => rfl
            | true =>
              have := fresh x hx
              rw [h4.live, hl] at this
              simp at this

theorem appendAll_linked {p : Prog W R} {entry : Ref} {ps : List Ref} (he : p.entry = some entry) (hd : Declares p.db entry ps) (generic : Bool) (xs : List Expr) (st : Sto) (h : Heap) :
    appendAll p generic xs st h = append p.env generic p.db p.tags ps 0 xs st h := by
  obtain ⟨f, hff, hps⟩ := WrapCall.finalOf_func hd
  simp only [appendAll, he, hff, hps, Outcome.ofLoop_some, Outcome.bind_ok]

/-- A failure is printed first, and the function is called all the same. -/
theorem traced_any {p : Prog W R} {generic : Bool} {exprs : W → Outcome (List Expr)} {w : W} {xs : List Expr} (hx : exprs w = .ok xs) {as : List Arg} (hargs : p.args w = .ok (as, w))
    {h h1 : Heap} {v : Handle} {st : Sto} {l0 : List Event} (hs : start p generic xs h = .ok (some v, some st, l0, h1)) (s1 : Trace.Started p.entry (some v) (some st) h.live h1)
    (htext : ∀ w, ∃ o, p.text w st = .ok o) (hres : ∀ w r, ∃ o, p.resText w r = .ok o) :
    ∃ k, traced p generic exprs w h = (p.fn as w >>= k) ∧ ∀ r w', ∃ l l' h', k (r, w') = .ok (r, w', l0 ++ l ++ [.call as] ++ l', h') ∧ ∀ b, h'.live b = h.live b := by
  have htext' : ∀ w x, some st = some x → some v ≠ none → ∃ o, p.text w x = .ok o := by
    rintro w x ⟨⟩ _
    exact htext w
  obtain ⟨l, h2, e2, s2, f2, -, -⟩ := Trace.announce_ok calling s1 w (htext' w)
  refine ⟨(fun x => report p (some v) (some st) x.1 x.2 h2 >>= fun y => finish (some v) (some st) y.2 >>= fun h => .ok (x.1, x.2, l0 ++ l ++ [.call as] ++ y.1, h)), ?_, ?_⟩
  · unfold traced
    simp only [hx, hs, e2, Outcome.bind_ok, hargs]
    rfl
  · intro r w'
    obtain ⟨l', h3, e3, s3, f3, -, -⟩ := Trace.report_ok s2 w' r (htext' w') (hres w' r)
    obtain ⟨h4, e4, f4, hlive⟩ := Trace.finish_ok s3
    exact ⟨l, l', h4, by simp only [e3, e4, Outcome.bind_ok], hlive⟩

theorem views_append (a b : List Item) : views (a ++ b) = views a ++ views b := by
  induction a with
  | nil => rfl
  | cons x a ih => simp [views, ih]

/-- `Reported p generic xs d Q`: the macro prints `failure d` before all else, and has recorded arguments with `Q` until then; the function is called once, with
the arguments `as`, where the caller is; if it returns, the result and all that it has changed are those of the plain call, and nothing stays allocated. -/
def Reported (p : Prog W R) (generic : Bool) (xs : List Expr) (d : Char) (Q : List View → Prop) (h : Heap) : Prop :=
  (∃ v st h', start p generic xs h = .ok (some v, some st, [.line (failed d)], h') ∧ Q (views st.items)) ∧
  ∀ exprs w as, exprs w = .ok xs → p.args w = .ok (as, w) → (∀ w st, Q (views st.items) → ∃ o, p.text w st = .ok o) → (∀ w r, ∃ o, p.resText w r = .ok o) →
    ∃ k, traced p generic exprs w h = (p.fn as w >>= k) ∧ ∀ r w', ∃ l l' h', k (r, w') = .ok (r, w', [.line (failed d)] ++ l ++ [.call as] ++ l', h') ∧ ∀ b, h'.live b = h.live b

/-- **C121**, partial (missing: arguments for which memory runs out, `C108_memory_false`): variable arguments for which there is no handler in the tag map are reported
with `failure 6`; the arguments before are recorded with their values. -/
theorem C121_untagged_partial (p : Prog W R) (generic : Bool) (entry : Ref) (ps : List Ref) (d : Ref) (xs : List Expr) (slots : List Slot) (x : Expr) (more : List Expr)
    (hn : Named p.db) (he : p.entry = some entry) (hd : Declares p.db entry (ps ++ [d])) (hfix : Fixed p.env p.db ps xs slots) (hdots : WrapCall.Spec.Dots p.db d) (ht : p.tags.bind (· d) = none)
    (hadr : ∀ b, p.addrOf b ≠ 0) (h : Heap) (ho : h.Ok) (hm : ∀ k, h.fails k = false) :
    Reported p generic (xs ++ x :: more) '6' (fun vs => ∃ vs', vs = vs' ++ [.list (entryArg p.env p.db d) []] ∧ AllFilled (fun _ _ _ => False) slots vs') h := by
  obtain ⟨v, st, h1, hs, s1, -, hq⟩ := start_any (generic := generic) (xs := xs ++ x :: more) (f0 := 6)
    (Q := fun vs => ∃ vs', vs = vs' ++ [.list (entryArg p.env p.db d) []] ∧ AllFilled (fun _ _ _ => False) slots vs') (appendAll_linked he hd _ _) (by
    intro b h2 hc hm2
    obtain ⟨new, h3, j, e3, hj, hlen, hg, g, hall⟩ := append_fixed (generic := generic) (tags := p.tags) hn (ps ++ [d]) hfix [d] (x :: more) 0 _ h2 rfl hc rfl hm2
    obtain ⟨y, h4, e4, hy, gy, hv⟩ := variable_untagged (env := p.env) hdots ht ((x :: more).map (·.arg)) j (extend ⟨b, [], 0, none⟩ new) h3 (Consistent_appendL hc new g hg) (by rw [g.fails]; exact hm2)
    have hp : (ps ++ [d])[j]? = some d := by rw [← List.head?_drop, hj]; rfl
    refine ⟨new ++ [y], h4, ?_, ?_, ?_, views new, by simp [views_append, views, hv], hall⟩
    · rw [e3]
      obtain ⟨t, hd1⟩ := hdots
      simp only [append, hp, hd1, Bool.not_true, Bool.false_and, Bool.false_eq_true, if_false]
      rw [e4, extend_extend]
    · rw [GoodL_append]; exact ⟨hg, hy, trivial⟩
    · rw [ownedL_append]; exact g.trans (by simpa [ownedL] using gy)) hadr ho hm
  exact ⟨⟨v, st, h1, hs, hq⟩, fun exprs w as hx ha htext hres => traced_any hx ha hs s1 (fun w => htext w st hq) hres⟩

/-- **C121**, partial (as before): if there are more arguments than parameters are known, as for functions declared without parameters, it is reported with `failure 1`;
the arguments before are recorded with their values. -/
theorem C121_more_partial (p : Prog W R) (generic : Bool) (entry : Ref) (ps : List Ref) (xs : List Expr) (slots : List Slot) (x : Expr) (more : List Expr)
    (hn : Named p.db) (he : p.entry = some entry) (hd : Declares p.db entry ps) (hfix : Fixed p.env p.db ps xs slots)
    (hadr : ∀ b, p.addrOf b ≠ 0) (h : Heap) (ho : h.Ok) (hm : ∀ k, h.fails k = false) :
    Reported p generic (xs ++ x :: more) '1' (AllFilled (fun _ _ _ => False) slots) h := by
  obtain ⟨v, st, h1, hs, s1, -, hq⟩ := start_any (generic := generic) (xs := xs ++ x :: more) (f0 := 1) (Q := AllFilled (fun _ _ _ => False) slots) (appendAll_linked he hd _ _) (by
    intro b h2 hc hm2
    obtain ⟨new, h3, j, e3, hj, hlen, hg, g, hall⟩ := append_fixed (generic := generic) (tags := p.tags) hn ps hfix [] (x :: more) 0 _ h2 (by simp) hc rfl hm2
    have hp : ps[j]? = none := by rw [← List.head?_drop, hj]; rfl
    refine ⟨new, h3, ?_, hg, g, hall⟩
    rw [e3]
    simp only [append, hp]) hadr ho hm
  exact ⟨⟨v, st, h1, hs, hq⟩, fun exprs w as hx ha htext hres => traced_any hx ha hs s1 (fun w => htext w st hq) hres⟩

/-- **C121**, partial (as before): the arguments of a function without type information are reported with `failure 1`, and none is recorded. -/
theorem C121_unlinked_partial (p : Prog W R) (generic : Bool) (x : Expr) (more : List Expr) (he : p.entry = none) (hadr : ∀ b, p.addrOf b ≠ 0) (h : Heap) (ho : h.Ok) (hm : ∀ k, h.fails k = false) :
    Reported p generic (x :: more) '1' (· = []) h := by
  obtain ⟨v, st, h1, hs, s1, -, hq⟩ := start_any (p := p) (generic := generic) (ps := []) (xs := x :: more) (f0 := 1) (Q := (· = []))
    (fun st h => by simp [appendAll, he, finalOf, Outcome.ofLoop]) (by
    intro b h2 hc hm2
    exact ⟨[], h2, by simp [append, extend_nil hc], trivial, by simpa [ownedL] using Grows.refl h2, rfl⟩) hadr ho hm
  exact ⟨⟨v, st, h1, hs, hq⟩, fun exprs w as hx ha htext hres => traced_any hx ha hs s1 (fun w => htext w st hq) hres⟩

end Verif.Alt
