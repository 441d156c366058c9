import Verif.DeepEnds.Walk
import Verif.CDecl.Lemmas
/-
The operations end.
-/
namespace Verif.DeepEnds
open Verif Verif.Entry Verif.Entry.Spec Verif.Value Verif.Handlers Verif.ValueString Verif.ValueString.Spec Verif.DeepEnds.Spec

/-! ### Texts -/

theorem fmt_ends : ∀ (n : Nat) (t : CDecl.Text) (args : List CDecl.Text), t.length ≤ n → Ends (CDecl.fmt t args)
  | n, [], args, _ => by rw [CDecl.fmt.eq_def]; exact Ends.ok _
  | 0, _ :: _, _, h => by simp at h
  | n + 1, c :: s, args, h => by
    have ih := fun t args (h : t.length ≤ n) => fmt_ends n t args h
    simp only [List.length_cons] at h
    rw [CDecl.fmt.eq_def]
    dsimp only
    split
    · have := ih s args (by omega)
      ends
    · split
      · exact Ends.ub
      · next d s =>
        simp only [List.length_cons] at h
        split
        · have := ih s args (by omega)
          ends
        · split
          · split
            · exact Ends.ub
            · next a args =>
              have := ih s args (by omega)
              ends
          · exact Ends.ub
macro_rules | `(tactic| ends_lemma) => `(tactic| with_reducible exact fmt_ends _ _ _ (Nat.le_refl _))

theorem fieldsText_ends (db : Db) : ∀ rs outs res, Ends (CDecl.fieldsText db rs outs res)
  | [], _, _ => Ends.ok _
  | r :: rs, outs, res => by
    have ih := fieldsText_ends db rs
    rw [CDecl.fieldsText]
    split
    · exact Ends.ok _
    · refine Ends.bind (by ends) fun _ _ => ih _ _

theorem paramsText_ends (db : Db) (fn : Bool) : ∀ rs outs res, Ends (CDecl.paramsText db fn rs outs res)
  | [], _, _ => Ends.ok _
  | r :: rs, outs, res => by
    have ih := paramsText_ends db fn rs
    rw [CDecl.paramsText]
    split
    · exact ih _ _
    · exact Ends.ok _
    · split
      · exact Ends.ok _
      · exact Ends.bind (by ends) fun _ _ => ih _ _
    · split
      · exact Ends.abort
      · exact ih _ _
macro_rules | `(tactic| ends_lemma) => `(tactic| with_reducible exact fieldsText_ends _ _ _ _)
macro_rules | `(tactic| ends_lemma) => `(tactic| with_reducible exact paramsText_ends _ _ _ _ _)

theorem combine_ends (db : Db) (e : Entry) (outs : List (Option CDecl.Text)) : Ends (CDecl.combine db e outs) := by
  unfold CDecl.combine; ends

theorem mapM_ends {α β : Type} {f : α → Outcome β} : ∀ (l : List α), (∀ a ∈ l, Ends (f a)) → Ends (l.mapM f)
  | [], _ => by simp; exact Ends.ok _
  | a :: l, h => by
    rw [List.mapM_cons]
    have h1 := h a (List.mem_cons_self ..)
    have h2 := mapM_ends l fun b hb => h b (List.mem_cons_of_mem _ hb)
    ends

theorem cdecl_ends {db : Db} {r : Ref} (h : CDecl.Spec.Finite db r) : Ends (CDecl.cdecl db r) := by
  induction h with
  | intro r _ ih =>
    rw [CDecl.cdecl.eq_def]
    exact Ends.bind (mapM_ends _ fun d hd => ih d (CDecl.deps_uses hd)) fun _ _ => combine_ends _ _ _

theorem measure_ends (pr : UInt8 → Bool) (m : Mem) : ∀ n a len, Ends (PrintString.measure pr m n a len)
  | 0, _, _ => Ends.ok _
  | n + 1, a, len => by
    have h1 := measure_ends pr m n (a + 1) (len + 1)
    have h2 := measure_ends pr m n (a + 1) (len + 2)
    rw [PrintString.measure]
    ends

theorem put_ends (res : List UInt8) (j : Nat) (c : UInt8) : Ends (PrintString.put res j c) := by unfold PrintString.put; ends
macro_rules | `(tactic| ends_lemma) => `(tactic| with_reducible exact measure_ends _ _ _ _ _)
macro_rules | `(tactic| ends_lemma) => `(tactic| with_reducible exact put_ends _ _ _)

theorem fill_ends (pr : UInt8 → Bool) (m : Mem) : ∀ n a res j, Ends (PrintString.fill pr m n a res j)
  | 0, _, _, _ => Ends.ok _
  | n + 1, a, res, j => by
    have ih := fill_ends pr m n (a + 1)
    rw [PrintString.fill]
    split
    · exact Ends.ub
    · split
      · exact Ends.bind (by ends) fun _ _ => Ends.bind (by ends) fun _ _ => ih _ _
      · split
        · exact Ends.bind (by ends) fun _ _ => ih _ _
        · exact Ends.abort
macro_rules | `(tactic| ends_lemma) => `(tactic| with_reducible exact fill_ends _ _ _ _ _ _)

theorem cstr_ends : ∀ bs, Ends (Str.cstr bs)
  | [] => Ends.ub
  | b :: bs => by
    have := cstr_ends bs
    rw [Str.cstr]
    ends
macro_rules | `(tactic| ends_lemma) => `(tactic| with_reducible exact cstr_ends _)

theorem dprintable_ends {db : Db} (ha : ∀ r, Acyclic db r) (pr : UInt8 → Bool) (alloc : Bool) (m : Mem) (v : Option Value) :
    Ends (PrintString.dprintable pr alloc db m v) := by
  unfold PrintString.dprintable PrintString.escape; ends
macro_rules | `(tactic| ends_lemma) => `(tactic| with_reducible exact dprintable_ends (by assumption) _ _ _ _)

theorem stringLoop_ends {db : Db} (ha : ∀ r, Acyclic db r) (env : ValueString.Env) (m : Mem) (v : Value) : ∀ ts, Ends (stringLoop env db m v ts)
  | [] => Ends.ok _
  | t :: ts => by
    have := stringLoop_ends ha env m v ts
    rw [stringLoop]
    unfold tyText
    ends

theorem baseTypeString_ends {db : Db} (ha : ∀ r, Acyclic db r) (env : ValueString.Env) (m : Mem) (v : Value) : Ends (baseTypeString env db m v) :=
  stringLoop_ends ha env m v _
macro_rules | `(tactic| ends_lemma) => `(tactic| with_reducible exact baseTypeString_ends (by assumption) _ _ _)

theorem finalCase_ends {db : Db} (ha : ∀ r, Acyclic db r) (env : ValueString.Env) (v : Value) : Ends (finalCase env db v) := by
  unfold finalCase; ends
macro_rules | `(tactic| ends_lemma) => `(tactic| with_reducible exact finalCase_ends (by assumption) _ _)
macro_rules | `(tactic| ends_lemma) => `(tactic| with_reducible exact request_ends (by assumption) _ _ _)
macro_rules | `(tactic| ends_lemma) => `(tactic| (with_reducible refine collect_ends (fun _ => ?_) _ _))

theorem array_of {db : Db} (ha : ∀ r, Acyclic db r) {v : Value} {b : Bool} {u : Unit} (hb : hasElements db v = .ok b) (h : Outcome.assert b = .ok u) :
    ArrayValue db v := by
  cases b with
  | false => cases h
  | true =>
    unfold hasElements at hb
    rw [bind_ok_iff] at hb
    obtain ⟨o, h1, h2⟩ := hb
    cases hf : finalOf db (some v.entry) isArray with
    | none => rw [hf] at h1; cases h1
    | some g =>
      rw [hf] at h1
      cases h1
      cases o with
      | none => cases h2
      | some x =>
        obtain ⟨⟨qs, h3⟩, h4⟩ := final_of ha hf
        cases hi : (db x).info with
        | array e n => exact ⟨x, qs, e, n, h3, hi⟩
        | _ => rw [hi] at h4; cases h4

theorem struct_of {db : Db} (ha : ∀ r, Acyclic db r) {v : Value} {b : Bool} {u : Unit} (hb : hasMembers db v = .ok b) (h : Outcome.assert b = .ok u) :
    StructValue db v := by
  cases b with
  | false => cases h
  | true =>
    unfold hasMembers at hb
    rw [bind_ok_iff] at hb
    obtain ⟨o, h1, h2⟩ := hb
    cases hf : finalOf db (some v.entry) isStruct with
    | none => rw [hf] at h1; cases h1
    | some g =>
      rw [hf] at h1
      cases h1
      cases o with
      | none => cases h2
      | some x =>
        obtain ⟨⟨qs, h3⟩, h4⟩ := final_of ha hf
        cases hi : (db x).info with
        | struct k s ms => exact ⟨x, qs, k, s, ms, h3, hi⟩
        | _ => rw [hi] at h4; cases h4

/-! ### The map -/

section
variable {env : Deep.Env} {db : Db} (ht : Tame env.vs db)
include ht

theorem startElements_ends (v : Value) : Ends (Deep.startElements db v) := by
  have ha := ht.types
  unfold Deep.startElements; ends

theorem startTarget_ends (n : Nat) (o : Option Value) : Ends (Deep.startTarget db n o) := by
  have ha := ht.types
  unfold Deep.startTarget; ends

theorem start_ends (mode : Deep.Mode) (m : Mem) (c : Case) (p : Value) (outer : List Value) : Ends (Deep.start env mode db m c p outer) := by
  have ha := ht.types
  have h1 := startElements_ends ht
  have h2 := startTarget_ends ht
  have hl : Ends (Deep.startLeaf db p) := by unfold Deep.startLeaf; ends
  have hs : Ends (Deep.startStruct db p) := by unfold Deep.startStruct; ends
  have hu : Ends (Deep.startUnion env mode db p outer) := by unfold Deep.startUnion; ends
  have hr : Ends (Deep.startArray env mode db m p outer) := by
    unfold Deep.startArray
    ends
    all_goals exact h1 _
  have hp : Ends (Deep.startPointer env mode db m p outer) := by
    unfold Deep.startPointer
    ends
    all_goals exact h2 _ _
  have hq : Ends (Deep.startParams env db p) := by
    unfold Deep.startParams paramItem
    ends
  unfold Deep.start
  ends

theorem startElements_inside {v w : Value} {n : Deep.Next} (h : Deep.startElements db v = .ok n) (hw : w ∈ n.deps) : Inside env.vs db v w := by
  unfold Deep.startElements at h
  rw [bind_ok_iff] at h
  obtain ⟨c, _, h⟩ := h
  rw [bind_ok_iff] at h
  obtain ⟨⟨vs, f⟩, h2, h⟩ := h
  have key : w ∈ vs → Inside env.vs db v w := fun hv => by
    obtain ⟨j, hj⟩ := collect_mem h2 w hv
    exact element_inside ht hj
  dsimp only at h
  split at h
  · cases h; exact key hw
  · rw [bind_ok_iff] at h
    obtain ⟨x, _, h⟩ := h
    cases x <;> (cases h; exact key hw)

theorem startElements_none {m : Mem} {p v w : Value} {n : Deep.Next} (hc : countValue env.vs db m p 0 = .ok (some v)) (h : Deep.startElements db v = .ok n) :
    w ∉ n.deps := by
  unfold Deep.startElements at h
  rw [empty_count ht hc] at h
  cases h
  exact fun h => nomatch h

theorem startArray_inside {mode : Deep.Mode} {m : Mem} {p w : Value} {outer : List Value} {n : Deep.Next}
    (h : Deep.startArray env mode db m p outer = .ok n) (hw : w ∈ n.deps) : Inside env.vs db p w := by
  unfold Deep.startArray at h
  rw [bind_ok_iff] at h
  obtain ⟨b, hb, h⟩ := h
  rw [bind_ok_iff] at h
  obtain ⟨_, has, h⟩ := h
  have hp := array_of ht.types hb has
  rw [bind_ok_iff] at h
  obtain ⟨c, _, h⟩ := h
  split at h
  · rw [bind_ok_iff] at h
    obtain ⟨r, hr, h⟩ := h
    split at h
    · cases h; cases hw
    · exact ht.arrays p outer _ w hp (request_iff.mp hr) (startElements_inside ht h hw)
    · split at h
      · cases h; cases hw
      · rw [bind_ok_iff] at h
        obtain ⟨o, ho, h⟩ := h
        cases o with
        | none => cases h; cases hw
        | some v => exact absurd hw (startElements_none ht ho h)
  · exact startElements_inside ht h hw

theorem startUnion_inside {mode : Deep.Mode} {p w : Value} {outer : List Value} {n : Deep.Next}
    (h : Deep.startUnion env mode db p outer = .ok n) (hw : w ∈ n.deps) : Inside env.vs db p w := by
  unfold Deep.startUnion at h
  rw [bind_ok_iff] at h
  obtain ⟨b, hb, h⟩ := h
  rw [bind_ok_iff] at h
  obtain ⟨_, has, h⟩ := h
  have hp := struct_of ht.types hb has
  rw [bind_ok_iff] at h
  obtain ⟨x, _, h⟩ := h
  cases x with
  | error _ => cases h; cases hw
  | ok s =>
    dsimp only at h
    rw [bind_ok_iff] at h
    obtain ⟨c, _, h⟩ := h
    split at h
    · rw [bind_ok_iff] at h
      obtain ⟨r, hr, h⟩ := h
      split at h
      · cases h; cases hw
      · cases h
        rcases List.mem_singleton.mp hw with rfl
        exact ht.unions p outer _ hp (request_iff.mp hr)
      · split at h <;> (cases h; cases hw)
    · cases h; cases hw

theorem startStruct_inside {p w : Value} {n : Deep.Next} (h : Deep.startStruct db p = .ok n) (hw : w ∈ n.deps) : Inside env.vs db p w := by
  unfold Deep.startStruct at h
  rw [bind_ok_iff] at h
  obtain ⟨b, _, h⟩ := h
  rw [bind_ok_iff] at h
  obtain ⟨_, _, h⟩ := h
  rw [bind_ok_iff] at h
  obtain ⟨x, _, h⟩ := h
  cases x with
  | error _ => cases h; cases hw
  | ok s =>
    dsimp only at h
    rw [bind_ok_iff] at h
    obtain ⟨c, _, h⟩ := h
    rw [bind_ok_iff] at h
    obtain ⟨⟨vs, f⟩, h2, h⟩ := h
    cases h
    obtain ⟨j, hj⟩ := collect_mem h2 w hw
    exact member_inside ht.types hj

theorem startParams_inside {p w : Value} {n : Deep.Next} (h : Deep.startParams env db p = .ok n) (hw : w ∈ n.deps) : Inside env.vs db p w := by
  unfold Deep.startParams at h
  rw [bind_ok_iff] at h
  obtain ⟨b, hb, h⟩ := h
  rw [bind_ok_iff] at h
  obtain ⟨u, ha, h⟩ := h
  rw [bind_ok_iff] at h
  obtain ⟨⟨vs, f⟩, h2, h⟩ := h
  cases h
  obtain ⟨j, hj⟩ := collect_mem h2 w hw
  cases b with
  | false => cases ha
  | true => exact argument_inside ht hb hj

omit ht in
theorem startPointer_follow {mode : Deep.Mode} {m : Mem} {p w : Value} {outer : List Value} {n : Deep.Next}
    (h : Deep.startPointer env mode db m p outer = .ok n) (hw : w ∈ n.deps) : Goes env.vs db m (p :: outer, w) (outer, p) := by
  unfold Deep.startPointer at h
  rw [bind_ok_iff] at h
  obtain ⟨x, _, h⟩ := h
  cases x with
  | error _ => cases h; cases hw
  | ok s =>
    dsimp only at h
    rw [bind_ok_iff] at h
    obtain ⟨x, hp, h⟩ := h
    cases x with
    | error _ => cases h; cases hw
    | ok a =>
      dsimp only at h
      split at h
      · cases h; cases hw
      · rw [bind_ok_iff] at h
        obtain ⟨l, hl, h⟩ := h
        split at h
        · cases h; cases hw
        · exact .follow hp hl (by omega)

/-- Where a first visit leads. -/
theorem start_goes {mode : Deep.Mode} {m : Mem} {c : Case} {p w : Value} {outer : List Value} {n : Deep.Next}
    (h : Deep.start env mode db m c p outer = .ok n) (hw : w ∈ n.deps) : Goes env.vs db m (p :: outer, w) (outer, p) := by
  unfold Deep.start at h
  have leaf : Deep.startLeaf db p = .ok n → w ∉ n.deps := fun h hw => by
    unfold Deep.startLeaf at h
    rw [bind_ok_iff] at h
    obtain ⟨x, _, h⟩ := h
    cases x <;> (cases h; cases hw)
  cases c with
  | base => exact absurd hw (leaf h)
  | enumeration => exact absurd hw (leaf h)
  | pointer => exact startPointer_follow h hw
  | struct => exact .inside (startStruct_inside ht h hw)
  | union => exact .inside (startUnion_inside ht h hw)
  | array => exact .inside (startArray_inside ht h hw)
  | packed => exact .inside (startParams_inside ht h hw)
  | subroutine => exact .inside (startParams_inside ht h hw)
  | subprogram => exact .inside (startParams_inside ht h hw)
  | other => cases h; cases hw

omit ht in
theorem visitAll_ends {f : Value → Deep.St → Outcome (Option Deep.Node × Deep.St)} : ∀ (vs : List Value) (st : Deep.St), (∀ v ∈ vs, ∀ st, Ends (f v st)) →
    Ends (Deep.visitAll f vs st)
  | [], _, _ => Ends.ok _
  | v :: vs, st, h => by
    rw [Deep.visitAll]
    refine Ends.bind (h v (List.mem_cons_self ..) st) fun r _ => ?_
    exact Ends.bind (visitAll_ends vs _ fun v hv => h v (List.mem_cons_of_mem _ hv)) fun _ _ => Ends.pure _

omit ht in
theorem attach_ends (p : Value) : ∀ ks size, Ends (Deep.attach p ks size)
  | [], _ => Ends.ok _
  | none :: _, _ => Ends.ok _
  | some k :: ks, size => by
    rw [Deep.attach]
    exact Ends.bind (Ends.assert _) fun _ _ => attach_ends p ks _

omit ht in
theorem finish_ends (mode : Deep.Mode) (p : Value) (st : Deep.St) (outs : List (Option Deep.Node)) (n : Deep.Next) : Ends (Deep.finish mode p st outs n) := by
  have h := attach_ends p outs
  have hr : ∀ k, Ends (Deep.register k st) := fun k => by unfold Deep.register; ends
  cases n with
  | parts vs f s =>
    simp only [Deep.finish]
    have := h s
    ends
  | target arr s =>
    simp only [Deep.finish]
    split
    · next k => 
      have := hr k
      ends
    · exact Ends.ok _
    · exact Ends.abort
  | args vs f =>
    simp only [Deep.finish]
    ends
  | fail => exact Ends.ok _
  | leaf s l => exact Ends.ok _

theorem walk_ends (mode : Deep.Mode) (m : Mem) (outer : List Value) (p : Value) (st : Deep.St) : Ends (Deep.walk env mode db m outer p st) := by
  have hacc := goes_ends ht m outer p
  generalize hx : (outer, p) = x at hacc
  induction hacc generalizing outer p st with
  | intro x _ ih =>
    subst hx
    rw [Deep.walk.eq_def]
    refine Ends.bind (finalCase_ends ht.types _ _) fun c _ => ?_
    refine Ends.bind (start_ends ht mode m c p outer) fun n hn => ?_
    refine Ends.bind (visitAll_ends _ _ fun v hv st => ih _ (start_goes ht hn hv) _ _ st rfl) fun r _ => ?_
    exact finish_ends _ _ _ _ _

omit ht in
theorem sweep_ends (map : List (Nat × Nat × Nat)) : ∀ as main, Ends (Deep.sweep map main as)
  | [], _ => Ends.ok _
  | a :: as, main => by
    have ih := sweep_ends map as
    rw [Deep.sweep]
    split
    · exact Ends.abort
    · split
      · exact ih _
      · split
        · exact ih _
        · split
          · exact ih _
          · exact Ends.bind (ih _) fun _ _ => Ends.pure _

theorem memoryMap_ends (order : List (Nat × Nat × Nat) → List (Nat × Nat × Nat)) (mode : Deep.Mode) (m : Mem) (v : Option Value) :
    Ends (Deep.memoryMap env order mode db m v) := by
  cases v with
  | none => exact Ends.ok _
  | some v =>
    rw [Deep.memoryMap]
    refine Ends.bind (walk_ends ht mode m [] v _) fun r _ => ?_
    obtain ⟨o, st⟩ := r
    cases o with
    | none => exact Ends.ok _
    | some k => exact Ends.bind (sweep_ends _ _ _) fun _ _ => Ends.pure _

/-! ### Comparing -/

theorem cmpNode_ends (cfg : Plat) (mode : Deep.Mode) (m : Mem) (M₁ M₂ : Deep.Map) (k₁ k₂ : Deep.Node) : Ends (Deep.cmpNode cfg mode db m M₁ M₂ k₁ k₂) := by
  have ha := ht.types
  have hm : ∀ a b n, Ends (Deep.memcmp m a b n) := fun a b n => by unfold Deep.memcmp; ends
  unfold Deep.cmpNode
  ends
  all_goals exact hm _ _ _

mutual
theorem cmp_ends (cfg : Plat) (mode : Deep.Mode) (m : Mem) (M₁ M₂ : Deep.Map) : ∀ (k₁ k₂ : Deep.Node), Ends (Deep.cmp cfg mode db m M₁ M₂ k₁ k₂)
  | .mk i₁ v₁ s₁ l₁ d₁ ks₁, k₂ => by
    rw [Deep.cmp]
    refine Ends.bind (cmpNode_ends ht _ _ _ _ _ _ _) fun r _ => ?_
    split
    · exact Ends.pure _
    · exact cmpAll_ends cfg mode m M₁ M₂ ks₁ _
theorem cmpAll_ends (cfg : Plat) (mode : Deep.Mode) (m : Mem) (M₁ M₂ : Deep.Map) : ∀ (ks₁ ks₂ : List Deep.Node), Ends (Deep.cmpAll cfg mode db m M₁ M₂ ks₁ ks₂)
  | [], _ => by rw [Deep.cmpAll]; exact Ends.ok _
  | _ :: _, [] => by rw [Deep.cmpAll]; exact Ends.abort
  | k₁ :: ks₁, k₂ :: ks₂ => by
    rw [Deep.cmpAll]
    refine Ends.bind (cmp_ends cfg mode m M₁ M₂ k₁ k₂) fun r _ => ?_
    exact Ends.bind (cmpAll_ends cfg mode m M₁ M₂ ks₁ ks₂) fun r _ => Ends.pure _
end

/-! ### Copying -/

end

section
variable {env : DeepCopy.Env} {db : Db} (ha : ∀ r, Acyclic db r)
include ha

omit ha in
theorem release_ends (st : DeepCopy.State) (a : Nat) : Ends (DeepCopy.release st a) := by unfold DeepCopy.release; ends
omit ha in
theorem plainFree_ends (st : DeepCopy.State) (a : Nat) : Ends (DeepCopy.plainFree env st a) := by
  have := release_ends st a
  unfold DeepCopy.plainFree; ends
omit ha in
theorem releaseAll_ends : ∀ l (st : DeepCopy.State), Ends (DeepCopy.releaseAll l st)
  | [], _ => Ends.ok _
  | (_, t) :: l, st => Ends.bind (release_ends st t) fun _ _ => releaseAll_ends l _

omit ha in
theorem preallocate_ends (M : Deep.Map) : ∀ l tbl (st : DeepCopy.State), Ends (DeepCopy.preallocate env M l tbl st)
  | [], _, _ => Ends.ok _
  | (a, id, size) :: l, tbl, st => by
    have ih := preallocate_ends M l
    rw [DeepCopy.preallocate]
    split
    · split
      · exact Ends.ok _
      · split
        · exact ih _ _
        · exact Ends.bind (plainFree_ends _ _) fun _ _ => Ends.pure _
    · exact ih _ _

theorem targetPlace_ends (mode : Deep.Mode) (M : Deep.Map) (tbl : List (Nat × Nat)) (k : Deep.Node) (st : DeepCopy.State) :
    Ends (DeepCopy.targetPlace env mode db M tbl k st) := by
  unfold DeepCopy.targetPlace DeepCopy.nmemb; ends

theorem head_ends (hc : ∀ m a b, env.copyParams m a b ≠ .hang) (mode : Deep.Mode) (M : Deep.Map) (tbl : List (Nat × Nat)) (outer : List Value)
    (k : Deep.Node) (d : Value) (st : DeepCopy.State) : Ends (DeepCopy.head env mode db M tbl outer k d st) := by
  have h1 : ∀ t, Ends (DeepCopy.copyTarget env mode db M tbl k.val t d st) := fun t => by
    have := targetPlace_ends (env := env) ha mode M tbl t st
    unfold DeepCopy.copyTarget; ends
  have h2 : Ends (DeepCopy.copyUnfollowed mode db outer k.val k.loop d st) := by unfold DeepCopy.copyUnfollowed; ends
  have h3 : ∀ a b n, Ends (DeepCopy.memcpy st.m a b n) := fun a b n => by unfold DeepCopy.memcpy; ends
  have h4 : ∀ a b, Ends (env.copyParams st.m a b) := hc st.m
  unfold DeepCopy.head
  ends
  all_goals first | exact h1 _ | exact h3 _ _ _ | exact h4 _ _

mutual
theorem copyNode_ends (hc : ∀ m a b, env.copyParams m a b ≠ .hang) (mode : Deep.Mode) (M : Deep.Map) (tbl : List (Nat × Nat)) (outer : List Value) :
    ∀ (k : Deep.Node) (d : Value) (st : DeepCopy.State), Ends (DeepCopy.copyNode env mode db M tbl outer k d st)
  | .mk i v s l f ks, d, st => by
    rw [DeepCopy.copyNode]
    refine Ends.bind (head_ends ha hc _ _ _ _ _ _ _) fun r _ => ?_
    dsimp only
    split
    · exact Ends.pure _
    · refine Ends.bind (copyAll_ends hc mode M tbl (d :: outer) ks _ _) fun r _ => ?_
      refine Ends.bind ?_ fun _ _ => Ends.pure _
      have := fun a => plainFree_ends (env := env) r.2 a
      unfold DeepCopy.undo
      split
      · split
        · exact this _
        · exact Ends.ok _
      · exact Ends.ok _
theorem copyAll_ends (hc : ∀ m a b, env.copyParams m a b ≠ .hang) (mode : Deep.Mode) (M : Deep.Map) (tbl : List (Nat × Nat)) (outer : List Value) :
    ∀ (ks : List Deep.Node) (ds : List (Option Value)) (st : DeepCopy.State), Ends (DeepCopy.copyAll env mode db M tbl outer ks ds st)
  | [], _, _ => by rw [DeepCopy.copyAll]; exact Ends.ok _
  | _ :: _, [], _ => by rw [DeepCopy.copyAll]; exact Ends.abort
  | _ :: _, none :: _, _ => by rw [DeepCopy.copyAll]; exact Ends.abort
  | k :: ks, some d :: ds, st => by
    rw [DeepCopy.copyAll]
    refine Ends.bind (copyNode_ends hc mode M tbl outer k d st) fun r _ => ?_
    exact Ends.bind (copyAll_ends hc mode M tbl outer ks ds _) fun r _ => Ends.pure _
end

end

/-! ### Printing -/

section
variable {env : ValueString.Env} {db : Db} (ht : Tame env db)
include ht

theorem pstartElements_ends (m : Mem) (v : Value) : Ends (ValueString.startElements env db m v) := by
  have ha := ht.types
  unfold ValueString.startElements; ends

theorem pstart_ends (deep : Bool) (m : Mem) (c : Case) (p : Value) (outer : List Value) : Ends (ValueString.start env deep db m c p outer) := by
  have ha := ht.types
  have h1 := pstartElements_ends ht m
  have hs : Ends (ValueString.startStruct db p) := by unfold ValueString.startStruct; ends
  have hu : Ends (ValueString.startUnion env db p outer) := by unfold ValueString.startUnion; ends
  have hr : Ends (ValueString.startArray env db m p outer) := by
    unfold ValueString.startArray
    ends
    all_goals exact h1 _
  have hp : Ends (ValueString.startPointer env db m p outer) := by
    unfold ValueString.startPointer
    ends
  have hq : Ends (ValueString.startParams env db p) := by
    unfold ValueString.startParams paramItem
    ends
  unfold ValueString.start
  ends

theorem pstartElements_inside {m : Mem} {v w : Value} {vs : List Value} {f : Bool} (h : ValueString.startElements env db m v = .ok (.deps vs f)) (hw : w ∈ vs) :
    Inside env db v w := by
  unfold ValueString.startElements at h
  rw [bind_ok_iff] at h
  obtain ⟨o, _, h⟩ := h
  cases o with
  | some b =>
    dsimp only at h
    rw [bind_ok_iff] at h
    obtain ⟨_, _, h⟩ := h
    cases h
  | none =>
    dsimp only at h
    rw [bind_ok_iff] at h
    obtain ⟨c, _, h⟩ := h
    rw [bind_ok_iff] at h
    obtain ⟨⟨us, g⟩, h2, h⟩ := h
    cases h
    obtain ⟨j, hj⟩ := collect_mem h2 w hw
    exact element_inside ht hj

theorem pstartElements_none {m : Mem} {p v w : Value} {vs : List Value} {f : Bool} (hc : countValue env db m p 0 = .ok (some v))
    (h : ValueString.startElements env db m v = .ok (.deps vs f)) : w ∉ vs := by
  unfold ValueString.startElements at h
  rw [bind_ok_iff] at h
  obtain ⟨o, _, h⟩ := h
  cases o with
  | some b =>
    dsimp only at h
    rw [bind_ok_iff] at h
    obtain ⟨_, _, h⟩ := h
    cases h
  | none =>
    dsimp only at h
    rw [empty_count ht hc] at h
    cases h
    exact fun h => nomatch h

/-- Where a first visit leads. -/
theorem pstart_goes {deep : Bool} {m : Mem} {c : Case} {p w : Value} {outer vs : List Value} {f : Bool}
    (h : ValueString.start env deep db m c p outer = .ok (.deps vs f)) (hw : w ∈ vs) : Goes env db m (p :: outer, w) (outer, p) := by
  have params : ValueString.startParams env db p = .ok (.deps vs f) → Inside env db p w := fun h => by
    unfold ValueString.startParams at h
    rw [bind_ok_iff] at h
    obtain ⟨b, hb, h⟩ := h
    rw [bind_ok_iff] at h
    obtain ⟨u, ha, h⟩ := h
    rw [bind_ok_iff] at h
    obtain ⟨⟨vs, f⟩, h2, h⟩ := h
    cases h
    obtain ⟨j, hj⟩ := collect_mem h2 w hw
    cases b with
    | false => cases ha
    | true => exact argument_inside ht hb hj
  have done : ∀ {x : Outcome (Option Text)}, (do return ValueString.Next.done (← x)) ≠ .ok (.deps vs f) := by
    intro x h
    rw [bind_ok_iff] at h
    obtain ⟨_, _, h⟩ := h
    cases h
  cases c with
  | base => exact absurd h done
  | enumeration => exact absurd h done
  | pointer =>
    simp only [ValueString.start] at h
    split at h
    · unfold ValueString.startPointer at h
      rw [bind_ok_iff] at h
      obtain ⟨x, hp, h⟩ := h
      cases x with
      | error _ => cases h
      | ok a =>
        dsimp only at h
        split at h
        · exact absurd h done
        · rw [bind_ok_iff] at h
          obtain ⟨l, hl, h⟩ := h
          split at h
          · cases h
          · exact .follow hp hl (by omega)
    · exact absurd h done
  | struct =>
    simp only [ValueString.start, ValueString.startStruct] at h
    rw [bind_ok_iff] at h
    obtain ⟨b, _, h⟩ := h
    rw [bind_ok_iff] at h
    obtain ⟨_, _, h⟩ := h
    rw [bind_ok_iff] at h
    obtain ⟨c, _, h⟩ := h
    rw [bind_ok_iff] at h
    obtain ⟨⟨vs, f⟩, h2, h⟩ := h
    cases h
    obtain ⟨j, hj⟩ := collect_mem h2 w hw
    exact .inside (member_inside ht.types hj)
  | union =>
    simp only [ValueString.start, ValueString.startUnion] at h
    rw [bind_ok_iff] at h
    obtain ⟨b, hb, h⟩ := h
    rw [bind_ok_iff] at h
    obtain ⟨_, has, h⟩ := h
    have hp := struct_of ht.types hb has
    rw [bind_ok_iff] at h
    obtain ⟨c, _, h⟩ := h
    split at h
    · rw [bind_ok_iff] at h
      obtain ⟨r, hr, h⟩ := h
      split at h
      · cases h
      · cases h; cases hw
      · cases h
        rcases List.mem_singleton.mp hw with rfl
        exact .inside (ht.unions p outer _ hp (request_iff.mp hr))
    · cases h; cases hw
  | array =>
    simp only [ValueString.start, ValueString.startArray] at h
    rw [bind_ok_iff] at h
    obtain ⟨b, hb, h⟩ := h
    rw [bind_ok_iff] at h
    obtain ⟨_, has, h⟩ := h
    have hp := array_of ht.types hb has
    rw [bind_ok_iff] at h
    obtain ⟨c, _, h⟩ := h
    split at h
    · split at h
      · rw [bind_ok_iff] at h
        obtain ⟨o, ho, h⟩ := h
        cases o with
        | none => cases h
        | some v => exact absurd hw (pstartElements_none ht ho h)
      · rw [bind_ok_iff] at h
        obtain ⟨r, hr, h⟩ := h
        split at h
        · cases h
        · cases h
        · exact .inside (ht.arrays p outer _ w hp (request_iff.mp hr) (pstartElements_inside ht h hw))
    · exact .inside (pstartElements_inside ht h hw)
  | packed => exact .inside (params h)
  | subroutine => exact .inside (params h)
  | subprogram => exact .inside (params h)
  | other => cases h

variable (hd : ∀ r, CDecl.Spec.Finite db r)
include hd

omit ht in
theorem joinParams_ends (packed : Bool) : ∀ l out, Ends (joinParams db packed l out)
  | [], _ => Ends.ok _
  | (_, none) :: _, _ => Ends.ok _
  | (v, some t) :: vs, out => by
    have ih := joinParams_ends packed vs
    have hc := cdecl_ends (hd v.entry)
    rw [joinParams]
    ends
    all_goals exact ih _

theorem pfinish_ends (m : Mem) (s : Case) (p : Value) (failed : Bool) (vs : List (Value × Option Text)) : Ends (ValueString.finish env db m s p failed vs) := by
  have ha := ht.types
  have hc := fun r => cdecl_ends (hd r)
  have hj := joinParams_ends hd
  have h1 : Ends (finishPointer env db m vs) := by
    unfold finishPointer
    ends
    all_goals exact hc _
  have h2 : Ends (finishParams env db s p vs) := by
    unfold finishParams
    ends
    all_goals exact hj _ _ _
  unfold ValueString.finish
  ends

theorem pwalk_ends (deep : Bool) (m : Mem) (outer : List Value) (p : Value) : Ends (ValueString.walk env deep db m outer p) := by
  have hacc := goes_ends ht m outer p
  generalize hx : (outer, p) = x at hacc
  induction hacc generalizing outer p with
  | intro x _ ih =>
    subst hx
    rw [ValueString.walk.eq_def]
    refine Ends.bind (finalCase_ends ht.types _ _) fun c _ => ?_
    refine Ends.bind (pstart_ends ht deep m c p outer) fun n hn => ?_
    split
    · exact Ends.pure _
    · refine Ends.bind (mapM_ends _ fun v hv => ih _ (pstart_goes ht hn hv) _ _ rfl) fun r _ => ?_
      exact pfinish_ends ht hd _ _ _ _ _

end
end Verif.DeepEnds
