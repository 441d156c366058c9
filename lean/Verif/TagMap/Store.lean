import Verif.TagMap.Lemmas
import Verif.HeapOwn
namespace Verif.TagMap
open Verif Verif.Entry Verif.Entry.Spec Verif.TagMap.Spec

/-! ### Contents of a map as lists -/

def STag.blocks (s : STag) : List Nat := s.block :: s.strBlock.toList
def STag.ctxs (s : STag) : List Nat := release s.tag

def flat (g : STag → List Nat) (map : List (Ref × STag)) : List Nat := map.flatMap (fun e => g e.2)

def flatCats (f : Nat → List Nat) (g : STag → List Nat) : Cats → List Nat
  | .nil => []
  | .own _ hm map rest => f hm ++ flat g map ++ flatCats f g rest
  | .ext _ _ rest => flatCats f g rest

def blocksCats (cats : Cats) : List Nat := flatCats (fun b => [b]) STag.blocks cats
def ctxsCats (cats : Cats) : List Nat := flatCats (fun _ => []) STag.ctxs cats

def blocksOf : TagMap → List Nat
  | .mk b cb cats d => b :: cb :: ((d.map STag.blocks).getD [] ++ blocksCats cats)

def ctxsOf : TagMap → List Nat
  | .mk _ _ cats d => (d.map STag.ctxs).getD [] ++ ctxsCats cats

/-! ### Release -/

theorem perm_move {α : Type} (a b c : List α) : (a ++ (b ++ c)).Perm (b ++ (a ++ c)) := by
  rw [← List.append_assoc, ← List.append_assoc]
  exact List.Perm.append_right _ List.perm_append_comm

theorem deleteTag_ok (s : STag) {base : Nat → Bool} {h : Heap} {bs : List Nat} (o : Heap.Owns base h (s.blocks ++ bs)) (tr : List Nat) :
    ∃ h', deleteTag s (h, tr) = .ok (h', tr ++ s.ctxs) ∧ Heap.Owns base h' bs ∧ h'.fails = h.fails := by
  have htr : (match s.tag.ctx with | some c => if s.tag.freeCtx then tr ++ [c] else tr | none => tr) = tr ++ s.ctxs := by
    unfold STag.ctxs release
    cases s.tag.ctx with
    | none => simp
    | some c => cases s.tag.freeCtx <;> simp
  unfold deleteTag
  cases hs : s.strBlock with
  | none =>
    simp only [STag.blocks, hs, Option.toList, List.cons_append, List.nil_append] at o
    obtain ⟨h1, e1, o1, f1⟩ := o.free
    exact ⟨h1, by simp only [Outcome.bind_ok, e1, Outcome.pure_eq]; exact congrArg (fun x => Outcome.ok (h1, x)) htr, o1, f1⟩
  | some sb =>
    simp only [STag.blocks, hs, Option.toList, List.cons_append, List.nil_append] at o
    obtain ⟨h1, e1, o1, f1⟩ := (o.perm (List.Perm.swap sb s.block bs)).free
    obtain ⟨h2, e2, o2, f2⟩ := o1.free
    exact ⟨h2, by simp only [Outcome.bind_ok, e1, e2, Outcome.pure_eq]; exact congrArg (fun x => Outcome.ok (h2, x)) htr, o2, f2.trans f1⟩

theorem deleteEntries_ok (map : List (Ref × STag)) {base : Nat → Bool} {h : Heap} {bs : List Nat}
    (o : Heap.Owns base h (flat STag.blocks map ++ bs)) (tr : List Nat) :
    ∃ h', deleteEntries map (h, tr) = .ok (h', tr ++ flat STag.ctxs map) ∧ Heap.Owns base h' bs ∧ h'.fails = h.fails := by
  induction map generalizing h tr with
  | nil => exact ⟨h, by simp [deleteEntries, flat], by simpa [flat] using o, rfl⟩
  | cons e m ih =>
    obtain ⟨k, s⟩ := e
    have o' : Heap.Owns base h (s.blocks ++ (flat STag.blocks m ++ bs)) := by
      simpa [flat, List.append_assoc] using o
    obtain ⟨h1, e1, o1, f1⟩ := deleteTag_ok s o' tr
    obtain ⟨h2, e2, o2, f2⟩ := ih o1 (tr ++ s.ctxs)
    exact ⟨h2, by simp [deleteEntries, e1, e2, flat, List.append_assoc], o2, f2.trans f1⟩

theorem deleteCats_ok (cats : Cats) {base : Nat → Bool} {h : Heap} {bs : List Nat}
    (o : Heap.Owns base h (blocksCats cats ++ bs)) (tr : List Nat) :
    ∃ h', deleteCats cats (h, tr) = .ok (h', tr ++ ctxsCats cats) ∧ Heap.Owns base h' bs ∧ h'.fails = h.fails := by
  induction cats using Cats.rec (motive_1 := fun _ => True) generalizing h tr with
  | mk => trivial
  | nil => exact ⟨h, by simp [deleteCats, ctxsCats, flatCats], by simpa [blocksCats, flatCats] using o, rfl⟩
  | own mask hm map rest ih =>
    have o' : Heap.Owns base h (flat STag.blocks map ++ (hm :: (blocksCats rest ++ bs))) := by
      refine o.perm ?_
      simp only [blocksCats, flatCats, List.append_assoc]
      exact perm_move [hm] _ _
    obtain ⟨h1, e1, o1, f1⟩ := deleteEntries_ok map o' tr
    obtain ⟨h2, e2, o2, f2⟩ := o1.free
    obtain ⟨h3, e3, o3, f3⟩ := ih o2 (tr ++ flat STag.ctxs map)
    refine ⟨h3, ?_, o3, f3.trans (f2.trans f1)⟩
    simp only [deleteCats, e1, e2, e3, Outcome.bind_ok, ctxsCats, flatCats, List.nil_append, List.append_assoc]
  | ext mask m rest _ ih =>
    obtain ⟨h1, e1, o1, f1⟩ := ih (by simpa [blocksCats, flatCats] using o) tr
    exact ⟨h1, by simpa [deleteCats, ctxsCats, flatCats] using e1, o1, f1⟩

theorem delete_ok (m : TagMap) {base : Nat → Bool} {h : Heap} {bs : List Nat} (o : Heap.Owns base h (blocksOf m ++ bs)) (tr : List Nat) :
    ∃ h' tr', delete (some m) (h, tr) = .ok (h', tr') ∧ tr'.Perm (tr ++ ctxsOf m) ∧ Heap.Owns base h' bs ∧ h'.fails = h.fails := by
  obtain ⟨b, cb, cats, d⟩ := m
  have o' : Heap.Owns base h (blocksCats cats ++ (cb :: ((d.map STag.blocks).getD [] ++ (b :: bs)))) := by
    refine o.perm ?_
    simp only [blocksOf, List.cons_append, List.append_assoc]
    perm
  obtain ⟨h1, e1, o1, f1⟩ := deleteCats_ok cats o' tr
  obtain ⟨h2, e2, o2, f2⟩ := o1.free
  cases d with
  | none =>
    obtain ⟨h3, e3, o3, f3⟩ := Heap.Owns.free (b := b) (bs := bs) (by simpa using o2)
    exact ⟨h3, tr ++ ctxsCats cats, by simp only [delete, e1, e2, e3, Outcome.bind_ok, Outcome.pure_eq],
      by simp [ctxsOf], o3, f3.trans (f2.trans f1)⟩
  | some s =>
    obtain ⟨h3, e3, o3, f3⟩ := deleteTag_ok s (by simpa using o2) (tr ++ ctxsCats cats)
    obtain ⟨h4, e4, o4, f4⟩ := o3.free
    refine ⟨h4, tr ++ ctxsCats cats ++ s.ctxs, by simp only [delete, e1, e2, e3, e4, Outcome.bind_ok, Outcome.pure_eq], ?_, o4,
      f4.trans (f3.trans (f2.trans f1))⟩
    simp only [ctxsOf, Option.map_some, Option.getD_some, List.append_assoc]
    exact List.Perm.append_left _ List.perm_append_comm

/-! ### Creation -/

theorem newTag_ok (t : Tag) {base : Nat → Bool} {h : Heap} {bs : List Nat} (o : Heap.Owns base h bs) :
    (∃ s h', newTag t h = .ok (some s, h') ∧ s.tag = t ∧ Heap.Owns base h' (s.blocks ++ bs) ∧ h'.fails = h.fails) ∨
    (∃ h', newTag t h = .ok (none, h') ∧ Heap.Owns base h' bs ∧ h'.fails = h.fails ∧ ∃ k, h.fails k = true) := by
  unfold newTag
  cases ha : h.alloc with
  | mk b h1 =>
    cases b with
    | none =>
      obtain ⟨o1, f1, k1⟩ := o.alloc_none ha
      exact .inr ⟨h1, rfl, o1, f1, k1⟩
    | some b =>
      obtain ⟨o1, f1⟩ := o.alloc_some ha
      simp only []
      cases hs : t.str with
      | none => exact .inl ⟨_, h1, rfl, rfl, by simpa [STag.blocks] using o1, f1⟩
      | some str =>
        simp only []
        cases ha2 : h1.alloc with
        | mk sb h2 =>
          cases sb with
          | none =>
            obtain ⟨o2, f2, k2⟩ := o1.alloc_none ha2
            obtain ⟨h3, e3, o3, f3⟩ := o2.free
            simp only [e3, Outcome.bind_ok, Outcome.pure_eq]
            exact .inr ⟨h3, rfl, o3, f3.trans (f2.trans f1), f1 ▸ k2⟩
          | some sb =>
            obtain ⟨o2, f2⟩ := o1.alloc_some ha2
            refine .inl ⟨_, h2, rfl, rfl, ?_, f2.trans f1⟩
            simp only [STag.blocks, Option.toList, List.cons_append, List.nil_append]
            exact o2.perm (List.Perm.swap b sb bs)

/-- The categories of a map correspond to those it was created with. -/
def Fits : List CatSpec → Cats → Prop
  | [], .nil => True
  | (mask, none) :: cs, .own mask' _ _ rest => mask = mask' ∧ Fits cs rest
  | (mask, some m) :: cs, .ext mask' m' rest => mask = mask' ∧ m = m' ∧ Fits cs rest
  | _, _ => False

def Empty : Cats → Prop
  | .nil => True
  | .own _ _ map rest => map = [] ∧ Empty rest
  | .ext _ _ rest => Empty rest

theorem empty_ctxs (cats : Cats) (h : Empty cats) : ctxsCats cats = [] := by
  induction cats using Cats.rec (motive_1 := fun _ => True) with
  | mk => trivial
  | nil => rfl
  | own mask hm map rest ih =>
    simp only [Empty] at h
    obtain ⟨rfl, h⟩ := h
    have := ih h
    simpa [ctxsCats, flatCats, flat] using this
  | ext mask m rest _ ih => exact ih h

theorem newCats_ok (cs : List CatSpec) {base : Nat → Bool} {h : Heap} {bs : List Nat} (o : Heap.Owns base h bs) :
    ∃ cats ok h', newCats cs h = (cats, ok, h') ∧ Heap.Owns base h' (blocksCats cats ++ bs) ∧ h'.fails = h.fails ∧ Empty cats ∧
      (ok = true → Fits cs cats) ∧ (ok = false → ∃ k, h.fails k = true) := by
  induction cs generalizing h bs with
  | nil => exact ⟨.nil, true, h, rfl, by simpa [blocksCats, flatCats] using o, rfl, trivial, fun _ => trivial, by simp⟩
  | cons c cs ih =>
    obtain ⟨mask, x⟩ := c
    cases x with
    | some m =>
      obtain ⟨cats, ok, h', e, o', f, em, hf, hk⟩ := ih o
      refine ⟨.ext mask m cats, ok, h', by simp [newCats, e], by simpa [blocksCats, flatCats] using o', f, em, ?_, hk⟩
      intro hok; exact ⟨rfl, rfl, hf hok⟩
    | none =>
      cases ha : h.alloc with
      | mk b h1 =>
        cases b with
        | none =>
          obtain ⟨o1, f1, k1⟩ := o.alloc_none ha
          exact ⟨.nil, false, h1, by simp [newCats, ha], by simpa [blocksCats, flatCats] using o1, f1, trivial, by simp, fun _ => k1⟩
        | some b =>
          obtain ⟨o1, f1⟩ := o.alloc_some ha
          obtain ⟨cats, ok, h', e, o', f, em, hf, hk⟩ := ih o1
          refine ⟨.own mask b [] cats, ok, h', by simp [newCats, ha, e], ?_, f.trans f1, ⟨rfl, em⟩, ?_, ?_⟩
          · refine o'.perm ?_
            simp only [blocksCats, flatCats, flat, List.flatMap_nil, List.append_nil, List.append_assoc]
            exact perm_move _ [b] bs
          · intro hok; exact ⟨rfl, hf hok⟩
          · intro hok; exact f1 ▸ hk hok

theorem newDefault_ok (d : Option Tag) {base : Nat → Bool} {h : Heap} {bs : List Nat} (o : Heap.Owns base h bs) :
    (∃ ds h', newDefault d h = .ok (true, ds, h') ∧ ds.map STag.tag = d ∧ Heap.Owns base h' ((ds.map STag.blocks).getD [] ++ bs) ∧ h'.fails = h.fails) ∨
    (∃ h', newDefault d h = .ok (false, none, h') ∧ Heap.Owns base h' bs ∧ h'.fails = h.fails ∧ ∃ k, h.fails k = true) := by
  cases d with
  | none => exact .inl ⟨none, h, rfl, rfl, by simpa using o, rfl⟩
  | some t =>
    rcases newTag_ok t o with ⟨s, h', e, ht, o', f⟩ | ⟨h', e, o', f, k⟩
    · exact .inl ⟨some s, h', by simp [newDefault, e], by simp [ht], by simpa using o', f⟩
    · exact .inr ⟨h', by simp [newDefault, e], o', f, k⟩

theorem new_ok (cs : List CatSpec) (d : Option Tag) {base : Nat → Bool} {h : Heap} {bs : List Nat} (o : Heap.Owns base h bs) (tr : List Nat) :
    (∃ b cb cats ds h', new (some cs) d (h, tr) = .ok (some (.mk b cb cats ds), h', tr) ∧ Heap.Owns base h' (blocksOf (.mk b cb cats ds) ++ bs) ∧
      h'.fails = h.fails ∧ ds.map STag.tag = d ∧ Empty cats ∧ Fits cs cats ∧ cs ≠ []) ∨
    (∃ h' tr', new (some cs) d (h, tr) = .ok (none, h', tr') ∧ Heap.Owns base h' bs ∧ h'.fails = h.fails ∧
      (cs = [] ∨ ∃ k, h.fails k = true)) := by
  cases cs with
  | nil => exact .inr ⟨h, tr, rfl, o, rfl, .inl rfl⟩
  | cons c cs =>
    simp only [new]
    cases ha : h.alloc with
    | mk b h1 =>
      cases b with
      | none =>
        obtain ⟨o1, f1, k1⟩ := o.alloc_none ha
        exact .inr ⟨h1, tr, rfl, o1, f1, .inr k1⟩
      | some b =>
        obtain ⟨o1, f1⟩ := o.alloc_some ha
        simp only []
        rcases newDefault_ok d o1 with ⟨ds, h2, e2, hd, o2, f2⟩ | ⟨h2, e2, o2, f2, k2⟩
        · simp only [e2, Outcome.bind_ok]
          cases ha3 : h2.alloc with
          | mk cb h3 =>
            cases cb with
            | none =>
              obtain ⟨o3, f3, k3⟩ := o2.alloc_none ha3
              simp only []
              have kk : ∃ k, h.fails k = true := by rw [f2, f1] at k3; exact k3
              cases ds with
              | none =>
                simp only [Outcome.bind_ok]
                obtain ⟨h4, e4, o4, f4⟩ := Heap.Owns.free (b := b) (bs := bs) (by simpa using o3)
                simp only [e4, Outcome.bind_ok, Outcome.pure_eq]
                exact .inr ⟨h4, tr, rfl, o4, f4.trans (f3.trans (f2.trans f1)), .inr kk⟩
              | some s =>
                obtain ⟨h4, e4, o4, f4⟩ := deleteTag_ok s (bs := b :: bs) (by simpa using o3) tr
                obtain ⟨h5, e5, o5, f5⟩ := o4.free
                simp only [e4, e5, Outcome.bind_ok, Outcome.pure_eq]
                exact .inr ⟨h5, _, rfl, o5, f5.trans (f4.trans (f3.trans (f2.trans f1))), .inr kk⟩
            | some cb =>
              obtain ⟨o3, f3⟩ := o2.alloc_some ha3
              obtain ⟨cats, ok, h4, e4, o4, f4, em, hf, hk⟩ := newCats_ok (c :: cs) o3
              have o5 : Heap.Owns base h4 (blocksOf (.mk b cb cats ds) ++ bs) := by
                refine o4.perm ?_
                simp only [blocksOf, List.cons_append, List.append_assoc]
                perm
              simp only [e4]
              cases ok with
              | true =>
                simp only [if_true, Outcome.pure_eq]
                exact .inl ⟨b, cb, cats, ds, h4, rfl, o5, f4.trans (f3.trans (f2.trans f1)), hd, em, hf rfl, by simp⟩
              | false =>
                have kk : ∃ k, h.fails k = true := by
                  have := hk rfl; rw [f3, f2, f1] at this; exact this
                obtain ⟨h5, tr5, e5, p5, o6, f5⟩ := delete_ok _ o5 tr
                simp only [Bool.false_eq_true, if_false, e5, Outcome.bind_ok, Outcome.pure_eq]
                exact .inr ⟨h5, tr5, rfl, o6, f5.trans (f4.trans (f3.trans (f2.trans f1))), .inr kk⟩
        · simp only [e2, Outcome.bind_ok]
          obtain ⟨h3, e3, o3, f3⟩ := o2.free
          simp only [e3, Outcome.bind_ok, Outcome.pure_eq]
          exact .inr ⟨h3, tr, rfl, o3, f3.trans (f2.trans f1), .inr (f1 ▸ k2)⟩

end Verif.TagMap
