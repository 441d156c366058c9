import Verif.Handles.Spec
/-
C72: contexts of tag handlers.
-/
namespace Verif.Handles
open Verif Verif.Handles.Spec Verif.Entry Verif.Value
open Verif.Heap (Owns)

theorem freeText_ok {base : Nat → Bool} {h : Heap} {rest : List Nat} (t : Option Text) (o : Owns base h (textBlocks t ++ rest)) :
    ∃ h', freeText t h = .ok h' ∧ Owns base h' rest ∧ h'.fails = h.fails := by
  cases t with
  | none => exact ⟨h, rfl, o, rfl⟩
  | some t => exact o.free

theorem freeCases_ok {α : Type} {base : Nat → Bool} {h : Heap} {rest : List Nat} (t : Option (Cases α)) (o : Owns base h (casesBlocks t ++ rest)) :
    ∃ h', freeCases t h = .ok h' ∧ Owns base h' rest ∧ h'.fails = h.fails := by
  cases t with
  | none => exact ⟨h, rfl, o, rfl⟩
  | some t => exact o.free

theorem strdup_ok {base : Nat → Bool} {h : Heap} {rest : List Nat} (n : Name) (o : Owns base h rest) :
    (∃ t h', strdup n h = (some t, h') ∧ t.text = n ∧ Owns base h' (t.block :: rest) ∧ h'.fails = h.fails) ∨
    (∃ h', strdup n h = (none, h') ∧ Owns base h' rest ∧ h'.fails = h.fails ∧ ∃ k, h.fails k = true) := by
  unfold strdup
  match e : h.alloc with
  | (none, h1) => exact .inr ⟨h1, rfl, o.alloc_none e⟩
  | (some b, h1) => exact .inl ⟨⟨b, n⟩, h1, rfl, rfl, o.alloc_some e⟩

/-- C72, count-by contexts: a context has its own copy of the name. -/
theorem C72_count_by_made (name : Option Name) :
    Makes (newCountBy name) countByBlocks (fun c => text c.name = name) := by
  intro base h rest o
  unfold newCountBy
  match e : h.alloc with
  | (none, h1) =>
    obtain ⟨o1, f1, k⟩ := o.alloc_none e
    exact ⟨none, h1, rfl, f1, o1, k⟩
  | (some b, h1) =>
    obtain ⟨o1, f1⟩ := o.alloc_some e
    cases name with
    | none => exact ⟨some ⟨b, none⟩, h1, rfl, f1, o1, rfl⟩
    | some n =>
      rcases strdup_ok n o1 with ⟨t, h2, e2, ht, o2, f2⟩ | ⟨h2, e2, o2, f2, k⟩
      · simp only [e2]
        exact ⟨_, h2, rfl, f2.trans f1, o2.perm (by simp only [countByBlocks, textBlocks, Option.map, Option.toList]; perm), by simp [text, ht]⟩
      · simp only [e2]
        obtain ⟨h3, e3, o3, f3⟩ := o2.free
        rw [e3]
        exact ⟨none, h3, rfl, f3.trans (f2.trans f1), o3, f1 ▸ k⟩

/-- C72, count-by contexts: the delete function releases exactly the context and its copy. -/
theorem C72_count_by_released : Releases (fun c => deleteCountBy (some c)) countByBlocks := by
  intro c base h rest o
  obtain ⟨h1, e1, o1, f1⟩ := freeText_ok (rest := c.block :: rest) c.name (o.perm (by simp only [countByBlocks]; perm))
  obtain ⟨h2, e2, o2, f2⟩ := o1.free
  exact ⟨h2, by simp only [deleteCountBy, e1, Outcome.bind_ok, e2], o2, f2.trans f1⟩

/-- C72, container-of contexts. -/
theorem C72_container_of_made (offset : UInt64) (entry : Option Ref) :
    Makes (fun h => .ok (newContainerOf offset entry h)) containerBlocks (fun c => c.offset = offset ∧ c.entry = entry) := by
  intro base h rest o
  match e : h.alloc with
  | (none, h1) =>
    obtain ⟨o1, f1, k⟩ := o.alloc_none e
    exact ⟨none, h1, by simp only [newContainerOf, e], f1, o1, k⟩
  | (some b, h1) =>
    obtain ⟨o1, f1⟩ := o.alloc_some e
    exact ⟨some ⟨b, offset, entry⟩, h1, by simp only [newContainerOf, e], f1, o1, rfl, rfl⟩

theorem C72_container_of_released : Releases (fun c => deleteContainerOf (some c)) containerBlocks := by
  intro c base h rest o
  exact Owns.free o

/-- C72, union selections by a constant. -/
theorem C72_union_permanent_made (id : Int) :
    Makes (fun h => .ok (newPermanent id h)) unionBlocks (fun c => c.constant = true ∧ c.permanent = id) := by
  intro base h rest o
  match e : h.alloc with
  | (none, h1) =>
    obtain ⟨o1, f1, k⟩ := o.alloc_none e
    exact ⟨none, h1, by simp only [newPermanent, e], f1, o1, k⟩
  | (some b, h1) =>
    obtain ⟨o1, f1⟩ := o.alloc_some e
    exact ⟨some ⟨b, true, none, 0, none, id⟩, h1, by simp only [newPermanent, e], f1, o1, rfl, rfl⟩

theorem copyCases_ok {α : Type} {esz room n : Nat} {arg : Option (List α)} (hn : 0 < n)
    (ha : 0 < n → ∃ xs, arg = some xs ∧ n ≤ xs.length) (hr : n * esz ≤ room) :
    copyCases esz room arg (n * esz) = .ok (passed esz arg (n * esz)) := by
  obtain ⟨xs, rfl, hx⟩ := ha hn
  simp only [copyCases, passed, Option.getD]
  rw [if_pos ⟨Nat.mul_le_mul_right _ hx, hr⟩]

theorem newUnionCases_ok (b : Nat) (t : Option Text) (arg : Option (List UnionCase)) (caseSz : Nat) (ha : CasesArg 24 arg caseSz)
    {base : Nat → Bool} {h : Heap} {rest : List Nat} (o : Owns base h (b :: (textBlocks t ++ rest))) :
    ∃ r h', newUnionCases b t arg caseSz h = .ok (r, h') ∧ h'.fails = h.fails ∧
      match r with
      | none => Owns base h' rest ∧ ∃ k, h.fails k = true
      | some c => Owns base h' (unionBlocks c ++ rest) ∧ c.constant = false ∧ c.name = t ∧ c.count = (caseSz / 24 : Nat) ∧
          held c.cases = passed 24 arg caseSz := by
  obtain ⟨n, rfl, hx⟩ := ha
  unfold newUnionCases
  cases n with
  | zero =>
    rw [if_neg (by omega)]
    refine ⟨_, h, rfl, rfl, o.perm ?_, rfl, rfl, by simp, by simp [held, passed]⟩
    simp only [unionBlocks, casesBlocks, Option.map, Option.toList]; perm
  | succ n =>
    rw [if_pos (by omega), if_neg (by simp [unionCaseSize])]
    simp only [unionCaseSize, unionContextSize]
    match e : h.alloc with
    | (none, h1) =>
      obtain ⟨o1, f1, k⟩ := o.alloc_none e
      obtain ⟨h2, e2, o2, f2⟩ := freeText_ok (rest := b :: rest) t (o1.perm (by perm))
      obtain ⟨h3, e3, o3, f3⟩ := o2.free
      exact ⟨none, h3, by simp only [e2, Outcome.bind_ok, e3]; rfl, f3.trans (f2.trans f1), o3, k⟩
    | (some cb, h1) =>
      obtain ⟨o1, f1⟩ := o.alloc_some e
      refine ⟨some ⟨b, false, t, ((n + 1) * 24 / 24 : Nat), some ⟨cb, passed 24 arg ((n + 1) * 24)⟩, 0⟩, h1, ?_, f1, ?_⟩
      · simp only []
        rw [copyCases_ok (n := n + 1) (by omega) hx (by omega)]
        rfl
      · refine ⟨o1.perm ?_, rfl, rfl, rfl, rfl⟩
        simp only [unionBlocks, casesBlocks, Option.map, Option.toList]; perm

/-- C72, union selections by a field: the name and the cases are copied. -/
theorem C72_union_select_made (name : Option Name) (arg : Option (List UnionCase)) (caseSz : Nat) (ha : CasesArg 24 arg caseSz) :
    Makes (newUnionSelect name arg caseSz) unionBlocks (fun c => c.constant = false ∧ text c.name = name ∧
      c.count = (caseSz / 24 : Nat) ∧ held c.cases = passed 24 arg caseSz) := by
  intro base h rest o
  unfold newUnionSelect
  match e : h.alloc with
  | (none, h1) =>
    obtain ⟨o1, f1, k⟩ := o.alloc_none e
    exact ⟨none, h1, rfl, f1, o1, k⟩
  | (some b, h1) =>
    obtain ⟨o1, f1⟩ := o.alloc_some e
    cases name with
    | none =>
      obtain ⟨r, h2, e2, f2, g⟩ := newUnionCases_ok b none arg caseSz ha (rest := rest) o1
      refine ⟨r, h2, e2, f2.trans f1, ?_⟩
      cases r with
      | none => exact ⟨g.1, f1 ▸ g.2⟩
      | some c => exact ⟨g.1, g.2.1, by rw [g.2.2.1]; rfl, g.2.2.2⟩
    | some n =>
      rcases strdup_ok n o1 with ⟨t, h2, e2, ht, o2, f2⟩ | ⟨h2, e2, o2, f2, k⟩
      · simp only [e2]
        obtain ⟨r, h3, e3, f3, g⟩ := newUnionCases_ok b (some t) arg caseSz ha (rest := rest)
          (o2.perm (by simp only [textBlocks, Option.map, Option.toList]; perm))
        refine ⟨r, h3, e3, f3.trans (f2.trans f1), ?_⟩
        cases r with
        | none => exact ⟨g.1, (f2.trans f1) ▸ g.2⟩
        | some c => exact ⟨g.1, g.2.1, by rw [g.2.2.1]; simp [text, ht], g.2.2.2⟩
      · simp only [e2]
        obtain ⟨h3, e3, o3, f3⟩ := o2.free
        rw [e3]
        exact ⟨none, h3, rfl, f3.trans (f2.trans f1), o3, f1 ▸ k⟩

/-- C72: an array whose size is not a multiple of the size of a case aborts the program
(unless the context cannot be allocated). -/
theorem C72_union_select_bad_size (name : Option Name) (arg : Option (List UnionCase)) (caseSz : Nat) (hb : caseSz % 24 ≠ 0)
    (h : Heap) (hf : ∀ k, h.fails k = false) : newUnionSelect name arg caseSz h = .abort := by
  have h0 : caseSz > 0 := by cases caseSz with | zero => simp at hb | succ n => omega
  cases name <;> simp [newUnionSelect, Heap.alloc, hf, strdup, newUnionCases, h0, unionCaseSize, hb]

theorem C72_union_released : Releases (fun c => deleteUnionSelect (some c)) unionBlocks := by
  intro c base h rest o
  obtain ⟨h1, e1, o1, f1⟩ := freeText_ok (rest := casesBlocks c.cases ++ c.block :: rest) c.name (o.perm (by simp only [unionBlocks]; perm))
  obtain ⟨h2, e2, o2, f2⟩ := freeCases_ok (rest := c.block :: rest) c.cases o1
  obtain ⟨h3, e3, o3, f3⟩ := o2.free
  exact ⟨h3, by simp only [deleteUnionSelect, e1, Outcome.bind_ok, e2, e3], o3, f3.trans (f2.trans f1)⟩

theorem newPtrCases_ok (b : Nat) (t s : Option Text) (arg : Option (List PtrCase)) (caseSz : Nat) (ha : CasesArg 16 arg caseSz)
    {base : Nat → Bool} {h : Heap} {rest : List Nat} (o : Owns base h (b :: (textBlocks t ++ (textBlocks s ++ rest)))) :
    ∃ r h', newPtrCases b t s arg caseSz h = .ok (r, h') ∧ h'.fails = h.fails ∧
      match r with
      | none => Owns base h' rest ∧ ∃ k, h.fails k = true
      | some c => Owns base h' (ptrBlocks c ++ rest) ∧ c.countName = t ∧ c.selector = s ∧ c.count = (caseSz / 16 : Nat) ∧
          held c.cases = passed 16 arg caseSz := by
  obtain ⟨n, rfl, hx⟩ := ha
  unfold newPtrCases
  cases n with
  | zero =>
    rw [if_neg (by omega)]
    refine ⟨_, h, rfl, rfl, o.perm ?_, rfl, rfl, by simp, by simp [held, passed]⟩
    simp only [ptrBlocks, casesBlocks, Option.map, Option.toList]; perm
  | succ n =>
    rw [if_pos (by omega), if_neg (by simp [ptrCaseSize])]
    simp only [ptrCaseSize]
    match e : h.alloc with
    | (none, h1) =>
      obtain ⟨o1, f1, k⟩ := o.alloc_none e
      obtain ⟨h2, e2, o2, f2⟩ := freeText_ok (rest := textBlocks t ++ b :: rest) s (o1.perm (by perm))
      obtain ⟨h3, e3, o3, f3⟩ := freeText_ok (rest := b :: rest) t o2
      obtain ⟨h4, e4, o4, f4⟩ := o3.free
      exact ⟨none, h4, by simp only [e2, Outcome.bind_ok, e3, e4]; rfl, f4.trans (f3.trans (f2.trans f1)), o4, k⟩
    | (some cb, h1) =>
      obtain ⟨o1, f1⟩ := o.alloc_some e
      refine ⟨some ⟨b, t, s, ((n + 1) * 16 / 16 : Nat), some ⟨cb, passed 16 arg ((n + 1) * 16)⟩⟩, h1, ?_, f1, ?_⟩
      · simp only []
        rw [copyCases_ok (n := n + 1) (by omega) hx (by omega)]
        rfl
      · refine ⟨o1.perm ?_, rfl, rfl, rfl, rfl⟩
        simp only [ptrBlocks, casesBlocks, Option.map, Option.toList]; perm

theorem newPtrSelector_ok (b : Nat) (t : Option Text) (sel : Name) (arg : Option (List PtrCase)) (caseSz : Nat) (ha : CasesArg 16 arg caseSz)
    {base : Nat → Bool} {h : Heap} {rest : List Nat} (o : Owns base h (b :: (textBlocks t ++ rest))) :
    ∃ r h', newPtrSelector b t sel arg caseSz h = .ok (r, h') ∧ h'.fails = h.fails ∧
      match r with
      | none => Owns base h' rest ∧ ∃ k, h.fails k = true
      | some c => Owns base h' (ptrBlocks c ++ rest) ∧ c.countName = t ∧ text c.selector = some sel ∧ c.count = (caseSz / 16 : Nat) ∧
          held c.cases = passed 16 arg caseSz := by
  unfold newPtrSelector
  rcases strdup_ok sel o with ⟨s, h2, e2, hs, o2, f2⟩ | ⟨h2, e2, o2, f2, k⟩
  · simp only [e2]
    obtain ⟨r, h3, e3, f3, g⟩ := newPtrCases_ok b t (some s) arg caseSz ha (rest := rest)
      (o2.perm (by simp only [textBlocks, Option.map, Option.toList]; perm))
    refine ⟨r, h3, e3, f3.trans f2, ?_⟩
    cases r with
    | none => exact ⟨g.1, f2 ▸ g.2⟩
    | some c => exact ⟨g.1, g.2.1, by rw [g.2.2.1]; simp [text, hs], g.2.2.2⟩
  · simp only [e2]
    obtain ⟨h3, e3, o3, f3⟩ := freeText_ok (rest := b :: rest) t (o2.perm (by perm))
    obtain ⟨h4, e4, o4, f4⟩ := o3.free
    exact ⟨none, h4, by simp only [e3, Outcome.bind_ok, e4]; rfl, f4.trans (f3.trans f2), o4, k⟩

/-- C72, pointer-cast contexts: both names and the cases are copied. -/
theorem C72_ptr_cast_made (countName : Option Name) (selector : Name) (arg : Option (List PtrCase)) (caseSz : Nat)
    (ha : CasesArg 16 arg caseSz) :
    Makes (newPtrCast countName (some selector) arg caseSz) ptrBlocks (fun c => text c.countName = countName ∧
      text c.selector = some selector ∧ c.count = (caseSz / 16 : Nat) ∧ held c.cases = passed 16 arg caseSz) := by
  intro base h rest o
  unfold newPtrCast
  simp only []
  match e : h.alloc with
  | (none, h1) =>
    obtain ⟨o1, f1, k⟩ := o.alloc_none e
    exact ⟨none, h1, rfl, f1, o1, k⟩
  | (some b, h1) =>
    obtain ⟨o1, f1⟩ := o.alloc_some e
    cases countName with
    | none =>
      obtain ⟨r, h2, e2, f2, g⟩ := newPtrSelector_ok b none selector arg caseSz ha (rest := rest) o1
      refine ⟨r, h2, e2, f2.trans f1, ?_⟩
      cases r with
      | none => exact ⟨g.1, f1 ▸ g.2⟩
      | some c => exact ⟨g.1, by rw [g.2.1]; rfl, g.2.2⟩
    | some n =>
      rcases strdup_ok n o1 with ⟨t, h2, e2, ht, o2, f2⟩ | ⟨h2, e2, o2, f2, k⟩
      · simp only [e2]
        obtain ⟨r, h3, e3, f3, g⟩ := newPtrSelector_ok b (some t) selector arg caseSz ha (rest := rest)
          (o2.perm (by simp only [textBlocks, Option.map, Option.toList]; perm))
        refine ⟨r, h3, e3, f3.trans (f2.trans f1), ?_⟩
        cases r with
        | none => exact ⟨g.1, (f2.trans f1) ▸ g.2⟩
        | some c => exact ⟨g.1, by rw [g.2.1]; simp [text, ht], g.2.2⟩
      · simp only [e2]
        obtain ⟨h3, e3, o3, f3⟩ := o2.free
        rw [e3]
        exact ⟨none, h3, rfl, f3.trans (f2.trans f1), o3, f1 ▸ k⟩

/-- C72: without a selector there is no pointer-cast context. -/
theorem C72_ptr_cast_needs_selector (countName : Option Name) (arg : Option (List PtrCase)) (caseSz : Nat) (h : Heap) :
    newPtrCast countName none arg caseSz h = .ok (none, h) := rfl

theorem C72_ptr_cast_released : Releases (fun c => deletePtrCast (some c)) ptrBlocks := by
  intro c base h rest o
  obtain ⟨h1, e1, o1, f1⟩ := freeText_ok (rest := textBlocks c.countName ++ (casesBlocks c.cases ++ c.block :: rest)) c.selector
    (o.perm (by simp only [ptrBlocks]; perm))
  obtain ⟨h2, e2, o2, f2⟩ := freeText_ok (rest := casesBlocks c.cases ++ c.block :: rest) c.countName o1
  obtain ⟨h3, e3, o3, f3⟩ := freeCases_ok (rest := c.block :: rest) c.cases o2
  obtain ⟨h4, e4, o4, f4⟩ := o3.free
  exact ⟨h4, by simp only [deletePtrCast, e1, Outcome.bind_ok, e2, e3, e4], o4, f4.trans (f3.trans (f2.trans f1))⟩

/-- C72: the delete functions accept NULL. -/
theorem C72_delete_null (h : Heap) : deleteCountBy none h = .ok h ∧ deleteContainerOf none h = .ok h ∧
    deleteUnionSelect none h = .ok h ∧ deletePtrCast none h = .ok h := ⟨rfl, rfl, rfl, rfl⟩

/-- Witnesses: a union selection with two cases of an array of three, in a heap with a live
block of somebody else, and with an allocator that fails on the third request. -/
def exCases : List UnionCase := [⟨1, some 100, 0⟩, ⟨2, none, 5⟩, ⟨3, none, 6⟩]
def exHeap (fails : Nat → Bool) : Heap := ⟨1, fun x => x == 0, fails⟩
theorem exHeap_owns (fails : Nat → Bool) : Owns (fun x => x == 0) (exHeap fails) [] :=
  Owns.init (h := exHeap fails) (fun x hx => by simp [exHeap] at hx; simp [exHeap, hx])
theorem exArg : CasesArg 24 (some exCases) 48 := ⟨2, rfl, fun _ => ⟨exCases, rfl, by decide⟩⟩
example := C72_union_select_made (some (nm ['k'])) (some exCases) 48 exArg _ _ _ (exHeap_owns fun _ => false)
example : ∃ c h', newUnionSelect (some (nm ['k'])) (some exCases) 48 (exHeap fun _ => false) = .ok (some c, h') ∧
    unionBlocks c = [1, 2, 3] ∧ held c.cases = [⟨1, some 100, 0⟩, ⟨2, none, 5⟩] :=
  ⟨_, _, rfl, rfl, rfl⟩
example : ∃ h', newUnionSelect (some (nm ['k'])) (some exCases) 48 (exHeap fun k => k == 3) = .ok (none, h') :=
  ⟨_, rfl⟩
example : ∃ c h', newPtrCast (some (nm ['n'])) (some (nm ['k'])) (some [⟨1, some 7⟩]) 16 (exHeap fun _ => false) = .ok (some c, h') ∧
    ptrBlocks c = [1, 2, 3, 4] := ⟨_, _, rfl, rfl⟩

end Verif.Handles
