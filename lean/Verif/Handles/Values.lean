import Verif.Handles.Props
import Verif.Entry.Lemmas
import Verif.ParamStorage.Props
/-
C73: value handles.
-/
namespace Verif.Handles
open Verif Verif.Handles.Spec Verif.Entry
open Verif.Heap (Owns)

theorem alive_alloc {h h' : Heap} {b : Nat} {e : Option EntryPtr} (ha : Alive h e) (hb : h.alloc = (some b, h')) : Alive h' e := by
  unfold Heap.alloc at hb
  split at hb
  · simp at hb
  · simp only [Prod.mk.injEq] at hb
    obtain ⟨-, rfl⟩ := hb
    match e with
    | none => trivial
    | some (.static _) => trivial
    | some (.dyn b' _) => simp only [Alive] at ha ⊢; simp [ha]

/-- C73: a handle for a non-NULL address has that address and describes the same type; of a
dynamic entry it has a copy of its own. -/
theorem C73_new (db : Db) (e : Option EntryPtr) (addr : Nat) (hn : addr ≠ 0) (base : Nat → Bool) (h : Heap) (rest : List Nat)
    (o : Owns base h rest) (ha : Alive h e) :
    ∃ r h', newHandle db e addr h = .ok (r, h') ∧ h'.fails = h.fails ∧
      match r with
      | none => Owns base h' rest ∧ ∃ k, h.fails k = true
      | some v => Owns base h' (handleBlocks v ++ rest) ∧ v.addr = addr ∧ says db v.entry = says db e ∧
          ((∃ r, v.entry = some (.static r)) ↔ ∃ r, e = some (.static r)) := by
  unfold newHandle
  rw [if_neg hn]
  match e1 : h.alloc with
  | (none, h1) =>
    obtain ⟨o1, f1, k⟩ := o.alloc_none e1
    exact ⟨none, h1, rfl, f1, o1, k⟩
  | (some b, h1) =>
    obtain ⟨o1, f1⟩ := o.alloc_some e1
    have ha1 := alive_alloc ha e1
    match e with
    | none => exact ⟨_, h1, rfl, f1, o1, rfl, rfl, Iff.rfl⟩
    | some (.static r) => exact ⟨_, h1, rfl, f1, o1, rfl, rfl, Iff.rfl⟩
    | some (.dyn b' c) =>
      simp only [Alive] at ha1
      simp only [initValue, isDynamic, ha1, if_true, Outcome.bind_ok, newEntry]
      match e2 : h1.alloc with
      | (none, h2) =>
        obtain ⟨o2, f2, k⟩ := o1.alloc_none e2
        obtain ⟨h3, e3, o3, f3⟩ := o2.free
        refine ⟨none, h3, ?_, f3.trans (f2.trans f1), o3, f1 ▸ k⟩
        show (do let h ← Heap.free b h2; pure (none, h) : Outcome (Option Handle × Heap)) = _
        rw [e3]; rfl
      | (some b2, h2) =>
        obtain ⟨o2, f2⟩ := o1.alloc_some e2
        have ha2 : h2.live b' = true := alive_alloc (e := some (.dyn b' c)) ha1 e2
        simp only [ha2, if_true, Outcome.bind_ok]
        refine ⟨_, h2, rfl, f2.trans f1, o2.perm ?_, rfl, rfl, ?_⟩
        · simp only [handleBlocks, entryBlocks]; perm
        · simp

/-- C73: no handle for a NULL address. -/
theorem C73_new_null (db : Db) (e : Option EntryPtr) (h : Heap) : newHandle db e 0 h = .ok (none, h) := rfl

/-- C73: deleting a handle releases the handle and its copy of a dynamic entry, nothing
else. -/
theorem C73_delete : Releases (fun v => deleteHandle (some v)) handleBlocks := by
  intro v base h rest o
  have hl : h.live v.block = true := by rw [o.live]; simp [handleBlocks]
  simp only [deleteHandle, hl, Bool.not_true, if_false, Bool.false_eq_true]
  match he : v.entry with
  | none =>
    simp only [handleBlocks, he, entryBlocks] at o
    simp only [isDynamic, Outcome.bind_ok, if_false, Bool.false_eq_true]
    exact Owns.free o
  | some (.static r) =>
    simp only [handleBlocks, he, entryBlocks] at o
    simp only [isDynamic, Outcome.bind_ok, if_false, Bool.false_eq_true]
    exact Owns.free o
  | some (.dyn b c) =>
    simp only [handleBlocks, he, entryBlocks] at o
    have hb : h.live b = true := by rw [o.live]; simp
    obtain ⟨h1, e1, o1, f1⟩ := Owns.free (o.perm (b := b :: (v.block :: rest)) (by perm))
    obtain ⟨h2, e2, o2, f2⟩ := o1.free
    refine ⟨h2, ?_, o2, f2.trans f1⟩
    simp only [isDynamic, hb, if_true, Outcome.bind_ok, deleteEntry, e1, e2]

/-- C73 is false of NULL: deleting it reads through it. -/
theorem C73_delete_null_false (h : Heap) : deleteHandle none h = .ub := rfl

/-- C73, copies of handles: the copy is independent of the original. -/
theorem C73_copy (db : Db) (v : Handle) (hn : v.addr ≠ 0) (base : Nat → Bool) (h : Heap) (rest : List Nat)
    (o : Owns base h (handleBlocks v ++ rest)) :
    ∃ r h', fromHandle db (some v) h = .ok (r, h') ∧ h'.fails = h.fails ∧
      match r with
      | none => Owns base h' (handleBlocks v ++ rest) ∧ ∃ k, h.fails k = true
      | some w => Owns base h' (handleBlocks w ++ (handleBlocks v ++ rest)) ∧ w.addr = v.addr ∧ says db w.entry = says db v.entry := by
  have ha : Alive h v.entry := by
    match he : v.entry with
    | none => trivial
    | some (.static _) => trivial
    | some (.dyn b _) => simp only [Alive]; rw [o.live]; simp [handleBlocks, he, entryBlocks]
  obtain ⟨r, h', e, f, g⟩ := C73_new db v.entry v.addr hn base h _ o ha
  refine ⟨r, h', e, f, ?_⟩
  cases r with
  | none => exact g
  | some w => exact ⟨g.1, g.2.1, g.2.2.1⟩

/-- C73, the handle of an array made from a pointer or an array: it has the new type and
address, and the entry made on the way is gone. -/
theorem C73_element_count (db : Db) (c : Entry) (addr : Nat) (hn : addr ≠ 0) :
    Makes (countHandle db (some (c, addr))) handleBlocks (fun v => v.addr = addr ∧ says db v.entry = some c) := by
  intro base h rest o
  unfold countHandle
  simp only []
  match e1 : h.alloc with
  | (none, h1) =>
    obtain ⟨o1, f1, k⟩ := o.alloc_none e1
    exact ⟨none, h1, rfl, f1, o1, k⟩
  | (some b, h1) =>
    obtain ⟨o1, f1⟩ := o.alloc_some e1
    have ha : Alive h1 (some (.dyn b c)) := by simp only [Alive]; rw [o1.live]; simp
    obtain ⟨r, h2, e2, f2, g⟩ := C73_new db (some (.dyn b c)) addr hn base h1 _ o1 ha
    simp only [e2, Outcome.bind_ok]
    cases r with
    | none =>
      have hb : h2.live b = true := by rw [g.1.live]; simp
      obtain ⟨h3, e3, o3, f3⟩ := g.1.free
      refine ⟨none, h3, ?_, f3.trans (f2.trans f1), o3, f1 ▸ g.2⟩
      simp only [deleteEntry, isDynamic, hb, if_true, Outcome.bind_ok, e3]; rfl
    | some v =>
      have hb : h2.live b = true := by rw [g.1.live]; simp
      obtain ⟨h3, e3, o3, f3⟩ := Owns.free (g.1.perm (b := b :: (handleBlocks v ++ rest)) (by perm))
      refine ⟨some v, h3, ?_, f3.trans (f2.trans f1), o3, g.2.1, g.2.2.1⟩
      simp only [deleteEntry, isDynamic, hb, if_true, Outcome.bind_ok, e3]; rfl

/-- C73, handles for the parameters of a call: on success the handle points to an empty
storage.  Missing: on failure a storage may stay allocated (`leak`), see
`C73_call_params_leak_false`. -/
theorem C73_call_params_partial (db : Db) (addrOf : Nat → Nat) (hn : ∀ b, addrOf b ≠ 0) (e : Option EntryPtr)
    (base : Nat → Bool) (h : Heap) (rest : List Nat) (o : Owns base h rest) (ha : Alive h e) :
    ∃ r h', newWithParams db addrOf e h = .ok (r, h') ∧
      match r with
      | none => (∃ leak, leak.length ≤ 1 ∧ Owns base h' (leak ++ rest)) ∧ ∃ k, h.fails k = true
      | some (v, st) => Owns base h' (handleBlocks v ++ (st.block :: rest)) ∧ v.addr = addrOf st.block ∧
          says db v.entry = says db e ∧ st = ⟨st.block, [], 0, none⟩ := by
  unfold newWithParams ParamStorage.newStorage
  match e1 : h.alloc with
  | (none, h1) =>
    obtain ⟨o1, f1, k⟩ := o.alloc_none e1
    exact ⟨none, h1, rfl, ⟨[], by simp, o1⟩, k⟩
  | (some b, h1) =>
    obtain ⟨o1, f1⟩ := o.alloc_some e1
    obtain ⟨r, h2, e2, f2, g⟩ := C73_new db e (addrOf b) (hn b) base h1 _ o1 (alive_alloc ha e1)
    simp only [e2, Outcome.bind_ok]
    cases r with
    | none => exact ⟨none, h2, rfl, ⟨[b], by simp, g.1⟩, f1 ▸ g.2⟩
    | some v => exact ⟨some (v, _), h2, rfl, g.1, g.2.1, g.2.2.1, rfl⟩

/-- C73 is false here: when only the handle cannot be allocated, the storage is lost. -/
theorem C73_call_params_leak_false :
    ∃ (db : Db) (addrOf : Nat → Nat) (h h' : Heap), h.Ok ∧ h.live 0 = false ∧
      newWithParams db addrOf (some (.static 1)) h = .ok (none, h') ∧ h'.live 0 = true :=
  ⟨fun _ => { info := .array none 0 }, fun b => b + 1, Heap.empty (fun k => k == 1), _, by intro x hx; simp [Heap.empty] at hx, rfl, rfl, rfl⟩

/-- C73: whatever was stored meanwhile, deleting the handle of a call releases the handle and
the whole storage, nothing else. -/
theorem C73_call_params_delete (v : Handle) (st : ParamStorage.Sto) (base : Nat → Bool) (h : Heap) (rest : List Nat)
    (o : Owns base h (handleBlocks v ++ ((st.block :: ParamStorage.Spec.ownedL st.items) ++ rest)))
    (hc : ParamStorage.Spec.Consistent st h) :
    ∃ h', deleteWithParams (some (v, st)) h = .ok h' ∧ ∀ x, h'.live x = (base x || decide (x ∈ rest)) := by
  obtain ⟨h1, e1, o1, f1⟩ := C73_delete v base h _ o
  have hc1 : ParamStorage.Spec.Consistent st h1 := by
    refine ⟨o1.ok, hc.2.1, ?_, hc.2.2.2⟩
    intro b hb
    rw [o1.live]
    simp only [Bool.or_eq_true, decide_eq_true_eq]
    exact .inr (List.mem_append.2 (.inl hb))
  obtain ⟨⟨h2, e2, l2⟩, -⟩ := ParamStorage.C39_delete_frees_once st h1 hc1
  refine ⟨h2, by simp only [deleteWithParams] at e1 ⊢; rw [e1]; exact e2, ?_⟩
  intro x
  have hx := l2 x
  rw [o1.live] at hx
  have hap := o1.apart x
  have hnd := (List.nodup_append.1 o1.nodup).2.2
  rw [Bool.eq_iff_iff, hx]
  simp only [Bool.or_eq_true, decide_eq_true_eq]
  constructor
  · rintro ⟨hb | hb, hne⟩
    · exact .inl hb
    · rcases List.mem_append.1 hb with hb | hb
      · exact absurd hb hne
      · exact .inr hb
  · rintro (hb | hb)
    · refine ⟨.inl hb, fun hm => ?_⟩
      have := hap (List.mem_append.2 (.inl hm))
      rw [hb] at this; cases this
    · exact ⟨.inr (List.mem_append.2 (.inr hb)), fun hm => hnd x hm x hb rfl⟩

/-- The entry is a function with a result of type `t`, of a size that is known. -/
def HasResult (db : Db) (e : Ref) (t : Ref) (size : UInt64) : Prop :=
  Entry.Spec.FunctionOf db e (some t) ∧ byteSize db (some t) true = some (.ok size)

/-- C73, handles for the result of a call: memory of the size of the result type is
allocated with the handle. -/
theorem C73_call_result (db : Db) (addrOf : Nat → Nat) (hn : ∀ b, addrOf b ≠ 0) (load : Ref → Bool) (e t : Ref) (size : UInt64)
    (hl : load e = true) (hr : HasResult db e t size) (hs : size ≠ 0) :
    Makes (newWithResult db addrOf load (some e)) (fun v => handleBlocks v.1 ++ [v.2.1])
      (fun v => v.1.entry = some (.static t) ∧ v.1.addr = addrOf v.2.1 ∧ v.2.2 = size.toNat) := by
  obtain ⟨hf, h3⟩ := hr
  obtain ⟨⟨f, h1⟩, h2⟩ := finalOf_function hf
  intro base h rest o
  simp only [newWithResult, hl, Bool.not_true, if_false, Bool.false_eq_true, h1, h2, h3, Outcome.ofLoop, Outcome.bind_ok, hs]
  match e1 : h.alloc with
  | (none, h1) =>
    obtain ⟨o1, f1, k⟩ := o.alloc_none e1
    exact ⟨none, h1, rfl, f1, o1, k⟩
  | (some b, h1) =>
    obtain ⟨o1, f1⟩ := o.alloc_some e1
    obtain ⟨r, h2, e2, f2, g⟩ := C73_new db (some (.static t)) (addrOf b) (hn b) base h1 _ o1 trivial
    simp only [e2, Outcome.bind_ok]
    cases r with
    | none =>
      obtain ⟨h3, e3, o3, f3⟩ := g.1.free
      exact ⟨none, h3, by simp only [e3, Outcome.bind_ok]; rfl, f3.trans (f2.trans f1), o3, f1 ▸ g.2⟩
    | some v =>
      refine ⟨some (v, b, size.toNat), h2, rfl, f2.trans f1, g.1.perm (by perm), ?_, g.2.1, rfl⟩
      unfold newHandle at e2
      rw [if_neg (hn b)] at e2
      match e3 : h1.alloc with
      | (none, h4) => rw [e3] at e2; simp at e2
      | (some b4, h4) =>
        rw [e3] at e2
        have e2' : Outcome.ok (some (Handle.mk b4 (some (.static t)) (addrOf b)), h4) = Outcome.ok (some v, h2) := e2
        simp only [Outcome.ok.injEq, Prod.mk.injEq, Option.some.injEq] at e2'
        rw [← e2'.1]

/-- C73: no handle, and nothing allocated, for entries that are no functions or have no
result, or one without a size. -/
theorem C73_call_no_result (db : Db) (addrOf : Nat → Nat) (load : Ref → Bool) (e : Option Ref) (h : Heap)
    (hno : e = none ∨ ∃ r, e = some r ∧ (load r = false ∨ Entry.Spec.NoFunction db r ∨ Entry.Spec.FunctionOf db r none ∨
      ∃ t, Entry.Spec.FunctionOf db r (some t) ∧
        (byteSize db (some t) true = some (.ok 0) ∨ ∃ x, byteSize db (some t) true = some (.error x)))) :
    newWithResult db addrOf load e h = .ok (none, h) := by
  rcases hno with rfl | ⟨r, rfl, hl | hl | hf | ⟨t, hf, h3 | ⟨x, h3⟩⟩⟩
  · rfl
  · simp [newWithResult, hl]
  · simp only [newWithResult, finalOf_noFunction hl, Outcome.ofLoop, Outcome.bind_ok]
    cases load r <;> rfl
  · obtain ⟨⟨f, h1⟩, h2⟩ := finalOf_function hf
    simp only [newWithResult, h1, h2, Outcome.ofLoop, Outcome.bind_ok]
    cases load r <;> rfl
  · obtain ⟨⟨f, h1⟩, h2⟩ := finalOf_function hf
    simp only [newWithResult, h1, h2, h3, Outcome.ofLoop, Outcome.bind_ok]
    cases load r <;> rfl
  · obtain ⟨⟨f, h1⟩, h2⟩ := finalOf_function hf
    simp only [newWithResult, h1, h2, h3, Outcome.ofLoop, Outcome.bind_ok]
    cases load r <;> rfl

/-- C73: deleting such a handle releases both; NULL is accepted. -/
theorem C73_call_result_delete : Releases (fun v : Handle × Nat => deleteWithResult (some v)) (fun v => handleBlocks v.1 ++ [v.2]) ∧
    ∀ h, deleteWithResult none h = .ok h := by
  refine ⟨?_, fun _ => rfl⟩
  rintro ⟨v, b⟩ base h rest o
  have hl : h.live v.block = true := by rw [o.live]; simp [handleBlocks]
  simp only [deleteWithResult, hl, Bool.not_true, if_false, Bool.false_eq_true]
  obtain ⟨h1, e1, o1, f1⟩ := Owns.free (o.perm (b := b :: (handleBlocks v ++ rest)) (by perm))
  obtain ⟨h2, e2, o2, f2⟩ := C73_delete v base h1 _ o1
  exact ⟨h2, by simp only [e1, Outcome.bind_ok]; exact e2, o2, f2.trans f1⟩

/-- Witnesses: a dynamic entry of the caller in block 0; a function `int f()`. -/
def exEntry : Entry := { info := .array (some 3) 4 }
def exDb : Db := fun r => if r = 1 then { info := .subprogram (some 2) [] } else { info := .base 4 0 }
example : ∃ v h', newHandle exDb (some (.dyn 0 exEntry)) 64 (exHeap fun _ => false) = .ok (some v, h') ∧ handleBlocks v = [1, 2] :=
  ⟨_, _, rfl, rfl⟩
example := C73_new exDb (some (.dyn 0 exEntry)) 64 (by decide) _ _ _ (exHeap_owns fun k => k == 2) rfl
example : Alive (exHeap fun _ => false) (some (.dyn 0 exEntry)) := rfl
example : ∃ v h', countHandle exDb (some (exEntry, 64)) (exHeap fun _ => false) = .ok (some v, h') ∧ handleBlocks v = [2, 3] ∧
    h'.live 1 = false := ⟨_, _, rfl, rfl, rfl⟩
theorem exHas : HasResult exDb 1 2 4 := by
  refine ⟨⟨1, [], [], .here ?_, .inl rfl⟩, ?_⟩
  · intro t h; cases h <;> rename_i h <;> simp [exDb] at h
  · unfold byteSize byteSizeLoop; rfl
example := C73_call_result exDb (fun b => b + 1) (by simp) (fun _ => true) 1 2 4 rfl exHas (by decide) _ _ _ (exHeap_owns fun _ => false)

end Verif.Handles
