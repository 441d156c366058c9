import Verif.GoMeta.Lemmas
/-
Properties of the reflection generator: identifiers (C46) and array types (C48).
-/
namespace Verif.GoMeta
open Verif Spec

/-! ### C46 -/

/-- C46: whatever objects are added, in whatever order and with whatever names, the identifiers
they get are pairwise different. -/
theorem C46_unique (snake : Str → Str) (objs : List Obj) :
    let r := addAll snake Db.empty objs
    r.1.length = objs.length ∧ r.1.Nodup := by
  obtain ⟨h1, h2, -⟩ := addAll_spec snake objs Db.empty (by intro k id o h; cases h)
  exact ⟨h1, h2⟩

/-- Two anonymous structs, an enumeration `s` and a base type `e s`: two of the stems collide. -/
def exObjs : List Obj := [⟨.structType, none⟩, ⟨.structType, none⟩, ⟨.enumerationType, some [115]⟩, ⟨.baseType, some [101, 95, 115]⟩]

example : (addAll id Db.empty exObjs).1 =
    [[115, 95, 48, 48, 48, 48], [115, 95, 48, 48, 48, 49], [101, 95, 115, 95, 48, 48, 48, 48], [101, 95, 115, 95, 48, 48, 48, 49]] := by
  simp [exObjs, addAll, appendDb, commonId, Db.empty, stem, nameOf, prefixOf, find, pad4, dec, List.replicate]

/-- C46: every object is found in the database under its identifier, and nothing else is. -/
theorem C46_found (snake : Str → Str) (objs : List Obj) (i : Nat) (o : Obj) (id : Str)
    (ho : objs[i]? = some o) (hi : (addAll snake Db.empty objs).1[i]? = some id) :
    ((o.kind, id), o) ∈ (addAll snake Db.empty objs).2.items ∧
    ∀ k o', ((k, id), o') ∈ (addAll snake Db.empty objs).2.items → k = o.kind ∧ o' = o := by
  obtain ⟨-, -, -, h4, -⟩ := addAll_spec snake objs Db.empty (by intro k id o h; cases h)
  exact h4 i o id ho hi

example : exObjs[1]? = some ⟨.structType, none⟩ ∧ (addAll id Db.empty exObjs).1[1]? = some [115, 95, 48, 48, 48, 49] := by
  refine ⟨rfl, ?_⟩
  simp [exObjs, addAll, appendDb, commonId, Db.empty, stem, nameOf, prefixOf, find, pad4, dec, List.replicate]

/-- C46: no identifier is one of the reserved words `void` and `unresolved`. -/
theorem C46_reserved (snake : Str → Str) (objs : List Obj) (id : Str) (h : id ∈ (addAll snake Db.empty objs).1) :
    id ≠ [118, 111, 105, 100] ∧ id ≠ [117, 110, 114, 101, 115, 111, 108, 118, 101, 100] := by
  obtain ⟨-, -, -, -, -, -, h7⟩ := addAll_spec snake objs Db.empty (by intro k id o h; cases h)
  obtain ⟨s, n, rfl⟩ := h7 id h
  have h95 : (95 : UInt8) ∈ s ++ [95] ++ pad4 n := by simp
  constructor <;> intro h <;> rw [h] at h95 <;> revert h95 <;> decide

example : [115, 95, 48, 48, 48, 48] ∈ (addAll id Db.empty exObjs).1 := by
  simp [exObjs, addAll, appendDb, commonId, Db.empty, stem, nameOf, prefixOf, find, pad4, dec, List.replicate]

/-- C46: which identifier an object gets: the word of its kind and its name, and the number of the
objects added before it whose identifiers begin in the same way. -/
theorem C46_text (snake : Str → Str) (objs : List Obj) (i : Nat) (o : Obj) (id : Str)
    (ho : objs[i]? = some o) (hi : (addAll snake Db.empty objs).1[i]? = some id) (P : Obj → Bool) (s : Str) (hs : Stem snake o s)
    (hP : ∀ x, P x = true ↔ Stem snake x s) :
    ∃ d, id = s ++ ascii "_" ++ d ∧ Digits ((objs.take i).countP P) d := by
  have h := addAll_text (snake := snake) (db := Db.empty) (pre := []) (by intro s; rfl) i o id ho hi
  have e : s = stem snake o := hs.unique (stem_spec snake o)
  have hp : P = fun x => decide (stem snake x = stem snake o) := by
    funext x
    rw [Bool.eq_iff_iff, hP, decide_eq_true_eq, e]
    exact ⟨fun h => (stem_spec snake x).unique h, fun h => h ▸ stem_spec snake x⟩
  refine ⟨_, ?_, pad4_digits _⟩
  rw [h, hp, e]
  rfl

/-- The second anonymous struct is the object 1 of those that begin with `s`; a function without a
name is `fn_tbd`. -/
example : exObjs[1]? = some ⟨.structType, none⟩ ∧ (addAll id Db.empty exObjs).1[1]? = some (ascii "s_0001") ∧
    Stem id ⟨.structType, none⟩ (ascii "s") ∧ Stem id ⟨.subprogram, none⟩ (ascii "fn_tbd") ∧ Digits 1 (ascii "0001") := by
  refine ⟨rfl, ?_, .unnamed (.inr (.inr ⟨by decide, rfl⟩)), .function rfl rfl, by unfold Digits; decide⟩
  have : ascii "s_0001" = [115, 95, 48, 48, 48, 49] := by decide +kernel
  rw [this]
  simp [exObjs, addAll, appendDb, commonId, Db.empty, stem, nameOf, prefixOf, find, pad4, dec, List.replicate]

/-- C46: every object has exactly one such beginning. -/
theorem C46_stem (snake : Str → Str) (o : Obj) : ∃ s, Stem snake o s ∧ ∀ t, Stem snake o t → t = s :=
  ⟨_, stem_spec snake o, fun _ h => h.unique (stem_spec snake o)⟩

/-! ### C48 -/

/-- C48: an array type entry with subranges becomes a chain of array types, outermost dimension
first, each with the number of elements its subrange stands for and linked to its element type
and its parent; all other entries stay as they are. -/
theorem C48_dimensions (top parent : Off) (elem : Option Off) (c : Child) (cs : List Child) (stride : Option Int) (ix : Index)
    (hs : ∀ x ∈ c :: cs, x.isSubrange = true) (hr : ∀ x ∈ c :: cs, InRange x)
    (hnd : (top :: (c :: cs).map Child.off).Nodup) :
    ∃ ix', processArrayType top parent elem (c :: cs) stride ix = .ok ix' ∧ Chain ix' elem top parent (c :: cs) ∧
      (∀ a, ix' top = some a → a.stride = stride) ∧ ∀ x, x ∉ top :: (c :: cs).map Child.off → ix' x = ix x := by
  obtain ⟨d, ds, hds⟩ : ∃ d ds, (c :: cs).reverse = d :: ds := by
    cases h : (c :: cs).reverse with
    | nil => simp at h
    | cons d ds => exact ⟨d, ds, rfl⟩
  have hrev : c :: cs = ds.reverse ++ [d] := by
    have := congrArg List.reverse hds
    simpa using this
  have hn : (c :: cs).length = 1 + ds.length := by rw [hrev]; simp; omega
  rw [List.nodup_cons] at hnd
  have hsd : d.isSubrange = true := hs d (by rw [hrev]; simp)
  have hrd := hr d (by rw [hrev]; simp)
  have hdn : d.off ∉ ds.map Child.off := by
    have := hnd.2
    rw [hrev, List.map_append, List.nodup_append] at this
    intro hm
    exact this.2.2 d.off (by simpa using hm) d.off (by simp) rfl
  simp only [processArrayType, reduceCtorEq, if_false, hds, arrayLoop, hsd, if_true]
  let a := arrayOf elem 0 d
  let ix1 : Index := if 0 < (c :: cs).length - 1 then (fun x => if x = d.off then some a else ix x) else ix
  obtain ⟨b, ix', h1, h2, h2', h3, h4⟩ := arrayLoop_step top elem (c :: cs).length ds [] d a ix1 1 rfl hn
    (fun x hx => hs x (by rw [hrev]; simp [hx])) (fun x hx => hr x (by rw [hrev]; simp [hx]))
    (by rw [← hrev]; exact hnd.2) (by rw [← hrev]; exact hnd.1)
    ⟨arrayOf_dim _ _ _ hrd, rfl, rfl, rfl⟩ rfl rfl
    (by
      intro hne
      have : 0 < (c :: cs).length - 1 := by
        have := List.length_pos_iff.mpr hne
        omega
      simp only [ix1, this, if_true])
  rw [← hrev] at h3 h4
  have h1' : arrayLoop top (c :: cs).length ix1 (some d.off) (some (d.off, arrayOf elem 0 d)) 1 ds = .ok (some b, ix') := h1
  simp only [Nat.zero_add]
  rw [show (if 0 < (c :: cs).length - 1 then (fun x => if x = d.off then some (arrayOf elem 0 d) else ix x) else ix) = ix1 from rfl, h1']
  refine ⟨_, rfl, ?_, ?_, ?_⟩
  · refine Good.chain (a := { b with parents := b.parents ++ [parent], stride := stride }) ?_ (by simp) (by simp [h2])
    refine Good.fields (a := b) ?_ rfl rfl rfl rfl
    refine h3.frame ?_
    intro x hx
    have : x ≠ top := by
      rintro rfl
      refine hnd.1 ?_
      simp only [List.tail_cons] at hx
      simp [hx]
    simp [this]
  · intro a' ha
    simp at ha
    rw [← ha]
  · intro x hx
    simp only [List.mem_cons, not_or] at hx
    have h4 := h4 x hx.2
    simp only [hx.1, if_false, h4, ix1]
    have hxd : x ≠ d.off := by
      rintro rfl
      refine hx.2 ?_
      rw [hrev]
      simp
    split
    · simp [hxd]
    · rfl

/-- `int a[2][3][]` written as count, bounds and unknown. -/
def exDims : List Child := [⟨10, true, none, some 2, none⟩, ⟨11, true, some 1, none, some 3⟩, ⟨12, true, none, none, none⟩]

example : ∃ ix' a b, processArrayType 5 1 (some 7) exDims none (fun _ => none) = .ok ix' ∧ ix' 5 = some a ∧ a.count = 2 ∧ a.type = some 11 ∧
    ix' 11 = some b ∧ b.count = 3 ∧ b.type = some 12 ∧ b.parents = [5] := ⟨_, _, _, rfl, rfl, rfl, rfl, rfl, rfl, rfl, rfl⟩

example : (∀ x ∈ exDims, x.isSubrange = true) ∧ (∀ x ∈ exDims, InRange x) ∧ (5 :: exDims.map Child.off).Nodup := by
  refine ⟨by decide, ?_, by decide⟩
  intro x hx u h1 h2
  simp only [exDims, List.mem_cons, List.not_mem_nil, or_false] at hx
  rcases hx with rfl | rfl | rfl
  · cases h1
  · cases h2; decide
  · cases h2

/-- C48: an array type entry without subranges is an array of unknown size. -/
theorem C48_no_subrange (top parent : Off) (elem : Option Off) (stride : Option Int) (ix : Index) :
    ∃ ix' a, processArrayType top parent elem [] stride ix = .ok ix' ∧ ix' top = some a ∧ a.type = elem ∧ a.count = -1 ∧ a.parents = [parent] ∧
      ∀ x, x ≠ top → ix' x = ix x := by
  refine ⟨_, _, rfl, by simp; rfl, rfl, rfl, rfl, ?_⟩
  intro x hx
  simp [hx]

example : ∃ ix', processArrayType 5 1 (some 7) [] none (fun _ => none) = .ok ix' := ⟨_, rfl⟩

/-- C48: a child that is not a subrange is refused. -/
theorem C48_refused (top parent : Off) (elem : Option Off) (cs : List Child) (stride : Option Int) (ix : Index)
    (h : ∃ x ∈ cs, x.isSubrange = false) : processArrayType top parent elem cs stride ix = .error () := by
  have key : ∀ (l : List Child) (n : Nat) (ix : Index) (t : Option Off) (prev : Option (Off × ArrayT)) (k : Nat),
      (∃ x ∈ l, x.isSubrange = false) → arrayLoop top n ix t prev k l = .error () := by
    intro l
    induction l with
    | nil => rintro n ix t prev k ⟨x, hx, -⟩; cases hx
    | cons c l ih =>
      rintro n ix t prev k ⟨x, hx, hxs⟩
      simp only [arrayLoop]
      split
      · rename_i hc
        refine ih _ _ _ _ _ ?_
        simp only [List.mem_cons] at hx
        rcases hx with rfl | hx
        · rw [hc] at hxs; cases hxs
        · exact ⟨x, hx, hxs⟩
      · rfl
  obtain ⟨x, hx, hxs⟩ := h
  have hne : cs ≠ [] := by rintro rfl; cases hx
  simp only [processArrayType, hne, if_false]
  rw [key cs.reverse _ _ _ _ _ ⟨x, by simpa using hx, hxs⟩]

example : ∃ x ∈ [(⟨10, false, none, some 2, none⟩ : Child)], x.isSubrange = false := ⟨_, List.mem_cons_self, rfl⟩

end Verif.GoMeta
