import Verif.BsdList.Lemmas
namespace Verif.BsdList
open Verif Verif.BsdList.Spec

/-- **C45.** Start with any number of empty heads (LIST_HEAD_INITIALIZER; the link fields of
the elements hold anything).  After every history of allowed uses of the macros nothing
undefined has happened, and for every head LIST_FOREACH visits exactly the elements of its
list in order, and LIST_EMPTY says whether it has none. -/
theorem C45_list {st : Store} (h0 : ∀ h, st.lhFirst h = none) {os : List Op} {A : Lists} (hs : Steps (fun _ => []) os A) :
    ∃ st', execAll os st = .ok st' ∧ ∀ h, foreach h st' = some (A h) ∧ (isEmpty h st' = true ↔ A h = []) := by
  obtain ⟨st', h1, r⟩ := (Rep.new h0).steps hs
  refine ⟨st', h1, fun h => ⟨(r.chain h).foreachFrom, ?_⟩⟩
  have := (r.chain h).head_eq
  simp only [Store.get] at this
  simp only [isEmpty, this]
  cases A h <;> simp

/-- **C45.** Removing an element needs no walk over its list: it changes the one pointer that
led to the element (the head's if it was the first) and the back pointer of its successor,
nothing else. -/
theorem C45_remove_local {st : Store} (h0 : ∀ h, st.lhFirst h = none) {os : List Op} {A : Lists} (hs : Steps (fun _ => []) os A)
    {st1 : Store} (h1 : execAll os st = .ok st1) {h e : Nat} {xs ys : List Nat} (hA : A h = xs ++ e :: ys) :
    ∃ st2, remove e st1 = .ok st2 ∧
      (∀ k, (k = h → xs ≠ []) → st2.lhFirst k = st1.lhFirst k) ∧
      (∀ x, xs.getLast? ≠ some x → st2.leNext x = st1.leNext x) ∧
      (∀ x, ys.head? ≠ some x → st2.lePrev x = st1.lePrev x) := by
  obtain ⟨st1', h1', r⟩ := (Rep.new h0).steps hs
  rw [h1] at h1'
  cases h1'
  obtain ⟨st2, h2, _, g, p⟩ := r.remove hA
  refine ⟨st2, h2, ?_, ?_, fun x hx => p x (fun h => hx h.symm)⟩
  · intro k hk
    apply g (.first k)
    intro hs
    rcases List.eq_nil_or_concat xs with rfl | ⟨zs, z, rfl⟩
    · simp only [lastSlot] at hs; cases hs; exact hk rfl rfl
    · rw [List.concat_eq_append, lastSlot_append] at hs; cases hs
  · intro x hx
    apply g (.next x)
    intro hs
    rcases List.eq_nil_or_concat xs with rfl | ⟨zs, z, rfl⟩
    · simp [lastSlot] at hs
    · rw [List.concat_eq_append, lastSlot_append] at hs; cases hs; simp at hx

/-- A history with two lists: [3] and [1, 2]; 4 was removed. -/
def exOps : List Op := [.init 0, .insertHead 0 4, .insertHead 7 3, .insertBefore 4 1, .insertAfter 1 2, .remove 4]
def exLists : Lists := fun k => if k = 0 then [1, 2] else if k = 7 then [3] else []

theorem exSteps : Steps (fun _ => []) exOps exLists := by
  have h : Steps (fun _ => []) exOps _ :=
    .cons (.init _ 0) <|
    .cons (.insertHead _ 0 4 (by intro h; simp only [Lists.with]; split <;> simp)) <|
    .cons (.insertHead _ 7 3 (by intro h; simp only [Lists.with]; repeat' split
                                 all_goals simp)) <|
    .cons (.insertBefore _ 0 [] 4 [] 1 (by intro h; simp only [Lists.with]; repeat' split
                                           all_goals simp) rfl) <|
    .cons (.insertAfter _ 0 [] 1 [4] 2 (by intro h; simp only [Lists.with]; repeat' split
                                           all_goals simp) rfl) <|
    .cons (.remove _ 0 [1, 2] 4 [] rfl) (.nil _)
  refine Eq.mp ?_ h
  congr 1
  funext k
  simp only [Lists.with, exLists]
  by_cases h0 : k = 0
  · simp [h0]
  · by_cases h7 : k = 7 <;> simp [h0, h7]

/-- The theorems apply to that history. -/
example : ∃ st', execAll exOps ⟨fun _ => none, fun _ => some 9, fun _ => none⟩ = .ok st' ∧
    foreach 0 st' = some [1, 2] ∧ foreach 7 st' = some [3] := by
  obtain ⟨st', h, h2⟩ := C45_list (st := ⟨fun _ => none, fun _ => some 9, fun _ => none⟩) (fun _ => rfl) exSteps
  exact ⟨st', h, (h2 0).1, (h2 7).1⟩
example : exLists 0 = [1] ++ 2 :: [] := rfl

end Verif.BsdList
