import Verif.Common
/-
Recursion that may fail to end, for functions returning an `Outcome`: `hang` is the least
element, so `partial_fixpoint` can be used.
-/
namespace Verif.Outcome
open Lean.Order

instance {α : Type} : PartialOrder (Outcome α) := inferInstanceAs (PartialOrder (FlatOrder Outcome.hang))
noncomputable instance {α : Type} : CCPO (Outcome α) := inferInstanceAs (CCPO (FlatOrder Outcome.hang))

instance : MonoBind Outcome where
  bind_mono_left h := by
    cases h
    · exact FlatOrder.rel.bot
    · exact FlatOrder.rel.refl
  bind_mono_right h := by
    cases ‹Outcome _›
    · exact h _
    all_goals exact FlatOrder.rel.refl

instance : LawfulMonad Outcome := LawfulMonad.mk'
  (id_map := by intro α x; cases x <;> rfl)
  (pure_bind := by intros; rfl)
  (bind_assoc := by intro α β γ x f g; cases x <;> rfl)

instance {α : Type} : Nonempty (Outcome α) := ⟨.hang⟩

/-- Only results of runs that end have to be considered. -/
theorem admissible_ok {α : Type} (P : α → Prop) : admissible (fun x : Outcome α => ∀ a, x = .ok a → P a) := by
  change admissible fun x : FlatOrder (Outcome.hang : Outcome α) => ∀ a, x = FlatOrder.mk _ (Outcome.ok a) → P a
  apply admissible_flatOrder
  intro a h
  cases h

theorem admissible_of_hang {α : Type} (P : Outcome α → Prop) (h : P .hang) : admissible P := by
  change admissible (α := FlatOrder (Outcome.hang : Outcome α)) P
  exact admissible_flatOrder P h

@[simp] theorem mapM_nil {α β : Type} (f : α → Outcome β) : [].mapM f = .ok [] := by simp

theorem mapM_ok {α β : Type} {f : α → Outcome β} : ∀ {l : List α} {r : List β},
    l.mapM f = .ok r ↔ r.length = l.length ∧ ∀ (i : Nat) a b, l[i]? = some a → r[i]? = some b → f a = .ok b
  | [], r => by
    simp
  | a :: l, r => by
    rw [List.mapM_cons]
    cases hf : f a with
    | ok b =>
      simp only [bind_ok]
      cases hm : l.mapM f with
      | ok bs =>
        have ih := (mapM_ok (f := f) (l := l) (r := bs)).mp hm
        simp only [bind_ok, pure_eq, ok.injEq]
        constructor
        · rintro rfl
          refine ⟨by simp [ih.1], ?_⟩
          intro i x y hx hy
          cases i with
          | zero => simp at hx hy; subst hx hy; exact hf
          | succ i => exact ih.2 i x y (by simpa using hx) (by simpa using hy)
        · rintro ⟨h1, h2⟩
          cases r with
          | nil => simp at h1
          | cons c r =>
            have hc := h2 0 a c rfl rfl
            rw [hf] at hc
            cases hc
            have := (mapM_ok (f := f) (l := l) (r := r)).mpr ⟨by simpa using h1, fun i x y hx hy => h2 (i + 1) x y (by simpa using hx) (by simpa using hy)⟩
            rw [hm] at this
            cases this
            rfl
      | _ =>
        simp only [bind_abort, bind_ub, bind_hang, reduceCtorEq, false_iff]
        rintro ⟨h1, h2⟩
        cases r with
        | nil => simp at h1
        | cons c r =>
          have := (mapM_ok (f := f) (l := l) (r := r)).mpr ⟨by simpa using h1, fun i x y hx hy => h2 (i + 1) x y (by simpa using hx) (by simpa using hy)⟩
          rw [hm] at this
          cases this
    | _ =>
      simp only [bind_abort, bind_ub, bind_hang, reduceCtorEq, false_iff]
      rintro ⟨h1, h2⟩
      cases r with
      | nil => simp at h1
      | cons c r =>
        have := h2 0 a c rfl rfl
        rw [hf] at this
        cases this

theorem mapM_map_ok {α β : Type} {f : α → Outcome β} {g : α → β} {l : List α} (h : ∀ a ∈ l, f a = .ok (g a)) : l.mapM f = .ok (l.map g) := by
  rw [mapM_ok]
  refine ⟨by simp, ?_⟩
  intro i a b ha hb
  simp [ha] at hb
  subst hb
  exact h a (List.mem_of_getElem? ha)

end Verif.Outcome
