import Verif.Alt.PropsFail
import Verif.Alt.Witness
/-
C121: concrete programs.
-/
namespace Verif.Alt
open Verif Verif.Entry Verif.Entry.Spec Verif.Value Verif.Value.Spec Verif.ParamStorage Verif.ParamStorage.Spec Verif.Alt.Spec Verif.Handles
open Verif.WrapCall.Spec (text Slot AllFilled)
open Verif.Trace (Event bytes)

/-- `int f(int a, ...)`: 1: `a`, 4: `...`. -/
def dotted : Db
  | 1 => { info := .param false (some 0), name := some (text "a") }
  | 4 => { info := .param true none, name := none }
  | 3 => { info := .subprogram (some 0) [1, 4], name := some (text "f") }
  | _ => { info := .base 4 6, name := some (text "int") }

theorem dotted_final : Final dotted 0 (some 0) [] := .here fun t h => by cases h <;> rename_i h <;> exact absurd h (by simp [dotted])

theorem dotted_named : Named dotted := by
  intro r bs be h hn
  unfold dotted at h hn
  split at h <;> first | (simp at h; done) | (simp at hn; done)

theorem dotted_fixed (n : Nat) : Fixed (with_ dotted fun _ => false).env dotted [1] [intExpr n] [.bytes 1 (bytes n)] :=
  .cons (t := 0) ⟨rfl, rfl⟩ (.same (ty := .int) (x := intExpr n) ⟨0, [], 4, 6, dotted_final, by simp, ⟨4, 6, rfl, by decide, fun _ => rfl, fun _ => rfl⟩, rfl, by decide⟩ rfl rfl) .nil

/-- `f(7, 8, 9)` without a tag for `...`: `failure 6` is printed, the function is called, and 0 returned. -/
theorem case121_untagged : ∃ l l' h', traced (with_ dotted fun _ => false) false (fun _ => .ok [intExpr 7, intExpr 8, intExpr 9]) 5 (Heap.empty fun _ => false) =
    .ok (0, 5, [.line (text "failure 6\n")] ++ l ++ [.call [.val .int (bytes 5)]] ++ l', h') ∧ ∀ b, h'.live b = false := by
  obtain ⟨k, e, hk⟩ := (C121_untagged_partial (with_ dotted fun _ => false) false 3 [1] 4 [intExpr 7] [.bytes 1 (bytes 7)] (intExpr 8) [intExpr 9] dotted_named rfl
    ⟨3, [], some 0, .here (fun t h => by cases h <;> rename_i h <;> exact absurd h (by simp [with_, dotted])), .inl rfl⟩ (dotted_fixed 7) ⟨none, rfl⟩ rfl (fun b => Nat.succ_ne_zero _)
    (Heap.empty fun _ => false) (fun _ h => by cases h) (fun _ => rfl)).2 (fun _ => .ok [intExpr 7, intExpr 8, intExpr 9]) 5 _ rfl rfl (fun _ _ _ => ⟨_, rfl⟩) (fun _ _ => ⟨_, rfl⟩)
  obtain ⟨l, l', h', e', hl⟩ := hk 0 5
  exact ⟨l, l', h', e.trans e', hl⟩

/-- `int f(int a)` called as `f(7, 8)` where the compiler lets it pass: `failure 1`. -/
theorem case121_more : ∃ l l' h', traced (with_ (shape (.base 4 6) "int") fun _ => false) false (fun _ => .ok [intExpr 7, intExpr 8]) 5 (Heap.empty fun _ => false) =
    .ok (0, 5, [.line (text "failure 1\n")] ++ l ++ [.call [.val .int (bytes 5)]] ++ l', h') ∧ ∀ b, h'.live b = false := by
  obtain ⟨k, e, hk⟩ := (C121_more_partial (with_ (shape (.base 4 6) "int") fun _ => false) false 3 [1] [intExpr 7] [.bytes 1 (bytes 7)] (intExpr 8) [] (shape_named _ _ _) rfl
    (shape_declares _ _ _) (.cons (t := 2) ⟨rfl, rfl⟩ (.same (ty := .int) (x := intExpr 7) ⟨2, [], 4, 6, shape_base _ _ _, by simp, ⟨4, 6, rfl, by decide, fun _ => rfl, fun _ => rfl⟩, rfl, by decide⟩ rfl rfl) .nil)
    (fun b => Nat.succ_ne_zero _) (Heap.empty fun _ => false) (fun _ h => by cases h) (fun _ => rfl)).2 (fun _ => .ok [intExpr 7, intExpr 8]) 5 _ rfl rfl (fun _ _ _ => ⟨_, rfl⟩) (fun _ _ => ⟨_, rfl⟩)
  obtain ⟨l, l', h', e', hl⟩ := hk 0 5
  exact ⟨l, l', h', e.trans e', hl⟩

/-- The same program without type information. -/
theorem case121_unlinked : ∃ l l' h', traced { with_ dotted fun _ => false with entry := none } false (fun _ => .ok [intExpr 7, intExpr 8]) 5 (Heap.empty fun _ => false) =
    .ok (0, 5, [.line (text "failure 1\n")] ++ l ++ [.call [.val .int (bytes 5)]] ++ l', h') ∧ ∀ b, h'.live b = false := by
  obtain ⟨k, e, hk⟩ := (C121_unlinked_partial { with_ dotted fun _ => false with entry := none } false (intExpr 7) [intExpr 8] rfl (fun b => Nat.succ_ne_zero _)
    (Heap.empty fun _ => false) (fun _ h => by cases h) (fun _ => rfl)).2 (fun _ => .ok [intExpr 7, intExpr 8]) 5 _ rfl rfl (fun _ _ _ => ⟨_, rfl⟩) (fun _ _ => ⟨_, rfl⟩)
  obtain ⟨l, l', h', e', hl⟩ := hk 0 5
  exact ⟨l, l', h', e.trans e', hl⟩

end Verif.Alt
