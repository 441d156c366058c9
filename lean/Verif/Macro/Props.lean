import Verif.Macro.Spec
/-
The loop macros handle each argument, in order, up to 1022 arguments.
-/
namespace Verif.Macro
open Verif Verif.Entry Verif.ParamStorage Verif.WrapCall Verif.Alt Verif.Macro.Spec

variable {α β : Type}

theorem written_ne (as : List α) (h : as ≠ []) : written as = as.map .arg := by
  cases as with
  | nil => exact absurd rfl h
  | cons => rfl

theorem rest_written (a : α) (as : List α) : rest (written (a :: as)) = written as := by
  cases as <;> rfl

theorem first_written (a : α) (as : List α) : first (written (a :: as)) = .arg a := rfl

theorem counts_length : (counts : List (Piece α)).length = 1024 := by simp [counts]

theorem counts_get (i : Nat) (h : i ≤ 1022) : (counts : List (Piece α))[i]? = some (.num (1022 - i)) := by
  unfold counts
  rw [List.getElem?_append_left (by simp; omega), List.getElem?_map, List.getElem?_reverse (by simp; omega)]
  simp only [List.length_range]
  rw [List.getElem?_range (by omega)]
  simp

theorem narg_cons (a : α) (as : List α) : narg (written (a :: as)) = (.num 0 :: (a :: as).map .arg ++ counts)[1023]? := by
  simp [narg, written, arg1024]

/-- Up to 1022 arguments are counted. -/
theorem narg_written (as : List α) (h : as.length ≤ 1022) : narg (written as) = some (.num as.length) := by
  cases as with
  | nil => simp [narg, written, arg1024, counts_get 1022 (by omega)]
  | cons a as =>
    simp only [List.length_cons] at h
    rw [narg_cons, List.getElem?_append_right (by simp; omega)]
    simp only [List.length_cons, List.length_map]
    rw [counts_get _ (by omega)]
    congr 2
    omega

/-- **C115**, partial: MR_NARG tells the number of its arguments, if there are not more than 1022.
Missing: more arguments (`C115_many_false`). -/
theorem C115_count_partial (as : List α) (h : as.length ≤ 1022) : narg (written as) = some (.num as.length) := narg_written as h

theorem forEachN_written (as : List α) : forEachN as.length (written as) = as.map .arg := by
  induction as with
  | nil => rfl
  | cons a as ih => simp only [List.length_cons, forEachN, rest_written, first_written, ih, List.map_cons]

/-- **C115**, partial: MR_FOREACH uses the macro on each argument, in order and only once, if there are not more than 1022. -/
theorem C115_each_partial (lit : α → Option Nat) (as : List α) (h : as.length ≤ 1022) : forEach lit (written as) = some (as.map .arg) := by
  simp only [forEach, narg_written as h, numbered, Option.bind_eq_bind, Option.bind_some]
  rw [if_pos (by omega)]
  simp [forEachN_written]

theorem forEachExN_written (X : β → Nat → List (Piece α) → β) (stop : β) (as : List α) :
    forEachExN X stop as.length (written as) = nested (fun r n l => X r n (l.map .arg)) stop as := by
  induction as with
  | nil => rfl
  | cons a as ih =>
    simp only [List.length_cons, forEachExN, rest_written, ih, nested]
    rfl

/-- **C115**, partial: MR_FOREACH_EX uses the macro on each argument and those after it, each use inside of the one before, and tells it how many there are, if there are not
more than 1022. -/
theorem C115_nested_partial (lit : α → Option Nat) (X : β → Nat → List (Piece α) → β) (stop : β) (as : List α) (h : as.length ≤ 1022) :
    forEachEx lit X stop (written as) = some (nested (fun r n l => X r n (l.map .arg)) stop as) := by
  simp only [forEachEx, narg_written as h, numbered, Option.bind_eq_bind, Option.bind_some]
  rw [if_pos (by omega)]
  simp [forEachExN_written]

theorem forN_written (op : Nat → β → β → β) (func : Piece α → Nat → β) (stop : β) (as : List α) (h : as ≠ []) :
    Joined op (fun a => func (.arg a)) as (forN op func stop as.length (written as)) := by
  induction as with
  | nil => exact absurd rfl h
  | cons a as ih =>
    cases as with
    | nil => exact .last
    | cons b as =>
      simp only [List.length_cons, forN, first_written, rest_written]
      exact .more (ih (by simp))

/-- **C115**: MR_FOR with the number of its arguments, at least 1 and up to 1024, joins what is made of each of them, in order. -/
theorem C115_for (op : Nat → β → β → β) (func : Piece α → Nat → β) (stop : β) (as : List α) (h0 : as ≠ []) (h : as.length ≤ 1024) :
    ∃ r, for_ op func stop as.length (written as) = some r ∧ Joined op (fun a => func (.arg a)) as r :=
  ⟨_, by rw [for_, if_pos h], forN_written op func stop as h0⟩

/-- **C115**: MR_HAS_COMMA is 1 for two up to 1023 arguments and 0 for less. -/
theorem C115_comma (as : List α) (h : as.length ≤ 1023) : hasComma (written as) = some (.num (if 2 ≤ as.length then 1 else 0)) := by
  have key : ∀ va : List (Piece α), 1 ≤ va.length → va.length ≤ 1023 → hasComma va = some (.num (if 2 ≤ va.length then 1 else 0)) := by
    intro va h1 h2
    unfold hasComma arg1024
    rw [List.append_assoc, List.getElem?_append_right (by omega)]
    by_cases h3 : 2 ≤ va.length
    · rw [if_pos h3, List.getElem?_append_left (by rw [List.length_replicate]; omega), List.getElem?_replicate, if_pos (by omega)]
    · rw [if_neg h3, List.getElem?_append_right (by rw [List.length_replicate]; omega), List.length_replicate]
      have : 1023 - va.length - 1022 = 0 := by omega
      rw [this]
      rfl
  cases as with
  | nil => exact key [.empty] (by simp) (by simp)
  | cons a as =>
    have := key ((a :: as).map .arg) (by simp) (by simpa using h)
    simpa [written] using this

/-- With more than 1022 arguments the count is the 1023rd of them. -/
theorem narg_many (as : List α) (h : 1022 < as.length) : narg (written as) = (as[1022]?).map .arg := by
  cases as with
  | nil => simp at h
  | cons a as =>
    rw [narg_cons, List.getElem?_append_left (by simp at h ⊢; omega)]
    simp only [List.map_cons, List.getElem?_cons_succ]
    cases as <;> simp

/-- **C115 is false** with more than 1022 arguments: MR_NARG is the 1023rd argument; if it is written as a number, the loop only handles so many arguments,
otherwise there is no such macro. -/
theorem C115_many_false (lit : α → Option Nat) (as : List α) (a : α) (h : as[1022]? = some a) :
    narg (written as) = some (.arg a) ∧ (∀ k, lit a = some k → k ≤ 1022 → forEach lit (written as) = some ((as.take k).map .arg)) ∧
      (lit a = none → forEach lit (written as) = none) := by
  obtain ⟨hl, -⟩ := List.getElem?_eq_some_iff.mp h
  have e : narg (written as) = some (.arg a) := by rw [narg_many as hl, h]; rfl
  refine ⟨e, ?_, ?_⟩
  · intro k hk hle
    have : ∀ (k : Nat) (as : List α), k ≤ as.length → forEachN k (written as) = (as.take k).map .arg := by
      intro k
      induction k with
      | zero => simp [forEachN]
      | succ k ih =>
        intro as ha
        cases as with
        | nil => simp at ha
        | cons b as => simp only [forEachN, first_written, rest_written, List.take_succ_cons, List.map_cons, ih as (by simpa using ha)]
    simp only [forEach, e, numbered, hk, Option.bind_eq_bind, Option.bind_some]
    rw [Option.filter_some, if_pos (by simp; omega)]
    simp [this k as (by omega)]
  · intro hk
    simp [forEach, e, numbered, hk]

theorem exprs_arg (xs : List Expr) : exprs (xs.map .arg) = xs := by
  induction xs with
  | nil => rfl
  | cons x xs ih => simp [exprs, ih]

/-- **C115**, partial: the alternative tracing macro handles the arguments of a call one after the other, as in the model of `Verif.Alt` (C108), if there are not more than 1022. -/
theorem C115_recorded_partial (lit : Expr → Option Nat) (env : WrapCall.Env) (generic : Bool) (db : Db) (tags : Option (Ref → Option Handler)) (ps : List Ref)
    (xs : List Expr) (h : xs.length ≤ 1022) :
    ∃ code, loop lit env generic db tags ps (written xs) = some code ∧ ∀ i st h, code i st h = append env generic db tags ps i xs st h := by
  refine ⟨_, C115_nested_partial lit _ _ xs h, ?_⟩
  clear h
  induction xs with
  | nil => intro i st h; simp [nested, append]
  | cons x xs ih =>
    intro i st h
    simp only [nested, List.map_cons, appendParam, first, List.headD_cons, exprs, exprs_arg, append, ih]
    rfl

/-! ### Witnesses -/

/-- Three arguments are counted, and the loops go through them. -/
example : narg (written ["a", "b", "c"]) = some (.num 3) ∧ forEach String.toNat? (written ["a", "b", "c"]) = some [.arg "a", .arg "b", .arg "c"] :=
  ⟨C115_count_partial _ (by decide), C115_each_partial _ _ (by decide)⟩

/-- No arguments are none. -/
example : narg (written ([] : List String)) = some (.num 0) := C115_count_partial _ (by decide)

/-- With 1023 arguments `5` only five are handled. -/
example : forEach (fun n : Nat => some n) (written (List.replicate 1023 5)) = some (List.replicate 5 (.arg 5)) := by
  have h := ((C115_many_false (fun n : Nat => some n) (List.replicate 1023 5) 5 (by rw [List.getElem?_replicate]; rfl)).2.1 5 rfl (by omega))
  rw [List.take_replicate, List.map_replicate] at h
  exact h

end Verif.Macro
