import Verif.Lifecycle.Below
import Verif.Deep.Model
/-
Printing, mapping, freeing and comparing on a memory and on a larger one.
-/
namespace Verif.Lifecycle
open Verif Verif.Entry Verif.Value Verif.Handlers Verif.Lifecycle.Spec

theorem request_below {t t' : Option (Ref → Option ValueString.Handler)} (ht : Answering t t') (ev : Event) (p : Value) (outer : List Value) :
    Below (ValueString.request t ev p outer) (ValueString.request t' ev p outer) := by
  cases t with
  | none => cases t' with
    | none => exact .refl _
    | some t' => exact ht.elim
  | some t => cases t' with
    | none => exact ht.elim
    | some t' =>
      have := ht p.entry
      simp only [ValueString.request, ValueString.handlerOf]
      revert this
      cases t p.entry <;> cases t' p.entry
      · exact fun _ => .refl _
      · exact fun h => h.elim
      · exact fun h => h.elim
      · exact fun h => .first ⟨h ev _⟩

theorem mapM_below {α β : Type} {f g : α → Outcome β} (h : ∀ a, Below (f a) (g a)) (l : List α) : Below (l.mapM f) (l.mapM g) := by
  refine ⟨fun r hr => ?_⟩
  rw [Outcome.mapM_ok] at hr ⊢
  exact ⟨hr.1, fun i a b ha hb => (h a).ok b (hr.2 i a b ha hb)⟩

section
variable {m m' : Mem} (h : ∀ a b, m a = some b → m' a = some b)
include h

section
open ValueString PrintString
variable (env : ValueString.Env) {t' : Option (Ref → Option Handler)} (ht : Answering env.tags t')

theorem measure_below (pr : UInt8 → Bool) : ∀ left a len : Nat, Below (PrintString.measure pr m left a len) (PrintString.measure pr m' left a len)
  | 0, _, _ => .refl _
  | left + 1, a, len => by
    unfold PrintString.measure
    cases hm : m a with
    | none => exact ⟨fun r hr => by cases hr⟩
    | some c =>
      rw [h a c hm]
      simp only
      cases findSpecial c specialChars with
      | some o => exact .ite (measure_below pr left _ _) (.refl _)
      | none => exact .ite (.ite (measure_below pr left _ _) (.refl _)) (.refl _)

theorem fill_below (pr : UInt8 → Bool) : ∀ (left a : Nat) (res : List UInt8) (j : Nat), Below (fill pr m left a res j) (fill pr m' left a res j)
  | 0, _, _, _ => .refl _
  | left + 1, a, res, j => by
    unfold fill
    cases hm : m a with
    | none => exact ⟨fun r hr => by cases hr⟩
    | some c =>
      rw [h a c hm]
      simp only
      cases findSpecial c specialChars with
      | some o => exact .next fun _ => .next fun _ => fill_below pr left _ _ _
      | none => exact .ite (.next fun _ => fill_below pr left _ _ _) (.refl _)

theorem escape_below (pr : UInt8 → Bool) (alloc : Bool) (a len : Nat) : Below (escape pr alloc m a len) (escape pr alloc m' a len) := by
  refine .bind (measure_below h pr _ _ _) fun r _ => ?_
  cases r with
  | none => exact .refl _
  | some n => exact .ite (.refl _) (.first (fill_below h pr _ _ _ _))

theorem dprintable_below (pr : UInt8 → Bool) (alloc : Bool) (db : Db) (v : Option Value) : Below (dprintable pr alloc db m v) (dprintable pr alloc db m' v) := by
  cases v with
  | none => exact .refl _
  | some v =>
    refine .next fun f => ?_
    cases f with
    | none => exact .refl _
    | some f =>
      refine .ite (.refl _) (.next fun e => .next fun f => ?_)
      rcases f with ⟨_ | f, q⟩
      · exact .refl _
      · refine .ite (.refl _) ?_
        generalize (db f).name = n
        cases n with
        | none => exact .refl _
        | some n =>
          refine .ite (.refl _) (.next fun len => .ite (.refl _) ?_)
          cases hm : m (v.addr + (len.toNat - 1)) with
          | none => exact ⟨fun r hr => by cases hr⟩
          | some c =>
            rw [h _ c hm]
            exact .ite (.refl _) (escape_below h ..)

theorem stringLoop_below (db : Db) (v : Value) : ∀ ts : List Ty, Below (stringLoop env db m v ts) (stringLoop { env with tags := t' } db m' v ts)
  | [] => .refl _
  | t :: ts => by
    refine .next fun b => .ite (.bind (getTy_below h ..) fun a _ => ?_) (stringLoop_below db v ts)
    cases a with
    | error => exact .refl _
    | ok n => exact .refl _

theorem pointerString_below (db : Db) (v : Value) : Below (pointerString env db m v) (pointerString { env with tags := t' } db m' v) := by
  refine .next fun f => ?_
  cases f with
  | none => exact .refl _
  | some f =>
    refine .bind (pointer_below h ..) fun a _ => ?_
    cases a with
    | error => exact .refl _
    | ok a => exact .refl _

theorem countValue_below (db : Db) (v : Value) (c : Int) : Below (countValue env db m v c) (countValue { env with tags := t' } db m' v c) := by
  refine .bind (elementCountValue_below h ..) fun a _ => ?_
  cases a with
  | none => exact .refl _
  | some a => exact .refl _

include ht
theorem startPointer_below (db : Db) (p : Value) (outer : List Value) : Below (startPointer env db m p outer) (startPointer { env with tags := t' } db m' p outer) := by
  refine .bind (pointer_below h ..) fun a _ => ?_
  cases a with
  | error => exact .refl _
  | ok a =>
    refine .ite (.first (pointerString_below h env ..)) (.bind (introducedLoop_below h ..) fun l _ => .ite (.refl _) (.bind (request_below ht ..) fun r _ => ?_))
    rcases r with _ | _ | arr
    · exact .refl _
    · refine .next fun b => .ite (.first (pointerString_below h env ..)) (.bind (countValue_below h env ..) fun r _ => ?_)
      cases r with
      | none => exact .refl _
      | some r => exact .refl _
    · exact .refl _

theorem startElements_below (db : Db) (v : Value) : Below (startElements env db m v) (startElements { env with tags := t' } db m' v) := by
  refine .bind (dprintable_below h ..) fun a _ => ?_
  cases a with
  | none => exact .refl _
  | some a => exact .refl _

theorem startArray_below (db : Db) (p : Value) (outer : List Value) : Below (startArray env db m p outer) (startArray { env with tags := t' } db m' p outer) := by
  have el := startElements_below h env ht db
  refine .next fun b => .next fun _ => .next fun n => .ite ?_ (el p)
  have ht' := ht
  revert ht'
  generalize hT : env.tags = T
  intro ht'
  cases T with
  | none => cases t' with
    | some t' => exact ht'.elim
    | none =>
      refine .bind (countValue_below h env ..) fun r _ => ?_
      cases r with
      | none => exact .refl _
      | some r => exact el r
  | some T => cases t' with
    | none => exact ht'.elim
    | some t' =>
      refine .bind (request_below ht' ..) fun r _ => ?_
      rcases r with _ | _ | v
      · exact .refl _
      · exact .refl _
      · exact el v

theorem startUnion_below (db : Db) (p : Value) (outer : List Value) : Below (startUnion env db p outer) (startUnion { env with tags := t' } db p outer) :=
  .next fun _ => .next fun _ => .next fun _ => .ite (.first (request_below ht ..)) (.refl _)

theorem start_below (deep : Bool) (db : Db) (s : Case) (p : Value) (outer : List Value) :
    Below (start env deep db m s p outer) (start { env with tags := t' } deep db m' s p outer) := by
  cases s with
  | base => exact .first (stringLoop_below h env db p _)
  | enumeration => exact .first (enumerationString_below h ..)
  | pointer => exact .ite (startPointer_below h env ht ..) (.first (pointerString_below h env ..))
  | struct => exact .refl _
  | union => exact startUnion_below h env ht ..
  | array => exact startArray_below h env ht ..
  | packed => exact .refl _
  | subroutine => exact .refl _
  | subprogram => exact .refl _
  | other => exact .refl _

theorem finish_below (db : Db) (s : Case) (p : Value) (failed : Bool) (vs : List (Value × Option Text)) :
    Below (finish env db m s p failed vs) (finish { env with tags := t' } db m' s p failed vs) := by
  refine .ite (.refl _) ?_
  cases s with
  | pointer =>
    show Below (finishPointer env db m vs) (finishPointer { env with tags := t' } db m' vs)
    rcases vs with _ | ⟨⟨arr, _ | t⟩, _ | ⟨v, vs⟩⟩
    · exact .refl _
    · exact .refl _
    · exact .refl _
    · refine .bind (countValue_below h env ..) fun r _ => ?_
      cases r with
      | none => exact .refl _
      | some r => exact .refl _
    · exact .refl _
  | _ => exact .refl _

/-- Printing. -/
theorem string_walk_below (deep : Bool) (db : Db) (outer : List Value) (p : Value) :
    Below (walk env deep db m outer p) (walk { env with tags := t' } deep db m' outer p) := by
  refine ⟨?_⟩
  refine walk.fixpoint_induct env deep db m (motive := fun g => ∀ outer v r, g outer v = .ok r → walk { env with tags := t' } deep db m' outer v = .ok r) ?_ ?_ outer p
  · apply Lean.Order.admissible_pi_apply (P := fun outer (g : Value → Outcome (Option Text)) => ∀ v r, g v = .ok r → walk { env with tags := t' } deep db m' outer v = .ok r)
    intro outer
    apply Lean.Order.admissible_pi_apply (P := fun v (g : Outcome (Option Text)) => ∀ r, g = .ok r → walk { env with tags := t' } deep db m' outer v = .ok r)
    intro v
    exact Outcome.admissible_ok _
  · intro g hg outer v r hr
    rw [walk]
    refine Below.ok (.next fun s => .bind (start_below h env ht deep db s v outer) fun n _ => ?_) r hr
    cases n with
    | done out => exact .refl _
    | deps vs failed => exact .bind (mapM_below (fun w => ⟨hg (v :: outer) w⟩) vs) fun outs _ => finish_below h env ht ..
end

section
open Deep
variable (env : Deep.Env) {t' : Option (Ref → Option ValueString.Handler)} (ht : Answering env.tags t')
include ht

/-- The handlers replaced. -/
abbrev withTags (env : Deep.Env) (t' : Option (Ref → Option ValueString.Handler)) : Deep.Env := { env with tags := t' }

theorem deep_startArray_below (mode : Mode) (db : Db) (p : Value) (outer : List Value) :
    Below (startArray env mode db m p outer) (startArray (withTags env t') mode db m' p outer) := by
  refine .next fun b => .next fun _ => .next fun n => .ite (.bind (request_below ht ..) fun r _ => ?_) (.refl _)
  rcases r with _ | _ | v
  · exact .refl _
  · refine .ite (.refl _) (.bind (countValue_below h env.vs ..) fun r _ => ?_)
    cases r with
    | none => exact .refl _
    | some r => exact .refl _
  · exact .refl _

theorem deep_startPointer_below (mode : Mode) (db : Db) (p : Value) (outer : List Value) :
    Below (startPointer env mode db m p outer) (startPointer (withTags env t') mode db m' p outer) := by
  refine .next fun s => ?_
  cases s with
  | error => exact .refl _
  | ok n =>
    refine .bind (pointer_below h ..) fun a _ => ?_
    cases a with
    | error => exact .refl _
    | ok a =>
      refine .ite (.refl _) (.bind (introducedLoop_below h ..) fun l _ => .ite (.refl _) (.bind (request_below ht ..) fun r _ => ?_))
      rcases r with _ | _ | arr
      · exact .refl _
      · exact .next fun b => .next fun c => .ite (.refl _) (.first (countValue_below h env.vs ..))
      · exact .refl _

theorem deep_startUnion_below (mode : Mode) (db : Db) (p : Value) (outer : List Value) :
    Below (startUnion env mode db p outer) (startUnion (withTags env t') mode db p outer) := by
  refine .next fun _ => .next fun _ => .next fun s => ?_
  cases s with
  | error => exact .refl _
  | ok n => exact .next fun c => .ite (.first (request_below ht ..)) (.refl _)

theorem deep_start_below (mode : Mode) (db : Db) (s : ValueString.Case) (p : Value) (outer : List Value) :
    Below (start env mode db m s p outer) (start (withTags env t') mode db m' s p outer) := by
  cases s with
  | pointer => exact deep_startPointer_below h env ht ..
  | union => exact deep_startUnion_below h env ht ..
  | array => exact deep_startArray_below h env ht ..
  | _ => exact .refl _

theorem visitAll_below {f g : Value → St → Outcome (Option Node × St)} (hf : ∀ v st, Below (f v st) (g v st)) : ∀ (vs : List Value) (st : St), Below (visitAll f vs st) (visitAll g vs st)
  | [], _ => .refl _
  | v :: vs, st => .bind (hf v st) fun _ _ => .first (visitAll_below hf vs _)

theorem walk_below (mode : Mode) (db : Db) (outer : List Value) (p : Value) (st : St) :
    Below (walk env mode db m outer p st) (walk (withTags env t') mode db m' outer p st) := by
  refine ⟨?_⟩
  refine walk.fixpoint_induct env mode db m (motive := fun g => ∀ outer v st r, g outer v st = .ok r → walk (withTags env t') mode db m' outer v st = .ok r) ?_ ?_ outer p st
  · apply Lean.Order.admissible_pi_apply (P := fun outer (g : Value → St → Outcome (Option Node × St)) => ∀ v st r, g v st = .ok r → walk (withTags env t') mode db m' outer v st = .ok r)
    intro outer
    apply Lean.Order.admissible_pi_apply (P := fun v (g : St → Outcome (Option Node × St)) => ∀ st r, g st = .ok r → walk (withTags env t') mode db m' outer v st = .ok r)
    intro v
    apply Lean.Order.admissible_pi_apply (P := fun st (g : Outcome (Option Node × St)) => ∀ r, g = .ok r → walk (withTags env t') mode db m' outer v st = .ok r)
    intro st
    exact Outcome.admissible_ok _
  · intro g hg outer v st r hr
    rw [walk]
    exact Below.ok (.next fun s => .bind (deep_start_below h env ht mode db s v outer) fun n _ => .first (visitAll_below h env ht (fun w st => ⟨hg (v :: outer) w st⟩) _ _)) r hr

theorem memoryMap_below (order : List (Nat × Nat × Nat) → List (Nat × Nat × Nat)) (mode : Mode) (db : Db) (v : Option Value) :
    Below (memoryMap env order mode db m v) (memoryMap (withTags env t') order mode db m' v) := by
  cases v with
  | none => exact .refl _
  | some v => exact .first (walk_below h env ht ..)

theorem freeEx_below (order : List (Nat × Nat × Nat) → List (Nat × Nat × Nat)) (mode : Mode) (db : Db) (v : Option Value) :
    Below (freeEx env order mode db m v) (freeEx (withTags env t') order mode db m' v) :=
  .first (memoryMap_below h env ht ..)

omit ht in
theorem memcmp_below (a b n : Nat) : Below (memcmp m a b n) (memcmp m' a b n) := .bind (load_below h a n) fun _ _ => .first (load_below h b n)

omit ht in
theorem cmpNode_below (cfg : Plat) (mode : Mode) (db : Db) (M₁ M₂ : Map) (k₁ k₂ : Node) : Below (cmpNode cfg mode db m M₁ M₂ k₁ k₂) (cmpNode cfg mode db m' M₁ M₂ k₁ k₂) := by
  unfold cmpNode
  refine .ite (.refl _) (.next fun f₁ => .next fun f₂ => .ite (.refl _) (.next fun b₁ => .next fun b₂ => .ite (.ite (.ite (.first (equalPointer_below h ..)) (.refl _)) (.refl _)) ?_))
  refine .next fun b₁ => .next fun b₂ => .ite (.first (equalEnumeration_below h ..)) (.next fun b₁ => .next fun b₂ => .ite (.first (equalBaseType_below h ..)) ?_)
  exact .ite (.first (memcmp_below h ..)) (.refl _)

omit ht in
mutual
theorem cmp_below (cfg : Plat) (mode : Mode) (db : Db) (M₁ M₂ : Map) : ∀ k₁ k₂ : Node, Below (cmp cfg mode db m M₁ M₂ k₁ k₂) (cmp cfg mode db m' M₁ M₂ k₁ k₂)
  | .mk i₁ v₁ s₁ l₁ d₁ ks₁, k₂ => by
    refine .bind (cmpNode_below h ..) fun r _ => ?_
    cases r with
    | some c => exact .refl _
    | none => exact cmpAll_below cfg mode db M₁ M₂ ks₁ k₂.kids
theorem cmpAll_below (cfg : Plat) (mode : Mode) (db : Db) (M₁ M₂ : Map) : ∀ ks₁ ks₂ : List Node, Below (cmpAll cfg mode db m M₁ M₂ ks₁ ks₂) (cmpAll cfg mode db m' M₁ M₂ ks₁ ks₂)
  | [], _ => .refl _
  | _ :: _, [] => .refl _
  | k₁ :: ks₁, k₂ :: ks₂ => .bind (cmp_below cfg mode db M₁ M₂ k₁ k₂) fun _ _ => .first (cmpAll_below cfg mode db M₁ M₂ ks₁ ks₂)
end

theorem equalEx_below (order : List (Nat × Nat × Nat) → List (Nat × Nat × Nat)) (mode : Mode) (db : Db) (v w : Option Value) :
    Below (equalEx env order mode db m v w) (equalEx (withTags env t') order mode db m' v w) := by
  cases v with
  | none => exact .refl _
  | some v =>
    cases w with
    | none => exact .refl _
    | some w =>
      refine .bind (memoryMap_below h env ht ..) fun r _ => ?_
      cases r with
      | none => exact .refl _
      | some M₁ =>
        refine .bind (memoryMap_below h env ht ..) fun r _ => ?_
        cases r with
        | none => exact .refl _
        | some M₂ => exact .first (cmp_below h ..)
end
end
end Verif.Lifecycle
