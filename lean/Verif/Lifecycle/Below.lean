import Verif.Lifecycle.Spec
import Verif.Handlers.Model
import Verif.ValueString.Props
/-
Reading functions on a memory and on a larger one: whatever the first returns, the second
returns.
-/
namespace Verif.Lifecycle
open Verif Verif.Entry Verif.Value Verif.Handlers

/-- If `x` is a result, `y` is the same result. -/
structure Below {α : Type} (x y : Outcome α) : Prop where
  ok : ∀ r, x = .ok r → y = .ok r

namespace Below
variable {α β : Type}

theorem refl (x : Outcome α) : Below x x := ⟨fun _ h => h⟩

theorem bind {x y : Outcome α} {f g : α → Outcome β} (h : Below x y) (hf : ∀ a, x = .ok a → Below (f a) (g a)) : Below (x >>= f) (y >>= g) := by
  refine ⟨fun r hr => ?_⟩
  rw [ValueString.bind_ok_iff] at hr ⊢
  obtain ⟨a, h1, h2⟩ := hr
  exact ⟨a, h.ok a h1, (hf a h1).ok r h2⟩

/-- The same first, then smaller and larger. -/
theorem next {x : Outcome α} {f g : α → Outcome β} (hf : ∀ a, Below (f a) (g a)) : Below (x >>= f) (x >>= g) := bind (refl x) fun a _ => hf a

/-- Smaller and larger first, then the same. -/
theorem first {x y : Outcome α} {f : α → Outcome β} (h : Below x y) : Below (x >>= f) (y >>= f) := bind h fun _ _ => refl _

theorem ite {c : Prop} [Decidable c] {x y x' y' : Outcome α} (h : Below x x') (h' : Below y y') : Below (if c then x else y) (if c then x' else y') := by
  split
  · exact h
  · exact h'
end Below

section
variable {m m' : Mem} (h : ∀ a b, m a = some b → m' a = some b)
include h

theorem load_below (a n : Nat) : Below (m.load a n) (m'.load a n) := by
  induction n generalizing a with
  | zero => exact .refl _
  | succ n ih =>
    simp only [Mem.load]
    cases ha : m a with
    | none => exact ⟨fun r hr => by cases hr⟩
    | some b => rw [h a b ha]; exact .first (ih _)

theorem loadN_below (a n : Nat) : Below (m.loadN a n) (m'.loadN a n) := .first (load_below h a n)

theorem locate_below (db : Db) (p : Ref) (base : Nat) : Below (Bitfield.locate db m p base) (Bitfield.locate db m' p base) := by
  unfold Bitfield.locate
  refine .ite (.refl _) (.ite (.refl _) ?_)
  generalize bitfieldOffsets db (some p) = o
  obtain ⟨c, o⟩ := o
  split
  · exact .refl _
  · exact .ite (.refl _) (.ite (.refl _) (.first (load_below h _ _)))
  · exact .refl _

theorem read_below (cfg : Bitfield.Cfg) (db : Db) (p : Ref) (base w : Nat) (sign : Bool) : Below (Bitfield.read cfg db m p base w sign) (Bitfield.read cfg db m' p base w sign) :=
  .first (locate_below h db p base)

theorem baseType_below (cfg : Plat) (db : Db) (v : Option Value) (name : Name) (enc size : Nat) : Below (baseType cfg db m v name enc size) (baseType cfg db m' v name enc size) := by
  cases v with
  | none => exact .refl _
  | some v =>
    refine .ite (.refl _) (.next fun f => ?_)
    rcases f with ⟨_ | f, q⟩
    · exact .refl _
    · refine .next fun c => .next fun c => .ite (.refl _) ?_
      generalize bitfieldMember (db v.entry) = o
      cases o with
      | none => exact .first (loadN_below h _ _)
      | some off => exact .ite (.ite (.refl _) (read_below h ..)) (.refl _)

theorem getTy_below (cfg : Plat) (db : Db) (v : Option Value) (t : Ty) : Below (getTy cfg db m v t) (getTy cfg db m' v t) := by
  refine .bind (baseType_below h ..) fun a _ => ?_
  cases a with
  | ok n => exact .refl _
  | error e => exact .ite (.first (baseType_below h ..)) (.refl _)

theorem enumeration_below (db : Db) (v : Option Value) : Below (enumeration db m v) (enumeration db m' v) := by
  cases v with
  | none => exact .refl _
  | some v =>
    refine .next fun f => ?_
    cases f with
    | none => exact .refl _
    | some f =>
      refine .ite (.refl _) (.next fun s => ?_)
      cases s with
      | error => exact .refl _
      | ok s => exact .ite (.first (loadN_below h ..)) (.refl _)

theorem enumerationString_below (db : Db) (v : Option Value) : Below (enumerationString db m v) (enumerationString db m' v) := by
  cases v with
  | none => exact .refl _
  | some v =>
    refine .next fun f => ?_
    cases f with
    | none => exact .refl _
    | some f => exact .first (enumeration_below h ..)

theorem numLoop_below (cfg : Plat) (db : Db) (v : Option Value) : ∀ ts : List Ty, Below (numLoop cfg db m v ts) (numLoop cfg db m' v ts)
  | [] => .refl _
  | t :: ts => by
    refine .next fun b => .ite (.bind (getTy_below h ..) fun a _ => ?_) (numLoop_below cfg db v ts)
    cases a with
    | ok n => exact .refl _
    | error => exact numLoop_below cfg db v ts

theorem num_below (cfg : Plat) (db : Db) (v : Option Value) : Below (num cfg db m v) (num cfg db m' v) := by
  refine .bind (numLoop_below h ..) fun a _ => ?_
  cases a with
  | some n => exact .refl _
  | none => exact .first (enumeration_below h ..)

theorem equalEnumeration_below (db : Db) (v w : Option Value) : Below (equalEnumeration db m v w) (equalEnumeration db m' v w) := by
  refine .bind (enumeration_below h ..) fun a _ => ?_
  cases a with
  | error => exact .refl _
  | ok a => exact .first (enumeration_below h ..)

theorem equalLoop_below (cfg : Plat) (db : Db) (v w : Value) : ∀ ts : List Ty, Below (equalLoop cfg db m v w ts) (equalLoop cfg db m' v w ts)
  | [] => .refl _
  | t :: ts => by
    refine .next fun b => .ite (.next fun c => .ite (.refl _) (.bind (getTy_below h ..) fun a _ => ?_)) (equalLoop_below cfg db v w ts)
    cases a with
    | error => exact .refl _
    | ok n => exact .first (getTy_below h ..)

theorem equalBaseType_below (cfg : Plat) (db : Db) (v w : Option Value) : Below (equalBaseType cfg db m v w) (equalBaseType cfg db m' v w) := by
  cases v with
  | none => exact .refl _
  | some v =>
    cases w with
    | none => exact .refl _
    | some w => exact equalLoop_below h ..

theorem pointer_below (db : Db) (v : Option Value) : Below (pointer db m v) (pointer db m' v) := by
  cases v with
  | none => exact .refl _
  | some v =>
    refine .next fun f => ?_
    cases f with
    | none => exact .refl _
    | some f => exact .ite (.refl _) (.first (loadN_below h ..))

theorem equalPointer_below (db : Db) (v w : Option Value) : Below (equalPointer db m v w) (equalPointer db m' v w) := by
  refine .bind (pointer_below h ..) fun a _ => ?_
  cases a with
  | error => exact .refl _
  | ok n => exact .first (pointer_below h ..)

theorem elementCountValue_below (db : Db) (v : Option Value) (c : Int) : Below (elementCountValue db m v c) (elementCountValue db m' v c) := by
  cases v with
  | none => exact .refl _
  | some v =>
    refine .ite (.refl _) (.next fun f => ?_)
    rcases f with ⟨_ | f, q⟩
    · exact .refl _
    · simp only
      generalize (db f).info = i
      cases i <;> first | exact .refl _ | exact .first (loadN_below h ..)

theorem loopLevels_below (db : Db) (t : Nat) : ∀ (vs : List (Option Value)) (l : Int), Below (loopLevels db m t vs l) (loopLevels db m' t vs l)
  | [], _ => .refl _
  | none :: vs, l => loopLevels_below db t vs (l + 1)
  | some v :: vs, l => by
    refine .next fun f => ?_
    cases f with
    | none => exact loopLevels_below db t vs _
    | some f =>
      refine .bind (pointer_below h ..) fun a _ => ?_
      cases a with
      | error => exact loopLevels_below db t vs _
      | ok a => exact .ite (.refl _) (loopLevels_below db t vs _)

theorem introducedLoop_below (db : Db) : ∀ vs : List (Option Value), Below (introducedLoop db m vs) (introducedLoop db m' vs)
  | [] => .refl _
  | [_] => .refl _
  | none :: _ :: _ => .refl _
  | some v :: w :: vs => by
    refine .next fun f => ?_
    cases f with
    | none => exact .refl _
    | some f =>
      refine .bind (pointer_below h ..) fun a _ => ?_
      cases a with
      | error => exact .refl _
      | ok a => exact loopLevels_below h ..

/-! ### Handlers -/

theorem siblingLoop_below (cfg : Plat) (db : Db) (get : Nat → Outcome (Option Value)) (name : Name) : ∀ left i : Nat,
    Below (siblingLoop cfg db m get name left i) (siblingLoop cfg db m' get name left i)
  | 0, _ => .refl _
  | left + 1, i => .next fun _ => .ite (.next fun _ => siblingLoop_below cfg db get name left (i + 1)) (.first (num_below h ..))

theorem memberSibling_below (cfg : Plat) (db : Db) (p : Value) (name : Name) : Below (memberSibling cfg db m p name) (memberSibling cfg db m' p name) :=
  .next fun _ => siblingLoop_below h ..

theorem counted_below (db : Db) (v : Value) (s : Sibling) : Below (counted db m v s) (counted db m' v s) := by
  cases s with
  | missing => exact .refl _
  | bad => exact .refl _
  | num n => exact .first (elementCountValue_below h ..)

theorem countBy_below (env : Handlers.Env) (cfg : Plat) (db : Db) (stack : List (Option Value)) (ev : Option Event) (ctx : Option (Option Name)) :
    Below (countBy env cfg db m stack ev ctx) (countBy env cfg db m' stack ev ctx) := by
  cases ev with
  | none => exact .refl _
  | some ev =>
    refine .ite ?_ (.refl _)
    rcases ctx with _ | _ | _ | ⟨c, name⟩
    · exact .refl _
    · exact .refl _
    · exact .refl _
    · simp only
      generalize Handlers.value stack 0 = v
      generalize Handlers.value stack 1 = w
      cases v with
      | none => exact .refl _
      | some v =>
        cases w with
        | none => exact .refl _
        | some w =>
          exact .next fun b => .ite (.bind (memberSibling_below h ..) fun s _ => counted_below h ..)
            (.next fun b => .ite (.bind (siblingLoop_below h ..) fun s _ => counted_below h ..) (.refl _))

theorem strlen_below (a : Nat) : Below (strlenOf m a) (strlenOf m' a) := by
  have main : ∀ n r, strlen m a n = some r → ∀ k, r = .ok k → strlen m' a n = some (.ok k) := by
    intro n r hr
    refine strlen.fixpoint_induct m a (motive := fun g => ∀ n r, g n = some r → ∀ k, r = .ok k → strlen m' a n = some (.ok k)) ?_ ?_ n r hr
    · apply Lean.Order.admissible_pi_apply (P := fun n (x : Option (Outcome Nat)) => ∀ r, x = some r → ∀ k, r = .ok k → strlen m' a n = some (.ok k))
      intro n
      apply Lean.Order.admissible_flatOrder
      intro r hr
      cases hr
    · intro g ih n r hr k hk
      simp only at hr
      rw [strlen]
      cases hm : m (a + n) with
      | none => rw [hm] at hr; cases hr; cases hk
      | some b =>
        rw [hm] at hr
        rw [h _ _ hm]
        simp only at hr ⊢
        split at hr
        · next hb => rw [if_pos hb]; cases hr; rw [hk]
        · next hb => rw [if_neg hb]; exact ih _ _ hr k hk
  refine ⟨fun r hr => ?_⟩
  unfold strlenOf at hr ⊢
  cases hs : strlen m a 0 with
  | none => rw [hs] at hr; cases hr
  | some x =>
    rw [hs] at hr
    rw [main 0 x hs r hr]

theorem zeroEnded_below (db : Db) (stack : List (Option Value)) (ev : Option Event) : Below (zeroEnded db m stack ev) (zeroEnded db m' stack ev) := by
  cases ev with
  | none => exact .refl _
  | some ev =>
    refine .ite ?_ (.refl _)
    generalize Handlers.value stack 0 = v
    cases v with
    | none => exact .refl _
    | some v =>
      refine .next fun f => ?_
      cases f with
      | none => exact .refl _
      | some f =>
        refine .next fun t => .next fun g => ?_
        rcases g with ⟨_ | g, q⟩
        · exact .refl _
        · refine .ite (.refl _) (.bind (pointer_below h ..) fun a _ => ?_)
          cases a with
          | error => exact .refl _
          | ok a => exact .ite (.refl _) (.bind (strlen_below h a) fun n _ => .first (elementCountValue_below h ..))

theorem withLocal_extends (loc p : Nat) : ∀ a b, withLocal m loc p a = some b → withLocal m' loc p a = some b := by
  intro a b hb
  unfold withLocal at hb ⊢
  split at hb
  · next hc => rw [if_pos hc]; exact hb
  · next hc => rw [if_neg hc]; exact h a b hb

theorem containerOf_below (db : Db) (loc : Nat) (stack : List (Option Value)) (ev : Option Event) (ctx : Option ContainerOf) :
    Below (containerOf db m loc stack ev ctx) (containerOf db m' loc stack ev ctx) := by
  cases ev with
  | none => exact .refl _
  | some ev =>
    refine .ite ?_ (.refl _)
    rcases ctx with _ | ⟨off, _ | e⟩
    · exact .refl _
    · exact .refl _
    · refine .bind (pointer_below h ..) fun a _ => ?_
      cases a with
      | error => exact .refl _
      | ok p =>
        simp only
        generalize newValue e loc = v
        cases v with
        | none => exact .refl _
        | some v => exact .first (elementCountValue_below (withLocal_extends h loc _) ..)

theorem unionSelect_below (cfg : Plat) (db : Db) (stack : List (Option Value)) (ev : Option Event) (ctx : Option Select) :
    Below (unionSelect cfg db m stack ev ctx) (unionSelect cfg db m' stack ev ctx) := by
  cases ev with
  | none => exact .refl _
  | some ev =>
    refine .ite ?_ (.refl _)
    rcases ctx with _ | ⟨_ | _ | ⟨c, name⟩, cases⟩ | id
    · exact .refl _
    · exact .refl _
    · exact .refl _
    · simp only
      generalize Handlers.value stack 0 = v
      generalize Handlers.value stack 1 = w
      cases v with
      | none => exact .refl _
      | some v =>
        cases w with
        | none => exact .refl _
        | some w => exact .next fun b => .ite (.refl _) (.next fun b => .ite (.refl _) (.first (memberSibling_below h ..)))
    · exact .refl _

theorem castLoop_below (db : Db) (v : Value) (ty c : Int) : ∀ cs : List CastCase, Below (castLoop db m v ty c cs) (castLoop db m' v ty c cs)
  | [] => .refl _
  | k :: cs => by
    refine .ite ?_ (castLoop_below db v ty c cs)
    generalize k.entry = e
    cases e with
    | none => exact .refl _
    | some e =>
      simp only
      generalize newValue e v.addr = p
      cases p with
      | none => exact .refl _
      | some p => exact .first (elementCountValue_below h ..)

theorem castSibling_below (cfg : Plat) (db : Db) (p : Value) (id : Int) : Below (castSibling cfg db m p id) (castSibling cfg db m' p id) :=
  .next fun _ => .first (num_below h ..)

theorem ptrCast_below (cfg : Plat) (db : Db) (stack : List (Option Value)) (ev : Option Event) (ctx : Option Cast) :
    Below (ptrCast cfg db m stack ev ctx) (ptrCast cfg db m' stack ev ctx) := by
  cases ev with
  | none => exact .refl _
  | some ev =>
    refine .ite ?_ (.refl _)
    cases ctx with
    | none => exact .refl _
    | some c =>
      obtain ⟨count, sel, cases⟩ := c
      cases sel with
      | none => exact .refl _
      | some sel =>
        refine .ite (.refl _) ?_
        simp only
        generalize Handlers.value stack 0 = v
        generalize Handlers.value stack 1 = w
        cases v with
        | none => exact .refl _
        | some v =>
          cases w with
          | none => exact .refl _
          | some w =>
            refine .next fun b => .ite (.refl _) (.next fun id => .ite (.refl _) (.bind (castSibling_below h ..) fun ty _ => ?_))
            cases ty with
            | none => exact .refl _
            | some ty =>
              rcases count with _ | _ | ⟨x, name⟩
              · exact castLoop_below h ..
              · exact castLoop_below h ..
              · refine .next fun cid => .bind (castSibling_below h ..) fun n _ => ?_
                cases n with
                | none => exact .refl _
                | some n => exact castLoop_below h ..
end
end Verif.Lifecycle
