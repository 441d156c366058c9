import Verif.Lifecycle.BelowDeep
import Verif.Lifecycle.Props
/-
C103: what is read, printed, mapped, freed or compared does not depend on other memory.
-/
namespace Verif.Lifecycle
open Verif Verif.Entry Verif.Value Verif.Handlers Verif.Lifecycle.Spec

variable {m m' : Mem} {db : Db}

/-- C103: reading single objects: numbers of every type, enumerations, pointers, and the
comparisons of them. -/
theorem C103_objects (h : Extends m m') (cfg : Plat) (v w : Option Value) :
    (∀ t, Keeps (getTy cfg db m v t) (getTy cfg db m' v t)) ∧ Keeps (num cfg db m v) (num cfg db m' v) ∧ Keeps (enumeration db m v) (enumeration db m' v) ∧
      Keeps (enumerationString db m v) (enumerationString db m' v) ∧ Keeps (pointer db m v) (pointer db m' v) ∧
      Keeps (equalBaseType cfg db m v w) (equalBaseType cfg db m' v w) ∧ Keeps (equalEnumeration db m v w) (equalEnumeration db m' v w) ∧
      Keeps (equalPointer db m v w) (equalPointer db m' v w) ∧ ∀ c, Keeps (elementCountValue db m v c) (elementCountValue db m' v c) :=
  ⟨fun t => (getTy_below h cfg db v t).ok, (num_below h cfg db v).ok, (enumeration_below h db v).ok, (enumerationString_below h db v).ok, (pointer_below h db v).ok,
    (equalBaseType_below h cfg db v w).ok, (equalEnumeration_below h db v w).ok, (equalPointer_below h db v w).ok, fun c => (elementCountValue_below h db v c).ok⟩

/-- C103: printing, shallow and deep. -/
theorem C103_print (h : Extends m m') (env : ValueString.Env) (t' : Option (Ref → Option ValueString.Handler)) (ht : Answering env.tags t') (deep : Bool) (v : Option Value) :
    Keeps (ValueString.valueString env deep db m v) (ValueString.valueString { env with tags := t' } deep db m' v) := by
  cases v with
  | none => exact fun _ h => h
  | some v => exact (string_walk_below h env ht deep db [] v).ok

/-- C103: mapping, freeing and comparing. -/
theorem C103_deep (h : Extends m m') (env : Deep.Env) (t' : Option (Ref → Option ValueString.Handler)) (ht : Answering env.tags t') (order : List (Nat × Nat × Nat) → List (Nat × Nat × Nat))
    (mode : Deep.Mode) (v w : Option Value) :
    Keeps (Deep.memoryMap env order mode db m v) (Deep.memoryMap { env with tags := t' } order mode db m' v) ∧
      Keeps (Deep.freeEx env order mode db m v) (Deep.freeEx { env with tags := t' } order mode db m' v) ∧
      Keeps (Deep.equalEx env order mode db m v w) (Deep.equalEx { env with tags := t' } order mode db m' v w) :=
  ⟨(memoryMap_below h env ht order mode db v).ok, (freeEx_below h env ht order mode db v).ok, (equalEx_below h env ht order mode db v w).ok⟩

/-- C103: the handlers of the library reply the same when there is more memory, so the condition
on handlers is met by them. -/
theorem C103_handlers (h : Extends m m') (env : Handlers.Env) (cfg : Plat) (stack : List (Option Value)) (ev : Option Event) :
    (∀ ctx, Keeps (countBy env cfg db m stack ev ctx) (countBy env cfg db m' stack ev ctx)) ∧ Keeps (zeroEnded db m stack ev) (zeroEnded db m' stack ev) ∧
      (∀ loc ctx, Keeps (containerOf db m loc stack ev ctx) (containerOf db m' loc stack ev ctx)) ∧
      (∀ ctx, Keeps (unionSelect cfg db m stack ev ctx) (unionSelect cfg db m' stack ev ctx)) ∧ ∀ ctx, Keeps (ptrCast cfg db m stack ev ctx) (ptrCast cfg db m' stack ev ctx) :=
  ⟨fun ctx => (countBy_below h env cfg db stack ev ctx).ok, (zeroEnded_below h db stack ev).ok, fun loc ctx => (containerOf_below h db loc stack ev ctx).ok,
    fun ctx => (unionSelect_below h cfg db stack ev ctx).ok, fun ctx => (ptrCast_below h cfg db stack ev ctx).ok⟩

open Deep.World DeepCopy.World DeepCopy.Example
open Verif.Deep.Example (forms forms_ok mapOf mapOf_sound)

/-- C103: the ring is mapped the same when it is there with other memory. -/
example : ∃ M, Deep.memoryMap (Deep.World.env forms) id drop (world forms) ring (some ⟨15, 100⟩) = .ok (some M) ∧ ring 5000 = none ∧
    Deep.memoryMap (Deep.World.env forms) id drop (world forms) (fun a => if a = 5000 then some 7 else ring a) (some ⟨15, 100⟩) = .ok (some M) := by
  obtain ⟨M, st', hM, h⟩ := made (e := 15) (mode := drop) (m := ring) (L := []) root_cdecl rfl (by decide +kernel)
  have h0 : ring 5000 = none := by decide +kernel
  have hx : Extends ring (fun a => if a = 5000 then some 7 else ring a) := by
    intro a b hb
    by_cases ha : a = 5000
    · subst ha; rw [h0] at hb; cases hb
    · simpa [ha] using hb
  exact ⟨M, h.map, h0, (C103_deep hx (Deep.World.env forms) none trivial id drop (some ⟨15, 100⟩) none).1 _ h.map⟩
end Verif.Lifecycle
