import Verif.Deep.Lemmas
import Verif.DeepCopy.Model
/-
Calls that end: helper lemmas for all functions the deep operations use.
-/
namespace Verif.DeepEnds
open Verif Verif.Entry Verif.Entry.Spec Verif.Value

/-- The call does not run forever. -/
def Ends {α : Type} (x : Outcome α) : Prop := x ≠ .hang

theorem Ends.ok {α : Type} (a : α) : Ends (.ok a) := nofun
theorem Ends.pure {α : Type} (a : α) : Ends (Pure.pure a : Outcome α) := nofun
theorem Ends.abort {α : Type} : Ends (.abort : Outcome α) := nofun
theorem Ends.ub {α : Type} : Ends (.ub : Outcome α) := nofun

theorem Ends.bind {α β : Type} {x : Outcome α} {f : α → Outcome β} (hx : Ends x) (hf : ∀ a, x = .ok a → Ends (f a)) : Ends (x >>= f) := by
  cases x with
  | ok a => exact hf a rfl
  | abort => exact nofun
  | ub => exact nofun
  | hang => exact absurd rfl hx

theorem Ends.assert (c : Bool) : Ends (Outcome.assert c) := by unfold Outcome.assert; split <;> exact nofun

theorem Ends.loop {α : Type} {o : Option α} (h : o.isSome = true) : Ends (Outcome.ofLoop o) := by
  cases o with
  | some a => exact nofun
  | none => cases h

theorem Ends.ite {α : Type} {c : Prop} [Decidable c] {x y : Outcome α} (hx : c → Ends x) (hy : ¬ c → Ends y) : Ends (if c then x else y) := by
  split
  · exact hx ‹_›
  · exact hy ‹_›

/-- one step of the analysis of a function that is not recursive; lemmas about the functions
it calls are added below. -/
syntax "ends_lemma" : tactic
macro_rules | `(tactic| ends_lemma) => `(tactic| with_reducible exact Ends.ok _)
macro_rules | `(tactic| ends_lemma) => `(tactic| with_reducible exact Ends.pure _)
macro_rules | `(tactic| ends_lemma) => `(tactic| with_reducible exact Ends.abort)
macro_rules | `(tactic| ends_lemma) => `(tactic| with_reducible exact Ends.ub)
macro_rules | `(tactic| ends_lemma) => `(tactic| with_reducible exact Ends.assert _)
macro_rules | `(tactic| ends_lemma) => `(tactic| assumption)

macro "ends" : tactic => `(tactic|
  repeat' first
    | ends_lemma
    | (with_reducible refine Ends.bind ?_ (fun _ _ => ?_))
    | (with_reducible refine Ends.ite (fun _ => ?_) (fun _ => ?_))
    | split
    | dsimp only)

/-! ### Memory -/

theorem load_ends (m : Mem) : ∀ (n a : Nat), Ends (m.load a n)
  | 0, _ => Ends.ok _
  | n + 1, a => by
    rw [Mem.load]
    have := load_ends m n (a + 1)
    ends
macro_rules | `(tactic| ends_lemma) => `(tactic| with_reducible exact load_ends _ _ _)

theorem store_ends : ∀ (bs : List UInt8) (m : Mem) (a : Nat), Ends (m.store a bs)
  | [], _, _ => Ends.ok _
  | b :: bs, m, a => by
    rw [Mem.store]
    have := fun m => store_ends bs m (a + 1)
    split
    · exact Ends.ub
    · exact this _
macro_rules | `(tactic| ends_lemma) => `(tactic| with_reducible exact store_ends _ _ _)

theorem loadN_ends (m : Mem) (a n : Nat) : Ends (m.loadN a n) := by unfold Mem.loadN; ends
theorem storeN_ends (m : Mem) (a n v : Nat) : Ends (m.storeN a n v) := by unfold Mem.storeN; ends
macro_rules | `(tactic| ends_lemma) => `(tactic| with_reducible exact loadN_ends _ _ _)
macro_rules | `(tactic| ends_lemma) => `(tactic| with_reducible exact storeN_ends _ _ _ _)

theorem read_ends (cfg : Bitfield.Cfg) (db : Db) (m : Mem) (p : Ref) (base w : Nat) (sign : Bool) : Ends (Bitfield.read cfg db m p base w sign) := by
  unfold Bitfield.read Bitfield.locate Bitfield.readT; ends
theorem write_ends (cfg : Bitfield.Cfg) (db : Db) (m : Mem) (p : Ref) (base w : Nat) (v : Nat) : Ends (Bitfield.write cfg db m p base w v) := by
  unfold Bitfield.write Bitfield.locate Bitfield.writeT; ends
macro_rules | `(tactic| ends_lemma) => `(tactic| with_reducible exact read_ends _ _ _ _ _ _ _)
macro_rules | `(tactic| ends_lemma) => `(tactic| with_reducible exact write_ends _ _ _ _ _ _ _)

/-! ### Descriptions -/

section
variable {db : Db} (ha : ∀ r, Acyclic db r)
include ha

theorem finalEntry_some (p : Option Ref) : (finalEntry db p).isSome = true := by
  cases p with
  | none => rfl
  | some r =>
    obtain ⟨f, qs, hf⟩ := final_exists (ha r)
    rw [final_entry hf]
    rfl

theorem finalOf_some (p : Option Ref) (want : Info → Bool) : (finalOf db p want).isSome = true := by
  cases p with
  | none => rfl
  | some r =>
    obtain ⟨f, qs, hf⟩ := final_exists (ha r)
    rw [finalOf_final hf]
    rfl

theorem byteSizeLoop_some (r : Ref) : ∀ mult, (byteSizeLoop db (some r) mult).isSome = true := by
  induction ha r with
  | intro r _ ih =>
    intro mult
    have go : ∀ t mult, (∀ x, t = some x → Next db x r) → (byteSizeLoop db t mult).isSome = true := by
      intro t mult h
      cases t with
      | none => rw [byteSizeLoop.eq_def]; rfl
      | some x => exact ih x (h x rfl) mult
    rw [byteSizeLoop.eq_def]
    dsimp only
    split
    · rfl
    · rfl
    · rfl
    · rfl
    · rfl
    · next h => exact go _ _ fun x hx => .alias (hx ▸ .var h)
    · next u t h =>
      refine go _ _ fun x hx => ?_
      cases u
      · exact .alias (hx ▸ .param h)
      · exact .dots (hx ▸ h)
    · next h => exact go _ _ fun x hx => .alias (hx ▸ .member h)
    · next h => exact go _ _ fun x hx => .alias (hx ▸ .typedef h)
    · next h => exact go _ _ fun x hx => .alias (hx ▸ .qual h)
    · next h =>
      split
      · rfl
      · exact go _ _ fun x hx => .array (hx ▸ h)
    · rfl

theorem byteSize_some (p : Option Ref) (b : Bool) : (byteSize db p b).isSome = true := by
  unfold byteSize
  split
  · cases p with
    | none => rw [byteSizeLoop.eq_def]; rfl
    | some r => exact byteSizeLoop_some ha r _
  · rfl

end

theorem some_bind {α β : Type} {x : Option α} {f : α → Option β} (hx : x.isSome = true) (hf : ∀ a, (f a).isSome = true) : (x >>= f).isSome = true := by
  cases x with
  | none => cases hx
  | some a => exact hf a

section
variable {db : Db} (ha : ∀ r, Acyclic db r)
include ha

theorem memberCount_some (p : Option Ref) : (memberCount db p).isSome = true :=
  some_bind (finalOf_some ha _ _) fun a => by cases a <;> rfl
theorem byMemberId_some (p : Option Ref) (i : Int) : (byMemberId db p i).isSome = true :=
  some_bind (finalOf_some ha _ _) fun a => by cases a <;> rfl
theorem memberNameToId_some (p : Option Ref) (n : Name) : (memberNameToId db p n).isSome = true :=
  some_bind (finalOf_some ha _ _) fun a => by cases a <;> rfl
theorem elementCount_some (p : Option Ref) : (elementCount db p).isSome = true :=
  some_bind (finalOf_some ha _ _) fun a => by
    cases a with
    | none => rfl
    | some f => dsimp only; split <;> rfl
theorem elementEntry_some (p : Option Ref) : (elementEntry db p).isSome = true :=
  some_bind (finalOf_some ha _ _) fun a => by
    cases a with
    | none => rfl
    | some f => dsimp only; split <;> rfl
theorem pointerEntry_some (p : Option Ref) : (pointerEntry db p).isSome = true :=
  some_bind (finalOf_some ha _ _) fun a => by
    cases a with
    | none => rfl
    | some f => dsimp only; split <;> rfl
theorem enumerationToName_some (p : Option Ref) (v : Int) : (enumerationToName db p v).isSome = true :=
  some_bind (finalOf_some ha _ _) fun a => by cases a <;> rfl
theorem checkBaseType_some (p : Option Ref) (n : Name) (e : Nat) (s : UInt64) : (checkBaseType db p n e s).isSome = true :=
  some_bind (finalOf_some ha _ _) fun a => by cases a <;> rfl
theorem newElementCountEntry_some (p : Option Ref) (c : Int) : (newElementCountEntry db p c).isSome = true := by
  unfold newElementCountEntry
  cases p with
  | none => rfl
  | some r =>
    refine some_bind (finalEntry_some ha _) fun a => ?_
    dsimp only
    split
    · rfl
    · split
      · exact some_bind (elementEntry_some ha _) fun t => by cases t <;> rfl
      · exact some_bind (pointerEntry_some ha _) fun t => by cases t <;> rfl
      · rfl

theorem checkBaseType_ends (p : Option Ref) (n : Name) (e : Nat) (s : UInt64) {c : Outcome Int}
    (h : Outcome.ofLoop (checkBaseType db p n e s) = .ok c) : Ends c := by
  unfold checkBaseType at h
  cases hf : finalOf db p isBase with
  | none => rw [hf] at h; cases h
  | some f =>
    rw [hf] at h
    cases f with
    | none => cases h; exact Ends.ok _
    | some f =>
      cases h
      unfold checkBase
      ends

end

macro_rules | `(tactic| ends_lemma) => `(tactic| with_reducible exact Ends.loop (finalEntry_some (by assumption) _))
macro_rules | `(tactic| ends_lemma) => `(tactic| with_reducible exact Ends.loop (finalOf_some (by assumption) _ _))
macro_rules | `(tactic| ends_lemma) => `(tactic| with_reducible exact Ends.loop (byteSize_some (by assumption) _ _))
macro_rules | `(tactic| ends_lemma) => `(tactic| with_reducible exact Ends.loop (memberCount_some (by assumption) _))
macro_rules | `(tactic| ends_lemma) => `(tactic| with_reducible exact Ends.loop (byMemberId_some (by assumption) _ _))
macro_rules | `(tactic| ends_lemma) => `(tactic| with_reducible exact Ends.loop (memberNameToId_some (by assumption) _ _))
macro_rules | `(tactic| ends_lemma) => `(tactic| with_reducible exact Ends.loop (elementCount_some (by assumption) _))
macro_rules | `(tactic| ends_lemma) => `(tactic| with_reducible exact Ends.loop (elementEntry_some (by assumption) _))
macro_rules | `(tactic| ends_lemma) => `(tactic| with_reducible exact Ends.loop (pointerEntry_some (by assumption) _))
macro_rules | `(tactic| ends_lemma) => `(tactic| with_reducible exact Ends.loop (enumerationToName_some (by assumption) _ _))
macro_rules | `(tactic| ends_lemma) => `(tactic| with_reducible exact Ends.loop (checkBaseType_some (by assumption) _ _ _ _))
macro_rules | `(tactic| ends_lemma) => `(tactic| with_reducible exact Ends.loop (newElementCountEntry_some (by assumption) _ _))
macro_rules | `(tactic| ends_lemma) => `(tactic| with_reducible exact checkBaseType_ends (by assumption) _ _ _ _ (by assumption))

/-! ### Single objects -/

section
variable {db : Db} (ha : ∀ r, Acyclic db r)
include ha

theorem baseType_ends (cfg : Plat) (m : Mem) (v : Option Value) (n : Name) (e s : Nat) : Ends (baseType cfg db m v n e s) := by
  unfold baseType; ends
theorem setBaseType_ends (cfg : Plat) (m : Mem) (v : Option Value) (n : Name) (e x s : Nat) : Ends (setBaseType cfg db m v n e x s) := by
  unfold setBaseType; ends
theorem isTy_ends (p : Option Ref) (t : Ty) : Ends (isTy db p t) := by
  unfold isTy; ends
end
macro_rules | `(tactic| ends_lemma) => `(tactic| with_reducible exact baseType_ends (by assumption) _ _ _ _ _ _)
macro_rules | `(tactic| ends_lemma) => `(tactic| with_reducible exact setBaseType_ends (by assumption) _ _ _ _ _ _ _)
macro_rules | `(tactic| ends_lemma) => `(tactic| with_reducible exact isTy_ends (by assumption) _ _)

section
variable {db : Db} (ha : ∀ r, Acyclic db r)
include ha
theorem getTy_ends (cfg : Plat) (m : Mem) (v : Option Value) (t : Ty) : Ends (getTy cfg db m v t) := by
  unfold getTy; ends
theorem setTy_ends (cfg : Plat) (m : Mem) (v : Option Value) (t : Ty) (x : Nat) : Ends (setTy cfg db m v t x) := by
  unfold setTy; ends
theorem enumeration_ends (m : Mem) (v : Option Value) : Ends (enumeration db m v) := by
  unfold enumeration; ends
theorem setEnumeration_ends (m : Mem) (v : Option Value) (x : Int) : Ends (setEnumeration db m v x) := by
  unfold setEnumeration; ends
theorem pointer_ends (m : Mem) (v : Option Value) : Ends (pointer db m v) := by
  unfold pointer; ends
theorem setPointer_ends (m : Mem) (v : Option Value) (a : Nat) : Ends (setPointer db m v a) := by
  unfold setPointer; ends
theorem valueElementCount_ends (v : Option Value) : Ends (valueElementCount db v) := by
  unfold valueElementCount; ends
theorem elementValue_ends (v : Option Value) (i : Int) : Ends (elementValue db v i) := by
  unfold elementValue; ends
theorem memberValue_ends (v : Option Value) (i : Int) : Ends (memberValue db v i) := by
  unfold memberValue; ends
theorem elementCountValue_ends (m : Mem) (v : Option Value) (c : Int) : Ends (elementCountValue db m v c) := by
  unfold elementCountValue; ends
end
macro_rules | `(tactic| ends_lemma) => `(tactic| with_reducible exact getTy_ends (by assumption) _ _ _ _)
macro_rules | `(tactic| ends_lemma) => `(tactic| with_reducible exact setTy_ends (by assumption) _ _ _ _ _)
macro_rules | `(tactic| ends_lemma) => `(tactic| with_reducible exact enumeration_ends (by assumption) _ _)
macro_rules | `(tactic| ends_lemma) => `(tactic| with_reducible exact setEnumeration_ends (by assumption) _ _ _)
macro_rules | `(tactic| ends_lemma) => `(tactic| with_reducible exact pointer_ends (by assumption) _ _)
macro_rules | `(tactic| ends_lemma) => `(tactic| with_reducible exact setPointer_ends (by assumption) _ _ _)
macro_rules | `(tactic| ends_lemma) => `(tactic| with_reducible exact valueElementCount_ends (by assumption) _)
macro_rules | `(tactic| ends_lemma) => `(tactic| with_reducible exact elementValue_ends (by assumption) _ _)
macro_rules | `(tactic| ends_lemma) => `(tactic| with_reducible exact memberValue_ends (by assumption) _ _)
macro_rules | `(tactic| ends_lemma) => `(tactic| with_reducible exact elementCountValue_ends (by assumption) _ _ _)

section
variable {db : Db} (ha : ∀ r, Acyclic db r)
include ha
theorem equalLoop_ends (cfg : Plat) (m : Mem) (v w : Value) : ∀ ts, Ends (equalLoop cfg db m v w ts)
  | [] => Ends.ok _
  | t :: ts => by
    have := equalLoop_ends cfg m v w ts
    rw [equalLoop]; ends
theorem copyLoop_ends (cfg : Plat) (m : Mem) (v w : Value) : ∀ ts, Ends (copyLoop cfg db m v w ts)
  | [] => Ends.ok _
  | t :: ts => by
    have := copyLoop_ends cfg m v w ts
    rw [copyLoop]; ends
theorem numLoop_ends (cfg : Plat) (m : Mem) (v : Option Value) : ∀ ts, Ends (numLoop cfg db m v ts)
  | [] => Ends.ok _
  | t :: ts => by
    have := numLoop_ends cfg m v ts
    rw [numLoop]; ends
theorem loopLevels_ends (m : Mem) (a : Nat) : ∀ vs l, Ends (loopLevels db m a vs l)
  | [], _ => Ends.ok _
  | none :: vs, l => loopLevels_ends m a vs (l + 1)
  | some v :: vs, l => by
    have := loopLevels_ends m a vs (l + 1)
    rw [loopLevels]; ends
end
macro_rules | `(tactic| ends_lemma) => `(tactic| with_reducible exact equalLoop_ends (by assumption) _ _ _ _ _)
macro_rules | `(tactic| ends_lemma) => `(tactic| with_reducible exact copyLoop_ends (by assumption) _ _ _ _ _)
macro_rules | `(tactic| ends_lemma) => `(tactic| with_reducible exact numLoop_ends (by assumption) _ _ _ _)
macro_rules | `(tactic| ends_lemma) => `(tactic| with_reducible exact loopLevels_ends (by assumption) _ _ _ _)

section
variable {db : Db} (ha : ∀ r, Acyclic db r)
include ha
theorem num_ends (cfg : Plat) (m : Mem) (v : Option Value) : Ends (num cfg db m v) := by
  unfold num; ends
theorem equalEnumeration_ends (m : Mem) (v w : Option Value) : Ends (equalEnumeration db m v w) := by
  unfold equalEnumeration; ends
theorem equalPointer_ends (m : Mem) (v w : Option Value) : Ends (equalPointer db m v w) := by
  unfold equalPointer; ends
theorem equalBaseType_ends (cfg : Plat) (m : Mem) (v w : Option Value) : Ends (equalBaseType cfg db m v w) := by
  unfold equalBaseType; ends
theorem copyEnumeration_ends (m : Mem) (v w : Option Value) : Ends (copyEnumeration db m v w) := by
  unfold copyEnumeration; ends
theorem copyPointer_ends (m : Mem) (v w : Option Value) : Ends (copyPointer db m v w) := by
  unfold copyPointer; ends
theorem copyBaseType_ends (cfg : Plat) (m : Mem) (v w : Option Value) : Ends (copyBaseType cfg db m v w) := by
  unfold copyBaseType; ends
theorem enumerationString_ends (m : Mem) (v : Option Value) : Ends (enumerationString db m v) := by
  unfold enumerationString; ends
theorem introducedLoop_ends (m : Mem) (vs : List (Option Value)) : Ends (introducedLoop db m vs) := by
  unfold introducedLoop; ends
theorem hasMembers_ends (v : Value) : Ends (Handlers.hasMembers db v) := by
  unfold Handlers.hasMembers; ends
theorem memberCountOf_ends (v : Value) : Ends (Handlers.memberCountOf db v) := by
  unfold Handlers.memberCountOf; ends
theorem hasLoad_ends (env : Handlers.Env) (v : Value) : Ends (Handlers.hasLoad env db v) := by
  unfold Handlers.hasLoad; ends
theorem hasElements_ends (v : Value) : Ends (ValueString.hasElements db v) := by
  unfold ValueString.hasElements; ends
theorem isVoidPointer_ends (v : Value) : Ends (ValueString.isVoidPointer db v) := by
  unfold ValueString.isVoidPointer; ends
theorem isDeclarationPointer_ends (v : Value) : Ends (Deep.isDeclarationPointer db v) := by
  unfold Deep.isDeclarationPointer; ends
theorem countValue_ends (env : ValueString.Env) (m : Mem) (v : Value) (c : Int) : Ends (ValueString.countValue env db m v c) := by
  unfold ValueString.countValue; ends
theorem sizeOfValue_ends (v : Value) : Ends (Deep.sizeOfValue db v) := by
  unfold Deep.sizeOfValue; ends
theorem isA_ends (p : Info → Bool) (v : Value) : Ends (Deep.isA db p v) := by
  unfold Deep.isA; ends
theorem finalKind_ends (v : Value) : Ends (Deep.finalKind db v) := by
  unfold Deep.finalKind; ends
theorem pointerString_ends (env : ValueString.Env) (m : Mem) (v : Value) : Ends (ValueString.pointerString env db m v) := by
  unfold ValueString.pointerString; ends
end
macro_rules | `(tactic| ends_lemma) => `(tactic| with_reducible exact num_ends (by assumption) _ _ _)
macro_rules | `(tactic| ends_lemma) => `(tactic| with_reducible exact equalEnumeration_ends (by assumption) _ _ _)
macro_rules | `(tactic| ends_lemma) => `(tactic| with_reducible exact equalPointer_ends (by assumption) _ _ _)
macro_rules | `(tactic| ends_lemma) => `(tactic| with_reducible exact equalBaseType_ends (by assumption) _ _ _ _)
macro_rules | `(tactic| ends_lemma) => `(tactic| with_reducible exact copyEnumeration_ends (by assumption) _ _ _)
macro_rules | `(tactic| ends_lemma) => `(tactic| with_reducible exact copyPointer_ends (by assumption) _ _ _)
macro_rules | `(tactic| ends_lemma) => `(tactic| with_reducible exact copyBaseType_ends (by assumption) _ _ _ _)
macro_rules | `(tactic| ends_lemma) => `(tactic| with_reducible exact enumerationString_ends (by assumption) _ _)
macro_rules | `(tactic| ends_lemma) => `(tactic| with_reducible exact introducedLoop_ends (by assumption) _ _)
macro_rules | `(tactic| ends_lemma) => `(tactic| with_reducible exact hasMembers_ends (by assumption) _)
macro_rules | `(tactic| ends_lemma) => `(tactic| with_reducible exact memberCountOf_ends (by assumption) _)
macro_rules | `(tactic| ends_lemma) => `(tactic| with_reducible exact hasLoad_ends (by assumption) _ _)
macro_rules | `(tactic| ends_lemma) => `(tactic| with_reducible exact hasElements_ends (by assumption) _)
macro_rules | `(tactic| ends_lemma) => `(tactic| with_reducible exact isVoidPointer_ends (by assumption) _)
macro_rules | `(tactic| ends_lemma) => `(tactic| with_reducible exact isDeclarationPointer_ends (by assumption) _)
macro_rules | `(tactic| ends_lemma) => `(tactic| with_reducible exact countValue_ends (by assumption) _ _ _ _)
macro_rules | `(tactic| ends_lemma) => `(tactic| with_reducible exact sizeOfValue_ends (by assumption) _)
macro_rules | `(tactic| ends_lemma) => `(tactic| with_reducible exact isA_ends (by assumption) _ _)
macro_rules | `(tactic| ends_lemma) => `(tactic| with_reducible exact finalKind_ends (by assumption) _)
macro_rules | `(tactic| ends_lemma) => `(tactic| with_reducible exact pointerString_ends (by assumption) _ _ _)

end Verif.DeepEnds
