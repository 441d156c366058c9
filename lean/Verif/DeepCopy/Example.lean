import Verif.DeepCopy.World
import Verif.CDecl.Props
/-
Data for the examples beside the theorems on copies.
-/
namespace Verif.DeepCopy.Example
open Verif Verif.Value Verif.ValueString.Spec Verif.Deep.Spec Verif.DeepCopy.Spec Verif.Deep.World Verif.DeepCopy.World
open Verif.Deep (Node Map)
open Verif.Deep.Example (forms forms_ok mapOf mapOf_sound)

/-- A root at 100, its nodes at 200 and 300 form a ring, the data of both is the number at 400;
and room for a root at 600. -/
def ring : Mem := words [(100, 200), (108, 300), (200, 300), (208, 400), (216, 7), (300, 200), (308, 400), (316, 8 + 2 ^ 32), (400, 9), (600, 0), (608, 0)]

/-- A root at 100 with a node at 200 and no second one.  The data of the node is its own number,
and the next one is the one at 300, which has neither next nor data. -/
def row : Mem := words [(100, 200), (108, 0), (200, 300), (208, 216), (216, 7), (300, 0), (308, 0), (316, 8), (600, 0), (608, 0)]

/-- Pointers to something unknown are dropped; or are an error. -/
def drop : Deep.Mode := ⟨true, .ignore, .ignore, false⟩
def strict : Deep.Mode := ⟨true, .fail, .fail, true⟩

theorem root_cdecl : CDecl.cdecl (world forms) 15 = .ok (some [115, 116, 114, 117, 99, 116, 32, 114, 32, 37, 115]) := CDecl.no_dep rfl

/-- A struct at 100 that can be copied to 600. -/
def ready (e : Entry.Ref) (mode : Deep.Mode) (m : Mem) : Bool :=
  match mapOf mode m ⟨e, 100⟩ with
  | none => false
  | some M => decide (M.top.val = ⟨e, 100⟩) && copyableB cfg mode (world forms) m M && roomB cfg mode (world forms) m M ⟨e, 600⟩

theorem ready_spec (limit : Nat) {e : Entry.Ref} {mode : Deep.Mode} {m : Mem} (h : ready e mode m = true) {s : List UInt8} (hc : CDecl.cdecl (world forms) e = .ok (some s))
    (he : fin (world forms) 100 e = some e) : ∃ M, mapOf mode m ⟨e, 100⟩ = some M ∧ M.top.val = ⟨e, 100⟩ ∧
    Deep.memoryMap (copier forms limit).deep id mode (world forms) m (some ⟨e, 100⟩) = .ok (some M) ∧ Copyable (copier forms limit) mode (world forms) m M ∧
    Room (copier forms limit) mode (world forms) m M ⟨e, 600⟩ := by
  unfold ready at h
  split at h
  · cases h
  next M hM =>
  simp only [Bool.and_eq_true, decide_eq_true_eq] at h
  obtain ⟨⟨h1, h2⟩, h3⟩ := h
  have hn : (forms.all fun e => match e.info with | .qual .const _ => false | _ => true) = true := by decide
  exact ⟨M, hM, h1, mapOf_sound hM, copyable_of (limit := limit) hn h2, room_of (limit := limit) hn h2 h3 (f := e) (by rw [h1]; exact he) he hc⟩

/-- The allocator serves the requests. -/
def servesB (calloc : State → Nat → Nat → Option Nat) : State → List Nat → Bool
  | _, [] => true
  | st, n :: l =>
    match calloc st 1 n with
    | none => false
    | some a => servesB calloc ⟨fun x => if a ≤ x ∧ x < a + n then some 0 else st.m x, (a, n) :: st.live⟩ l

theorem serves_of {calloc : State → Nat → Nat → Option Nat} : ∀ {l : List Nat} {st : State}, servesB calloc st l = true → Serves calloc st l
  | [], _, _ => trivial
  | n :: l, st, h => by
    unfold servesB at h
    split at h
    · cases h
    · next a ha => exact ⟨a, ha, serves_of h⟩

/-- There is memory for the copy. -/
def served (e : Entry.Ref) (limit : Nat) (mode : Deep.Mode) (m : Mem) : Bool :=
  match mapOf mode m ⟨e, 100⟩ with
  | none => false
  | some M => servesB (bump limit) ⟨m, []⟩ (blockSizes id M)

/-- There is not. -/
def starved (e : Entry.Ref) (limit : Nat) (mode : Deep.Mode) (m : Mem) : Bool :=
  match mapOf mode m ⟨e, 100⟩ with
  | none => false
  | some M => match preallocate (copier forms limit) M M.map [] ⟨m, []⟩ with | .ok (false, _) => true | _ => false

/-- A node at 100 whose data is its own number. -/
def own : Mem := words [(100, 0), (108, 116), (116, 7), (600, 0), (608, 0), (616, 0)]

theorem node_cdecl : CDecl.cdecl (world forms) 12 = .ok (some [115, 116, 114, 117, 99, 116, 32, 110, 32, 37, 115]) := CDecl.no_dep rfl

theorem own_ready : ready 12 drop own = true := by decide +kernel
theorem ring_ready : ready 15 drop ring = true := by decide +kernel
theorem row_ready : ready 15 strict row = true := by decide +kernel

end Verif.DeepCopy.Example
