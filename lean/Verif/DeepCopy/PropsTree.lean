import Verif.DeepCopy.Tree
import Verif.DeepCopy.PropsFails
/-
C30 for tree mode: the blocks of a copy that succeeded.
-/
namespace Verif.DeepCopy
open Verif Verif.Entry Verif.Entry.Spec Verif.Value Verif.Value.Spec Verif.Handlers Verif.ValueString.Spec Verif.Deep.Spec Verif.DeepCopy.Spec
open Verif.Deep (Node Map Table)

/-- C30: a copy in tree mode that succeeds has made one new block for each time a pointer was
followed, as long as what the pointer points to; the new blocks overlap neither each other nor
the blocks there were.
Partial: of data without lists of arguments.  Missing: that the blocks hold what the source holds. -/
theorem C30_tree_partial {env : Env} {order : Table → Table} {mode : Deep.Mode} {db : Db} (hs : Sane db) (hin : Interned env.vs db) (hh : Honest env.vs db) (ho : Order order)
    (ha : Allocator env.calloc) (hd : mode.dag = false) (src dst : Value) (M : Map) (st st' : State)
    (hm : Deep.memoryMap env.deep order mode db st.m (some src) = .ok (some M)) (hc : ∀ x, Within M.top x → ¬ Packed env.vs db x.val)
    (h : copyEx env order mode db st (some src) (some dst) = .ok (true, st')) :
    ∃ B, st'.live = B ++ st.live ∧ (B.map (·.2)).Perm ((targets M.top).map Node.size) ∧
      B.Pairwise (fun b c => b.1 + max b.2 1 ≤ c.1 ∨ c.1 + max c.2 1 ≤ b.1) ∧
      ∀ b ∈ B, ∀ c ∈ st.live, b.1 + max b.2 1 ≤ c.1 ∨ c.1 + max c.2 1 ≤ b.1 := by
  have ht := (Deep.map_facts (env := env.deep) hs hin hh ho hm).1
  simp only [copyEx] at h
  rw [ValueString.bind_ok_iff] at h
  obtain ⟨b, _, h⟩ := h
  split at h
  · cases h
  rw [hm] at h
  simp only [Outcome.bind_ok, hd, Bool.false_eq_true, if_false] at h
  exact node_grown ha hd (deep := env.deep) ht hc h

namespace Example
open Deep.World World

/-- A struct at 100; its first member points to a pointer at 200, which is NULL, and so is the
second. -/
def single : Mem := words [(100, 200), (108, 0), (200, 0), (600, 0), (608, 0)]

def singleTree : Node := (build handles trees single 30 [] ⟨6, 100⟩).get (by decide +kernel)

theorem single_build : build handles trees single 30 [] ⟨6, 100⟩ = some singleTree := (Option.some_get _).symm

def singleA : Node := .mk 2 ⟨4, 100⟩ 8 0 true [.mk 1 ⟨18, 200⟩ 8 0 false [.mk 0 ⟨2, 200⟩ 8 0 false []]]
def singleB : Node := .mk 3 ⟨5, 108⟩ 8 0 false []
def singleMap : Map := ⟨.mk 4 ⟨6, 100⟩ 16 0 false [singleA, singleB], [], []⟩

theorem single_number : (Deep.number singleTree 0).1 = singleMap.top := same_eq (by decide +kernel)

theorem single_map (limit : Nat) (c : Bool) : Deep.memoryMap (copier handles limit c).deep id trees (world handles) single (some ⟨6, 100⟩) = .ok (some singleMap) := by
  have := map_of handles_ok single_build (offs := []) (by rw [single_number]; decide +kernel)
  rw [single_number] at this
  exact this

theorem single_copy : ∃ st', copyEx (copier handles 1) id trees (world handles) ⟨single, []⟩ (some ⟨6, 100⟩) (some ⟨6, 600⟩) = .ok (true, st') ∧ st'.live = [(1000, 8)] := by
  have ht : sameType (world handles) ⟨6, 100⟩ ⟨6, 600⟩ = .ok true := same_types (f := 6) rfl rfl (CDecl.no_dep rfl)
  simp only [copyEx, ht, single_map, Outcome.bind_ok, Bool.true_eq_false, if_false]
  rw [if_neg (by decide)]
  have hal : alloc (copier handles 1) ⟨single, []⟩ 1 8 = some (1000, ⟨fill single 1000 8 (some 0), [(1000, 8)]⟩) := by
    have : (copier handles 1).calloc ⟨single, []⟩ 1 8 = some 1000 := by decide +kernel
    simp only [alloc, this]
    rfl
  obtain ⟨m', h1⟩ := handle_some (es := handles) (limit := 1) (mode := trees) (M := singleMap) (tbl := []) (outer := [⟨6, 600⟩]) (i := 2) (v := ⟨4, 100⟩) (s := 8) (d := ⟨4, 600⟩)
    (st := ⟨single, []⟩) (x := 3) (t := some 2) (e := some 2)
    (k := .mk 1 ⟨18, 200⟩ 8 0 false [.mk 0 ⟨2, 200⟩ 8 0 false []]) rfl rfl rfl rfl hal (by decide) (by decide) (by decide +kernel) rfl (by decide) (by decide +kernel) (by decide) (by decide)
    (ok := true) (fun m => ⟨m, array_of (x := 18) rfl (by decide) rfl (by intro u t h; cases h) (by decide) rfl (head_null (x := 2) rfl rfl rfl)⟩)
  have h2 := head_null (es := handles) (limit := 1) (c := false) (mode := trees) (M := singleMap) (tbl := []) (outer := [⟨6, 600⟩]) (i := 3) (v := ⟨5, 108⟩) (s := 8) (d := ⟨5, 608⟩)
    (st := ⟨m', [(1000, 8)]⟩) (x := 3) rfl rfl rfl
  refine ⟨⟨m', [(1000, 8)]⟩, ?_, rfl⟩
  show copyNode _ _ _ _ _ _ (.mk 4 ⟨6, 100⟩ 16 0 false [singleA, singleB]) _ _ = _
  unfold copyNode
  rw [head_parts (k := .mk 4 ⟨6, 100⟩ 16 0 false [singleA, singleB]) (x := 6) rfl (by decide) rfl (by intro u t h; cases h)]
  show (copyAll _ _ _ _ _ _ [singleA, singleB] [some ⟨4, 600⟩, some ⟨5, 608⟩] ⟨single, []⟩ >>= _) = _
  simp only [copyAll, singleA, h1, singleB, undo, Bool.true_eq_false, false_and, if_false, Outcome.bind_ok, Outcome.pure_eq, h2]
  rfl

/-- In a world of handles there are no lists of arguments. -/
theorem single_plain : ∀ x, Within singleMap.top x → ¬ Packed (copier handles 1).vs (world handles) x.val := by
  have key : ∀ x, Within singleMap.top x → x = singleMap.top ∨ x = singleA ∨ x = singleB ∨ x = .mk 1 ⟨18, 200⟩ 8 0 false [.mk 0 ⟨2, 200⟩ 8 0 false []] ∨ x = .mk 0 ⟨2, 200⟩ 8 0 false [] := by
    intro x hx
    induction hx with
    | top => exact .inl rfl
    | part _ hy ih =>
      rcases ih with rfl | rfl | rfl | rfl | rfl
      · rcases List.mem_cons.1 hy with rfl | hy
        · exact .inr (.inl rfl)
        · exact .inr (.inr (.inl (List.mem_singleton.1 hy)))
      · exact .inr (.inr (.inr (.inl (List.mem_singleton.1 hy))))
      · cases hy
      · exact .inr (.inr (.inr (.inr (List.mem_singleton.1 hy))))
      · cases hy
  rintro x hx ⟨u, t, h, -⟩
  rcases key x hx with rfl | rfl | rfl | rfl | rfl <;> cases h

/-- The hypotheses hold of that struct. -/
example : ∃ st' B, copyEx (copier handles 1) id trees (world handles) ⟨single, []⟩ (some ⟨6, 100⟩) (some ⟨6, 600⟩) = .ok (true, st') ∧
    st'.live = B ++ [] ∧ (B.map (·.2)).Perm ((targets singleMap.top).map Node.size) := by
  obtain ⟨st', h, _⟩ := single_copy
  obtain ⟨B, h1, h2, _⟩ := C30_tree_partial (world_sane handles_ok) (world_interned _) (world_honest _) Deep.Example.id_order (bump_allocator 1) rfl _ _ singleMap _ st'
    (single_map 1 false) single_plain h
  exact ⟨st', B, h, h1, h2⟩

end Example
end Verif.DeepCopy
