import Verif.DeepCopy.Fails
import Verif.DeepCopy.Example
/-
C30: deep copies.
-/
namespace Verif.DeepCopy
open Verif Verif.Entry Verif.Entry.Spec Verif.Value Verif.Value.Spec Verif.Handlers Verif.ValueString.Spec Verif.Deep.Spec Verif.DeepCopy.Spec
open Verif.Bitfield.Spec (Field)
open Verif.Deep (Node Map Table Keys Ids)

section
variable {env : Env} {order : Table → Table} {mode : Deep.Mode} {db : Db}

/-- C30: if a copy of shared data fails, whatever the data and at whatever point, all blocks
allocated for it have been released, and no others.  (In tree mode this is not so:
`C30_tree_leak_false`.) -/
theorem C30_failure (ha : Allocator env.calloc) (he : Each env.each) (hd : mode.dag = true) (src dst : Option Value) (st st' : State)
    (h : copyEx env order mode db st src dst = .ok (false, st')) : st'.live = st.live := by
  cases src with
  | none => cases h; rfl
  | some src =>
  cases dst with
  | none => cases h; rfl
  | some dst =>
  simp only [copyEx] at h
  rw [ValueString.bind_ok_iff] at h
  obtain ⟨b, _, h⟩ := h
  split at h
  · cases h; rfl
  rw [ValueString.bind_ok_iff] at h
  obtain ⟨o, _, h⟩ := h
  cases o with
  | none => cases h; rfl
  | some M =>
  simp only [hd, if_true] at h
  have hp := preallocate_spec ha M (order M.map) [] st (New.nil st)
  simp only [List.nil_append] at hp
  have et : Blocks.table [] = [] := rfl
  rw [et] at hp
  rcases hp with ⟨B, st₁, h1, h2, _⟩ | ⟨B, st₁, h1, h2, _⟩ | ⟨h1, _⟩
  · rw [h1] at h
    simp only [Outcome.bind_ok, Bool.true_eq_false, if_false] at h
    rw [ValueString.bind_ok_iff] at h
    obtain ⟨⟨ok, st₂⟩, h3, h⟩ := h
    have h4 := copyNode_live hd h3
    obtain ⟨st₃, h5, h6, _⟩ := h2.release he (st₂ := st₂) h4
    cases ok with
    | true => cases h
    | false =>
      simp only [Bool.false_eq_true, if_false, h5, Outcome.bind_ok] at h
      cases h
      exact h6
  · rw [h1] at h
    simp only [Outcome.bind_ok, if_true, h2.undo he] at h
    cases h
    rfl
  · rw [h1] at h
    cases h

/-- C30: data that can be copied is copied, or memory runs out.  Then everything is as it was.
Otherwise every object has been copied; what pointers point to has been copied once, to new
memory, as often as pointers point to it; and nothing else has changed.
Partial: this is for data without calls and lists of arguments, in which no member is declared
`const` and no two pointers point to the same inner object (`Copyable`); and with a destination
that is zero if unknown pointers are to fail or to be bytes (`Room`): see the theorems below. -/
theorem C30_copy_partial (hs : Sane db) (hin : Interned env.vs db) (hh : Honest env.vs db) (ho : Order order) (ha : Allocator env.calloc) (he : Each env.each)
    (hd : mode.dag = true) (hput : env.custom = true → ∀ t, env.put t = true) (src dst : Value) (M : Map) (st : State)
    (hm : Deep.memoryMap env.deep order mode db st.m (some src) = .ok (some M)) (hc : Copyable env mode db st.m M) (hr : Room env mode db st.m M dst) :
    (∃ st' W, copyEx env order mode db st (some src) (some dst) = .ok (true, st') ∧ Copied env mode db st M dst st' W) ∨
    (copyEx env order mode db st (some src) (some dst) = .ok (false, st) ∧
      (¬ Serves env.calloc st (blockSizes order M) ∨ ∃ t, env.put t = false)) := by
  have hv := (Deep.map_facts hs hin hh ho hm).2.1
  obtain ⟨f, qs, qs', s, f1, f2, f3⟩ := hr.type
  rw [hv] at f1
  have ht : sameType db src dst = .ok true := by
    simp [sameType, (Entry.final_entry f1), (Entry.final_entry f2), Outcome.ofLoop, f3]
  have hp := preallocate_spec ha M (order M.map) [] st (New.nil st)
  simp only [List.nil_append] at hp
  have et : Blocks.table [] = [] := rfl
  rw [et] at hp
  rcases hp with ⟨B, st₁, h1, h2, h3⟩ | ⟨B, st₁, h1, h2, h3⟩ | ⟨h1, h2, t, h3⟩
  · have S : Setup env order mode db st M dst st₁ B := ⟨hs, hin, hh, ho, hd, by rw [hv]; exact hm, hc, hr, h2, h3⟩
    obtain ⟨m', g1, g2, g3⟩ := S.run
    refine .inl ⟨⟨m', st₁.live⟩, place B, ?_, S.result g2 g3⟩
    simp [copyEx, ht, hm, hd, h1, g1]
  · refine .inr ⟨?_, ?_⟩
    · simp [copyEx, ht, hm, hd, h1, h2.undo he]
    · exact h3
  · rw [hput h2 t] at h3
    cases h3


/-- C30: values of types that are declared differently, or cannot be declared, are not copied,
and nothing is changed. -/
theorem C30_types (src dst : Value) (st : State) (f g : Ref) (qs qs' : List Qual) (s t : Option (List UInt8)) (hf : Final db src.entry (some f) qs) (hg : Final db dst.entry (some g) qs')
    (hs : CDecl.cdecl db f = .ok s) (ht : CDecl.cdecl db g = .ok t) (hne : s = none ∨ s ≠ t) : copyEx env order mode db st (some src) (some dst) = .ok (false, st) := by
  have hn : sameType db src dst = .ok false := by
    simp only [sameType, Entry.final_entry hf, Entry.final_entry hg, Outcome.ofLoop_some, Outcome.bind_ok, hs, ht]
    rcases hne with rfl | hne
    · rfl
    · simp [hne]
  simp only [copyEx, hn, Outcome.bind_ok, if_true]
  rfl
end

open Deep.World World Example
open Verif.Deep.Example (forms forms_ok mapOf)

/-- The ring is copied, and so is the row, if there is memory for three blocks. -/
theorem copies {e : Ref} {mode : Deep.Mode} (hd : mode.dag = true) {m : Mem} {t : List UInt8} (hc : CDecl.cdecl (world forms) e = .ok (some t)) (he : fin (world forms) 100 e = some e)
    (h : ready e mode m = true) (h' : served e 3 mode m = true) :
    ∃ M st' W, mapOf mode m ⟨e, 100⟩ = some M ∧ copyEx (copier forms 3) id mode (world forms) ⟨m, []⟩ (some ⟨e, 100⟩) (some ⟨e, 600⟩) = .ok (true, st') ∧
      Room (copier forms 3) mode (world forms) m M ⟨e, 600⟩ ∧ Copied (copier forms 3) mode (world forms) ⟨m, []⟩ M ⟨e, 600⟩ st' W := by
  obtain ⟨M, h1, _, h2, h3, h4⟩ := ready_spec 3 h hc he
  simp only [served, h1] at h'
  rcases C30_copy_partial (world_sane forms_ok) (world_interned _) (world_honest _) Deep.Example.id_order (bump_allocator 3) id_each hd (fun h => by cases h) _ _ M ⟨m, []⟩ h2 h3 h4 with
    ⟨st', W, h5, h6⟩ | ⟨_, h5 | ⟨_, h5⟩⟩
  · exact ⟨M, st', W, h1, h5, h4, h6⟩
  · exact absurd (serves_of h') h5
  · cases h5

example : ∃ M st' W, mapOf drop ring ⟨15, 100⟩ = some M ∧ copyEx (copier forms 3) id drop (world forms) ⟨ring, []⟩ (some ⟨15, 100⟩) (some ⟨15, 600⟩) = .ok (true, st') ∧
    Room (copier forms 3) drop (world forms) ring M ⟨15, 600⟩ ∧ Copied (copier forms 3) drop (world forms) ⟨ring, []⟩ M ⟨15, 600⟩ st' W :=
  copies rfl root_cdecl rfl ring_ready (by decide +kernel)

example : ∃ M st' W, mapOf strict row ⟨15, 100⟩ = some M ∧ copyEx (copier forms 3) id strict (world forms) ⟨row, []⟩ (some ⟨15, 100⟩) (some ⟨15, 600⟩) = .ok (true, st') ∧
    Room (copier forms 3) strict (world forms) row M ⟨15, 600⟩ ∧ Copied (copier forms 3) strict (world forms) ⟨row, []⟩ M ⟨15, 600⟩ st' W :=
  copies rfl root_cdecl rfl row_ready (by decide +kernel)

/-- With memory for two blocks the ring is not copied, and there are no blocks then. -/
theorem ring_starved : copyEx (copier forms 2) id drop (world forms) ⟨ring, []⟩ (some ⟨15, 100⟩) (some ⟨15, 600⟩) = .ok (false, ⟨ring, []⟩) := by
  obtain ⟨M, h1, _, h2, h3, h4⟩ := ready_spec 2 ring_ready root_cdecl rfl
  rcases C30_copy_partial (world_sane forms_ok) (world_interned _) (world_honest _) Deep.Example.id_order (bump_allocator 2) id_each rfl (fun h => by cases h) _ _ M ⟨ring, []⟩ h2 h3 h4 with
    ⟨st', W, h5, _⟩ | ⟨h5, _⟩
  · exfalso
    obtain ⟨tbl, st₁, h6, _⟩ := copyEx_true h2 h5
    have h7 : starved 15 2 drop ring = true := by decide +kernel
    simp only [starved, h1] at h7
    rw [show preallocate (copier forms 2) M M.map [] ⟨ring, []⟩ = .ok (true, tbl, st₁) from h6 rfl] at h7
    cases h7
  · exact h5

example : ∃ st', copyEx (copier forms 2) id drop (world forms) ⟨ring, []⟩ (some ⟨15, 100⟩) (some ⟨15, 600⟩) = .ok (false, st') ∧ st'.live = [] :=
  ⟨_, ring_starved, C30_failure (bump_allocator 2) id_each rfl _ _ _ _ ring_starved⟩

/-- A root is not copied to a node. -/
example : copyEx (copier forms 9) id drop (world forms) ⟨ring, []⟩ (some ⟨15, 100⟩) (some ⟨12, 600⟩) = .ok (false, ⟨ring, []⟩) := by
  have h1 : Final (world forms) 15 (some 15) [] := .here (fun t ht => by cases ht <;> contradiction)
  have h2 : Final (world forms) 12 (some 12) [] := .here (fun t ht => by cases ht <;> contradiction)
  exact C30_types ⟨15, 100⟩ ⟨12, 600⟩ _ 15 12 _ _ _ _ h1 h2 root_cdecl node_cdecl (.inr (by decide))

end Verif.DeepCopy
