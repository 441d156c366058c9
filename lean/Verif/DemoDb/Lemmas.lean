import Verif.DemoDb.Spec
/-
Lemmas for the database of the demo.
-/
namespace Verif.DemoDb
open Verif Verif.Heap Verif.DemoDb.Spec

variable {base : Nat → Bool}

theorem free_name {q : Ptr} {s : Option Str} (hq : Name s q) {h : Heap} {rest : List Nat} (o : Owns base h (Ptr.blocks q ++ rest)) :
    ∃ h', freeName q h = .ok h' ∧ Owns base h' rest ∧ h'.fails = h.fails := by
  cases hq with
  | none => exact ⟨h, rfl, o, rfl⟩
  | some b s => exact o.free

theorem free_cell {p : Person} {c : Cell} (hc : Is p c) {h : Heap} {rest : List Nat} (o : Owns base h (Cell.blocks c ++ rest)) :
    ∃ h' h'', freeName c.first h = .ok h' ∧ freeName c.last h' = .ok h'' ∧ Owns base h'' rest ∧ h''.fails = h.fails := by
  unfold Cell.blocks at o
  rw [List.append_assoc] at o
  obtain ⟨h', e1, o1, f1⟩ := free_name hc.first o
  obtain ⟨h'', e2, o2, f2⟩ := free_name hc.last o1
  exact ⟨h', h'', e1, e2, o2, f2.trans f1⟩

theorem dup_name (s : Option Str) {h : Heap} {bs : List Nat} (o : Owns base h bs) :
    (∃ q h', dupName s h = (some q, h') ∧ Name s q ∧ Owns base h' (Ptr.blocks q ++ bs) ∧ h'.fails = h.fails) ∨
    (∃ h', dupName s h = (none, h') ∧ Owns base h' bs ∧ h'.fails = h.fails ∧ ∃ k, h.fails k = true) := by
  cases s with
  | none => exact .inl ⟨.null, h, rfl, .none, o, rfl⟩
  | some s =>
    rcases e : h.alloc with ⟨_ | b, h'⟩
    · obtain ⟨o', f, k⟩ := o.alloc_none e
      exact .inr ⟨h', by simp [dupName, strdup, e], o', f, k⟩
    · obtain ⟨o', f⟩ := o.alloc_some e
      exact .inl ⟨.own b s, h', by simp [dupName, strdup, e], .some b s, o', f⟩

theorem read_at {d : Db} {L : List Person} (hd : Holds d L) {i : Nat} {p : Person} (hi : L[i]? = some p) :
    ∃ c, d.read i = .ok c ∧ d.data[i]? = some c ∧ Is p c := by
  obtain ⟨c, h1, h2⟩ := hd.records i p hi
  have hl := (List.getElem?_eq_some_iff.1 h1).1
  have := hd.room
  exact ⟨c, by unfold Db.read; rw [if_pos (by omega), h1], h1, h2⟩

theorem written {d : Db} {L : List Person} (hd : Holds d L) : d.count ≤ d.data.length := by
  rw [hd.count]
  rcases Nat.lt_or_ge d.data.length L.length with h | h
  · have : L[d.data.length]? = some (L[d.data.length]) := List.getElem?_eq_getElem h
    obtain ⟨c, h1, _⟩ := hd.records _ _ this
    simp at h1
  · exact h

end Verif.DemoDb
