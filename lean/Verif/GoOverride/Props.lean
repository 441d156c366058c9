import Verif.GoOverride.Lemmas
/-
Properties of merging configuration overrides (C47).
-/
namespace Verif.GoOverride
open Verif Spec

/-! Concrete configurations: `{a: {x: 1, y: 2}, b: 3}` and `{a: {x: 7, z: null}, c: 4}`. -/

def kA : Key := [97]
def kB : Key := [98]
def kC : Key := [99]
def kX : Key := [120]
def kY : Key := [121]
def kZ : Key := [122]

def exIn : Table := .cons kA (.table (.cons kX (.other 1) (.cons kY (.other 2) .nil))) (.cons kB (.other 3) .nil)
def exOv : Table := .cons kA (.table (.cons kX (.other 7) (.cons kZ .null .nil))) (.cons kC (.other 4) .nil)

theorem not_has_nil {k : Key} {v : Val} : ¬ Has .nil k v := fun h => nomatch h

theorem not_has_cons {k k' : Key} {v v' : Val} {rest : Table} (hk : k' ≠ k) (h : ¬ Has rest k v) : ¬ Has (.cons k' v' rest) k v := by
  intro h'
  cases h' with
  | here => exact hk rfl
  | there h' => exact h h'

theorem exIn_map : Map exIn := by
  refine .cons (fun w => not_has_cons (by decide) not_has_nil) ?_ (.cons (fun w => not_has_nil) (by simp) .nil)
  rintro t h
  cases h
  exact .cons (fun w => not_has_cons (by decide) not_has_nil) (by simp) (.cons (fun w => not_has_nil) (by simp) .nil)

theorem exOv_map : Map exOv := by
  refine .cons (fun w => not_has_cons (by decide) not_has_nil) ?_ (.cons (fun w => not_has_nil) (by simp) .nil)
  rintro t h
  cases h
  exact .cons (fun w => not_has_cons (by decide) not_has_nil) (by simp) (.cons (fun w => not_has_nil) (by simp) .nil)

/-- C47: merging an override always succeeds and gives a map.  At every path the result reads as
the override where the override has anything there (null included), and otherwise as the
original, unless the override has a non-table on the way. -/
theorem C47_merge (inp ov : Table) (hi : Map inp) (ho : Map ov) :
    ∃ r, merge inp (some ov) = .ok r ∧ Map r ∧ ∀ p c, At r p c ↔ Merged inp ov p c := by
  refine ⟨_, rfl, ?_, ?_⟩
  · rw [mergeLoop_eq]; exact map_merge true ov inp ho hi
  · intro p c
    rw [mergeLoop_eq]
    exact at_merge p ov inp ho hi c

example : ∃ r, merge exIn (some exOv) = .ok r ∧ At r [kA, kX] (.other 7) ∧ At r [kA, kY] (.other 2) ∧ At r [kA, kZ] .null
    ∧ At r [kB] (.other 3) ∧ At r [kC] (.other 4) ∧ ¬ At r [kA, kX] (.other 1) := by
  obtain ⟨r, h, hm, hr⟩ := C47_merge exIn exOv exIn_map exOv_map
  cases h
  refine ⟨_, rfl, ?_, ?_, ?_, ?_, ?_, ?_⟩
  · exact .table (.here _ _ _) (.other (.here _ _ _))
  · exact .table (.here _ _ _) (.other (.there (.there (.here _ _ _))))
  · exact .table (.here _ _ _) (.null (.there (.here _ _ _)))
  · exact .other (.there (.there (.here _ _ _)))
  · exact .other (.there (.here _ _ _))
  · intro h
    have := at_fun hm h (.table (.here _ _ _) (.other (.here _ _ _)))
    cases this

/-- C47: merging an empty override changes nothing. -/
theorem C47_empty (inp : Table) (hi : Map inp) : ∃ r, merge inp (some .nil) = .ok r ∧ Same r inp := by
  obtain ⟨r, h, -, hr⟩ := C47_merge inp .nil hi .nil
  refine ⟨r, h, fun p c => ?_⟩
  rw [hr]
  have nothing : ∀ {q : List Key} {c' : Content}, At .nil q c' → q = [] ∧ c' = .table := by
    intro q c' h
    cases h with
    | root => exact ⟨rfl, rfl⟩
    | null h => exact absurd h not_has_nil
    | other h => exact absurd h not_has_nil
    | table h => exact absurd h not_has_nil
  constructor
  · rintro (h | ⟨h, -⟩)
    · obtain ⟨rfl, rfl⟩ := nothing h
      exact .root inp
    · exact h
  · intro h
    cases p with
    | nil => rw [at_nil.mp h]; exact .inl (.root _)
    | cons k p =>
      refine .inr ⟨h, ?_, ?_⟩
      · intro c' h'
        have := (nothing h').1
        simp at this
      · intro q r' c' _ _ h'
        exact (nothing h').2

example : ∃ r, merge exIn (some .nil) = .ok r ∧ At r [kA, kY] (.other 2) := by
  obtain ⟨r, h, hs⟩ := C47_empty exIn exIn_map
  exact ⟨r, h, (hs _ _).mpr (.table (.here _ _ _) (.other (.there (.here _ _ _))))⟩

/-- C47: merging a configuration into itself changes nothing. -/
theorem C47_self (inp : Table) (hi : Map inp) : ∃ r, merge inp (some inp) = .ok r ∧ Same r inp := by
  obtain ⟨r, h, -, hr⟩ := C47_merge inp inp hi hi
  refine ⟨r, h, fun p c => ?_⟩
  rw [hr]
  constructor
  · rintro (h | ⟨h, -⟩) <;> exact h
  · exact .inl

example : Map exIn := exIn_map

/-- C47: the result does not depend on the order in which the maps are visited: tables that
read the same (in particular the same map listed in another order) merge to tables that
read the same. -/
theorem C47_order (inp inp' ov ov' : Table) (hi : Map inp) (hi' : Map inp') (ho : Map ov) (ho' : Map ov')
    (si : Same inp inp') (so : Same ov ov') :
    ∃ r r', merge inp (some ov) = .ok r ∧ merge inp' (some ov') = .ok r' ∧ Same r r' := by
  obtain ⟨r, h, -, hr⟩ := C47_merge inp ov hi ho
  obtain ⟨r', h', -, hr'⟩ := C47_merge inp' ov' hi' ho'
  refine ⟨r, r', h, h', fun p c => ?_⟩
  rw [hr, hr']
  unfold Merged Open
  simp only [so _ _, si _ _]

/-- `exIn` visited in another order. -/
def exIn' : Table := .cons kB (.other 3) (.cons kA (.table (.cons kX (.other 1) (.cons kY (.other 2) .nil))) .nil)

theorem exIn'_map : Map exIn' := by
  refine .cons (fun w => not_has_cons (by decide) not_has_nil) (by simp) (.cons (fun w => not_has_nil) ?_ .nil)
  rintro t h
  cases h
  exact .cons (fun w => not_has_cons (by decide) not_has_nil) (by simp) (.cons (fun w => not_has_nil) (by simp) .nil)

theorem same_of_get {t t' : Table} (hm : Map t) (hm' : Map t') (h : ∀ k, t.get k = t'.get k) : Same t t' := by
  intro p c
  cases p with
  | nil => rw [at_nil, at_nil]
  | cons k p => rw [at_cons hm, at_cons hm', h]

example : Map exIn ∧ Map exIn' ∧ Same exIn exIn' ∧ Map exOv ∧ Same exOv exOv := by
  refine ⟨exIn_map, exIn'_map, same_of_get exIn_map exIn'_map ?_, exOv_map, fun _ _ => .rfl⟩
  intro k
  have hab : kA ≠ kB := by decide
  by_cases hA : kA = k
  · subst hA
    simp [exIn, exIn', Table.get, hab.symm]
  · simp [exIn, exIn', Table.get, hA]

theorem layered_append {inp r o : Table} (h : ∀ p c, At r p c ↔ Layered inp [o] p c) (l : List Table) :
    ∀ p c, Layered r l p c ↔ Layered inp (l ++ [o]) p c := by
  induction l with
  | nil => exact h
  | cons x l ih =>
    intro p c
    simp only [Layered, List.cons_append, ih]

/-- C47: with several overrides each wins over those before it and over the original. -/
theorem C47_all (inp : Table) (ovs : List Table) (hi : Map inp) (ho : ∀ o ∈ ovs, Map o) :
    ∃ r, mergeAll inp (ovs.map fun o => some (some o)) = .ok (some r) ∧ ∀ p c, At r p c ↔ Layered inp ovs.reverse p c := by
  induction ovs generalizing inp with
  | nil => exact ⟨inp, rfl, fun _ _ => .rfl⟩
  | cons o ovs ih =>
    obtain ⟨r, h, hm, hr⟩ := C47_merge inp o hi (ho o (by simp))
    obtain ⟨r', h', hr'⟩ := ih r hm (fun o' ho' => ho o' (by simp [ho']))
    refine ⟨r', ?_, ?_⟩
    · simp only [List.map_cons, mergeAll, h, Outcome.bind_ok]
      exact h'
    · intro p c
      rw [hr', List.reverse_cons]
      exact layered_append (fun p c => by rw [hr]; rfl) _ p c

example : ∃ r, mergeAll exIn [some (some exOv), some (some exIn)] = .ok (some r) ∧ At r [kA, kX] (.other 1) ∧ At r [kC] (.other 4) := by
  obtain ⟨r, h, hr⟩ := C47_all exIn [exOv, exIn] exIn_map (by simp [exIn_map, exOv_map])
  refine ⟨r, h, (hr _ _).mpr ?_, (hr _ _).mpr ?_⟩
  · exact .inl (.table (.here _ _ _) (.other (.here _ _ _)))
  · refine .inr ⟨.inl (.other (.there (.here _ _ _))), ?_, ?_⟩
    · intro c' h
      obtain ⟨v, hg, -⟩ := (at_cons exIn_map).mp h
      simp [exIn, Table.get, kA, kB, kC] at hg
    · rw [open_cons exIn_map]
      simp [exIn, Table.get, kA, kB, kC]

/-- C47: an override that does not decode stops the merge: nothing is returned, whatever comes
after it. -/
theorem C47_bad_override (inp : Table) (ovs : List Table) (rest : List (Option (Option Table))) :
    mergeAll inp (ovs.map (fun o => some (some o)) ++ none :: rest) = .ok none := by
  induction ovs generalizing inp with
  | nil => rfl
  | cons o ovs ih => simp only [List.map_cons, List.cons_append, mergeAll, merge, Outcome.bind_ok]; exact ih _

/-- The override text `null` decodes to a nil map: merging it into any non-empty configuration
panics. -/
theorem C47_null_override_panics (k : Key) (v : Val) (rest : Table) : merge (.cons k v rest) none = .abort := rfl

end Verif.GoOverride
