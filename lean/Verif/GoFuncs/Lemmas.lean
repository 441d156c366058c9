import Verif.GoFuncs.Spec
/-
Lemmas about maps of functions.
-/
namespace Verif.GoFuncs
open Verif.GoFuncs.Spec

theorem mem_set {F : Type} {m : FuncMap F} (hm : Proper m) (k : String) (v : F) (k' : String) (v' : F) :
    (k', v') ∈ set m k v ↔ (k' = k ∧ v' = v) ∨ (k' ≠ k ∧ (k', v') ∈ m) := by
  induction m with
  | nil => simp [set]
  | cons p m ih =>
    obtain ⟨k1, v1⟩ := p
    have hm' : k1 ∉ m.map Prod.fst ∧ (m.map Prod.fst).Nodup := List.nodup_cons.1 hm
    simp only [set]
    by_cases h : k1 = k
    · subst h
      have hn : ∀ v', (k1, v') ∉ m := fun v' hv => hm'.1 (List.mem_map.2 ⟨_, hv, rfl⟩)
      rw [if_pos rfl]
      simp only [List.mem_cons, Prod.mk.injEq]
      constructor
      · rintro (h | h)
        · exact .inl h
        · refine .inr ⟨?_, .inr h⟩
          rintro rfl
          exact hn _ h
      · rintro (h | ⟨h1, ⟨h2, _⟩ | h2⟩)
        · exact .inl h
        · exact absurd h2 h1
        · exact .inr h2
    · rw [if_neg h]
      simp only [List.mem_cons, Prod.mk.injEq, ih hm'.2]
      constructor
      · rintro (⟨rfl, rfl⟩ | h1 | h1)
        · exact .inr ⟨h, .inl ⟨rfl, rfl⟩⟩
        · exact .inl h1
        · exact .inr ⟨h1.1, .inr h1.2⟩
      · rintro (h1 | ⟨h1, h2 | h2⟩)
        · exact .inr (.inl h1)
        · exact .inl h2
        · exact .inr (.inr ⟨h1, h2⟩)

theorem key_set {F : Type} (m : FuncMap F) (k : String) (v : F) (k' : String) :
    k' ∈ (set m k v).map Prod.fst ↔ k' = k ∨ k' ∈ m.map Prod.fst := by
  induction m with
  | nil => simp [set]
  | cons p m ih =>
    obtain ⟨k1, v1⟩ := p
    simp only [set]
    by_cases h : k1 = k
    · subst h
      simp
    · rw [if_neg h, List.map_cons, List.mem_cons, ih, List.map_cons, List.mem_cons]
      constructor <;> (rintro (h | h | h) <;> simp [h])

theorem proper_set {F : Type} {m : FuncMap F} (hm : Proper m) (k : String) (v : F) : Proper (set m k v) := by
  induction m with
  | nil => simp [set, Proper]
  | cons p m ih =>
    obtain ⟨k1, v1⟩ := p
    have hm' : k1 ∉ m.map Prod.fst ∧ (m.map Prod.fst).Nodup := List.nodup_cons.1 hm
    simp only [set]
    by_cases h : k1 = k
    · subst h
      rw [if_pos rfl]
      exact hm
    · rw [if_neg h]
      refine List.nodup_cons.2 ⟨?_, ih hm'.2⟩
      rw [key_set]
      rintro (h1 | h1)
      · exact h h1
      · exact hm'.1 h1

theorem has_iff {F : Type} (m : FuncMap F) (k : String) : has m k = true ↔ k ∈ m.map Prod.fst := by
  simp [has]

theorem appendLoop_spec {F : Type} (gs : List (String × Option F)) (hg : Proper gs) (m : FuncMap F) (hm : Proper m) (log : List String) :
    Proper (appendLoop gs m log).1 ∧ (∀ k f, (k, f) ∈ (appendLoop gs m log).1 ↔ Added gs m k f) ∧
      (∀ k, k ∈ (appendLoop gs m log).2 ↔ k ∈ log ∨ ((∃ f, (k, f) ∈ m) ∧ ∃ g, (k, some g) ∈ gs)) := by
  induction gs generalizing m log with
  | nil =>
    refine ⟨hm, fun k f => ⟨fun h => .old h (by simp), ?_⟩, by simp [appendLoop]⟩
    rintro (h | ⟨h, _⟩)
    · simp at h
    · exact h
  | cons p gs ih =>
    obtain ⟨k1, o⟩ := p
    have hg' : k1 ∉ gs.map Prod.fst ∧ (gs.map Prod.fst).Nodup := List.nodup_cons.1 hg
    have hk1 : ∀ o', (k1, o') ∉ gs := fun o' h => hg'.1 (List.mem_map.2 ⟨_, h, rfl⟩)
    cases o with
    | none =>
      obtain ⟨i1, i2, i3⟩ := ih hg'.2 m hm log
      refine ⟨i1, fun k f => ?_, fun k => ?_⟩
      · show (k, f) ∈ (appendLoop gs m log).1 ↔ _
        rw [i2]
        constructor
        · rintro (h | ⟨h1, h2⟩)
          · exact .new (by simp [h])
          · exact .old h1 (by simpa using h2)
        · rintro (h | ⟨h1, h2⟩)
          · exact .new (by simpa using h)
          · exact .old h1 (by simpa using h2)
      · show k ∈ (appendLoop gs m log).2 ↔ _
        rw [i3]
        simp
    | some f1 =>
      obtain ⟨i1, i2, i3⟩ := ih hg'.2 (set m k1 f1) (proper_set hm k1 f1) (if has m k1 then log ++ [k1] else log)
      refine ⟨i1, fun k f => ?_, fun k => ?_⟩
      · show (k, f) ∈ (appendLoop gs (set m k1 f1) _).1 ↔ _
        rw [i2]
        constructor
        · rintro (h | ⟨h1, h2⟩)
          · exact .new (by simp [h])
          · rcases (mem_set hm k1 f1 k f).1 h1 with ⟨rfl, rfl⟩ | ⟨h3, h4⟩
            · exact .new (by simp)
            · exact .old h4 (by simpa [h3] using h2)
        · rintro (h | ⟨h1, h2⟩)
          · rcases List.mem_cons.1 h with h | h
            · cases h
              exact .old ((mem_set hm k1 f1 k1 f1).2 (.inl ⟨rfl, rfl⟩)) fun g => hk1 _
            · exact .new h
          · refine .old ((mem_set hm k1 f1 k f).2 (.inr ⟨?_, h1⟩)) fun g hg => h2 g (by simp [hg])
            rintro rfl
            exact h2 f1 (by simp)
      · show k ∈ (appendLoop gs (set m k1 f1) _).2 ↔ _
        rw [i3]
        have hset : (∃ f, (k, f) ∈ set m k1 f1) ↔ k = k1 ∨ ∃ f, (k, f) ∈ m := by
          have := key_set m k1 f1 k
          simpa [List.mem_map] using this
        rw [hset]
        have hhas : has m k1 = true ↔ ∃ f, (k1, f) ∈ m := by rw [has_iff]; simp [List.mem_map]
        by_cases hk : k = k1
        · subst hk
          have hno : ¬ ∃ g, (k, some g) ∈ gs := fun ⟨g, h⟩ => hk1 _ h
          by_cases hh : has m k = true
          · simp [hh, hhas.1 hh]
          · have : ¬ ∃ f, (k, f) ∈ m := fun h => hh (hhas.2 h)
            simp [hh, hno, this]
        · by_cases hh : has m k1 = true <;> simp [hh, hk]

theorem pair_unique {V : Type} {m : List (String × V)} (hm : (m.map Prod.fst).Nodup) {k : String} {v w : V} (h1 : (k, v) ∈ m) (h2 : (k, w) ∈ m) : v = w := by
  induction m with
  | nil => simp at h1
  | cons p m ih =>
    have hm' := List.nodup_cons.1 hm
    rcases List.mem_cons.1 h1 with rfl | h1' <;> rcases List.mem_cons.1 h2 with h2' | h2'
    · exact (Prod.mk.inj h2').2.symm
    · exact absurd (List.mem_map.2 ⟨_, h2', rfl⟩) hm'.1
    · subst h2'
      exact absurd (List.mem_map.2 ⟨_, h1', rfl⟩) hm'.1
    · exact ih hm'.2 h1' h2'

theorem copyLoop_spec {F : Type} (order : List (String × F)) (ho : Proper order) (m : FuncMap F) (hm : Proper m)
    (hd : ∀ k f g, (k, f) ∈ order → (k, g) ∉ m) :
    Proper (copyLoop order m) ∧ ∀ k f, (k, f) ∈ copyLoop order m ↔ (k, f) ∈ order ∨ (k, f) ∈ m := by
  induction order generalizing m with
  | nil => exact ⟨hm, by simp [copyLoop]⟩
  | cons p order ih =>
    obtain ⟨k1, v1⟩ := p
    have ho' : k1 ∉ order.map Prod.fst ∧ (order.map Prod.fst).Nodup := List.nodup_cons.1 ho
    obtain ⟨i1, i2⟩ := ih ho'.2 (set m k1 v1) (proper_set hm k1 v1) (by
      intro k f g h1 h2
      rcases (mem_set hm k1 v1 k g).1 h2 with ⟨rfl, _⟩ | ⟨_, h3⟩
      · exact ho'.1 (List.mem_map.2 ⟨_, h1, rfl⟩)
      · exact hd k f g (by simp [h1]) h3)
    refine ⟨i1, fun k f => ?_⟩
    show (k, f) ∈ copyLoop order (set m k1 v1) ↔ _
    rw [i2, mem_set hm, List.mem_cons, Prod.mk.injEq]
    constructor
    · rintro (h | h | h)
      · exact .inl (.inr h)
      · exact .inl (.inl h)
      · exact .inr h.2
    · rintro ((h | h) | h)
      · exact .inr (.inl h)
      · exact .inl h
      · refine .inr (.inr ⟨?_, h⟩)
        rintro rfl
        exact hd k v1 f (by simp) h

end Verif.GoFuncs
