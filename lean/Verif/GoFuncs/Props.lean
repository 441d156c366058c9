import Verif.GoFuncs.Lemmas
/-
Theorems about the functions of templates: C119.
-/
namespace Verif.GoFuncs
open Verif.GoFuncs.Spec

/-- C119 (partial: see `C119_skip_false`).  In whatever order the generic functions are gone
through, afterwards exactly these functions are found: the generic ones under their names, and
under other names those that were there before.  A message is logged for each name that was there,
and for no other.  A nil map is left alone. -/
theorem C119_append_partial {F : Type} (generic order : List (String × Option F)) (hg : Proper generic) (ho : order.Perm generic)
    (m : FuncMap F) (hm : Proper m) :
    ∃ m' log, appendFuncs order (some m) = (some m', log) ∧ Proper m' ∧ (∀ k f, (k, f) ∈ m' ↔ Added generic m k f) ∧
      (∀ k, k ∈ log ↔ (∃ f, (k, f) ∈ m) ∧ ∃ g, (k, some g) ∈ generic) ∧ appendFuncs order (none : Option (FuncMap F)) = (none, []) := by
  have ho' : Proper order := (ho.map Prod.fst).nodup_iff.2 hg
  obtain ⟨i1, i2, i3⟩ := appendLoop_spec order ho' m hm []
  refine ⟨_, _, rfl, i1, fun k f => ?_, fun k => ?_, rfl⟩
  · rw [i2]
    constructor
    · rintro (h | ⟨h1, h2⟩)
      · exact .new (ho.mem_iff.1 h)
      · exact .old h1 fun g hg => h2 g (ho.mem_iff.2 hg)
    · rintro (h | ⟨h1, h2⟩)
      · exact .new (ho.mem_iff.2 h)
      · exact .old h1 fun g hg => h2 g (ho.mem_iff.1 hg)
  · rw [i3]
    simp [ho.mem_iff]

/-- C119 is false of the code for a name that is there already: it is replaced although the
message says that it is skipped, in every case in which the two functions differ. -/
theorem C119_skip_false {F : Type} (generic order : List (String × Option F)) (hg : Proper generic) (ho : order.Perm generic)
    (m : FuncMap F) (hm : Proper m) (k : String) (f g : F) (h1 : (k, f) ∈ m) (h2 : (k, some g) ∈ generic) (hne : f ≠ g) :
    ∃ m' log, appendFuncs order (some m) = (some m', log) ∧ k ∈ log ∧ Skipping generic m k f ∧ (k, f) ∉ m' ∧ (k, g) ∈ m' := by
  obtain ⟨m', log, e, _, i2, i3, _⟩ := C119_append_partial generic order hg ho m hm
  refine ⟨m', log, e, (i3 k).2 ⟨⟨f, h1⟩, g, h2⟩, .old h1, fun h => ?_, (i2 k g).2 (.new h2)⟩
  rcases (i2 k f).1 h with h | ⟨_, h⟩
  · have h3 : (generic.map Prod.fst).Nodup := hg
    have : some f = some g := pair_unique h3 h h2
    exact hne (Option.some.inj this)
  · exact h g h2

/-- C119: a template is parsed with the functions of its factory, in whatever order they are
copied; `include` is the template's own one exactly if the factory allows it. -/
theorem C119_instance {F : Type} (factory order : List (String × F)) (hf : Proper factory) (ho : order.Perm factory) (enable : Bool) (inc : F) :
    Proper (instanceFuncs order enable inc) ∧ ∀ k f, (k, f) ∈ instanceFuncs order enable inc ↔
      (enable = true ∧ k = "include" ∧ f = inc) ∨ ((enable = true → k ≠ "include") ∧ (k, f) ∈ factory) := by
  have ho' : Proper order := (ho.map Prod.fst).nodup_iff.2 hf
  obtain ⟨c1, c2⟩ := copyLoop_spec order ho' [] (by simp [Proper]) (by simp)
  cases enable with
  | false =>
    refine ⟨c1, fun k f => ?_⟩
    show (k, f) ∈ copyLoop order [] ↔ _
    rw [c2]
    simp [ho.mem_iff]
  | true =>
    refine ⟨proper_set c1 _ _, fun k f => ?_⟩
    show (k, f) ∈ set (copyLoop order []) "include" inc ↔ _
    rw [mem_set c1, c2]
    simp [ho.mem_iff]

/-- The hypotheses are met: one name is there already, one function is nil. -/
theorem case119 : Proper [("a", some 1), ("b", none), ("c", some 3)] ∧ Proper [("a", 7), ("d", 8)] ∧
    appendFuncs [("a", some 1), ("b", none), ("c", some 3)] (some [("a", 7), ("d", 8)]) = (some [("a", 1), ("d", 8), ("c", 3)], ["a"]) ∧
    instanceFuncs [("include", 1), ("d", 8)] true 5 = [("include", 5), ("d", 8)] := by
  refine ⟨by simp [Proper], by simp [Proper], by decide +kernel, by decide +kernel⟩

end Verif.GoFuncs
