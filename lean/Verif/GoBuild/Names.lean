import Verif.GoBuild.Lemmas
/-
Names of base types.
-/
namespace Verif.GoBuild
open GoMeta (Str)
open GoDedup (Go)
open Spec (ctype NameOf)

theorem lookup_mem {α β : Type} [BEq α] [LawfulBEq α] {a : α} {v : β} : ∀ {l : List (α × β)}, l.lookup a = some v → (a, v) ∈ l
  | (k, w) :: l, h => by
    rw [List.lookup_cons] at h
    by_cases hk : a = k
    · simp [hk] at h
      simp [hk, h]
    · have : (a == k) = false := by simp [hk]
      rw [this] at h
      simp [lookup_mem h]

/-- Every entry of the table is right. -/
theorem synonyms_ctype : ∀ e ∈ synonyms, ctype e.1 ≠ none ∧ ctype e.2 = ctype e.1 := by decide +kernel

theorem synonyms_complex : ∀ e ∈ synonyms, e.2 ≠ go! "complex" := by decide +kernel

theorem deSynonim_cases (n : Str) : deSynonim n = n ∨ ((n, deSynonim n) ∈ synonyms) := by
  unfold deSynonim
  cases h : synonyms.lookup n with
  | none => exact .inl rfl
  | some m => exact .inr (lookup_mem h)

theorem deSynonim_complex {n : Str} (h : deSynonim n = go! "complex") : n = go! "complex" := by
  rcases deSynonim_cases n with h1 | h1
  · rw [← h1, h]
  · exact absurd h (synonyms_complex _ h1)

theorem deSynonim_name {n : Str} (h : n ≠ go! "complex") (size : Option Int) : NameOf size n (deSynonim n) := by
  rcases deSynonim_cases n with h1 | h1
  · rw [h1]; exact .same h
  · obtain ⟨h2, h3⟩ := synonyms_ctype _ h1
    cases ht : ctype n with
    | none => exact absurd ht h2
    | some t => exact .other ht (by rw [← ht]; exact h3)

theorem baseName_ok {n : Str} {size : Option Int} (h : n = go! "complex" → size = some 8 ∨ size = some 16 ∨ size = some 32) :
    ∃ nm, baseName n size = Go.ret nm ∧ NameOf size n nm := by
  unfold baseName
  split
  · rename_i hd
    have hn := deSynonim_complex hd
    rcases h hn with h | h | h <;> subst h
    · exact ⟨_, rfl, .cfloat hn rfl⟩
    · exact ⟨_, rfl, .cdouble hn rfl⟩
    · exact ⟨_, rfl, .cldouble hn rfl⟩
  · rename_i hd
    exact ⟨_, rfl, deSynonim_name (fun hn => hd (by rw [hn]; rfl)) size⟩

/-- The text form of an encoding is its name in DWARF. -/
theorem encodingString_eq {v : Int} {s : Str} (h : Spec.encodings.lookup v = some s) : encodingString v = s := by
  have := lookup_mem h
  have all : ∀ e ∈ Spec.encodings, encodingString e.1 = e.2 := by decide +kernel
  exact all _ this

end Verif.GoBuild
