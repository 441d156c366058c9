import Verif.Queries.Props
import Verif.Value.PropsBase
import Verif.ValueString.Model
/-
C111: objects of all arithmetic types of C can be used.
-/
namespace Verif.Queries
open Verif Verif.Entry Verif.Entry.Spec Verif.Value Verif.Value.Spec Verif.Queries.Spec

/-- The two specifications of the arithmetic types say the same. -/
theorem describes_iff (db : Db) (x : Ref) (t : Ty) : Describes db x t ↔ IsArithmetic (db x) t := by
  have z : ∀ k : UInt64, k.toNat = 0 ↔ k = 0 := by
    intro k
    rw [← UInt64.toNat_inj]
    rfl
  have hn : typeName t = (arithmetic t).1 := by cases t <;> rfl
  have hs : Spec.sizeOf t = (arithmetic t).2.2 := by cases t <;> rfl
  have he : ∀ e, Encodes t e ↔ e ∈ (arithmetic t).2.1 := by
    intro e
    cases t <;> simp [Encodes, arithmetic]
  unfold Describes IsArithmetic
  simp only [hn, hs, he, z]
  constructor
  · rintro ⟨bs, be, h1, h2, h3, h4⟩
    exact ⟨bs, be, h1, h2, (Decidable.em (be = 0)).imp id h3, (Decidable.em (bs = 0)).imp id h4⟩
  · rintro ⟨bs, be, h1, h2, h3, h4⟩
    exact ⟨bs, be, h1, h2, fun h => h3.resolve_left h, fun h => h4.resolve_left h⟩

/-- An object described with a name that is none of the 17. -/
theorem unknown_name {db : Db} {x : Ref} {n : Name} (hn : (db x).name = some n) (h : ∀ t, (arithmetic t).1 ≠ n) (t : Ty) :
    ¬ Describes db x t := by
  rw [describes_iff]
  rintro ⟨_, _, _, h2, _⟩
  rw [hn] at h2
  exact h t (Option.some.inj h2).symm

/-- **C111, proved part.** For the 17 types: an object is recognised as its own type only, an
integer compares equal to itself and is read as a number if `int` can hold it. -/
theorem C111_known_partial (cfg : Plat) (db : Db) (hn : Named db) (m : Mem) (v : Value) (t : Ty) (a : Nat) (h : Object db m v t a) :
    (∀ u, valueIsTy db (some v) u = .ok (decide (u = t))) ∧
    (Integral t → equalBaseType cfg db m (some v) (some v) = .ok 1) ∧
    (Integral t → -2 ^ 31 ≤ intOf t a → intOf t a < 2 ^ 31 → (t = .bool → a ≤ 1) → num cfg db m (some v) = .ok (.ok (intOf t a))) := by
  have h0 := h
  obtain ⟨⟨x, qs, hf, hd⟩, hb, ha, hh, _⟩ := h
  refine ⟨fun u => ?_, fun hi => ?_, fun hi h1 h2 h3 => ?_⟩
  · obtain ⟨answer, e1, e2, e3, _⟩ := C110_arithmetic db v.entry (some x) qs hf (fun y s e hy hi => hn y s e hi)
    have ht : answer t = true := (e2 t).mpr ⟨x, rfl, (describes_iff db x t).mp hd⟩
    show isTy db (some v.entry) u = _
    rw [e1]
    congr 1
    by_cases hu : u = t
    · subst hu
      simpa using ht
    · simp only [hu, decide_false]
      cases hau : answer u with
      | false => rfl
      | true => exact absurd (e3 u t hau ht) hu
  · have := ((C27_equal cfg db hn m v v).1 t a a h0 h0).1 hi
    simpa using this
  · exact (C26_num_partial cfg db hn m v _ qs hf ha).1 x t a rfl hd hi hb hh h3 h1 h2

/-- An `int` object of the value area: recognised as `int` only, equal to itself, and a number. -/
example : (∀ u, valueIsTy Value.exDb (some ⟨1, 8⟩) u = .ok (decide (u = .int))) ∧
    num (exCfg true) Value.exDb (exMem fun _ => 1) (some ⟨1, 8⟩) = .ok (.ok 16843009) := by
  have h := C111_known_partial (exCfg true) Value.exDb exNamed _ _ .int _ (exObj 8 (by decide) (by decide) 1)
  have hn : intOf .int ((1 : UInt8).toNat * 16843009) = 16843009 := by decide +kernel
  refine ⟨h.1, ?_⟩
  rw [← hn]
  exact h.2.2 trivial (by rw [hn]; decide) (by rw [hn]; decide) (fun h => nomatch h)

/-- **C111 is false.** `signed char` (and so `int8_t`) is an arithmetic type of C that the library
does not know: whatever the object holds, no question is answered with yes, the object does not
compare equal to itself or to anything, is not copied, is not a number and has no text. -/
theorem C111_signed_char_false (cfg : Plat) (db : Db) (m : Mem) (v w : Value) (x : Ref) (qs : List Qual) (size : UInt64)
    (hnm : Named db) (h : Final db v.entry (some x) qs) (ha : v.addr ≠ 0) (hi : (db x).info = .base size 7)
    (hn : (db x).name = some (go! "signed char")) :
    isBaseType db (some v.entry) = some true ∧ (∀ t, valueIsTy db (some v) t = .ok false) ∧
    equalBaseType cfg db m (some v) (some w) = .ok (-95) ∧ copyBaseType cfg db m (some v) (some w) = .ok (false, m) ∧
    num cfg db m (some v) = .ok (.error (-95)) ∧
    ∀ env, ValueString.baseTypeString env db m v = .ok none := by
  have hno : ∀ t, (arithmetic t).1 ≠ go! "signed char" := by intro t; cases t <;> decide +kernel
  have hd : ∀ y t, some x = some y → ¬ Describes db y t := by
    intro y t hy
    cases hy
    exact unknown_name hn hno t
  have hty : ∀ t, isTy db (some v.entry) t = .ok false := by
    intro t
    obtain ⟨b, hb, hb'⟩ := isTy_base h hi hn t
    rw [hb]
    cases b with
    | false => rfl
    | true => exact absurd ((describes_iff db x t).mpr (hb'.mp rfl)) (hd x t rfl)
  refine ⟨((C110_types db v.entry _ qs h).yes .base).mpr ⟨x, rfl, .base hi⟩, hty, (C27_equal cfg db hnm m v w).2.2.1 _ qs h hd,
    (C27_copy cfg db hnm m v w).2.2.2 _ qs h hd, (C26_num_partial cfg db hnm m v _ qs h ha).2.2 (fun y t hy _ => hd y t hy) ?_, fun env => ?_⟩
  · intro y s e es hy
    cases hy
    rw [hi]
    simp
  · have : ∀ ts, ValueString.stringLoop env db m v ts = .ok none := by
      intro ts
      induction ts with
      | nil => rfl
      | cons t ts ih =>
        rw [ValueString.stringLoop, hty t]
        exact ih
    exact this _

/-! ### A concrete case -/

/-- `int`; `typedef int num`; `const num`; `const num *`; `struct { const num a; int8_t b; }`; its
members; `signed char`; `typedef signed char int8_t`; `void (*)(...)`'s function and its `...`. -/
def caseDb : Db := fun r =>
  if r = 0 then { info := .base 4 6, name := some (go! "int") }
  else if r = 1 then { info := .typedef (some 0), name := some (go! "num") }
  else if r = 2 then { info := .qual .const (some 1) }
  else if r = 3 then { info := .pointer (some 2) }
  else if r = 4 then { info := .struct .struct 8 [5, 6] }
  else if r = 5 then { info := .member { type := some 2 }, name := some (go! "a") }
  else if r = 6 then { info := .member { type := some 8, byteOffset := 4 }, name := some (go! "b") }
  else if r = 7 then { info := .base 1 7, name := some (go! "signed char") }
  else if r = 8 then { info := .typedef (some 7), name := some (go! "int8_t") }
  else if r = 9 then { info := .subroutine none [10] }
  else { info := .param true none }

theorem case_here {r : Ref} (h : ∀ t, ¬ Alias caseDb r t) : Final caseDb r (some r) [] := .here h
theorem case_member : Final caseDb 5 (some 0) [.const] :=
  .step (.member (m := { type := some 2 }) rfl) (.step (.qual rfl) (.step (.typedef rfl) (case_here (by
    intro t ha; cases ha <;> rename_i ha <;> exact absurd ha (by simp [caseDb])))))
theorem case_int8 : Final caseDb 6 (some 7) [] :=
  .step (.member (m := { type := some 8, byteOffset := 4 }) rfl) (.step (.typedef rfl) (case_here (by
    intro t ha; cases ha <;> rename_i ha <;> exact absurd ha (by simp [caseDb]))))
theorem case_function : Final caseDb 9 (some 9) [] := case_here (by
    intro t ha; cases ha <;> rename_i ha <;> exact absurd ha (by simp [caseDb]))
theorem case_named : Named caseDb := by
  intro r bs be h
  unfold caseDb at h ⊢
  split
  · simp
  split
  · simp
  split
  · simp_all
  split
  · simp_all
  split
  · simp_all
  split
  · simp
  split
  · simp
  split
  · simp
  split
  · simp
  split
  · simp_all
  · simp_all

/-- The member `a` is a base type, nothing else, and it is an `int`; the value of it is the same. -/
theorem C110_case : ask caseDb (some 5) .base = some true ∧ ask caseDb (some 5) .pointer = some false ∧
    askValue caseDb (some ⟨5, 64⟩) .base = some true ∧ isTy caseDb (some 5) .int = .ok true ∧ isTy caseDb (some 5) .uint = .ok false ∧
    baseTypeName caseDb (some 5) = some (some (go! "int")) ∧ isMember caseDb (some 5) = true ∧
    ask caseDb (some 9) .function = some true ∧ hasResult caseDb (some 9) = some false ∧ isUnspecifiedParameter caseDb (some 10) = true := by
  have h := C110_types caseDb 5 _ _ case_member
  have hb : ask caseDb (some 5) .base = some true := (h.yes .base).mpr ⟨0, rfl, .base rfl⟩
  have hf := C110_types caseDb 9 _ _ case_function
  obtain ⟨answer, a1, a2, a3, -⟩ := C110_arithmetic caseDb 5 _ _ case_member (fun x s e _ hi => case_named x s e hi)
  have hint : answer .int = true := (a2 .int).mpr ⟨0, rfl, 4, 6, rfl, rfl, .inr (by decide), .inr (by decide)⟩
  refine ⟨hb, ?_, ?_, ?_, ?_, ?_, rfl, (hf.yes .function).mpr ⟨9, rfl, .prototype rfl⟩, ?_, rfl⟩
  · obtain ⟨b, hp⟩ := h.told .pointer
    cases b with
    | false => exact hp
    | true => exact absurd (h.once _ _ hb hp) (by decide)
  · rw [(C110_values caseDb (some ⟨5, 64⟩)).1 .base]
    exact hb
  · rw [a1, hint]
  · rw [a1]
    cases hu : answer .uint with
    | false => rfl
    | true => exact absurd (a3 _ _ hint hu) (by decide)
  · exact ((C110_details caseDb 5 _ _ case_member).1 0 4 6 rfl rfl).1
  · exact (C110_details caseDb 9 _ _ case_function).2.2.2.2.1 9 none [10] rfl (.inr rfl)

/-- The member `b`, an `int8_t`, cannot be compared with itself, although it is there. -/
theorem C111_case (cfg : Plat) (m : Mem) : equalBaseType cfg caseDb m (some ⟨6, 68⟩) (some ⟨6, 68⟩) = .ok (-95) :=
  (C111_signed_char_false cfg caseDb m ⟨6, 68⟩ ⟨6, 68⟩ 7 [] 1 case_named case_int8 (by decide) rfl rfl).2.2.1

end Verif.Queries
