import Verif.Value.PropsObject
/-
Property theorems: comparing and copying enumerations (C25), refused values (C23, C27).
-/
namespace Verif.Value
open Verif Verif.Entry Verif.Entry.Spec Verif.Value.Spec

/-- An enumeration object of 1, 2, 4 or 8 bytes. -/
structure EnumObject (db : Db) (v : Value) (size : Nat) : Prop where
  type : ∃ x qs s enc es, Final db v.entry (some x) qs ∧ (db x).info = .enumeration s enc es ∧ s.toNat = size
  sizes : size = 1 ∨ size = 2 ∨ size = 4 ∨ size = 8
  nonNull : v.addr ≠ 0

/-- C25: two enumeration objects compare equal (1) exactly if they hold the same number, otherwise
different (0); what is no enumeration is refused with a negative code. -/
theorem C25_equal (db : Db) (m : Mem) (v1 v2 : Value) :
    (∀ s1 s2 n1 n2, EnumObject db v1 s1 → EnumObject db v2 s2 → Holds m v1.addr s1 n1 → Holds m v2.addr s2 n2 →
      (twos s1 n1 = twos s2 n2 → equalEnumeration db m (some v1) (some v2) = .ok 1) ∧
      (twos s1 n1 ≠ twos s2 n2 → equalEnumeration db m (some v1) (some v2) = .ok 0)) ∧
    (∀ f qs, Final db v1.entry f qs → v1.addr ≠ 0 → (∀ x size enc es, f = some x → (db x).info ≠ .enumeration size enc es) →
      ∀ w, equalEnumeration db m (some v1) w = .ok (-14)) ∧
    (∀ s1 n1 f qs, EnumObject db v1 s1 → Holds m v1.addr s1 n1 → Final db v2.entry f qs → v2.addr ≠ 0 →
      (∀ x size enc es, f = some x → (db x).info ≠ .enumeration size enc es) → equalEnumeration db m (some v1) (some v2) = .ok (-14)) ∧
    (∀ w, equalEnumeration db m none w = .ok (-14)) := by
  have get : ∀ {v s n}, EnumObject db v s → Holds m v.addr s n → enumeration db m (some v) = .ok (.ok (twos s n)) := by
    rintro v s n ⟨⟨x, qs, s', enc, es, hf, hi, rfl⟩, hs, h0⟩ hh
    exact (((C25_round_trip_partial db m v _ _ hf h0).1 x s' enc es rfl hi).1 hs).1 n hh
  refine ⟨?_, ?_, ?_, fun w => rfl⟩
  · intro s1 s2 n1 n2 h1 h2 hh1 hh2
    constructor <;> intro he <;> simp [equalEnumeration, get h1 hh1, get h2 hh2, he]
  · intro f qs hf h0 hno w
    simp [equalEnumeration, ((C25_round_trip_partial db m v1 f qs hf h0).2 hno).1]
  · intro s1 n1 f qs h1 hh1 hf h0 hno
    simp [equalEnumeration, get h1 hh1, ((C25_round_trip_partial db m v2 f qs hf h0).2 hno).1]

/-- C25: copying an enumeration succeeds for enumeration objects; afterwards the target holds the number
of the source if it can hold it (as it can if they have the same size), and nothing else is
changed.  Otherwise the copy is refused and nothing is changed. -/
theorem C25_copy (db : Db) (m : Mem) (v1 v2 : Value) :
    (∀ s1 s2 n1, EnumObject db v1 s1 → EnumObject db v2 s2 → Holds m v1.addr s1 n1 → (∀ k < s2, m (v2.addr + k) ≠ none) →
      ∃ m', copyEnumeration db m (some v1) (some v2) = .ok (true, m') ∧ OnlyChanged m m' v2.addr s2 ∧
        (∃ n : Nat, Holds m' v2.addr s2 n ∧ (n : Int) % 256 ^ s2 = twos s1 n1 % 256 ^ s2) ∧
        (-(2 ^ (8 * s2 - 1) : Int) ≤ twos s1 n1 ∧ twos s1 n1 < 2 ^ (8 * s2 - 1) → enumeration db m' (some v2) = .ok (.ok (twos s1 n1)))) ∧
    (∀ f qs, Final db v1.entry f qs → v1.addr ≠ 0 → (∀ x size enc es, f = some x → (db x).info ≠ .enumeration size enc es) →
      ∀ w, copyEnumeration db m (some v1) w = .ok (false, m)) ∧
    (∀ s1 n1 f qs, EnumObject db v1 s1 → Holds m v1.addr s1 n1 → Final db v2.entry f qs → v2.addr ≠ 0 →
      (∀ x size enc es, f = some x → (db x).info ≠ .enumeration size enc es) → copyEnumeration db m (some v1) (some v2) = .ok (false, m)) ∧
    (∀ w, copyEnumeration db m none w = .ok (false, m)) := by
  have get : ∀ {v s n}, EnumObject db v s → Holds m v.addr s n → enumeration db m (some v) = .ok (.ok (twos s n)) := by
    rintro v s n ⟨⟨x, qs, s', enc, es, hf, hi, rfl⟩, hs, h0⟩ hh
    exact (((C25_round_trip_partial db m v _ _ hf h0).1 x s' enc es rfl hi).1 hs).1 n hh
  refine ⟨?_, ?_, ?_, fun w => rfl⟩
  · rintro s1 s2 n1 h1 ⟨⟨x, qs, s', enc, es, hf, hi, rfl⟩, hs, h0⟩ hh1 hm
    obtain ⟨m', a, b, c, d⟩ := (((C25_round_trip_partial db m v2 _ _ hf h0).1 x s' enc es rfl hi).1 hs).2 hm (twos s1 n1)
    exact ⟨m', by simp [copyEnumeration, get h1 hh1, a], b, c, d⟩
  · intro f qs hf h0 hno w
    simp [copyEnumeration, ((C25_round_trip_partial db m v1 f qs hf h0).2 hno).1]
  · intro s1 n1 f qs h1 hh1 hf h0 hno
    simp [copyEnumeration, get h1 hh1, ((C25_round_trip_partial db m v2 f qs hf h0).2 hno).2]

/-- C23: NULL and objects that are no arrays have no number of elements: the code -EINVAL. -/
theorem C23_count_refused (db : Db) : valueElementCount db none = .ok (-22) ∧
    ∀ (v : Value) (f : Option Ref) (qs : List Qual), Final db v.entry f qs → (∀ x e count, f = some x → (db x).info ≠ .array e count) →
      valueElementCount db (some v) = .ok (-22) := by
  refine ⟨rfl, ?_⟩
  intro v f qs h hno
  have : finalOf db (some v.entry) isArray = some none := by
    refine finalOf_none h isArray ?_
    intro x hx
    cases hi : (db x).info with
    | array e c => exact absurd hi (hno x e c hx)
    | _ => rfl
  simp [valueElementCount, this]

/-- C27: a copy from or to NULL is refused, and a comparison with NULL. -/
theorem C27_null (cfg : Plat) (db : Db) (m : Mem) (v : Option Value) :
    copyBaseType cfg db m none v = .ok (false, m) ∧ copyBaseType cfg db m v none = .ok (false, m) := by
  refine ⟨rfl, ?_⟩
  cases v <;> rfl

/-! Witnesses: the enumeration of one byte with the entry 7, at 8 and at 9. -/
theorem exEnumObject (a : Nat) (h : a ≠ 0) : EnumObject exDb ⟨7, a⟩ 1 :=
  ⟨⟨7, _, _, _, _, exEnum, rfl, rfl⟩, by decide, h⟩

example : equalEnumeration exDb (exMem fun _ => 1) (some ⟨7, 8⟩) (some ⟨7, 9⟩) = .ok 1 :=
  ((C25_equal exDb _ ⟨7, 8⟩ ⟨7, 9⟩).1 1 1 1 1 (exEnumObject 8 (by decide)) (exEnumObject 9 (by decide)) ⟨by decide, by decide⟩ ⟨by decide, by decide⟩).1 rfl

example : ∃ m', copyEnumeration exDb (exMem fun _ => 1) (some ⟨7, 8⟩) (some ⟨7, 9⟩) = .ok (true, m') ∧ enumeration exDb m' (some ⟨7, 9⟩) = .ok (.ok 1) := by
  obtain ⟨m', a, _, _, b⟩ := (C25_copy exDb (exMem fun _ => 1) ⟨7, 8⟩ ⟨7, 9⟩).1 1 1 1 (exEnumObject 8 (by decide)) (exEnumObject 9 (by decide)) ⟨by decide, by decide⟩
    (fun k hk => exMapped _ _ (by show 8 ≤ 9 + k; omega) (by show 9 + k < 24; omega))
  exact ⟨m', a, b (by decide)⟩

end Verif.Value
