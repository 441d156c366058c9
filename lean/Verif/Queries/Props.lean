import Verif.Entry.Lemmas
import Verif.Queries.Spec
/-
C110: what a type or value is said to be.
-/
namespace Verif.Queries
open Verif Verif.Entry Verif.Entry.Spec Verif.Value Verif.Queries.Spec

/-- The question about a type for each sort. -/
def ask (db : Db) (p : Option Ref) : Group → Option Bool
  | .base => isBaseType db p
  | .pointer => isPointerType db p
  | .members => hasMembers db p
  | .elements => hasElements db p
  | .enumeration => isEnumeration db p
  | .function => hasParameters db p

theorem is_unique {e : Entry} {s s' : Group} (h : Is e s) (h' : Is e s') : s = s' := by
  cases h <;> cases h' <;> simp_all

theorem leads_unique {db : Db} {f : Option Ref} {s s' : Group} (h : Leads db f s) (h' : Leads db f s') : s = s' := by
  obtain ⟨x, rfl, h⟩ := h
  obtain ⟨y, hy, h'⟩ := h'
  cases hy
  exact is_unique h h'

/-- The predicate on entries behind each question. -/
def want : Group → Info → Bool
  | .base => isBase
  | .pointer => Entry.isPointer
  | .members => isStruct
  | .elements => isArray
  | .enumeration => isEnum
  | .function => isFunc

theorem want_iff (e : Entry) (s : Group) : want s e.info = true ↔ Is e s := by
  constructor
  · intro h
    cases hi : e.info <;> cases s <;> simp [want, hi, isBase, Entry.isPointer, isStruct, isArray, isEnum, isFunc] at h <;>
      first
        | exact .base hi
        | exact .pointer hi
        | exact .members hi
        | exact .elements hi
        | exact .enumeration hi
        | exact .function hi
        | exact .prototype hi
  · intro h
    cases h <;> simp_all [want, isBase, Entry.isPointer, isStruct, isArray, isEnum, isFunc]

theorem ask_final {db : Db} {r : Ref} {f : Option Ref} {qs : List Qual} (h : Final db r f qs) (s : Group) :
    ask db (some r) s = some (keep db (want s) f).isSome := by
  have := finalOf_final h (want s)
  cases s <;> simp_all [ask, want, isBaseType, isPointerType, hasMembers, hasElements, isEnumeration, hasParameters]

theorem keep_isSome (db : Db) (f : Option Ref) (s : Group) : (keep db (want s) f).isSome = true ↔ Leads db f s := by
  cases f with
  | none => simp [keep, Leads]
  | some x =>
    have := want_iff (db x) s
    by_cases hw : want s (db x).info = true
    · simp [keep, hw, Leads, this.mp hw]
    · simp only [keep, hw, Leads]
      simp
      exact fun h => hw (this.mpr h)

/-- **C110.** However many typedefs, qualifiers, variables, members and parameters are passed
through, the six questions about a type are answered with yes or no, with yes exactly for the
sort of the type that is reached, and with yes at most once. -/
theorem C110_types (db : Db) (r : Ref) (f : Option Ref) (qs : List Qual) (h : Final db r f qs) : Answers db f (ask db (some r)) := by
  have hy : ∀ s, ask db (some r) s = some true ↔ Leads db f s := by
    intro s
    rw [ask_final h s, Option.some.injEq, keep_isSome]
  exact ⟨fun s => ⟨_, ask_final h s⟩, hy, fun s s' a b => leads_unique ((hy s).mp a) ((hy s').mp b)⟩

/-- NULL is of no sort. -/
theorem C110_null (db : Db) (s : Group) : ask db none s = some false := by
  cases s <;> rfl

/-- NULL has no name, parents, members, elements, parameters, target, result or details. -/
theorem C110_nothing (db : Db) :
    kind db none = -1 ∧ entryName db none = none ∧ parentCount db none = 0 ∧ (∀ k, parentEntry db none k = some none) ∧
    (∃ c, byteSize db none true = some (.error c) ∧ c < 0) ∧ (finalEntry db none).map Prod.fst = some none ∧
    memberCount db none = some (-22) ∧ (∀ n, ∃ c, memberNameToId db none n = some c ∧ c < 0) ∧ (∀ k, byMemberId db none k = some none) ∧
    elementCount db none = some (-22) ∧ elementEntry db none = some none ∧ pointerEntry db none = some none ∧
    (∀ v, enumerationToName db none v = some none) ∧ (∀ k, enumerationInfo db none k = some none) ∧
    enumerationInfoSize db none = some 0 ∧ parametersCount db none = some (-22) ∧ (∀ k, byParameterId db none k = some none) ∧ resultType db none = some none ∧
    baseTypeName db none = some none ∧ (∃ c, baseTypeByteSize db none = some (.error c) ∧ c < 0) ∧ (∃ c, baseTypeEncoding db none = some (.error c) ∧ c < 0) ∧
    isVoidPointer db none = some false ∧ isDeclarationPointer db none = some false ∧ isMember db none = false ∧
    isParameter db none = false ∧ isUnspecifiedParameter db none = false ∧ hasResult db none = some false := by
  have e : ∀ w, finalOf db none w = some none := fun _ => rfl
  have b : byteSize db none true = some (.error (-14)) := by simp [byteSize, byteSizeLoop]
  simp [b, e, kind, entryName, parentCount, parentEntry, finalEntry, memberCount, memberNameToId, byMemberId, elementCount, elementEntry,
    pointerEntry, enumerationToName, enumerationInfo, enumerationInfoSize, parametersCount, byParameterId, resultType, baseTypeName,
    baseTypeByteSize, baseTypeEncoding, isVoidPointer, isDeclarationPointer, isMember, isParameter, isUnspecifiedParameter, hasResult]


/-- **C110.** The details of a type are those recorded where the chain of aliases ends, and
there are none for types of other sorts. -/
theorem C110_details (db : Db) (r : Ref) (f : Option Ref) (qs : List Qual) (h : Final db r f qs) :
    (∀ x size enc, f = some x → (db x).info = .base size enc →
      baseTypeName db (some r) = some (db x).name ∧ baseTypeByteSize db (some r) = some (.ok size) ∧
      baseTypeEncoding db (some r) = some (.ok enc)) ∧
    (¬ Leads db f .base → baseTypeName db (some r) = some none ∧ baseTypeByteSize db (some r) = some (.error (-22)) ∧
      baseTypeEncoding db (some r) = some (.error (-22))) ∧
    (∀ x t, f = some x → (db x).info = .pointer t →
      isVoidPointer db (some r) = some t.isNone ∧ isDeclarationPointer db (some r) = some (t.elim false fun t => (db t).declaration)) ∧
    (¬ Leads db f .pointer → isVoidPointer db (some r) = some false ∧ isDeclarationPointer db (some r) = some false) ∧
    (∀ x t ps, f = some x → (db x).info = .subprogram t ps ∨ (db x).info = .subroutine t ps → hasResult db (some r) = some t.isSome) ∧
    (¬ Leads db f .function → hasResult db (some r) = some false) := by
  have e := fun s => finalOf_final h (want s)
  have no : ∀ s, ¬ Leads db f s → keep db (want s) f = none := by
    intro s hs
    have := keep_isSome db f s
    cases hk : keep db (want s) f with
    | none => rfl
    | some y => exact absurd (this.mp (by rw [hk]; rfl)) hs
  have eb := e .base
  have ep := e .pointer
  have ef := e .function
  simp only [want] at eb ep ef
  refine ⟨?_, ?_, ?_, ?_, ?_, ?_⟩
  · intro x size enc hx hi
    subst hx
    simp only [keep, hi, isBase, if_true] at eb
    simp [baseTypeName, baseTypeByteSize, baseTypeEncoding, eb, hi, entryName]
  · intro hn
    have := no _ hn
    simp only [want] at this
    rw [this] at eb
    simp [baseTypeName, baseTypeByteSize, baseTypeEncoding, eb]
  · intro x t hx hi
    subst hx
    simp only [keep, hi, Entry.isPointer, if_true] at ep
    cases t <;> simp [isVoidPointer, isDeclarationPointer, ep, hi]
  · intro hn
    have := no _ hn
    simp only [want] at this
    rw [this] at ep
    simp [isVoidPointer, isDeclarationPointer, ep]
  · intro x t ps hx hi
    subst hx
    rcases hi with hi | hi <;>
    · simp only [keep, hi, isFunc, if_true] at ef
      simp [hasResult, ef, hi]
  · intro hn
    have := no _ hn
    simp only [want] at this
    rw [this] at ef
    simp [hasResult, ef]

/-- **C110.** Whether something is a member or a parameter is a question about the entry itself,
not about its type: yes for these only; their types, places and the mark of `...` are the
recorded ones; NULL is neither. -/
theorem C110_places (db : Db) (r : Ref) :
    (isMember db (some r) = true ↔ ∃ m, (db r).info = .member m) ∧
    (isParameter db (some r) = true ↔ ∃ u t, (db r).info = .param u t) ∧
    (isUnspecifiedParameter db (some r) = true ↔ Dots db r) ∧
    (∀ t, memberEntry db (some r) = some t ↔ ∃ m, (db r).info = .member m ∧ m.type = some t) ∧
    (∀ t, parameterEntry db (some r) = some t ↔ (db r).info = .param false (some t)) ∧
    (∀ m, (db r).info = .member m → rawLocation db (some r) = .ok (m.byteOffset, m.byteSize, m.dataBitOffset, m.bitOffset, m.bitSize)) ∧
    ((∀ m, (db r).info ≠ .member m) → rawLocation db (some r) = .error (-22)) ∧
    isMember db none = false ∧ isParameter db none = false ∧ isUnspecifiedParameter db none = false ∧
    memberEntry db none = none ∧ parameterEntry db none = none ∧ rawLocation db none = .error (-22) := by
  refine ⟨?_, ?_, ?_, ?_, ?_, ?_, ?_, rfl, rfl, rfl, rfl, rfl, rfl⟩
  · rcases hi : (db r).info with _ | ⟨q, _⟩ | _ | _ | ⟨b, _, _⟩ | _ | _ | _ | ⟨k, _, _⟩ | _ | _ | _ | _ | _ | _ | _ | _
    all_goals first
      | (cases q <;> simp [isMember, kind, kindOf, hi]) | (cases b <;> simp [isMember, kind, kindOf, hi])
      | (cases k <;> simp [isMember, kind, kindOf, hi]) | simp [isMember, kind, kindOf, hi]
  · rcases hi : (db r).info with _ | ⟨q, _⟩ | _ | _ | ⟨b, _, _⟩ | _ | _ | _ | ⟨k, _, _⟩ | _ | _ | _ | _ | _ | _ | _ | _
    all_goals first
      | (cases q <;> simp [isParameter, kind, kindOf, hi]) | (cases b <;> simp [isParameter, kind, kindOf, hi])
      | (cases k <;> simp [isParameter, kind, kindOf, hi]) | simp [isParameter, kind, kindOf, hi]
  · simp only [isUnspecifiedParameter, Dots]
    cases hi : (db r).info <;> simp
  · intro t
    simp only [memberEntry]
    cases hi : (db r).info <;> simp
  · intro t
    simp only [parameterEntry]
    cases hi : (db r).info <;> simp
    rename_i u _
    cases u <;> simp
  · intro m hi
    simp [rawLocation, hi]
  · intro hn
    simp only [rawLocation]

/-! ### The arithmetic types -/

/-- The table of the code and the table of the specification agree. -/
theorem desc_arithmetic (t : Ty) :
    (desc t).1 = (arithmetic t).1 ∧ (desc t).2.2 = (arithmetic t).2.2 ∧
    ∀ enc, (enc = (desc t).2.1 ∨ (t = .char ∧ enc = 9)) ↔ enc ∈ (arithmetic t).2.1 := by
  refine ⟨?_, ?_, fun enc => ?_⟩ <;> cases t <;> first | rfl | simp [desc, arithmetic]

theorem names_differ (t u : Ty) (h : (arithmetic t).1 = (arithmetic u).1) : t = u := by
  cases t <;> cases u <;> first | rfl | exact absurd h (by decide +kernel)

theorem isTy_base {db : Db} {r x : Ref} {qs : List Qual} (h : Final db r (some x) qs) {size enc} (hi : (db x).info = .base size enc)
    {n : Name} (hn : (db x).name = some n) (t : Ty) : ∃ b, isTy db (some r) t = .ok b ∧ (b = true ↔ IsArithmetic (db x) t) := by
  have hb : finalOf db (some r) isBase = some (some x) := by simpa [keep, hi, isBase] using finalOf_final h isBase
  have hc : ∀ name e s, checkBaseType db (some r) name e s =
      some (.ok (if n = name ∧ (enc = 0 ∨ enc = e) ∧ (size = 0 ∨ size = s) then 0 else -22)) := by
    intro name e s
    simp [checkBaseType, hb, checkBase, hi, hn]
  obtain ⟨d1, d2, d3⟩ := desc_arithmetic t
  have hs : ∀ k : UInt64, (k = 0 ∨ k = UInt64.ofNat (desc t).2.2) ↔ (k.toNat = 0 ∨ k.toNat = (arithmetic t).2.2) := by
    intro k
    have : (UInt64.ofNat (desc t).2.2).toNat = (arithmetic t).2.2 := by cases t <;> rfl
    rw [← this, ← UInt64.toNat_inj, ← UInt64.toNat_inj]
    rfl
  have ha : IsArithmetic (db x) t ↔ (n = (desc t).1 ∧ (enc = 0 ∨ enc = (desc t).2.1 ∨ (t = .char ∧ enc = 9)) ∧
      (size = 0 ∨ size = UInt64.ofNat (desc t).2.2)) := by
    rw [hs, d3, d1]
    constructor
    · rintro ⟨s, e, h1, h2, h3, h4⟩
      rw [hi] at h1
      rw [hn] at h2
      cases h1
      cases h2
      exact ⟨rfl, h3, h4⟩
    · rintro ⟨h2, h3, h4⟩
      exact ⟨size, enc, hi, by rw [hn, h2], h3, h4⟩
  rw [ha]
  by_cases h1 : n = (desc t).1 ∧ (enc = 0 ∨ enc = (desc t).2.1) ∧ (size = 0 ∨ size = UInt64.ofNat (desc t).2.2)
  · refine ⟨true, ?_, ?_⟩
    · simp only [isTy, hc, Outcome.ofLoop, if_pos h1]
      rfl
    · simp only [true_iff]
      exact ⟨h1.1, h1.2.1.elim .inl fun h => .inr (.inl h), h1.2.2⟩
  · by_cases ht : t = .char
    · by_cases h2 : n = (desc t).1 ∧ (enc = 0 ∨ enc = 9) ∧ (size = 0 ∨ size = UInt64.ofNat (desc t).2.2)
      · refine ⟨true, ?_, ?_⟩
        · simp only [isTy, hc, Outcome.ofLoop, if_neg h1, if_pos h2, if_pos ht]
          rfl
        · simp only [true_iff]
          exact ⟨h2.1, h2.2.1.elim .inl fun h => .inr (.inr ⟨ht, h⟩), h2.2.2⟩
      · refine ⟨false, ?_, ?_⟩
        · simp only [isTy, hc, Outcome.ofLoop, if_neg h1, if_neg h2, if_pos ht]
          rfl
        · refine ⟨(fun h => nomatch h), ?_⟩
          rintro ⟨a, b, c⟩
          rcases b with b | b | b
          · exact absurd ⟨a, .inl b, c⟩ h1
          · exact absurd ⟨a, .inr b, c⟩ h1
          · exact absurd ⟨a, .inr b.2, c⟩ h2
    · refine ⟨false, ?_, ?_⟩
      · simp only [isTy, hc, Outcome.ofLoop, if_neg h1, if_neg ht]
        rfl
      · refine ⟨(fun h => nomatch h), ?_⟩
        rintro ⟨a, b, c⟩
        rcases b with b | b | b
        · exact absurd ⟨a, .inl b, c⟩ h1
        · exact absurd ⟨a, .inr b, c⟩ h1
        · exact absurd b.1 ht

theorem isTy_other {db : Db} {r : Ref} {f : Option Ref} {qs : List Qual} (h : Final db r f qs) (hn : ¬ Leads db f .base) (t : Ty) :
    isTy db (some r) t = .ok false := by
  have hk : keep db isBase f = none := by
    have := keep_isSome db f .base
    simp only [want] at this
    cases hk : keep db isBase f with
    | none => rfl
    | some y => exact absurd (this.mp (by rw [hk]; rfl)) hn
  have hb : finalOf db (some r) isBase = some none := by rw [finalOf_final h isBase, hk]
  have hc : ∀ name e s, checkBaseType db (some r) name e s = some (.ok (-22)) := by
    intro name e s
    simp [checkBaseType, hb]
  by_cases ht : t = .char
  · simp only [isTy, hc, Outcome.ofLoop, if_pos ht]
    rfl
  · simp only [isTy, hc, Outcome.ofLoop, if_neg ht]
    rfl

/-- **C110.** If base types have names, the 17 questions for the arithmetic types are answered
with yes exactly for the type described, hence at most one of them, and only for base types. -/
theorem C110_arithmetic (db : Db) (r : Ref) (f : Option Ref) (qs : List Qual) (h : Final db r f qs)
    (named : ∀ x size enc, f = some x → (db x).info = .base size enc → (db x).name ≠ none) :
    ∃ answer : Ty → Bool, (∀ t, isTy db (some r) t = .ok (answer t)) ∧
      (∀ t, answer t = true ↔ ∃ x, f = some x ∧ IsArithmetic (db x) t) ∧
      (∀ t u, answer t = true → answer u = true → t = u) ∧
      (∀ t, answer t = true → isBaseType db (some r) = some true) := by
  have key : ∃ answer : Ty → Bool, (∀ t, isTy db (some r) t = .ok (answer t)) ∧
      ∀ t, answer t = true ↔ ∃ x, f = some x ∧ IsArithmetic (db x) t := by
    by_cases hb : Leads db f .base
    · obtain ⟨x, rfl, hx⟩ := hb
      cases hx with
      | base hi =>
        cases hn : (db x).name with
        | none => exact absurd hn (named x _ _ rfl hi)
        | some n =>
          refine ⟨fun t => (isTy_base h hi hn t).choose, fun t => (isTy_base h hi hn t).choose_spec.1, fun t => ?_⟩
          rw [(isTy_base h hi hn t).choose_spec.2]
          constructor
          · exact fun a => ⟨x, rfl, a⟩
          · rintro ⟨y, hy, a⟩
            cases hy
            exact a
    · refine ⟨fun _ => false, fun t => isTy_other h hb t, fun t => ⟨(fun h => nomatch h), ?_⟩⟩
      rintro ⟨x, rfl, size, enc, hi, -⟩
      exact absurd ⟨x, rfl, .base hi⟩ hb
  obtain ⟨answer, h1, h2⟩ := key
  refine ⟨answer, h1, h2, ?_, ?_⟩
  · intro t u ht hu
    obtain ⟨x, rfl, _, _, _, hn, _⟩ := (h2 t).mp ht
    obtain ⟨y, hy, _, _, _, hn', _⟩ := (h2 u).mp hu
    cases hy
    rw [hn] at hn'
    exact names_differ t u (Option.some.inj hn')
  · intro t ht
    obtain ⟨x, rfl, size, enc, hi, -⟩ := (h2 t).mp ht
    exact ((C110_types db r _ qs h).yes .base).mpr ⟨x, rfl, .base hi⟩

/-! ### Values -/

theorem kind_base (i : Info) : kindOf i = 1 ↔ isBase i = true := by
  rcases i with _ | ⟨q, _⟩ | _ | _ | ⟨b, _, _⟩ | _ | _ | _ | ⟨k, _, _⟩ | _ | _ | _ | _ | _ | _ | _ | _
  all_goals first | (cases q <;> simp [kindOf, isBase]) | (cases b <;> simp [kindOf, isBase]) | (cases k <;> simp [kindOf, isBase]) | simp [kindOf, isBase]
theorem kind_pointer (i : Info) : kindOf i = 2 ↔ Entry.isPointer i = true := by
  rcases i with _ | ⟨q, _⟩ | _ | _ | ⟨b, _, _⟩ | _ | _ | _ | ⟨k, _, _⟩ | _ | _ | _ | _ | _ | _ | _ | _
  all_goals first | (cases q <;> simp [kindOf, Entry.isPointer]) | (cases b <;> simp [kindOf, Entry.isPointer]) | (cases k <;> simp [kindOf, Entry.isPointer]) | simp [kindOf, Entry.isPointer]
theorem kind_enum (i : Info) : kindOf i = 3 ↔ isEnum i = true := by
  rcases i with _ | ⟨q, _⟩ | _ | _ | ⟨b, _, _⟩ | _ | _ | _ | ⟨k, _, _⟩ | _ | _ | _ | _ | _ | _ | _ | _
  all_goals first | (cases q <;> simp [kindOf, isEnum]) | (cases b <;> simp [kindOf, isEnum]) | (cases k <;> simp [kindOf, isEnum]) | simp [kindOf, isEnum]
theorem kind_array (i : Info) : kindOf i = 5 ↔ isArray i = true := by
  rcases i with _ | ⟨q, _⟩ | _ | _ | ⟨b, _, _⟩ | _ | _ | _ | ⟨k, _, _⟩ | _ | _ | _ | _ | _ | _ | _ | _
  all_goals first | (cases q <;> simp [kindOf, isArray]) | (cases b <;> simp [kindOf, isArray]) | (cases k <;> simp [kindOf, isArray]) | simp [kindOf, isArray]
theorem kind_struct (i : Info) : (kindOf i ≠ 16 ∧ kindOf i ≠ 17 ∧ kindOf i ≠ 18) ↔ ¬ isStruct i = true := by
  rcases i with _ | ⟨q, _⟩ | _ | _ | ⟨b, _, _⟩ | _ | _ | _ | ⟨k, _, _⟩ | _ | _ | _ | _ | _ | _ | _ | _
  all_goals first | (cases q <;> simp [kindOf, isStruct]) | (cases b <;> simp [kindOf, isStruct]) | (cases k <;> simp [kindOf, isStruct]) | simp [kindOf, isStruct]

theorem with_base (db : Db) (v : Option Value) : valueWithBase db v = finalOf db (valueEntry v) isBase := by
  cases v with
  | none => rfl
  | some v =>
    simp only [valueWithBase, finalOf, valueEntry, Option.map]
    rcases finalEntry db (some v.entry) with _ | ⟨_ | f, q⟩
    · rfl
    · rfl
    · by_cases h : isBase (db f).info = true <;> simp [kind, kind_base, h]
theorem with_pointer (db : Db) (v : Option Value) : valueWithPointer db v = finalOf db (valueEntry v) Entry.isPointer := by
  cases v with
  | none => rfl
  | some v =>
    simp only [valueWithPointer, finalOf, valueEntry, Option.map]
    rcases finalEntry db (some v.entry) with _ | ⟨_ | f, q⟩
    · rfl
    · rfl
    · by_cases h : Entry.isPointer (db f).info = true <;> simp [kind, kind_pointer, h]
theorem with_enum (db : Db) (v : Option Value) : valueWithEnum db v = finalOf db (valueEntry v) isEnum := by
  cases v with
  | none => rfl
  | some v =>
    simp only [valueWithEnum, finalOf, valueEntry, Option.map]
    rcases finalEntry db (some v.entry) with _ | ⟨_ | f, q⟩
    · rfl
    · rfl
    · by_cases h : isEnum (db f).info = true <;> simp [kind, kind_enum, h]
theorem with_array (db : Db) (v : Option Value) : valueWithArray db v = finalOf db (valueEntry v) isArray := by
  cases v with
  | none => rfl
  | some v =>
    simp only [valueWithArray, finalOf, valueEntry, Option.map]
    rcases finalEntry db (some v.entry) with _ | ⟨_ | f, q⟩
    · rfl
    · rfl
    · by_cases h : isArray (db f).info = true <;> simp [kind, kind_array, h]
theorem with_struct (db : Db) (v : Option Value) : valueWithStruct db v = finalOf db (valueEntry v) isStruct := by
  cases v with
  | none => rfl
  | some v =>
    simp only [valueWithStruct, finalOf, valueEntry, Option.map]
    rcases finalEntry db (some v.entry) with _ | ⟨_ | f, q⟩
    · rfl
    · rfl
    · by_cases h : isStruct (db f).info = true <;> simp [kind, kind_struct, h]

theorem final_self {db : Db} {r x : Ref} {qs : List Qual} (h : Final db r (some x) qs) : Final db x (some x) [] := by
  generalize hg : some x = g at h
  induction h with
  | here hn => cases hg; exact .here hn
  | void _ => cases hg
  | step _ _ ih => exact ih hg

/-- Asking again about the entry reached: it is the end of its own chain. -/
theorem finalOf_again {db : Db} {r : Ref} {f : Option Ref} {qs : List Qual} (h : Final db r f qs) (w : Info → Bool) :
    finalOf db (keep db w f) w = some (keep db w f) := by
  cases f with
  | none => rfl
  | some x =>
    have := finalOf_final (final_self h) w
    by_cases hw : w (db x).info = true
    · simp only [keep, hw, if_true] at this ⊢
      exact this
    · simp [keep, hw, finalOf]

/-- The question about a value for each sort; functions have no questions of their own. -/
def askValue (db : Db) (v : Option Value) : Group → Option Bool
  | .base => valueIsBaseType db v
  | .pointer => valueIsPointer db v
  | .members => valueHasMembers db v
  | .elements => valueHasElements db v
  | .enumeration => valueIsEnumeration db v
  | .function => hasParameters db (valueEntry v)

/-- **C110.** A question about a value is answered as the question about its type is: for every
value, whatever its address and whatever is stored there. -/
theorem C110_values (db : Db) (v : Option Value) :
    (∀ s, askValue db v s = ask db (valueEntry v) s) ∧
    valueKind db v = kind db (valueEntry v) ∧ valueName db v = entryName db (valueEntry v) ∧
    (∀ name enc size, valueCheckBaseType db v name enc size = checkBaseType db (valueEntry v) name enc size) ∧
    (∀ t, valueIsTy db v t = isTy db (valueEntry v) t) := by
  refine ⟨fun s => ?_, ?_, ?_, ?_, fun _ => rfl⟩
  · cases s <;> simp [askValue, ask, valueIsBaseType, isBaseType, valueIsPointer, isPointerType, valueHasMembers, hasMembers, valueHasElements,
      hasElements, valueIsEnumeration, isEnumeration, with_base, with_pointer, with_enum, with_array, with_struct]
  · cases v <;> rfl
  · cases v <;> rfl
  · intro name enc size
    cases v <;> rfl

/-- **C110.** The details a value gives are those its type gives. -/
theorem C110_value_details (db : Db) (v : Value) (f : Option Ref) (qs : List Qual) (h : Final db v.entry f qs) :
    valueElements db (some v) = elementCount db (some v.entry) ∧
    valueMemberCount db (some v) = memberCount db (some v.entry) ∧
    valueEnumerationInfoSize db (some v) = enumerationInfoSize db (some v.entry) ∧
    (∀ i, valueEnumerationInfo db (some v) i = enumerationInfo db (some v.entry) i) ∧
    (∀ n, valueEnumerationToName db (some v) n = enumerationToName db (some v.entry) n) ∧
    valueIsVoidPointer db (some v) = isVoidPointer db (some v.entry) ∧
    valueIsDeclarationPointer db (some v) = isDeclarationPointer db (some v.entry) ∧
    (v.addr ≠ 0 → ∃ q, finalEntry db (some v.entry) = some (f, q) ∧
      valueFinalKind db (some v) = some (.ok (kind db f, q))) := by
  have e := fun w => finalOf_final h w
  have a := fun w => finalOf_again h w
  have he : ∀ u : Value, valueEntry (some u) = some u.entry := fun _ => rfl
  refine ⟨?_, ?_, ?_, fun i => ?_, fun n => ?_, ?_, ?_, ?_⟩
  · have a := a isArray
    have e := e isArray
    simp only [valueElements, with_array, he, e, elementCount, Option.bind_eq_bind, Option.bind_some]
    generalize keep db isArray f = k at *
    cases k <;> simp [a]
  · simp [valueMemberCount, with_struct, he, e, memberCount, a]
  · simp [valueEnumerationInfoSize, with_enum, he, e, enumerationInfoSize, a]
  · simp [valueEnumerationInfo, with_enum, he, e, enumerationInfo, a]
  · simp [valueEnumerationToName, with_enum, he, e, enumerationToName, a]
  · have a := a Entry.isPointer
    have e := e Entry.isPointer
    simp only [valueIsVoidPointer, with_pointer, he, e, isVoidPointer, Option.bind_eq_bind, Option.bind_some]
    generalize keep db Entry.isPointer f = k at *
    cases k <;> simp [a]
  · have a := a Entry.isPointer
    have e := e Entry.isPointer
    simp only [valueIsDeclarationPointer, with_pointer, he, e, isDeclarationPointer, Option.bind_eq_bind, Option.bind_some]
    generalize keep db Entry.isPointer f = k at *
    cases k <;> simp [a]
  · intro hv
    refine ⟨_, final_entry h, ?_⟩
    simp only [valueFinalKind, hv, final_entry h, if_false, Option.bind_eq_bind, Option.bind_some]
    cases f <;> rfl

end Verif.Queries
