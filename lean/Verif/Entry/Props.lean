import Verif.Entry.Lemmas
/-
Property theorems of the type descriptions (C17 - C20).
-/
namespace Verif.Entry
open Verif Verif.Entry.Spec

/-! ### A description used in the examples -/

/-- `typedef int num; struct s { const num a; struct s *next; unsigned f : 3; }`,
`volatile const num x[2][3]`, `void f(num p, ...)`, a flexible array, an enumeration. -/
def exDb : Db
  | 0 => { info := .base 4 6, name := some [105, 110, 116] }
  | 1 => { info := .typedef (some 0), name := some [110, 117, 109] }
  | 2 => { info := .qual .const (some 1) }
  | 3 => { info := .qual .volatile (some 2) }
  | 4 => { info := .array (some 3) 3 }
  | 5 => { info := .array (some 4) 2 }
  | 6 => { info := .var (some 5), name := some [120] }
  | 7 => { info := .pointer (some 11) }
  | 8 => { info := .member { type := some 2, byteOffset := 0 }, name := some [97] }
  | 9 => { info := .member { type := some 7, byteOffset := 8 }, name := some [110] }
  | 10 => { info := .member { type := some 0, byteOffset := 4, byteSize := some 4, bitOffset := some 20, bitSize := some 3 }, name := some [102] }
  | 11 => { info := .struct .struct 16 [8, 9, 10], name := some [115] }
  | 12 => { info := .array (some 0) (-1) }
  | 13 => { info := .param false (some 1), name := some [112] }
  | 14 => { info := .param true none }
  | 15 => { info := .subprogram none [13, 14], name := some [102] }
  | 16 => { info := .enumeration 4 8 [([65], 0), ([66], 5), ([67], 5)], name := some [101] }
  | 17 => { info := .qual .const none }
  | 18 => { info := .var (some 11), name := some [118] }
  | _ => { info := .compileUnit }

theorem acyclic_of_lt {db : Db} (h : ∀ t r, Next db t r → t < r) (r : Ref) : Acyclic db r := by
  have : ∀ n r, r ≤ n → Acc (Next db) r := by
    intro n
    induction n with
    | zero =>
      intro r hr
      refine ⟨_, fun t ht => ?_⟩
      exact absurd (Nat.lt_of_lt_of_le (h t r ht) hr) (Nat.not_lt_zero _)
    | succ n ih =>
      intro r hr
      refine ⟨_, fun t ht => ?_⟩
      have h1 : t < r := h t r ht
      exact ih t (Nat.le_of_lt_succ (Nat.lt_of_lt_of_le h1 hr))
  exact this r r (Nat.le_refl _)

theorem exDb_alias : Alias exDb 6 (some 5) ∧ Alias exDb 3 (some 2) ∧ Alias exDb 2 (some 1) ∧ Alias exDb 1 (some 0) :=
  ⟨.var rfl, .qual rfl, .qual rfl, .typedef rfl⟩

theorem exSize : Size exDb 6 24 := by
  have h0 : Size exDb 0 4 := .stored (.base (n := 4) rfl)
  have h3 : Size exDb 3 4 := .through (.qual rfl) (.through (.qual rfl) (.through (.typedef rfl) h0))
  have h4 : Size exDb 4 (3 * 4) := .array (count := 3) rfl (by omega) h3
  have h5 : Size exDb 5 (2 * (3 * 4)) := .array (count := 2) rfl (by omega) h4
  exact .through (.var rfl) h5

/-! ### C17 -/

/-- C17.  For every description: a type with a size has its mathematical size reported,
reduced modulo 2^64, hence exactly when it fits 64 bits; a type without a size (void,
flexible array, function) is refused, as is NULL; every acyclic description is one or the
other. -/
theorem C17_byte_size (db : Db) :
    (∀ r n, Size db r n → ∃ v, byteSize db (some r) true = some (.ok v) ∧ v.toNat = n % 2 ^ 64 ∧ (n < 2 ^ 64 → v.toNat = n)) ∧
    (∀ r, NoSize db r → byteSize db (some r) true = some (.error (-14))) ∧
    byteSize db none true = some (.error (-14)) ∧
    (∀ p, byteSize db p false = some (.error (-22))) ∧
    (∀ r, Acyclic db r → (∃ n, Size db r n) ∨ NoSize db r) := by
  refine ⟨?_, ?_, loop_void db 1, fun p => rfl, fun r h => size_or_nosize h⟩
  · intro r n h
    refine ⟨UInt64.ofNat n, ?_, ?_, ?_⟩
    · show byteSizeLoop db (some r) 1 = _
      rw [loop_size h, UInt64.mul_one]
    · simp
    · intro hn; simp; omega
  · intro r h
    exact loop_nosize h 1

/-- `volatile const num x[2][3]` has 24 bytes; the flexible array and `const void` are refused. -/
example : (∃ v, byteSize exDb (some 6) true = some (.ok v) ∧ v.toNat = 24) ∧
    byteSize exDb (some 12) true = some (.error (-14)) ∧ byteSize exDb (some 17) true = some (.error (-14)) := by
  obtain ⟨h1, h2, _⟩ := C17_byte_size exDb
  refine ⟨?_, h2 12 (.flexible rfl (by decide)), h2 17 (.void (.qual rfl))⟩
  obtain ⟨v, hv, _, he⟩ := h1 6 24 exSize
  exact ⟨v, hv, he (by decide)⟩

/-- The size relation assigns at most one size (so the theorem determines the result). -/
theorem C17_size_unique (db : Db) (r : Ref) (n n' : Nat) (h : Size db r n) (h' : Size db r n') : n % 2 ^ 64 = n' % 2 ^ 64 := by
  have h1 := loop_size h 1
  rw [loop_size h' 1] at h1
  simp only [Option.some.injEq, Except.ok.injEq, UInt64.mul_one] at h1
  have := congrArg UInt64.toNat h1
  simpa using this.symm

/-! ### C18 -/

/-- C18.  From every acyclic entry the function reaches the entry that following exactly the
aliases leads to (NULL for void); the result is never an alias, applying the function again
changes nothing, and, if the result is a type, a qualifier is reported exactly if it occurs
on the way.  For void and for the `...` of a parameter list nothing is written to the
qualifier output. -/
theorem C18_final_entry (db : Db) :
    (∀ r, Acyclic db r → ∃ f qs, Final db r f qs) ∧
    (∀ r f qs, Final db r f qs → ∃ w, finalEntry db (some r) = some (f, w) ∧
      (∀ x, f = some x → (∀ t, ¬ Alias db x t) ∧
        (∃ w', finalEntry db (some x) = some (some x, w')) ∧
        (¬ Dots db x → ∃ q, w = some q ∧ ∀ k, flag q k = true ↔ k ∈ qs) ∧
        (Dots db x → w = none)) ∧
      (f = none → w = none)) ∧
    finalEntry db none = some (none, none) := by
  refine ⟨fun r h => final_exists h, ?_, rfl⟩
  intro r f qs h
  refine ⟨_, final_entry h, ?_, ?_⟩
  · intro x hx
    subst hx
    have hn := final_not_alias h
    refine ⟨hn, ⟨_, final_entry (.here hn)⟩, ?_, ?_⟩
    · intro hd
      refine ⟨addAll {} qs, by simp [written, hd], ?_⟩
      intro k
      rw [flag_addAll]
      cases k <;> simp [flag]
    · intro hd
      simp [written, hd]
  · intro hf
    subst hf
    rfl

theorem exFinal : Final exDb 3 (some 0) [.volatile, .const] := by
  have h0 : Final exDb 0 (some 0) [] := .here (by
    intro t h; cases h <;> rename_i h <;> exact absurd h (by simp [exDb]))
  exact .step (.qual rfl) (.step (.qual rfl) (.step (.typedef rfl) h0))

/-- `volatile const num` ends at `int` with both qualifiers. -/
example : ∃ q, finalEntry exDb (some 3) = some (some 0, some q) ∧ q.const = true ∧ q.volatile = true ∧ q.restrict = false := by
  obtain ⟨w, hw, h1, _⟩ := (C18_final_entry exDb).2.1 3 (some 0) _ exFinal
  obtain ⟨_, _, h2, _⟩ := h1 0 rfl
  obtain ⟨q, hq, hk⟩ := h2 (by intro ⟨t, ht⟩; simp [exDb] at ht)
  subst hq
  refine ⟨q, hw, (hk .const).2 (by simp), (hk .volatile).2 (by simp), ?_⟩
  have := hk .restrict
  simpa [flag] using this

/-- Every entry of the example is acyclic, although `struct s` contains a pointer to itself. -/
example (r : Ref) : Acyclic exDb r := by
  refine acyclic_of_lt ?_ r
  intro t r h
  have key : ∀ t, ((exDb r).info = .typedef (some t) ∨ (exDb r).info = .var (some t) ∨ (∃ u, (exDb r).info = .param u (some t)) ∨
      (∃ m : MemberInfo, (exDb r).info = .member m ∧ m.type = some t) ∨ (∃ q, (exDb r).info = .qual q (some t)) ∨
      ∃ c, (exDb r).info = .array (some t) c) → t < r := by
    intro t h
    unfold exDb at h
    split at h <;> simp at h <;> (try subst h) <;> decide
  apply key
  cases h with
  | alias h =>
    generalize ht : some t = t' at h
    cases h with
    | typedef h => subst ht; exact .inl h
    | var h => subst ht; exact .inr (.inl h)
    | param h => subst ht; exact .inr (.inr (.inl ⟨_, h⟩))
    | member h => exact .inr (.inr (.inr (.inl ⟨_, h, rfl⟩)))
    | qual h => subst ht; exact .inr (.inr (.inr (.inr (.inl ⟨_, h⟩))))
  | dots h => exact .inr (.inr (.inl ⟨_, h⟩))
  | array h => exact .inr (.inr (.inr (.inr (.inr ⟨_, h⟩))))

/-! ### C19 -/

/-- C19 for members: through any chain of aliases to a struct, union or class, the name
lookup returns the index of the first member of that name, or -ENOENT if there is none; the
lookup by number returns the member exactly for ids in range, else NULL; the count is the
number of members.  If the entry is not a struct, union or class (or NULL): -EINVAL, NULL. -/
theorem C19_members (db : Db) (r : Ref) (f : Option Ref) (qs : List Qual) (h : Final db r f qs) :
    (∀ x k size ms, f = some x → (db x).info = .struct k size ms →
      memberCount db (some r) = some (ms.length : Int) ∧
      (∀ n i, First db ms n i → memberNameToId db (some r) n = some (i : Int)) ∧
      (∀ n, (∀ m ∈ ms, (db m).name ≠ some n) → memberNameToId db (some r) n = some (-2)) ∧
      (∀ i : Nat, i < ms.length → byMemberId db (some r) i = some ms[i]?) ∧
      (∀ i : Int, (i < 0 ∨ i ≥ ms.length) → byMemberId db (some r) i = some none)) ∧
    ((∀ x k size ms, f = some x → (db x).info ≠ .struct k size ms) →
      memberCount db (some r) = some (-22) ∧ (∀ n, memberNameToId db (some r) n = some (-22)) ∧
      ∀ i, byMemberId db (some r) i = some none) ∧
    memberCount db none = some (-22) ∧ (∀ n, memberNameToId db none n = some (-22)) ∧ (∀ i, byMemberId db none i = some none) := by
  refine ⟨?_, ?_, rfl, fun _ => rfl, fun _ => rfl⟩
  · intro x k size ms hx hi
    subst hx
    have hf := finalOf_final h isStruct
    simp only [keep, hi, isStruct, if_true] at hf
    refine ⟨?_, ?_, ?_, ?_, ?_⟩
    · simp [memberCount, hf, hi, membersOf]
    · intro n i hn
      have := nameLoop_first db n ms 0 i hn
      simp [memberNameToId, hf, hi, membersOf, this]
    · intro n hn
      simp [memberNameToId, hf, hi, membersOf, nameLoop_none db n ms 0 hn]
    · intro i _
      simp [byMemberId, hf, hi, membersOf, item_eq]
    · intro i hr
      simp only [byMemberId, hf, Option.bind_eq_bind, Option.bind_some, hi, membersOf, item]
      simp [hr]
  · intro hno
    have hf := finalOf_final h isStruct
    have : keep db isStruct f = none := by
      cases f with
      | none => rfl
      | some x =>
        cases hi : (db x).info with
        | struct k size ms => exact absurd hi (hno x k size ms rfl)
        | _ => simp [keep, hi, isStruct]
    rw [this] at hf
    exact ⟨by simp [memberCount, hf], fun n => by simp [memberNameToId, hf], fun i => by simp [byMemberId, hf]⟩

/-- `struct s` has three members; `n` is number 1. -/
example : memberCount exDb (some 18) = some 3 ∧ memberNameToId exDb (some 18) [110] = some 1 ∧
    memberNameToId exDb (some 18) [122] = some (-2) ∧ byMemberId exDb (some 18) (1 : Nat) = some (some 9) ∧
    byMemberId exDb (some 18) (-1) = some none := by
  have hs : Final exDb 18 (some 11) [] := .step (.var rfl) (.here (by
    intro t h; cases h <;> rename_i h <;> exact absurd h (by simp [exDb])))
  obtain ⟨h, _⟩ := C19_members exDb 18 _ _ hs
  obtain ⟨h1, h2, h3, h4, h5⟩ := h 11 .struct 16 [8, 9, 10] rfl rfl
  refine ⟨h1, h2 _ 1 ⟨⟨9, rfl, rfl⟩, ?_⟩, h3 _ ?_, h4 1 (by decide), h5 _ (by decide)⟩
  · intro j hj m hm
    have : j = 0 := by omega
    subst this
    simp at hm
    subst hm
    decide
  · decide

/-- C19 for parameters: the same for functions and function types. -/
theorem C19_parameters (db : Db) (r : Ref) (f : Option Ref) (qs : List Qual) (h : Final db r f qs) :
    (∀ x t ps, f = some x → ((db x).info = .subprogram t ps ∨ (db x).info = .subroutine t ps) →
      parametersCount db (some r) = some (ps.length : Int) ∧
      (∀ n i, First db ps n i → parameterNameToId db (some r) n = some (i : Int)) ∧
      (∀ n, (∀ m ∈ ps, (db m).name ≠ some n) → parameterNameToId db (some r) n = some (-2)) ∧
      (∀ i : Nat, i < ps.length → byParameterId db (some r) i = some ps[i]?) ∧
      (∀ i : Int, (i < 0 ∨ i ≥ ps.length) → byParameterId db (some r) i = some none) ∧
      resultType db (some r) = some t) ∧
    ((∀ x t ps, f = some x → (db x).info ≠ .subprogram t ps ∧ (db x).info ≠ .subroutine t ps) →
      parametersCount db (some r) = some (-22) ∧ (∀ n, parameterNameToId db (some r) n = some (-22)) ∧
      ∀ i, byParameterId db (some r) i = some none) := by
  refine ⟨?_, ?_⟩
  · intro x t ps hx hi
    subst hx
    have hf := finalOf_final h isFunc
    have hw : isFunc (db x).info = true := by rcases hi with e | e <;> rw [e] <;> rfl
    have hp : paramsOf (db x).info = ps := by rcases hi with e | e <;> rw [e] <;> rfl
    simp only [keep, hw, if_true] at hf
    have hc : parametersCount db (some r) = some (ps.length : Int) := by simp [parametersCount, hf, hp]
    have hnl : ¬ ((ps.length : Int) < 0) := by omega
    refine ⟨hc, ?_, ?_, ?_, ?_, ?_⟩
    · intro n i hn
      have := nameLoop_first db n ps 0 i hn
      simp [parameterNameToId, hf, hc, hp, this, hnl]
    · intro n hn
      simp [parameterNameToId, hf, hc, hp, nameLoop_none db n ps 0 hn, hnl]
    · intro i _
      simp [byParameterId, hf, hp, item_eq]
    · intro i hr
      simp only [byParameterId, hf, Option.bind_eq_bind, Option.bind_some, hp, item]
      simp [hr]
    · simp only [resultType, hf, Option.bind_eq_bind, Option.bind_some]
      rcases hi with e | e <;> rw [e] <;> rfl
  · intro hno
    have hf := finalOf_final h isFunc
    have : keep db isFunc f = none := by
      cases f with
      | none => rfl
      | some x =>
        cases hi : (db x).info with
        | subprogram t ps => exact absurd hi (hno x t ps rfl).1
        | subroutine t ps => exact absurd hi (hno x t ps rfl).2
        | _ => simp [keep, hi, isFunc]
    rw [this] at hf
    exact ⟨by simp [parametersCount, hf], fun n => by simp [parameterNameToId, hf], fun i => by simp [byParameterId, hf]⟩

example : parametersCount exDb (some 15) = some 2 ∧ parameterNameToId exDb (some 15) [112] = some 0 ∧
    byParameterId exDb (some 15) (1 : Nat) = some (some 14) ∧ byParameterId exDb (some 15) 2 = some none := by
  have hs : Final exDb 15 (some 15) [] := .here (by
    intro t h; cases h <;> rename_i h <;> exact absurd h (by simp [exDb]))
  obtain ⟨h, _⟩ := C19_parameters exDb 15 _ _ hs
  obtain ⟨h1, h2, _, h4, h5, _⟩ := h 15 none [13, 14] rfl (.inl rfl)
  exact ⟨h1, h2 _ 0 ⟨⟨13, rfl, rfl⟩, by intro j hj; omega⟩, h4 1 (by decide), h5 _ (by decide)⟩

/-- C19: what is no enumeration has no enumerators. -/
theorem C19_no_enumerators (db : Db) (r : Ref) (f : Option Ref) (qs : List Qual) (h : Final db r f qs)
    (hno : ∀ x size enc es, f = some x → (db x).info ≠ .enumeration size enc es) :
    enumerationInfoSize db (some r) = some 0 ∧ (∀ i, enumerationInfo db (some r) i = some none) ∧ (∀ v, enumerationToName db (some r) v = some none) := by
  have hf : finalOf db (some r) isEnum = some none := by
    rw [finalOf_final h isEnum]
    cases f with
    | none => rfl
    | some x =>
      have hx : isEnum (db x).info = false := by
        cases hi : (db x).info with
        | enumeration s e es => exact absurd hi (hno x s e es rfl)
        | _ => rfl
      simp [keep, hx]
  simp [enumerationInfoSize, enumerationInfo, enumerationToName, hf]

/-- C19 for enumerators: the value is translated to the name of the first enumerator that
has it, or NULL; access by number is range-checked. -/
theorem C19_enumerators (db : Db) (r x : Ref) (qs : List Qual) (size : UInt64) (enc : Nat) (es : List (Name × Int))
    (h : Final db r (some x) qs) (hi : (db x).info = .enumeration size enc es) :
    (∀ v pre post n, es = pre ++ (n, v) :: post → (∀ e ∈ pre, e.2 ≠ v) → enumerationToName db (some r) v = some (some n)) ∧
    (∀ v, (∀ e ∈ es, e.2 ≠ v) → enumerationToName db (some r) v = some none) ∧
    enumerationInfoSize db (some r) = some (es.length : Int) ∧
    (∀ i : Nat, i < es.length → enumerationInfo db (some r) i = some es[i]?) ∧
    (∀ i : Int, (i < 0 ∨ i ≥ es.length) → enumerationInfo db (some r) i = some none) := by
  have hf := finalOf_final h isEnum
  simp only [keep, hi, isEnum, if_true] at hf
  have loop1 : ∀ v pre post n, (∀ e ∈ pre, e.2 ≠ v) → enumLoop (pre ++ (n, v) :: post) v = some n := by
    intro v pre
    induction pre with
    | nil => intro post n _; simp [enumLoop]
    | cons e pre ih =>
      intro post n he
      obtain ⟨a, b⟩ := e
      have hb : b ≠ v := he (a, b) (by simp)
      simp only [List.cons_append, enumLoop, hb, if_false]
      exact ih post n (fun e' h' => he e' (by simp [h']))
  have loop2 : ∀ (es : List (Name × Int)) v, (∀ e ∈ es, e.2 ≠ v) → enumLoop es v = none := by
    intro es
    induction es with
    | nil => intro v _; rfl
    | cons e es ih =>
      intro v he
      obtain ⟨a, b⟩ := e
      have hb : b ≠ v := he (a, b) (by simp)
      simp only [enumLoop, hb, if_false]
      exact ih v (fun e' h' => he e' (by simp [h']))
  refine ⟨?_, ?_, ?_, ?_, ?_⟩
  · intro v pre post n he hp
    simp only [enumerationToName, hf, Option.bind_eq_bind, Option.bind_some, hi, enumerators, he, loop1 v pre post n hp]
    rfl
  · intro v hv
    simp only [enumerationToName, hf, Option.bind_eq_bind, Option.bind_some, hi, enumerators, loop2 es v hv]
    rfl
  · simp [enumerationInfoSize, hf, hi, enumerators]
  · intro i hl
    have : ¬ ((i : Int) < 0 ∨ (i : Int) ≥ es.length) := by omega
    simp only [enumerationInfo, hf, Option.bind_eq_bind, Option.bind_some, hi, enumerators, this, if_false]
    simp
  · intro i hr
    simp only [enumerationInfo, hf, Option.bind_eq_bind, Option.bind_some, hi, enumerators, hr, if_true]
    rfl

example : enumerationToName exDb (some 16) 5 = some (some [66]) ∧ enumerationToName exDb (some 16) 7 = some none ∧
    enumerationInfo exDb (some 16) (2 : Nat) = some (some ([67], 5)) := by
  have hs : Final exDb 16 (some 16) [] := .here (by
    intro t h; cases h <;> rename_i h <;> exact absurd h (by simp [exDb]))
  obtain ⟨h1, h2, _, h4, _⟩ := C19_enumerators exDb 16 16 _ 4 8 [([65], 0), ([66], 5), ([67], 5)] hs rfl
  exact ⟨h1 5 [([65], 0)] [([67], 5)] [66] rfl (by decide), h2 7 (by decide), h4 2 (by decide)⟩

theorem picks_unique {db : Db} {items : List Ref} {id : EntryId} {m m' : Ref} (h : Picks db items id m) (h' : Picks db items id m') : m = m' := by
  cases h with
  | number h =>
    cases h' with
    | number h' => rw [h] at h'; simpa using h'
  | @name n k m i hf h =>
    cases h' with
    | @name _ _ m' i' hf' h' =>
      have e1 := nameLoop_first db n items 0 i hf
      have e2 := nameLoop_first db n items 0 i' hf'
      rw [e1] at e2
      have : i = i' := by omega
      subst this
      rw [h] at h'; simpa using h'

theorem memberStep_spec {db : Db} {r f : Ref} {qs : List Qual} {k size ms} (h : Final db r (some f) qs)
    (hi : (db f).info = .struct k size ms) (id : EntryId) :
    (∀ m, Picks db ms id m → memberStep db (some r) id = some (some m)) ∧
    ((∀ m, ¬ Picks db ms id m) → memberStep db (some r) id = some none) := by
  have hf := finalOf_final h isStruct
  simp only [keep, hi, isStruct, if_true] at hf
  have hself : Final db f (some f) [] := .here (struct_not_alias hi)
  obtain ⟨hm, _⟩ := C19_members db f _ _ hself
  obtain ⟨_, hn1, hn2, hb1, hb2⟩ := hm f k size ms rfl hi
  obtain ⟨n, i⟩ := id
  cases n with
  | none =>
    have he : memberStep db (some r) ⟨none, i⟩ = byMemberId db (some f) i := by
      simp only [memberStep, hf, Option.bind_eq_bind, Option.bind_some]
    rw [he]
    rcases Int.lt_or_le i 0 with h0 | h0
    · rw [hb2 i (.inl h0)]
      refine ⟨fun m hp => ?_, fun _ => rfl⟩
      cases hp
      omega
    · have hii : i = ((i.toNat : Nat) : Int) := by omega
      rw [hii]
      rcases Nat.lt_or_ge i.toNat ms.length with hl | hl
      · rw [hb1 _ hl]
        refine ⟨fun m hp => ?_, fun hn => ?_⟩
        · cases hp with
          | number hp => simp only [Option.some.injEq]; exact hp
        · exact absurd (Picks.number (List.getElem?_eq_getElem hl)) (hn _)
      · rw [hb2 _ (.inr (by omega))]
        refine ⟨fun m hp => ?_, fun _ => rfl⟩
        cases hp with
        | number hp => rw [List.getElem?_eq_none hl] at hp; simp at hp
  | some n =>
    rcases first_or_none db n ms with ⟨j, hj⟩ | hno
    · have hjl : j < ms.length := by
        obtain ⟨⟨m, hm, _⟩, _⟩ := hj
        rcases Nat.lt_or_ge j ms.length with hl | hl
        · exact hl
        · rw [List.getElem?_eq_none hl] at hm; simp at hm
      have hnn : ¬ ((j : Int) < 0) := by omega
      have he : memberStep db (some r) ⟨some n, i⟩ = some ms[j]? := by
        simp only [memberStep, hf, Option.bind_eq_bind, Option.bind_some, hn1 n j hj, hnn, if_false, hb1 j hjl]
      rw [he]
      have hp' : Picks db ms ⟨some n, i⟩ ms[j] := .name hj (List.getElem?_eq_getElem hjl)
      refine ⟨fun m hp => ?_, fun hn => absurd hp' (hn _)⟩
      rw [picks_unique hp hp', List.getElem?_eq_getElem hjl]
    · have he : memberStep db (some r) ⟨some n, i⟩ = some none := by
        simp only [memberStep, hf, Option.bind_eq_bind, Option.bind_some, hn2 n hno]
        rfl
      rw [he]
      refine ⟨fun m hp => ?_, fun _ => rfl⟩
      cases hp with
      | name hj h' =>
        obtain ⟨⟨m', hm', hn'⟩, _⟩ := hj
        exact absurd hn' (hno m' (List.mem_of_getElem? hm'))

/-- C19 for paths: a path of names and numbers descends member by member; it yields the
entry at its end, and NULL exactly if some step selects no member (or meets an entry that
is not a struct, union or class).  With the `final` flag the final entry of that entry is
returned. -/
theorem C19_path (db : Db) (hac : ∀ r, Acyclic db r) (r : Ref) (ids : List EntryId) :
    (∀ m, Path db r ids m → byMemberIds db (some r) false ids = some (some m)) ∧
    ((∀ m, ¬ Path db r ids m) → byMemberIds db (some r) false ids = some none) ∧
    (∀ m f qs, Path db r ids m → Final db m f qs → byMemberIds db (some r) true ids = some f) := by
  induction ids generalizing r with
  | nil =>
    refine ⟨?_, ?_, ?_⟩
    · intro m h; cases h; rfl
    · intro h; exact absurd .nil (h r)
    · intro m f qs h hf
      cases h
      simp [byMemberIds, final_entry hf]
  | cons id ids ih =>
    have step : ∀ m b, memberStep db (some r) id = some (some m) →
        byMemberIds db (some r) b (id :: ids) = byMemberIds db (some m) b ids := by
      intro m b h
      rw [byMemberIds]
      simp [h]
    refine ⟨?_, ?_, ?_⟩
    · intro m h
      cases h with
      | cons hf hi hp hrest =>
        rw [step _ _ ((memberStep_spec hf hi id).1 _ hp)]
        exact (ih _).1 m hrest
    · intro hno
      obtain ⟨f, qs, hf⟩ := final_exists (hac r)
      have hnone : memberStep db (some r) id = some none → byMemberIds db (some r) false (id :: ids) = some none := by
        intro h
        rw [byMemberIds]
        simp [h]
      by_cases hs : ∃ x k size ms, f = some x ∧ (db x).info = .struct k size ms
      · obtain ⟨x, k, size, ms, rfl, hi⟩ := hs
        by_cases hp : ∃ m, Picks db ms id m
        · obtain ⟨m, hp⟩ := hp
          rw [step _ _ ((memberStep_spec hf hi id).1 _ hp)]
          exact (ih m).2.1 (fun q hq => hno q (.cons hf hi hp hq))
        · exact hnone ((memberStep_spec hf hi id).2 (fun m h => hp ⟨m, h⟩))
      · apply hnone
        have hfo := finalOf_final hf isStruct
        have : keep db isStruct f = none := by
          cases f with
          | none => rfl
          | some x =>
            cases hi : (db x).info with
            | struct k size ms => exact absurd ⟨x, k, size, ms, rfl, hi⟩ hs
            | _ => simp [keep, hi, isStruct]
        rw [this] at hfo
        simp [memberStep, hfo]
    · intro m f qs h hff
      cases h with
      | cons hf hi hp hrest =>
        rw [step _ _ ((memberStep_spec hf hi id).1 _ hp)]
        exact (ih _).2.2 m f qs hrest hff

/-- In the variable `struct s v`: the path `"n"` leads to entry 9. -/
example : Path exDb 18 [⟨some [110], 0⟩] 9 := by
  refine .cons (.step (.var rfl) (.here (by
    intro t h; cases h <;> rename_i h <;> exact absurd h (by simp [exDb])))) (show (exDb 11).info = .struct .struct 16 [8, 9, 10] from rfl) (.name (i := 1) ⟨⟨9, rfl, rfl⟩, ?_⟩ rfl) .nil
  intro j hj m hm
  have : j = 0 := by omega
  subst this
  simp at hm
  subst hm
  decide

/-! ### C20 -/

theorem pos_of_data (data : UInt64) :
    (data >>> 3).toNat = data.toNat / 8 ∧ (data &&& 7).toNat = data.toNat % 8 := by
  constructor
  · rw [UInt64.toNat_shiftRight]
    simp [Nat.shiftRight_eq_div_pow]
  · rw [UInt64.toNat_and]
    exact Nat.and_two_pow_sub_one_eq_mod data.toNat 3

/-- C20.  For a field of `size` bits at bit address `bit`, described in DWARF3 or in DWARF4
style, the reported byte and bit positions are `bit / 8` and `bit % 8` and the size is
`size`; so both descriptions give the same answer, the bit position is below 8 and
byte * 8 + bit is the address. -/
theorem C20_offsets (db : Db) (r : Ref) (m : MemberInfo) (bit size : Nat) (hm : (db r).info = .member m)
    (h : Dwarf3 m bit size ∨ Dwarf4 m bit size) :
    ∃ byte off sz, bitfieldOffsets db (some r) = (0, some (byte, off, sz)) ∧
      byte.toNat = bit / 8 ∧ off.toNat = bit % 8 ∧ sz.toNat = size ∧
      off.toNat < 8 ∧ byte.toNat * 8 + off.toNat = bit := by
  rcases h with ⟨unit, off, sz, h1, h2, h3, h4, h5, h6, h7⟩ | ⟨data, sz, h1, h2, h3, h4, h5⟩
  · have hd : ((m.byteOffset + unit) * 8 - (off + sz)).toNat = bit := by
      have e8 : (8 : UInt64).toNat = 8 := rfl
      have a1 : (m.byteOffset + unit).toNat = m.byteOffset.toNat + unit.toNat := by
        rw [UInt64.toNat_add, Nat.mod_eq_of_lt (by omega)]
      have a2 : ((m.byteOffset + unit) * 8).toNat = (m.byteOffset.toNat + unit.toNat) * 8 := by
        rw [UInt64.toNat_mul, a1, e8, Nat.mod_eq_of_lt h6]
      have a3 : (off + sz).toNat = off.toNat + sz.toNat := by
        rw [UInt64.toNat_add, Nat.mod_eq_of_lt (by omega)]
      rw [UInt64.toNat_sub, a2, a3]
      omega
    refine ⟨((m.byteOffset + unit) * 8 - (off + sz)) >>> 3, ((m.byteOffset + unit) * 8 - (off + sz)) &&& 7, sz, ?_, ?_⟩
    · simp [bitfieldOffsets, hm, h1, h2, h3, h4]
    · obtain ⟨p1, p2⟩ := pos_of_data ((m.byteOffset + unit) * 8 - (off + sz))
      rw [p1, p2, hd]
      refine ⟨rfl, rfl, h5, by omega, by omega⟩
  · refine ⟨data >>> 3, data &&& 7, sz, ?_, ?_⟩
    · simp [bitfieldOffsets, hm, h1, h2, h3]
    · obtain ⟨p1, p2⟩ := pos_of_data data
      rw [p1, p2, h4]
      refine ⟨rfl, rfl, h5, by omega, by omega⟩

/-- `unsigned f : 3` in the four-byte unit at offset 4, 20 bits from the top: bit address 41. -/
example : Dwarf3 { type := some 0, byteOffset := 4, byteSize := some 4, bitOffset := some 20, bitSize := some 3 } 41 3 ∧
    Dwarf4 { type := some 0, dataBitOffset := some 41, bitSize := some 3 } 41 3 :=
  ⟨⟨4, 20, 3, rfl, rfl, rfl, by decide, rfl, by decide, by decide⟩, ⟨41, 3, rfl, rfl, rfl, rfl, rfl⟩⟩
example : ∃ byte off sz, bitfieldOffsets exDb (some 10) = (0, some (byte, off, sz)) ∧
    byte.toNat = 5 ∧ off.toNat = 1 ∧ sz.toNat = 3 ∧ off.toNat < 8 ∧ byte.toNat * 8 + off.toNat = 41 :=
  C20_offsets exDb 10 _ 41 3 rfl (.inl ⟨4, 20, 3, rfl, rfl, rfl, by decide, rfl, by decide, by decide⟩)

/-- What the function does outside these descriptions: not a member, or a DWARF3 description
without a storage unit: -EINVAL; a member that is no bit-field: success, but nothing is
written to the outputs. -/
theorem C20_other_cases (db : Db) (r : Ref) :
    ((∀ m, (db r).info ≠ .member m) → bitfieldOffsets db (some r) = (-22, none)) ∧
    (∀ m o, (db r).info = .member m → m.bitOffset = some o → (m.byteSize = none ∨ m.byteSize = some 0) →
      bitfieldOffsets db (some r) = (-22, none)) ∧
    (∀ m, (db r).info = .member m → m.bitOffset = none → m.dataBitOffset = none → bitfieldOffsets db (some r) = (0, none)) ∧
    bitfieldOffsets db none = (-22, none) := by
  refine ⟨?_, ?_, ?_, rfl⟩
  · intro h
    unfold bitfieldOffsets
    cases hi : (db r).info with
    | member m => exact absurd hi (h m)
    | _ => simp only [hi]
  · intro m o hm ho hs
    rcases hs with hs | hs <;> simp [bitfieldOffsets, hm, ho, hs]
  · intro m hm ho hd
    simp [bitfieldOffsets, hm, ho, hd]

/-- C19 for parameter paths. -/
theorem C19_parameter_path (db : Db) (r x : Ref) (qs : List Qual) (t : Option Ref) (ps : List Ref) (id : EntryId)
    (h : Final db r (some x) qs) (hi : (db x).info = .subprogram t ps ∨ (db x).info = .subroutine t ps) :
    (∀ m, Picks db ps id m → byParameterIds db (some r) false id = some (some m) ∧
      ∀ f qs', Final db m f qs' → byParameterIds db (some r) true id = some f) ∧
    ((∀ m, ¬ Picks db ps id m) → ∀ b, byParameterIds db (some r) b id = some none) := by
  have hf := finalOf_final h isFunc
  have hw : isFunc (db x).info = true := by rcases hi with e | e <;> rw [e] <;> rfl
  simp only [keep, hw, if_true] at hf
  have hself : Final db x (some x) [] := .here (final_not_alias h)
  obtain ⟨hm, _⟩ := C19_parameters db x _ _ hself
  obtain ⟨_, hn1, hn2, hb1, hb2, _⟩ := hm x t ps rfl hi
  have hq : ∀ m : Option Ref, parameterStep db x id = some m →
      (m = none → ∀ b, byParameterIds db (some r) b id = some none) ∧
      (∀ y, m = some y → byParameterIds db (some r) false id = some (some y) ∧
        ∀ f qs', Final db y f qs' → byParameterIds db (some r) true id = some f) := by
    intro m hm
    refine ⟨?_, ?_⟩
    · intro e b
      subst e
      simp [byParameterIds, hf, hm]
    · intro y e
      subst e
      refine ⟨?_, fun f qs' hfin => ?_⟩
      · simp [byParameterIds, hf, hm]
      · simp [byParameterIds, hf, hm, final_entry hfin]
  obtain ⟨n, i⟩ := id
  cases n with
  | none =>
    rcases Int.lt_or_le i 0 with h0 | h0
    · obtain ⟨hq1, _⟩ := hq none (hb2 i (.inl h0))
      refine ⟨fun m hp => ?_, fun _ => hq1 rfl⟩
      cases hp
      omega
    · obtain ⟨j, rfl⟩ : ∃ j : Nat, i = j := ⟨i.toNat, by omega⟩
      rcases Nat.lt_or_ge j ps.length with hl | hl
      · have hg := List.getElem?_eq_getElem hl
        obtain ⟨_, hq2⟩ := hq (some ps[j]) (by rw [← hg]; exact hb1 j hl)
        refine ⟨fun m hp => ?_, fun hn => absurd (Picks.number hg) (hn _)⟩
        cases hp with
        | number hp => rw [hg] at hp; exact hq2 m hp
      · obtain ⟨hq1, _⟩ := hq none (hb2 j (.inr (by omega)))
        refine ⟨fun m hp => ?_, fun _ => hq1 rfl⟩
        cases hp with
        | number hp => rw [List.getElem?_eq_none hl] at hp; simp at hp
  | some n =>
    rcases first_or_none db n ps with ⟨j, hj⟩ | hno
    · have hjl : j < ps.length := by
        obtain ⟨⟨m, hm, _⟩, _⟩ := hj
        rcases Nat.lt_or_ge j ps.length with hl | hl
        · exact hl
        · rw [List.getElem?_eq_none hl] at hm; simp at hm
      have hg := List.getElem?_eq_getElem hjl
      have hnn : ¬ ((j : Int) < 0) := by omega
      obtain ⟨_, hq2⟩ := hq (some ps[j]) (by
        simp only [parameterStep, hn1 n j hj, Option.bind_eq_bind, Option.bind_some, hnn, if_false, hb1 j hjl, hg])
      have hp' : Picks db ps ⟨some n, i⟩ ps[j] := .name hj hg
      refine ⟨fun m hp => ?_, fun hn => absurd hp' (hn _)⟩
      rw [picks_unique hp hp']
      exact hq2 _ rfl
    · obtain ⟨hq1, _⟩ := hq none (by
        simp only [parameterStep, hn2 n hno, Option.bind_eq_bind, Option.bind_some]
        rfl)
      refine ⟨fun m hp => ?_, fun _ => hq1 rfl⟩
      cases hp with
      | name hj h' =>
        obtain ⟨⟨m', hm', hn'⟩, _⟩ := hj
        exact absurd hn' (hno m' (List.mem_of_getElem? hm'))

/-! ### C52 -/

theorem bmod_small (v : Int) (h : -(2 ^ 31) ≤ v) (h' : v < 2 ^ 31) : toInt32 v = v := by
  unfold toInt32
  rw [Int.bmod_def]
  split <;> omega

/-- C52.  Through any chain of aliases: the entry a pointer points to, the element type of
an array and its number of elements (if it fits `int`) are those of the final entry; any
other final entry (and void) is refused. -/
theorem C52_accessors_partial (db : Db) (r : Ref) (f : Option Ref) (qs : List Qual) (h : Final db r f qs) :
    (∀ x t, f = some x → (db x).info = .pointer t →
      pointerEntry db (some r) = some t ∧ elementEntry db (some r) = some none ∧ elementCount db (some r) = some (-22)) ∧
    (∀ x t c, f = some x → (db x).info = .array t c →
      pointerEntry db (some r) = some none ∧ elementEntry db (some r) = some t ∧
      (-(2 ^ 31) ≤ c → c < 2 ^ 31 → elementCount db (some r) = some c)) ∧
    ((∀ x t, f = some x → (db x).info ≠ .pointer t ∧ ∀ c, (db x).info ≠ .array t c) →
      pointerEntry db (some r) = some none ∧ elementEntry db (some r) = some none ∧ elementCount db (some r) = some (-22)) := by
  have hp := finalOf_final h isPointer
  have ha := finalOf_final h isArray
  refine ⟨?_, ?_, ?_⟩
  · intro x t hx hi
    subst hx
    simp only [keep, hi, isPointer, isArray] at hp ha
    simp [pointerEntry, elementEntry, elementCount, hp, ha, hi]
  · intro x t c hx hi
    subst hx
    simp only [keep, hi, isPointer, isArray] at hp ha
    refine ⟨by simp [pointerEntry, hp], by simp [elementEntry, ha, hi], fun h1 h2 => ?_⟩
    simp [elementCount, ha, hi, bmod_small c h1 h2]
  · intro hno
    have e1 : keep db isPointer f = none := by
      cases f with
      | none => rfl
      | some x =>
        cases hi : (db x).info with
        | pointer t => exact absurd hi (hno x t rfl).1
        | _ => simp [keep, hi, isPointer]
    have e2 : keep db isArray f = none := by
      cases f with
      | none => rfl
      | some x =>
        cases hi : (db x).info with
        | array t c => exact absurd hi ((hno x t rfl).2 c)
        | _ => simp [keep, hi, isArray]
    rw [e1] at hp
    rw [e2] at ha
    simp [pointerEntry, elementEntry, elementCount, hp, ha]

example : pointerEntry exDb (some 9) = some (some 11) ∧ elementCount exDb (some 6) = some 2 ∧ elementEntry exDb (some 6) = some (some 4) := by
  have h9 : Final exDb 9 (some 7) [] := .step (.member (m := { type := some 7, byteOffset := 8 }) rfl) (.here (by
    intro t h; cases h <;> rename_i h <;> exact absurd h (by simp [exDb])))
  have h6 : Final exDb 6 (some 5) [] := .step (.var rfl) (.here (by
    intro t h; cases h <;> rename_i h <;> exact absurd h (by simp [exDb])))
  obtain ⟨a, _⟩ := C52_accessors_partial exDb 9 _ _ h9
  obtain ⟨_, b, _⟩ := C52_accessors_partial exDb 6 _ _ h6
  obtain ⟨_, b2, b3⟩ := b 5 (some 4) 2 rfl rfl
  exact ⟨(a 7 (some 11) rfl rfl).1, b3 (by decide) (by decide), b2⟩

/-- The full claim (the count is always reported) is false: the count is returned as `int`,
so an array of 2^32 + 2 elements reports two. -/
theorem C52_count_truncated : ∃ (db : Db) (r : Ref) (t : Ref), (db r).info = .array (some t) (2 ^ 32 + 2) ∧
    elementCount db (some r) = some 2 := by
  refine ⟨fun x => if x = 0 then { info := .array (some 1) (2 ^ 32 + 2) } else { info := .base 1 6 }, 0, 1, rfl, ?_⟩
  have : finalOf (fun x => if x = 0 then { info := .array (some 1) (2 ^ 32 + 2) } else { info := .base 1 6 }) (some 0) isArray = some (some 0) := by
    simp [finalOf, finalEntry, finalLoop.eq_def, isArray]
  simp only [elementCount, this, Option.bind_eq_bind, Option.bind_some]
  rfl

/-- C52: a new element-count entry is an array of the requested number of the elements of
the array, or of the objects the pointer points to; so its size is that number times the
size of one of them.  Nothing is created for void pointers and other types. -/
theorem C52_new_element_count (db : Db) (r : Ref) (f : Option Ref) (qs : List Qual) (h : Final db r f qs) (count : Int) :
    (∀ x t c, f = some x → ((db x).info = .pointer (some t) ∨ (db x).info = .array (some t) c) →
      newElementCountEntry db (some r) count = some (some { info := .array (some t) count }) ∧
      ∀ (db' : Db) (new : Ref), (∀ y, y ≠ new → db' y = db y) → db' new = { info := .array (some t) count } →
        ∀ n k : Nat, Size db' t n → count = k → 0 < k → Size db' new (k * n)) ∧
    ((∀ x t, f = some x → (db x).info ≠ .pointer (some t) ∧ ∀ c, (db x).info ≠ .array (some t) c) →
      newElementCountEntry db (some r) count = some none) ∧
    newElementCountEntry db none count = some none := by
  refine ⟨?_, ?_, rfl⟩
  · intro x t c hx hi
    subst hx
    have hself : Final db x (some x) [] := .here (final_not_alias h)
    refine ⟨?_, ?_⟩
    · obtain ⟨a, b, _⟩ := C52_accessors_partial db x _ _ hself
      rcases hi with hi | hi
      · simp [newElementCountEntry, final_entry h, hi, (a x _ rfl hi).1]
      · simp [newElementCountEntry, final_entry h, hi, (b x _ c rfl hi).2.1]
    · intro db' new _ hnew n k hs hk hpos
      exact .array (by rw [hnew, hk]) hpos hs
  · intro hno
    cases f with
    | none => simp [newElementCountEntry, final_entry h]
    | some x =>
      have hself : Final db x (some x) [] := .here (final_not_alias h)
      obtain ⟨a, b, _⟩ := C52_accessors_partial db x _ _ hself
      cases hi : (db x).info with
      | pointer t =>
        cases t with
        | none => simp [newElementCountEntry, final_entry h, hi, (a x _ rfl hi).1]
        | some t => exact absurd hi (hno x t rfl).1
      | array t c =>
        cases t with
        | none => simp [newElementCountEntry, final_entry h, hi, (b x _ c rfl hi).2.1]
        | some t => exact absurd hi ((hno x t rfl).2 c)
      | _ => simp [newElementCountEntry, final_entry h, hi]

example : newElementCountEntry exDb (some 9) 4 = some (some { info := .array (some 11) 4 }) :=
  ((C52_new_element_count exDb 9 (some 7) [] (.step (.member (m := { type := some 7, byteOffset := 8 }) rfl) (.here (by
    intro t h; cases h <;> rename_i h <;> exact absurd h (by simp [exDb])))) 4).1 7 11 0 rfl (.inl rfl)).1

/-! ### C53 -/

/-- C53.  Through any chain of aliases, the check succeeds (0) exactly if the final entry is
a base type of that name whose encoding and size, where recorded, are the expected ones;
every other type is refused with -EINVAL, and a base type without a name aborts. -/
theorem C53_check_base_type (db : Db) (r : Ref) (f : Option Ref) (qs : List Qual) (h : Final db r f qs)
    (name : Name) (enc : Nat) (size : UInt64) :
    (∀ x n bs be, f = some x → (db x).info = .base bs be → (db x).name = some n →
      ∃ c, checkBaseType db (some r) name enc size = some (.ok c) ∧
        (c = 0 ↔ n = name ∧ (be ≠ 0 → be = enc) ∧ (bs ≠ 0 → bs = size)) ∧ (c = 0 ∨ c = -22)) ∧
    (∀ x bs be, f = some x → (db x).info = .base bs be → (db x).name = none → checkBaseType db (some r) name enc size = some .abort) ∧
    ((∀ x bs be, f = some x → (db x).info ≠ .base bs be) → checkBaseType db (some r) name enc size = some (.ok (-22))) ∧
    checkBaseType db none name enc size = some (.ok (-22)) := by
  have hb := finalOf_final h isBase
  refine ⟨?_, ?_, ?_, rfl⟩
  · intro x n bs be hx hi hn
    subst hx
    simp only [keep, hi, isBase, if_true] at hb
    refine ⟨if n = name ∧ (be = 0 ∨ be = enc) ∧ (bs = 0 ∨ bs = size) then 0 else -22, ?_, ?_, ?_⟩
    · simp [checkBaseType, hb, checkBase, hi, hn]
    · by_cases hc : n = name ∧ (be = 0 ∨ be = enc) ∧ (bs = 0 ∨ bs = size)
      · simp only [hc, and_self, if_true, true_iff]
        obtain ⟨_, h2, h3⟩ := hc
        exact ⟨trivial, fun h => h2.resolve_left h, fun h => h3.resolve_left h⟩
      · simp only [hc, if_false]
        refine ⟨fun h => absurd h (by decide), fun ⟨h1, h2, h3⟩ => absurd ⟨h1, ?_, ?_⟩ hc⟩
        · by_cases he : be = 0
          · exact .inl he
          · exact .inr (h2 he)
        · by_cases he : bs = 0
          · exact .inl he
          · exact .inr (h3 he)
    · split
      · exact .inl rfl
      · exact .inr rfl
  · intro x bs be hx hi hn
    subst hx
    simp only [keep, hi, isBase, if_true] at hb
    simp [checkBaseType, hb, checkBase, hi, hn]
  · intro hno
    have e : keep db isBase f = none := by
      cases f with
      | none => rfl
      | some x =>
        cases hi : (db x).info with
        | base bs be => exact absurd hi (hno x bs be rfl)
        | _ => simp [keep, hi, isBase]
    rw [e] at hb
    simp [checkBaseType, hb]

/-- `volatile const num` is `int`. -/
example : ∃ c, checkBaseType exDb (some 3) [105, 110, 116] 6 4 = some (.ok c) ∧ c = 0 := by
  obtain ⟨c, h1, h2, _⟩ := (C53_check_base_type exDb 3 _ _ exFinal [105, 110, 116] 6 4).1 0 [105, 110, 116] 4 6 rfl rfl rfl
  exact ⟨c, h1, h2.2 ⟨rfl, fun _ => rfl, fun _ => rfl⟩⟩

end Verif.Entry
