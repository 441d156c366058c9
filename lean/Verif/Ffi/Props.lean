import Verif.Ffi.Calls
/-
Property theorems of calls through libffi: descriptions of types (C93), the call (C94), its result
(C95), what stays allocated (C96).
-/
namespace Verif.Ffi
open Verif Verif.Entry Verif.Entry.Spec Verif.Value Verif.Value.Spec Verif.Handlers Verif.Ffi.Spec Verif.Heap

/-! ### C93: descriptions of types -/

/-- **C93**, partial: every type with a description (`Looks`: scalars, structures without bit-fields, unions by their largest
member, arrays) gets just this one, whichever requests for memory fail, or an error and nothing
stays allocated; releasing the description gives all blocks back.

Missing: bit-fields, base types that libffi does not have, and unions are wrong (`C93_bitfield_false`,
`C93_int128_false`, `C93_union_false`). -/
theorem C93_describes_partial (env : Env) (db : Db) (hn : Named db) (r : Ref) (s : Shape) (hl : Looks env db r s) (h : Heap) (ho : h.Ok) :
    ∃ c o h', ffiType env db false r h = .ok (c, o, h') ∧
      ((c = 0 ∧ ∃ t, o = some t ∧ see t = .ok s ∧ ∃ h'', cleanup t h' = .ok h'' ∧ ∀ b, h''.live b = h.live b) ∨
       (c ≠ 0 ∧ o = none ∧ (∀ b, h'.live b = h.live b) ∧ ∃ k, h.fails k = true)) := by
  obtain ⟨c, o, h', e, _, ⟨hc, t, ho, hs, hw⟩ | ⟨hc, ho, hw, hk⟩⟩ := looks_makes hn hl [] h (Owns.init ho)
  · obtain ⟨h'', e', o', _⟩ := cleanup_ok t hs hw
    exact ⟨c, o, h', e, .inl ⟨hc, t, ho, hs, h'', e', fun b => by rw [o'.live]; simp⟩⟩
  · exact ⟨c, o, h', e, .inr ⟨hc, ho, fun b => by rw [hw.live]; simp, hk⟩⟩

/-- **C93**: a type has one description. -/
theorem C93_unique (env : Env) (db : Db) (hn : Named db) (r : Ref) (s s' : Shape) (hl : Looks env db r s) (hl' : Looks env db r s') : s = s' := by
  have o : Owns (fun _ => false) (Heap.empty fun _ => false) [] := ⟨(by intro x hx; cases hx), (by intro x; simp [Heap.empty]), (by simp), (by simp)⟩
  obtain ⟨t, h1, e1, hs1, _⟩ := (looks_makes hn hl [] _ o).enough (fun _ => rfl)
  obtain ⟨t', h2, e2, hs2, _⟩ := (looks_makes hn hl' [] _ o).enough (fun _ => rfl)
  rw [e1] at e2
  cases e2
  rw [hs1] at hs2
  exact Outcome.ok.inj hs2

/-- Types and functions of the examples: `struct s {int a; char b[3];}` (4), `int f(struct s, ...)` (8), `char *` (11), `int g(struct s)` (12),
`union {double d; long l;}` (13), `struct {__int128 a; int b;}` (17), `struct {int x:24; char c;}` (20), `int h(va_list)` (25),
`void e(void)` (26), `int i(__int128)` (27), `int k(void)` (29). -/
def demo : Db := fun r =>
  ([{ info := .base 4 6, name := some (typeName .int) }, { info := .base 1 7, name := some (typeName .char) },
    { info := .base 8 5, name := some (typeName .double) }, { info := .base 8 6, name := some (typeName .long) },
    { info := .struct .struct 8 [5, 6] }, { info := .member { type := some 0 } }, { info := .member { type := some 7, byteOffset := 4 } }, { info := .array (some 1) 3 },
    { info := .subprogram (some 0) [9, 10] }, { info := .param false (some 4) }, { info := .param true none }, { info := .pointer (some 1) },
    { info := .subprogram (some 0) [9] },
    { info := .struct .union 8 [14, 15] }, { info := .member { type := some 2 } }, { info := .member { type := some 3 } },
    { info := .base 16 6, name := some [95, 95, 105, 110, 116, 49, 50, 56] }, { info := .struct .struct 32 [18, 19] }, { info := .member { type := some 16 } },
    { info := .member { type := some 0, byteOffset := 16 } },
    { info := .struct .struct 4 [21, 22] }, { info := .member { type := some 0, bitSize := some 24, dataBitOffset := some 0 } }, { info := .member { type := some 1, byteOffset := 3 } },
    { info := .param false (some 24) }, { info := .pointer none }, { info := .subprogram (some 0) [23] }, { info := .subprogram none [] },
    { info := .subprogram (some 0) [28] }, { info := .param false (some 16) },
    { info := .subprogram (some 0) [] }] : List Entry)[r]?.getD { info := .unspecifiedType }

theorem demo_named : Named demo := by
  intro r bs be hi
  by_cases hr : @LT.lt Nat _ r 30
  · have key : ∀ k : Fin 30, isBase (demo k.1).info = true → (demo k.1).name ≠ none := by decide +kernel
    exact key ⟨r, hr⟩ (by simp only [hi]; rfl)
  · rw [demo, List.getElem?_eq_none (by simpa using Nat.not_lt.1 hr)] at hi
    cases hi

/-- Ends of chains. -/
theorem here {db : Db} {r : Ref} (h : (match (db r).info with | .typedef _ | .var _ | .param false _ | .member _ | .qual .. => false | _ => true) = true) : Final db r (some r) [] :=
  .here fun t ha => by
    rcases alias_info ha with e | e | e | ⟨_, e, _⟩ | ⟨_, e⟩ <;> rw [e] at h <;> cases h

theorem demo_int {env : Env} : Scalar env demo 0 .sint := .base (here rfl) (t := .int) ⟨4, 6, rfl, rfl, fun _ => rfl, fun _ => rfl⟩

theorem demo_char {env : Env} : Scalar env demo 1 .schar := .base (here rfl) (t := .char) ⟨1, 7, rfl, rfl, fun _ => .inl rfl, fun _ => rfl⟩

theorem a5 : Alias demo 5 (some 0) := .member (m := { type := some 0 }) rfl
theorem a6 : Alias demo 6 (some 7) := .member (m := { type := some 7, byteOffset := 4 }) rfl
theorem a14 : Alias demo 14 (some 2) := .member (m := { type := some 2 }) rfl
theorem a15 : Alias demo 15 (some 3) := .member (m := { type := some 3 }) rfl
theorem a18 : Alias demo 18 (some 16) := .member (m := { type := some 16 }) rfl
theorem a19 : Alias demo 19 (some 0) := .member (m := { type := some 0, byteOffset := 16 }) rfl
theorem a22 : Alias demo 22 (some 1) := .member (m := { type := some 1, byteOffset := 3 }) rfl

/-- One step, then an end. -/
theorem one {db : Db} {r t : Ref} (ha : Alias db r (some t))
    (h : (match (db t).info with | .typedef _ | .var _ | .param false _ | .member _ | .qual .. => false | _ => true) = true) : ∃ qs, Final db r (some t) qs :=
  ⟨_, .step ha (here h)⟩

theorem int_desc : Describes demo 0 .int := ⟨4, 6, rfl, rfl, fun _ => rfl, fun _ => rfl⟩
theorem char_desc : Describes demo 1 .char := ⟨1, 7, rfl, rfl, fun _ => .inl rfl, fun _ => rfl⟩

/-- A member or parameter of a scalar type. -/
theorem step_scalar {env : Env} {db : Db} {r x : Ref} {t : Ty} (ha : Alias db r (some x)) (hd : Describes db x t) : Scalar env db r (primOf t) := by
  obtain ⟨b, e, hi, h⟩ := hd
  obtain ⟨qs, hf⟩ := one ha (by simp only [hi])
  exact .base hf ⟨b, e, hi, h⟩

/-- No entry is a `va_list`. -/
def plainEnv (params : Nat → List Value) : Env := ⟨fun _ => false, params⟩

theorem size7 : Size demo 7 3 := .array (count := 3) (n := (1 : UInt64).toNat) rfl (by decide) (.stored (.base rfl))

/-- `struct s`. -/
theorem demo_struct {env : Env} {r : Ref} {qs : List Qual} (hf : Final demo r (some 4) qs) (hv : env.vaList r = false) (h6 : env.vaList 6 = false) :
    Looks env demo r (.struct 8 0 [.prim .sint, .struct 3 0 [.prim .schar, .prim .schar, .prim .schar]]) := by
  refine .struct (x := 4) (k := .struct) (n := 8) (ms := [5, 6]) hf rfl hv (fun e => by cases e) ?_ ?_ rfl ?_
  · intro m hm
    simp only [List.mem_cons, List.not_mem_nil, or_false] at hm
    rcases hm with rfl | rfl <;> exact ⟨_, rfl⟩
  · rintro m hm ⟨mi, hi, hb⟩
    simp only [List.mem_cons, List.not_mem_nil, or_false] at hm
    rcases hm with rfl | rfl <;> (cases hi; simp at hb)
  · intro i m s hm hs
    match i with
    | 0 =>
      cases hm
      cases hs
      exact .scalar (step_scalar (t := .int) a5 int_desc)
    | 1 =>
      cases hm
      cases hs
      obtain ⟨qs, hf⟩ := one a6 rfl
      exact .array (c := 3) (n := 3) (s := .prim .schar) hf rfl h6 (by decide) (by decide) (fun _ => ⟨.through a6 size7, by decide⟩) (fun h => absurd h (by decide)) (.scalar demo_char)
    | i + 2 => cases hm

/-- The description of `struct s`; the fifth request for memory fails. -/
example : ∃ c o h', ffiType (plainEnv fun _ => []) demo false 4 (Heap.empty (· == 4)) = .ok (c, o, h') ∧
    ((c = 0 ∧ ∃ t, o = some t ∧ see t = .ok (.struct 8 0 [.prim .sint, .struct 3 0 [.prim .schar, .prim .schar, .prim .schar]]) ∧ ∃ h'', cleanup t h' = .ok h'' ∧ ∀ b, h''.live b = false) ∨
     (c ≠ 0 ∧ o = none ∧ (∀ b, h'.live b = false) ∧ ∃ k, (k == 4) = true)) :=
  C93_describes_partial (plainEnv fun _ => []) demo demo_named 4 _ (demo_struct (here rfl) rfl rfl) (Heap.empty (· == 4)) (fun _ h => by cases h)

/-! The descriptions that are wrong. -/

/-- **C93** is false of unions: `union {double d; long l;}` is described to libffi as a `double`, although it holds a
`long` as well: C passes such a union in a general register, libffi a `double` in a floating-point
register. -/
theorem C93_union_false : ∃ (db : Db) (u m1 m2 : Ref), Named db ∧ (db u).info = .struct .union 8 [m1, m2] ∧
    (∀ env, Scalar env db m1 .double ∧ Scalar env db m2 .slong) ∧
    ∀ (env : Env) (h : Heap), h.Ok → env.vaList u = false → (∀ k, h.fails k = false) → ∃ t h', ffiType env db false u h = .ok (0, some t, h') ∧ see t = .ok (.prim .double) := by
  have hm1 : ∀ env, Scalar env demo 14 .double := fun env => step_scalar (t := .double) a14 ⟨8, 5, rfl, rfl, fun _ => rfl, fun _ => rfl⟩
  have hm2 : ∀ env, Scalar env demo 15 .slong := fun env => step_scalar (t := .long) a15 ⟨8, 6, rfl, rfl, fun _ => rfl, fun _ => rfl⟩
  refine ⟨demo, 13, 14, 15, demo_named, rfl, fun env => ⟨hm1 env, hm2 env⟩, fun env h ho hv he => ?_⟩
  have s1 : Size demo 14 8 := .through a14 (.stored (.base (n := 8) rfl))
  have s2 : Size demo 15 8 := .through a15 (.stored (.base (n := 8) rfl))
  have hl : Looks env demo 13 (.prim .double) := by
    refine .union (x := 13) (i := 0) (m := 14) (w := 8) (ms := [14, 15]) (here rfl) rfl hv rfl s1 ?_ (.scalar (hm1 env))
    intro j m' hj
    match j with
    | 0 => cases hj; exact ⟨8, s1, by decide, by decide, fun h => absurd h (by decide)⟩
    | 1 => cases hj; exact ⟨8, s2, by decide, by decide, fun h => absurd h (by decide)⟩
    | j + 2 => cases hj
  obtain ⟨t, h', e, hs, _⟩ := (looks_makes demo_named hl [] h (Owns.init ho)).enough he
  exact ⟨t, h', e, hs⟩

theorem alloc_some {h : Heap} (he : ∀ k, h.fails k = false) : h.alloc = (some h.next, { h with next := h.next + 1, live := fun x => x == h.next || h.live x }) := by
  simp [Heap.alloc, he]

theorem base_type {env : Env} {db : Db} (hn : Named db) {r x : Ref} {qs : List Qual} {t : Ty} (hf : Final db r (some x) qs) (hd : Describes db x t) (variadic : Bool) (h : Heap) :
    ffiType env db variadic r h = .ok (newPrim (primOf t) h) := by
  have hb : isBase (db x).info = true := by
    obtain ⟨b, e, hi, _⟩ := hd
    simp [hi, isBase]
  rw [ffiType_final hf, if_pos hb, isTy_order hn hf hd]

/-- **C93** is false of bit-fields: `struct {int x:24; char c;}` is undefined: three bytes of bit-fields take two elements, and one more
than there is room for is written. -/
theorem C93_bitfield_false : ∃ (db : Db) (r x c : Ref) (mx mc : MemberInfo), Named db ∧ (db r).info = .struct .struct 4 [x, c] ∧ (db x).info = .member mx ∧ mx.bitSize = some 24 ∧
    (db c).info = .member mc ∧ mc.byteOffset = 3 ∧
    ∀ (env : Env) (h : Heap), env.vaList r = false → (∀ k, h.fails k = false) → ffiType env db false r h = .ub := by
  refine ⟨demo, 20, 21, 22, _, _, demo_named, rfl, rfl, rfl, rfl, rfl, fun env h hv he => ?_⟩
  have hf : Final demo 20 (some 20) [] := here rfl
  have hmem := (C19_members demo 20 _ _ hf).1 20 .struct 4 [21, 22] rfl rfl
  have b0 : byMemberId demo (some 20) (0 : Nat) = some (some 21) := hmem.2.2.2.1 0 (by decide)
  have b1 : byMemberId demo (some 20) (1 : Nat) = some (some 22) := hmem.2.2.2.1 1 (by decide)
  have hbits : ∀ f : Fill, f.start = none → bits demo 21 f = (0, { f with start := some 0 }) := by
    intro f hs
    have : bitfieldOffsets demo (some 21) = (0, some (0, 0, 24)) := by decide +kernel
    simp [bits, this, hs]
  rw [ffiType_final hf, show (demo 20).info = .struct .struct 4 [21, 22] from rfl]
  simp only [isBase, isEnum, isPointer, isStruct, isArray, hv, Bool.false_eq_true, if_false, if_true, Bool.false_and]
  rw [structType, hmem.1, stored_size (n := 4) hf (.struct (k := .struct) (ms := [21, 22]) rfl)]
  have i1 : (demo 21).info = .member { type := some 0, bitSize := some 24, dataBitOffset := some 0 } := rfl
  have i2 : (demo 22).info = .member { type := some 1, byteOffset := 3 } := rfl
  have sim : ∀ (h : Heap), (∀ k, h.fails k = false) → ∃ sl h', simulate 2 3 [none, none, none] 0 h = .ok (0, sl, 2, h') ∧ sl.length = 3 ∧ ∀ k, h'.fails k = false := by
    intro h he
    rw [simulate, dif_neg (by decide), alloc_some he]
    simp only [put, List.length_cons, List.length_nil]
    simp only [show (0 : Nat) < 0 + 1 + 1 + 1 by decide, if_true, Outcome.bind_ok, show ¬ (0 + 1 = 2 + 1) by decide, if_false, show 3 - (chunk 3).1 = 1 by decide]
    rw [simulate, dif_neg (by decide), alloc_some (by exact he)]
    simp only [put, List.length_cons, List.length_nil, List.length_set]
    simp only [show (0 + 1 : Nat) < 0 + 1 + 1 + 1 by decide, if_true, Outcome.bind_ok, show ¬ (0 + 1 + 1 = 2 + 1) by decide, if_false, show 1 - (chunk 1).1 = 0 by decide]
    rw [simulate, dif_pos rfl]
    exact ⟨_, _, rfl, by simp, he⟩
  have fill : ∀ (h : Heap), (∀ k, h.fails k = false) → ∃ sl h',
      fillMembers env demo false 20 2 0 { slots := [none, none, none], id := 0, start := none, heap := h } = .ok (0, { slots := sl, id := 3, start := none, heap := h' }) ∧ sl.length = 3 := by
    intro h he
    rw [fillMembers, if_pos (by decide), b0]
    simp only [Outcome.ofLoop_some, Outcome.bind_ok, i1, isBits, Option.isSome_some, Option.isSome_none, Bool.or_true, if_true, hbits]
    simp only [ne_eq, not_true, if_false]
    rw [fillMembers, if_pos (by decide), b1]
    simp only [Outcome.ofLoop_some, Outcome.bind_ok, i2, isBits, Option.isSome_none, Bool.or_false, Bool.false_eq_true, if_false, endBits]
    obtain ⟨sl, h1, e1, hl, he1⟩ := sim h he
    rw [show ((3 : UInt64) - 0).toNat = 3 by decide, e1]
    simp only [Outcome.bind_ok, ne_eq, not_true, if_false, Outcome.pure_eq]
    obtain ⟨qs, hf22⟩ := one a22 rfl
    rw [base_type demo_named hf22 char_desc, newPrim, alloc_some he1]
    simp only [Outcome.bind_ok, not_true, if_false, put, hl, show 2 < 3 by decide, if_true]
    rw [fillMembers, if_neg (by decide)]
    exact ⟨_, _, rfl, by simp [hl]⟩
  obtain ⟨sl, h', e, hl⟩ := fill { h with next := h.next + 1 + 1, live := fun x => x == h.next + 1 || (x == h.next || h.live x) } he
  rw [alloc_some he]
  simp only [Outcome.ofLoop_some, Outcome.bind_ok]
  rw [if_neg (by rintro ⟨h1, _⟩; revert h1; decide)]
  rw [alloc_some (by exact he)]
  simp only [List.length_cons, List.length_nil, Int.toNat_natCast, List.replicate]
  rw [e]
  simp [endBits, put, hl]

theorem base_other {env : Env} {db : Db} (hn : Named db) {r x : Ref} {qs : List Qual} {n : UInt64} {e : Nat} (hf : Final db r (some x) qs) (hi : (db x).info = .base n e)
    (hd : ∀ t, ¬ Describes db x t) (variadic : Bool) (h : Heap) : ffiType env db variadic r h = .ok (0, none, h) := by
  rw [ffiType_final hf, if_pos (by simp [hi, isBase])]
  have : ∀ l, baseLoop db r h l = .ok (0, none, h) := by
    intro l
    induction l with
    | nil => rfl
    | cons y l ih =>
      obtain ⟨t, p⟩ := y
      rw [baseLoop, isTy_no hn hf (by rintro ⟨y, hy, hd'⟩; cases hy; exact hd t hd')]
      simpa using ih
  exact this _

theorem no_int128 : ∀ t, ¬ Describes demo 16 t := by
  rintro t ⟨_, _, _, hnm, _⟩
  revert hnm
  cases t <;> decide +kernel

/-- **C93** is false of base types that libffi does not have: `__int128` gets code 0 but no description; and `struct {__int128 a; int b;}` is
described as a structure of 32 bytes without elements, and a block stays allocated after its release. -/
theorem C93_int128_false : ∃ (db : Db) (i r a b : Ref), Named db ∧ (db i).info = .base 16 6 ∧ (db r).info = .struct .struct 32 [a, b] ∧ Alias db a (some i) ∧
    (∀ env, Scalar env db b .sint) ∧ ∀ (env : Env) (h : Heap), h.Ok → env.vaList r = false → (∀ k, h.fails k = false) →
      ffiType env db false i h = .ok (0, none, h) ∧
      ∃ t h' h'' k, ffiType env db false r h = .ok (0, some t, h') ∧ see t = .ok (.struct 32 0 []) ∧ cleanup t h' = .ok h'' ∧ h.live k = false ∧ h''.live k = true := by
  refine ⟨demo, 16, 17, 18, 19, demo_named, rfl, rfl, a18, fun env => step_scalar (t := .int) a19 int_desc, fun env h ho hv he => ⟨base_other demo_named (here rfl) rfl no_int128 _ _, ?_⟩⟩
  have hf : Final demo 17 (some 17) [] := here rfl
  have hmem := (C19_members demo 17 _ _ hf).1 17 .struct 32 [18, 19] rfl rfl
  have b0 : byMemberId demo (some 17) (0 : Nat) = some (some 18) := hmem.2.2.2.1 0 (by decide)
  have b1 : byMemberId demo (some 17) (1 : Nat) = some (some 19) := hmem.2.2.2.1 1 (by decide)
  have i1 : (demo 18).info = .member { type := some 16 } := rfl
  have i2 : (demo 19).info = .member { type := some 0, byteOffset := 16 } := rfl
  have hlive : ∀ x, h.next ≤ x → h.live x = false := by
    intro x hx
    cases hl : h.live x with
    | false => rfl
    | true => have := ho x hl; omega
  have fill : ∀ (h : Heap), (∀ k, h.fails k = false) →
      fillMembers env demo false 17 2 0 { slots := [none, none, none], id := 0, start := none, heap := h } =
        .ok (0, { slots := [none, some (.prim h.next .sint), none], id := 2, start := none, heap := { h with next := h.next + 1, live := fun x => x == h.next || h.live x } }) := by
    intro h he
    obtain ⟨qs, hf18⟩ := one a18 rfl
    obtain ⟨qs', hf19⟩ := one a19 rfl
    rw [fillMembers, if_pos (by decide), b0]
    simp only [Outcome.ofLoop_some, Outcome.bind_ok, i1, isBits, Option.isSome_none, Bool.or_false, Bool.false_eq_true, if_false, endBits]
    simp only [ne_eq, not_true, if_false]
    rw [base_other demo_named hf18 rfl no_int128]
    simp only [Outcome.bind_ok, not_true, if_false]
    rw [fillMembers, if_pos (by decide), b1]
    simp only [Outcome.ofLoop_some, Outcome.bind_ok, i2, isBits, Option.isSome_none, Bool.or_false, Bool.false_eq_true, if_false, endBits]
    simp only [ne_eq, not_true, if_false]
    rw [base_type demo_named hf19 int_desc, newPrim, alloc_some he]
    simp only [Outcome.bind_ok, not_true, if_false, put, List.length_cons, List.length_nil, show 0 + 1 < 0 + 1 + 1 + 1 by decide, if_true]
    rw [fillMembers, if_neg (by decide)]
    rfl
  have hval : ffiType env demo false 17 h = .ok (0, some (.struct h.next (h.next + 1) 32 0 [none, some (.prim (h.next + 1 + 1) .sint), none]),
      { h with next := h.next + 1 + 1 + 1, live := fun x => x == h.next + 1 + 1 || (x == h.next + 1 || (x == h.next || h.live x)) }) := by
    rw [ffiType_final hf, show (demo 17).info = .struct .struct 32 [18, 19] from rfl]
    simp only [isBase, isEnum, isPointer, isStruct, isArray, hv, Bool.false_eq_true, if_false, if_true, Bool.false_and]
    rw [structType, hmem.1, stored_size (n := 32) hf (.struct (k := .struct) (ms := [18, 19]) rfl), alloc_some he]
    simp only [Outcome.ofLoop_some, Outcome.bind_ok]
    rw [if_neg (by rintro ⟨h1, _⟩; revert h1; decide)]
    rw [alloc_some (by exact he)]
    simp only [List.length_cons, List.length_nil, Int.toNat_natCast, List.replicate]
    rw [fill _ (by exact he)]
    simp [endBits, put]
  refine ⟨_, _, ?_, h.next + 1 + 1, hval, by simp [see, seeSlots], ?_, hlive _ (by omega), ?_⟩
  · exact { h with next := h.next + 1 + 1 + 1, live := fun x => x != h.next && (x != h.next + 1 && (x == h.next + 1 + 1 || (x == h.next + 1 || (x == h.next || h.live x)))) }
  · simp [cleanup, cleanupSlots, Heap.free]
  · simp
    omega

/-! ### C94: the call -/

/-- **C94**, partial: a call with a stored result place reaches the function once, with exactly the stored arguments, as C passes them (`Arguments`, `Dots`): everything
that happens is what the function does; if it returns, the code is 0.

Missing: functions without result are undefined (`C94_void_false`), small types in `...` are not promoted (`C94_promotion_false`), structures in
`...` arrive as pointers (`C94_variadic_struct_false`); memory that runs out (`C96_leak_false`). -/
theorem C94_call_partial (lib : Lib) (env : Env) (db : Db) (hn : Named db) (fn : Nat) (hfn : fn ≠ 0) (v w : Value) (t : Ref) (ps : List Ref) (as : List Arg) (fixed : Option Nat) (m : Mem)
    (s : Shape) (n : Nat) (hf : Function db v.entry (some t) ps) (ha : Arguments env db m (Dots env db m) v ps as fixed) (hl : Looks env db w.entry s) (hs : Size db w.entry n) (hlt : n < 2 ^ 64)
    (hw : w.addr ≠ 0) (hp : Accepts lib s as fixed) (h : Heap) (ho : h.Ok) (he : ∀ k, h.fails k = false) :
    ∃ k, ffiCall lib env db (some v) fn (some w) m h = (lib.run fn fixed s as m >>= k) ∧
      ∀ out m1, out.length = n → Room m1 w.addr n → ∃ m2 h', k (out, m1) = .ok (0, m2, h') := by
  obtain ⟨k, e, hk⟩ := ffiCall_ok hn hf (by simp) (fun _ _ => raw_dots) ha hl hs hlt hw hfn hp he (Owns.init ho)
  refine ⟨k, e, fun out m1 h1 h2 => ?_⟩
  obtain ⟨m2, h', e, _⟩ := hk out m1 h1 h2
  exact ⟨m2, h', e⟩

/-- **C94**: what cannot be called is refused, and nothing happens: no call, no function, or something that is no function. -/
theorem C94_refused (lib : Lib) (env : Env) (db : Db) (v : Value) (fn : Nat) (resv : Option Value) (m : Mem) (h : Heap) :
    ffiCall lib env db none fn resv m h = .ok (-22, m, h) ∧
    (∀ t ps, Function db v.entry t ps → ffiCall lib env db (some v) 0 resv m h = .ok (-22, m, h)) ∧
    (NoFunction db v.entry → ffiCall lib env db (some v) fn resv m h = .ok (-22, m, h)) := by
  refine ⟨rfl, ?_, ?_⟩
  · intro t ps hf
    obtain ⟨f, hfun, _⟩ := function_params hf
    simp [ffiCall, hasLoad, hfun]
  · intro hno
    have hfun := finalOf_noFunction hno
    have hl : ∃ b, hasLoad env db v = .ok b := by
      unfold hasLoad
      rw [hfun]
      simp only [Outcome.ofLoop_some, Outcome.bind_ok]
      split <;> exact ⟨_, rfl⟩
    obtain ⟨b, hl⟩ := hl
    unfold ffiCall
    simp only [hl, hfun, Outcome.bind_ok, Outcome.ofLoop_some, Option.isNone_none, if_true]
    split <;> rfl

/-- **C94** is false of functions without result: every call of one without parameters is undefined: libffi is given no result type (NULL). -/
theorem C94_void_false (lib : Lib) (env : Env) (db : Db) (fn : Nat) (hfn : fn ≠ 0) (v : Value) (resv : Option Value) (m : Mem) (h : Heap) (hf : Function db v.entry none [])
    (hp : env.params v.addr = []) : ffiCall lib env db (some v) fn resv m h = .ub := by
  obtain ⟨f, hfun, hres, hcount, _⟩ := function_params hf
  have hload : hasLoad env db v = .ok true := by simp [hasLoad, hfun]
  simp only [ffiCall, hload, hfun, hcount, hp, Outcome.bind_ok, Outcome.ofLoop_some, hfn, Bool.not_true, Bool.false_or, decide_false, Bool.false_eq_true, if_false, Option.isNone_some,
    List.length_nil, countVas, wrap, call, hres, callWith, blocksFor, fillFixed, finishCall, prepare, seeOpt, freeOpt]
  simp [blocksFor, fillFixed, finishCall, prepare, seeOpt, freeOpt, nullPvalues]

/-- A function without result. -/
example : Function demo 26 none [] := ⟨26, [], here rfl, .inl rfl⟩

/-- The memory of the examples: a `struct s`, an `int`, room for a result, a `char`. -/
def demoMem : Mem := fun a =>
  if 100 ≤ a ∧ a < 108 then [1, 0, 0, 0, 97, 98, 0, 9][a - 100]?
  else if 200 ≤ a ∧ a < 204 then [5, 0, 0, 0][a - 200]?
  else if 300 ≤ a ∧ a < 304 then some 0
  else if a = 400 then some 97 else none

/-- Stored calls: `f(s, 5)` (10), `f(s, 'a')` (11), `f(s, s)` (12), `h` with a `va_list` of 5 (13). -/
def demoParams (a : Nat) : List Value :=
  if a = 10 then [⟨9, 100⟩, ⟨10, 20⟩] else if a = 11 then [⟨9, 100⟩, ⟨10, 21⟩] else if a = 12 then [⟨9, 100⟩, ⟨10, 22⟩] else if a = 13 then [⟨23, 23⟩]
  else if a = 20 ∨ a = 23 then [⟨0, 200⟩] else if a = 21 then [⟨1, 400⟩] else if a = 22 then [⟨4, 100⟩] else []

/-- A libffi that accepts every call, and functions that return 7. -/
def demoLib : Lib := ⟨fun _ _ _ => true, fun _ _ _ _ m => .ok ([7, 0, 0, 0], m), [0, 0, 0, 0]⟩

theorem bytes_of {m : Mem} {a : Nat} {bs : List UInt8} (h : ∀ i < bs.length, m (a + i) = bs[i]?) : Bytes m a bs := by
  intro i b hb
  rw [h i (List.getElem?_eq_some_iff.1 hb).1, hb]

/-- `struct s` as it arrives. -/
def demoS : Arg := .object (.struct 8 0 [.prim .sint, .struct 3 0 [.prim .schar, .prim .schar, .prim .schar]]) [1, 0, 0, 0, 97, 98, 0, 9]

theorem demo_fixed {D : Value → Arg → Prop} : Fixed (plainEnv demoParams) demo demoMem D ⟨9, 100⟩ demoS := by
  obtain ⟨qs, hf⟩ := one (db := demo) (r := 9) (t := 4) (.param rfl) rfl
  exact .object (demo_struct hf rfl rfl) rfl (by decide) rfl (bytes_of (by decide +kernel))

theorem demo_f : Function demo 8 (some 0) [9, 10] := ⟨8, [], here rfl, .inl rfl⟩

theorem demo_dots : Dots (plainEnv demoParams) demo demoMem ⟨0, 200⟩ (.object (.prim .sint) [5, 0, 0, 0]) :=
  .scalar demo_int trivial (by decide) rfl (bytes_of (by decide +kernel))

/-- `f(s, 5)`. -/
theorem demo_args : Arguments (plainEnv demoParams) demo demoMem (Dots (plainEnv demoParams) demo demoMem) ⟨8, 10⟩ [9, 10] [demoS, .object (.prim .sint) [5, 0, 0, 0]] (some 1) :=
  .dots (vs := [⟨9, 100⟩]) (d := ⟨10, 20⟩) (q := 10) (as := [demoS]) rfl rfl rfl ⟨none, rfl⟩ (by decide) rfl (.cons demo_fixed .nil) (.cons demo_dots .nil)

theorem int_size : Size demo 0 4 := .stored (.base (n := 4) rfl)

example : ∃ k, ffiCall demoLib (plainEnv demoParams) demo (some ⟨8, 10⟩) 1 (some ⟨0, 300⟩) demoMem (Heap.empty fun _ => false) =
      (demoLib.run 1 (some 1) (.prim .sint) [demoS, .object (.prim .sint) [5, 0, 0, 0]] demoMem >>= k) ∧
    ∀ out m1, out.length = 4 → Room m1 300 4 → ∃ m2 h', k (out, m1) = .ok (0, m2, h') :=
  C94_call_partial demoLib (plainEnv demoParams) demo demo_named 1 (by decide) ⟨8, 10⟩ ⟨0, 300⟩ 0 [9, 10] _ (some 1) demoMem (.prim .sint) 4 demo_f demo_args (.scalar demo_int) int_size
    (by decide) (by decide) ⟨rfl, fun _ _ => rfl⟩ _ (fun _ h => by cases h) (fun _ => rfl)

/-- The environment in which parameter 23 is a `va_list`. -/
def vaEnv : Env := ⟨fun r => r == 23, demoParams⟩

/-- `h` with a `va_list` from which 5 can be read. -/
theorem demo_va_args : Arguments vaEnv demo demoMem (Dots vaEnv demo demoMem) ⟨25, 13⟩ [23] [.vaList [.object (.prim .sint) [5, 0, 0, 0]]] none := by
  obtain ⟨qs, hf⟩ := one (db := demo) (r := 23) (t := 24) (.param rfl) rfl
  refine .plain rfl (fun q hq => ?_) (.cons (.vaList hf rfl rfl (by decide) (.cons (.scalar demo_int trivial (by decide) rfl (bytes_of (by decide +kernel))) .nil)) .nil)
  cases hq
  rintro ⟨t, hi⟩
  cases hi

example : ∃ k, ffiCall demoLib vaEnv demo (some ⟨25, 13⟩) 1 (some ⟨0, 300⟩) demoMem (Heap.empty fun _ => false) =
      (demoLib.run 1 none (.prim .sint) [.vaList [.object (.prim .sint) [5, 0, 0, 0]]] demoMem >>= k) ∧
    ∀ out m1, out.length = 4 → Room m1 300 4 → ∃ m2 h', k (out, m1) = .ok (0, m2, h') :=
  C94_call_partial demoLib vaEnv demo demo_named 1 (by decide) ⟨25, 13⟩ ⟨0, 300⟩ 0 [23] _ none demoMem (.prim .sint) 4 ⟨25, [], here rfl, .inl rfl⟩ demo_va_args (.scalar demo_int) int_size
    (by decide) (by decide) ⟨rfl, fun _ _ => rfl⟩ _ (fun _ h => by cases h) (fun _ => rfl)

/-- **C94** is false of small types in `...`: the `char` 'a' passed there arrives as one byte; C passes an `int`. -/
theorem C94_promotion_false : ∃ (env : Env) (db : Db) (m : Mem) (v w : Value) (s : Arg), Named db ∧ Function db v.entry (some 0) [9, 10] ∧ IsDots db 10 ∧
    (∃ d p, env.params v.addr = [⟨9, 100⟩, d] ∧ env.params d.addr = [p] ∧ Describes db p.entry .char ∧ m p.addr = some 97) ∧
    ∀ (lib : Lib) (h : Heap), h.Ok → (∀ k, h.fails k = false) → (∀ f t l, lib.prep f t l = true) →
      ∃ k, ffiCall lib env db (some v) 1 (some w) m h = (lib.run 1 (some 1) (.prim .sint) [s, .object (.prim .schar) [97]] m >>= k) := by
  refine ⟨plainEnv demoParams, demo, demoMem, ⟨8, 11⟩, ⟨0, 300⟩, demoS, demo_named, demo_f, ⟨none, rfl⟩, ⟨⟨10, 21⟩, ⟨1, 400⟩, rfl, rfl, char_desc, by decide +kernel⟩, ?_⟩
  intro lib h ho he hp
  have hraw : Raw (plainEnv demoParams) demo demoMem ⟨1, 400⟩ (.object (.prim .schar) [97]) := .scalar demo_char (by decide) rfl (bytes_of (by decide +kernel))
  have ha : Arguments (plainEnv demoParams) demo demoMem (Raw (plainEnv demoParams) demo demoMem) ⟨8, 11⟩ [9, 10] [demoS, .object (.prim .schar) [97]] (some 1) :=
    .dots (vs := [⟨9, 100⟩]) (d := ⟨10, 21⟩) (q := 10) (as := [demoS]) rfl rfl rfl ⟨none, rfl⟩ (by decide) rfl (.cons demo_fixed .nil) (.cons hraw .nil)
  obtain ⟨k, e, _⟩ := ffiCall_ok (lib := lib) (fn := 1) (w := ⟨0, 300⟩) demo_named demo_f (by simp) (fun _ _ h => h) ha (.scalar demo_int) int_size (by decide) (by decide) (by decide)
    ⟨hp _ _ _, fun _ _ => hp _ _ _⟩ he (Owns.init ho)
  exact ⟨k, e⟩

/-- **C94** is false of structures in `...`: a `struct s` passed there arrives as a pointer to it. -/
theorem C94_variadic_struct_false : ∃ (env : Env) (db : Db) (m : Mem) (v w : Value) (s : Arg), Named db ∧ Function db v.entry (some 0) [9, 10] ∧ IsDots db 10 ∧
    (∃ d p n ms, env.params v.addr = [⟨9, 100⟩, d] ∧ env.params d.addr = [p] ∧ (db p.entry).info = .struct .struct n ms ∧ p.addr = 100) ∧
    ∀ (lib : Lib) (h : Heap), h.Ok → (∀ k, h.fails k = false) → (∀ f t l, lib.prep f t l = true) →
      ∃ k, ffiCall lib env db (some v) 1 (some w) m h = (lib.run 1 (some 1) (.prim .sint) [s, .object (.prim .pointer) [100, 0, 0, 0, 0, 0, 0, 0]] m >>= k) := by
  refine ⟨plainEnv demoParams, demo, demoMem, ⟨8, 12⟩, ⟨0, 300⟩, demoS, demo_named, demo_f, ⟨none, rfl⟩, ⟨⟨10, 22⟩, ⟨4, 100⟩, _, _, rfl, rfl, rfl, rfl⟩, ?_⟩
  intro lib h ho he hp
  have hraw : Raw (plainEnv demoParams) demo demoMem ⟨4, 100⟩ (.object (.prim .pointer) [100, 0, 0, 0, 0, 0, 0, 0]) :=
    .aggregate (x := 4) (here rfl) rfl rfl (by decide) ⟨rfl, by decide +kernel⟩
  have ha : Arguments (plainEnv demoParams) demo demoMem (Raw (plainEnv demoParams) demo demoMem) ⟨8, 12⟩ [9, 10] [demoS, .object (.prim .pointer) [100, 0, 0, 0, 0, 0, 0, 0]] (some 1) :=
    .dots (vs := [⟨9, 100⟩]) (d := ⟨10, 22⟩) (q := 10) (as := [demoS]) rfl rfl rfl ⟨none, rfl⟩ (by decide) rfl (.cons demo_fixed .nil) (.cons hraw .nil)
  obtain ⟨k, e, _⟩ := ffiCall_ok (lib := lib) (fn := 1) (w := ⟨0, 300⟩) demo_named demo_f (by simp) (fun _ _ h => h) ha (.scalar demo_int) int_size (by decide) (by decide) (by decide)
    ⟨hp _ _ _, fun _ _ => hp _ _ _⟩ he (Owns.init ho)
  exact ⟨k, e⟩

/-- **C94** is false when memory runs out: of the three blocks for the arguments the third is not tested (the second is, again), so a call with a `va_list` for which
just this request (the twelfth) fails writes to NULL, instead of being refused. -/
theorem C94_null_false (lib : Lib) (hp : ∀ f t l, lib.prep f t l = true) : ffiCall lib vaEnv demo (some ⟨25, 13⟩) 1 (some ⟨0, 300⟩) demoMem (Heap.empty (· == 11)) = .ub := by
  have hb : ∀ va h, ffiType vaEnv demo va 0 h = .ok (newPrim .sint h) := fun va h => base_type demo_named (here rfl) int_desc va h
  obtain ⟨qs, hf⟩ := one (db := demo) (r := 23) (t := 24) (.param rfl) rfl
  have hv : ∀ h, ffiType vaEnv demo false 23 h = vaType h := fun h => by rw [ffiType_final hf]; rfl
  obtain ⟨f, hfun, hres, hcount, hid⟩ := function_params (db := demo) (r := 25) (t := some 0) (ps := [23]) ⟨25, [], here rfl, .inl rfl⟩
  have hid0 : byParameterId demo (some 25) 0 = some (some 23) := hid 0 (by decide)
  have hds : dotsSrc demo ⟨0, 200⟩ = .ok (.at 200) := by
    have key : ∀ want, finalOf demo (some 0) want = some (if want (demo 0).info then some 0 else none) := finalOf_some (here rfl)
    simp only [dotsSrc, key]
    rfl
  have hload : hasLoad vaEnv demo ⟨25, 13⟩ = .ok true := by simp [hasLoad, hfun]
  have p13 : vaEnv.params 13 = [⟨23, 23⟩] := rfl
  have p23 : vaEnv.params 23 = [⟨0, 200⟩] := rfl
  have v23 : vaEnv.vaList 23 = true := rfl
  have hdots : isDots demo 23 = false := rfl
  have hsee : ∀ b, seeOpt (some (.prim b .sint)) = .ok (.prim .sint) := fun b => rfl
  have hfetch : fetchAll demoMem [(Shape.prim .sint, Src.at 200)] = .ok [.object (.prim .sint) [5, 0, 0, 0]] := rfl
  simp [ffiCall, hload, hfun, hcount, hid0, p13, p23, v23, countVas, newItem, Heap.alloc, Heap.empty, Heap.free, collectVas, wrap, threeBlocks, fillDots, hb, newPrim, hds, nullPvalues, usesPvalues,
    hsee, hp, hfetch, call, hres, hdots, callWith, blocksFor, fillFixed, hv, vaType, newValue, Outcome.assert]

/-! ### C95: the result -/

/-- **C95**, partial: when the function returns, its result is in the place of the result, byte for byte, and all other memory is as the function left it.

Missing: as for C94. -/
theorem C95_result_partial (lib : Lib) (env : Env) (db : Db) (hn : Named db) (fn : Nat) (hfn : fn ≠ 0) (v w : Value) (t : Ref) (ps : List Ref) (as : List Arg) (fixed : Option Nat) (m : Mem)
    (s : Shape) (n : Nat) (hf : Function db v.entry (some t) ps) (ha : Arguments env db m (Dots env db m) v ps as fixed) (hl : Looks env db w.entry s) (hs : Size db w.entry n) (hlt : n < 2 ^ 64)
    (hw : w.addr ≠ 0) (hp : Accepts lib s as fixed) (h : Heap) (ho : h.Ok) (he : ∀ k, h.fails k = false) (out : List UInt8) (m1 : Mem) (hr : lib.run fn fixed s as m = .ok (out, m1))
    (hout : out.length = n) (hroom : Room m1 w.addr n) :
    ∃ m2 h', ffiCall lib env db (some v) fn (some w) m h = .ok (0, m2, h') ∧ Written m1 w.addr out m2 := by
  obtain ⟨k, e, hk⟩ := ffiCall_ok hn hf (by simp) (fun _ _ => raw_dots) ha hl hs hlt hw hfn hp he (Owns.init ho)
  obtain ⟨m2, h', e', hwr, _⟩ := hk out m1 hout hroom
  exact ⟨m2, h', by rw [e, hr, Outcome.bind_ok, e'], hwr⟩

/-- `f(s, 5)` returns 7. -/
example : ∃ m2 h', ffiCall demoLib (plainEnv demoParams) demo (some ⟨8, 10⟩) 1 (some ⟨0, 300⟩) demoMem (Heap.empty fun _ => false) = .ok (0, m2, h') ∧ Written demoMem 300 [7, 0, 0, 0] m2 :=
  C95_result_partial demoLib (plainEnv demoParams) demo demo_named 1 (by decide) ⟨8, 10⟩ ⟨0, 300⟩ 0 [9, 10] _ (some 1) demoMem (.prim .sint) 4 demo_f demo_args (.scalar demo_int) int_size
    (by decide) (by decide) ⟨rfl, fun _ _ => rfl⟩ _ (fun _ h => by cases h) (fun _ => rfl) [7, 0, 0, 0] demoMem rfl rfl (by unfold Room; decide +kernel)

/-! ### C96: nothing stays allocated -/

/-- **C96**, partial: after a call that succeeded the live blocks are those from before.

Missing: after an error blocks stay allocated (`C96_leak_false`). -/
theorem C96_nothing_left_partial (lib : Lib) (env : Env) (db : Db) (hn : Named db) (fn : Nat) (hfn : fn ≠ 0) (v w : Value) (t : Ref) (ps : List Ref) (as : List Arg) (fixed : Option Nat) (m : Mem)
    (s : Shape) (n : Nat) (hf : Function db v.entry (some t) ps) (ha : Arguments env db m (Dots env db m) v ps as fixed) (hl : Looks env db w.entry s) (hs : Size db w.entry n) (hlt : n < 2 ^ 64)
    (hw : w.addr ≠ 0) (hp : Accepts lib s as fixed) (h : Heap) (ho : h.Ok) (he : ∀ k, h.fails k = false) (out : List UInt8) (m1 : Mem) (hr : lib.run fn fixed s as m = .ok (out, m1))
    (hout : out.length = n) (hroom : Room m1 w.addr n) :
    ∃ m2 h', ffiCall lib env db (some v) fn (some w) m h = .ok (0, m2, h') ∧ ∀ b, h'.live b = h.live b := by
  obtain ⟨k, e, hk⟩ := ffiCall_ok hn hf (by simp) (fun _ _ => raw_dots) ha hl hs hlt hw hfn hp he (Owns.init ho)
  obtain ⟨m2, h', e', _, o', _⟩ := hk out m1 hout hroom
  exact ⟨m2, h', by rw [e, hr, Outcome.bind_ok, e'], fun b => by rw [o'.live]; simp⟩

example : ∃ m2 h', ffiCall demoLib vaEnv demo (some ⟨25, 13⟩) 1 (some ⟨0, 300⟩) demoMem (Heap.empty fun _ => false) = .ok (0, m2, h') ∧ ∀ b, h'.live b = false :=
  C96_nothing_left_partial demoLib vaEnv demo demo_named 1 (by decide) ⟨25, 13⟩ ⟨0, 300⟩ 0 [23] _ none demoMem (.prim .sint) 4 ⟨25, [], here rfl, .inl rfl⟩ demo_va_args (.scalar demo_int) int_size
    (by decide) (by decide) ⟨rfl, fun _ _ => rfl⟩ _ (fun _ h => by cases h) (fun _ => rfl) [7, 0, 0, 0] demoMem rfl rfl (by unfold Room; decide +kernel)

/-- **C96** is false of calls that fail: when libffi refuses the call of a function without parameters, the description of its result stays
allocated. -/
theorem C96_leak_false (lib : Lib) (env : Env) (db : Db) (hn : Named db) (fn : Nat) (hfn : fn ≠ 0) (v w : Value) (t : Ref) (m : Mem) (s : Shape) (n : Nat)
    (hf : Function db v.entry (some t) []) (hpar : env.params v.addr = []) (hl : Looks env db w.entry s) (hs : Size db w.entry n) (hlt : n < 2 ^ 64) (hw : w.addr ≠ 0)
    (hp : lib.prep none s [] = false) (h : Heap) (ho : h.Ok) (he : ∀ k, h.fails k = false) :
    ∃ h' b, ffiCall lib env db (some v) fn (some w) m h = .ok (-14, m, h') ∧ h.live b = false ∧ h'.live b = true := by
  obtain ⟨f, hfun, hres, hcount, _⟩ := function_params hf
  have hload : hasLoad env db v = .ok true := by simp [hasLoad, hfun]
  obtain ⟨rt, h1, e1, hsee, o1, n1⟩ := (looks_makes hn hl _ h (Owns.init ho)).enough he
  obtain ⟨sz, ev, hv⟩ := byteSize_of hs hlt
  obtain ⟨b, hb⟩ : ∃ b, b ∈ blocks rt := by
    cases rt with
    | prim b p => exact ⟨b, by simp [blocks]⟩
    | struct b e n a sl => exact ⟨b, by simp [blocks]⟩
  refine ⟨h1, b, ?_, o1.apart b (by simp [hb]), by rw [o1.live]; simp [hb]⟩
  have hassert : (decide (sz < 8) || decide (w.addr ≠ 0)) = true := by simp [hw]
  have hprep : prepare lib none (some rt) [] = .ok none := by simp [prepare, seeOpt, hsee, hp]
  have hfin : finishCall lib db fn (some w) (some rt) none none none [] m h1 = .ok (-14, m, h1) := by
    simp only [finishCall, ev, Outcome.ofLoop_some, Outcome.bind_ok, hassert, Outcome.assert, if_true, freeOpt, hprep, release, cleanupArgs]
    rfl
  simp only [ffiCall, hload, hfun, hcount, hpar, Outcome.bind_ok, Outcome.ofLoop_some, hfn, Bool.not_true, Bool.false_or, decide_false, Bool.false_eq_true, if_false, Option.isNone_some,
    List.length_nil, countVas, wrap, call, hres, Option.isSome_some, if_true, e1, callWith, blocksFor, fillFixed]
  simp [blocksFor, fillFixed, nullPvalues, hfin]

/-- `int k(void)` refused by libffi. -/
example : ∃ h' b, ffiCall ⟨fun _ _ _ => false, fun _ _ _ _ _ => .ub, []⟩ (plainEnv demoParams) demo (some ⟨29, 50⟩) 1 (some ⟨0, 300⟩) demoMem (Heap.empty fun _ => false) = .ok (-14, demoMem, h') ∧
    (Heap.empty fun _ => false).live b = false ∧ h'.live b = true :=
  C96_leak_false _ _ demo demo_named 1 (by decide) ⟨29, 50⟩ ⟨0, 300⟩ 0 demoMem (.prim .sint) 4 ⟨29, [], here rfl, .inl rfl⟩ rfl (.scalar demo_int) int_size (by decide) (by decide) rfl _
    (fun _ h => by cases h) (fun _ => rfl)

end Verif.Ffi
