import Verif.Value.PropsObject
/-
Property theorems of base-type values: typed access (C24), numbers (C26), equality and copy
(C27), arrays made of a pointer (C55).
-/
namespace Verif.Value
open Verif Verif.Entry Verif.Entry.Spec Verif.Value.Spec

/-! ### C24 -/

/-- C24 (partial): typed access to an object whose type is anything but the requested one is
refused and changes nothing; to an object whose type is qualified `const`, writing is refused
and changes nothing; to a non-const object of the right type (which is not a bit-field, see
C21), reading gives the number its bytes hold, writing changes only its bytes, and what was
written is read back (a `long double` as far as passing it by value preserves its bytes).
Missing: objects that are const because they are part of a const object, and const
enumerations and pointers (`C24_member_const_false`, `C24_enumeration_const_false`,
`C24_pointer_const_false`). -/
theorem C24_typed_access_partial (cfg : Plat) (db : Db) (hn : Named db) (m : Mem) (v : Value) (f : Option Ref) (qs : List Qual)
    (h : Final db v.entry f qs) (ha : v.addr ≠ 0) (t : Ty) :
    ((¬ ∃ x, f = some x ∧ Describes db x t) →
      (∃ c, getTy cfg db m (some v) t = .ok (.error c)) ∧ ∀ var, ∃ c, c ≠ 0 ∧ setTy cfg db m (some v) t var = .ok (c, m)) ∧
    (∀ x, f = some x → ¬ Dots db x → Qual.const ∈ qs → ∀ var, ∃ c, c ≠ 0 ∧ setTy cfg db m (some v) t var = .ok (c, m)) ∧
    (∀ x, f = some x → Describes db x t → ¬ IsBitfield db v.entry →
      (∀ n, Holds m v.addr (Spec.sizeOf t) n → getTy cfg db m (some v) t = .ok (.ok n)) ∧
      (Qual.const ∉ qs → (∀ k < Spec.sizeOf t, m (v.addr + k) ≠ none) → ∀ var, ∃ m', setTy cfg db m (some v) t var = .ok (0, m') ∧
        OnlyChanged m m' v.addr (Spec.sizeOf t) ∧
        (t ≠ .ldouble → t ≠ .ldoubleComplex → var < 256 ^ Spec.sizeOf t → getTy cfg db m' (some v) t = .ok (.ok var)) ∧
        (t = .ldouble ∨ t = .ldoubleComplex → cfg.byValue t var < 256 ^ Spec.sizeOf t → getTy cfg db m' (some v) t = .ok (.ok (cfg.byValue t var))))) := by
  refine ⟨?_, ?_, ?_⟩
  · intro hd
    obtain ⟨h1, h2⟩ := getTy_mismatch (cfg := cfg) (m := m) hn h ha hd
    exact ⟨h1, fun var => by obtain ⟨c, a, b⟩ := h2 var; exact ⟨c, b, a⟩⟩
  · intro x hx hnd hq var
    subst hx
    obtain ⟨c, a, b⟩ := setTy_const (cfg := cfg) (m := m) hn h hnd ha t hq var
    exact ⟨c, b, a⟩
  · intro x hx hd hb
    subst hx
    obtain ⟨h1, h2⟩ := getTy_plain (cfg := cfg) (m := m) hn h ha hd hb
    refine ⟨h1, ?_⟩
    intro hq hm var
    obtain ⟨m', hs, hh, hoc⟩ := h2 hq (mapped_of hm) var
    have hg := (getTy_plain (cfg := cfg) (m := m') hn h ha hd hb).1 _ hh
    refine ⟨m', hs, hoc, ?_, ?_⟩
    · intro n1 n2 hlt
      rw [hg, Plat.passed, if_neg (by simp [n1, n2]), Nat.mod_eq_of_lt hlt]
    · intro ht hlt
      rw [hg, Plat.passed, if_pos ht, Nat.mod_eq_of_lt hlt]

theorem exInt : Final exDb 1 (some 0) [] := .step (.typedef rfl) (.here (exNot 0 (by decide)))
theorem exConst : Final exDb 2 (some 0) [.const] := .step (.qual rfl) exInt
theorem exDesc : Describes exDb 0 .int := ⟨4, 6, rfl, rfl, fun _ => rfl, fun _ => rfl⟩
theorem exNotBit (r : Ref) (h : ∀ mi, (exDb r).info ≠ .member mi) : ¬ IsBitfield exDb r := fun ⟨mi, hi, _⟩ => h mi hi

/-- An `int` through a typedef: 5 is written and read back; reading it as `unsigned int` is
refused; the `const` one is not written. -/
example : (∃ m', setTy (exCfg true) exDb (exMem fun _ => 1) (some ⟨1, 8⟩) .int 5 = .ok (0, m') ∧ getTy (exCfg true) exDb m' (some ⟨1, 8⟩) .int = .ok (.ok 5) ∧ m' 12 = some 1) ∧
    (∃ c, getTy (exCfg true) exDb (exMem fun _ => 1) (some ⟨1, 8⟩) .uint = .ok (.error c)) ∧
    (∃ c, c ≠ 0 ∧ setTy (exCfg true) exDb (exMem fun _ => 1) (some ⟨2, 8⟩) .int 5 = .ok (c, exMem fun _ => 1)) := by
  refine ⟨?_, ?_, ?_⟩
  · obtain ⟨_, _, h⟩ := C24_typed_access_partial (exCfg true) exDb exNamed (exMem fun _ => 1) ⟨1, 8⟩ _ _ exInt (by decide) .int
    obtain ⟨_, h2⟩ := h 0 rfl exDesc (exNotBit 1 (by intro mi; simp [exDb]))
    obtain ⟨m', a, b, c, _⟩ := h2 (by decide) (fun k hk => exMapped _ _ (by show 8 ≤ 8 + k; omega) (by show 8 + k < 24; simp [Spec.sizeOf] at hk; omega)) 5
    exact ⟨m', a, c (by decide) (by decide) (by decide), b 12 (by decide)⟩
  · refine ((C24_typed_access_partial (exCfg true) exDb exNamed (exMem fun _ => 1) ⟨1, 8⟩ _ _ exInt (by decide) .uint).1 ?_).1
    intro ⟨x, hx, bs, be, _, hnm, _⟩
    simp at hx
    subst hx
    simp [exDb, typeName] at hnm
  · refine (C24_typed_access_partial (exCfg true) exDb exNamed (exMem fun _ => 1) ⟨2, 8⟩ _ _ exConst (by decide) .int).2.1 0 rfl ?_ (by decide) 5
    intro ⟨t, ht⟩
    simp [exDb] at ht

/-- C24 fails for parts of const objects: the member of a `const struct` is written. -/
theorem C24_member_const_false : Final exDb 18 (some 17) [.const] ∧ memberValue exDb (some ⟨18, 8⟩) (0 : Nat) = .ok (some ⟨16, 8⟩) ∧
    ∃ m', setTy (exCfg true) exDb (exMem fun _ => 1) (some ⟨16, 8⟩) .int 5 = .ok (0, m') ∧ m' 8 = some 5 := by
  have h17 : Final exDb 17 (some 17) [] := .here (by
    intro t ha; cases ha <;> rename_i ha <;> exact absurd ha (by simp [exDb]))
  have h18 : Final exDb 18 (some 17) [.const] := .step (.qual rfl) h17
  refine ⟨h18, ?_, ?_⟩
  · obtain ⟨h, _⟩ := C23_members exDb ⟨18, 8⟩ _ _ h18 (by decide)
    exact (h 17 .struct 4 [16] rfl rfl (by intro r hr; simp at hr; subst hr; exact ⟨_, rfl⟩)).1 0 16 _ rfl rfl
  · have hf : Final exDb 16 (some 0) [] := exMember (r := 16) rfl rfl (exNot 0 (by decide))
    have hb : ¬ IsBitfield exDb 16 := by
      intro ⟨mi, hi, h⟩
      simp [exDb] at hi
      subst hi
      simp at h
    obtain ⟨_, h⟩ := getTy_plain (cfg := exCfg true) (m := exMem fun _ => 1) (v := ⟨16, 8⟩) exNamed hf (by decide) exDesc hb
    obtain ⟨m', a, b, c⟩ := h (by decide) (mapped_of fun k hk => exMapped _ _ (by show 8 ≤ 8 + k; omega) (by show 8 + k < 24; simp [Spec.sizeOf] at hk; omega)) 5
    exact ⟨m', a, b.2 0 (by decide)⟩

/-- C24 fails for const enumerations: the object is written. -/
theorem C24_enumeration_const_false : Final exDb 19 (some 7) [.const] ∧
    ∃ m', setEnumeration exDb (exMem fun _ => 1) (some ⟨19, 8⟩) 5 = .ok (0, m') ∧ enumeration exDb m' (some ⟨19, 8⟩) = .ok (.ok 5) := by
  have hf : Final exDb 19 (some 7) [.const] := .step (.qual rfl) exEnum
  refine ⟨hf, ?_⟩
  obtain ⟨h, _⟩ := (C25_round_trip_partial exDb (exMem fun _ => 1) ⟨19, 8⟩ _ _ hf (by decide)).1 7 1 8 _ rfl rfl
  obtain ⟨m', h1, _, _, h3⟩ := (h (by decide)).2 (fun k hk => exMapped _ _ (by show 8 ≤ 8 + k; omega) (by show 8 + k < 24; simp at hk; omega)) 5
  exact ⟨m', h1, h3 (by decide)⟩

/-- C24 fails for const pointers: the object is written. -/
theorem C24_pointer_const_false : Final exDb 21 (some 8) [.const] ∧
    ∃ m', setPointer exDb (exMem fun _ => 1) (some ⟨21, 8⟩) 64 = .ok (0, m') ∧ pointer exDb m' (some ⟨21, 8⟩) = .ok (.ok 64) := by
  have hf : Final exDb 21 (some 8) [.const] := .step (.qual rfl) (.here (exNot 8 (by decide)))
  refine ⟨hf, ?_⟩
  obtain ⟨_, h2⟩ := (C54_pointer_objects exDb (exMem fun _ => 1) ⟨21, 8⟩ _ _ hf (by decide)).1 8 (some 6) rfl rfl
  obtain ⟨m', a, _, c⟩ := h2 (fun k hk => exMapped _ _ (by show 8 ≤ 8 + k; omega) (by show 8 + k < 24; omega)) 64 (by decide)
  exact ⟨m', a, c⟩

/-! ### C26 -/

theorem name_inj {t t' : Ty} (h : typeName t = typeName t') : t = t' := by
  revert h
  cases t <;> cases t' <;> decide

theorem describes_unique {db : Db} {x : Ref} {t t' : Ty} (h : Describes db x t) (h' : Describes db x t') : t = t' := by
  obtain ⟨_, _, _, h1, _⟩ := h
  obtain ⟨_, _, _, h2, _⟩ := h'
  rw [h1] at h2
  simp at h2
  exact name_inj h2

theorem isTy_iff {db : Db} (hn : Named db) {r x : Ref} {qs : List Qual} (h : Final db r (some x) qs) {t : Ty} (hd : Describes db x t) (t' : Ty) :
    isTy db (some r) t' = .ok (decide (t' = t)) := by
  obtain ⟨b, hb, hi⟩ := isTy_spec hn h t'
  rw [hb]
  congr 1
  rw [Bool.eq_iff_iff, hi, decide_eq_true_iff]
  constructor
  · intro ⟨y, hy, hd'⟩
    simp at hy
    subst hy
    exact describes_unique hd' hd
  · intro e
    subst e
    exact ⟨x, rfl, hd⟩

theorem isTy_no {db : Db} (hn : Named db) {r : Ref} {f : Option Ref} {qs : List Qual} (h : Final db r f qs) {t : Ty}
    (hd : ¬ ∃ x, f = some x ∧ Describes db x t) : isTy db (some r) t = .ok false := by
  obtain ⟨b, hb, hi⟩ := isTy_spec hn h t
  rw [hb]
  cases b with
  | false => rfl
  | true => exact absurd (hi.1 rfl) hd

theorem numVal_int {t : Ty} (hint : Integral t) {n : Nat} (hn : n < 256 ^ Spec.sizeOf t) : numVal t n = intOf t n := by
  rw [pow256] at hn
  cases t with
  | char | short | int | long | llong => exact signed_twos hn
  | bool | uchar | ushort | uint | ulong | ullong => simp only [numVal, intOf]
  | _ => simp [Integral] at hint

theorem numLoop_hit {cfg : Plat} {db : Db} (hn : Named db) {m : Mem} {v : Value} {x : Ref} {qs : List Qual} (h : Final db v.entry (some x) qs)
    {t : Ty} (hd : Describes db x t) {n : Nat} (hg : getTy cfg db m (some v) t = .ok (.ok n)) (hu : useOk t n = true) (ts : List Ty) (ht : t ∈ ts) :
    numLoop cfg db m (some v) ts = .ok (some (toInt32 (numVal t n))) := by
  induction ts with
  | nil => simp at ht
  | cons t' ts ih =>
    have hi := isTy_iff hn h hd t'
    by_cases he : t' = t
    · subst he
      simp only [numLoop, Option.map_some, hi, decide_true, Outcome.bind_ok, if_true, hg, hu]
      rfl
    · have ht' : t ∈ ts := by
        simp at ht
        rcases ht with rfl | ht
        · exact absurd rfl he
        · exact ht
      simp only [numLoop, Option.map_some, hi, he, decide_false, Outcome.bind_ok]
      exact ih ht'

theorem numLoop_miss {cfg : Plat} {db : Db} (hn : Named db) {m : Mem} {v : Value} {f : Option Ref} {qs : List Qual} (h : Final db v.entry f qs)
    (ts : List Ty) (hno : ∀ t ∈ ts, ¬ ∃ x, f = some x ∧ Describes db x t) : numLoop cfg db m (some v) ts = .ok none := by
  induction ts with
  | nil => rfl
  | cons t ts ih =>
    simp only [numLoop, Option.map_some, isTy_no hn h (hno t (by simp)), Outcome.bind_ok]
    exact ih (fun t' ht' => hno t' (by simp [ht']))

theorem int_order (t : Ty) : t ∈ numOrder ↔ Integral t := by cases t <;> simp [numOrder, Integral]

/-- C26 (partial): `metac_value_num` of an integer object of any integer type (a `_Bool`
holding 0 or 1), or of an enumeration object, returns its value if the value fits `int`;
other objects are refused.  Missing: a value that does not fit `int` is not reported as an
error (`C26_truncation_false`). -/
theorem C26_num_partial (cfg : Plat) (db : Db) (hn : Named db) (m : Mem) (v : Value) (f : Option Ref) (qs : List Qual)
    (h : Final db v.entry f qs) (ha : v.addr ≠ 0) :
    (∀ x t n, f = some x → Describes db x t → Integral t → ¬ IsBitfield db v.entry → Holds m v.addr (Spec.sizeOf t) n → (t = .bool → n ≤ 1) →
      -2 ^ 31 ≤ intOf t n → intOf t n < 2 ^ 31 → num cfg db m (some v) = .ok (.ok (intOf t n))) ∧
    (∀ x size enc es n, f = some x → (db x).info = .enumeration size enc es →
      (size.toNat = 1 ∨ size.toNat = 2 ∨ size.toNat = 4 ∨ size.toNat = 8) → Holds m v.addr size.toNat n →
      -2 ^ 31 ≤ twos size.toNat n → twos size.toNat n < 2 ^ 31 → num cfg db m (some v) = .ok (.ok (twos size.toNat n))) ∧
    ((∀ x t, f = some x → Integral t → ¬ Describes db x t) → (∀ x size enc es, f = some x → (db x).info ≠ .enumeration size enc es) →
      num cfg db m (some v) = .ok (.error (-95))) := by
  refine ⟨?_, ?_, ?_⟩
  · intro x t n hx hd hint hb hh hbool h1 h2
    subst hx
    have hg := (getTy_plain (cfg := cfg) (m := m) hn h ha hd hb).1 n hh
    have hu : useOk t n = true := by
      simp only [useOk, decide_eq_true_eq]
      by_cases e : t = .bool
      · exact .inr (hbool e)
      · exact .inl e
    simp only [num, numLoop_hit hn h hd hg hu numOrder ((int_order t).2 hint), Outcome.bind_ok, numVal_int hint hh.1]
    rw [bmod_small _ h1 h2]
    rfl
  · intro x size enc es n hx hi hs hh h1 h2
    subst hx
    have hno : ∀ t ∈ numOrder, ¬ ∃ y, some x = some y ∧ Describes db y t := by
      intro t _ ⟨y, hy, bs, be, hb, _⟩
      simp at hy
      subst hy
      rw [hi] at hb
      simp at hb
    simp only [num, numLoop_miss hn h numOrder hno, Outcome.bind_ok, enum_get h hi ha hs hh]
    rw [bmod_small _ h1 h2]
    rfl
  · intro hno1 hno2
    have hno : ∀ t ∈ numOrder, ¬ ∃ y, f = some y ∧ Describes db y t := by
      intro t ht ⟨y, hy, hd⟩
      exact hno1 y t hy ((int_order t).1 ht) hd
    simp only [num, numLoop_miss hn h numOrder hno, Outcome.bind_ok, ((C25_round_trip_partial db m v f qs h ha).2 hno2).1]
    rfl

theorem exHoldInt (b : UInt8) (a : Nat) (h1 : 8 ≤ a) (h2 : a ≤ 20) (n : Nat) (hn : n = b.toNat * 16843009) : Holds (exMem fun _ => b) a 4 n := by
  have hb := b.toNat_lt
  subst hn
  refine ⟨by omega, fun k hk => ?_⟩
  have h3 : 8 ≤ a + k := by omega
  have h4 : a + k < 24 := by omega
  simp only [exMem, h3, h4, and_self, if_true, Option.some.injEq]
  rw [← UInt8.toNat_inj]
  obtain rfl | rfl | rfl | rfl : k = 0 ∨ k = 1 ∨ k = 2 ∨ k = 3 := by omega
  all_goals simp only [Nat.reducePow, Nat.div_one, UInt8.toNat_ofNat', Nat.mod_mod]
  all_goals generalize b.toNat = c at *
  · omega
  · have : c * 16843009 / 256 = c * 65793 := by omega
    omega
  · have : c * 16843009 / 65536 = c * 257 := by omega
    omega
  · have : c * 16843009 / 16777216 = c := by omega
    omega

/-- An `int` of bytes FF is -1. -/
example : num (exCfg true) exDb (exMem fun _ => 255) (some ⟨1, 8⟩) = .ok (.ok (-1)) := by
  obtain ⟨h, _⟩ := C26_num_partial (exCfg true) exDb exNamed (exMem fun _ => 255) ⟨1, 8⟩ _ _ exInt (by decide)
  exact h 0 .int 4294967295 rfl exDesc (by simp [Integral]) (exNotBit 1 (by intro mi; simp [exDb]))
    (exHoldInt 255 8 (by decide) (by decide) _ rfl) (by decide) (by decide) (by decide)

/-- C26 fails for values outside `int`: an `unsigned int` holding 4294967295 is returned as -1
without an error. -/
theorem C26_truncation_false : Holds (exMem fun _ => 255) 8 4 4294967295 ∧ intOf .uint 4294967295 = 4294967295 ∧
    num (exCfg true) exDb (exMem fun _ => 255) (some ⟨3, 8⟩) = .ok (.ok (-1)) := by
  have hh := exHoldInt 255 8 (by decide) (by decide) _ rfl
  have hf : Final exDb 3 (some 3) [] := .here (exNot 3 (by decide))
  have hd : Describes exDb 3 .uint := ⟨4, 8, rfl, rfl, fun _ => rfl, fun _ => rfl⟩
  have hb : ¬ IsBitfield exDb 3 := exNotBit 3 (by intro mi; simp [exDb])
  refine ⟨hh, rfl, ?_⟩
  have hg := (getTy_plain (cfg := exCfg true) (v := ⟨3, 8⟩) exNamed hf (by decide) hd hb).1 _ hh
  have ht : toInt32 (numVal .uint 4294967295) = -1 := by
    simp only [numVal]
    decide
  simp only [num, numLoop_hit exNamed hf hd hg (by decide) numOrder (by decide), Outcome.bind_ok, UInt8.reduceToNat, Nat.reduceMul, ht]
  rfl

/-- C26 (partial) for bit-fields: under the conditions of C21, the number is what the field's
bits mean.  (A plain `char` recorded as unsigned must not use all its 8 bits.) -/
theorem C26_bitfield_partial (cfg : Plat) (db : Db) (hn : Named db) (m : Mem) (v : Value) (t : Ty) (be base bit size : Nat) (qs : List Qual)
    (h : BitObject db m v t be base bit size qs) (h30 : size ≤ 30) (hw : bit % 8 + size ≤ 8 * Spec.sizeOf t)
    (c : Nat) (hf : Bitfield.Spec.Field m (8 * base + bit) size c) (hiso : cfg.iso = true → signedTy t be = true → c < 2 ^ (size - 1))
    (hbool : t = .bool → c ≤ 1) (hchar : t = .char → be = 9 → size ≤ 7) :
    num cfg db m (some v) = .ok (.ok (Bitfield.Spec.meaning (signedTy t be) size c)) := by
  obtain ⟨n, hg, hv, hlt⟩ := bit_read (cfg := cfg) hn h h30 hw hf hiso
  obtain ⟨⟨x, bs, hfin, hd, hi⟩, hint, _⟩ := h
  have hc := hf.1
  have hp30 : 2 ^ size ≤ 2 ^ 30 := Nat.pow_le_pow_right (by decide) h30
  have hu : useOk t n = true := by
    simp only [useOk, decide_eq_true_eq]
    by_cases e : t = .bool
    · subst e
      simp [signedTy, Bitfield.Spec.meaning] at hv
      exact .inr (by have := hbool rfl; omega)
    · exact .inl e
  have hm : intOf t n = Bitfield.Spec.meaning (signedTy t be) size c := by
    rw [← hv]
    by_cases hs : signedTy t be = true
    · rw [if_pos hs]
      cases t <;> simp [signedTy] at hs <;> rfl
    · rw [if_neg hs]
      have hnc : (n : Int) = c := by
        rw [if_neg hs] at hv
        simp [Bitfield.Spec.meaning, hs] at hv
        omega
      by_cases e : t = .char
      · subst e
        have h9 : be = 9 := by simpa [signedTy] using hs
        have h7 : 2 ^ size ≤ 2 ^ 7 := Nat.pow_le_pow_right (by decide) (hchar rfl h9)
        simp only [intOf, twos]
        rw [if_pos (by show 2 * n < 256; omega)]
      · cases t <;> simp [signedTy] at hs <;> first | rfl | exact absurd rfl e
  simp only [num, numLoop_hit hn hfin hd hg hu numOrder ((int_order t).2 hint), Outcome.bind_ok, numVal_int hint hlt, hm]
  have hb : -2 ^ 31 ≤ Bitfield.Spec.meaning (signedTy t be) size c ∧ Bitfield.Spec.meaning (signedTy t be) size c < 2 ^ 31 := by
    have e : ((2 : Int) ^ size) = ((2 ^ size : Nat) : Int) := by simp
    unfold Bitfield.Spec.meaning
    split
    · rw [e]; omega
    · omega
  rw [bmod_small _ hb.1 hb.2]
  rfl

example : num (exCfg false) exDb (exMem fun _ => 0xFF) (some ⟨5, 8⟩) = .ok (.ok (-1)) := by
  refine C26_bitfield_partial (exCfg false) exDb exNamed _ _ _ _ _ _ _ _ (exBitB _) (by decide) (by decide) 31 ⟨by decide, ?_⟩ (by decide) (by decide) (by decide)
  intro i hi
  obtain rfl | rfl | rfl | rfl | rfl : i = 0 ∨ i = 1 ∨ i = 2 ∨ i = 3 ∨ i = 4 := by omega
  all_goals rfl

/-! ### C27 -/

theorem all_order (t : Ty) : t ∈ allOrder := by cases t <;> simp [allOrder]

theorem equalLoop_hit {cfg : Plat} {db : Db} (hn : Named db) {m : Mem} {v w : Value} {x : Ref} {qs : List Qual} (h : Final db v.entry (some x) qs)
    {t : Ty} (hd : Describes db x t) {f' : Option Ref} {qs' : List Qual} (h' : Final db w.entry f' qs') (ts : List Ty) (ht : t ∈ ts) :
    (∀ a b, (∃ y, f' = some y ∧ Describes db y t) → getTy cfg db m (some v) t = .ok (.ok a) → getTy cfg db m (some w) t = .ok (.ok b) →
      useOk t a = true → useOk t b = true → equalLoop cfg db m v w ts = .ok (if cfg.eq t a b then 1 else 0)) ∧
    ((¬ ∃ y, f' = some y ∧ Describes db y t) → equalLoop cfg db m v w ts = .ok (-14)) := by
  induction ts with
  | nil => simp at ht
  | cons t' ts ih =>
    have hi := isTy_iff hn h hd t'
    by_cases he : t' = t
    · subst he
      constructor
      · intro a b ⟨y, hy, hd'⟩ hga hgb ha hb
        subst hy
        simp only [equalLoop, hi, decide_true, Outcome.bind_ok, if_true, isTy_iff hn h' hd' t', Bool.not_true, Bool.false_eq_true, if_false, hga, hgb, ha, hb, Bool.and_self]
        rfl
      · intro hno
        simp only [equalLoop, hi, decide_true, Outcome.bind_ok, if_true, isTy_no hn h' hno, Bool.not_false]
        rfl
    · have ht' : t ∈ ts := by
        simp at ht
        rcases ht with rfl | ht
        · exact absurd rfl he
        · exact ht
      simp only [equalLoop, hi, he, decide_false, Outcome.bind_ok, Bool.false_eq_true, if_false]
      exact ih ht'

theorem equalLoop_miss {cfg : Plat} {db : Db} (hn : Named db) {m : Mem} {v w : Value} {f : Option Ref} {qs : List Qual} (h : Final db v.entry f qs)
    (ts : List Ty) (hno : ∀ t ∈ ts, ¬ ∃ x, f = some x ∧ Describes db x t) : equalLoop cfg db m v w ts = .ok (-95) := by
  induction ts with
  | nil => rfl
  | cons t ts ih =>
    simp only [equalLoop, isTy_no hn h (hno t (by simp)), Outcome.bind_ok, Bool.false_eq_true, if_false]
    exact ih (fun t' ht' => hno t' (by simp [ht']))

/-- A plain object of type `t` holding `n` that may be used: not a bit-field, not NULL, and a
`_Bool` holds 0 or 1. -/
structure Object (db : Db) (m : Mem) (v : Value) (t : Ty) (n : Nat) : Prop where
  type : ∃ x qs, Final db v.entry (some x) qs ∧ Describes db x t
  plain : ¬ IsBitfield db v.entry
  nonNull : v.addr ≠ 0
  content : Holds m v.addr (Spec.sizeOf t) n
  valid : t = .bool → n ≤ 1

theorem object_use {db : Db} {m : Mem} {v : Value} {t : Ty} {n : Nat} (h : Object db m v t n) : useOk t n = true := by
  simp only [useOk, decide_eq_true_eq]
  by_cases e : t = .bool
  · exact .inr (h.valid e)
  · exact .inl e

/-- C27 for equality: two objects of the same type compare equal (1) exactly if they hold the
same value - for integer types the same number, for floating types what C's `==` says of
them - else 0; if the second has another type, or the first is no base-type object, the
result is a negative code. -/
theorem C27_equal (cfg : Plat) (db : Db) (hn : Named db) (m : Mem) (v w : Value) :
    (∀ t a b, Object db m v t a → Object db m w t b →
      (Integral t → equalBaseType cfg db m (some v) (some w) = .ok (if a = b then 1 else 0)) ∧
      (¬ Integral t → equalBaseType cfg db m (some v) (some w) = .ok (if cfg.feq t a b then 1 else 0))) ∧
    (∀ t x qs f' qs', Final db v.entry (some x) qs → Describes db x t → Final db w.entry f' qs' → (¬ ∃ y, f' = some y ∧ Describes db y t) →
      equalBaseType cfg db m (some v) (some w) = .ok (-14)) ∧
    (∀ f qs, Final db v.entry f qs → (∀ x t, f = some x → ¬ Describes db x t) → equalBaseType cfg db m (some v) (some w) = .ok (-95)) ∧
    (∀ u, equalBaseType cfg db m none u = .ok (-22) ∧ equalBaseType cfg db m u none = .ok (-22)) := by
  refine ⟨?_, ?_, ?_, ?_⟩
  · intro t a b hv hw
    have hu1 := object_use hv
    have hu2 := object_use hw
    obtain ⟨⟨x, qs, hf, hd⟩, hb, h0, hh, _⟩ := hv
    obtain ⟨⟨x', qs', hf', hd'⟩, hb', h0', hh', _⟩ := hw
    have hg := (getTy_plain (cfg := cfg) hn hf h0 hd hb).1 a hh
    have hg' := (getTy_plain (cfg := cfg) hn hf' h0' hd' hb').1 b hh'
    have key := (equalLoop_hit (cfg := cfg) hn hf hd hf' allOrder (all_order t)).1 a b ⟨x', rfl, hd'⟩ hg hg' hu1 hu2
    constructor
    · intro hint
      have : cfg.eq t a b = (a == b) := by cases t <;> simp [Integral] at hint <;> rfl
      simp only [equalBaseType, key, this, beq_iff_eq]
    · intro hint
      have : cfg.eq t a b = cfg.feq t a b := by cases t <;> simp [Integral] at hint <;> rfl
      simp only [equalBaseType, key, this]
  · intro t x qs f' qs' hf hd hf' hno
    exact (equalLoop_hit (cfg := cfg) (m := m) hn hf hd hf' allOrder (all_order t)).2 hno
  · intro f qs hf hno
    exact equalLoop_miss (cfg := cfg) (m := m) hn hf allOrder (fun t _ ⟨x, hx, hd⟩ => hno x t hx hd)
  · intro u
    exact ⟨rfl, by cases u <;> rfl⟩

theorem copyLoop_hit {cfg : Plat} {db : Db} (hn : Named db) {m : Mem} {v w : Value} {x : Ref} {qs : List Qual} (h : Final db v.entry (some x) qs)
    {t : Ty} (hd : Describes db x t) {f' : Option Ref} {qs' : List Qual} (h' : Final db w.entry f' qs') (ts : List Ty) (ht : t ∈ ts) :
    (∀ a c m', (∃ y, f' = some y ∧ Describes db y t) → getTy cfg db m (some v) t = .ok (.ok a) → useOk t a = true →
      setTy cfg db m (some w) t a = .ok (c, m') → copyLoop cfg db m v w ts = .ok (decide (c = 0), m')) ∧
    ((¬ ∃ y, f' = some y ∧ Describes db y t) → copyLoop cfg db m v w ts = .ok (false, m)) := by
  induction ts with
  | nil => simp at ht
  | cons t' ts ih =>
    have hi := isTy_iff hn h hd t'
    by_cases he : t' = t
    · subst he
      constructor
      · intro a c m' ⟨y, hy, hd'⟩ hga ha hs
        subst hy
        simp only [copyLoop, hi, decide_true, Outcome.bind_ok, if_true, isTy_iff hn h' hd' t', Bool.not_true, Bool.false_eq_true, if_false, hga, ha, hs]
        rfl
      · intro hno
        simp only [copyLoop, hi, decide_true, Outcome.bind_ok, if_true, isTy_no hn h' hno, Bool.not_false]
        rfl
    · have ht' : t ∈ ts := by
        simp at ht
        rcases ht with rfl | ht
        · exact absurd rfl he
        · exact ht
      simp only [copyLoop, hi, he, decide_false, Outcome.bind_ok, Bool.false_eq_true, if_false]
      exact ih ht'

theorem copyLoop_miss {cfg : Plat} {db : Db} (hn : Named db) {m : Mem} {v w : Value} {f : Option Ref} {qs : List Qual} (h : Final db v.entry f qs)
    (ts : List Ty) (hno : ∀ t ∈ ts, ¬ ∃ x, f = some x ∧ Describes db x t) : copyLoop cfg db m v w ts = .ok (false, m) := by
  induction ts with
  | nil => rfl
  | cons t ts ih =>
    simp only [copyLoop, isTy_no hn h (hno t (by simp)), Outcome.bind_ok, Bool.false_eq_true, if_false]
    exact ih (fun t' ht' => hno t' (by simp [ht']))

/-- C27 for copy: copying between objects of one type succeeds unless the destination is
const; it changes only the destination's bytes, and the two then compare equal (if the
source compares equal to itself passed by value, i.e. is no NaN), provided the objects do
not partially overlap.  Copying to an object of another type or to a const object, or from
anything but a base-type object, fails and changes nothing. -/
theorem C27_copy (cfg : Plat) (db : Db) (hn : Named db) (m : Mem) (v w : Value) :
    (∀ t a b x qs, Object db m v t a → Object db m w t b → Final db w.entry (some x) qs → Qual.const ∉ qs →
      ∃ m', copyBaseType cfg db m (some v) (some w) = .ok (true, m') ∧ OnlyChanged m m' w.addr (Spec.sizeOf t) ∧
        (Integral t → Object db m' w t a) ∧
        ((v.addr + Spec.sizeOf t ≤ w.addr ∨ w.addr + Spec.sizeOf t ≤ v.addr) →
          (Integral t ∨ cfg.feq t a (cfg.passed t a % 256 ^ Spec.sizeOf t) = true) → equalBaseType cfg db m' (some v) (some w) = .ok 1)) ∧
    (∀ t a x qs, Object db m v t a → Final db w.entry (some x) qs → w.addr ≠ 0 → ¬ Dots db x → Qual.const ∈ qs →
      copyBaseType cfg db m (some v) (some w) = .ok (false, m)) ∧
    (∀ t x qs f' qs', Final db v.entry (some x) qs → Describes db x t → Final db w.entry f' qs' → (¬ ∃ y, f' = some y ∧ Describes db y t) →
      copyBaseType cfg db m (some v) (some w) = .ok (false, m)) ∧
    (∀ f qs, Final db v.entry f qs → (∀ x t, f = some x → ¬ Describes db x t) → copyBaseType cfg db m (some v) (some w) = .ok (false, m)) := by
  refine ⟨?_, ?_, ?_, ?_⟩
  · intro t a b xw qw hv hw hfw hq
    have hu1 := object_use hv
    have hv0 := hv
    have hw0 := hw
    obtain ⟨⟨x, qs, hf, hd⟩, hb, h0, hh, hval⟩ := hv
    obtain ⟨⟨x', qs', hf', hd'⟩, hb', h0', hh', _⟩ := hw
    have hx := final_unique hfw hf'
    simp at hx
    subst hx
    have hg := (getTy_plain (cfg := cfg) hn hf h0 hd hb).1 a hh
    obtain ⟨m', hs, hhw, hoc⟩ := (getTy_plain (cfg := cfg) hn hfw h0' hd' hb').2 hq (holds_mapped hh') a
    have key := (copyLoop_hit (cfg := cfg) hn hf hd hfw allOrder (all_order t)).1 a 0 m' ⟨xw, rfl, hd'⟩ hg hu1 hs
    have hintw : Integral t → Object db m' w t a := by
      intro hint
      rw [passed_integral hint, Nat.mod_eq_of_lt hh.1] at hhw
      exact ⟨⟨xw, qw, hfw, hd'⟩, hb', h0', hhw, hval⟩
    refine ⟨m', by simp [copyBaseType, key], hoc, hintw, ?_⟩
    intro hdis heq
    have hvm : Object db m' v t a := by
      refine ⟨⟨x, qs, hf, hd⟩, hb, h0, ⟨hh.1, fun k hk => ?_⟩, hval⟩
      rw [hoc _ (by omega)]
      exact hh.2 k hk
    by_cases hint : Integral t
    · rw [((C27_equal cfg db hn m' v w).1 t a a hvm (hintw hint)).1 hint]
      simp
    · have hwm : Object db m' w t (cfg.passed t a % 256 ^ Spec.sizeOf t) := by
        refine ⟨⟨xw, qw, hfw, hd'⟩, hb', h0', hhw, ?_⟩
        intro e
        subst e
        simp [Integral] at hint
      rw [((C27_equal cfg db hn m' v w).1 t a _ hvm hwm).2 hint]
      rcases heq with he | he
      · exact absurd he hint
      · simp [he]
  · intro t a x qs hv hfw h0' hnd hq
    have hu1 := object_use hv
    obtain ⟨⟨xv, qv, hf, hd⟩, hb, h0, hh, hval⟩ := hv
    have hg := (getTy_plain (cfg := cfg) hn hf h0 hd hb).1 a hh
    by_cases hdw : Describes db x t
    · obtain ⟨c, hs, hc⟩ := setTy_const (cfg := cfg) (m := m) hn hfw hnd h0' t hq a
      have key := (copyLoop_hit (cfg := cfg) hn hf hd hfw allOrder (all_order t)).1 a c m ⟨x, rfl, hdw⟩ hg hu1 hs
      simp [copyBaseType, key, hc]
    · exact (copyLoop_hit (cfg := cfg) (m := m) hn hf hd hfw allOrder (all_order t)).2 (fun ⟨y, hy, hdy⟩ => by
        simp at hy
        subst hy
        exact hdw hdy)
  · intro t x qs f' qs' hf hd hf' hno
    exact (copyLoop_hit (cfg := cfg) (m := m) hn hf hd hf' allOrder (all_order t)).2 hno
  · intro f qs hf hno
    exact copyLoop_miss (cfg := cfg) (m := m) hn hf allOrder (fun t _ ⟨x, hx, hd⟩ => hno x t hx hd)

theorem exObj (a : Nat) (h1 : 8 ≤ a) (h2 : a ≤ 20) (b : UInt8) : Object exDb (exMem fun _ => b) ⟨1, a⟩ .int (b.toNat * 16843009) :=
  ⟨⟨0, [], exInt, exDesc⟩, exNotBit 1 (by intro mi; simp [exDb]), by show a ≠ 0; omega, exHoldInt b a h1 h2 _ rfl, by simp⟩

/-- Two `int` objects: equal; copying the one to the other succeeds and they are equal; an
`int` and an `unsigned int` cannot be compared. -/
example : equalBaseType (exCfg true) exDb (exMem fun _ => 3) (some ⟨1, 8⟩) (some ⟨1, 16⟩) = .ok 1 ∧
    (∃ m', copyBaseType (exCfg true) exDb (exMem fun _ => 3) (some ⟨1, 8⟩) (some ⟨1, 16⟩) = .ok (true, m') ∧
      equalBaseType (exCfg true) exDb m' (some ⟨1, 8⟩) (some ⟨1, 16⟩) = .ok 1) ∧
    equalBaseType (exCfg true) exDb (exMem fun _ => 3) (some ⟨1, 8⟩) (some ⟨3, 16⟩) = .ok (-14) ∧
    copyBaseType (exCfg true) exDb (exMem fun _ => 3) (some ⟨1, 8⟩) (some ⟨2, 16⟩) = .ok (false, exMem fun _ => 3) := by
  have o1 := exObj 8 (by decide) (by decide) 3
  have o2 := exObj 16 (by decide) (by decide) 3
  refine ⟨?_, ?_, ?_, ?_⟩
  · rw [((C27_equal (exCfg true) exDb exNamed _ _ _).1 .int _ _ o1 o2).1 (by simp [Integral]), if_pos rfl]
  · obtain ⟨m', a, _, _, d⟩ := (C27_copy (exCfg true) exDb exNamed _ _ _).1 .int _ _ 0 [] o1 o2 exInt (by decide)
    exact ⟨m', a, d (by decide) (.inl (by simp [Integral]))⟩
  · refine (C27_equal (exCfg true) _ exNamed _ _ _).2.1 .int 0 [] (some 3) [] exInt exDesc (.here (exNot 3 (by decide))) ?_
    intro ⟨y, hy, _, _, _, hnm, _⟩
    simp at hy
    subst hy
    simp [exDb, typeName] at hnm
  · refine (C27_copy (exCfg true) exDb exNamed _ _ _).2.1 .int _ 0 _ o1 exConst (by decide) ?_ (by decide)
    intro ⟨t, ht⟩
    simp [exDb] at ht

/-! ### C55: arrays of a given length -/

/-- C55: a value of pointer or array type viewed as `count` objects: the description is an
array of `count` elements of the type pointed to (of the element type), located where the
pointer points to (where the array is); NULL pointers and values of other types are
refused. -/
theorem C55_element_count_value (db : Db) (m : Mem) (v : Value) (f : Option Ref) (qs : List Qual) (h : Final db v.entry f qs) (ha : v.addr ≠ 0) (count : Int) :
    (∀ x t a, f = some x → (db x).info = .pointer (some t) → Holds m v.addr 8 a →
      (a ≠ 0 → ∃ e, elementCountValue db m (some v) count = .ok (some (e, a)) ∧ e.info = .array (some t) count) ∧
      (a = 0 → elementCountValue db m (some v) count = .ok none)) ∧
    (∀ x t c, f = some x → (db x).info = .array (some t) c →
      ∃ e, elementCountValue db m (some v) count = .ok (some (e, v.addr)) ∧ e.info = .array (some t) count) ∧
    ((∀ x, f = some x → (∀ t, (db x).info ≠ .pointer t) ∧ ∀ t c, (db x).info ≠ .array t c) → elementCountValue db m (some v) count = .ok none) ∧
    elementCountValue db m none count = .ok none := by
  refine ⟨?_, ?_, ?_, rfl⟩
  · intro x t a hx hi hh
    subst hx
    have hne := ((C52_new_element_count db v.entry _ _ h count).1 x t 0 rfl (.inl hi)).1
    rw [holds_loadN] at hh
    constructor
    · intro h0
      refine ⟨{ info := .array (some t) count }, ?_, rfl⟩
      simp [elementCountValue, ha, final_entry h, hi, hh, h0, hne]
    · intro h0
      simp [elementCountValue, ha, final_entry h, hi, hh, h0]
  · intro x t c hx hi
    subst hx
    have hne := ((C52_new_element_count db v.entry _ _ h count).1 x t c rfl (.inr hi)).1
    refine ⟨{ info := .array (some t) count }, ?_, rfl⟩
    simp [elementCountValue, ha, final_entry h, hi, hne]
  · intro hno
    cases f with
    | none => simp [elementCountValue, ha, final_entry h]
    | some x =>
      obtain ⟨h1, h2⟩ := hno x rfl
      cases hi : (db x).info with
      | pointer t => exact absurd hi (h1 t)
      | array t c => exact absurd hi (h2 t c)
      | _ => simp [elementCountValue, ha, final_entry h, hi]

example : (∃ e, elementCountValue exDb (exMem fun _ => 0) (some ⟨9, 8⟩) 2 = .ok (some (e, 8)) ∧ e.info = .array (some 1) 2) ∧
    elementCountValue exDb (exMem fun _ => 0) (some ⟨8, 8⟩) 2 = .ok none := by
  obtain ⟨_, h, _⟩ := C55_element_count_value exDb (exMem fun _ => 0) ⟨9, 8⟩ _ _ (.here (exNot 9 (by decide))) (by decide) 2
  obtain ⟨h', _⟩ := C55_element_count_value exDb (exMem fun _ => 0) ⟨8, 8⟩ _ _ (.here (exNot 8 (by decide))) (by decide) 2
  exact ⟨h 9 1 4 rfl rfl, (h' 8 6 0 rfl rfl (exHold0 8 (by decide) (by decide))).2 rfl⟩

end Verif.Value
