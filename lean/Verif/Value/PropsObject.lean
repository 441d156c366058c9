import Verif.Value.Props
/-
Property theorems of values: elements and members (C23), enumerations (C25), loops (C28),
pointers (C54).
-/
namespace Verif.Value
open Verif Verif.Entry Verif.Entry.Spec Verif.Value.Spec

theorem finalOf_some {db : Db} {r x : Ref} {qs : List Qual} (h : Final db r (some x) qs) (want : Info → Bool) :
    finalOf db (some r) want = some (if want (db x).info then some x else none) := finalOf_final h want

theorem finalOf_none {db : Db} {r : Ref} {f : Option Ref} {qs : List Qual} (h : Final db r f qs) (want : Info → Bool)
    (hw : ∀ x, f = some x → want (db x).info = false) : finalOf db (some r) want = some none := by
  rw [finalOf_final h]
  cases f with
  | none => rfl
  | some x => simp [keep, hw x rfl]

/-! ### C23 -/

theorem mul_toNat {size : UInt64} {n : Nat} (hs : size.toNat = n) {id : Nat} (hid : id < 2 ^ 31) (hlt : n * id < 2 ^ 64) :
    (size * UInt64.ofInt (id : Int)).toNat = n * id := by
  rw [UInt64.toNat_mul, hs]
  have : (UInt64.ofInt (id : Int)).toNat = id := by
    simp [UInt64.ofInt]
    omega
  rw [this]
  omega

/-- C23 (partial) for arrays of up to 2^31-1 elements and less than 2^64 bytes: access by
number succeeds exactly for `0 ≤ id < count`, and gives the object of the element type at
`addr + id * size`; the objects of different elements do not overlap, and all lie inside the
array.  Anything else has no elements.  Larger arrays: `C23_count_false`. -/
theorem C23_elements_partial (db : Db) (v : Value) (f : Option Ref) (qs : List Qual) (h : Final db v.entry f qs) (ha : v.addr ≠ 0) :
    (∀ x e n count, f = some x → (db x).info = .array (some e) count → -2 ^ 31 ≤ count → count < 2 ^ 31 → Size db e n → count * n < 2 ^ 64 →
      (∀ id : Int, (0 ≤ id ∧ id < count) → elementValue db (some v) id = .ok (some ⟨e, v.addr + id.toNat * n⟩)) ∧
      (∀ id : Int, ¬ (0 ≤ id ∧ id < count) → elementValue db (some v) id = .ok none) ∧
      (∀ i j : Nat, i < j → v.addr + i * n + n ≤ v.addr + j * n) ∧
      (∀ i : Nat, (i : Int) < count → v.addr ≤ v.addr + i * n ∧ ((v.addr + i * n + n : Nat) : Int) ≤ v.addr + count * n)) ∧
    ((∀ x e count, f = some x → (db x).info ≠ .array e count) → ∀ id, elementValue db (some v) id = .ok none) ∧
    (∀ x e count, f = some x → (db x).info = .array (some e) count → NoSize db e → -2 ^ 31 ≤ count → count < 2 ^ 31 → ∀ id, elementValue db (some v) id = .ok none) ∧
    (∀ id, elementValue db none id = .ok none) := by
  refine ⟨?_, ?_, ?_, fun _ => rfl⟩
  · intro x e n count hx hi hlow hc hs hlt
    subst hx
    have hself := final_of_final h
    have hfo := finalOf_some h isArray
    simp only [hi, isArray, if_true] at hfo
    obtain ⟨_, hel, hcnt⟩ := (C52_accessors_partial db x _ _ hself).2.1 x (some e) count rfl hi
    obtain ⟨size, hsz, _, hszv⟩ := (C17_byte_size db).1 e n hs
    have hgeo : ∀ i : Nat, (i : Int) < count → ((i * n + n : Nat) : Int) ≤ count * n := by
      intro i hi
      have : ((i : Int) + 1) * n ≤ count * n := Int.mul_le_mul_of_nonneg_right (by omega) (by omega)
      have e : ((i : Int) + 1) * n = ((i * n + n : Nat) : Int) := by push_cast; rw [Int.add_mul]; omega
      omega
    refine ⟨?_, ?_, ?_, ?_⟩
    · intro id ⟨h0, h1⟩
      obtain ⟨k, rfl⟩ : ∃ k : Nat, id = k := ⟨id.toNat, by omega⟩
      have hcn : elementCount db (some x) = some count := hcnt (by omega) (by omega)
      have hg := hgeo k h1
      have hn : n < 2 ^ 64 := by
        have : 0 ≤ k * n := Nat.zero_le _
        omega
      have e1 : ¬ (count < 0) := by omega
      have e2 : ¬ ((k : Int) < 0 ∨ (k : Int) ≥ count) := by omega
      have e3 : (size * UInt64.ofInt (k : Int)).toNat = n * k :=
        mul_toNat (hszv hn) (by omega) (by rw [Nat.mul_comm]; omega)
      simp only [elementValue, hfo, Outcome.ofLoop_some, Outcome.bind_ok, hcn, e1, if_false, e2, hel, hsz, e3, newValue]
      rw [if_neg (by omega)]
      simp [Nat.mul_comm]
    · intro id hid
      simp only [elementValue, hfo, Outcome.ofLoop_some, Outcome.bind_ok]
      simp only [hcnt (by omega) hc, Outcome.ofLoop_some, Outcome.bind_ok]
      by_cases e1 : count < 0
      · simp [e1]
      · have e2 : id < 0 ∨ id ≥ count := by omega
        simp [e1, e2]
    · intro i j hij
      have : (i + 1) * n ≤ j * n := Nat.mul_le_mul_right n hij
      rw [Nat.add_mul] at this
      omega
    · intro i hi
      have := hgeo i hi
      refine ⟨by omega, by push_cast at *; omega⟩
  · intro hno id
    have hfo := finalOf_none h isArray (by
      intro x hx
      cases hi : (db x).info with
      | array e c => exact absurd hi (hno x e c hx)
      | _ => rfl)
    simp [elementValue, hfo]
  · intro x e count hx hi hs hl hc id
    subst hx
    have hself := final_of_final h
    have hfo := finalOf_some h isArray
    simp only [hi, isArray, if_true] at hfo
    obtain ⟨_, hel, hcnt⟩ := (C52_accessors_partial db x _ _ hself).2.1 x (some e) count rfl hi
    have hsz := (C17_byte_size db).2.1 e hs
    simp only [elementValue, hfo, Outcome.ofLoop_some, Outcome.bind_ok, hcnt hl hc, hel, hsz]
    split
    · rfl
    · split <;> rfl

theorem exSizeNum : Size exDb 1 4 := .through (.typedef rfl) (.stored (.base (n := 4) rfl))

/-- `num x[4]` at address 8. -/
example : elementValue exDb (some ⟨9, 8⟩) 3 = .ok (some ⟨1, 20⟩) ∧ elementValue exDb (some ⟨9, 8⟩) 4 = .ok none ∧
    elementValue exDb (some ⟨9, 8⟩) (-1) = .ok none ∧ elementValue exDb (some ⟨0, 8⟩) 0 = .ok none := by
  obtain ⟨h, _⟩ := C23_elements_partial exDb ⟨9, 8⟩ (some 9) [] (.here (exNot 9 (by decide))) (by decide)
  obtain ⟨h1, h2, _⟩ := h 9 1 4 4 rfl rfl (by decide) (by decide) exSizeNum (by decide)
  obtain ⟨_, h3, _⟩ := C23_elements_partial exDb ⟨0, 8⟩ (some 0) [] (.here (exNot 0 (by decide))) (by decide)
  refine ⟨h1 3 (by decide), h2 4 (by decide), h2 (-1) (by decide), h3 ?_ 0⟩
  intro x e count hx hi
  simp at hx
  subst hx
  simp [exDb] at hi

/-- C23 fails for arrays of 2^31 elements or more: the count is truncated to `int`, so that
element 2 of `char x[4294967298]` is refused. -/
theorem C23_count_false : ∃ (db : Db) (v : Value) (e : Ref), Final db v.entry (some v.entry) [] ∧
    (db v.entry).info = .array (some e) 4294967298 ∧ Size db e 1 ∧ v.addr ≠ 0 ∧ elementValue db (some v) 2 = .ok none := by
  let db : Db := fun r => if r = 0 then { info := .base 1 7 } else { info := .array (some 0) 4294967298 }
  have hf : Final db 1 (some 1) [] := .here (by intro t h; cases h <;> rename_i h <;> simp [db] at h)
  refine ⟨db, ⟨1, 8⟩, 0, hf, rfl, .stored (.base (n := 1) rfl), by decide, ?_⟩
  have hfo : finalOf db (some 1) isArray = some (some 1) := finalOf_some hf isArray
  have hc : elementCount db (some 1) = some 2 := by
    simp only [elementCount, hfo]
    rfl
  simp [elementValue, hfo, hc]

/-- C23 for members: access by number succeeds exactly for numbers of members, and gives the
member's object at the struct's address plus the member's byte offset. -/
theorem C23_members (db : Db) (v : Value) (f : Option Ref) (qs : List Qual) (h : Final db v.entry f qs) (ha : v.addr ≠ 0) :
    (∀ x k size ms, f = some x → (db x).info = .struct k size ms → (∀ r ∈ ms, ∃ mi, (db r).info = .member mi) →
      (∀ (i : Nat) r mi, ms[i]? = some r → (db r).info = .member mi → memberValue db (some v) i = .ok (some ⟨r, v.addr + mi.byteOffset.toNat⟩)) ∧
      (∀ i : Int, (i < 0 ∨ i ≥ ms.length) → memberValue db (some v) i = .ok none)) ∧
    ((∀ x k size ms, f = some x → (db x).info ≠ .struct k size ms) → ∀ i, memberValue db (some v) i = .ok none) ∧
    (∀ i, memberValue db none i = .ok none) := by
  refine ⟨?_, ?_, fun _ => rfl⟩
  · intro x k size ms hx hi hms
    subst hx
    have hfo := finalOf_some h isStruct
    simp only [hi, isStruct, if_true] at hfo
    obtain ⟨hcnt, _, _, hby, _⟩ := (C19_members db x _ _ (final_of_final h)).1 x k size ms rfl hi
    constructor
    · intro i r mi hr hmi
      have hl : i < ms.length := by
        rcases Nat.lt_or_ge i ms.length with hl | hl
        · exact hl
        · rw [List.getElem?_eq_none hl] at hr; simp at hr
      have e1 : ¬ ((i : Int) < 0 ∨ (i : Int) ≥ ms.length) := by omega
      simp only [memberValue, hfo, Outcome.ofLoop_some, Outcome.bind_ok, hcnt, e1, if_false, hby i hl, hr, hmi, newValue]
      rw [if_neg (by omega)]
      rfl
    · intro i hr
      simp only [memberValue, hfo, Outcome.ofLoop_some, Outcome.bind_ok, hcnt, hr, if_true]
      rfl
  · intro hno i
    have hfo := finalOf_none h isStruct (by
      intro x hx
      cases hi : (db x).info with
      | struct k n ms => exact absurd hi (hno x k n ms hx)
      | _ => rfl)
    simp [memberValue, hfo]

example : memberValue Entry.exDb (some ⟨18, 100⟩) (1 : Nat) = .ok (some ⟨9, 108⟩) ∧ memberValue Entry.exDb (some ⟨18, 100⟩) 3 = .ok none := by
  have hs : Final Entry.exDb 18 (some 11) [] := .step (.var rfl) (.here (by
    intro t h; cases h <;> rename_i h <;> exact absurd h (by simp [Entry.exDb])))
  obtain ⟨h, _⟩ := C23_members Entry.exDb ⟨18, 100⟩ _ _ hs (by decide)
  obtain ⟨h1, h2⟩ := h 11 .struct 16 [8, 9, 10] rfl rfl (by
    intro r hr
    simp at hr
    rcases hr with rfl | rfl | rfl <;> exact ⟨_, rfl⟩)
  exact ⟨h1 1 9 _ rfl rfl, h2 3 (by decide)⟩

/-! ### C25 -/

theorem unsigned_lt (w : Nat) (v : Int) : Mem.unsigned w v < 2 ^ (8 * w) := by
  unfold Mem.unsigned
  have h1 : (0 : Int) < ((2 ^ (8 * w) : Nat) : Int) := by
    have := Nat.pow_pos (n := 8 * w) (show 0 < 2 by decide)
    omega
  have := Int.emod_nonneg v (by omega : ((2 ^ (8 * w) : Nat) : Int) ≠ 0)
  have := Int.emod_lt_of_pos v h1
  omega

theorem signed_unsigned {w : Nat} (hw : w = 1 ∨ w = 2 ∨ w = 4 ∨ w = 8) (v : Int) (h : -(2 ^ (8 * w - 1) : Int) ≤ v ∧ v < 2 ^ (8 * w - 1)) :
    twos w (Mem.unsigned w v) = v := by
  unfold twos Mem.unsigned
  rcases hw with rfl | rfl | rfl | rfl <;> simp only [Nat.reduceMul, Nat.reducePow, Nat.reduceSub, Int.reducePow] at * <;> split <;> omega

theorem enumSize {db : Db} {x : Ref} {size enc es} (hi : (db x).info = .enumeration size enc es) :
    byteSize db (some x) true = some (.ok size) := by
  obtain ⟨v, hv, _, hn⟩ := (C17_byte_size db).1 x size.toNat (.stored (.enumeration hi))
  rw [hv]
  have := hn (UInt64.toNat_lt size)
  rw [UInt64.toNat_inj] at this
  rw [this]

theorem size_cases {size : UInt64} {n : Nat} (h : size.toNat = n) : (size = 1 ∨ size = 2 ∨ size = 4 ∨ size = 8) ↔ (n = 1 ∨ n = 2 ∨ n = 4 ∨ n = 8) := by
  subst h
  simp only [← UInt64.toNat_inj]
  rfl

theorem mapped_of {m : Mem} {a n : Nat} (h : ∀ k < n, m (a + k) ≠ none) : Mem.Mapped m a n := by
  intro x h1 h2
  obtain ⟨k, rfl⟩ : ∃ k, x = a + k := ⟨x - a, by omega⟩
  cases hh : m (a + k) with
  | none => exact absurd hh (h k (by omega))
  | some _ => rfl

theorem enum_get {db : Db} {m : Mem} {v : Value} {x : Ref} {qs : List Qual} {size : UInt64} {enc es} (h : Final db v.entry (some x) qs)
    (hi : (db x).info = .enumeration size enc es) (ha : v.addr ≠ 0) (hs : size.toNat = 1 ∨ size.toNat = 2 ∨ size.toNat = 4 ∨ size.toNat = 8)
    {n : Nat} (hh : Holds m v.addr size.toNat n) : enumeration db m (some v) = .ok (.ok (twos size.toNat n)) := by
  have hfo := finalOf_some h isEnum
  simp only [hi, isEnum, if_true] at hfo
  have hlt := hh.1
  rw [holds_loadN] at hh
  simp only [enumeration, hfo, Outcome.ofLoop_some, Outcome.bind_ok, ha, if_false, enumSize hi, (size_cases rfl).2 hs, if_true, hh]
  rw [signed_twos (by rw [← pow256]; exact hlt)]
  rfl

/-- C25 (partial): an enumeration object of 1, 2, 4 or 8 bytes can be set to any value, which
changes only the object's bytes; a value in the object's signed range is read back.  In
general the object's bytes are read as a signed number.  Other sizes, and objects of other
types, are refused and nothing is changed.  Missing: unsigned enumerations with values from
the upper half (`C25_unsigned_false`), bit-field enumerations (`C25_bitfield_false`). -/
theorem C25_round_trip_partial (db : Db) (m : Mem) (v : Value) (f : Option Ref) (qs : List Qual) (h : Final db v.entry f qs) (ha : v.addr ≠ 0) :
    (∀ x size enc es, f = some x → (db x).info = .enumeration size enc es →
      ((size.toNat = 1 ∨ size.toNat = 2 ∨ size.toNat = 4 ∨ size.toNat = 8) →
        (∀ n, Holds m v.addr size.toNat n → enumeration db m (some v) = .ok (.ok (twos size.toNat n))) ∧
        ((∀ k < size.toNat, m (v.addr + k) ≠ none) → ∀ val : Int, ∃ m', setEnumeration db m (some v) val = .ok (0, m') ∧
          OnlyChanged m m' v.addr size.toNat ∧
          (∃ n : Nat, Holds m' v.addr size.toNat n ∧ (n : Int) % 256 ^ size.toNat = val % 256 ^ size.toNat) ∧
          (-(2 ^ (8 * size.toNat - 1) : Int) ≤ val ∧ val < 2 ^ (8 * size.toNat - 1) → enumeration db m' (some v) = .ok (.ok val)))) ∧
      (¬ (size.toNat = 1 ∨ size.toNat = 2 ∨ size.toNat = 4 ∨ size.toNat = 8) →
        enumeration db m (some v) = .ok (.error (-95)) ∧ ∀ val, setEnumeration db m (some v) val = .ok (-95, m))) ∧
    ((∀ x size enc es, f = some x → (db x).info ≠ .enumeration size enc es) →
      enumeration db m (some v) = .ok (.error (-22)) ∧ ∀ val, setEnumeration db m (some v) val = .ok (-22, m)) := by
  refine ⟨?_, ?_⟩
  · intro x size enc es hx hi
    subst hx
    have hfo := finalOf_some h isEnum
    simp only [hi, isEnum, if_true] at hfo
    constructor
    · intro hs
      refine ⟨fun n hh => enum_get h hi ha hs hh, ?_⟩
      intro hm val
      obtain ⟨m', hst⟩ := Mem.storeN_mapped (Mem.unsigned size.toNat val) (mapped_of hm)
      obtain ⟨hh, hoc⟩ := holds_storeN hst
      refine ⟨m', ?_, hoc, ⟨_, hh, ?_⟩, ?_⟩
      · simp only [setEnumeration, hfo, Outcome.ofLoop_some, Outcome.bind_ok, ha, if_false, enumSize hi, (size_cases rfl).2 hs, if_true, hst]
        rfl
      · rw [pow256, Nat.mod_eq_of_lt (unsigned_lt _ _)]
        have e : (256 : Int) ^ size.toNat = ((2 ^ (8 * size.toNat) : Nat) : Int) := by rw [← pow256]; simp
        have hp : (0 : Int) < ((2 ^ (8 * size.toNat) : Nat) : Int) := by
          have := Nat.pow_pos (n := 8 * size.toNat) (show 0 < 2 by decide)
          omega
        rw [e, Mem.unsigned, Int.toNat_of_nonneg (Int.emod_nonneg _ (by omega)), Int.emod_emod_of_dvd _ (Int.dvd_refl _)]
      · intro hv
        rw [pow256, Nat.mod_eq_of_lt (unsigned_lt _ _)] at hh
        rw [enum_get h hi ha hs hh, signed_unsigned hs val hv]
    · intro hs
      have hs' : ¬ (size = 1 ∨ size = 2 ∨ size = 4 ∨ size = 8) := fun hc => hs ((size_cases rfl).1 hc)
      constructor
      · simp only [enumeration, hfo, Outcome.ofLoop_some, Outcome.bind_ok, ha, if_false, enumSize hi, hs']
        rfl
      · intro val
        simp only [setEnumeration, hfo, Outcome.ofLoop_some, Outcome.bind_ok, ha, if_false, enumSize hi, hs']
        rfl
  · intro hno
    have hfo := finalOf_none h isEnum (by
      intro x hx
      cases hi : (db x).info with
      | enumeration a b c => exact absurd hi (hno x a b c hx)
      | _ => rfl)
    exact ⟨by simp [enumeration, hfo], fun val => by simp [setEnumeration, hfo]⟩

theorem decimal_spec (n : Nat) : Decimal n (decimal n) := by
  fun_induction decimal n with
  | case1 n h => exact .digit h
  | case2 n h ih =>
    have := Decimal.more (d := n % 10) (by omega) (by omega) ih
    rwa [show 10 * (n / 10) + n % 10 = n by omega] at this

/-- C25 for the string form: the name of the first enumerator with the object's value, or
the value in decimal. -/
theorem C25_string (db : Db) (m : Mem) (v : Value) (x : Ref) (qs : List Qual) (h : Final db v.entry (some x) qs) (ha : v.addr ≠ 0)
    (size : UInt64) (enc : Nat) (es : List (Name × Int)) (hi : (db x).info = .enumeration size enc es)
    (hs : size.toNat = 1 ∨ size.toNat = 2 ∨ size.toNat = 4 ∨ size.toNat = 8) (n : Nat) (hh : Holds m v.addr size.toNat n) :
    (∀ pre post name, es = pre ++ (name, twos size.toNat n) :: post → (∀ e ∈ pre, e.2 ≠ twos size.toNat n) →
      enumerationString db m (some v) = .ok (some name)) ∧
    ((∀ e ∈ es, e.2 ≠ twos size.toNat n) → ∃ digits, Decimal (twos size.toNat n).natAbs digits ∧
      enumerationString db m (some v) = .ok (some (if twos size.toNat n < 0 then 45 :: digits else digits))) := by
  have hfo := finalOf_some h isEnum
  simp only [hi, isEnum, if_true] at hfo
  have hg := enum_get h hi ha hs hh
  obtain ⟨h1, h2, _⟩ := C19_enumerators db v.entry x qs size enc es h hi
  constructor
  · intro pre post name he hp
    simp only [enumerationString, hfo, Outcome.ofLoop_some, Outcome.bind_ok, hg, h1 _ pre post name he hp]
    rfl
  · intro hno
    refine ⟨_, decimal_spec _, ?_⟩
    simp only [enumerationString, hfo, Outcome.ofLoop_some, Outcome.bind_ok, hg, h2 _ hno, decimalInt]
    rfl

theorem exEnum : Final exDb 7 (some 7) [] := .here (exNot 7 (by decide))

example : ∃ m', setEnumeration exDb (exMem fun _ => 7) (some ⟨7, 10⟩) (-3) = .ok (0, m') ∧ enumeration exDb m' (some ⟨7, 10⟩) = .ok (.ok (-3)) ∧
    m' 11 = some 7 := by
  obtain ⟨h, _⟩ := (C25_round_trip_partial exDb (exMem fun _ => 7) ⟨7, 10⟩ _ _ exEnum (by decide)).1 7 1 8 _ rfl rfl
  obtain ⟨m', h1, h2, h3⟩ := (h (by decide)).2 (fun k hk => exMapped _ _ (by show 8 ≤ 10 + k; omega) (by show 10 + k < 24; simp at hk; omega)) (-3)
  exact ⟨m', h1, h3.2 (by decide), h2 11 (by decide)⟩

example : enumerationString exDb (exMem fun _ => 0) (some ⟨7, 10⟩) = .ok (some [65]) ∧
    ∃ d, Decimal 1 d ∧ enumerationString exDb (exMem fun _ => 255) (some ⟨7, 10⟩) = .ok (some (45 :: d)) := by
  constructor
  · obtain ⟨h1, _⟩ := C25_string exDb (exMem fun _ => 0) ⟨7, 10⟩ 7 _ exEnum (by decide) 1 8 _ rfl (by decide) 0 ⟨by decide, by
      intro k hk
      have : k = 0 := by simp at hk; omega
      subst this
      rfl⟩
    exact h1 [] [([66], 200)] [65] rfl (by decide)
  · obtain ⟨_, h1⟩ := C25_string exDb (exMem fun _ => 255) ⟨7, 10⟩ 7 _ exEnum (by decide) 1 8 _ rfl (by decide) 255 ⟨by decide, by
      intro k hk
      have : k = 0 := by simp at hk; omega
      subst this
      rfl⟩
    exact h1 (by decide)

/-- C25 fails for an unsigned enumeration: `enum { A, B = 200 }` is one byte with `-fshort-enums`;
`B` stored in it is read back as -56, and its string form is not `B`. -/
theorem C25_unsigned_false : ∃ m', setEnumeration exDb (exMem fun _ => 0) (some ⟨7, 10⟩) 200 = .ok (0, m') ∧
    enumeration exDb m' (some ⟨7, 10⟩) = .ok (.ok (-56)) ∧ enumerationString exDb m' (some ⟨7, 10⟩) ≠ .ok (some [66]) := by
  obtain ⟨h, _⟩ := (C25_round_trip_partial exDb (exMem fun _ => 0) ⟨7, 10⟩ _ _ exEnum (by decide)).1 7 1 8 _ rfl rfl
  obtain ⟨m', h1, h2, ⟨n, hn, he⟩, _⟩ := (h (by decide)).2 (fun k hk => exMapped _ _ (by show 8 ≤ 10 + k; omega) (by show 10 + k < 24; simp at hk; omega)) 200
  have h200 : n = 200 := by
    have := hn.1
    simp at this he
    omega
  subst h200
  refine ⟨m', h1, enum_get exEnum rfl (by decide) (by decide) hn, ?_⟩
  obtain ⟨d, hd, hs⟩ := (C25_string exDb m' ⟨7, 10⟩ 7 _ exEnum (by decide) 1 8 _ rfl (by decide) 200 hn).2 (by decide)
  rw [hs]
  have : twos 1 200 < 0 := by decide
  simp [this]

/-- C25 fails for an enumeration in a bit-field: with byte 0x10 the field `enum e f : 4` at
bit 4 holds 1, but 16 is read. -/
theorem C25_bitfield_false : Dwarf4 { type := some 7, dataBitOffset := some 4, bitSize := some 4 } 4 4 ∧
    Bitfield.Spec.Field (exMem fun _ => 0x10) (8 * 8 + 4) 4 1 ∧
    enumeration exDb (exMem fun _ => 0x10) (some ⟨20, 8⟩) = .ok (.ok 16) := by
  refine ⟨⟨4, 4, rfl, rfl, rfl, rfl, rfl⟩, ⟨by decide, ?_⟩, ?_⟩
  · intro i hi
    obtain rfl | rfl | rfl | rfl : i = 0 ∨ i = 1 ∨ i = 2 ∨ i = 3 := by omega
    all_goals rfl
  · have hf : Final exDb 20 (some 7) [] := exMember (r := 20) rfl rfl (exNot 7 (by decide))
    exact enum_get (v := ⟨20, 8⟩) (n := 16) hf rfl (by decide) (by decide) ⟨by decide, by
      intro k hk
      have : k = 0 := by simp at hk; omega
      subst this
      rfl⟩

/-! ### C54: pointer objects -/

theorem pointer_get {db : Db} {m : Mem} {v : Value} {a : Nat} (h : Pointer db m v a) : pointer db m (some v) = .ok (.ok a) := by
  obtain ⟨ha, ⟨f, qs, t, hf, hi⟩, hh⟩ := h
  have hfo := finalOf_some hf isPointer
  simp only [hi, isPointer, if_true] at hfo
  rw [holds_loadN] at hh
  simp [pointer, hfo, ha, hh]

/-- C54: the pointer stored in a pointer object is read as it is; setting it changes
only the 8 bytes of the object and is read back (for 64-bit addresses); two pointer objects
compare equal exactly if they hold the same address; copying makes them equal and changes
only the destination.  All are refused for objects of other types.  (`const` is not
respected, see `C24_pointer_const_false`.) -/
theorem C54_pointer_objects (db : Db) (m : Mem) (v : Value) (f : Option Ref) (qs : List Qual) (h : Final db v.entry f qs) (ha : v.addr ≠ 0) :
    (∀ x t, f = some x → (db x).info = .pointer t →
      (∀ a, Holds m v.addr 8 a → pointer db m (some v) = .ok (.ok a) ∧
        (∀ w b, Pointer db m w b → equalPointer db m (some v) (some w) = .ok (if a = b then 1 else 0)) ∧
        (∀ w b, Pointer db m w b → (v.addr + 8 ≤ w.addr ∨ w.addr + 8 ≤ v.addr ∨ v.addr = w.addr) →
          ∃ m', copyPointer db m (some v) (some w) = .ok (true, m') ∧ OnlyChanged m m' w.addr 8 ∧ Pointer db m' w a ∧ Holds m' v.addr 8 a)) ∧
      ((∀ k < 8, m (v.addr + k) ≠ none) → ∀ a, a < 2 ^ 64 → ∃ m', setPointer db m (some v) a = .ok (0, m') ∧
        OnlyChanged m m' v.addr 8 ∧ pointer db m' (some v) = .ok (.ok a))) ∧
    ((∀ x t, f = some x → (db x).info ≠ .pointer t) →
      pointer db m (some v) = .ok (.error (-22)) ∧ (∀ a, setPointer db m (some v) a = .ok (-22, m)) ∧
      (∀ w, equalPointer db m (some v) w = .ok (-14)) ∧ (∀ w, copyPointer db m (some v) w = .ok (false, m))) := by
  refine ⟨?_, ?_⟩
  · intro x t hx hi
    subst hx
    have hfo := finalOf_some h isPointer
    simp only [hi, isPointer, if_true] at hfo
    constructor
    · intro a hh
      have hp := pointer_get (v := v) ⟨ha, ⟨x, qs, t, h, hi⟩, hh⟩
      refine ⟨hp, ?_, ?_⟩
      · intro w b hw
        simp [equalPointer, hp, pointer_get hw]
      · intro w b hw hdis
        obtain ⟨haw, ⟨f', qs', t', hf', hi'⟩, hhw⟩ := hw
        have hfo' := finalOf_some hf' isPointer
        simp only [hi', isPointer, if_true] at hfo'
        obtain ⟨m', hst⟩ := Mem.storeN_mapped a (holds_mapped hhw)
        obtain ⟨hh', hoc⟩ := holds_storeN hst
        have hlt := hh.1
        rw [Nat.mod_eq_of_lt hlt] at hh'
        refine ⟨m', ?_, hoc, ⟨haw, ⟨f', qs', t', hf', hi'⟩, hh'⟩, ?_⟩
        · simp [copyPointer, hp, setPointer, hfo', haw, hst]
        · rcases hdis with hd | hd | hd
          · exact ⟨hlt, fun k hk => by rw [hoc _ (.inl (by omega))]; exact hh.2 k hk⟩
          · exact ⟨hlt, fun k hk => by rw [hoc _ (.inr (by omega))]; exact hh.2 k hk⟩
          · rw [hd]; exact hh'
    · intro hm a hlt
      obtain ⟨m', hst⟩ := Mem.storeN_mapped a (mapped_of hm)
      obtain ⟨hh, hoc⟩ := holds_storeN hst
      rw [Nat.mod_eq_of_lt (show a < 256 ^ 8 by omega)] at hh
      refine ⟨m', ?_, hoc, pointer_get ⟨ha, ⟨x, qs, t, h, hi⟩, hh⟩⟩
      simp [setPointer, hfo, ha, hst]
  · intro hno
    have hfo := finalOf_none h isPointer (by
      intro x hx
      cases hi : (db x).info with
      | pointer t => exact absurd hi (hno x t hx)
      | _ => rfl)
    have hp : pointer db m (some v) = .ok (.error (-22)) := by simp [pointer, hfo]
    exact ⟨hp, fun a => by simp [setPointer, hfo], fun w => by simp [equalPointer, hp], fun w => by simp [copyPointer, hp]⟩

theorem exPtr (a : Nat) (f : Nat → UInt8) (n : Nat) (ha : a ≠ 0) (h : Holds (exMem f) a 8 n) : Pointer exDb (exMem f) ⟨8, a⟩ n :=
  ⟨ha, ⟨8, [], some 6, .here (exNot 8 (by decide)), rfl⟩, h⟩

theorem exHold0 (a : Nat) (h1 : 8 ≤ a) (h2 : a ≤ 16) : Holds (exMem fun _ => 0) a 8 0 :=
  ⟨by decide, fun k hk => by
    have h3 : 8 ≤ a + k := by omega
    have h4 : a + k < 24 := by omega
    simp [exMem, h3, h4]⟩

example : pointer exDb (exMem fun _ => 0) (some ⟨8, 8⟩) = .ok (.ok 0) ∧
    equalPointer exDb (exMem fun _ => 0) (some ⟨8, 8⟩) (some ⟨8, 16⟩) = .ok 1 ∧
    pointer exDb (exMem fun _ => 0) (some ⟨0, 8⟩) = .ok (.error (-22)) ∧
    ∃ m', setPointer exDb (exMem fun _ => 0) (some ⟨8, 8⟩) 16 = .ok (0, m') ∧ pointer exDb m' (some ⟨8, 8⟩) = .ok (.ok 16) ∧ m' 16 = some 0 := by
  obtain ⟨h, _⟩ := C54_pointer_objects exDb (exMem fun _ => 0) ⟨8, 8⟩ (some 8) [] (.here (exNot 8 (by decide))) (by decide)
  obtain ⟨h1, h2⟩ := h 8 (some 6) rfl rfl
  obtain ⟨hr, he, _⟩ := h1 0 (exHold0 8 (by decide) (by decide))
  obtain ⟨_, h3⟩ := C54_pointer_objects exDb (exMem fun _ => 0) ⟨0, 8⟩ (some 0) [] (.here (exNot 0 (by decide))) (by decide)
  refine ⟨hr, he ⟨8, 16⟩ 0 (exPtr 16 _ 0 (by decide) (exHold0 16 (by decide) (by decide))), (h3 ?_).1, ?_⟩
  · intro x t hx hi
    simp at hx
    subst hx
    simp [exDb] at hi
  · obtain ⟨m', a, b, c⟩ := h2 (fun k hk => exMapped _ _ (by show 8 ≤ 8 + k; omega) (by show 8 + k < 24; omega)) 16 (by decide)
    exact ⟨m', a, c, b 16 (by decide)⟩

/-! ### C28 -/

/-- What the loop needs of an outer level: its type does not run in a circle, and if it is a
pointer object, its bytes can be read. -/
def Readable (db : Db) (m : Mem) (w : Value) : Prop :=
  (∃ f qs, Final db w.entry f qs) ∧ ∀ f qs t, Final db w.entry (some f) qs → (db f).info = .pointer t → w.addr ≠ 0 → ∃ a, Holds m w.addr 8 a

theorem final_unique {db : Db} {r : Ref} {f f' : Option Ref} {qs qs' : List Qual} (h : Final db r f qs) (h' : Final db r f' qs') : f = f' := by
  have h1 := final_entry h
  have h2 := final_entry h'
  rw [h1] at h2
  simp at h2
  exact h2.1

theorem level_step {db : Db} {m : Mem} {w : Value} (hr : Readable db m w) (a : Nat) (vs : List (Option Value)) (l : Int) :
    (Pointer db m w a → loopLevels db m a (some w :: vs) l = .ok l) ∧
    (¬ Pointer db m w a → loopLevels db m a (some w :: vs) l = loopLevels db m a vs (l + 1)) := by
  obtain ⟨⟨f, qs, hf⟩, hrd⟩ := hr
  constructor
  · intro hp
    have hg := pointer_get hp
    obtain ⟨_, ⟨f', qs', t, hf', hi⟩, _⟩ := hp
    have hfo := finalOf_some hf' isPointer
    simp only [hi, isPointer, if_true] at hfo
    simp [loopLevels, hfo, hg]
  · intro hp
    by_cases hptr : ∃ x t, f = some x ∧ (db x).info = .pointer t
    · obtain ⟨x, t, rfl, hi⟩ := hptr
      have hfo := finalOf_some hf isPointer
      simp only [hi, isPointer, if_true] at hfo
      by_cases h0 : w.addr = 0
      · simp [loopLevels, hfo, pointer, h0]
      · obtain ⟨b, hb⟩ := hrd x qs t hf hi h0
        have hg := pointer_get (v := w) ⟨h0, ⟨x, qs, t, hf, hi⟩, hb⟩
        have hne : a ≠ b := by
          intro hab
          subst hab
          exact hp ⟨h0, ⟨x, qs, t, hf, hi⟩, hb⟩
        simp [loopLevels, hfo, hg, hne]
    · have hfo := finalOf_none hf isPointer (by
        intro x hx
        cases hi : (db x).info with
        | pointer t => exact absurd ⟨x, t, hx, hi⟩ hptr
        | _ => rfl)
      simp [loopLevels, hfo]

theorem levels_spec {db : Db} {m : Mem} {a : Nat} (vs : List (Option Value)) (hr : ∀ w, some w ∈ vs → Readable db m w) (l : Int) :
    (∀ (i : Nat) w, vs[i]? = some (some w) → Pointer db m w a → (∀ j < i, ∀ u, vs[j]? = some (some u) → ¬ Pointer db m u a) →
      loopLevels db m a vs l = .ok (l + i)) ∧
    ((∀ w, some w ∈ vs → ¬ Pointer db m w a) → loopLevels db m a vs l = .ok (-1)) := by
  induction vs generalizing l with
  | nil =>
    refine ⟨fun i w hi => by simp at hi, fun _ => rfl⟩
  | cons v vs ih =>
    obtain ⟨ih1, ih2⟩ := ih (fun w hw => hr w (by simp [hw])) (l + 1)
    constructor
    · intro i w hi hp hno
      cases i with
      | zero =>
        simp at hi
        subst hi
        rw [(level_step (hr w (by simp)) a vs l).1 hp]
        simp
      | succ i =>
        simp at hi
        have hrec := ih1 i w hi hp (fun j hj u hu => hno (j + 1) (by omega) u (by simpa using hu))
        have hl : l + 1 + (i : Int) = l + ((i + 1 : Nat) : Int) := by push_cast; omega
        rw [hl] at hrec
        rw [← hrec]
        cases v with
        | none => rfl
        | some u => exact (level_step (hr u (by simp)) a vs l).2 (hno 0 (by omega) u (by simp))
    · intro hno
      have hrec := ih2 (fun w hw => hno w (by simp [hw]))
      rw [← hrec]
      cases v with
      | none => rfl
      | some u => exact (level_step (hr u (by simp)) a vs l).2 (hno u (by simp))

/-- C28: at a pointer object with target `a` (NULL or not) inside other values, the function reports the distance to the
nearest enclosing pointer object with the same target, and -1 if there is none.  At an
object that is not a pointer, it reports -1. -/
theorem C28_introduced_loop (db : Db) (m : Mem) (v : Value) (outer : List (Option Value)) (hr : ∀ w, some w ∈ outer → Readable db m w) :
    (∀ a, Pointer db m v a →
      (∀ (i : Nat) w, outer[i]? = some (some w) → Pointer db m w a → (∀ j < i, ∀ u, outer[j]? = some (some u) → ¬ Pointer db m u a) →
        introducedLoop db m (some v :: outer) = .ok (i + 1)) ∧
      ((∀ w, some w ∈ outer → ¬ Pointer db m w a) → introducedLoop db m (some v :: outer) = .ok (-1))) ∧
    (∀ f qs, Final db v.entry f qs → (∀ x t, f = some x → (db x).info ≠ .pointer t) → introducedLoop db m (some v :: outer) = .ok (-1)) := by
  constructor
  · intro a hp
    have hg := pointer_get hp
    obtain ⟨_, ⟨f', qs', t, hf', hi⟩, _⟩ := hp
    have hfo := finalOf_some hf' isPointer
    simp only [hi, isPointer, if_true] at hfo
    obtain ⟨h1, h2⟩ := levels_spec (a := a) outer hr 1
    cases outer with
    | nil => exact ⟨fun i w hi => by simp at hi, fun _ => rfl⟩
    | cons o os =>
      have hdef : introducedLoop db m (some v :: o :: os) = loopLevels db m a (o :: os) 1 := by
        simp [introducedLoop, hfo, hg]
      rw [hdef]
      refine ⟨fun i w hi hpw hno => ?_, h2⟩
      rw [h1 i w hi hpw hno]
      simp [Int.add_comm]
  · intro f qs hf hno
    have hfo := finalOf_none hf isPointer (by
      intro x hx
      cases hi : (db x).info with
      | pointer t => exact absurd hi (hno x t hx)
      | _ => rfl)
    cases outer with
    | nil => rfl
    | cons o os => simp [introducedLoop, hfo]

/-- The stacks (innermost first) of a walk that descends from a value only if no loop is
reported there, memory staying as it is. -/
inductive Walk (db : Db) (m : Mem) : List (Option Value) → Prop where
  | nil : Walk db m []
  | push {v vs} : Walk db m vs → introducedLoop db m (some v :: vs) = .ok (-1) → Readable db m v → Walk db m (some v :: vs)

theorem walk_readable {db : Db} {m : Mem} {vs : List (Option Value)} (h : Walk db m vs) : ∀ w, some w ∈ vs → Readable db m w := by
  induction h with
  | nil => simp
  | push _ _ hr ih =>
    intro w hw
    simp at hw
    rcases hw with rfl | hw
    · exact hr
    · exact ih w hw

theorem nearest {db : Db} {m : Mem} {vs : List (Option Value)} {a : Nat} (j : Nat) : ∀ w, vs[j]? = some (some w) → Pointer db m w a →
    ∃ (k : Nat) (x : Value), vs[k]? = some (some x) ∧ Pointer db m x a ∧ ∀ l < k, ∀ y, vs[l]? = some (some y) → ¬ Pointer db m y a := by
  induction j using Nat.strongRecOn with
  | _ j ih =>
    intro w hj hpw
    by_cases hex : ∃ l < j, ∃ y, vs[l]? = some (some y) ∧ Pointer db m y a
    · obtain ⟨l, hl, y, hy, hp⟩ := hex
      exact ih l hl y hy hp
    · exact ⟨j, w, hj, hpw, fun l hl y hy hp => hex ⟨l, hl, y, hy, hp⟩⟩

/-- C28: along such a walk no two enclosing pointers have the same target. -/
theorem C28_walk_no_repeat (db : Db) (m : Mem) (vs : List (Option Value)) (h : Walk db m vs) :
    ∀ (i j : Nat) u w a b, i < j → vs[i]? = some (some u) → vs[j]? = some (some w) → Pointer db m u a → Pointer db m w b → a ≠ b := by
  have hrd := walk_readable h
  induction h with
  | nil => intro i j u w a b _ hi; simp at hi
  | @push v vs hw hl hr ih =>
    intro i j u w a b hij hi hj hu hpw
    cases i with
    | zero =>
      simp at hi
      subst hi
      obtain ⟨j, rfl⟩ : ∃ k, j = k + 1 := ⟨j - 1, by omega⟩
      simp at hj
      intro hab
      subst hab
      obtain ⟨h1, _⟩ := (C28_introduced_loop db m v vs (fun w hw => hrd w (by simp [hw]))).1 a hu
      obtain ⟨k, x, hk, hx, hmin⟩ := nearest j w hj hpw
      have := h1 k x hk hx hmin
      rw [hl] at this
      simp at this
      omega
    | succ i =>
      obtain ⟨j, rfl⟩ : ∃ k, j = k + 1 := ⟨j - 1, by omega⟩
      simp at hi hj
      exact ih (fun w hw => hrd w (by simp [hw])) i j u w a b (by omega) hi hj hu hpw

theorem exReadable (r a : Nat) (h : r = 8 ∧ 8 ≤ a ∧ a ≤ 16 ∨ r = 6) : Readable exDb (exMem fun _ => 0) ⟨r, a⟩ := by
  rcases h with ⟨rfl, h1, h2⟩ | rfl
  · exact ⟨⟨some 8, [], .here (exNot 8 (by decide))⟩, fun _ _ _ _ _ _ => ⟨0, exHold0 a h1 h2⟩⟩
  · refine ⟨⟨some 6, [], .here (exNot 6 (by decide))⟩, fun f qs t hf hi => ?_⟩
    have := final_unique hf (.here (exNot 6 (by decide)))
    simp at this
    subst this
    simp [exDb] at hi

/-- A pointer at 8 inside a struct that was reached through a pointer at 16 with the same
target: the loop is reported at distance 2. -/
example : introducedLoop exDb (exMem fun _ => 0) [some ⟨8, 8⟩, some ⟨6, 8⟩, some ⟨8, 16⟩] = .ok 2 := by
  obtain ⟨h, _⟩ := C28_introduced_loop exDb (exMem fun _ => 0) ⟨8, 8⟩ [some ⟨6, 8⟩, some ⟨8, 16⟩] (by
    intro w hw
    simp at hw
    rcases hw with rfl | rfl
    · exact exReadable 6 8 (.inr rfl)
    · exact exReadable 8 16 (.inl (by decide)))
  obtain ⟨h1, _⟩ := h 0 (exPtr 8 _ 0 (by decide) (exHold0 8 (by decide) (by decide)))
  refine h1 1 ⟨8, 16⟩ rfl (exPtr 16 _ 0 (by decide) (exHold0 16 (by decide) (by decide))) ?_
  intro j hj u hu
  have : j = 0 := by omega
  subst this
  simp at hu
  subst hu
  intro ⟨_, ⟨f, qs, t, hf, hi⟩, _⟩
  have := final_unique hf (.here (exNot 6 (by decide)))
  simp at this
  subst this
  simp [exDb] at hi

/-- A walk of two levels. -/
example : Walk exDb (exMem fun _ => 0) [some ⟨6, 8⟩, some ⟨8, 16⟩] := by
  refine .push (.push .nil rfl (exReadable 8 16 (.inl (by decide)))) ?_ (exReadable 6 8 (.inr rfl))
  refine (C28_introduced_loop exDb _ ⟨6, 8⟩ _ ?_).2 (some 6) [] (.here (exNot 6 (by decide))) ?_
  · intro w hw
    simp at hw
    subst hw
    exact exReadable 8 16 (.inl (by decide))
  · intro x t hx hi
    simp at hx
    subst hx
    simp [exDb] at hi

end Verif.Value
