import Verif.Value.Spec
import Verif.Bitfield.Lemmas
/-
Helper lemmas for typed access.
-/
namespace Verif.Value
open Verif Verif.Entry Verif.Entry.Spec Verif.Value.Spec

/-! ### Bytes -/

theorem pow256 (n : Nat) : 256 ^ n = 2 ^ (8 * n) := by
  rw [show (256 : Nat) = 2 ^ 8 from rfl, ← Nat.pow_mul]

theorem bytesOf_get (n v k : Nat) (h : k < n) : (Mem.bytesOf n v)[k]? = some (UInt8.ofNat (v / 256 ^ k % 256)) := by
  induction n generalizing v k with
  | zero => omega
  | succ n ih =>
    cases k with
    | zero =>
      simp only [Mem.bytesOf, List.getElem?_cons_zero, Nat.pow_zero, Nat.div_one, Option.some.injEq]
      rw [← UInt8.toNat_inj]
      simp
    | succ k =>
      simp only [Mem.bytesOf, List.getElem?_cons_succ]
      rw [ih _ _ (by omega), Nat.div_div_eq_div_mul, Nat.pow_succ, Nat.mul_comm]

theorem holds_loadN {m : Mem} {a n v : Nat} : Holds m a n v ↔ m.loadN a n = .ok v := by
  constructor
  · intro ⟨h1, h2⟩
    have hl := Mem.load_of_get (m := m) (a := a) (bs := Mem.bytesOf n v) (by
      intro k hk
      rw [Mem.bytesOf_length] at hk
      rw [h2 k hk, bytesOf_get n v k hk])
    rw [Mem.bytesOf_length] at hl
    rw [pow256] at h1
    simp [Mem.loadN, hl, Mem.le_bytesOf, Nat.mod_eq_of_lt h1]
  · intro h
    unfold Mem.loadN at h
    cases hl : m.load a n with
    | ok bs =>
      simp only [hl, Outcome.bind_ok, Outcome.pure_eq, Outcome.ok.injEq] at h
      have hlen := Mem.load_length hl
      have hb := Mem.bytesOf_le bs
      rw [hlen, h] at hb
      have hlt := Mem.le_lt bs
      rw [hlen, h] at hlt
      refine ⟨by rw [pow256]; exact hlt, fun k hk => ?_⟩
      rw [(Mem.load_get hl k hk).1, ← hb, bytesOf_get n v k hk]
    | abort => simp [hl] at h
    | ub => simp [hl] at h
    | hang => simp [hl] at h

theorem holds_mapped {m : Mem} {a n v : Nat} (h : Holds m a n v) : Mem.Mapped m a n := by
  intro x h1 h2
  obtain ⟨k, rfl⟩ : ∃ k, x = a + k := ⟨x - a, by omega⟩
  rw [h.2 k (by omega)]
  rfl

theorem holds_storeN {m m' : Mem} {a n v : Nat} (h : m.storeN a n v = .ok m') : Holds m' a n (v % 256 ^ n) ∧ OnlyChanged m m' a n := by
  refine ⟨?_, fun x hx => Mem.storeN_other h x hx⟩
  rw [holds_loadN, pow256]
  exact Mem.loadN_storeN h

theorem holds_unique {m : Mem} {a n v w : Nat} (h : Holds m a n v) (h' : Holds m a n w) : v = w := by
  rw [holds_loadN] at h h'
  rw [h] at h'
  simpa using h'

/-! ### The type check -/

theorem desc_spec (t : Ty) : ∃ e, desc t = (typeName t, e, Spec.sizeOf t) ∧ Encodes t e ∧
    (t ≠ .char → ∀ e', Encodes t e' ↔ e' = e) ∧ (t = .char → e = 7) := by
  cases t <;> exact ⟨_, rfl, by simp [Encodes], by simp [Encodes], by simp⟩

theorem size_lt (t : Ty) : Spec.sizeOf t < 2 ^ 64 ∧ 0 < Spec.sizeOf t := by cases t <;> decide

/-- `f` is the base type `t` with encoding `e` (where recorded). -/
def Chk (db : Db) (f : Ref) (t : Ty) (e : Nat) : Prop :=
  ∃ bs be, (db f).info = .base bs be ∧ (db f).name = some (typeName t) ∧ (be ≠ 0 → be = e) ∧ (bs ≠ 0 → bs.toNat = Spec.sizeOf t)

theorem chk_describes {db : Db} {f : Ref} {t : Ty} {e : Nat} (h : Chk db f t e) (he : Encodes t e) : Describes db f t := by
  obtain ⟨bs, be, h1, h2, h3, h4⟩ := h
  exact ⟨bs, be, h1, h2, fun h => by rw [h3 h]; exact he, h4⟩

theorem describes_chk {db : Db} {f : Ref} {t : Ty} (h : Describes db f t) : ∃ e, Encodes t e ∧ Chk db f t e := by
  obtain ⟨bs, be, h1, h2, h3, h4⟩ := h
  by_cases hz : be = 0
  · obtain ⟨e, _, he, _⟩ := desc_spec t
    exact ⟨e, he, bs, be, h1, h2, fun h => absurd hz h, h4⟩
  · exact ⟨be, h3 hz, bs, be, h1, h2, fun _ => rfl, h4⟩

theorem check_spec {db : Db} (hn : Named db) {r : Ref} {f : Option Ref} {qs : List Qual} (h : Final db r f qs) (t : Ty) (e : Nat) :
    ∃ c, checkBaseType db (some r) (typeName t) e (UInt64.ofNat (Spec.sizeOf t)) = some (.ok c) ∧
      (c = 0 ↔ ∃ x, f = some x ∧ Chk db x t e) ∧ (c = 0 ∨ c = -22) := by
  obtain ⟨h1, _, h3, _⟩ := C53_check_base_type db r f qs h (typeName t) e (UInt64.ofNat (Spec.sizeOf t))
  by_cases hb : ∃ x bs be, f = some x ∧ (db x).info = .base bs be
  · obtain ⟨x, bs, be, rfl, hi⟩ := hb
    cases hnm : (db x).name with
    | none => exact absurd hnm (hn x bs be hi)
    | some n =>
      obtain ⟨c, hc1, hc2, hc3⟩ := h1 x n bs be rfl hi hnm
      refine ⟨c, hc1, hc2.trans ?_, hc3⟩
      have hsz : ∀ u : UInt64, u = UInt64.ofNat (Spec.sizeOf t) ↔ u.toNat = Spec.sizeOf t := by
        intro u
        have hl := (size_lt t).1
        rw [← UInt64.toNat_inj, UInt64.toNat_ofNat', Nat.mod_eq_of_lt hl]
      constructor
      · intro ⟨a, b, c⟩
        exact ⟨x, rfl, bs, be, hi, by rw [hnm, a], b, fun hne => (hsz bs).1 (c hne)⟩
      · intro ⟨y, hy, bs', be', hi', hn', hb', hs'⟩
        cases hy
        rw [hi] at hi'
        cases hi'
        rw [hnm] at hn'
        exact ⟨by simpa using hn', hb', fun hne => (hsz bs).2 (hs' hne)⟩
  · refine ⟨-22, h3 (fun x bs be hx hi => hb ⟨x, bs, be, hx, hi⟩), ?_, .inr rfl⟩
    constructor
    · intro h; exact absurd h (by decide)
    · intro ⟨x, hx, bs, be, hi, _⟩
      exact absurd ⟨x, bs, be, hx, hi⟩ hb

theorem isTy_spec {db : Db} (hn : Named db) {r : Ref} {f : Option Ref} {qs : List Qual} (h : Final db r f qs) (t : Ty) :
    ∃ b, isTy db (some r) t = .ok b ∧ (b = true ↔ ∃ x, f = some x ∧ Describes db x t) := by
  obtain ⟨e, hd, he, hne, hch⟩ := desc_spec t
  obtain ⟨c, hc, hc0, _⟩ := check_spec hn h t e
  unfold isTy
  simp only [hd, hc, Outcome.ofLoop_some, Outcome.bind_ok]
  by_cases h0 : c = 0
  · rw [if_pos h0]
    refine ⟨true, rfl, ?_⟩
    obtain ⟨x, hx, hk⟩ := hc0.1 h0
    exact ⟨fun _ => ⟨x, hx, chk_describes hk he⟩, fun _ => rfl⟩
  · rw [if_neg h0]
    by_cases hcc : t = .char
    · subst hcc
      obtain ⟨c', hc', hc0', _⟩ := check_spec hn h .char 9
      simp only [if_true, hc', Outcome.ofLoop_some, Outcome.bind_ok]
      refine ⟨decide (c' = 0), rfl, ?_⟩
      simp only [decide_eq_true_eq]
      constructor
      · intro h
        obtain ⟨x, hx, hk⟩ := hc0'.1 h
        exact ⟨x, hx, chk_describes hk (.inr rfl)⟩
      · intro ⟨x, hx, hdx⟩
        obtain ⟨e', he', hk⟩ := describes_chk hdx
        rcases he' with rfl | rfl
        · have : e = 7 := hch rfl
          subst this
          exact absurd (hc0.2 ⟨x, hx, hk⟩) h0
        · exact hc0'.2 ⟨x, hx, hk⟩
    · rw [if_neg hcc]
      refine ⟨false, rfl, ?_⟩
      constructor
      · intro h; exact absurd h (by decide)
      · intro ⟨x, hx, hdx⟩
        obtain ⟨e', he', hk⟩ := describes_chk hdx
        have := (hne hcc e').1 he'
        subst this
        exact absurd (hc0.2 ⟨x, hx, hk⟩) h0

theorem bitfieldMember_none {db : Db} {r : Ref} (h : ¬ IsBitfield db r) : bitfieldMember (db r) = none := by
  unfold bitfieldMember
  cases hi : (db r).info with
  | member mi =>
    simp only
    rw [if_pos]
    refine ⟨?_, ?_, ?_⟩ <;> apply Classical.byContradiction <;> intro hc <;> apply h <;> refine ⟨mi, hi, ?_⟩
    · exact .inl hc
    · exact .inr (.inl hc)
    · exact .inr (.inr hc)
  | _ => rfl

theorem bitfieldMember_some {db : Db} {r : Ref} {mi : MemberInfo} (hi : (db r).info = .member mi)
    (h : mi.bitOffset ≠ none ∨ mi.bitSize ≠ none ∨ mi.dataBitOffset ≠ none) : bitfieldMember (db r) = some mi.byteOffset := by
  unfold bitfieldMember
  rw [hi]
  simp only
  rw [if_neg]
  intro ⟨h1, h2, h3⟩
  rcases h with h | h | h
  · exact h h1
  · exact h h2
  · exact h h3

theorem final_of_final {db : Db} {r x : Ref} {qs : List Qual} (h : Final db r (some x) qs) : Final db x (some x) [] :=
  .here (final_not_alias h)

/-- the read of a matching value. -/
def readRaw (cfg : Plat) (db : Db) (m : Mem) (v : Value) (t : Ty) (e : Nat) : Outcome (Except Int Nat) :=
  match bitfieldMember (db v.entry) with
  | none => do
    let n ← m.loadN v.addr (Spec.sizeOf t)
    return .ok n
  | some off =>
    if bitfieldSupported e then
      if v.addr < off.toNat then .ub
      else Bitfield.read cfg.toCfg db m v.entry (v.addr - off.toNat) (Spec.sizeOf t) (e = 7 ∨ e = 6)
    else return .error (-95)

theorem baseType_spec {cfg : Plat} {db : Db} (hn : Named db) {m : Mem} {v : Value} {f : Option Ref} {qs : List Qual}
    (h : Final db v.entry f qs) (ha : v.addr ≠ 0) (t : Ty) (e : Nat) :
    ((∃ x, f = some x ∧ Chk db x t e) → baseType cfg db m (some v) (typeName t) e (Spec.sizeOf t) = readRaw cfg db m v t e) ∧
    ((¬ ∃ x, f = some x ∧ Chk db x t e) → baseType cfg db m (some v) (typeName t) e (Spec.sizeOf t) = .ok (.error (-22))) := by
  unfold baseType
  simp only [ha, if_false, final_entry h, Outcome.ofLoop_some, Outcome.bind_ok]
  cases f with
  | none =>
    refine ⟨fun ⟨x, hx, _⟩ => by simp at hx, fun _ => rfl⟩
  | some x =>
    obtain ⟨c, hc, hc0, hc2⟩ := check_spec hn (final_of_final h) t e
    simp only [hc, Outcome.ofLoop_some, Outcome.bind_ok]
    constructor
    · intro hex
      have : c = 0 := hc0.2 hex
      subst this
      rfl
    · intro hex
      have h0 : c ≠ 0 := fun h => hex (hc0.1 h)
      simp only [h0, ne_eq, not_false_eq_true, if_true, Outcome.pure_eq]
      rcases hc2 with h | h
      · exact absurd h h0
      · rw [h]

/-- the write of a matching value. -/
def writeRaw (cfg : Plat) (db : Db) (m : Mem) (v : Value) (t : Ty) (e var : Nat) : Outcome (Int × Mem) :=
  match bitfieldMember (db v.entry) with
  | none => do
    let m ← m.storeN v.addr (Spec.sizeOf t) var
    return (0, m)
  | some off =>
    if bitfieldSupported e then
      if v.addr < off.toNat then .ub
      else Bitfield.write cfg.toCfg db m v.entry (v.addr - off.toNat) var (Spec.sizeOf t)
    else return (-95, m)

/-- A chain is const-qualified. -/
theorem const_flag {db : Db} {r x : Ref} {qs : List Qual} (h : Final db r (some x) qs) :
    ∃ w, finalEntry db (some r) = some (some x, w) ∧ (¬ Dots db x → ((w.getD {}).const = true ↔ Qual.const ∈ qs)) ∧
      (Dots db x → (w.getD {}).const = false) := by
  obtain ⟨w, hw, h1, _⟩ := (C18_final_entry db).2.1 r (some x) qs h
  obtain ⟨_, _, h2, h3⟩ := h1 x rfl
  refine ⟨w, hw, ?_, ?_⟩
  · intro hd
    obtain ⟨q, rfl, hk⟩ := h2 hd
    exact hk .const
  · intro hd
    rw [h3 hd]
    rfl

theorem describes_not_dots {db : Db} {x : Ref} {t : Ty} (h : Describes db x t) : ¬ Dots db x := by
  obtain ⟨bs, be, h1, _⟩ := h
  intro ⟨t', h2⟩
  rw [h1] at h2
  simp at h2

theorem setBaseType_spec {cfg : Plat} {db : Db} (hn : Named db) {m : Mem} {v : Value} {f : Option Ref} {qs : List Qual}
    (h : Final db v.entry f qs) (ha : v.addr ≠ 0) (t : Ty) (e var : Nat) :
    ((∃ x, f = some x ∧ Chk db x t e) → Qual.const ∉ qs → setBaseType cfg db m (some v) (typeName t) e var (Spec.sizeOf t) = writeRaw cfg db m v t e var) ∧
    ((∃ x, f = some x ∧ ¬ Dots db x) → Qual.const ∈ qs → setBaseType cfg db m (some v) (typeName t) e var (Spec.sizeOf t) = .ok (-1, m)) ∧
    ((¬ ∃ x, f = some x ∧ Chk db x t e) → ∃ c, setBaseType cfg db m (some v) (typeName t) e var (Spec.sizeOf t) = .ok (c, m) ∧ c ≠ 0) := by
  unfold setBaseType
  cases f with
  | none =>
    simp only [ha, if_false, final_entry h, Outcome.ofLoop_some, Outcome.bind_ok, written]
    refine ⟨fun ⟨x, hx, _⟩ => by simp at hx, fun ⟨x, hx, _⟩ => by simp at hx, fun _ => ⟨-22, rfl, by decide⟩⟩
  | some x =>
    obtain ⟨w, hw, hq1, hq2⟩ := const_flag h
    obtain ⟨c, hc, hc0, hc2⟩ := check_spec hn (final_of_final h) t e
    simp only [ha, if_false, hw, Outcome.ofLoop_some, Outcome.bind_ok]
    refine ⟨?_, ?_, ?_⟩
    · intro hex hnc
      have hnd : ¬ Dots db x := by
        obtain ⟨y, hy, bs, be, hi, _⟩ := hex
        cases hy
        intro ⟨t', h2⟩
        rw [hi] at h2
        simp at h2
      have hcf : (w.getD {}).const = false := by
        cases hcc : (w.getD {}).const with
        | false => rfl
        | true => exact absurd ((hq1 hnd).1 hcc) hnc
      have : c = 0 := hc0.2 hex
      subst this
      simp only [hcf, hc, Outcome.ofLoop_some, Outcome.bind_ok]
      rfl
    · intro ⟨y, hy, hnd⟩ hc'
      cases hy
      have : (w.getD {}).const = true := (hq1 hnd).2 hc'
      simp only [this, if_true]
      rfl
    · intro hex
      have h0 : c ≠ 0 := fun h => hex (hc0.1 h)
      cases hcc : (w.getD {}).const with
      | true => exact ⟨-1, by simp only [if_true]; rfl, by decide⟩
      | false =>
        refine ⟨c, ?_, h0⟩
        simp only [hc, Outcome.ofLoop_some, Outcome.bind_ok, h0, ne_eq, not_false_eq_true, if_true]
        rfl

/-! ### Typed getters and setters -/

/-- the encoding under which a matching object is accessed. -/
theorem getTy_match {cfg : Plat} {db : Db} (hn : Named db) {m : Mem} {v : Value} {x : Ref} {qs : List Qual}
    (h : Final db v.entry (some x) qs) (ha : v.addr ≠ 0) {t : Ty} (hd : Describes db x t) :
    ∃ e, Encodes t e ∧ Chk db x t e ∧ (t = .char → e = 7 ∨ ¬ Chk db x .char 7) ∧
      (∀ n, readRaw cfg db m v t e = .ok (.ok n) → getTy cfg db m (some v) t = .ok (.ok n)) ∧
      (∀ var, Qual.const ∉ qs → ∀ m', writeRaw cfg db m v t e (cfg.passed t var) = .ok (0, m') → setTy cfg db m (some v) t var = .ok (0, m')) ∧
      (readRaw cfg db m v t e = .ub → getTy cfg db m (some v) t = .ub) ∧
      (∀ var, Qual.const ∉ qs → writeRaw cfg db m v t e (cfg.passed t var) = .ub → setTy cfg db m (some v) t var = .ub) := by
  obtain ⟨e0, hde, he0, hne, hch⟩ := desc_spec t
  by_cases hk0 : Chk db x t e0
  · refine ⟨e0, he0, hk0, fun hc => .inl (hch hc), ?_, ?_, ?_, ?_⟩
    · intro n hr
      unfold getTy
      simp only [hde, (baseType_spec (cfg := cfg) (m := m) hn h ha t e0).1 ⟨x, rfl, hk0⟩, hr, Outcome.bind_ok]
      rfl
    · intro var hq m' hw
      unfold setTy
      simp only [hde, (setBaseType_spec (cfg := cfg) (m := m) hn h ha t e0 (cfg.passed t var)).1 ⟨x, rfl, hk0⟩ hq, hw, Outcome.bind_ok]
      rfl
    · intro hr
      unfold getTy
      simp only [hde, (baseType_spec (cfg := cfg) (m := m) hn h ha t e0).1 ⟨x, rfl, hk0⟩, hr]
      rfl
    · intro var hq hw
      unfold setTy
      simp only [hde, (setBaseType_spec (cfg := cfg) (m := m) hn h ha t e0 (cfg.passed t var)).1 ⟨x, rfl, hk0⟩ hq, hw]
      rfl
  · obtain ⟨e, he, hk⟩ := describes_chk hd
    have hcc : t = .char := by
      apply Classical.byContradiction
      intro hcc
      have := (hne hcc e).1 he
      subst this
      exact hk0 hk
    subst hcc
    have h7 : e0 = 7 := hch rfl
    subst h7
    have h9 : e = 9 := by
      rcases he with rfl | rfl
      · exact absurd hk hk0
      · rfl
    subst h9
    refine ⟨9, .inr rfl, hk, fun _ => .inr hk0, ?_, ?_, ?_, ?_⟩
    · intro n hr
      have hmis := (baseType_spec (cfg := cfg) (m := m) hn h ha .char 7).2 (fun ⟨y, hy, hk⟩ => by cases hy; exact hk0 hk)
      unfold getTy
      simp only [hde, hmis, Outcome.bind_ok, if_true, (baseType_spec (cfg := cfg) (m := m) hn h ha .char 9).1 ⟨x, rfl, hk⟩, hr]
      rfl
    · intro var hq m' hw
      obtain ⟨c, hc1, hc2⟩ := (setBaseType_spec (cfg := cfg) (m := m) hn h ha .char 7 (cfg.passed .char var)).2.2 (fun ⟨y, hy, hk⟩ => by cases hy; exact hk0 hk)
      unfold setTy
      simp only [hde, hc1, Outcome.bind_ok, hc2, if_false, if_true, (setBaseType_spec (cfg := cfg) (m := m) hn h ha .char 9 (cfg.passed .char var)).1 ⟨x, rfl, hk⟩ hq, hw]
      rfl
    · intro hr
      have hmis := (baseType_spec (cfg := cfg) (m := m) hn h ha .char 7).2 (fun ⟨y, hy, hk⟩ => by cases hy; exact hk0 hk)
      unfold getTy
      simp only [hde, hmis, Outcome.bind_ok, if_true, (baseType_spec (cfg := cfg) (m := m) hn h ha .char 9).1 ⟨x, rfl, hk⟩, hr]
      rfl
    · intro var hq hw
      obtain ⟨c, hc1, hc2⟩ := (setBaseType_spec (cfg := cfg) (m := m) hn h ha .char 7 (cfg.passed .char var)).2.2 (fun ⟨y, hy, hk⟩ => by cases hy; exact hk0 hk)
      unfold setTy
      simp only [hde, hc1, Outcome.bind_ok, hc2, if_false, if_true, (setBaseType_spec (cfg := cfg) (m := m) hn h ha .char 9 (cfg.passed .char var)).1 ⟨x, rfl, hk⟩ hq, hw]
      rfl

theorem getTy_mismatch {cfg : Plat} {db : Db} (hn : Named db) {m : Mem} {v : Value} {f : Option Ref} {qs : List Qual}
    (h : Final db v.entry f qs) (ha : v.addr ≠ 0) {t : Ty} (hd : ¬ ∃ x, f = some x ∧ Describes db x t) :
    (∃ c, getTy cfg db m (some v) t = .ok (.error c)) ∧
    (∀ var, ∃ c, setTy cfg db m (some v) t var = .ok (c, m) ∧ c ≠ 0) := by
  obtain ⟨e0, hde, he0, hne, hch⟩ := desc_spec t
  have hno : ∀ e, Encodes t e → ¬ ∃ x, f = some x ∧ Chk db x t e := fun e he ⟨x, hx, hk⟩ => hd ⟨x, hx, chk_describes hk he⟩
  constructor
  · unfold getTy
    simp only [hde, (baseType_spec (cfg := cfg) (m := m) hn h ha t e0).2 (hno e0 he0), Outcome.bind_ok]
    by_cases hcc : t = .char
    · subst hcc
      simp only [if_true, (baseType_spec (cfg := cfg) (m := m) hn h ha .char 9).2 (hno 9 (.inr rfl)), Outcome.bind_ok]
      exact ⟨_, rfl⟩
    · rw [if_neg hcc]; exact ⟨_, rfl⟩
  · intro var
    obtain ⟨c, hc1, hc2⟩ := (setBaseType_spec (cfg := cfg) (m := m) hn h ha t e0 (cfg.passed t var)).2.2 (hno e0 he0)
    unfold setTy
    simp only [hde, hc1, Outcome.bind_ok, hc2, if_false]
    by_cases hcc : t = .char
    · subst hcc
      obtain ⟨c', hc1', hc2'⟩ := (setBaseType_spec (cfg := cfg) (m := m) hn h ha .char 9 (cfg.passed .char var)).2.2 (hno 9 (.inr rfl))
      simp only [if_true, hc1', Outcome.bind_ok, hc2', if_false]
      exact ⟨-14, rfl, by decide⟩
    · rw [if_neg hcc]; exact ⟨c, rfl, hc2⟩

theorem setTy_const {cfg : Plat} {db : Db} (hn : Named db) {m : Mem} {v : Value} {x : Ref} {qs : List Qual}
    (h : Final db v.entry (some x) qs) (hnd : ¬ Dots db x) (ha : v.addr ≠ 0) (t : Ty) (hq : Qual.const ∈ qs) (var : Nat) :
    ∃ c, setTy cfg db m (some v) t var = .ok (c, m) ∧ c ≠ 0 := by
  obtain ⟨e0, hde, he0, hne, hch⟩ := desc_spec t
  unfold setTy
  simp only [hde, (setBaseType_spec (cfg := cfg) (m := m) hn h ha t e0 (cfg.passed t var)).2.1 ⟨x, rfl, hnd⟩ hq, Outcome.bind_ok]
  by_cases hcc : t = .char
  · subst hcc
    simp only [(setBaseType_spec (cfg := cfg) (m := m) hn h ha .char 9 (cfg.passed .char var)).2.1 ⟨x, rfl, hnd⟩ hq, Outcome.bind_ok]
    exact ⟨-14, rfl, by decide⟩
  · exact ⟨-1, by simp [hcc], by decide⟩

theorem getTy_plain {cfg : Plat} {db : Db} (hn : Named db) {m : Mem} {v : Value} {x : Ref} {qs : List Qual}
    (h : Final db v.entry (some x) qs) (ha : v.addr ≠ 0) {t : Ty} (hd : Describes db x t) (hb : ¬ IsBitfield db v.entry) :
    (∀ n, Holds m v.addr (Spec.sizeOf t) n → getTy cfg db m (some v) t = .ok (.ok n)) ∧
    (Qual.const ∉ qs → Mem.Mapped m v.addr (Spec.sizeOf t) → ∀ var, ∃ m', setTy cfg db m (some v) t var = .ok (0, m') ∧
      Holds m' v.addr (Spec.sizeOf t) (cfg.passed t var % 256 ^ Spec.sizeOf t) ∧ OnlyChanged m m' v.addr (Spec.sizeOf t)) := by
  obtain ⟨e, _, _, _, hg, hs, _, _⟩ := getTy_match (cfg := cfg) (m := m) hn h ha hd
  constructor
  · intro n hh
    apply hg
    rw [holds_loadN] at hh
    simp [readRaw, bitfieldMember_none hb, hh]
  · intro hq hm var
    obtain ⟨m', hst⟩ := Mem.storeN_mapped (cfg.passed t var) hm
    refine ⟨m', hs var hq m' ?_, holds_storeN hst⟩
    simp [writeRaw, bitfieldMember_none hb, hst]

end Verif.Value
