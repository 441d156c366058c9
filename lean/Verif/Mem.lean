import Verif.Common
/-
Byte memory of the modelled program (little-endian, 8-bit bytes).  Addresses are numbers,
0 is NULL; `none` is memory that does not belong to any object: touching it is undefined.
-/
namespace Verif

abbrev Mem := Nat → Option UInt8

namespace Mem

/-- read `n` bytes. -/
def load (m : Mem) (a : Nat) : Nat → Outcome (List UInt8)
  | 0 => .ok []
  | n + 1 =>
    match m a with
    | none => .ub
    | some b => do
      let bs ← load m (a + 1) n
      return b :: bs

/-- write bytes. -/
def store (m : Mem) (a : Nat) : List UInt8 → Outcome Mem
  | [] => .ok m
  | b :: bs =>
    match m a with
    | none => .ub
    | some _ => store (fun x => if x = a then some b else m x) (a + 1) bs

/-- the number stored in bytes, low byte first. -/
def le : List UInt8 → Nat
  | [] => 0
  | b :: bs => b.toNat + 256 * le bs

/-- the `n` low bytes of a number, low byte first. -/
def bytesOf : Nat → Nat → List UInt8
  | 0, _ => []
  | n + 1, v => UInt8.ofNat v :: bytesOf n (v / 256)

/-- `*(unsigned n-byte type *)a`. -/
def loadN (m : Mem) (a n : Nat) : Outcome Nat := do return le (← m.load a n)

/-- `*(unsigned n-byte type *)a = v`. -/
def storeN (m : Mem) (a n v : Nat) : Outcome Mem := m.store a (bytesOf n v)

/-- the two's complement reading of an `n`-byte number. -/
def signed (n v : Nat) : Int := Int.bmod v (2 ^ (8 * n))

/-- the `n`-byte two's complement form of an integer. -/
def unsigned (n : Nat) (v : Int) : Nat := (v % (2 ^ (8 * n) : Nat)).toNat

/-! ### Facts -/

/-- all of `[a, a+n)` is mapped. -/
def Mapped (m : Mem) (a n : Nat) : Prop := ∀ x, a ≤ x → x < a + n → (m x).isSome = true

theorem bytesOf_length (n v : Nat) : (bytesOf n v).length = n := by
  induction n generalizing v with
  | zero => rfl
  | succ n ih => simp [bytesOf, ih]

theorem le_bytesOf (n v : Nat) : le (bytesOf n v) = v % 2 ^ (8 * n) := by
  induction n generalizing v with
  | zero => simp [bytesOf, le, Nat.mod_one]
  | succ n ih =>
    simp only [bytesOf, le, ih, UInt8.toNat_ofNat']
    have e : 2 ^ (8 * (n + 1)) = 256 * 2 ^ (8 * n) := by
      rw [Nat.mul_add, Nat.pow_add]; omega
    rw [e, Nat.mod_mul]

theorem bytesOf_le (bs : List UInt8) : bytesOf bs.length (le bs) = bs := by
  induction bs with
  | nil => rfl
  | cons b bs ih =>
    have hb : b.toNat < 256 := UInt8.toNat_lt b
    simp only [List.length_cons, bytesOf, le]
    have h1 : (b.toNat + 256 * le bs) / 256 = le bs := by omega
    rw [h1, ih]
    congr 1
    rw [← UInt8.toNat_inj, UInt8.toNat_ofNat']
    omega

theorem le_lt (bs : List UInt8) : le bs < 2 ^ (8 * bs.length) := by
  induction bs with
  | nil => simp [le]
  | cons b bs ih =>
    have hb : b.toNat < 256 := UInt8.toNat_lt b
    have e : 2 ^ (8 * (bs.length + 1)) = 256 * 2 ^ (8 * bs.length) := by
      rw [Nat.mul_add, Nat.pow_add]; omega
    simp only [le, List.length_cons, e]
    omega

theorem load_length {m : Mem} {a n : Nat} {bs : List UInt8} (h : m.load a n = .ok bs) : bs.length = n := by
  induction n generalizing a bs with
  | zero => simp [load] at h; subst h; rfl
  | succ n ih =>
    simp only [load] at h
    cases hm : m a with
    | none => simp [hm] at h
    | some b =>
      simp only [hm] at h
      cases hl : m.load (a + 1) n with
      | ok bs' =>
        simp only [hl, Outcome.bind_ok, Outcome.pure_eq, Outcome.ok.injEq] at h
        subst h
        simp [ih hl]
      | abort => simp [hl] at h
      | ub => simp [hl] at h
      | hang => simp [hl] at h

theorem load_mapped {m : Mem} {a n : Nat} (h : Mapped m a n) : ∃ bs, m.load a n = .ok bs := by
  induction n generalizing a with
  | zero => exact ⟨[], rfl⟩
  | succ n ih =>
    have h0 := h a (Nat.le_refl _) (by omega)
    obtain ⟨bs, hbs⟩ := ih (a := a + 1) (fun x h1 h2 => h x (by omega) (by omega))
    cases hm : m a with
    | none => simp [hm] at h0
    | some b => exact ⟨b :: bs, by simp [load, hm, hbs]⟩

theorem load_get {m : Mem} {a n : Nat} {bs : List UInt8} (h : m.load a n = .ok bs) (k : Nat) (hk : k < n) :
    m (a + k) = bs[k]? ∧ ∃ b, bs[k]? = some b := by
  induction n generalizing a bs k with
  | zero => omega
  | succ n ih =>
    simp only [load] at h
    cases hm : m a with
    | none => simp [hm] at h
    | some b =>
      simp only [hm] at h
      cases hl : m.load (a + 1) n with
      | ok bs' =>
        simp only [hl, Outcome.bind_ok, Outcome.pure_eq, Outcome.ok.injEq] at h
        subst h
        cases k with
        | zero => exact ⟨by simpa using hm, b, rfl⟩
        | succ k =>
          have := ih hl k (by omega)
          simpa [Nat.add_assoc, Nat.add_comm 1 k] using this
      | abort => simp [hl] at h
      | ub => simp [hl] at h
      | hang => simp [hl] at h

theorem load_ok_mapped {m : Mem} {a n : Nat} {bs : List UInt8} (h : m.load a n = .ok bs) : Mapped m a n := by
  intro x h1 h2
  obtain ⟨k, rfl⟩ : ∃ k, x = a + k := ⟨x - a, by omega⟩
  obtain ⟨e, b, hb⟩ := load_get h k (by omega)
  rw [e, hb]
  rfl

theorem load_ext {m m' : Mem} {a n : Nat} (h : ∀ x, a ≤ x → x < a + n → m x = m' x) : m.load a n = m'.load a n := by
  induction n generalizing a with
  | zero => rfl
  | succ n ih =>
    simp only [load]
    rw [h a (Nat.le_refl _) (by omega), ih (fun x h1 h2 => h x (by omega) (by omega))]

/-- what a store does. -/
theorem store_spec {m : Mem} {a : Nat} {bs : List UInt8} (h : Mapped m a bs.length) :
    ∃ m', m.store a bs = .ok m' ∧ ∀ x, m' x = if a ≤ x ∧ x < a + bs.length then bs[x - a]? else m x := by
  induction bs generalizing m a with
  | nil => exact ⟨m, rfl, fun x => by simp; omega⟩
  | cons b bs ih =>
    have h0 := h a (Nat.le_refl _) (by simp)
    cases hm : m a with
    | none => simp [hm] at h0
    | some b0 =>
      obtain ⟨m', h1, h2⟩ := ih (m := fun x => if x = a then some b else m x) (a := a + 1) (by
        intro x h1 h2
        by_cases hx : x = a
        · omega
        · simp only [hx, if_false]
          exact h x (by omega) (by simp; omega))
      refine ⟨m', by simp [store, hm, h1], ?_⟩
      intro x
      rw [h2 x]
      by_cases h3 : a + 1 ≤ x ∧ x < a + 1 + bs.length
      · have h4 : a ≤ x ∧ x < a + (b :: bs).length := by simp; omega
        rw [if_pos h3, if_pos h4]
        obtain ⟨k, rfl⟩ : ∃ k, x = a + 1 + k := ⟨x - (a + 1), by omega⟩
        have e1 : a + 1 + k - (a + 1) = k := by omega
        have e2 : a + 1 + k - a = k + 1 := by omega
        rw [e1, e2]
        rfl
      · rw [if_neg h3]
        by_cases hx : x = a
        · subst hx
          simp
        · have h4 : ¬ (a ≤ x ∧ x < a + (b :: bs).length) := by simp; simp at h3; omega
          rw [if_neg h4]
          simp [hx]

theorem store_ok_mapped {m m' : Mem} {a : Nat} {bs : List UInt8} (h : m.store a bs = .ok m') : Mapped m a bs.length := by
  induction bs generalizing m a with
  | nil => intro x h1 h2; simp at h2; omega
  | cons b bs ih =>
    simp only [store] at h
    cases hm : m a with
    | none => simp [hm] at h
    | some b0 =>
      simp only [hm] at h
      have := ih h
      intro x h1 h2
      by_cases hx : x = a
      · subst hx; simp [hm]
      · have := this x (by omega) (by simp at h2; omega)
        simpa [hx] using this

theorem store_length_ok {m m' : Mem} {a : Nat} {bs : List UInt8} (h : m.store a bs = .ok m') (x : Nat) :
    m' x = if a ≤ x ∧ x < a + bs.length then bs[x - a]? else m x := by
  obtain ⟨m1, h1, h2⟩ := store_spec (store_ok_mapped h)
  rw [h1] at h
  cases h
  exact h2 x

theorem load_of_get {m : Mem} {a : Nat} {bs : List UInt8} (h : ∀ k, k < bs.length → m (a + k) = bs[k]?) : m.load a bs.length = .ok bs := by
  induction bs generalizing a with
  | nil => rfl
  | cons b bs ih =>
    have h0 := h 0 (by simp)
    simp at h0
    have := ih (a := a + 1) (fun k hk => by
      have := h (k + 1) (by simp; omega)
      simpa [Nat.add_assoc, Nat.add_comm 1 k] using this)
    simp [load, h0, this]

theorem load_store {m m' : Mem} {a : Nat} {bs : List UInt8} (h : m.store a bs = .ok m') : m'.load a bs.length = .ok bs := by
  apply load_of_get
  intro k hk
  rw [store_length_ok h]
  have e : a + k - a = k := by omega
  rw [if_pos (by omega), e]

theorem loadN_storeN {m m' : Mem} {a n v : Nat} (h : m.storeN a n v = .ok m') : m'.loadN a n = .ok (v % 2 ^ (8 * n)) := by
  unfold storeN at h
  have := load_store h
  rw [bytesOf_length] at this
  simp [loadN, this, le_bytesOf]

theorem storeN_other {m m' : Mem} {a n v : Nat} (h : m.storeN a n v = .ok m') (x : Nat) (hx : x < a ∨ a + n ≤ x) : m' x = m x := by
  unfold storeN at h
  rw [store_length_ok h, bytesOf_length, if_neg (by omega)]

theorem storeN_mapped {m : Mem} {a n : Nat} (v : Nat) (h : Mapped m a n) : ∃ m', m.storeN a n v = .ok m' := by
  obtain ⟨m', h', _⟩ := store_spec (m := m) (a := a) (bs := bytesOf n v) (by rw [bytesOf_length]; exact h)
  exact ⟨m', h'⟩

theorem loadN_mapped {m : Mem} {a n : Nat} (h : Mapped m a n) : ∃ v, m.loadN a n = .ok v ∧ v < 2 ^ (8 * n) := by
  obtain ⟨bs, hb⟩ := load_mapped h
  refine ⟨le bs, by simp [loadN, hb], ?_⟩
  have := le_lt bs
  rwa [load_length hb] at this

theorem loadN_ext {m m' : Mem} {a n : Nat} (h : ∀ x, a ≤ x → x < a + n → m x = m' x) : m.loadN a n = m'.loadN a n := by
  simp only [loadN, load_ext h]

theorem storeN_keeps_mapped {m m' : Mem} {a n v : Nat} (h : m.storeN a n v = .ok m') (b k : Nat) : Mapped m' b k ↔ Mapped m b k := by
  unfold storeN at h
  have key : ∀ x, (m' x).isSome = (m x).isSome := by
    intro x
    rw [store_length_ok h, bytesOf_length]
    split
    · rename_i hx
      have h1 := store_ok_mapped h x hx.1 (by rw [bytesOf_length]; exact hx.2)
      rw [h1]
      have : x - a < (bytesOf n v).length := by rw [bytesOf_length]; omega
      rw [List.getElem?_eq_getElem this]
      rfl
    · rfl
  constructor <;> intro hm x h1 h2
  · rw [← key]; exact hm x h1 h2
  · rw [key]; exact hm x h1 h2

/-- bit `i` of memory: bit `i % 8` of the byte at `i / 8`. -/
def bit (m : Mem) (i : Nat) : Option Bool := (m (i / 8)).map fun b => b.toNat.testBit (i % 8)

theorem testBit_le (bs : List UInt8) (i : Nat) : (le bs).testBit i = ((bs[i / 8]?).map fun b => b.toNat.testBit (i % 8)).getD false := by
  induction bs generalizing i with
  | nil => simp [le]
  | cons b bs ih =>
    have hb : b.toNat < 2 ^ 8 := UInt8.toNat_lt b
    have e : le (b :: bs) = 2 ^ 8 * le bs + b.toNat := by simp only [le]; omega
    rw [e, Nat.testBit_two_pow_mul_add _ hb]
    by_cases hi : i < 8
    · have h1 : i / 8 = 0 := by omega
      have h2 : i % 8 = i := by omega
      simp [hi, h1, h2]
    · have h1 : i / 8 = (i - 8) / 8 + 1 := by omega
      have h2 : i % 8 = (i - 8) % 8 := by omega
      rw [if_neg hi, ih, h1, h2]
      rfl

theorem load_bit {m : Mem} {a n : Nat} {bs : List UInt8} (h : m.load a n = .ok bs) (i : Nat) (hi : i < 8 * n) :
    m.bit (8 * a + i) = some ((le bs).testBit i) := by
  obtain ⟨e, b, hb⟩ := load_get h (i / 8) (by omega)
  have h1 : (8 * a + i) / 8 = a + i / 8 := by omega
  have h2 : (8 * a + i) % 8 = i % 8 := by omega
  rw [bit, h1, h2, e, testBit_le, hb]
  rfl

end Mem
end Verif
