import Verif.Bitfield.Model
import Verif.Bitfield.Spec
import Verif.Entry.Props
/-
The bit-field helpers meet the bit-level specification.
-/
namespace Verif.Bitfield
open Verif Verif.Bitfield.Spec

theorem access_cases {w : Nat} (h : accessSize w = true) : w = 1 ∨ w = 2 ∨ w = 4 ∨ w = 8 := by
  simpa [accessSize] using h

theorem high_bit {v size : Nat} (h1 : 1 ≤ size) (hv : v < 2 ^ size) : v.testBit (size - 1) = decide (2 ^ (size - 1) ≤ v) := by
  obtain ⟨k, rfl⟩ : ∃ k, size = k + 1 := ⟨size - 1, by omega⟩
  have e : 2 ^ (k + 1) = 2 ^ k * 2 := Nat.pow_succ 2 k
  simp only [Nat.add_sub_cancel]
  rw [Nat.testBit_eq_decide_div_mod_eq]
  have hp : 0 < 2 ^ k := Nat.pow_pos (by omega)
  simp only [decide_eq_decide]
  constructor
  · intro h
    rcases Nat.lt_or_ge v (2 ^ k) with h2 | h2
    · rw [Nat.div_eq_of_lt h2] at h; omega
    · exact h2
  · intro h
    have : v / 2 ^ k = 1 := by
      rw [Nat.div_eq_iff hp]; omega
    rw [this]

theorem and_two_pow_ne (v i : Nat) : (v &&& 2 ^ i != 0) = v.testBit i := by
  have : v &&& 2 ^ i = if v.testBit i then 2 ^ i else 0 := by
    apply Nat.eq_of_testBit_eq
    intro j
    rw [Nat.testBit_and, Nat.testBit_two_pow]
    by_cases h : i = j
    · subst h
      cases hv : v.testBit i <;> simp
    · cases hv : v.testBit i <;> simp [h, Nat.testBit_two_pow]
  rw [this]
  have hp : 0 < 2 ^ i := Nat.pow_pos (by omega)
  cases hv : v.testBit i <;> simp

theorem field_data {w buf off size v : Nat} (hw : off + size ≤ 8 * w) (hv : v < 2 ^ size)
    (hb : ∀ i < size, buf.testBit (off + i) = v.testBit i) :
    ((buf % 2 ^ (8 * w)) >>> off) &&& (2 ^ size - 1) = v := by
  apply Nat.eq_of_testBit_eq
  intro i
  rw [Nat.testBit_and, Nat.testBit_shiftRight, Nat.testBit_two_pow_sub_one, Nat.testBit_mod_two_pow]
  by_cases hi : i < size
  · have : off + i < 8 * w := by omega
    simp [hi, this, hb i hi]
  · have : v.testBit i = false := Nat.testBit_lt_two_pow (Nat.lt_of_lt_of_le hv (Nat.pow_le_pow_right (by omega) (by omega)))
    simp [hi, this]

theorem sign_extend {w size v : Nat} (ha : accessSize w = true) (h30 : size < 31) (hs : size ≤ 8 * w) (hv : v < 2 ^ size) :
    ((2 ^ 64 - 2 ^ size) ^^^ v) % 2 ^ (8 * w) = v + 2 ^ (8 * w) - 2 ^ size := by
  have e : 2 ^ 64 - 2 ^ size = 2 ^ size * (2 ^ (64 - size) - 1) := by
    rw [Nat.mul_sub, Nat.mul_one, ← Nat.pow_add]
    congr 2
    omega
  have hx : (2 ^ 64 - 2 ^ size) ^^^ v = 2 ^ size * (2 ^ (64 - size) - 1) + v := by
    apply Nat.eq_of_testBit_eq
    intro i
    rw [Nat.testBit_two_pow_mul_add _ hv, Nat.testBit_xor, e]
    have h0 : 2 ^ size * (2 ^ (64 - size) - 1) = 2 ^ size * (2 ^ (64 - size) - 1) + 0 := by omega
    rw [h0, Nat.testBit_two_pow_mul_add _ (Nat.pow_pos (by omega))]
    by_cases hi : i < size
    · simp [hi]
    · have : v.testBit i = false := Nat.testBit_lt_two_pow (Nat.lt_of_lt_of_le hv (Nat.pow_le_pow_right (by omega) (by omega)))
      simp [hi, this]
  rw [hx, ← e]
  have hle : 2 ^ size ≤ 2 ^ (8 * w) := Nat.pow_le_pow_right (by omega) hs
  generalize 2 ^ size = s at *
  rcases access_cases ha with rfl | rfl | rfl | rfl <;> simp only [Nat.reduceMul, Nat.reducePow] at * <;> omega

/-- the read macro. -/
theorem readT_spec {cfg : Cfg} {w buf off size v : Nat} {sign : Bool} (ha : accessSize w = true) (h1 : 1 ≤ size) (h30 : size < 31)
    (hw : off + size ≤ 8 * w) (hv : v < 2 ^ size) (hb : ∀ i < size, buf.testBit (off + i) = v.testBit i)
    (hd : cfg.iso = true → sign = true → v < 2 ^ (size - 1)) :
    ∃ n, readT cfg w buf off size sign = .ok n ∧ n < 2 ^ (8 * w) ∧
      (if sign then Mem.signed w n else (n : Int)) = meaning sign size v := by
  have hdata := field_data hw hv hb
  have hle : 2 ^ size ≤ 2 ^ (8 * w) := Nat.pow_le_pow_right (by omega) (by omega)
  have hsz : ¬ size ≥ 31 := by omega
  have hhalf : 2 ^ size = 2 * 2 ^ (size - 1) := by
    obtain ⟨k, rfl⟩ : ∃ k, size = k + 1 := ⟨size - 1, by omega⟩
    rw [Nat.pow_succ]; simp; omega
  unfold readT
  simp only [hsz, if_false, hdata, and_two_pow_ne, high_bit h1 hv]
  by_cases hneg : sign = true ∧ 2 ^ (size - 1) ≤ v
  · obtain ⟨hsg, hge⟩ := hneg
    have hiso : cfg.iso = false := by
      cases hi : cfg.iso with
      | false => rfl
      | true => have := hd hi hsg; omega
    refine ⟨v + 2 ^ (8 * w) - 2 ^ size, ?_, by omega, ?_⟩
    · simp [hsg, hge, hiso, sign_extend ha h30 (by omega) hv]
    · simp only [hsg, if_true, meaning, hge, and_self, Mem.signed]
      have c1 : ((v + 2 ^ (8 * w) - 2 ^ size : Nat) : Int) = (v : Int) + (2 ^ (8 * w) : Nat) - (2 ^ size : Nat) := by omega
      have c2 : ((2 : Int) ^ size) = ((2 ^ size : Nat) : Int) := by simp
      have hb2 : ∀ (M : Nat) (s v : Nat), s ≤ M → v < s → s ≤ 2 * v → Int.bmod (((v + M - s : Nat)) : Int) M = (v : Int) - s := by
        intro M s v h1 h2 h3
        rw [Int.bmod_def]
        have e1 : (((v + M - s : Nat)) : Int) % (M : Int) = ((v + M - s : Nat) : Int) := Int.emod_eq_of_lt (by omega) (by omega)
        rw [e1]
        rw [if_neg (by omega)]
        omega
      rw [c2]
      exact hb2 _ _ _ hle hv (by omega)
  · refine ⟨v, ?_, by omega, ?_⟩
    · have hfalse : (sign && decide (2 ^ (size - 1) ≤ v)) = false := by
        cases hsg : sign with
        | false => rfl
        | true =>
          have : ¬ 2 ^ (size - 1) ≤ v := fun h => hneg ⟨hsg, h⟩
          simp [this]
      rw [hfalse]
      rfl
    · simp only [meaning, hneg, if_false]
      cases hsg : sign with
      | false => rfl
      | true =>
        have hlt : v < 2 ^ (size - 1) := by
          have : ¬ 2 ^ (size - 1) ≤ v := fun h => hneg ⟨hsg, h⟩
          omega
        simp only [if_true, Mem.signed]
        rw [Int.bmod_def]
        have e1 : ((v : Int)) % ((2 ^ (8 * w) : Nat) : Int) = v := Int.emod_eq_of_lt (by omega) (by omega)
        rw [e1]
        rw [if_pos (by omega)]

/-- the write macro, on the low 32 bits. -/
theorem writeT_spec {cfg : Cfg} {w buf var off size : Nat} (ha : accessSize w = true) (h30 : size < 31)
    (hw : off + size ≤ 8 * w) (h32 : off + size ≤ 32) (hiso : cfg.iso = true → off + size ≤ 31) :
    ∃ t, writeT cfg w buf var off size = .ok t ∧ t < 2 ^ (8 * w) ∧
      ∀ i, i < 8 * w → i < 32 → t.testBit i = if off ≤ i ∧ i < off + size then var.testBit (i - off) else buf.testBit i := by
  have hsz : ¬ size ≥ 31 := by omega
  have hlt : ∀ k, off + size ≤ k → (2 ^ size - 1) <<< off < 2 ^ k := by
    intro k hk
    rw [Nat.shiftLeft_eq]
    have h1 : 2 ^ size * 2 ^ off = 2 ^ (off + size) := by rw [← Nat.pow_add, Nat.add_comm]
    have h2 : (2 ^ size - 1) * 2 ^ off < 2 ^ size * 2 ^ off := by
      apply Nat.mul_lt_mul_of_pos_right
      · have : 0 < 2 ^ size := Nat.pow_pos (by omega)
        omega
      · exact Nat.pow_pos (by omega)
    have h3 : 2 ^ (off + size) ≤ 2 ^ k := Nat.pow_le_pow_right (by omega) hk
    omega
  have hiso' : ¬ (cfg.iso = true ∧ (2 ^ size - 1) <<< off ≥ 2 ^ 31) := by
    intro ⟨h1, h2⟩
    have := hlt 31 (hiso h1)
    omega
  have hm32 : ((2 ^ size - 1) <<< off) % 2 ^ 32 = (2 ^ size - 1) <<< off := Nat.mod_eq_of_lt (hlt 32 h32)
  unfold writeT
  simp only [hsz, if_false, hiso', hm32]
  refine ⟨_, rfl, ?_, ?_⟩
  · apply Nat.or_lt_two_pow
    · exact Nat.lt_of_le_of_lt Nat.and_le_left (Nat.mod_lt _ (Nat.pow_pos (by omega)))
    · exact Nat.mod_lt _ (Nat.pow_pos (by omega))
  · intro i hi h31
    have hmask : ∀ mask, mask = (if (2 ^ size - 1) <<< off ≥ 2 ^ 31 then (2 ^ size - 1) <<< off + (2 ^ 64 - 2 ^ 32) else (2 ^ size - 1) <<< off) →
        mask < 2 ^ 64 ∧ mask.testBit i = (decide (off ≤ i ∧ i < off + size)) := by
      intro mask hmk
      have hbits : ((2 ^ size - 1) <<< off).testBit i = decide (off ≤ i ∧ i < off + size) := by
        rw [Nat.testBit_shiftLeft, Nat.testBit_two_pow_sub_one]
        by_cases h : off ≤ i
        · have : i - off < size ↔ i < off + size := by omega
          simp [h, this]
        · simp [h]
      have h32' := hlt 32 h32
      subst hmk
      split
      · refine ⟨by omega, ?_⟩
        have e : (2 ^ size - 1) <<< off + (2 ^ 64 - 2 ^ 32) = 2 ^ 32 * (2 ^ 32 - 1) + (2 ^ size - 1) <<< off := by omega
        rw [e, Nat.testBit_two_pow_mul_add _ h32', if_pos h31, hbits]
      · exact ⟨by omega, hbits⟩
    generalize hmk : (if (2 ^ size - 1) <<< off ≥ 2 ^ 31 then (2 ^ size - 1) <<< off + (2 ^ 64 - 2 ^ 32) else (2 ^ size - 1) <<< off) = mask
    obtain ⟨hm1, hm2⟩ := hmask mask hmk.symm
    have e : 2 ^ 64 - 1 - mask = 2 ^ 64 - (mask + 1) := by omega
    have hi64 : i < 64 := by omega
    rw [Nat.testBit_or, Nat.testBit_and, Nat.testBit_mod_two_pow, Nat.testBit_mod_two_pow, Nat.testBit_mod_two_pow, e,
      Nat.testBit_two_pow_sub_succ hm1, hm2, Nat.testBit_shiftLeft, Nat.testBit_and, Nat.testBit_two_pow_sub_one]
    by_cases h : off ≤ i ∧ i < off + size
    · have h3 : i - off < size := by omega
      have h4 : off ≤ i := h.1
      have h5 : i < off + size := h.2
      simp [hi, h3, h4, h5]
    · by_cases h4 : off ≤ i
      · have h3 : ¬ i - off < size := by omega
        have h5 : ¬ i < off + size := by omega
        simp [hi, hi64, h4, h3, h5]
      · simp [hi, hi64, h, h4]

/-- The prologue finds the field. -/
theorem locate_spec {db : Entry.Db} {m : Mem} {p : Entry.Ref} {base bit size : Nat} (hd : Describes db p bit size) (hb : base ≠ 0)
    (h1 : 1 ≤ size) (hn : size < 120) (hm : Mem.Mapped m (base + bit / 8) ((bit % 8 + size - 1) / 8 + 1)) :
    ∃ bs, locate db m p base = .ok (.ok (base + bit / 8, bit % 8, size, bs)) ∧ m.load (base + bit / 8) ((bit % 8 + size - 1) / 8 + 1) = .ok bs := by
  obtain ⟨mi, hi, hdw⟩ := hd
  obtain ⟨byte, off, sz, h2, h3, h4, h5, h6, h7⟩ := Entry.C20_offsets db p mi bit size hi hdw
  obtain ⟨bs, hbs⟩ := Mem.load_mapped hm
  refine ⟨bs, ?_, hbs⟩
  have hk : Entry.kind db (some p) = 15 := by simp [Entry.kind, hi, Entry.kindOf]
  have hs0 : sz ≠ 0 := by intro h; subst h; simp at h5; omega
  have hn16 : ¬ ((bit % 8 + size - 1) / 8 + 1 > 16) := by omega
  unfold locate
  simp only [hb, if_false, hk, ne_eq, not_true, h2, hs0, h4, h5, h3, hn16, hbs]
  rfl

theorem buf_bit {m : Mem} {a n junk : Nat} {bs : List UInt8} (h : m.load a n = .ok bs) (i : Nat) (hi : i < 8 * n) :
    m.bit (8 * a + i) = some ((Mem.le bs + 256 ^ bs.length * junk).testBit i) := by
  rw [Mem.load_bit h i hi]
  have hl := Mem.load_length h
  have hlt := Mem.le_lt bs
  have e : Mem.le bs + 256 ^ bs.length * junk = 2 ^ (8 * bs.length) * junk + Mem.le bs := by
    rw [show (256 : Nat) = 2 ^ 8 from rfl, ← Nat.pow_mul]; omega
  rw [e, Nat.testBit_two_pow_mul_add _ hlt, hl, if_pos hi]

theorem pos_eq (base bit : Nat) : 8 * (base + bit / 8) + bit % 8 = 8 * base + bit := by omega

/-- Reading a field gives its meaning. -/
theorem read_spec {cfg : Cfg} {db : Entry.Db} {m : Mem} {p : Entry.Ref} {base w bit size v : Nat} {sign : Bool}
    (hd : Describes db p bit size) (hb : base ≠ 0) (h1 : 1 ≤ size) (h30 : size < 31) (ha : accessSize w = true)
    (hw : bit % 8 + size ≤ 8 * w) (hf : Field m (8 * base + bit) size v)
    (hm : Mem.Mapped m (base + bit / 8) ((bit % 8 + size - 1) / 8 + 1))
    (hiso : cfg.iso = true → sign = true → v < 2 ^ (size - 1)) :
    ∃ n, read cfg db m p base w sign = .ok (.ok n) ∧ n < 2 ^ (8 * w) ∧
      (if sign then Mem.signed w n else (n : Int)) = meaning sign size v := by
  obtain ⟨bs, hloc, hld⟩ := locate_spec hd hb h1 (by omega) hm
  obtain ⟨hv, hbits⟩ := hf
  obtain ⟨n, hr, hn, hmean⟩ := readT_spec (cfg := cfg) (w := w) (buf := Mem.le bs + 256 ^ bs.length * cfg.junk) (off := bit % 8) (size := size) (v := v) (sign := sign)
    ha h1 h30 hw hv (by
      intro i hi
      have h2 := buf_bit (junk := cfg.junk) hld (bit % 8 + i) (by omega)
      have h3 := hbits i hi
      rw [← Nat.add_assoc, pos_eq] at h2
      rw [h2] at h3
      simpa using h3) hiso
  exact ⟨n, by simp [read, hloc, ha, hr], hn, hmean⟩

/-- Writing a field stores the value's low bits there and changes no other bit. -/
theorem write_spec {cfg : Cfg} {db : Entry.Db} {m : Mem} {p : Entry.Ref} {base w bit size var : Nat}
    (hd : Describes db p bit size) (hb : base ≠ 0) (h1 : 1 ≤ size) (h30 : size < 31) (ha : accessSize w = true)
    (hw : bit % 8 + size ≤ 8 * w) (h32 : bit % 8 + size ≤ 32) (hiso : cfg.iso = true → bit % 8 + size ≤ 31)
    (hm : Mem.Mapped m (base + bit / 8) ((bit % 8 + size - 1) / 8 + 1)) :
    ∃ m', write cfg db m p base var w = .ok (0, m') ∧
      Field m' (8 * base + bit) size (var % 2 ^ size) ∧
      (∀ i, (i < 8 * base + bit ∨ 8 * base + bit + size ≤ i) → m'.bit i = m.bit i) ∧
      (∀ a k, Mem.Mapped m' a k ↔ Mem.Mapped m a k) := by
  obtain ⟨bs, hloc, hld⟩ := locate_spec hd hb h1 (by omega) hm
  have hl := Mem.load_length hld
  obtain ⟨t, ht, htlt, htb⟩ := writeT_spec (cfg := cfg) (w := w) (buf := Mem.le bs + 256 ^ bs.length * cfg.junk) (var := var) (off := bit % 8) (size := size)
    ha h30 hw h32 hiso
  generalize hbuf : Mem.le bs + 256 ^ bs.length * cfg.junk = buf at *
  obtain ⟨m', hst⟩ := Mem.storeN_mapped (t + 2 ^ (8 * w) * (buf / 2 ^ (8 * w))) (by rw [← hl] at hm; exact hm)
  have hbits : ∀ i, i < 8 * bs.length → m'.bit (8 * (base + bit / 8) + i) =
      some (if bit % 8 ≤ i ∧ i < bit % 8 + size then var.testBit (i - bit % 8) else buf.testBit i) := by
    intro i hi
    have hload := Mem.load_store (show m.store _ _ = .ok m' from hst)
    rw [Mem.bytesOf_length] at hload
    rw [Mem.load_bit hload i hi, Mem.le_bytesOf, Nat.testBit_mod_two_pow]
    have e : t + 2 ^ (8 * w) * (buf / 2 ^ (8 * w)) = 2 ^ (8 * w) * (buf / 2 ^ (8 * w)) + t := Nat.add_comm _ _
    have hi8 : i < 8 * w := by rcases access_cases ha with rfl | rfl | rfl | rfl <;> omega
    rw [e, Nat.testBit_two_pow_mul_add _ htlt, if_pos hi8, htb i hi8 (by omega)]
    simp [hi]
  refine ⟨m', ?_, ⟨?_, ?_⟩, ?_, ?_⟩
  · simp only [write, hloc, Outcome.bind_ok, ha, if_true, hbuf, ht]
    rw [show m.store (base + bit / 8) (Mem.bytesOf bs.length (t + 2 ^ (8 * w) * (buf / 2 ^ (8 * w)))) = .ok m' from hst]
    rfl
  · exact Nat.mod_lt _ (Nat.pow_pos (by omega))
  · intro i hi
    have h2 := hbits (bit % 8 + i) (by omega)
    rw [← Nat.add_assoc, pos_eq] at h2
    rw [h2, if_pos (by omega), Nat.testBit_mod_two_pow]
    have : bit % 8 + i - bit % 8 = i := by omega
    simp [hi, this]
  · intro i hi
    by_cases hin : 8 * (base + bit / 8) ≤ i ∧ i < 8 * (base + bit / 8) + 8 * bs.length
    · obtain ⟨j, rfl⟩ : ∃ j, i = 8 * (base + bit / 8) + j := ⟨i - 8 * (base + bit / 8), by omega⟩
      rw [hbits j (by omega), if_neg (by omega), ← hbuf, buf_bit hld j (by omega)]
    · have : m' (i / 8) = m (i / 8) := Mem.storeN_other hst _ (by omega)
      simp only [Mem.bit, this]
  · exact fun a k => Mem.storeN_keeps_mapped hst a k

end Verif.Bitfield
