import Verif.DeepCopy.Bits
import Verif.Value.PropsObject
import Verif.Deep.Equal
/-
Copying one object.
-/
namespace Verif.DeepCopy
open Verif Verif.Entry Verif.Entry.Spec Verif.Value Verif.Value.Spec
open Verif.Bitfield.Spec (Field)

variable {cfg : Plat} {db : Db} {m : Mem}

theorem copy_number (hn : Named db) {v w : Value} {t : Ty} {n : Nat} (hv : Value.Object db m v t n) {f : Ref} {qs : List Qual} (hf : Final db w.entry (some f) qs)
    (hd : Describes db f t) (hq : Qual.const ∉ qs) (hb : ¬ IsBitfield db w.entry) (h0 : w.addr ≠ 0) (hm : ∀ i < Value.Spec.sizeOf t, m (w.addr + i) ≠ none) :
    ∃ m', copyBaseType cfg db m (some v) (some w) = .ok (true, m') ∧ Wrote m m' (8 * w.addr) (8 * Value.Spec.sizeOf t) (cfg.passed t n % 256 ^ Value.Spec.sizeOf t) := by
  have hu := object_use hv
  obtain ⟨⟨x, qs', hfx, hdx⟩, hbv, hv0, hh, _⟩ := hv
  have hg := (getTy_plain (cfg := cfg) hn hfx hv0 hdx hbv).1 n hh
  obtain ⟨m', hs, hhw, hoc⟩ := (getTy_plain (cfg := cfg) hn hf h0 hd hb).2 hq (mapped_of hm) n
  have key := (copyLoop_hit (cfg := cfg) hn hfx hdx hf allOrder (all_order t)).1 n 0 m' ⟨f, rfl, hd⟩ hg hu hs
  exact ⟨m', by simp [copyBaseType, key], wrote_of_bytes hhw hoc⟩

/-- What is read from a bit-field has the bits of the field. -/
theorem meaning_bits {t : Ty} {be size c n : Nat} (hw : size ≤ 8 * Value.Spec.sizeOf t) (hc : c < 2 ^ size)
    (h : (if signedTy t be then twos (Value.Spec.sizeOf t) n else (n : Int)) = Bitfield.Spec.meaning (signedTy t be) size c) : n % 2 ^ size = c := by
  have hdvd : ((2 : Int) ^ size) ∣ (256 : Int) ^ Value.Spec.sizeOf t := by
    rw [show (256 : Int) = 2 ^ 8 by decide, ← Int.pow_mul]
    exact ⟨2 ^ (8 * Value.Spec.sizeOf t - size), by rw [← Int.pow_add]; congr 1; omega⟩
  have key : (n : Int) % 2 ^ size = (c : Int) % 2 ^ size := by
    have hl : (n : Int) % 2 ^ size = (if signedTy t be then twos (Value.Spec.sizeOf t) n else (n : Int)) % 2 ^ size := by
      split
      · unfold twos
        split
        · rfl
        · obtain ⟨k, hk⟩ := hdvd
          rw [hk, Int.sub_mul_emod_self_left]
      · rfl
    rw [hl, h]
    unfold Bitfield.Spec.meaning
    split
    · rw [Int.sub_emod_right]
    · rfl
  have e : (2 : Int) ^ size = ((2 ^ size : Nat) : Int) := by simp
  rw [e, ← Int.natCast_emod, ← Int.natCast_emod, Nat.mod_eq_of_lt hc] at key
  exact Int.ofNat.inj key

theorem copy_bits (hn : Named db) {v w : Value} {t : Ty} {be base bit size c base' : Nat} {qs : List Qual}
    (hv : BitObject db m v t be base bit size qs) (h30 : size ≤ 30) (hw : bit % 8 + size ≤ 8 * Value.Spec.sizeOf t) (h32 : bit % 8 + size ≤ 32)
    (hiso : cfg.iso = true → bit % 8 + size ≤ 31 ∧ (signedTy t be = true → c < 2 ^ (size - 1))) (hbool : t = .bool → c ≤ 1)
    (hf : Field m (8 * base + bit) size c) (hbw : BitObject db m w t be base' bit size qs) (hq : Qual.const ∉ qs) :
    ∃ m', copyBaseType cfg db m (some v) (some w) = .ok (true, m') ∧ Wrote m m' (8 * base' + bit) size c := by
  obtain ⟨n, hg, hmean, hlt⟩ := bit_read (cfg := cfg) hn hv h30 hw hf (fun h => (hiso h).2)
  have hmod := meaning_bits (n := n) (by omega) hf.1 hmean
  have hu : useOk t n = true := by
    simp only [useOk, decide_eq_true_eq]
    by_cases e : t = .bool
    · subst e
      simp [signedTy, Bitfield.Spec.meaning] at hmean
      exact .inr (by have := hbool rfl; omega)
    · exact .inl e
  obtain ⟨m', hs, hfw, hoth, _⟩ := bit_write (cfg := cfg) hn hbw hq h30 hw h32 (fun h => (hiso h).1) n
  obtain ⟨x, bs, hfx, hdx, _⟩ := hv.type
  obtain ⟨y, bs', hfy, hdy, _⟩ := hbw.type
  have key := (copyLoop_hit (cfg := cfg) hn hfx hdx hfy allOrder (all_order t)).1 n 0 m' ⟨y, rfl, hdy⟩ hg hu hs
  rw [hmod] at hfw
  exact ⟨m', by simp [copyBaseType, key], hfw, hoth⟩

theorem twos_unsigned {k n : Nat} (h : n < 256 ^ k) : Mem.unsigned k (twos k n) = n := by
  have e : ((2 ^ (8 * k) : Nat) : Int) = ((256 ^ k : Nat) : Int) := by rw [pow256]
  have e2 : ((256 : Int) ^ k) = ((256 ^ k : Nat) : Int) := by simp
  unfold Mem.unsigned twos
  rw [e, e2]
  have hn : (n : Int) % ((256 ^ k : Nat) : Int) = n := Int.emod_eq_of_lt (by omega) (by exact_mod_cast h)
  split
  · rw [hn]; simp
  · rw [Int.sub_emod_right, hn]; simp

theorem copy_enum {v w : Value} {size : UInt64} {enc es n} (hv : Deep.Spec.Typed db v (.enumeration size enc es)) (hv0 : v.addr ≠ 0)
    (hs : size.toNat = 1 ∨ size.toNat = 2 ∨ size.toNat = 4 ∨ size.toNat = 8) (hh : Holds m v.addr size.toNat n)
    (hw : Deep.Spec.Typed db w (.enumeration size enc es)) (h0 : w.addr ≠ 0) (hm : ∀ i < size.toNat, m (w.addr + i) ≠ none) :
    ∃ m', copyEnumeration db m (some v) (some w) = .ok (true, m') ∧ Wrote m m' (8 * w.addr) (8 * size.toNat) n := by
  obtain ⟨x, qs, hf, hi⟩ := hv
  obtain ⟨y, qs', hf', hi'⟩ := hw
  have hg := enum_get hf hi hv0 hs hh
  have hfo := finalOf_some hf' isEnum
  simp only [hi', isEnum, if_true] at hfo
  obtain ⟨m', hst⟩ := Mem.storeN_mapped (Mem.unsigned size.toNat (twos size.toNat n)) (mapped_of hm)
  obtain ⟨hh', hoc⟩ := holds_storeN hst
  rw [twos_unsigned hh.1, Nat.mod_eq_of_lt hh.1] at hh'
  refine ⟨m', ?_, wrote_of_bytes hh' hoc⟩
  simp only [copyEnumeration, hg, Outcome.bind_ok, setEnumeration, hfo, Outcome.ofLoop_some, h0, if_false, enumSize hi', (size_cases rfl).2 hs, if_true, hst]
  rfl

theorem set_pointer {w : Value} {t : Option Ref} (hw : Deep.Spec.Typed db w (.pointer t)) (h0 : w.addr ≠ 0) (hm : ∀ i < 8, m (w.addr + i) ≠ none) {a : Nat} (ha : a < 2 ^ 64) :
    ∃ m', setPointer db m (some w) a = .ok (0, m') ∧ Wrote m m' (8 * w.addr) 64 a := by
  obtain ⟨y, qs', hf', hi'⟩ := hw
  have hfo := finalOf_some hf' isPointer
  simp only [hi', isPointer, if_true] at hfo
  obtain ⟨m', hst⟩ := Mem.storeN_mapped a (mapped_of hm)
  obtain ⟨hh', hoc⟩ := holds_storeN hst
  rw [Nat.mod_eq_of_lt (show a < 256 ^ 8 by omega)] at hh'
  exact ⟨m', by simp [setPointer, hfo, h0, hst], wrote_of_bytes hh' hoc⟩

theorem copy_pointer {v w : Value} {a : Nat} (hv : Pointer db m v a) {t : Option Ref} (hw : Deep.Spec.Typed db w (.pointer t)) (h0 : w.addr ≠ 0)
    (hm : ∀ i < 8, m (w.addr + i) ≠ none) : ∃ m', copyPointer db m (some v) (some w) = .ok (true, m') ∧ Wrote m m' (8 * w.addr) 64 a := by
  have hlt : a < 2 ^ 64 := by have := hv.2.2.1; omega
  obtain ⟨m', h1, h2⟩ := set_pointer hw h0 hm hlt
  exact ⟨m', by simp [copyPointer, pointer_get hv, h1], h2⟩

theorem store_spec' {a : Nat} {bs : List UInt8} (hm : ∀ i < bs.length, m (a + i) ≠ none) {n v : Nat} (hl : bs = Mem.bytesOf n v) (hv : v < 256 ^ n) :
    ∃ m', m.store a bs = .ok m' ∧ Wrote m m' (8 * a) (8 * n) v := by
  subst hl
  rw [Mem.bytesOf_length] at hm
  obtain ⟨m', hst⟩ := Mem.storeN_mapped v (mapped_of hm)
  obtain ⟨hh', hoc⟩ := holds_storeN hst
  rw [Nat.mod_eq_of_lt hv] at hh'
  exact ⟨m', hst, wrote_of_bytes hh' hoc⟩

end Verif.DeepCopy
