import Verif.Value.Lemmas
/-
Property theorems of typed access: C21 - C28, C54.
-/
namespace Verif.Value
open Verif Verif.Entry Verif.Entry.Spec Verif.Value.Spec Verif.Bitfield.Spec

theorem signed_twos {w n : Nat} (h : n < 2 ^ (8 * w)) : Mem.signed w n = twos w n := by
  unfold Mem.signed twos
  rw [pow256]
  have hp : ((256 : Int) ^ w) = ((2 ^ (8 * w) : Nat) : Int) := by
    rw [← pow256]; simp
  rw [hp]
  generalize 2 ^ (8 * w) = M at *
  rw [Int.bmod_def, Int.emod_eq_of_lt (by omega) (by omega)]
  split <;> split <;> omega

/-! ### Example objects -/

/-- `int`, `typedef int num`, `const num`; `struct { unsigned a : 3; int b : 5; }` in DWARF 4
style; an enumeration of one byte; a pointer; `num[4]`; `unsigned char`, `unsigned long`. -/
def exDb : Db
  | 0 => { info := .base 4 6, name := some [105, 110, 116] }
  | 1 => { info := .typedef (some 0), name := some [110] }
  | 2 => { info := .qual .const (some 1) }
  | 3 => { info := .base 4 8, name := some [117, 110, 115, 105, 103, 110, 101, 100, 32, 105, 110, 116] }
  | 4 => { info := .member { type := some 3, dataBitOffset := some 0, bitSize := some 3 }, name := some [97] }
  | 5 => { info := .member { type := some 0, dataBitOffset := some 3, bitSize := some 5 }, name := some [98] }
  | 6 => { info := .struct .struct 4 [4, 5] }
  | 7 => { info := .enumeration 1 8 [([65], 0), ([66], 200)] }
  | 8 => { info := .pointer (some 6) }
  | 9 => { info := .array (some 1) 4 }
  | 10 => { info := .base 1 9, name := some [117, 110, 115, 105, 103, 110, 101, 100, 32, 99, 104, 97, 114] }
  | 11 => { info := .base 8 8, name := some [117, 110, 115, 105, 103, 110, 101, 100, 32, 108, 111, 110, 103, 32, 105, 110, 116] }
  | 12 => { info := .member { type := some 10, dataBitOffset := some 6, bitSize := some 5 } }
  | 13 => { info := .member { type := some 11, dataBitOffset := some 7, bitSize := some 28 } }
  | 14 => { info := .member { type := some 3, dataBitOffset := some 0, bitSize := some 31 } }
  | 15 => { info := .qual .const (some 6) }
  | 16 => { info := .member { type := some 0, byteOffset := 0 } }
  | 17 => { info := .struct .struct 4 [16] }
  | 18 => { info := .qual .const (some 17) }
  | 19 => { info := .qual .const (some 7) }
  | 20 => { info := .member { type := some 7, dataBitOffset := some 4, bitSize := some 4, byteOffset := 0 } }
  | 21 => { info := .qual .const (some 8) }
  | _ => { info := .compileUnit }

/-- 16 bytes of memory at address 8, byte `k` holding `f k`. -/
def exMem (f : Nat → UInt8) : Mem := fun a => if 8 ≤ a ∧ a < 24 then some (f (a - 8)) else none

def exCfg (iso : Bool) : Plat := { iso := iso, junk := 0, feq := fun _ a b => a == b, byValue := fun _ v => v }

theorem exNamed : Named exDb := by
  intro r bs be h hn
  unfold exDb at h hn
  split at h <;> first | (simp at h; done) | (simp at hn; done) | skip

theorem exBase {r x : Ref} (h : Alias exDb r (some x)) (hx : ∀ t, ¬ Alias exDb x t) : Final exDb r (some x) (own exDb r) := by
  have := Final.step h (.here hx)
  simpa using this

theorem exNot (r : Ref) (h : r = 0 ∨ r = 3 ∨ r = 6 ∨ r = 7 ∨ r = 8 ∨ r = 9 ∨ r = 10 ∨ r = 11) : ∀ t, ¬ Alias exDb r t := by
  intro t ha
  rcases h with rfl | rfl | rfl | rfl | rfl | rfl | rfl | rfl <;> cases ha <;> rename_i ha <;> exact absurd ha (by simp [exDb])

/-! ### C21, C22: bit-fields -/

theorem sign_eq {db : Db} {x : Ref} {t : Ty} {e bs be} (hi : (db x).info = .base bs be) (he : Encodes t e) (hk : Chk db x t e)
    (hch : t = .char → e = 7 ∨ ¬ Chk db x .char 7) (hint : Integral t) : decide (e = 7 ∨ e = 6) = signedTy t be := by
  obtain ⟨bs', be', h1, h2, h3, h4⟩ := hk
  rw [hi] at h1
  simp only [Info.base.injEq] at h1
  obtain ⟨rfl, rfl⟩ := h1
  by_cases hc : t = .char
  · subst hc
    rcases he with rfl | rfl
    · by_cases hb : be = 0
      · subst hb; rfl
      · rw [h3 hb]; rfl
    · rcases hch rfl with h | h
      · simp at h
      · by_cases hb : be = 0
        · exact absurd ⟨bs, be, hi, h2, fun h => absurd hb h, h4⟩ h
        · rw [h3 hb]; rfl
  · cases t <;> simp [Encodes, signedTy, Integral] at * <;> simp_all

theorem bitSupported {t : Ty} {e} (he : Encodes t e) (hint : Integral t) : bitfieldSupported e = true ∧ Bitfield.accessSize (Spec.sizeOf t) = true := by
  cases t <;> simp [Encodes, Integral, bitfieldSupported, Bitfield.accessSize, Spec.sizeOf] at * <;> omega

theorem passed_integral {cfg : Plat} {t : Ty} (h : Integral t) (n : Nat) : cfg.passed t n = n := by
  cases t <;> simp [Integral, Plat.passed] at *

theorem bit_facts {db : Db} {m : Mem} {v : Value} {t : Ty} {be base bit size : Nat} {qs : List Qual} (h : BitObject db m v t be base bit size qs) :
    Bitfield.Spec.Describes db v.entry bit size ∧ v.addr ≠ 0 ∧
    Mem.Mapped m (base + bit / 8) ((bit % 8 + size - 1) / 8 + 1) ∧
    ∃ off : UInt64, bitfieldMember (db v.entry) = some off ∧ ¬ v.addr < off.toNat ∧ v.addr - off.toNat = base := by
  obtain ⟨⟨x, bs, hf, hd, hi⟩, hint, ⟨mi, hm, hbits, hadr⟩, hb, hmap, h1⟩ := h
  refine ⟨⟨mi, hm, hbits⟩, by omega, ?_, mi.byteOffset, ?_, by omega, by omega⟩
  · intro y hy1 hy2
    have : ∃ i < size, (8 * base + bit + i) / 8 = y := by
      by_cases hlt : 8 * base + bit < 8 * y
      · refine ⟨8 * y - (8 * base + bit), ?_, ?_⟩ <;> omega
      · exact ⟨0, by omega, by omega⟩
    obtain ⟨i, hi, rfl⟩ := this
    have := hmap i hi
    cases hh : m ((8 * base + bit + i) / 8) with
    | none => exact absurd hh this
    | some _ => rfl
  · refine bitfieldMember_some hm ?_
    rcases hbits with hh | hh
    · rcases hh with ⟨b, _, s, _, _, h1, _⟩
      exact .inr (.inl (by rw [h1]; simp))
    · rcases hh with ⟨_, s, _, _, h1, _⟩
      exact .inr (.inl (by rw [h1]; simp))


theorem bit_read {cfg : Plat} {db : Db} (hn : Named db) {m : Mem} {v : Value} {t : Ty} {be base bit size c : Nat} {qs : List Qual}
    (h : BitObject db m v t be base bit size qs) (h30 : size ≤ 30) (hw : bit % 8 + size ≤ 8 * Spec.sizeOf t)
    (hf : Field m (8 * base + bit) size c) (hiso : cfg.iso = true → signedTy t be = true → c < 2 ^ (size - 1)) :
    ∃ n, getTy cfg db m (some v) t = .ok (.ok n) ∧ (if signedTy t be then twos (Spec.sizeOf t) n else (n : Int)) = meaning (signedTy t be) size c ∧
      n < 256 ^ Spec.sizeOf t := by
  obtain ⟨hbd, ha, hmap, off, hbm, hoff, hsub⟩ := bit_facts h
  obtain ⟨⟨x, bs, hfin, hd, hi⟩, hint, _, hb, _, h1⟩ := h
  obtain ⟨e, he, hk, hch, hg, _, _, _⟩ := getTy_match (cfg := cfg) (m := m) hn hfin ha hd
  have hs := sign_eq hi he hk hch hint
  obtain ⟨hsup, hacc⟩ := bitSupported he hint
  obtain ⟨n, hr, hlt, hmean⟩ := Bitfield.read_spec (cfg := cfg.toCfg) hbd hb h1 (by omega) hacc hw hf hmap hiso
  refine ⟨n, hg n ?_, ?_, by rw [pow256]; exact hlt⟩
  · simp only [readRaw, hbm, hsup, if_true, hoff, if_false, hsub, hs, hr]
  · rw [← hmean, signed_twos hlt]

theorem bit_write {cfg : Plat} {db : Db} (hn : Named db) {m : Mem} {v : Value} {t : Ty} {be base bit size : Nat} {qs : List Qual}
    (h : BitObject db m v t be base bit size qs) (hq : Qual.const ∉ qs) (h30 : size ≤ 30) (hw : bit % 8 + size ≤ 8 * Spec.sizeOf t)
    (h32 : bit % 8 + size ≤ 32) (hiso : cfg.iso = true → bit % 8 + size ≤ 31) (var : Nat) :
    ∃ m', setTy cfg db m (some v) t var = .ok (0, m') ∧ Field m' (8 * base + bit) size (var % 2 ^ size) ∧
      (∀ i, (i < 8 * base + bit ∨ 8 * base + bit + size ≤ i) → m'.bit i = m.bit i) ∧
      BitObject db m' v t be base bit size qs := by
  have h0 := h
  obtain ⟨hbd, ha, hmap, off, hbm, hoff, hsub⟩ := bit_facts h
  obtain ⟨⟨x, bs, hfin, hd, hi⟩, hint, hfd, hb, hmp, h1⟩ := h
  obtain ⟨e, he, hk, hch, _, hst, _, _⟩ := getTy_match (cfg := cfg) (m := m) hn hfin ha hd
  obtain ⟨hsup, hacc⟩ := bitSupported he hint
  obtain ⟨m', hr, hf, hoth, hmm⟩ := Bitfield.write_spec (cfg := cfg.toCfg) (var := var) hbd hb h1 (by omega) hacc hw h32 hiso hmap
  refine ⟨m', hst var hq m' ?_, hf, hoth, ⟨x, bs, hfin, hd, hi⟩, hint, hfd, hb, ?_, h1⟩
  · simp only [writeRaw, hbm, hsup, if_true, hoff, if_false, hsub, passed_integral hint, hr]
  · intro i hi hc
    have h2 := (hmm ((8 * base + bit + i) / 8) 1).2 (fun y hy1 hy2 => by
      have : y = (8 * base + bit + i) / 8 := by omega
      subst this
      cases hh : m ((8 * base + bit + i) / 8) with
      | none => exact absurd hh (hmp i hi)
      | some _ => rfl)
    have h3 := h2 _ (Nat.le_refl _) (by omega)
    rw [hc] at h3
    simp at h3

/-- C21 (partial): writing any number to a bit-field of up to 30 bits that lies within the
bytes of its type read from the byte holding its first bit, and within 32 bits of it,
succeeds, and reading the field then gives the number reduced to the field's width:
zero-extended for unsigned fields, two's complement for signed ones.  Read as ISO C, the
field must also lie within 31 bits and the value of a signed field must not be negative.
Wider fields are not accessed correctly: `C21_wide_undefined`, `C21_straddle_false`. -/
theorem C21_write_read_partial (cfg : Plat) (db : Db) (hn : Named db) (m : Mem) (v : Value) (t : Ty) (be base bit size : Nat) (qs : List Qual)
    (h : BitObject db m v t be base bit size qs) (hq : Qual.const ∉ qs) (h30 : size ≤ 30) (hw : bit % 8 + size ≤ 8 * Spec.sizeOf t)
    (h32 : bit % 8 + size ≤ 32) (x : Nat)
    (hiso : cfg.iso = true → bit % 8 + size ≤ 31 ∧ (signedTy t be = true → x % 2 ^ size < 2 ^ (size - 1))) :
    ∃ m' n, setTy cfg db m (some v) t x = .ok (0, m') ∧ getTy cfg db m' (some v) t = .ok (.ok n) ∧
      (if signedTy t be then twos (Spec.sizeOf t) n else (n : Int)) = meaning (signedTy t be) size (x % 2 ^ size) := by
  obtain ⟨m', hs, hf, _, hb⟩ := bit_write (cfg := cfg) hn h hq h30 hw h32 (fun hi => (hiso hi).1) x
  obtain ⟨n, hg, hv, _⟩ := bit_read (cfg := cfg) hn hb h30 hw hf (fun hi => (hiso hi).2)
  exact ⟨m', n, hs, hg, hv⟩

/-- C21 (partial): reading such a field gives what its bits mean, whatever is around it. -/
theorem C21_read_partial (cfg : Plat) (db : Db) (hn : Named db) (m : Mem) (v : Value) (t : Ty) (be base bit size : Nat) (qs : List Qual)
    (h : BitObject db m v t be base bit size qs) (h30 : size ≤ 30) (hw : bit % 8 + size ≤ 8 * Spec.sizeOf t)
    (c : Nat) (hf : Field m (8 * base + bit) size c) (hiso : cfg.iso = true → signedTy t be = true → c < 2 ^ (size - 1)) :
    ∃ n, getTy cfg db m (some v) t = .ok (.ok n) ∧
      (if signedTy t be then twos (Spec.sizeOf t) n else (n : Int)) = meaning (signedTy t be) size c := by
  obtain ⟨n, h1, h2, _⟩ := bit_read (cfg := cfg) hn h h30 hw hf hiso
  exact ⟨n, h1, h2⟩

/-- C22 (partial): writing such a bit-field changes no bit of memory outside the field.
Fields further than 32 bits from the start of their byte do: `C22_neighbour_false`. -/
theorem C22_other_bits_partial (cfg : Plat) (db : Db) (hn : Named db) (m : Mem) (v : Value) (t : Ty) (be base bit size : Nat) (qs : List Qual)
    (h : BitObject db m v t be base bit size qs) (hq : Qual.const ∉ qs) (h30 : size ≤ 30) (hw : bit % 8 + size ≤ 8 * Spec.sizeOf t)
    (h32 : bit % 8 + size ≤ 32) (hiso : cfg.iso = true → bit % 8 + size ≤ 31) (x : Nat) :
    ∃ m', setTy cfg db m (some v) t x = .ok (0, m') ∧
      (∀ i, (i < 8 * base + bit ∨ 8 * base + bit + size ≤ i) → m'.bit i = m.bit i) ∧
      (∀ i < size, m'.bit (8 * base + bit + i) = some (x.testBit i)) := by
  obtain ⟨m', hs, hf, hoth, _⟩ := bit_write (cfg := cfg) hn h hq h30 hw h32 hiso x
  refine ⟨m', hs, hoth, fun i hi => ?_⟩
  rw [hf.2 i hi, Nat.testBit_mod_two_pow]
  simp [hi]

theorem locate_wide {db : Db} {m : Mem} {p : Ref} {base bit size : Nat} (hd : Bitfield.Spec.Describes db p bit size) (hb : base ≠ 0)
    (h1 : 1 ≤ size) (hm : Mem.Mapped m (base + bit / 8) ((bit % 8 + size - 1) / 8 + 1)) :
    Bitfield.locate db m p base = .ub ∨ ∃ bs, Bitfield.locate db m p base = .ok (.ok (base + bit / 8, bit % 8, size, bs)) := by
  by_cases h120 : size < 120
  · obtain ⟨bs, h, _⟩ := Bitfield.locate_spec hd hb h1 h120 hm
    exact .inr ⟨bs, h⟩
  · obtain ⟨mi, hi, hdw⟩ := hd
    obtain ⟨byte, off, sz, h2, h3, h4, h5, h6, h7⟩ := Entry.C20_offsets db p mi bit size hi hdw
    have hk : Entry.kind db (some p) = 15 := by simp [Entry.kind, hi, Entry.kindOf]
    have hs0 : sz ≠ 0 := by intro h; subst h; simp at h5; omega
    unfold Bitfield.locate
    simp only [hb, if_false, hk, ne_eq, not_true, h2, hs0, h4, h5, h3]
    split
    · exact .inl rfl
    · obtain ⟨bs, hbs⟩ := Mem.load_mapped hm
      exact .inr ⟨bs, by simp [hbs]⟩

/-- C21 fails for every bit-field of 31 bits or more (`unsigned long f : 40` is legal C, and so
is `int f : 31`): both reading and writing it are undefined behaviour. -/
theorem C21_wide_undefined (cfg : Plat) (db : Db) (hn : Named db) (m : Mem) (v : Value) (t : Ty) (be base bit size : Nat) (qs : List Qual)
    (h : BitObject db m v t be base bit size qs) (hq : Qual.const ∉ qs) (h31 : 31 ≤ size) :
    getTy cfg db m (some v) t = .ub ∧ ∀ x, setTy cfg db m (some v) t x = .ub := by
  obtain ⟨hbd, ha, hmap, off, hbm, hoff, hsub⟩ := bit_facts h
  obtain ⟨⟨x, bs, hfin, hd, hi⟩, hint, hfd, hb, hmp, h1⟩ := h
  obtain ⟨e, he, hk, hch, _, _, hg, hst⟩ := getTy_match (cfg := cfg) (m := m) hn hfin ha hd
  obtain ⟨hsup, hacc⟩ := bitSupported he hint
  have hl := locate_wide hbd hb h1 hmap
  refine ⟨hg ?_, fun var => hst var hq ?_⟩
  · simp only [readRaw, hbm, hsup, if_true, hoff, if_false, hsub, Bitfield.read]
    rcases hl with hl | ⟨bs, hl⟩ <;> rw [hl]
    · rfl
    · simp [hacc, Bitfield.readT, h31]
  · simp only [writeRaw, hbm, hsup, if_true, hoff, if_false, hsub, Bitfield.write]
    rcases hl with hl | ⟨bs, hl⟩ <;> rw [hl]
    · rfl
    · simp [hacc, Bitfield.writeT, h31]

theorem exMember {r x : Ref} {mi : MemberInfo} (h : (exDb r).info = .member mi) (hx : mi.type = some x) (hb : ∀ t, ¬ Alias exDb x t) :
    Final exDb r (some x) [] := by
  have := Final.step (hx ▸ Alias.member h : Alias exDb r (some x)) (.here hb)
  simpa [own, h] using this

theorem exMapped (f : Nat → UInt8) (a : Nat) (h1 : 8 ≤ a) (h2 : a < 24) : exMem f a ≠ none := by simp [exMem, h1, h2]

theorem exBitB (f : Nat → UInt8) : BitObject exDb (exMem f) ⟨5, 8⟩ .int 6 8 3 5 [] where
  type := ⟨0, 4, exMember (r := 5) rfl rfl (exNot 0 (by decide)), ⟨4, 6, rfl, rfl, fun _ => rfl, fun _ => rfl⟩, rfl⟩
  integral := by simp [Integral]
  field := ⟨_, rfl, .inr ⟨3, 5, rfl, rfl, rfl, rfl, rfl⟩, rfl⟩
  nonNull := by decide
  mapped := fun i hi => exMapped f _ (by omega) (by omega)
  nonempty := by decide

/-- C21, C22: the hypotheses of the theorems are met by `int b : 5` after `unsigned a : 3`,
in GCC's reading for -7 and in ISO's for 9; 281 is reduced to -7. -/
example (f : Nat → UInt8) : ∃ m' n, setTy (exCfg false) exDb (exMem f) (some ⟨5, 8⟩) .int 281 = .ok (0, m') ∧
    getTy (exCfg false) exDb m' (some ⟨5, 8⟩) .int = .ok (.ok n) ∧ twos 4 n = -7 :=
  C21_write_read_partial (exCfg false) exDb exNamed _ _ _ _ _ _ _ _ (exBitB f) (by decide) (by decide) (by decide) (by decide) 281 (by decide)
example (f : Nat → UInt8) : ∃ m' n, setTy (exCfg true) exDb (exMem f) (some ⟨5, 8⟩) .int 9 = .ok (0, m') ∧
    getTy (exCfg true) exDb m' (some ⟨5, 8⟩) .int = .ok (.ok n) ∧ twos 4 n = 9 :=
  C21_write_read_partial (exCfg true) exDb exNamed _ _ _ _ _ _ _ _ (exBitB f) (by decide) (by decide) (by decide) (by decide) 9 (by decide)
example (f : Nat → UInt8) : ∃ m', setTy (exCfg false) exDb (exMem f) (some ⟨5, 8⟩) .int 5 = .ok (0, m') ∧
    m'.bit 66 = (exMem f).bit 66 ∧ m'.bit 72 = (exMem f).bit 72 ∧ m'.bit 67 = some true := by
  obtain ⟨m', h1, h2, h3⟩ := C22_other_bits_partial (exCfg false) exDb exNamed _ _ _ _ _ _ _ _ (exBitB f) (by decide) (by decide) (by decide) (by decide) (by decide) 5
  exact ⟨m', h1, h2 66 (by decide), h2 72 (by decide), h3 0 (by decide)⟩
example : ∃ n, getTy (exCfg false) exDb (exMem fun _ => 0xFF) (some ⟨5, 8⟩) .int = .ok (.ok n) ∧ twos 4 n = -1 := by
  refine C21_read_partial (exCfg false) exDb exNamed _ _ _ _ _ _ _ _ (exBitB _) (by decide) (by decide) 31 ⟨by decide, ?_⟩ (by decide)
  intro i hi
  obtain rfl | rfl | rfl | rfl | rfl : i = 0 ∨ i = 1 ∨ i = 2 ∨ i = 3 ∨ i = 4 := by omega
  all_goals rfl

theorem exBit31 (f : Nat → UInt8) : BitObject exDb (exMem f) ⟨14, 8⟩ .uint 8 8 0 31 [] where
  type := ⟨3, 4, exMember (r := 14) rfl rfl (exNot 3 (by decide)), ⟨4, 8, rfl, rfl, fun _ => rfl, fun _ => rfl⟩, rfl⟩
  integral := by simp [Integral]
  field := ⟨_, rfl, .inr ⟨0, 31, rfl, rfl, rfl, rfl, rfl⟩, rfl⟩
  nonNull := by decide
  mapped := fun i hi => exMapped f _ (by omega) (by omega)
  nonempty := by decide

example (f : Nat → UInt8) : getTy (exCfg false) exDb (exMem f) (some ⟨14, 8⟩) .uint = .ub :=
  (C21_wide_undefined (exCfg false) exDb exNamed _ _ _ _ _ _ _ _ (exBit31 f) (by decide) (by decide)).1

theorem exBitPacked (f : Nat → UInt8) : BitObject exDb (exMem f) ⟨12, 8⟩ .uchar 9 8 6 5 [] where
  type := ⟨10, 1, exMember (r := 12) rfl rfl (exNot 10 (by decide)), ⟨1, 9, rfl, rfl, fun _ => rfl, fun _ => rfl⟩, rfl⟩
  integral := by simp [Integral]
  field := ⟨_, rfl, .inr ⟨6, 5, rfl, rfl, rfl, rfl, rfl⟩, rfl⟩
  nonNull := by decide
  mapped := fun i hi => exMapped f _ (by omega) (by omega)
  nonempty := by decide

theorem exBitLong (f : Nat → UInt8) : BitObject exDb (exMem f) ⟨13, 8⟩ .ulong 8 8 7 28 [] where
  type := ⟨11, 8, exMember (r := 13) rfl rfl (exNot 11 (by decide)), ⟨8, 8, rfl, rfl, fun _ => rfl, fun _ => rfl⟩, rfl⟩
  integral := by simp [Integral]
  field := ⟨_, rfl, .inr ⟨7, 28, rfl, rfl, rfl, rfl, rfl⟩, rfl⟩
  nonNull := by decide
  mapped := fun i hi => exMapped f _ (by omega) (by omega)
  nonempty := by decide

/-- C21 fails for a packed field that does not lie within the bytes of its type counted from
its first byte: 31 written to `unsigned char f : 5` at bit 6 is read back as 3. -/
theorem C21_straddle_false : ∃ m',
    setTy (exCfg false) exDb (exMem fun _ => 0) (some ⟨12, 8⟩) .uchar 31 = .ok (0, m') ∧
    getTy (exCfg false) exDb m' (some ⟨12, 8⟩) .uchar = .ok (.ok 3) := by
  obtain ⟨x, bs, hfin, hd, hi⟩ := (exBitPacked fun _ => 0).type
  obtain ⟨e, he, hk, _, _, hst, _, _⟩ := getTy_match (cfg := exCfg false) (m := exMem fun _ => 0) exNamed hfin (by decide) hd
  obtain rfl : e = 9 := he
  refine ⟨_, hst 31 (by decide) _ rfl, ?_⟩
  obtain ⟨e, he, hk, _, hg, _, _, _⟩ := getTy_match (cfg := exCfg false) (m := _) exNamed hfin (by decide) hd
  obtain rfl : e = 9 := he
  exact hg 3 rfl

/-- C22 fails for a field that ends more than 32 bits after the start of its first byte:
writing 0 to `unsigned long f : 28` at bit 7 of memory full of ones also clears the 5 bits
after the field (bits 35 to 39 of the struct; the field is bits 7 to 34). -/
theorem C22_neighbour_false : ∃ m',
    setTy (exCfg false) exDb (exMem fun _ => 0xFF) (some ⟨13, 8⟩) .ulong 0 = .ok (0, m') ∧
    m'.bit (64 + 35) = some false ∧ (exMem fun _ => 0xFF).bit (64 + 35) = some true := by
  obtain ⟨x, bs, hfin, hd, hi⟩ := (exBitLong fun _ => 0xFF).type
  obtain ⟨e, he, hk, _, _, hst, _, _⟩ := getTy_match (cfg := exCfg false) (m := exMem fun _ => 0xFF) exNamed hfin (by decide) hd
  obtain rfl : e = 8 := he
  exact ⟨_, hst 0 (by decide) _ rfl, rfl, rfl⟩

end Verif.Value
