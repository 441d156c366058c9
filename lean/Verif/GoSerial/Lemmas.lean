import Verif.GoSerial.Spec
/-
Lemmas: numbers, text, and values written and read back.
-/
namespace Verif.GoSerial
open GoMeta (Str dec)
open GoDedup (Go)
open Spec

/-! ### Numbers in decimal -/

theorem digits_append (s t : Str) (n : Nat) : digits (s ++ t) n = (digits s n).bind (digits t) := by
  induction s generalizing n with
  | nil => simp [digits]
  | cons c s ih =>
    simp only [List.cons_append, digits]
    split
    · exact ih _
    · rfl

theorem digit_ok (k : Nat) (h : k < 10) (n : Nat) : digits [UInt8.ofNat (48 + k)] n = some (n * 10 + k) := by
  have : k = 0 ∨ k = 1 ∨ k = 2 ∨ k = 3 ∨ k = 4 ∨ k = 5 ∨ k = 6 ∨ k = 7 ∨ k = 8 ∨ k = 9 := by omega
  rcases this with h | h | h | h | h | h | h | h | h | h <;> subst h <;> simp [digits]

theorem digits_dec (n : Nat) : digits (dec n) 0 = some n := by
  induction n using Nat.strongRecOn with
  | ind n ih =>
    rw [dec]
    split
    · rename_i h
      rw [digit_ok n h]; simp
    · rename_i h
      rw [digits_append, ih (n / 10) (by omega)]
      simp only [Option.bind_some]
      rw [digit_ok _ (Nat.mod_lt _ (by omega))]
      congr 1; omega

theorem dec_head (n : Nat) : ∃ c s, dec n = c :: s ∧ 48 ≤ c ∧ c ≤ 57 := by
  induction n using Nat.strongRecOn with
  | ind n ih =>
    rw [dec]
    split
    · rename_i h
      refine ⟨_, _, rfl, ?_⟩
      have : n = 0 ∨ n = 1 ∨ n = 2 ∨ n = 3 ∨ n = 4 ∨ n = 5 ∨ n = 6 ∨ n = 7 ∨ n = 8 ∨ n = 9 := by omega
      rcases this with h | h | h | h | h | h | h | h | h | h <;> subst h <;> decide
    · rename_i h
      obtain ⟨c, s, hs, hc⟩ := ih (n / 10) (by omega)
      rw [hs]
      exact ⟨c, _, rfl, hc⟩

theorem atoi_dec {n : Nat} (h : n < 2 ^ 63) : atoi (dec n) = some (n : Int) := by
  obtain ⟨c, s, hs, h1, h2⟩ := dec_head n
  have hd : digits1 (dec n) = some n := by rw [hs]; show digits (c :: s) 0 = _; rw [← hs]; exact digits_dec n
  unfold atoi
  rw [hs] at hd ⊢
  split
  · rename_i h; cases h; exact absurd h1 (by decide)
  · rename_i h; cases h; exact absurd h1 (by decide)
  · simp only [hd, Option.map_some, Option.filter]
    rw [if_pos]
    · rfl
    · show decide ((-2 ^ 63 : Int) ≤ (n : Int) ∧ (n : Int) < 2 ^ 63) = true
      rw [decide_eq_true_iff]; omega

theorem i2o_nat {n : Nat} (h : n < 2 ^ 32) : i2o (n : Int) = n := by
  unfold i2o; omega

theorem dec_inj {n m : Nat} (h : dec n = dec m) : n = m := by
  have := digits_dec n
  rw [h, digits_dec] at this
  exact (Option.some.inj this).symm

/-! ### Numbers as floats -/

theorem roundNat_small {n : Nat} (h : n ≤ 2 ^ 53) : roundNat n = n := by
  rcases Nat.lt_or_eq_of_le h with h | h
  · have : n.log2 - 52 = 0 := by
      rcases Nat.eq_zero_or_pos n with h0 | h0
      · subst h0; decide
      · have := (Nat.log2_lt (by omega)).2 h
        omega
    simp only [roundNat, this]
    simp [Nat.mod_one]
  · subst h; decide

theorem roundInt_nat {n : Nat} (h : n ≤ 2 ^ 53) : roundInt (n : Int) = n := by
  unfold roundInt
  rw [if_neg (by omega)]
  simp [roundNat_small h]

theorem roundInt_small {v : Int} (h1 : -2 ^ 53 ≤ v) (h2 : v ≤ 2 ^ 53) : roundInt v = v := by
  unfold roundInt
  rw [roundNat_small (by omega)]
  split <;> omega

/-- A number of 53 digits that is not below `2 ^ (52 + e)` is a multiple of `2 ^ e`. -/
theorem digits_multiple {m e : Nat} (h : Digits53 m) (hm : 2 ^ (52 + e) ≤ m) : ∃ j, m = j * 2 ^ e := by
  obtain ⟨k, f, hk, rfl⟩ := h
  have h1 : 2 ^ (52 + e) < 2 ^ (53 + f) := by
    refine Nat.lt_of_le_of_lt hm ?_
    rw [Nat.pow_add 2 53 f]
    exact Nat.mul_lt_mul_of_pos_right hk (Nat.two_pow_pos f)
  have h2 : 52 + e < 53 + f := (Nat.pow_lt_pow_iff_right (by omega)).1 h1
  obtain ⟨g, rfl⟩ : ∃ g, f = g + e := ⟨f - e, by omega⟩
  exact ⟨k * 2 ^ g, by rw [Nat.pow_add, Nat.mul_assoc]⟩

/-- How a number splits for `roundNat`. -/
theorem round_split (n : Nat) : ∃ e q r up, n = q * 2 ^ e + r ∧ r < 2 ^ e ∧ q < 2 ^ 53 ∧ (e = 0 ∨ 2 ^ 52 ≤ q) ∧
    roundNat n = (q + up) * 2 ^ e ∧ (up = 0 ∧ 2 * r ≤ 2 ^ e ∨ up = 1 ∧ 2 ^ e ≤ 2 * r) := by
  refine ⟨n.log2 - 52, n / 2 ^ (n.log2 - 52), n % 2 ^ (n.log2 - 52),
    if 2 * (n % 2 ^ (n.log2 - 52)) > 2 ^ (n.log2 - 52) ∨
      (2 * (n % 2 ^ (n.log2 - 52)) = 2 ^ (n.log2 - 52) ∧ n / 2 ^ (n.log2 - 52) % 2 = 1) then 1 else 0,
    ?_, Nat.mod_lt _ (Nat.two_pow_pos _), ?_, ?_, rfl, ?_⟩
  · rw [Nat.mul_comm]; exact (Nat.div_add_mod n _).symm
  · rw [Nat.div_lt_iff_lt_mul (Nat.two_pow_pos _), ← Nat.pow_add]
    refine Nat.lt_of_lt_of_le Nat.lt_log2_self (Nat.pow_le_pow_right (by omega) (by omega))
  · by_cases h : n.log2 ≤ 52
    · exact .inl (by omega)
    · right
      rw [Nat.le_div_iff_mul_le (Nat.two_pow_pos _), ← Nat.pow_add]
      rw [show 52 + (n.log2 - 52) = n.log2 by omega]
      exact Nat.log2_self_le (by rintro rfl; exact h (by decide))
  · split
    · right; exact ⟨rfl, by omega⟩
    · left; exact ⟨rfl, by omega⟩

/-- The number that a `float64` holds has 53 digits. -/
theorem round_digits (n : Nat) : Digits53 (roundNat n) := by
  obtain ⟨e, q, r, up, -, -, hq, -, hr, hu⟩ := round_split n
  by_cases h : q + up < 2 ^ 53
  · exact ⟨q + up, e, h, hr⟩
  · refine ⟨1, 53 + e, by omega, ?_⟩
    rw [hr, Nat.pow_add, Nat.one_mul, show q + up = 2 ^ 53 by omega]

theorem dist_mul {a b c : Nat} (h : a ≤ b) : a * c ≤ b * c := Nat.mul_le_mul_right c h

/-- No number of 53 digits is nearer. -/
theorem round_nearest (n m : Nat) (h : Digits53 m) :
    ((roundNat n : Int) - n).natAbs ≤ ((m : Int) - n).natAbs := by
  obtain ⟨e, q, r, up, hn, hr, hq, he, hR, hu⟩ := round_split n
  have hmul : (∃ j, m = j * 2 ^ e) ∨ m < q * 2 ^ e := by
    rcases he with rfl | he
    · exact .inl ⟨m, by simp⟩
    · by_cases hm : 2 ^ (52 + e) ≤ m
      · exact .inl (digits_multiple h hm)
      · right
        refine Nat.lt_of_lt_of_le (Nat.lt_of_not_le hm) ?_
        rw [Nat.pow_add]
        exact dist_mul he
  have hR' : roundNat n = q * 2 ^ e + up * 2 ^ e := by rw [hR, Nat.add_mul]
  generalize hP : 2 ^ e = P at *
  have hcase : m ≤ q * P ∨ q * P + P ≤ m := by
    rcases hmul with ⟨j, rfl⟩ | h
    · by_cases hj : j ≤ q
      · exact .inl (dist_mul hj)
      · right
        have := dist_mul (a := q + 1) (b := j) (c := P) (by omega)
        rwa [Nat.add_mul, Nat.one_mul] at this
    · exact .inl (by omega)
  generalize hQ : q * P = Q at *
  rcases hu with ⟨rfl, hu⟩ | ⟨rfl, hu⟩
  · rw [Nat.zero_mul] at hR'
    rw [hR']; subst hn
    omega
  · rw [Nat.one_mul] at hR'
    rw [hR']; subst hn
    omega

theorem roundNat_digits {n : Nat} (h : Digits53 n) : roundNat n = n := by
  have := round_nearest n n h
  omega

theorem roundInt_digits {v : Int} (h : Digits53 v.natAbs) : roundInt v = v := by
  unfold roundInt
  rw [roundNat_digits h]
  split <;> omega

/-- The integer that a `float64` holds is a nearest one. -/
theorem roundInt_nearest (v x : Int) (h : Digits53 x.natAbs) :
    (roundInt v - v).natAbs ≤ (x - v).natAbs := by
  have h0 : Digits53 0 := ⟨0, 0, by omega, by simp⟩
  have h1 := round_nearest v.natAbs _ h
  have h2 := round_nearest v.natAbs _ h0
  unfold roundInt
  split <;> omega

theorem roundInt_has (v : Int) : Digits53 (roundInt v).natAbs := by
  have := round_digits v.natAbs
  unfold roundInt
  split
  · rwa [Int.natAbs_neg, Int.natAbs_natCast]
  · rwa [Int.natAbs_natCast]

theorem round_top {n L : Nat} (hL : n.log2 = L) (h52 : 52 ≤ L) (h1 : 2 ^ (L + 1) ≤ n + 2 ^ (L - 53)) (h0 : 53 ≤ L) (h2 : n < 2 ^ (L + 1)) :
    roundNat n = 2 ^ (L + 1) := by
  obtain ⟨k, rfl⟩ : ∃ k, L = k + 53 := ⟨L - 53, by omega⟩
  have e1 : k + 53 - 52 = k + 1 := by omega
  have e2 : k + 53 - 53 = k := by omega
  have e3 : (2 : Nat) ^ (k + 53 + 1) = 2 ^ 53 * (2 ^ k * 2) := by
    rw [show k + 53 + 1 = 53 + (k + 1) by omega, Nat.pow_add, show (2 : Nat) ^ (k + 1) = 2 ^ k * 2 from Nat.pow_succ ..]
  have e4 : (2 : Nat) ^ (k + 1) = 2 ^ k * 2 := Nat.pow_succ ..
  have hq : n / 2 ^ (k + 1) = 2 ^ 53 - 1 := by
    rw [e4]
    have hp := Nat.two_pow_pos k
    rw [e2] at h1
    apply Nat.div_eq_of_lt_le
    · rw [e3] at h1
      generalize 2 ^ k = P at *
      omega
    · rw [e3] at h2
      generalize 2 ^ k = P at *
      omega
  have hdm := Nat.div_add_mod n (2 ^ (k + 1))
  rw [hq] at hdm
  unfold roundNat
  rw [hL, e1]
  simp only [hq]
  rw [if_pos]
  · rw [e3, e4]
  · rw [e2, e3] at h1
    rw [e4] at hdm ⊢
    have hdm : (2 ^ k * 2) * (2 ^ 53 - 1) + n % (2 ^ k * 2) = n := hdm
    clear e1 e2 e3 e4 hq h2 hL h52 h0
    generalize n % (2 ^ k * 2) = r at hdm ⊢
    generalize 2 ^ k = P at hdm h1 ⊢
    have hPr : P ≤ r := by omega
    rcases Nat.lt_or_eq_of_le hPr with h | h
    · exact .inl (by omega)
    · exact .inr ⟨by omega, by decide⟩

/-! ### Text -/

theorem u8 {n : Nat} (h : n < 256) : (UInt8.ofNat n).toNat = n := by simp; omega

theorem utf8_encode {c : Nat} (h : c < 0xd800 ∨ (0xe000 ≤ c ∧ c < 0x110000)) (s : Str) : utf8Len (encode c ++ s) = (encode c).length := by
  unfold encode
  split
  · rename_i h1
    simp only [List.singleton_append, utf8Len, List.length_singleton]
    rw [if_pos]
    rw [UInt8.lt_iff_toNat_lt, u8 (by omega)]; exact h1
  · split
    · rename_i h0 h1
      have e1 := u8 (n := 0xc0 + c / 64) (by omega)
      have e2 := u8 (n := 0x80 + c % 64) (by omega)
      simp only [List.cons_append, List.nil_append, utf8Len, List.length_cons, List.length_nil, UInt8.lt_iff_toNat_lt,
        UInt8.le_iff_toNat_le, e1, e2, UInt8.reduceToNat]
      rw [if_neg (by omega), if_pos (by omega), if_pos]
      simp; omega
    · split
      · rename_i h0 h1 h2
        have e1 := u8 (n := 0xe0 + c / 4096) (by omega)
        have e2 := u8 (n := 0x80 + c / 64 % 64) (by omega)
        have e3 := u8 (n := 0x80 + c % 64) (by omega)
        simp only [List.cons_append, List.nil_append, utf8Len, List.length_cons, List.length_nil, UInt8.lt_iff_toNat_lt,
          UInt8.le_iff_toNat_le, ← UInt8.toNat_inj, e1, e2, UInt8.reduceToNat, List.take_succ_cons, List.take_zero, List.all_cons, List.all_nil, e3]
        rw [if_neg (by omega), if_neg (by omega)]
        repeat' split
        all_goals simp_all
        all_goals omega
      · rename_i h0 h1 h2
        have e1 := u8 (n := 0xf0 + c / 262144) (by omega)
        have e2 := u8 (n := 0x80 + c / 4096 % 64) (by omega)
        have e3 := u8 (n := 0x80 + c / 64 % 64) (by omega)
        have e4 := u8 (n := 0x80 + c % 64) (by omega)
        simp only [List.cons_append, List.nil_append, utf8Len, List.length_cons, List.length_nil, UInt8.lt_iff_toNat_lt,
          UInt8.le_iff_toNat_le, ← UInt8.toNat_inj, e1, e2, UInt8.reduceToNat, List.take_succ_cons, List.take_zero, List.all_cons, List.all_nil, e3, e4]
        repeat' split
        all_goals simp_all
        all_goals omega

theorem utf8Fix_skip (a s : Str) : utf8Fix a.length (a ++ s) = a ++ utf8Fix 0 s := by
  induction a with
  | nil => rfl
  | cons b a ih => simp only [List.length_cons, List.cons_append, utf8Fix, ih]

theorem encode_cons (c : Nat) : ∃ a l, encode c = a :: l := by
  unfold encode
  repeat' split
  all_goals exact ⟨_, _, rfl⟩

theorem jsonStr_utf8 {s : Str} (h : Utf8 s) : jsonStr s = s := by
  unfold jsonStr
  induction h with
  | nil => rfl
  | cons c s hc _ ih =>
    obtain ⟨a, l, he⟩ := encode_cons c
    have hl := utf8_encode hc s
    rw [he] at hl ⊢
    simp only [List.cons_append, utf8Fix] at hl ⊢
    rw [hl]
    simp only [List.length_cons]
    rw [utf8Fix_skip, ih]

/-! ### Values -/

/-- What `NewField` leaves, by class. -/
inductive Kept : Str → GoVal → Prop where
  | u64 {c n} : c = go! "ClassAddress" ∨ c = go! "ClassReferenceSig" → n < 2 ^ 64 → Kept c (.uint64 n)
  | ints {c} {l : List Int} : c = go! "ClassBlock" ∨ c = go! "ClassExprLoc" → (∀ v ∈ l, 0 ≤ v ∧ v < 256) → Kept c (.ints l)
  | i64 {c v} : c ∈ [go! "ClassConstant", go! "ClassLinePtr", go! "ClassLocListPtr", go! "ClassMacPtr", go! "ClassRangeListPtr"] →
      -2 ^ 63 ≤ v → v < 2 ^ 63 → Kept c (.int64 v)
  | flag {b} : Kept (go! "ClassFlag") (.bool b)
  | off {o : Nat} : o < 2 ^ 32 → Kept (go! "ClassReference") (.offset o)
  | str {s} : Kept (go! "ClassString") (.str s)

theorem kept {M : Machine} {a c : Str} {v : GoVal} (h : Documented c v) :
    ∃ w, newField M a c v = ⟨a, w, c⟩ ∧ Kept c w := by
  have u8s (l : List UInt8) : ∀ v ∈ l.map (fun b => (b.toNat : Int)), 0 ≤ v ∧ v < 256 := by
    intro v hv
    obtain ⟨b, -, rfl⟩ := List.mem_map.1 hv
    have := UInt8.toNat_lt b
    omega
  cases h with
  | address n h => exact ⟨_, rfl, .u64 (.inl rfl) h⟩
  | block l => exact ⟨_, rfl, .ints (.inl rfl) (u8s l)⟩
  | constant v h1 h2 => exact ⟨_, rfl, .i64 (by simp) h1 h2⟩
  | flag b => exact ⟨_, rfl, .flag⟩
  | reference o h => exact ⟨_, rfl, .off h⟩
  | signature n h => exact ⟨_, rfl, .u64 (.inr rfl) h⟩
  | string s => exact ⟨_, rfl, .str⟩
  | exprloc l => exact ⟨_, rfl, .ints (.inr rfl) (u8s l)⟩
  | lineptr v h1 h2 => exact ⟨_, rfl, .i64 (by simp) h1 h2⟩
  | loclistptr v h1 h2 => exact ⟨_, rfl, .i64 (by simp) h1 h2⟩
  | macptr v h1 h2 => exact ⟨_, rfl, .i64 (by simp) h1 h2⟩
  | rangelistptr v h1 h2 => exact ⟨_, rfl, .i64 (by simp) h1 h2⟩

theorem fix_kept {M : Machine} {c : Str} {w : GoVal} (h : Kept c w) : fixVal M c w = w := by
  cases h with
  | u64 h _ => rcases h with h | h <;> subst h <;> rfl
  | ints h _ => rcases h with h | h <;> subst h <;> rfl
  | i64 h _ _ =>
    simp only [List.mem_cons, List.not_mem_nil, or_false] at h
    rcases h with h | h | h | h | h <;> subst h <;> rfl
  | flag => rfl
  | off _ => rfl
  | str => rfl

theorem elems (M : Machine) (g : Int → GoVal) (l : List Int) (h : ∀ v ∈ l, blockElem M (g v) = some v) :
    (l.map g).filterMap (blockElem M) = l := by
  induction l with
  | nil => rfl
  | cons v l ih =>
    simp only [List.map_cons, List.filterMap_cons, h v (by simp)]
    rw [ih fun w hw => h w (by simp [hw])]

theorem yaml_kept {M : Machine} {c : Str} {w : GoVal} (h : Kept c w) : fixVal M c (yamlVal w) = w := by
  cases h with
  | u64 h hn =>
    rename_i n
    have : fixVal M c (yamlVal (.uint64 n)) = fixVal M (go! "ClassAddress") (yamlVal (.uint64 n)) := by
      rcases h with h | h <;> subst h <;> rfl
    rw [this]
    simp only [yamlVal]
    split
    · show GoVal.uint64 (i2u n) = _
      have : i2u (n : Int) = n := by unfold i2u; omega
      rw [this]
    · rfl
  | ints h hl =>
    rename_i l
    have : fixVal M c (yamlVal (.ints l)) = .ints ((l.map GoVal.int).filterMap (blockElem M)) := by
      rcases h with h | h <;> subst h <;> rfl
    rw [this, elems M _ l fun _ _ => rfl]
  | i64 h _ _ =>
    simp only [List.mem_cons, List.not_mem_nil, or_false] at h
    rcases h with h | h | h | h | h <;> subst h <;> rfl
  | flag => rfl
  | off ho => rename_i o; show GoVal.offset (i2o o) = _; rw [i2o_nat ho]
  | str => rfl

/-- Values that come back from JSON. -/
def Small : GoVal → Prop
  | .str s => Utf8 s
  | .ints l => l ≠ []
  | .int64 v => Digits53 v.natAbs
  | .uint64 n => Digits53 n
  | _ => True

theorem json_kept {M : Machine} {c : Str} {w : GoVal} (h : Kept c w) (hs : Small w) : fixVal M c (jsonVal w) = w := by
  cases h with
  | u64 h hn =>
    rename_i n
    have e : fixVal M c (jsonVal (.uint64 n)) = .uint64 (f2u M (roundInt n)) := by
      rcases h with h | h <;> subst h <;> rfl
    have hs : Digits53 n := hs
    have : f2u M (n : Int) = n := by unfold f2u; rw [if_pos (by omega)]; omega
    rw [e, roundInt_digits (v := n) (by simpa using hs), this]
  | ints h hl =>
    rename_i l
    have hs : l ≠ [] := hs
    have e : fixVal M c (jsonVal (.ints l)) = .ints ((l.map fun v => GoVal.float64 (roundInt v)).filterMap (blockElem M)) := by
      cases l with
      | nil => exact absurd rfl hs
      | cons _ _ => rcases h with h | h <;> subst h <;> rfl
    rw [e, elems M _ l]
    intro v hv
    have := hl v hv
    simp only [blockElem]
    rw [roundInt_small (by omega) (by omega)]
    congr 1
    unfold f2i; rw [if_pos (by omega)]
  | i64 h h1 h2 =>
    rename_i v
    have hs : Digits53 v.natAbs := hs
    have e : fixVal M c (jsonVal (.int64 v)) = .int64 (f2i M (roundInt v)) := by
      simp only [List.mem_cons, List.not_mem_nil, or_false] at h
      rcases h with h | h | h | h | h <;> subst h <;> rfl
    have : f2i M v = v := by unfold f2i; rw [if_pos (by omega)]
    rw [e, roundInt_digits hs, this]
  | flag => rfl
  | off ho =>
    rename_i o
    show GoVal.offset (f2o M (roundInt o)) = _
    have : f2o M (o : Int) = o := by unfold f2o; rw [if_pos (by omega)]; omega
    rw [roundInt_nat (by omega), this]
  | str => rename_i s; show GoVal.str (jsonStr s) = _; rw [jsonStr_utf8 hs]

theorem small {M : Machine} {a c : Str} {v w : GoVal} (h : Documented c v) (hs : JsonSafe v) (hw : newField M a c v = ⟨a, w, c⟩) : Small w := by
  have e : w = (newField M a c v).val := by rw [hw]
  subst e
  cases h with
  | address n h => exact hs
  | block l => intro h; exact hs (List.map_eq_nil_iff.1 h)
  | constant v h1 h2 => exact hs
  | flag b => trivial
  | reference o h => trivial
  | signature n h => exact hs
  | string s => exact hs
  | exprloc l => intro h; exact hs (List.map_eq_nil_iff.1 h)
  | lineptr v h1 h2 => exact hs
  | loclistptr v h1 h2 => exact hs
  | macptr v h1 h2 => exact hs
  | rangelistptr v h1 h2 => exact hs

theorem class_text {c : Str} {v : GoVal} (h : Documented c v) : jsonStr c = c := by
  cases h <;> decide

end Verif.GoSerial
