import Verif.Tell.Spec
import Verif.ValueString.Props
/-
Where the text of an object ends.
-/
namespace Verif.Tell
open Verif Verif.Entry Verif.Entry.Spec Verif.Value Verif.Value.Spec Verif.PrintString.Spec Verif.ValueString Verif.ValueString.Spec Verif.Tell.Spec

/-! ### Words -/

def Word (u : Text) : Prop := ∀ c ∈ u, ¬ Follows [c]

theorem follows_head {c : UInt8} {s : Text} : Follows (c :: s) ↔ Follows [c] := Iff.rfl

theorem word_split : ∀ {u u' s s' : Text}, Word u → Word u' → Follows s → Follows s' → u ++ s = u' ++ s' → u = u'
  | [], [], _, _, _, _, _, _, _ => rfl
  | [], c :: u', s, s', _, h', hs, _, e => by
    have : s = c :: (u' ++ s') := e
    rw [this] at hs
    exact absurd hs (h' c (by simp))
  | c :: u, [], s, s', h, _, _, hs', e => by
    have : c :: (u ++ s) = s' := e
    rw [← this] at hs'
    exact absurd hs' (h c (by simp))
  | c :: u, c' :: u', s, s', h, h', hs, hs', e => by
    simp only [List.cons_append, List.cons.injEq] at e
    rw [e.1, word_split (fun c hc => h c (by simp [hc])) (fun c hc => h' c (by simp [hc])) hs hs' e.2]

theorem digit_word {c : UInt8} (h : Digit c) : ¬ Follows [c] := by
  obtain ⟨h1, h2⟩ := h
  rintro (rfl | rfl | rfl)
  · exact absurd h1 (by decide)
  · exact absurd h1 (by decide)
  · exact absurd h2 (by decide)

theorem letter_word {c : UInt8} (h : Letter c) : ¬ Follows [c] := by
  rintro (rfl | rfl | rfl) <;> exact absurd h (by unfold Letter; decide)

theorem letter_digit {c : UInt8} (h : Letter c) (h' : Digit c) : False := by
  obtain ⟨h1, h2⟩ := h'
  simp only [UInt8.le_iff_toNat_le] at h1 h2
  rcases h with ⟨h, _⟩ | ⟨h, _⟩ | h
  · simp only [UInt8.le_iff_toNat_le] at h
    simp at h h1 h2; omega
  · simp only [UInt8.le_iff_toNat_le] at h
    simp at h h1 h2; omega
  · subst h; simp at h2

theorem digit_of {d : Nat} (h : d < 10) : Digit (UInt8.ofNat (48 + d)) := by
  simp only [Digit, UInt8.le_iff_toNat_le, UInt8.toNat_ofNat']
  have : (48 + d) % 2 ^ 8 = 48 + d := by omega
  rw [this]
  simp; omega

theorem decimal_digits {n : Nat} {s : Text} (h : Decimal n s) : s ≠ [] ∧ ∀ c ∈ s, Digit c := by
  induction h with
  | digit h => exact ⟨by simp, fun c hc => by rw [List.mem_singleton.mp hc]; exact digit_of h⟩
  | more _ h _ ih =>
    refine ⟨by simp, fun c hc => ?_⟩
    rcases List.mem_append.mp hc with hc | hc
    · exact ih.2 c hc
    · rw [List.mem_singleton.mp hc]; exact digit_of h

theorem ofNat_inj {d e : Nat} (h : d < 10) (h' : e < 10) (he : UInt8.ofNat (48 + d) = UInt8.ofNat (48 + e)) : d = e := by
  have := congrArg UInt8.toNat he
  simp only [UInt8.toNat_ofNat'] at this
  omega

theorem decimal_inj {n : Nat} {s : Text} (h : Decimal n s) : ∀ {k}, Decimal k s → n = k := by
  induction h with
  | digit hd =>
    intro k hk
    generalize hs : [UInt8.ofNat _] = s at hk
    cases hk with
    | digit he => simp only [List.cons.injEq, and_true] at hs; exact ofNat_inj hd he hs
    | more _ _ h' =>
      exfalso
      have := congrArg List.length hs
      simp only [List.length_append, List.length_cons, List.length_nil] at this
      exact (decimal_digits h').1 (List.eq_nil_of_length_eq_zero (by omega))
  | @more n d s hn hd h ih =>
    intro k hk
    generalize hs : s ++ [UInt8.ofNat (48 + d)] = s' at hk
    cases hk with
    | digit he =>
      exfalso
      have := congrArg List.length hs
      simp only [List.length_append, List.length_cons, List.length_nil] at this
      exact (decimal_digits h).1 (List.eq_nil_of_length_eq_zero (by omega))
    | more _ he h' =>
      obtain ⟨h1, h2⟩ := List.append_inj' hs rfl
      simp only [List.cons.injEq, and_true] at h2
      rw [ofNat_inj hd he h2]
      subst h1
      rw [ih h']

theorem minus_not_digit : ¬ Digit 45 := by unfold Digit; decide

theorem decimalInt_word (z : Int) : Word (decimalInt z) := by
  intro c hc
  rw [decimalInt] at hc
  split at hc
  · rcases List.mem_cons.mp hc with rfl | hc
    · intro h; exact absurd h (by unfold Follows; decide)
    · exact digit_word ((decimal_digits (decimal_spec _)).2 c hc)
  · exact digit_word ((decimal_digits (decimal_spec _)).2 c hc)

theorem decimalInt_head (z : Int) : ∃ c s, decimalInt z = c :: s ∧ (c = 45 ∨ Digit c) := by
  rw [decimalInt]
  split
  · exact ⟨_, _, rfl, .inl rfl⟩
  · obtain ⟨h1, h2⟩ := decimal_digits (decimal_spec z.natAbs)
    cases h : decimal z.natAbs with
    | nil => exact absurd h h1
    | cons c s => exact ⟨c, s, rfl, .inr (h2 c (by rw [h]; simp))⟩

theorem decimalInt_inj {z z' : Int} (h : decimalInt z = decimalInt z') : z = z' := by
  have dig : ∀ n, ∀ s, decimal n ≠ 45 :: s := by
    intro n s e
    exact minus_not_digit ((decimal_digits (decimal_spec n)).2 45 (by rw [e]; simp))
  unfold decimalInt at h
  split at h <;> split at h
  · simp only [List.cons.injEq, true_and] at h
    have h1 := decimal_spec z.natAbs
    rw [h] at h1
    have := decimal_inj h1 (decimal_spec _)
    omega
  · exact absurd h.symm (dig _ _)
  · exact absurd h (dig _ _)
  · have h1 := decimal_spec z.natAbs
    rw [h] at h1
    have := decimal_inj h1 (decimal_spec _)
    omega

/-! ### Base types -/

theorem base_lt {cfg : Plat} {db : Db} {m : Mem} {v : Value} {name : Name} {enc size n : Nat}
    (h : baseType cfg db m (some v) name enc size = .ok (.ok n)) : n < 2 ^ (8 * size) := by
  unfold baseType at h
  split at h
  · cases h
  · rename_i v' hv
    split at h
    · cases h
    · simp only [bind_ok_iff] at h
      obtain ⟨⟨f, q⟩, -, h⟩ := h
      cases f with
      | none => cases h
      | some f =>
        simp only [bind_ok_iff] at h
        obtain ⟨a, -, c, -, h⟩ := h
        split at h
        · cases h
        · split at h
          · simp only [bind_ok_iff] at h
            obtain ⟨k, hk, h⟩ := h
            cases h
            have := (holds_loadN.mpr hk).1
            rwa [pow256] at this
          · split at h
            · split at h
              · cases h
              · unfold Bitfield.read at h
                simp only [bind_ok_iff] at h
                obtain ⟨l, -, h⟩ := h
                cases l with
                | error e => cases h
                | ok l =>
                  simp only [] at h
                  split at h
                  · simp only [bind_ok_iff] at h
                    obtain ⟨k, hk, h⟩ := h
                    cases h
                    unfold Bitfield.readT at hk
                    split at hk
                    · cases hk
                    · simp only [] at hk
                      split at hk
                      · split at hk
                        · cases hk
                        · cases hk; exact Nat.mod_lt _ (Nat.two_pow_pos _)
                      · cases hk
                        refine Nat.lt_of_le_of_lt Nat.and_le_left (Nat.lt_of_le_of_lt (Nat.shiftRight_le _ _) (Nat.mod_lt _ (Nat.two_pow_pos _)))
                  · cases h
            · cases h

theorem getTy_lt {cfg : Plat} {db : Db} {m : Mem} {v : Value} {t : Ty} {n : Nat} (h : getTy cfg db m (some v) t = .ok (.ok n)) : n < 256 ^ Spec.sizeOf t := by
  obtain ⟨e0, hde, -⟩ := desc_spec t
  rw [pow256]
  unfold getTy at h
  simp only [hde, bind_ok_iff] at h
  obtain ⟨g, hg, h⟩ := h
  cases g with
  | ok k => cases h; exact base_lt hg
  | error e =>
    simp only [] at h
    split at h
    · simp only [bind_ok_iff] at h
      obtain ⟨g, hg, h⟩ := h
      cases g with
      | ok k => cases h; exact base_lt hg
      | error e => cases h
    · cases h

theorem twos_inj {k n n' : Nat} (h : n < 256 ^ k) (h' : n' < 256 ^ k) (e : twos k n = twos k n') : n = n' := by
  unfold twos at e
  have hc : ((256 ^ k : Nat) : Int) = (256 : Int) ^ k := by simp
  rw [← hc] at e
  generalize 256 ^ k = K at *
  split at e <;> split at e <;> omega

theorem intOf_inj {t : Ty} {n n' : Nat} (h : n < 256 ^ Spec.sizeOf t) (h' : n' < 256 ^ Spec.sizeOf t) (e : intOf t n = intOf t n') : n = n' := by
  unfold intOf at e
  split at e
  all_goals first | exact twos_inj h h' e | exact Int.ofNat_inj.mp e

/-- The texts of two objects of one base type. -/
theorem tyText_tell {env : Env} (hf : Formats env) {t : Ty} {n n' : Nat} (h : n < 256 ^ Spec.sizeOf t) (h' : n' < 256 ^ Spec.sizeOf t) {u u' s s' : Text}
    (hu : tyText env t n = .ok u) (hu' : tyText env t n' = .ok u') (hs : Follows s) (hs' : Follows s') (e : u ++ s = u' ++ s') :
    u = u' ∧ (Integral t → n = n') ∧ (¬ Integral t → env.flt t n = env.flt t n') := by
  have num : ∀ t, t ≠ .char → t ≠ .bool → isFloating t = false → n < 256 ^ Spec.sizeOf t → n' < 256 ^ Spec.sizeOf t → tyText env t n = .ok u → tyText env t n' = .ok u' →
      Integral t ∧ u = u' ∧ n = n' := by
    intro t h1 h2 h3 h h' hu hu'
    have hi : Integral t := by cases t <;> first | trivial | cases h3
    have e1 : ∀ k, tyText env t k = .ok (decimalInt (numVal t k)) := by
      intro k
      cases t <;> first | exact absurd rfl h1 | exact absurd rfl h2 | rfl | (cases h3; done)
    rw [e1] at hu hu'
    obtain rfl := Outcome.ok.inj hu; obtain rfl := Outcome.ok.inj hu'
    have := word_split (decimalInt_word _) (decimalInt_word _) hs hs' e
    refine ⟨hi, this, ?_⟩
    have := decimalInt_inj this
    rw [numVal_int hi h, numVal_int hi h'] at this
    exact intOf_inj h h' this
  cases hfl : isFloating t with
  | true =>
    have e1 : ∀ k, tyText env t k = .ok (env.flt t k) := by
      intro k
      cases t <;> first | exact absurd hfl (by decide) | rfl
    rw [e1] at hu hu'
    obtain rfl := Outcome.ok.inj hu; obtain rfl := Outcome.ok.inj hu'
    have := hf.ends t n n' s s' hs hs' e
    refine ⟨this, fun hi => ?_, fun _ => this⟩
    exact absurd hi (by cases t <;> first | exact id | (exact absurd hfl (by decide)))
  | false =>
    by_cases h1 : t = .char
    · subst h1
      refine (fun (x : u = u' ∧ n = n') => ⟨x.1, fun _ => x.2, fun h => absurd trivial h⟩) ?_
      have q : ∀ z, decimalInt z ++ s ≠ 39 :: [] ++ s' := by
        intro z e
        obtain ⟨c, r, h1, h2⟩ := decimalInt_head z
        rw [h1] at e
        simp at e
        rw [e.1] at h2
        exact absurd h2 (by unfold Digit; decide)
      have q' : ∀ z s s' : Text, ∀ k : Int, decimalInt k ++ s ≠ 39 :: (z ++ s') := by
        intro z s s' k e
        obtain ⟨c, r, h1, h2⟩ := decimalInt_head k
        rw [h1] at e
        simp at e
        rw [e.1] at h2
        exact absurd h2 (by unfold Digit; decide)
      have hh : n < 256 := h
      have hh' : n' < 256 := h'
      simp only [tyText] at hu hu'
      split at hu <;> split at hu'
      · obtain rfl := Outcome.ok.inj hu; obtain rfl := Outcome.ok.inj hu'
        simp only [List.cons_append, List.nil_append, List.cons.injEq, true_and] at e
        have := congrArg UInt8.toNat e.1
        simp only [UInt8.toNat_ofNat'] at this
        have : n = n' := by omega
        exact ⟨by rw [this], this⟩
      · obtain rfl := Outcome.ok.inj hu; obtain rfl := Outcome.ok.inj hu'
        exact absurd e.symm (q' _ _ _ _)
      · obtain rfl := Outcome.ok.inj hu; obtain rfl := Outcome.ok.inj hu'
        exact absurd e (q' _ _ _ _)
      · obtain rfl := Outcome.ok.inj hu; obtain rfl := Outcome.ok.inj hu'
        have e2 := word_split (decimalInt_word _) (decimalInt_word _) hs hs' e
        refine ⟨e2, ?_⟩
        have := decimalInt_inj e2
        rw [numVal_int (t := .char) trivial h, numVal_int (t := .char) trivial h'] at this
        exact intOf_inj h h' this
    · by_cases h2 : t = .bool
      · subst h2
        refine (fun (x : u = u' ∧ n = n') => ⟨x.1, fun _ => x.2, fun h => absurd trivial h⟩) ?_
        have lim : ∀ {k} {w : Text}, tyText env .bool k = .ok w → k = 0 ∧ w = [102, 97, 108, 115, 101] ∨ k = 1 ∧ w = [116, 114, 117, 101] := by
          intro k w hw
          simp only [tyText] at hw
          split at hw
          · rename_i hk
            simp [useOk] at hk
            split at hw
            · rename_i h1; cases hw; exact .inr ⟨h1, rfl⟩
            · cases hw; exact .inl ⟨by omega, rfl⟩
          · cases hw
        rcases lim hu with ⟨rfl, rfl⟩ | ⟨rfl, rfl⟩ <;> rcases lim hu' with ⟨rfl, rfl⟩ | ⟨rfl, rfl⟩
        · exact ⟨rfl, rfl⟩
        · simp at e
        · simp at e
        · exact ⟨rfl, rfl⟩
      · obtain ⟨a, b, c⟩ := num t h1 h2 hfl h h' hu hu'
        exact ⟨b, fun _ => c, fun x => absurd a x⟩

theorem tyText_head {env : Env} (hf : Formats env) {t : Ty} {n : Nat} {u : Text} (hu : tyText env t n = .ok u) : ∃ c s, u = c :: s ∧ ¬ Follows [c] := by
  have dec : ∀ z, ∃ c s, decimalInt z = c :: s ∧ ¬ Follows [c] := by
    intro z
    obtain ⟨c, s, h, _⟩ := decimalInt_head z
    exact ⟨c, s, h, decimalInt_word z c (by rw [h]; simp)⟩
  rw [tyText.eq_def] at hu
  split at hu
  · split at hu
    · obtain rfl := Outcome.ok.inj hu; exact ⟨39, _, rfl, by unfold Follows; decide⟩
    · obtain rfl := Outcome.ok.inj hu; exact dec _
  · split at hu
    · cases hu
      split
      · exact ⟨116, _, rfl, by unfold Follows; decide⟩
      · exact ⟨102, _, rfl, by unfold Follows; decide⟩
    · cases hu
  · split at hu
    · obtain rfl := Outcome.ok.inj hu; exact hf.number _ _
    · obtain rfl := Outcome.ok.inj hu; exact dec _

/-- What the text of an object of base type is the text of. -/
theorem stringLoop_get {env : Env} {db : Db} {m : Mem} {v : Value} {u : Text} : ∀ {ts : List Ty}, stringLoop env db m v ts = .ok (some u) →
    ∃ t n, isTy db (some v.entry) t = .ok true ∧ getTy env.cfg db m (some v) t = .ok (.ok n) ∧ tyText env t n = .ok u
  | [], h => by cases h
  | t :: ts, h => by
    rw [stringLoop] at h
    simp only [bind_ok_iff] at h
    obtain ⟨b, hb, h⟩ := h
    cases b with
    | false => exact stringLoop_get h
    | true =>
      simp only [if_true, bind_ok_iff] at h
      obtain ⟨g, hg, h⟩ := h
      cases g with
      | error e => cases h
      | ok n =>
        simp only [bind_ok_iff] at h
        obtain ⟨x, hx, h⟩ := h
        cases h
        exact ⟨t, n, hb, hg, hx⟩

end Verif.Tell
