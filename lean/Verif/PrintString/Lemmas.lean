import Verif.PrintString.Model
import Verif.PrintString.Spec
import Verif.Str.Props
import Verif.Entry.Lemmas
/-
Helper lemmas for the string literals.
-/
namespace Verif.PrintString
open Verif Verif.Entry Verif.Entry.Spec Verif.Value Verif.Value.Spec Spec

theorem find_iff (c e : UInt8) : findSpecial c specialChars = some e ↔ Simple e c := by
  constructor
  · intro h
    simp only [findSpecial, specialChars] at h
    repeat' split at h
    all_goals first | (cases h; subst_vars; constructor) | cases h
  · intro h
    cases h <;> rfl

theorem find_none (c : UInt8) : findSpecial c specialChars = none ↔ ∀ e, ¬ Simple e c := by
  constructor
  · intro h e he
    rw [(find_iff c e).mpr he] at h
    cases h
  · intro h
    cases hf : findSpecial c specialChars with
    | none => rfl
    | some e => exact absurd ((find_iff c e).mp hf) (h e)

/-- text for one character. -/
def enc (c : UInt8) : List UInt8 :=
  match findSpecial c specialChars with
  | some o => [92, o]
  | none => [c]

theorem enc_len (c : UInt8) : 1 ≤ (enc c).length ∧ (enc c).length ≤ 2 := by
  unfold enc; split <;> simp

def encAll (cs : List UInt8) : List UInt8 := cs.flatMap enc

theorem encAll_cons (c : UInt8) (cs : List UInt8) : encAll (c :: cs) = enc c ++ encAll cs := rfl

theorem encAll_len (cs : List UInt8) : (encAll cs).length ≤ 2 * cs.length := by
  induction cs with
  | nil => simp [encAll]
  | cons c cs ih =>
    rw [encAll_cons, List.length_append, List.length_cons]
    have := (enc_len c).2
    omega

theorem bytes_cons {m : Mem} {a : Nat} {c : UInt8} {cs : List UInt8} (h : Bytes m a (c :: cs)) : m a = some c ∧ Bytes m (a + 1) cs := by
  refine ⟨h 0 c rfl, fun k d hk => ?_⟩
  have := h (k + 1) d (by simpa using hk)
  rwa [Nat.add_assoc, Nat.add_comm 1 k]

theorem measure_all {pr : UInt8 → Bool} {m : Mem} : ∀ (cs : List UInt8) (a len : Nat), Bytes m a cs → (∀ c ∈ cs, Expressible pr c) →
    len ≤ Str.INT_MAX →
    measure pr m cs.length a len = if len + (encAll cs).length ≤ Str.INT_MAX then .ok (some (len + (encAll cs).length)) else .ub := by
  intro cs
  induction cs with
  | nil => intro a len _ _ hl; simp [measure, encAll, hl]
  | cons c cs ih =>
    intro a len hb he hl
    obtain ⟨h0, hb⟩ := bytes_cons hb
    have hec := he c (by simp)
    have he' : ∀ c ∈ cs, Expressible pr c := fun d hd => he d (by simp [hd])
    rw [List.length_cons, encAll_cons, List.length_append]
    simp only [measure, h0]
    cases hf : findSpecial c specialChars with
    | some o =>
      have hel : (enc c).length = 0 + 1 + 1 := by simp [enc, hf]
      simp only [hel]
      by_cases h2 : len + 2 ≤ Str.INT_MAX
      · rw [if_pos h2, ih _ _ hb he' h2]
        have : len + 2 + (encAll cs).length = len + (0 + 1 + 1 + (encAll cs).length) := by omega
        rw [this]
      · rw [if_neg h2, if_neg (by omega)]
    | none =>
      have hp : pr c = true := by
        rcases hec with h | ⟨e, h⟩
        · exact h
        · exact absurd h ((find_none c).mp hf e)
      have hel : (enc c).length = 0 + 1 := by simp [enc, hf]
      simp only [hp, if_true, hel]
      by_cases h2 : len + 1 ≤ Str.INT_MAX
      · rw [if_pos h2, ih _ _ hb he' h2]
        have : len + 1 + (encAll cs).length = len + (0 + 1 + (encAll cs).length) := by omega
        rw [this]
      · rw [if_neg h2, if_neg (by omega)]

theorem measure_bad {pr : UInt8 → Bool} {m : Mem} : ∀ (cs : List UInt8) (a len : Nat), Bytes m a cs → (∃ c ∈ cs, ¬ Expressible pr c) →
    len + 2 * cs.length ≤ Str.INT_MAX → measure pr m cs.length a len = .ok none := by
  intro cs
  induction cs with
  | nil => rintro a len _ ⟨c, hc, _⟩; cases hc
  | cons c cs ih =>
    intro a len hb he hl
    obtain ⟨h0, hb⟩ := bytes_cons hb
    rw [List.length_cons] at hl
    rw [List.length_cons]
    simp only [measure, h0]
    have htail : Expressible pr c → ∃ c ∈ cs, ¬ Expressible pr c := by
      intro hc
      obtain ⟨d, hd, hn⟩ := he
      simp only [List.mem_cons] at hd
      rcases hd with rfl | hd
      · exact absurd hc hn
      · exact ⟨d, hd, hn⟩
    cases hf : findSpecial c specialChars with
    | some o =>
      simp only
      rw [if_pos (by omega), ih _ _ hb (htail (.inr ⟨o, (find_iff c o).mp hf⟩)) (by omega)]
    | none =>
      simp only
      cases hp : pr c with
      | true =>
        simp only [if_true]
        rw [if_pos (by omega), ih _ _ hb (htail (.inl hp)) (by omega)]
      | false => simp

theorem put_mid (d r : List UInt8) (x c : UInt8) : put (d ++ x :: r) d.length c = .ok (d ++ c :: r) := by
  unfold put
  rw [if_pos (by simp), Str.set_append_left]

theorem fill_all {pr : UInt8 → Bool} {m : Mem} : ∀ (cs : List UInt8) (a : Nat) (d : List UInt8) (k : Nat), Bytes m a cs → (∀ c ∈ cs, Expressible pr c) →
    fill pr m cs.length a (d ++ List.replicate ((encAll cs).length + k) 0) d.length =
      .ok (d ++ encAll cs ++ List.replicate k 0, d.length + (encAll cs).length) := by
  intro cs
  induction cs with
  | nil => intro a d k _ _; simp [fill, encAll]
  | cons c cs ih =>
    intro a d k hb he
    obtain ⟨h0, hb⟩ := bytes_cons hb
    have hec := he c (by simp)
    have he' : ∀ c ∈ cs, Expressible pr c := fun d hd => he d (by simp [hd])
    rw [List.length_cons, encAll_cons]
    simp only [fill, h0, enc]
    cases hf : findSpecial c specialChars with
    | some o =>
      simp only [List.length_append, List.length_cons, List.length_nil]
      have e1 : 0 + 1 + 1 + (encAll cs).length + k = ((encAll cs).length + k) + 1 + 1 := by omega
      rw [e1, List.replicate_succ, List.replicate_succ, put_mid]
      simp only [Outcome.bind_ok]
      have e2 : d ++ 92 :: 0 :: List.replicate ((encAll cs).length + k) 0 = (d ++ [92]) ++ 0 :: List.replicate ((encAll cs).length + k) 0 := by simp
      have e3 : d.length + 1 = (d ++ [(92 : UInt8)]).length := by simp
      rw [e2, e3, put_mid]
      simp only [Outcome.bind_ok]
      have e4 : (d ++ [92]) ++ o :: List.replicate ((encAll cs).length + k) 0 = (d ++ [92, o]) ++ List.replicate ((encAll cs).length + k) 0 := by simp
      have e5 : d.length + 2 = (d ++ [92, o]).length := by simp
      rw [e4, e5, ih _ _ _ hb he']
      simp
      omega
    | none =>
      have hp : pr c = true := by
        rcases hec with h | ⟨e, h⟩
        · exact h
        · exact absurd h ((find_none c).mp hf e)
      simp only [hp, if_true, List.length_append, List.length_cons, List.length_nil]
      have e1 : 0 + 1 + (encAll cs).length + k = ((encAll cs).length + k) + 1 := by omega
      rw [e1, List.replicate_succ, put_mid]
      simp only [Outcome.bind_ok]
      have e4 : d ++ c :: List.replicate ((encAll cs).length + k) 0 = (d ++ [c]) ++ List.replicate ((encAll cs).length + k) 0 := by simp
      have e5 : d.length + 1 = (d ++ [c]).length := by simp
      rw [e4, e5, ih _ _ _ hb he']
      simp
      omega

theorem escape_all {pr : UInt8 → Bool} {m : Mem} {a : Nat} {cs : List UInt8} (hb : Bytes m a cs) (he : ∀ c ∈ cs, Expressible pr c)
    (hl : 1 + (encAll cs).length ≤ Str.INT_MAX) : escape pr true m a (cs.length + 1) = .ok (some (encAll cs ++ [0])) := by
  unfold escape
  rw [Nat.add_sub_cancel, measure_all cs a 1 hb he (by decide), if_pos hl]
  simp only [Outcome.bind_ok, Bool.not_true, Bool.false_eq_true, if_false]
  have := fill_all (pr := pr) cs a [] 1 hb he
  simp only [List.nil_append, List.length_nil, Nat.zero_add] at this
  rw [Nat.add_comm 1, this]
  simp only [Outcome.bind_ok]
  rw [show List.replicate 1 (0 : UInt8) = 0 :: [] from rfl, put_mid]
  simp [Outcome.assert]

theorem denotes_enc {pr : UInt8 → Bool} (hp : Locale pr) : ∀ cs : List UInt8, (∀ c ∈ cs, Expressible pr c) → Denotes (encAll cs) cs := by
  intro cs
  induction cs with
  | nil => intro _; exact .nil
  | cons c cs ih =>
    intro he
    have ih := ih fun d hd => he d (by simp [hd])
    rw [encAll_cons, enc]
    cases hf : findSpecial c specialChars with
    | some o => exact .escape ((find_iff c o).mp hf) ih
    | none =>
      have hn := (find_none c).mp hf
      have hpc : pr c = true := by
        rcases he c (by simp) with h | ⟨e, h⟩
        · exact h
        · exact absurd h (hn e)
      refine .plain ?_ ?_ (hp c hpc) ih
      · rintro rfl; exact hn _ .dquote
      · rintro rfl; exact hn _ .backslash

theorem simple_fun {e c d : UInt8} (h : Simple e c) (h' : Simple e d) : c = d := by
  cases h <;> cases h' <;> rfl

theorem denotes_fun {s t t' : List UInt8} (h : Denotes s t) (h' : Denotes s t') : t = t' := by
  induction h generalizing t' with
  | nil => cases h'; rfl
  | plain h1 h2 _ _ ih =>
    cases h' with
    | plain _ _ _ h => rw [ih h]
    | escape => exact absurd rfl h2
  | escape h _ ih =>
    cases h' with
    | plain _ h2 => exact absurd rfl h2
    | escape h' hd => rw [simple_fun h h', ih hd]

theorem enc_no_zero {pr : UInt8 → Bool} {cs : List UInt8} (hp : Locale pr) (he : ∀ c ∈ cs, Expressible pr c) : 0 ∉ encAll cs := by
  have h := denotes_enc hp cs he
  generalize encAll cs = s at h
  induction h with
  | nil => simp
  | plain _ _ hc _ ih =>
    simp only [List.mem_cons, not_or]
    refine ⟨?_, ih fun d hd => he d (by simp [hd])⟩
    rintro rfl
    exact hc (.inl (by decide))
  | escape h _ ih =>
    simp only [List.mem_cons, not_or]
    refine ⟨by decide, ?_, ih fun d hd => he d (by simp [hd])⟩
    cases h <;> decide

theorem dprintable_chars {pr : UInt8 → Bool} {alloc : Bool} {db : Db} {m : Mem} {v : Value} {n : Nat} (hv : Chars db v n) (hn : 2 ≤ n) (hi : n < 2 ^ 31)
    {c : UInt8} (hc : m (v.addr + (n - 1)) = some c) :
    dprintable pr alloc db m (some v) = if c = 0 then escape pr alloc m v.addr n else .ok none := by
  obtain ⟨ha, x, qs, t, f, qs', bs, be, hx, hxi, hf, hfi, hfn⟩ := hv
  have h1 : finalOf db (some v.entry) isArray = some (some x) := by rw [finalOf_final hx]; simp [hxi, isArray, keep]
  have hxx : Final db x (some x) [] := .here (final_not_alias hx)
  have h2 : finalOf db (some x) isArray = some (some x) := by rw [finalOf_final hxx]; simp [hxi, isArray, keep]
  have h3 : finalEntry db (some t) = some (some f, _) := final_entry hf
  have h4 : toInt32 (n : Int) = n := by
    unfold toInt32
    rw [Int.bmod_def]
    omega
  simp only [dprintable, h1, Outcome.ofLoop_some, Outcome.bind_ok, ha, if_false, elementEntry, h3, Option.bind_eq_bind, Option.bind_some,
    hxi, Option.pure_def, hfi, isBase, hfn, Bool.not_true, Bool.false_eq_true, valueElementCount, elementCount, h2, h4]
  rw [if_neg (by decide), if_neg (by omega)]
  simp only [Int.toNat_natCast, hc]
  by_cases h0 : c = 0 <;> simp [h0]

theorem bytes_left {m : Mem} {a : Nat} {cs ds : List UInt8} (hb : Bytes m a (cs ++ ds)) : Bytes m a cs := by
  intro k c hk
  refine hb k c ?_
  rw [List.getElem?_append_left ?_]
  · exact hk
  · exact (List.getElem?_eq_some_iff.mp hk).1

theorem literal_text (pr : UInt8 → Bool) (hp : Locale pr) (junk : List UInt8) (db : Db) (m : Mem) (v : Value) (cs : List UInt8)
    (hv : Chars db v (cs.length + 1)) (hb : Bytes m v.addr (cs ++ [0])) (hne : cs ≠ []) (hl : cs.length < 2 ^ 30 - 1)
    (he : ∀ c ∈ cs, Expressible pr c) :
    ∃ t block, literal pr true true junk db m (some v) = .ok (some block) ∧ Str.Spec.IsString block t ∧ t = 34 :: encAll cs ++ [34] := by
  have h2 : 2 ≤ cs.length + 1 := by
    have := List.length_pos_iff.mpr hne
    omega
  have h0 : m (v.addr + (cs.length + 1 - 1)) = some 0 := hb cs.length 0 (by simp)
  have hb' := bytes_left hb
  have hle := encAll_len cs
  have hesc := escape_all hb' he (by unfold Str.INT_MAX; omega)
  have hz := enc_no_zero hp he
  obtain ⟨⟨block, hd, hbl⟩, -⟩ := Str.C44_dsprintf_partial 64 junk (34 :: encAll cs ++ [34]) (by simp [hz]) (by simp; omega)
  refine ⟨_, block, ?_, hbl, rfl⟩
  unfold literal
  rw [dprintable_chars hv h2 (by omega) h0, if_pos rfl, hesc]
  simp only [Outcome.bind_ok]
  rw [Str.cstr_spec hz]
  simp only [Outcome.bind_ok]
  exact hd

end Verif.PrintString
