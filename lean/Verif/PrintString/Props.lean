import Verif.PrintString.Lemmas
/-
Properties of character arrays printed as string literals (C41).
-/
namespace Verif.PrintString
open Verif Verif.Entry Verif.Entry.Spec Verif.Value Verif.Value.Spec Spec

/-- C41 (partial: arrays of fewer than 2^30 characters): an array of characters with escapes or
printable ones, ended by a NUL, is printed as a literal that stands for exactly these characters. -/
theorem C41_literal_partial (pr : UInt8 → Bool) (hp : Locale pr) (junk : List UInt8) (db : Db) (m : Mem) (v : Value) (cs : List UInt8)
    (hv : Chars db v (cs.length + 1)) (hb : Bytes m v.addr (cs ++ [0])) (hne : cs ≠ []) (hl : cs.length < 2 ^ 30 - 1)
    (he : ∀ c ∈ cs, Expressible pr c) :
    ∃ s block, literal pr true true junk db m (some v) = .ok (some block) ∧ Str.Spec.IsString block (34 :: s ++ [34]) ∧ Denotes s cs := by
  obtain ⟨t, block, h1, h2, rfl⟩ := literal_text pr hp junk db m v cs hv hb hne hl he
  exact ⟨_, block, h1, h2, denotes_enc hp cs he⟩

/-- Example: `char s[6] = "a\"\n?\\"` at address 1000: `a`, `"`, newline, `?`, `\`, NUL. -/
def exDb : Db
  | 1 => { info := .array (some 2) 6 }
  | _ => { info := .base 1 7, name := some [99, 104, 97, 114] }
def exMem : Mem := fun x => if 1000 ≤ x then ([97, 34, 10, 63, 92, 0] : List UInt8)[x - 1000]? else none
/-- `isprint` in the C locale. -/
def cLocale (c : UInt8) : Bool := 32 ≤ c ∧ c < 127

theorem exChars : Chars exDb ⟨1, 1000⟩ 6 := by
  have h1 : ∀ r t, ¬ Alias exDb r t := by
    intro r t h
    cases h <;> rename_i h <;> simp only [exDb] at h <;> split at h <;> simp at h
  exact ⟨by decide, 1, [], 2, 2, [], 1, 7, .here (h1 1), rfl, .here (h1 2), rfl, rfl⟩

theorem exBytes : Bytes exMem 1000 [97, 34, 10, 63, 92, 0] := by
  intro k c hk
  simp [exMem, hk]

theorem cLocale_ok : Locale cLocale := by
  intro c h hc
  simp only [cLocale, decide_eq_true_eq] at h
  rcases hc with hc | rfl
  · exact absurd h.1 (by rw [UInt8.le_iff_toNat_le]; rw [UInt8.lt_iff_toNat_lt] at hc; omega)
  · exact absurd h.2 (by decide)

example : Locale cLocale ∧ Chars exDb ⟨1, 1000⟩ 6 ∧ Bytes exMem 1000 [97, 34, 10, 63, 92, 0] ∧
    ∀ c ∈ [97, 34, 10, 63, 92], Expressible cLocale c := by
  refine ⟨cLocale_ok, exChars, exBytes, ?_⟩
  intro c hc
  simp only [List.mem_cons, List.not_mem_nil, or_false] at hc
  rcases hc with rfl | rfl | rfl | rfl | rfl
  · exact .inl (by decide)
  · exact .inl (by decide)
  · exact .inr ⟨_, .n⟩
  · exact .inl (by decide)
  · exact .inl (by decide)

example : literal cLocale true true [] exDb exMem (some ⟨1, 1000⟩) =
    .ok (some [34, 97, 92, 34, 92, 110, 92, 63, 92, 92, 34, 0]) := by
  unfold literal
  rw [dprintable_chars exChars (by decide) (by decide) (c := 0) rfl]
  rfl

/-- C41: a literal stands for only one sequence of characters, so arrays with different
contents are printed differently. -/
theorem C41_distinct_partial (pr : UInt8 → Bool) (hp : Locale pr) (junk junk' : List UInt8) (db db' : Db) (m m' : Mem) (v v' : Value) (cs cs' : List UInt8)
    (hv : Chars db v (cs.length + 1)) (hb : Bytes m v.addr (cs ++ [0])) (hne : cs ≠ []) (hl : cs.length < 2 ^ 30 - 1)
    (he : ∀ c ∈ cs, Expressible pr c)
    (hv' : Chars db' v' (cs'.length + 1)) (hb' : Bytes m' v'.addr (cs' ++ [0])) (hne' : cs' ≠ []) (hl' : cs'.length < 2 ^ 30 - 1)
    (he' : ∀ c ∈ cs', Expressible pr c) (hcs : cs ≠ cs') :
    ∃ block block' t t', literal pr true true junk db m (some v) = .ok (some block) ∧ literal pr true true junk' db' m' (some v') = .ok (some block') ∧
      Str.Spec.IsString block t ∧ Str.Spec.IsString block' t' ∧ t ≠ t' := by
  obtain ⟨s, block, h1, h2, h3⟩ := C41_literal_partial pr hp junk db m v cs hv hb hne hl he
  obtain ⟨s', block', h1', h2', h3'⟩ := C41_literal_partial pr hp junk' db' m' v' cs' hv' hb' hne' hl' he'
  refine ⟨block, block', _, _, h1, h1', h2, h2', ?_⟩
  intro h
  simp only [List.cons_append, List.cons.injEq, true_and] at h
  have := List.append_cancel_right h
  subst this
  exact hcs (denotes_fun h3 h3')

example : ([97, 34, 10, 63, 92] : List UInt8) ≠ [97, 34, 10, 63] := by decide

/-- C41: the printed text contains no trigraph (`??x`): no two question marks in a row. -/
theorem C41_no_trigraph_partial (pr : UInt8 → Bool) (hp : Locale pr) (junk : List UInt8) (db : Db) (m : Mem) (v : Value) (cs : List UInt8)
    (hv : Chars db v (cs.length + 1)) (hb : Bytes m v.addr (cs ++ [0])) (hne : cs ≠ []) (hl : cs.length < 2 ^ 30 - 1)
    (he : ∀ c ∈ cs, Expressible pr c) :
    ∃ (t : List UInt8) (block : List UInt8), literal pr true true junk db m (some v) = .ok (some block) ∧ Str.Spec.IsString block t ∧
      ∀ i : Nat, ¬ (t[i]? = some 63 ∧ t[i + 1]? = some 63) := by
  obtain ⟨t, block, h1, h2, h3⟩ := literal_text pr hp junk db m v cs hv hb hne hl he
  refine ⟨_, block, h1, h2, ?_⟩
  rw [h3]
  intro i ⟨hi, hj⟩
  cases i with
  | zero => simp at hi
  | succ i =>
    have hq : ∀ (cs : List UInt8) (i : Nat), (∀ c ∈ cs, Expressible pr c) → ¬ ((encAll cs ++ [34])[i]? = some 63 ∧ (encAll cs ++ [34])[i + 1]? = some 63) := by
      intro cs
      induction cs with
      | nil =>
        intro i _ ⟨h, _⟩
        cases i <;> simp [encAll] at h
      | cons c cs ih =>
        intro i he ⟨h, h'⟩
        have ih := fun i => ih i (fun d hd => he d (by simp [hd]))
        rw [encAll_cons] at h h'
        cases hf : findSpecial c specialChars with
        | some o =>
          simp only [enc, hf] at h h'
          match i with
          | 0 => simp at h
          | 1 =>
            simp only [List.cons_append, List.nil_append, List.getElem?_cons_succ] at h'
            cases cs with
            | nil => simp [encAll] at h'
            | cons d ds =>
              rw [encAll_cons] at h'
              cases hd : findSpecial d specialChars with
              | some o => simp [enc, hd] at h'
              | none =>
                simp [enc, hd] at h'
                subst h'
                cases hd
          | i + 2 => exact ih i ⟨by simpa using h, by simpa using h'⟩
        | none =>
          simp only [enc, hf] at h h'
          match i with
          | 0 =>
            simp at h
            subst h
            cases hf
          | i + 1 => exact ih i ⟨by simpa using h, by simpa using h'⟩
    exact hq cs i he ⟨by simpa using hi, by simpa using hj⟩

/-- C41: an array whose last character is not a NUL, or that contains a character that cannot be
part of a literal (a NUL inside, for example), is not printed as a literal but as the list of its elements. -/
theorem C41_not_literal_partial (pr : UInt8 → Bool) (alloc alloc2 : Bool) (junk : List UInt8) (db : Db) (m : Mem) (v : Value) (cs : List UInt8) (c : UInt8)
    (hv : Chars db v (cs.length + 1)) (hb : Bytes m v.addr (cs ++ [c])) (hne : cs ≠ []) (hl : cs.length < 2 ^ 30 - 1)
    (h : c ≠ 0 ∨ ∃ d ∈ cs, ¬ Expressible pr d) : literal pr alloc alloc2 junk db m (some v) = .ok none := by
  have h2 : 2 ≤ cs.length + 1 := by
    have := List.length_pos_iff.mpr hne
    omega
  have h0 : m (v.addr + (cs.length + 1 - 1)) = some c := hb cs.length c (by simp)
  have hb' := bytes_left hb
  unfold literal
  rw [dprintable_chars hv h2 (by omega) h0]
  by_cases hc : c = 0
  · have hd : ∃ d ∈ cs, ¬ Expressible pr d := h.resolve_left (fun h => h hc)
    rw [if_pos hc]
    unfold escape
    rw [Nat.add_sub_cancel, measure_bad cs _ 1 hb' hd (by unfold Str.INT_MAX; omega)]
    rfl
  · rw [if_neg hc]
    rfl

example : Chars exDb ⟨1, 1000⟩ 6 ∧ Bytes (fun x => if x = 1003 then some 0 else exMem x) 1000 [97, 34, 10, 0, 92, 0] ∧
    ¬ Expressible cLocale 0 := by
  refine ⟨exChars, ?_, ?_⟩
  · intro k c hk
    have : k < 6 := (List.getElem?_eq_some_iff.mp hk).1
    match k, this with
    | 0, _ | 1, _ | 2, _ | 3, _ | 4, _ | 5, _ => revert hk; exact id
  · rintro (h | ⟨e, h⟩)
    · exact absurd h (by decide)
    · cases h

/-- C41: if memory runs out, the array is printed as a list of elements or printing fails; nothing
wrong is printed. -/
theorem C41_no_memory_partial (pr : UInt8 → Bool) (hp : Locale pr) (alloc alloc2 : Bool) (junk : List UInt8) (db : Db) (m : Mem) (v : Value) (cs : List UInt8)
    (hv : Chars db v (cs.length + 1)) (hb : Bytes m v.addr (cs ++ [0])) (hne : cs ≠ []) (hl : cs.length < 2 ^ 30 - 1)
    (he : ∀ c ∈ cs, Expressible pr c) (ha : alloc = false ∨ alloc2 = false) : literal pr alloc alloc2 junk db m (some v) = .ok none := by
  have h2 : 2 ≤ cs.length + 1 := by
    have := List.length_pos_iff.mpr hne
    omega
  have h0 : m (v.addr + (cs.length + 1 - 1)) = some 0 := hb cs.length 0 (by simp)
  have hb' := bytes_left hb
  have hle := encAll_len cs
  unfold literal
  rw [dprintable_chars hv h2 (by omega) h0, if_pos rfl]
  cases alloc with
  | false =>
    unfold escape
    rw [Nat.add_sub_cancel, measure_all cs _ 1 hb' he (by decide), if_pos (by unfold Str.INT_MAX; omega)]
    rfl
  | true =>
    have ha2 : alloc2 = false := by simpa using ha
    have hz := enc_no_zero hp he
    obtain ⟨-, hd⟩ := Str.C44_dsprintf_partial 64 junk (34 :: encAll cs ++ [34]) (by simp [hz]) (by simp; omega)
    rw [escape_all hb' he (by unfold Str.INT_MAX; omega)]
    simp only [Outcome.bind_ok]
    rw [Str.cstr_spec hz]
    simp only [Outcome.bind_ok, ha2]
    exact hd

example : literal cLocale true false [] exDb exMem (some ⟨1, 1000⟩) = .ok none := by
  unfold literal
  rw [dprintable_chars exChars (by decide) (by decide) (c := 0) rfl]
  rfl

/-- C41 is false without the limit: 2^30 quotation marks need a literal of more than INT_MAX
characters, and computing its length overflows. -/
theorem C41_huge_false (pr : UInt8 → Bool) (alloc alloc2 : Bool) (junk : List UInt8) (db : Db) (m : Mem) (v : Value) (n : Nat)
    (hn : 2 ^ 30 ≤ n) (hn' : n < 2 ^ 31 - 1) (hv : Chars db v (n + 1)) (hb : Bytes m v.addr (List.replicate n 34 ++ [0])) :
    literal pr alloc alloc2 junk db m (some v) = .ub := by
  have h0 : m (v.addr + (n + 1 - 1)) = some 0 := hb n 0 (by simp)
  have hb' := bytes_left hb
  have hl : ∀ n, (encAll (List.replicate n 34)).length = 2 * n := by
    intro n
    induction n with
    | zero => rfl
    | succ n ih =>
      rw [List.replicate_succ, encAll_cons, List.length_append, ih]
      simp [enc, findSpecial, specialChars]
      omega
  unfold literal
  rw [dprintable_chars hv (by omega) (by omega) h0, if_pos rfl]
  unfold escape
  have := measure_all (pr := pr) (List.replicate n 34) v.addr 1 hb' (by
    intro c hc
    rw [List.eq_of_mem_replicate hc]
    exact .inr ⟨_, .dquote⟩) (by decide)
  rw [List.length_replicate, hl] at this
  rw [Nat.add_sub_cancel, this, if_neg (by unfold Str.INT_MAX; omega)]
  rfl

/-- Such an array: `char s[1073741825]` in a memory full of quotation marks. -/
def hugeDb : Db
  | 1 => { info := .array (some 2) ((2 ^ 30 + 1 : Nat) : Int) }
  | _ => { info := .base 1 7, name := some [99, 104, 97, 114] }

example : Chars hugeDb ⟨1, 1000⟩ (2 ^ 30 + 1) ∧
    Bytes (fun x => some (if x = 1000 + 2 ^ 30 then 0 else 34)) 1000 (List.replicate (2 ^ 30) 34 ++ [0]) := by
  refine ⟨?_, ?_⟩
  · have h1 : ∀ r t, ¬ Alias hugeDb r t := by
      intro r t h
      cases h <;> rename_i h <;> simp only [hugeDb] at h <;> split at h <;> simp at h
    exact ⟨by decide, 1, [], 2, 2, [], 1, 7, .here (h1 1), rfl, .here (h1 2), rfl, rfl⟩
  · intro k c hk
    rw [List.getElem?_append] at hk
    split at hk
    · rename_i h
      rw [List.length_replicate] at h
      rw [List.getElem?_replicate_of_lt h] at hk
      cases hk
      simp only [Nat.add_left_cancel_iff]
      rw [if_neg (by omega)]
    · rename_i h
      rw [List.length_replicate] at h hk
      have hz : k - 2 ^ 30 = 0 := by
        have := (List.getElem?_eq_some_iff.mp hk).1
        simpa using this
      rw [hz] at hk
      simp only [List.getElem?_cons_zero, Option.some.injEq] at hk
      have : k = 2 ^ 30 := by omega
      subst this
      simp [hk]

end Verif.PrintString
