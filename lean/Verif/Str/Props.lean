import Verif.Str.Model
namespace Verif.Str
open Verif

namespace Spec

/-- The block holds the C string `t`: its characters, none of them zero, then a zero. -/
def IsString (block t : List UInt8) : Prop := 0 ∉ t ∧ ∃ rest, block = t ++ 0 :: rest

/-- `r` is `t` without its trailing spaces. -/
def Trimmed (t r : List UInt8) : Prop := (∃ k, t = r ++ List.replicate k 32) ∧ r.getLast? ≠ some 32

end Spec
open Spec

theorem cstr_spec {t rest : List UInt8} (h : 0 ∉ t) : cstr (t ++ 0 :: rest) = .ok t := by
  induction t with
  | nil => simp [cstr]
  | cons b t ih =>
    have h1 : ¬ b = 0 := fun e => h (by simp [e])
    have h2 : 0 ∉ t := fun e => h (by simp [e])
    simp [cstr, h1, ih h2]

theorem strlen_spec {t rest : List UInt8} (h : 0 ∉ t) : strlen (t ++ 0 :: rest) = .ok t.length := by
  induction t with
  | nil => simp [strlen]
  | cons b t ih =>
    have h1 : ¬ b = 0 := fun e => h (by simp [e])
    have h2 : 0 ∉ t := fun e => h (by simp [e])
    simp [strlen, h1, ih h2]

/-- **C44 (partial).** For every text of fewer than INT_MAX characters - shorter than the
internal buffer, exactly filling it, or longer - `dsprintf` returns a new string holding the
complete text, or NULL if memory runs out.  Missing: texts of INT_MAX characters and more
(`C44_huge_false`). -/
theorem C44_dsprintf_partial (n : Nat) (junk t : List UInt8) (h0 : 0 ∉ t) (hl : t.length < 2147483647) :
    (∃ b, dsprintf n junk (some t) true = .ok (some b) ∧ IsString b t) ∧
    dsprintf n junk (some t) false = .ok none := by
  have hv : ∀ k, vsnprintf k (some t) = ((t.length : Int), if k = 0 then [] else t.take (k - 1) ++ [0]) := by
    intro k
    simp only [vsnprintf, INT_MAX]
    have : ¬ t.length > 2147483647 := by omega
    simp only [this, if_false]
  simp only [dsprintf, hv]
  by_cases hs : t.length < n
  · have e1 : (0 : Int) ≤ t.length ∧ (t.length : Int) < n := by omega
    have e2 : ¬ n = 0 := by omega
    have e3 : t.take (n - 1) = t := List.take_of_length_le (by omega)
    simp only [e1, and_self, if_true, e2, if_false, e3, strdup]
    rw [List.append_assoc]
    simp only [List.cons_append, List.nil_append, cstr_spec h0]
    exact ⟨⟨t ++ [0], by simp, h0, [], rfl⟩, by simp⟩
  · have e1 : ¬ ((0 : Int) ≤ t.length ∧ (t.length : Int) < n) := by omega
    have e2 : ¬ ((t.length : Int) = (INT_MAX : Nat)) := by simp only [INT_MAX]; omega
    have e3 : ((t.length : Int) + 1).toNat = t.length + 1 := by omega
    simp only [if_neg e1, if_neg e2, e3]
    have e4 : ¬ (t.length + 1 = 0) := by omega
    have e5 : t.take (t.length + 1 - 1) = t := List.take_of_length_le (by omega)
    simp only [e4, if_false, e5]
    exact ⟨⟨_, rfl, h0, [], by simp⟩, rfl⟩

/-- C44 is false without the limit: for INT_MAX characters the length computation overflows,
for more the result is a block with no string in it - reading it is undefined. -/
theorem C44_huge_false (t : List UInt8) (h : t.length ≥ 2147483647) :
    dsprintf 64 (List.replicate 64 0) (some t) true = .ub ∨
    dsprintf 64 (List.replicate 64 0) (some t) true = .ok (some []) := by
  simp only [dsprintf, vsnprintf, INT_MAX]
  by_cases hg : t.length > 2147483647
  · right
    simp only [hg, if_true]
    rfl
  · left
    have : (t.length : Int) = 2147483647 := by omega
    simp only [hg, if_false, this]
    rfl

/-- The texts of the library's own calls: shorter than the 64-byte buffer, and longer. -/
example : ∃ b, dsprintf 64 (List.replicate 64 170) (some [105, 110, 116]) true = .ok (some b) ∧ IsString b [105, 110, 116] :=
  (C44_dsprintf_partial 64 _ _ (by decide) (by decide)).1
example : ∃ b, dsprintf 64 (List.replicate 64 170) (some (List.replicate 64 65)) true = .ok (some b) ∧ IsString b (List.replicate 64 65) :=
  (C44_dsprintf_partial 64 _ _ (by simp) (by simp)).1

theorem set_append_left (a b : List UInt8) (x v : UInt8) : (a ++ x :: b).set a.length v = a ++ v :: b := by
  induction a with
  | nil => rfl
  | cons y a ih => simp [ih]

theorem get_mid (a b : List UInt8) (x : UInt8) : (a ++ x :: b)[a.length]? = some x := by simp

theorem trimLoop_spec (r : List UInt8) (k i : Nat) (rest : List UInt8) :
    trimLoop (r.length + k + i) i (r ++ List.replicate k 32 ++ rest) =
      trimLoop (r.length + (k + i)) (k + i) (r ++ List.replicate k 0 ++ rest) := by
  induction k generalizing i rest with
  | zero => simp
  | succ k ih =>
    rw [trimLoop]
    rw [dif_pos (by omega)]
    have e1 : r.length + (k + 1) + i - i - 1 = (r ++ List.replicate k 32).length := by simp
    have e2 : r ++ List.replicate (k + 1) 32 ++ rest = (r ++ List.replicate k 32) ++ 32 :: rest := by
      simp [List.replicate_succ']
    rw [e1, e2, get_mid, if_pos rfl, set_append_left]
    have := ih (i + 1) (0 :: rest)
    rw [show r.length + k + (i + 1) = r.length + (k + 1) + i from by omega] at this
    rw [this]
    have e3 : r ++ List.replicate (k + 1) 0 ++ rest = r ++ List.replicate k 0 ++ 0 :: rest := by
      simp [List.replicate_succ']
    rw [e3]
    have e4 : k + (i + 1) = k + 1 + i := by omega
    rw [e4]

theorem trimLoop_stop (r : List UInt8) (i : Nat) (rest : List UInt8) (h : r.getLast? ≠ some 32) :
    trimLoop (r.length + i) i (r ++ rest) = r ++ rest := by
  rw [trimLoop]
  rcases List.eq_nil_or_concat r with rfl | ⟨ys, y, rfl⟩
  · rw [dif_neg (by simp)]
  · rw [List.concat_eq_append] at *
    rw [dif_pos (by simp)]
    have e1 : (ys ++ [y]).length + i - i - 1 = ys.length := by simp
    have e2 : ys ++ [y] ++ rest = ys ++ y :: rest := by simp
    rw [e1, e2, get_mid, if_neg]
    simp at h
    simpa using h

theorem exists_trimmed (t : List UInt8) : ∃ r, Trimmed t r := by
  generalize hn : t.length = n
  induction n generalizing t with
  | zero => exact ⟨[], ⟨0, by simpa using hn⟩, by simp⟩
  | succ n ih =>
    rcases List.eq_nil_or_concat t with rfl | ⟨t, x, rfl⟩
    · simp at hn
    rw [List.concat_eq_append] at *
    obtain ⟨r, ⟨k, hk⟩, hr⟩ := ih t (by simpa using hn)
    by_cases hx : x = 32
    · exact ⟨r, ⟨k + 1, by simp [hk, hx, List.replicate_succ']⟩, hr⟩
    · exact ⟨t ++ [x], ⟨0, by simp⟩, by simpa using hx⟩

/-- **C44.** `trim_trailing_spaces` leaves in the block the text without its trailing spaces
(all of them, and nothing else), inside the same block; NULL is returned as it is. -/
theorem C44_trim (block t : List UInt8) (h : IsString block t) :
    ∃ block' r, trim (some block) = .ok (some block') ∧ IsString block' r ∧ Trimmed t r ∧
      block'.length = block.length ∧ trim none = .ok none := by
  obtain ⟨h0, rest, rfl⟩ := h
  obtain ⟨r, ⟨k, hk⟩, hr⟩ := exists_trimmed t
  have hlen : t.length = r.length + k := by rw [hk]; simp
  have h1 : trim (some (t ++ 0 :: rest)) = .ok (some (trimLoop t.length 0 (t ++ 0 :: rest))) := by
    simp [trim, strlen_spec h0]
  have h2 : trimLoop t.length 0 (t ++ 0 :: rest) = r ++ (List.replicate k 0 ++ 0 :: rest) := by
    have a := trimLoop_spec r k 0 (0 :: rest)
    have b := trimLoop_stop r k (List.replicate k 0 ++ 0 :: rest) hr
    simp only [Nat.add_zero, List.append_assoc] at a b
    rw [hlen, hk, List.append_assoc, a, b]
  refine ⟨_, r, h1, ?_, ⟨⟨k, hk⟩, hr⟩, ?_, rfl⟩
  · rw [h2]
    refine ⟨fun h => h0 (by rw [hk]; simp [h]), ?_⟩
    cases k with
    | zero => exact ⟨rest, rfl⟩
    | succ k => exact ⟨List.replicate k 0 ++ 0 :: rest, by simp [List.replicate_succ]⟩
  · rw [h2]
    simp [hlen, Nat.add_assoc]

example : IsString [97, 32, 98, 32, 32, 0, 7] [97, 32, 98, 32, 32] := ⟨by decide, [7], rfl⟩
example : Trimmed [97, 32, 98, 32, 32] [97, 32, 98] := ⟨⟨2, rfl⟩, by decide⟩

end Verif.Str
