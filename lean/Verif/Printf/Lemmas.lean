import Verif.Printf.Spec
namespace Verif.Printf
open Verif Verif.Printf.Spec

theorem isDigit_eq : isDigit = digit := by
  funext c
  have e1 : (48 : UInt8).toNat = 48 := rfl
  have e2 : (57 : UInt8).toNat = 57 := rfl
  rw [Bool.eq_iff_iff]
  simp only [isDigit, digit, Bool.and_eq_true, decide_eq_true_eq, UInt8.le_iff_toNat_le, e1, e2, List.mem_cons, List.not_mem_nil, or_false]
  omega

theorem isAlpha_eq : isAlpha = letter := by
  funext c
  have e1 : (65 : UInt8).toNat = 65 := rfl
  have e2 : (90 : UInt8).toNat = 90 := rfl
  have e3 : (97 : UInt8).toNat = 97 := rfl
  have e4 : (122 : UInt8).toNat = 122 := rfl
  rw [Bool.eq_iff_iff]
  simp only [isAlpha, letter, Bool.or_eq_true, Bool.and_eq_true, decide_eq_true_eq, UInt8.le_iff_toNat_le, e1, e2, e3, e4]
  omega

/-- The first element, if any, fails the test. -/
def Stop (p : UInt8 → Bool) (s : Str) : Prop := ∀ x, s.head? = some x → p x = false

def setFlag (fl : Flags) (c : UInt8) : Flags :=
  if c = 43 then { fl with plus := true }
  else if c = 45 then { fl with minus := true }
  else if c = 35 then { fl with pound := true }
  else { fl with oct := true }

theorem flagsLoop_app (P fs R : Str) (fl : Flags) (hfs : ∀ x ∈ fs, isFlag x = true) (hR : Stop isFlag R) :
    flagsLoop (P ++ (fs ++ R)) fl P.length = (fs.foldl setFlag fl, P.length + fs.length) := by
  induction fs generalizing P fl with
  | nil =>
    cases R with
    | nil => unfold flagsLoop; simp
    | cons r R =>
      have := hR r rfl
      simp only [isFlag, Bool.or_eq_false_iff, decide_eq_false_iff_not] at this
      obtain ⟨⟨⟨⟨h1, h2⟩, h3⟩, h4⟩, h5⟩ := this
      unfold flagsLoop
      simp [h1, h2, h3, h4, h5]
  | cons f fs ih =>
    have hf := hfs f (by simp)
    have e : P ++ (f :: fs ++ R) = (P ++ [f]) ++ (fs ++ R) := by simp
    have hget : ∀ h, (P ++ (f :: fs ++ R))[P.length]'h = f := by intro h; simp
    have ih' := fun fl => ih (P ++ [f]) fl (fun x hx => hfs x (by simp [hx]))
    rw [← e] at ih'
    simp only [List.length_append, List.length_singleton] at ih'
    have hlt : P.length < (P ++ (f :: fs ++ R)).length := by simp
    unfold flagsLoop
    simp only [hlt, dif_pos, hget, ih', List.foldl_cons, List.length_cons]
    simp only [isFlag, Bool.or_eq_true, decide_eq_true_eq] at hf
    have hn : P.length + 1 + fs.length = P.length + (fs.length + 1) := by omega
    rw [hn]
    unfold setFlag
    repeat' split
    all_goals first | rfl | (exfalso; simp_all)

def baseOf (oct : Bool) : Nat := if oct then 8 else 10

def numAcc (base a : Nat) (ds : Str) : Nat := ds.foldl (fun a d => a * base + (d.toNat - 48)) a

theorem numAcc_le (oct : Bool) (a : Nat) (ds : Str) : a ≤ numAcc (baseOf oct) a ds := by
  induction ds generalizing a with
  | nil => exact Nat.le_refl _
  | cons d ds ih =>
    simp only [numAcc, List.foldl_cons]
    have := ih (a * baseOf oct + (d.toNat - 48))
    simp only [numAcc] at this
    have hb : a ≤ a * baseOf oct := by
      apply Nat.le_mul_of_pos_right
      cases oct <;> decide
    omega

theorem digitsLoop_app (P ds R : Str) (oct : Bool) (a : Nat) (ha : a ≤ 2147483647)
    (hds : ∀ x ∈ ds, isDigit x = true) (hR : Stop isDigit R) :
    digitsLoop (P ++ (ds ++ R)) oct a P.length =
      if numAcc (baseOf oct) a ds ≤ 2147483647 then .ok ((numAcc (baseOf oct) a ds : Nat), P.length + ds.length) else .ub := by
  induction ds generalizing P a with
  | nil =>
    have : numAcc (baseOf oct) a [] ≤ 2147483647 := ha
    rw [if_pos this]
    cases R with
    | nil => unfold digitsLoop; simp [numAcc]
    | cons r R =>
      have := hR r rfl
      unfold digitsLoop
      simp [this, numAcc]
  | cons d ds ih =>
    have hd := hds d (by simp)
    have e : P ++ (d :: ds ++ R) = (P ++ [d]) ++ (ds ++ R) := by simp
    have hget : ∀ h, (P ++ (d :: ds ++ R))[P.length]'h = d := by intro h; simp
    have hlt : P.length < (P ++ (d :: ds ++ R)).length := by simp
    have h48 : 48 ≤ d.toNat := by
      simp only [isDigit, Bool.and_eq_true, decide_eq_true_eq] at hd
      exact hd.1
    have hcast : (a : Int) * (if oct = true then 8 else 10) + ((d.toNat : Int) - 48) = ((a * baseOf oct + (d.toNat - 48) : Nat) : Int) := by
      cases oct <;> simp [baseOf] <;> omega
    unfold digitsLoop
    simp only [hlt, dif_pos, hget, hd, if_true, hcast]
    have hacc : numAcc (baseOf oct) a (d :: ds) = numAcc (baseOf oct) (a * baseOf oct + (d.toNat - 48)) ds := rfl
    rw [hacc]
    have hle := numAcc_le oct (a * baseOf oct + (d.toNat - 48)) ds
    by_cases hv : a * baseOf oct + (d.toNat - 48) ≤ 2147483647
    · have : ¬ (((a * baseOf oct + (d.toNat - 48) : Nat) : Int) > 2147483647) := by omega
      rw [if_neg this]
      have ih' := ih (P ++ [d]) _ hv (fun x hx => hds x (by simp [hx]))
      rw [← e] at ih'
      simp only [List.length_append, List.length_singleton] at ih'
      rw [ih']
      have hn : P.length + 1 + ds.length = P.length + (d :: ds).length := by simp; omega
      rw [hn]
    · have : (((a * baseOf oct + (d.toNat - 48) : Nat) : Int) > 2147483647) := by omega
      rw [if_pos this, if_neg (by omega)]

theorem getElem?_app (P : Str) (R : Str) : (P ++ R)[P.length]? = R.head? := by
  rw [List.getElem?_append_right (Nat.le_refl _)]
  cases R <;> simp

theorem getElem?_app1 (P : Str) (R : Str) : (P ++ R)[P.length + 1]? = R[1]? := by
  rw [List.getElem?_append_right (by omega)]
  have : P.length + 1 - P.length = 1 := by omega
  rw [this]

/-- What the parser has cut off before the conversion letter. -/
structure Frame where
  fs : Str
  ds : Str
  prec : Option Str
  len : ArgLen
  R : Str

def Frame.str (f : Frame) : Str := f.fs ++ (f.ds ++ (precText f.prec ++ (lenText f.len ++ f.R)))

structure Frame.Ok (f : Frame) : Prop where
  fs : ∀ x ∈ f.fs, isFlag x = true
  stop1 : Stop isFlag (f.ds ++ (precText f.prec ++ (lenText f.len ++ f.R)))
  ds : ∀ x ∈ f.ds, isDigit x = true
  stop2 : Stop isDigit (precText f.prec ++ (lenText f.len ++ f.R))
  stop3 : f.prec = none → (lenText f.len ++ f.R).head? ≠ some 46
  prec : ∀ p, f.prec = some p → (∀ x ∈ p, isDigit x = true) ∧ Stop isDigit (lenText f.len ++ f.R)
  no : f.len = .no → f.R.head? ≠ some 104 ∧ f.R.head? ≠ some 108 ∧ f.R.head? ≠ some 76
  h : f.len = .h → f.R.head? ≠ some 104
  l : f.len = .l → f.R.head? ≠ some 108

def frameFlags (f : Frame) : Flags := f.fs.foldl setFlag {}

def Frame.size (f : Frame) : Nat := f.fs.length + f.ds.length + (precText f.prec).length + (lenText f.len).length

def Frame.fits (f : Frame) : Prop :=
  number (baseOf (frameFlags f).oct) f.ds ≤ 2147483647 ∧
  ∀ p, f.prec = some p → number (baseOf (frameFlags f).oct) p ≤ 2147483647

instance (f : Frame) : Decidable f.fits := by
  unfold Frame.fits
  cases f.prec with
  | none =>
    by_cases h : number (baseOf (frameFlags f).oct) f.ds ≤ 2147483647
    · exact isTrue ⟨h, by simp⟩
    · exact isFalse (fun hh => h hh.1)
  | some p =>
    by_cases h : number (baseOf (frameFlags f).oct) f.ds ≤ 2147483647 ∧ number (baseOf (frameFlags f).oct) p ≤ 2147483647
    · exact isTrue ⟨h.1, by intro q hq; simp at hq; subst hq; exact h.2⟩
    · exact isFalse (fun hh => h ⟨hh.1, hh.2 p rfl⟩)

def frameSpec (f : Frame) (c : UInt8) : Specifier :=
  ⟨frameFlags f, (number (baseOf (frameFlags f).oct) f.ds : Nat),
   (match f.prec with | none => -1 | some p => (number (baseOf (frameFlags f).oct) p : Nat)), f.len, c⟩

def precRes (n : Nat) (oct : Bool) : Option Str → Outcome (Int × Nat)
  | none => .ok (-1, n)
  | some p => if number (baseOf oct) p ≤ 2147483647 then .ok ((number (baseOf oct) p : Nat), n + (46 :: p).length) else .ub

theorem precPart_app (P : Str) (prec : Option Str) (R : Str) (oct : Bool)
    (h1 : prec = none → R.head? ≠ some 46)
    (h2 : ∀ p, prec = some p → (∀ x ∈ p, isDigit x = true) ∧ Stop isDigit R) :
    precPart (P ++ (precText prec ++ R)) oct P.length = precRes P.length oct prec := by
  cases prec with
  | none =>
    simp only [precText, List.nil_append, precPart, getElem?_app, precRes]
    rw [if_neg (h1 rfl)]
  | some p =>
    obtain ⟨hp, hs⟩ := h2 p rfl
    show precPart (P ++ (46 :: p ++ R)) oct P.length = _
    simp only [precPart, precRes]
    have e : P ++ (46 :: p ++ R) = (P ++ [46]) ++ (p ++ R) := by simp
    have hh : (P ++ (46 :: p ++ R))[P.length]? = some 46 := by rw [getElem?_app]; rfl
    rw [if_pos hh, e]
    have := digitsLoop_app (P ++ [46]) p R oct 0 (by omega) hp hs
    simp only [List.length_append, List.length_singleton] at this
    have h0 : ((0 : Nat) : Int) = 0 := rfl
    rw [h0] at this
    rw [this]
    have hn : P.length + 1 + p.length = P.length + (46 :: p).length := by simp; omega
    rw [hn]
    rfl

theorem lenPart_app (P : Str) (len : ArgLen) (R : Str)
    (h0 : len = .no → R.head? ≠ some 104 ∧ R.head? ≠ some 108 ∧ R.head? ≠ some 76)
    (h1 : len = .h → R.head? ≠ some 104) (h2 : len = .l → R.head? ≠ some 108) :
    lenPart (P ++ (lenText len ++ R)) P.length = (len, P.length + (lenText len).length) := by
  have hR1 : ∀ c : UInt8, (c :: R)[1]? = R.head? := by intro c; cases R <;> rfl
  unfold lenPart
  cases len with
  | no =>
    obtain ⟨a, b, c⟩ := h0 rfl
    simp only [lenText, List.nil_append, getElem?_app, if_neg a, if_neg b, if_neg c, List.length_nil, Nat.add_zero]
  | h =>
    simp only [lenText, List.cons_append, List.nil_append, getElem?_app, getElem?_app1, List.head?_cons, if_true, hR1,
      if_neg (h1 rfl), List.length_cons, List.length_nil]
  | hh =>
    simp [lenText, getElem?_app, getElem?_app1]
  | l =>
    simp only [lenText, List.cons_append, List.nil_append, getElem?_app, getElem?_app1, List.head?_cons, hR1,
      if_neg (h2 rfl), List.length_cons, List.length_nil]
    simp
  | ll => simp [lenText, getElem?_app, getElem?_app1]
  | L => simp [lenText, getElem?_app]

theorem charAt_app (P R : Str) : charAt (P ++ R) P.length = .ok (R.head?.getD 0) := by
  unfold charAt
  rw [getElem?_app]
  cases R with
  | nil => simp
  | cons r R => simp

theorem number_eq (b : Nat) (ds : Str) : numAcc b 0 ds = number b ds := rfl

/-- The parser on a format cut into frame and rest. -/
theorem parse_frame (P : Str) (f : Frame) (hf : f.Ok) :
    parse (P ++ 37 :: f.str) P.length =
      if f.fits then
        (if isAlpha (f.R.head?.getD 0) then
          .ok (some (frameSpec f (f.R.head?.getD 0)), P.length + 1 + f.size + 1)
        else .ok (none, P.length + 1 + f.size))
      else .ub := by
  have e1 : P ++ 37 :: f.str = (P ++ [37]) ++ (f.fs ++ (f.ds ++ (precText f.prec ++ (lenText f.len ++ f.R)))) := by
    simp [Frame.str]
  have e2 : P ++ 37 :: f.str = (P ++ 37 :: f.fs) ++ (f.ds ++ (precText f.prec ++ (lenText f.len ++ f.R))) := by
    simp [Frame.str]
  have e3 : P ++ 37 :: f.str = (P ++ 37 :: (f.fs ++ f.ds)) ++ (precText f.prec ++ (lenText f.len ++ f.R)) := by
    simp [Frame.str]
  have e4 : P ++ 37 :: f.str = (P ++ 37 :: (f.fs ++ (f.ds ++ precText f.prec))) ++ (lenText f.len ++ f.R) := by
    simp [Frame.str]
  have e5 : P ++ 37 :: f.str = (P ++ 37 :: (f.fs ++ (f.ds ++ (precText f.prec ++ lenText f.len)))) ++ f.R := by
    simp [Frame.str]
  have c0 : charAt (P ++ 37 :: f.str) P.length = .ok 37 := charAt_app P _
  have s1 : flagsLoop (P ++ 37 :: f.str) {} (P.length + 1) = (frameFlags f, P.length + 1 + f.fs.length) := by
    rw [e1]
    have := flagsLoop_app (P ++ [37]) f.fs _ {} hf.fs hf.stop1
    simpa [frameFlags] using this
  have s2 := digitsLoop_app (P ++ 37 :: f.fs) f.ds _ (frameFlags f).oct 0 (by omega) hf.ds hf.stop2
  rw [← e2, number_eq] at s2
  have l2 : (P ++ 37 :: f.fs).length = P.length + 1 + f.fs.length := by simp; omega
  rw [l2] at s2
  have s3 := precPart_app (P ++ 37 :: (f.fs ++ f.ds)) f.prec _ (frameFlags f).oct hf.stop3 hf.prec
  rw [← e3] at s3
  have l3 : (P ++ 37 :: (f.fs ++ f.ds)).length = P.length + 1 + f.fs.length + f.ds.length := by simp; omega
  rw [l3] at s3
  have s4 := lenPart_app (P ++ 37 :: (f.fs ++ (f.ds ++ precText f.prec))) f.len f.R hf.no hf.h hf.l
  rw [← e4] at s4
  have l4 : (P ++ 37 :: (f.fs ++ (f.ds ++ precText f.prec))).length = P.length + 1 + f.fs.length + f.ds.length + (precText f.prec).length := by simp; omega
  rw [l4] at s4
  have s5 := charAt_app (P ++ 37 :: (f.fs ++ (f.ds ++ (precText f.prec ++ lenText f.len)))) f.R
  rw [← e5] at s5
  have l5 : (P ++ 37 :: (f.fs ++ (f.ds ++ (precText f.prec ++ lenText f.len)))).length = P.length + 1 + f.fs.length + f.ds.length + (precText f.prec).length + (lenText f.len).length := by simp; omega
  rw [l5] at s5
  have hsz : P.length + 1 + f.size = P.length + 1 + f.fs.length + f.ds.length + (precText f.prec).length + (lenText f.len).length := by
    simp [Frame.size]; omega
  unfold parse
  have h0 : ((0 : Nat) : Int) = 0 := rfl
  rw [h0] at s2
  simp only [c0, Outcome.bind_ok, if_true, s1, s2]
  by_cases hw : number (baseOf (frameFlags f).oct) f.ds ≤ 2147483647
  · simp only [hw, if_true, Outcome.bind_ok, s3]
    cases hp : f.prec with
    | none =>
      have hfit : f.fits := ⟨hw, by simp [hp]⟩
      rw [hp] at s4 s5 hsz
      simp only [precText, List.length_nil, Nat.add_zero] at s4 s5 hsz
      simp only [precRes, Outcome.bind_ok, s4, s5, hfit, if_true, Outcome.pure_eq, frameSpec, hp, hsz]
    | some p =>
      simp only [precRes]
      by_cases hpn : number (baseOf (frameFlags f).oct) p ≤ 2147483647
      · have hfit : f.fits := ⟨hw, by intro q hq; rw [hp] at hq; injection hq with hq; subst hq; exact hpn⟩
        rw [hp] at s4 s5 hsz
        simp only [precText] at s4 s5 hsz
        simp only [hpn, if_true, Outcome.bind_ok, s4, s5, hfit, Outcome.pure_eq, frameSpec, hp, hsz]
      · have hfit : ¬ f.fits := fun h => hpn (h.2 p hp)
        simp only [hpn, if_false, Outcome.bind_ub, hfit]
  · have hfit : ¬ f.fits := fun h => hw h.1
    simp only [hw, if_false, Outcome.bind_ub, hfit]

/-! ### Every rest of a format after `%` has a frame -/

theorem span_exists (p : UInt8 → Bool) (s : Str) : ∃ a b, s = a ++ b ∧ (∀ x ∈ a, p x = true) ∧ Stop p b := by
  induction s with
  | nil => exact ⟨[], [], rfl, by simp, by intro x hx; simp at hx⟩
  | cons c s ih =>
    by_cases hc : p c = true
    · obtain ⟨a, b, e, ha, hb⟩ := ih
      refine ⟨c :: a, b, by rw [e]; rfl, ?_, hb⟩
      intro x hx
      rcases List.mem_cons.1 hx with rfl | hx
      · exact hc
      · exact ha x hx
    · refine ⟨[], c :: s, rfl, by simp, ?_⟩
      intro x hx
      simp at hx
      subst hx
      simpa using hc

theorem len_exists (s : Str) : ∃ len R, s = lenText len ++ R ∧
    (len = .no → R.head? ≠ some 104 ∧ R.head? ≠ some 108 ∧ R.head? ≠ some 76) ∧
    (len = .h → R.head? ≠ some 104) ∧ (len = .l → R.head? ≠ some 108) := by
  cases s with
  | nil => exact ⟨.no, [], rfl, by simp, by simp, by simp⟩
  | cons c s =>
    by_cases h1 : c = 104
    · subst h1
      by_cases h2 : s.head? = some 104
      · cases s with
        | nil => simp at h2
        | cons d s => simp at h2; subst h2; exact ⟨.hh, s, rfl, by simp, by simp, by simp⟩
      · exact ⟨.h, s, rfl, by simp, fun _ => h2, by simp⟩
    · by_cases h3 : c = 108
      · subst h3
        by_cases h2 : s.head? = some 108
        · cases s with
          | nil => simp at h2
          | cons d s => simp at h2; subst h2; exact ⟨.ll, s, rfl, by simp, by simp, by simp⟩
        · exact ⟨.l, s, rfl, by simp, by simp, fun _ => h2⟩
      · by_cases h4 : c = 76
        · subst h4; exact ⟨.L, s, rfl, by simp, by simp, by simp⟩
        · exact ⟨.no, c :: s, rfl, by simp [h1, h3, h4], by simp, by simp⟩

theorem frame_exists (s : Str) : ∃ f : Frame, f.Ok ∧ s = f.str := by
  obtain ⟨fs, s1, e1, hfs, st1⟩ := span_exists isFlag s
  obtain ⟨ds, s2, e2, hds, st2⟩ := span_exists isDigit s1
  by_cases hp : s2.head? = some 46
  · cases s2 with
    | nil => simp at hp
    | cons c s3 =>
      simp at hp
      subst hp
      obtain ⟨p, s4, e3, hpd, st3⟩ := span_exists isDigit s3
      obtain ⟨len, R, e4, n1, n2, n3⟩ := len_exists s4
      refine ⟨⟨fs, ds, some p, len, R⟩, ⟨hfs, ?_, hds, ?_, by simp, ?_, n1, n2, n3⟩, ?_⟩
      · simp only [precText, List.cons_append]; rw [← e4, ← e3, ← e2]; exact st1
      · simp only [precText, List.cons_append]; rw [← e4, ← e3]; exact st2
      · intro q hq
        simp at hq
        subst hq
        exact ⟨hpd, by rw [← e4]; exact st3⟩
      · simp only [Frame.str, precText, List.cons_append]
        rw [← e4, ← e3, ← e2, ← e1]
  · obtain ⟨len, R, e4, n1, n2, n3⟩ := len_exists s2
    refine ⟨⟨fs, ds, none, len, R⟩, ⟨hfs, ?_, hds, ?_, ?_, by simp, n1, n2, n3⟩, ?_⟩
    · simp only [precText, List.nil_append]; rw [← e4, ← e2]; exact st1
    · simp only [precText, List.nil_append]; rw [← e4]; exact st2
    · intro _; simp only []; rw [← e4]; exact hp
    · simp only [Frame.str, precText, List.nil_append]
      rw [← e4, ← e2, ← e1]

theorem span_unique (p : UInt8 → Bool) (a b a' b' : Str) (ha : ∀ x ∈ a, p x = true) (hb : Stop p b)
    (ha' : ∀ x ∈ a', p x = true) (hb' : Stop p b') (e : a ++ b = a' ++ b') : a = a' ∧ b = b' := by
  induction a generalizing a' with
  | nil =>
    cases a' with
    | nil => exact ⟨rfl, e⟩
    | cons c a' =>
      simp only [List.nil_append] at e
      have h1 := hb c (by rw [e]; rfl)
      have h2 := ha' c (by simp)
      rw [h1] at h2; simp at h2
  | cons c a ih =>
    cases a' with
    | nil =>
      simp only [List.nil_append] at e
      have h1 := hb' c (by rw [← e]; rfl)
      have h2 := ha c (by simp)
      rw [h1] at h2; simp at h2
    | cons c' a' =>
      simp only [List.cons_append, List.cons.injEq] at e
      obtain ⟨h1, h2⟩ := ih a' (fun x hx => ha x (by simp [hx])) (fun x hx => ha' x (by simp [hx])) e.2
      exact ⟨by rw [e.1, h1], h2⟩

theorem len_unique (l l' : ArgLen) (R R' : Str)
    (h0 : l = .no → R.head? ≠ some 104 ∧ R.head? ≠ some 108 ∧ R.head? ≠ some 76)
    (h1 : l = .h → R.head? ≠ some 104) (h2 : l = .l → R.head? ≠ some 108)
    (h0' : l' = .no → R'.head? ≠ some 104 ∧ R'.head? ≠ some 108 ∧ R'.head? ≠ some 76)
    (h1' : l' = .h → R'.head? ≠ some 104) (h2' : l' = .l → R'.head? ≠ some 108)
    (e : lenText l ++ R = lenText l' ++ R') : l = l' ∧ R = R' := by
  have := lenPart_app [] l R h0 h1 h2
  rw [e, lenPart_app [] l' R' h0' h1' h2'] at this
  simp only [Prod.mk.injEq] at this
  obtain ⟨h, _⟩ := this
  subst h
  exact ⟨rfl, List.append_cancel_left e⟩

theorem frame_unique (f g : Frame) (hf : f.Ok) (hg : g.Ok) (e : f.str = g.str) : f = g := by
  obtain ⟨e1, e⟩ := span_unique _ _ _ _ _ hf.fs hf.stop1 hg.fs hg.stop1 e
  obtain ⟨e2, e⟩ := span_unique _ _ _ _ _ hf.ds hf.stop2 hg.ds hg.stop2 e
  cases f with | mk fs ds prec len R => cases g with | mk fs' ds' prec' len' R' =>
  simp only at e1 e2
  subst e1; subst e2
  cases prec with
  | none =>
    cases prec' with
    | none =>
      obtain ⟨h1, h2⟩ := len_unique _ _ _ _ hf.no hf.h hf.l hg.no hg.h hg.l e
      simp only at h1 h2
      rw [h1, h2]
    | some p =>
      have := hf.stop3 rfl
      simp only [precText, List.nil_append] at e
      rw [e] at this
      simp at this
  | some p =>
    cases prec' with
    | none =>
      have := hg.stop3 rfl
      simp only [precText, List.nil_append] at e
      rw [← e] at this
      simp at this
    | some p' =>
      simp only [precText, List.cons_append, List.cons.injEq, true_and] at e
      obtain ⟨h3, e⟩ := span_unique _ _ _ _ _ (hf.prec p rfl).1 (hf.prec p rfl).2 (hg.prec p' rfl).1 (hg.prec p' rfl).2 e
      obtain ⟨h1, h2⟩ := len_unique _ _ _ _ hf.no hf.h hf.l hg.no hg.h hg.l e
      simp only at h1 h2
      rw [h1, h2, h3]

/-! ### Frames and conversion specifications -/

theorem isAlpha_not_flag {c : UInt8} (h : isAlpha c = true) : isFlag c = false ∧ isDigit c = false ∧ c ≠ 46 ∧ c ≠ 37 := by
  simp only [isAlpha, isFlag, isDigit, Bool.or_eq_true, Bool.and_eq_true, decide_eq_true_eq, Bool.or_eq_false_iff,
    decide_eq_false_iff_not, Bool.and_eq_false_iff, UInt8.le_iff_toNat_le, ← UInt8.toNat_inj] at *
  have e1 : (65 : UInt8).toNat = 65 := rfl
  have e2 : (90 : UInt8).toNat = 90 := rfl
  have e3 : (97 : UInt8).toNat = 97 := rfl
  have e4 : (122 : UInt8).toNat = 122 := rfl
  have e5 : (43 : UInt8).toNat = 43 := rfl
  have e6 : (45 : UInt8).toNat = 45 := rfl
  have e7 : (35 : UInt8).toNat = 35 := rfl
  have e8 : (48 : UInt8).toNat = 48 := rfl
  have e9 : (32 : UInt8).toNat = 32 := rfl
  have e10 : (57 : UInt8).toNat = 57 := rfl
  have e11 : (46 : UInt8).toNat = 46 := rfl
  have e12 : (37 : UInt8).toNat = 37 := rfl
  rw [e1, e2, e3, e4] at h
  rw [ne_eq, ne_eq, ← UInt8.toNat_inj, ← UInt8.toNat_inj, e5, e6, e7, e8, e9, e10, e11, e12]
  omega

theorem digit_not_flag {c : UInt8} (h : isDigit c = true) (h0 : c ≠ 48) : isFlag c = false := by
  simp only [isFlag, isDigit, Bool.and_eq_true, decide_eq_true_eq, Bool.or_eq_false_iff,
    decide_eq_false_iff_not, UInt8.le_iff_toNat_le, ← UInt8.toNat_inj, ne_eq] at *
  have e5 : (43 : UInt8).toNat = 43 := rfl
  have e6 : (45 : UInt8).toNat = 45 := rfl
  have e7 : (35 : UInt8).toNat = 35 := rfl
  have e8 : (48 : UInt8).toNat = 48 := rfl
  have e9 : (32 : UInt8).toNat = 32 := rfl
  have e10 : (57 : UInt8).toNat = 57 := rfl
  rw [e8] at h0
  rw [e8, e10] at h
  rw [e5, e6, e7, e8, e9]
  omega

def toFrame (c : Conv) (post : Str) : Frame := ⟨c.flags, c.width, c.prec, c.len, c.conv :: post⟩

theorem stop_len (q : UInt8 → Bool) (len : ArgLen) (c : UInt8) (post : Str) (hq : ∀ x, isAlpha x = true → q x = false)
    (hc : isAlpha c = true) : Stop q (lenText len ++ c :: post) := by
  intro x hx
  apply hq
  cases len <;> simp [lenText] at hx <;> subst hx <;> first | exact hc | decide

theorem toFrame_ok (c : Conv) (post : Str) (h : WF c) : (toFrame c post).Ok := by
  have hconv : isAlpha c.conv = true := by rw [isAlpha_eq]; exact h.conv
  have hwidth : ∀ x ∈ c.width, isDigit x = true := by rw [isDigit_eq]; exact h.width
  have hprec : ∀ ds, c.prec = some ds → ∀ x ∈ ds, isDigit x = true := by rw [isDigit_eq]; exact h.prec
  have sd : Stop isDigit (lenText c.len ++ c.conv :: post) := stop_len _ _ _ _ (fun x hx => (isAlpha_not_flag hx).2.1) hconv
  have sf : Stop isFlag (lenText c.len ++ c.conv :: post) := stop_len _ _ _ _ (fun x hx => (isAlpha_not_flag hx).1) hconv
  have s46 : Stop (fun x => x == 46) (lenText c.len ++ c.conv :: post) :=
    stop_len _ _ _ _ (fun x hx => by simpa using (isAlpha_not_flag hx).2.2.1) hconv
  refine ⟨h.flags, ?_, hwidth, ?_, ?_, ?_, ?_, ?_, ?_⟩
  · show Stop isFlag (c.width ++ (precText c.prec ++ (lenText c.len ++ c.conv :: post)))
    cases hw : c.width with
    | nil =>
      cases hp : c.prec with
      | none => simpa [precText] using sf
      | some p => intro x hx; simp [precText] at hx; subst hx; decide
    | cons d w =>
      intro x hx
      simp at hx
      subst hx
      apply digit_not_flag (hwidth _ (by rw [hw]; simp))
      intro e
      exact h.width0 (by rw [hw, e]; rfl)
  · show Stop isDigit (precText c.prec ++ (lenText c.len ++ c.conv :: post))
    cases hp : c.prec with
    | none => simpa [precText] using sd
    | some p => intro x hx; simp [precText] at hx; subst hx; decide
  · intro _ hh
    have := s46 _ hh
    simp at this
  · intro p hp
    exact ⟨hprec p hp, sd⟩
  · intro e; simpa [toFrame] using h.convNo e
  · intro e; simpa [toFrame] using h.convH e
  · intro e; simpa [toFrame] using h.convL e

theorem toFrame_str (c : Conv) (post : Str) : 37 :: (toFrame c post).str = text c ++ post := by
  simp [toFrame, Frame.str, text]

theorem toFrame_size (c : Conv) (post : Str) : 1 + (toFrame c post).size + 1 = (text c).length := by
  simp [toFrame, Frame.size, text]; omega

/-- What the code makes of a conversion specification: any `0` or space sets the flag
`oct` and makes the numbers octal. -/
def actual (c : Conv) : Specifier := frameSpec (toFrame c []) c.conv

theorem frameSpec_post (c : Conv) (post : Str) (x : UInt8) : frameSpec (toFrame c post) x = frameSpec (toFrame c []) x := rfl

theorem foldl_setFlag (fs : Str) (fl : Flags) (hfs : ∀ x ∈ fs, isFlag x = true) : fs.foldl setFlag fl =
    ⟨fl.plus || decide (43 ∈ fs), fl.minus || decide (45 ∈ fs), fl.pound || decide (35 ∈ fs),
     fl.oct || decide (48 ∈ fs) || decide (32 ∈ fs), fl.space⟩ := by
  induction fs generalizing fl with
  | nil => simp
  | cons f fs ih =>
    rw [List.foldl_cons, ih _ (fun x hx => hfs x (by simp [hx]))]
    have hf := hfs f (by simp)
    simp only [isFlag, Bool.or_eq_true, decide_eq_true_eq] at hf
    rcases hf with (((rfl | rfl) | rfl) | rfl) | rfl <;> cases fl <;> simp [setFlag] <;>
      (repeat' apply And.intro) <;> simp [Bool.or_comm, Bool.or_assoc]

def octal (c : Conv) : Bool := decide (48 ∈ c.flags) || decide (32 ∈ c.flags)

theorem toFrame_oct (c : Conv) (post : Str) (h : WF c) : (frameFlags (toFrame c post)).oct = octal c := by
  simp only [frameFlags, toFrame, foldl_setFlag _ _ h.flags, octal]
  simp

theorem toFrame_fits (c : Conv) (post : Str) (h : WF c) : (toFrame c post).fits ↔ Fits (baseOf (octal c)) c := by
  unfold Frame.fits Fits
  rw [toFrame_oct c post h]
  rfl

theorem parse_conv (P : Str) (c : Conv) (post : Str) (h : WF c) :
    parse (P ++ (text c ++ post)) P.length =
      if (toFrame c []).fits then .ok (some (actual c), P.length + (text c).length) else .ub := by
  rw [← toFrame_str, parse_frame P _ (toFrame_ok c post h)]
  have hfit : (toFrame c post).fits = (toFrame c []).fits := rfl
  have e : P.length + 1 + (toFrame c post).size + 1 = P.length + (text c).length := by
    rw [← toFrame_size c post]; omega
  have hh : ((toFrame c post).R.head?.getD 0) = c.conv := rfl
  have hconv : isAlpha c.conv = true := by rw [isAlpha_eq]; exact h.conv
  rw [hh, hconv, e]
  simp only [if_true, actual, frameSpec_post c post]
  by_cases hf : (toFrame c []).fits
  · rw [if_pos hf, if_pos (hfit ▸ hf)]
  · rw [if_neg hf, if_neg (hfit ▸ hf)]

/-- The frame in front of a letter is a conversion specification. -/
def toConv (f : Frame) (c : UInt8) : Conv := ⟨f.fs, f.ds, f.prec, f.len, c⟩

theorem toConv_wf (f : Frame) (hf : f.Ok) (c : UInt8) (R : Str) (hR : f.R = c :: R) (hc : isAlpha c = true) : WF (toConv f c) := by
  refine ⟨hf.fs, isDigit_eq ▸ hf.ds, ?_, fun p hp => isDigit_eq ▸ (hf.prec p hp).1, isAlpha_eq ▸ hc, ?_, ?_, ?_⟩
  · show f.ds.head? ≠ some 48
    intro e
    cases hd : f.ds with
    | nil => rw [hd] at e; simp at e
    | cons d ds =>
      rw [hd] at e
      have := hf.stop1 d (by rw [hd]; rfl)
      simp at e
      subst e
      revert this
      decide
  · intro e; have := hf.no e; rw [hR] at this; simpa [toConv] using this
  · intro e; have := hf.h e; rw [hR] at this; simpa [toConv] using this
  · intro e; have := hf.l e; rw [hR] at this; simpa [toConv] using this

/-- Classification of what follows a `%`. -/
theorem parse_cases (P s : Str) :
    (∃ c post, WF c ∧ 37 :: s = text c ++ post ∧
      parse (P ++ 37 :: s) P.length = if (toFrame c []).fits then .ok (some (actual c), P.length + (text c).length) else .ub) ∨
    ((∀ c post, WF c → 37 :: s ≠ text c ++ post) ∧ ∃ f : Frame, f.Ok ∧ s = f.str ∧
      parse (P ++ 37 :: s) P.length = if f.fits then .ok (none, P.length + 1 + f.size) else .ub) := by
  obtain ⟨f, hf, e⟩ := frame_exists s
  by_cases hc : isAlpha (f.R.head?.getD 0) = true
  · left
    cases hR : f.R with
    | nil => rw [hR] at hc; simp [isAlpha] at hc
    | cons c R =>
      rw [hR] at hc
      simp only [List.head?_cons, Option.getD_some] at hc
      have hw := toConv_wf f hf c R hR hc
      have ht : 37 :: s = text (toConv f c) ++ R := by
        rw [e]; simp [Frame.str, text, toConv, hR]
      refine ⟨toConv f c, R, hw, ht, ?_⟩
      rw [ht]
      exact parse_conv P _ R hw
  · right
    have hp := parse_frame P f hf
    rw [← e] at hp
    simp only [hc] at hp
    refine ⟨?_, f, hf, e, by simpa using hp⟩
    intro c post hw ht
    have := frame_unique f (toFrame c post) hf (toFrame_ok c post hw) (by
      rw [← e]
      have := toFrame_str c post
      rw [← ht] at this
      simp at this
      exact this.symm)
    rw [this] at hc
    exact hc (by rw [isAlpha_eq]; exact hw.conv)

end Verif.Printf
