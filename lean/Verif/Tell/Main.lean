import Verif.Tell.Lemmas
/-
Two values with the same text hold the same data.
-/
namespace Verif.Tell
open Verif Verif.Entry Verif.Entry.Spec Verif.Value Verif.Value.Spec Verif.PrintString.Spec Verif.ValueString Verif.ValueString.Spec Verif.Tell.Spec

/-! ### Enumerations -/

theorem first_value (es : List (Name × Int)) (k : Int) : (∀ e ∈ es, e.2 ≠ k) ∨ ∃ a n c, es = a ++ (n, k) :: c ∧ ∀ e ∈ a, e.2 ≠ k := by
  induction es with
  | nil => exact .inl (by simp)
  | cons y ys ih =>
    by_cases hy : y.2 = k
    · exact .inr ⟨[], y.1, ys, by rw [← hy]; rfl, by simp⟩
    · rcases ih with ih | ⟨a, n, c, rfl, h⟩
      · refine .inl fun e he => ?_
        rcases List.mem_cons.mp he with rfl | he
        · exact hy
        · exact ih e he
      · refine .inr ⟨y :: a, n, c, rfl, fun e he => ?_⟩
        rcases List.mem_cons.mp he with rfl | he
        · exact hy
        · exact h e he

theorem enumeration_text {db : Db} {m : Mem} {v : Value} {x : Ref} {qs : List Qual} {s : UInt64} {e : Nat} {es : List (Name × Int)} (hx : Final db v.entry (some x) qs)
    (hi : (db x).info = .enumeration s e es) {u : Text} (h : enumerationString db m (some v) = .ok (some u)) :
    ∃ k, enumeration db m (some v) = .ok (.ok k) ∧ ((u, k) ∈ es ∨ (∀ y ∈ es, y.2 ≠ k) ∧ u = decimalInt k) := by
  rw [enumerationString] at h
  simp only [bind_ok_iff] at h
  obtain ⟨f, -, h⟩ := h
  cases f with
  | none => cases h
  | some f =>
    simp only [bind_ok_iff] at h
    obtain ⟨g, hg, h⟩ := h
    cases g with
    | error e => cases h
    | ok k =>
      simp only [bind_ok_iff] at h
      obtain ⟨o, ho, h⟩ := h
      refine ⟨k, hg, ?_⟩
      obtain ⟨c1, c2, -⟩ := C19_enumerators db v.entry x qs s e es hx hi
      rcases first_value es k with hno | ⟨a, n, c, rfl, ha⟩
      · rw [c2 k hno, Outcome.ofLoop_some] at ho
        cases ho
        cases h
        exact .inr ⟨hno, rfl⟩
      · rw [c1 k a c n rfl ha, Outcome.ofLoop_some] at ho
        cases ho
        cases h
        exact .inl (by simp)

theorem cname_word {n : Text} (h : CName n) : Word n := by
  obtain ⟨c, s, rfl, hc, hs⟩ := h
  intro x hx
  rcases List.mem_cons.mp hx with rfl | hx
  · exact letter_word hc
  · rcases hs x hx with h | h
    · exact letter_word h
    · exact digit_word h

theorem cname_decimal {n : Text} (h : CName n) (z : Int) : n ≠ decimalInt z := by
  obtain ⟨c, s, rfl, hc, hs⟩ := h
  intro e
  obtain ⟨c', s', h1, h2⟩ := decimalInt_head z
  rw [h1] at e
  cases e
  rcases h2 with rfl | h2
  · exact absurd hc (by unfold Letter; decide)
  · exact letter_digit hc h2

/-! ### Lists -/

/-- Two lists of the same length, related one by one. -/
inductive Pairs {α : Type} (Q : α → α → Prop) : List α → List α → Prop where
  | nil : Pairs Q [] []
  | cons {x y xs ys} : Q x y → Pairs Q xs ys → Pairs Q (x :: xs) (y :: ys)

theorem pairs_of {α : Type} {Q : α → α → Prop} : ∀ {xs ys : List α}, xs.length = ys.length → (∀ (i : Nat) x y, xs[i]? = some x → ys[i]? = some y → Q x y) → Pairs Q xs ys
  | [], [], _, _ => .nil
  | [], _ :: _, h, _ => by simp at h
  | _ :: _, [], h, _ => by simp at h
  | x :: xs, y :: ys, h, hq => .cons (hq 0 x y rfl rfl) (pairs_of (by simpa using h) fun i a b ha hb => hq (i + 1) a b ha hb)

theorem pairs_at {α : Type} {Q : α → α → Prop} {xs ys : List α} (h : Pairs Q xs ys) : xs.length = ys.length ∧ ∀ (i : Nat) x y, xs[i]? = some x → ys[i]? = some y → Q x y := by
  induction h with
  | nil => exact ⟨rfl, by simp⟩
  | cons hq _ ih =>
    refine ⟨by simp [ih.1], fun i a b ha hb => ?_⟩
    cases i with
    | zero => simp at ha hb; subst ha hb; exact hq
    | succ i => exact ih.2 i a b (by simpa using ha) (by simpa using hb)

theorem inter_cons (sep x : Text) (xs : List Text) : sep.intercalate (x :: xs) = x ++ if xs = [] then [] else sep ++ sep.intercalate xs := by
  cases xs with
  | nil => simp [List.intercalate]
  | cons y ys => simp [List.intercalate]

/-- Two texts of one type. -/
structure Delim (A : Value → Value → Prop) (x y : Value × Text) : Prop where
  empty : x.2 = [] ↔ y.2 = []
  tell : ∀ s s', Follows s → Follows s' → x.2 ++ s = y.2 ++ s' → x.2 = y.2 ∧ A x.1 y.1

theorem memberText_nil {n : Option Name} {t : Text} : memberText n t = [] ↔ t = [] := by
  unfold memberText
  split
  · simp [*]
  · split <;> simp_all

theorem members_empty {db : Db} {Q : Value → Value → Prop} {ws ws' : List (Value × Text)} (h : Pairs (fun x y => (db x.1.entry).name = (db y.1.entry).name ∧ Delim Q x y) ws ws') :
    (ws.flatMap fun w => memberText (db w.1.entry).name w.2) = [] ↔ (ws'.flatMap fun w => memberText (db w.1.entry).name w.2) = [] := by
  induction h with
  | nil => simp
  | cons hq _ ih =>
    simp only [List.flatMap_cons, List.append_eq_nil_iff, memberText_nil]
    rw [hq.2.empty, ih]

theorem members_tell {db : Db} {Q : Value → Value → Prop} {ws ws' : List (Value × Text)} (h : Pairs (fun x y => (db x.1.entry).name = (db y.1.entry).name ∧ Delim Q x y) ws ws') :
    ∀ {s s' : Text}, Follows s → Follows s' → membersText db ws ++ s = membersText db ws' ++ s' →
    membersText db ws = membersText db ws' ∧ Pairs (fun x y => Q x.1 y.1) ws ws' := by
  induction h with
  | nil => intro s s' _ _ _; exact ⟨rfl, .nil⟩
  | @cons x y xs ys hq hp ih =>
    intro s s' hs hs' e
    obtain ⟨hn, hd⟩ := hq
    have hemp := members_empty hp
    unfold membersText at e ih ⊢
    simp only [List.flatMap_cons] at e ⊢
    generalize hX : (xs.flatMap fun w => memberText (db w.1.entry).name w.2) = X at e ih hemp ⊢
    generalize hY : (ys.flatMap fun w => memberText (db w.1.entry).name w.2) = Y at e ih hemp ⊢
    by_cases h0 : x.2 = []
    · have h0' := hd.empty.mp h0
      have hA := (hd.tell [] [] trivial trivial (by rw [h0, h0'])).2
      rw [memberText_nil.mpr h0, memberText_nil.mpr h0'] at e ⊢
      obtain ⟨i1, i2⟩ := ih hs hs' e
      exact ⟨i1, .cons hA i2⟩
    · have h0' := fun h => h0 (hd.empty.mpr h)
      -- one text for the member
      have fin : ∀ {R R' : Text}, Follows R → Follows R' → (∀ pre post : Text, ∀ (hx : memberText (db x.1.entry).name x.2 = [pre ++ x.2 ++ post]) (hy : memberText (db y.1.entry).name y.2 = [pre ++ y.2 ++ post]),
          (post = [] ∨ post = [44]) → (pre ++ x.2 ++ post) ++ R = (pre ++ y.2 ++ post) ++ R' → x.2 = y.2 ∧ Q x.1 y.1 ∧ R = R') := by
        intro R R' hR hR' pre post _ _ hpost e
        have e2 : x.2 ++ (post ++ R) = y.2 ++ (post ++ R') := by
          simpa [List.append_assoc] using e
        have f1 : Follows (post ++ R) := by rcases hpost with rfl | rfl; exact hR; exact .inl rfl
        have f2 : Follows (post ++ R') := by rcases hpost with rfl | rfl; exact hR'; exact .inl rfl
        obtain ⟨a, b⟩ := hd.tell _ _ f1 f2 e2
        refine ⟨a, b, ?_⟩
        rw [a] at e2
        simpa using e2
      have item : ∃ pre post : Text, memberText (db x.1.entry).name x.2 = [pre ++ x.2 ++ post] ∧ memberText (db y.1.entry).name y.2 = [pre ++ y.2 ++ post] ∧ (post = [] ∨ post = [44]) := by
        unfold memberText
        rw [if_neg h0, if_neg h0', ← hn]
        cases (db x.1.entry).name with
        | none => exact ⟨[], [], by simp, by simp, .inl rfl⟩
        | some n => exact ⟨[46] ++ n ++ [32, 61, 32], [44], rfl, rfl, .inr rfl⟩
      obtain ⟨pre, post, i1, i2, i3⟩ := item
      rw [i1, i2] at e ⊢
      simp only [List.singleton_append, inter_cons] at e ⊢
      rw [List.append_assoc _ _ s, List.append_assoc _ _ s'] at e
      have fol : ∀ {Z : List Text} {s : Text}, Follows s → Follows ((if Z = [] then [] else [32] ++ [32].intercalate Z) ++ s) := by
        intro Z s hs
        split
        · exact hs
        · exact .inr (.inl rfl)
      obtain ⟨f1, f2, f3⟩ := fin (fol hs) (fol hs') pre post i1 i2 i3 e
      by_cases hX0 : X = []
      · have hY0 := hemp.mp hX0
        obtain ⟨j1, j2⟩ := ih (s := []) (s' := []) trivial trivial (by rw [hX0, hY0])
        subst hX0 hY0
        refine ⟨by rw [f1], .cons f2 j2⟩
      · have hY0 := fun h => hX0 (hemp.mpr h)
        rw [if_neg hX0, if_neg hY0] at f3
        simp only [List.singleton_append, List.cons_append, List.cons.injEq, true_and] at f3
        obtain ⟨j1, j2⟩ := ih hs hs' f3
        refine ⟨by rw [if_neg hX0, if_neg hY0, f1, j1], .cons f2 j2⟩

theorem comma (r : Text) : Follows (44 :: r) := .inl rfl

/-- All elements. -/
theorem elements_tell {Q : Value → Value → Prop} : ∀ {ws ws' : List (Value × Text)}, (∀ x ∈ ws, ∀ y ∈ ws', Delim Q x y) → (∀ x ∈ ws ++ ws', ∃ c s, x.2 = c :: s ∧ ¬ Follows [c]) →
    ∀ {s s' : Text}, elementsText ws ++ 125 :: s = elementsText ws' ++ 125 :: s' → elementsText ws = elementsText ws' ∧ s = s' ∧ Pairs (fun x y => Q x.1 y.1) ws ws'
  | [], [], _, _, s, s', e => ⟨rfl, by simpa [elementsText, List.intercalate] using e, .nil⟩
  | [], y :: ys, _, hh, s, s', e => by
    exfalso
    obtain ⟨c, r, h1, h2⟩ := hh y (by simp)
    simp only [elementsText, List.map_cons, inter_cons, h1] at e
    simp [List.intercalate] at e
    exact h2 (by rw [← e.1]; exact .inr (.inr rfl))
  | x :: xs, [], _, hh, s, s', e => by
    exfalso
    obtain ⟨c, r, h1, h2⟩ := hh x (by simp)
    simp only [elementsText, List.map_cons, inter_cons, h1] at e
    simp [List.intercalate] at e
    exact h2 (by rw [e.1]; exact .inr (.inr rfl))
  | x :: xs, y :: ys, hd, hh, s, s', e => by
    have hxy := hd x (by simp) y (by simp)
    have hd' : ∀ a ∈ xs, ∀ b ∈ ys, Delim Q a b := fun a ha b hb => hd a (by simp [ha]) b (by simp [hb])
    have hh' : ∀ a ∈ xs ++ ys, ∃ c s, a.2 = c :: s ∧ ¬ Follows [c] := by
      intro a ha
      refine hh a ?_
      rcases List.mem_append.mp ha with h | h <;> simp [h]
    have ih := elements_tell hd' hh' (s := s) (s' := s')
    simp only [elementsText, List.map_cons, inter_cons] at e ih ⊢
    have e2 : x.2 ++ (44 :: ((if xs.map (fun w => w.2 ++ [44]) = [] then [] else [32] ++ [32].intercalate (xs.map fun w => w.2 ++ [44])) ++ 125 :: s)) =
        y.2 ++ (44 :: ((if ys.map (fun w => w.2 ++ [44]) = [] then [] else [32] ++ [32].intercalate (ys.map fun w => w.2 ++ [44])) ++ 125 :: s')) := by
      simpa [List.append_assoc] using e
    obtain ⟨a, b⟩ := hxy.tell _ _ (comma _) (comma _) e2
    rw [a] at e2
    simp only [List.append_cancel_left_eq, List.cons.injEq, true_and] at e2
    cases xs with
    | nil =>
      cases ys with
      | nil =>
        simp at e2
        exact ⟨by rw [a], e2, .cons b .nil⟩
      | cons y' ys => simp at e2
    | cons x' xs =>
      cases ys with
      | nil => simp at e2
      | cons y' ys =>
        simp only [List.map_cons, reduceCtorEq, if_false, List.singleton_append, List.cons_append, List.cons.injEq, true_and] at e2 ⊢
        obtain ⟨i1, i2, i3⟩ := ih (by simpa using e2)
        refine ⟨?_, i2, .cons b i3⟩
        simp only [List.map_cons] at i1
        rw [a, i1]

/-! ### Literals -/

theorem plain_ne {c : UInt8} (h : ∀ e, ¬ Simple e c) : c ≠ 34 ∧ c ≠ 92 := ⟨fun e => h 34 (e ▸ .dquote), fun e => h 92 (e ▸ .backslash)⟩

theorem simple_inj {e c c' : UInt8} (h : Simple e c) (h' : Simple e c') : c = c' := by
  cases h <;> cases h' <;> rfl

theorem escaped_tell {cs : List UInt8} {u : Text} (h : Escaped cs u) : ∀ {cs' u' r r'}, Escaped cs' u' → u ++ 34 :: r = u' ++ 34 :: r' → cs = cs' ∧ r = r' := by
  induction h with
  | nil =>
    intro cs' u' r r' h' e
    cases h' with
    | nil => exact ⟨rfl, by simpa using e⟩
    | plain hc _ => simp at e; exact absurd e.1.symm (plain_ne hc).1
    | escape hc _ => simp at e
  | plain hc _ ih =>
    intro cs' u' r r' h' e
    cases h' with
    | nil => simp at e; exact absurd e.1 (plain_ne hc).1
    | plain hc' h' =>
      simp only [List.cons_append, List.cons.injEq] at e
      obtain ⟨i1, i2⟩ := ih h' e.2
      exact ⟨by rw [e.1, i1], i2⟩
    | escape _ _ => simp at e; exact absurd e.1 (plain_ne hc).2
  | escape hc _ ih =>
    intro cs' u' r r' h' e
    cases h' with
    | nil => simp at e
    | plain hc' _ => simp at e; exact absurd e.1.symm (plain_ne hc').2
    | escape hc' h' =>
      simp only [List.cons_append, List.cons.injEq, true_and] at e
      obtain ⟨i1, i2⟩ := ih h' e.2
      rw [e.1] at hc
      exact ⟨by rw [simple_inj hc hc', i1], i2⟩

end Verif.Tell
