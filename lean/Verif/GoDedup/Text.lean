import Verif.GoDedup.Spec
import Verif.GoMeta.Lemmas
/-
Taking texts apart.
-/
namespace Verif.GoDedup
open Spec
open GoMeta (Str dec numOf)

/-! ### Parentheses -/

theorem depth_append (s t : Str) : ∀ d, depth d (s ++ t) = (depth d s).bind fun e => depth e t := by
  induction s with
  | nil => intro d; rfl
  | cons c s ih =>
    intro d
    simp only [List.cons_append, depth]
    by_cases h : c = 40
    · simp [h, ih]
    · by_cases h2 : c = 41
      · cases d with
        | zero => simp [h2]
        | succ d => simp [h2, ih]
      · simp [h, h2, ih]

theorem depth_shift (s : Str) : ∀ d e k, depth d s = some e → depth (d + k) s = some (e + k) := by
  induction s with
  | nil => intro d e k h; simp only [depth, Option.some.injEq] at h ⊢; omega
  | cons c s ih =>
    intro d e k h
    simp only [depth] at h ⊢
    by_cases h1 : c = 40
    · simp only [h1, if_true] at h ⊢
      have := ih _ _ k h
      rwa [show d + 1 + k = d + k + 1 from by omega] at this
    · by_cases h2 : c = 41
      · cases d with
        | zero => simp [h2] at h
        | succ d =>
          simp only [h2] at h ⊢
          have := ih d e k (by simpa using h)
          rw [show d + 1 + k = (d + k) + 1 from by omega]
          simpa using this
      · simp only [h1, h2, if_false] at h ⊢
        exact ih _ _ k h

theorem Spec.Closed.depth {s : Str} (h : Closed s) (d : Nat) : depth d s = some d := by
  have := depth_shift s 0 0 d h
  simpa using this

theorem Spec.Closed.nil : Closed [] := rfl

theorem Spec.Closed.append {s t : Str} (hs : Closed s) (ht : Closed t) : Closed (s ++ t) := by
  unfold Closed
  rw [depth_append, show Spec.depth 0 s = some 0 from hs]
  exact ht

theorem Spec.Closed.paren {s : Str} (hs : Closed s) : Closed ([40] ++ s ++ [41]) := by
  unfold Closed
  rw [List.append_assoc, depth_append]
  simp only [Spec.depth, if_true, Option.bind_some]
  rw [depth_append, hs.depth]
  simp [Spec.depth]

theorem Spec.Closed.plain {s : Str} (h : ∀ c ∈ s, c ≠ 40 ∧ c ≠ 41) : Closed s := by
  have : ∀ d, Spec.depth d s = some d := by
    induction s with
    | nil => intro d; rfl
    | cons c s ih =>
      intro d
      have hc := h c (List.mem_cons_self ..)
      simp only [Spec.depth, if_neg hc.1, if_neg hc.2]
      exact ih (fun x hx => h x (List.mem_cons_of_mem _ hx)) d
  exact this 0

theorem Spec.Closed.flatten {ss : List Str} (h : ∀ s ∈ ss, Closed s) : Closed ss.flatten := by
  induction ss with
  | nil => exact Closed.nil
  | cons s ss ih =>
    rw [List.flatten_cons]
    exact (h s (List.mem_cons_self ..)).append (ih fun x hx => h x (List.mem_cons_of_mem _ hx))

/-- No closed text is a proper beginning of another up to a closing parenthesis. -/
theorem Spec.Closed.split {s s' t t' : Str} (hs : Closed s) (hs' : Closed s') (h : s ++ 41 :: t = s' ++ 41 :: t') : s = s' ∧ t = t' := by
  have key : ∀ {a b u v : Str}, Closed a → Closed b → a ++ 41 :: u = b ++ 41 :: v → ¬ a.length < b.length := by
    intro a b u v ha hb hab hlt
    rw [List.append_eq_append_iff] at hab
    rcases hab with ⟨x, hx, hy⟩ | ⟨x, hx, hy⟩
    · cases x with
      | nil => subst hx; simp at hlt
      | cons y x =>
        simp only [List.cons_append, List.cons.injEq] at hy
        rw [hx, ← hy.1] at hb
        have : Spec.depth 0 (a ++ 41 :: x) = some 0 := hb
        rw [depth_append, ha.depth] at this
        simp [Spec.depth] at this
    · subst hx; simp at hlt; omega
  have h1 := key hs hs' h
  have h2 := key hs' hs h.symm
  have hl : s.length = s'.length := by omega
  obtain ⟨e1, e2⟩ := List.append_inj h hl
  exact ⟨e1, by simpa using e2⟩

/-! ### Marks -/

theorem split_mark {m : UInt8} {s s' t t' : Str} (hs : m ∉ s) (hs' : m ∉ s') (h : s ++ m :: t = s' ++ m :: t') : s = s' ∧ t = t' := by
  have key : ∀ {a b u v : Str}, m ∉ b → a ++ m :: u = b ++ m :: v → ¬ a.length < b.length := by
    intro a b u v hb hab hlt
    rw [List.append_eq_append_iff] at hab
    rcases hab with ⟨x, hx, hy⟩ | ⟨x, hx, hy⟩
    · cases x with
      | nil => subst hx; simp at hlt
      | cons y x =>
        simp only [List.cons_append, List.cons.injEq] at hy
        rw [hx, ← hy.1] at hb
        simp at hb
    · subst hx; simp at hlt; omega
  have h1 := key hs' h
  have h2 := key hs h.symm
  obtain ⟨e1, e2⟩ := List.append_inj h (by omega)
  exact ⟨e1, by simpa using e2⟩

theorem dec_ne_nil (n : Nat) : dec n ≠ [] := by
  unfold dec
  split <;> simp

/-- Numbers are written with digits and a sign. -/
theorem decInt_chars {v : Int} {b : UInt8} (h : b ∈ decInt v) : b = 45 ∨ (48 ≤ b.toNat ∧ b.toNat ≤ 57) := by
  unfold decInt at h
  split at h
  · rcases List.mem_cons.mp h with h | h
    · exact .inl h
    · exact .inr (GoMeta.dec_digit h)
  · exact .inr (GoMeta.dec_digit h)

theorem decInt_no {v : Int} {m : UInt8} (h1 : m ≠ 45) (h2 : m.toNat < 48 ∨ 57 < m.toNat) : m ∉ decInt v := by
  intro h
  rcases decInt_chars h with h | h
  · exact h1 h
  · omega

theorem decInt_inj {a b : Int} (h : decInt a = decInt b) : a = b := by
  have hd : ∀ {n m : Nat}, dec n = dec m → n = m := by
    intro n m e
    rw [← GoMeta.numOf_dec n, ← GoMeta.numOf_dec m, e]
  have hx : ∀ {n m : Nat}, 45 :: dec n ≠ dec m := by
    intro n m e
    have : (45 : UInt8) ∈ dec m := by rw [← e]; simp
    have := GoMeta.dec_digit this
    simp at this
  unfold decInt at h
  split at h <;> split at h
  · simp only [List.cons.injEq, true_and] at h
    have := hd h
    omega
  · exact absurd h hx
  · exact absurd h.symm hx
  · have := hd h
    omega

/-! ### Items -/

/-- The text is empty, closes a parenthesis, or begins with one of the keys. -/
def Starts (ks : List Str) (r : Str) : Prop :=
  r = [] ∨ (∃ t, r = 41 :: t) ∨ ∃ k ∈ ks, ∃ t, r = k ++ 58 :: t

/-- Keys have neither colons nor parentheses, and are not empty. -/
def Key (k : Str) : Prop := (58 : UInt8) ∉ k ∧ (41 : UInt8) ∉ k ∧ (40 : UInt8) ∉ k ∧ k ≠ []
instance (k : Str) : Decidable (Key k) := by unfold Key; infer_instance

theorem Starts.not {ks : List Str} {r : Str} (h : Starts ks r) {k : Str} (hk : Key k) (hks : ∀ x ∈ ks, Key x) (hn : k ∉ ks) (t : Str) : r ≠ k ++ 58 :: t := by
  intro e
  rcases h with rfl | ⟨u, rfl⟩ | ⟨k', hm, u, rfl⟩
  · simp at e
  · cases k with
    | nil => exact hk.2.2.2 rfl
    | cons c k =>
      simp only [List.cons_append, List.cons.injEq] at e
      exact hk.2.1 (by rw [e.1]; simp)
  · have := (split_mark (hks k' hm).1 hk.1 e).1
    subst this
    exact hn hm

theorem Starts.mono {ks ks' : List Str} {r : Str} (h : Starts ks r) (hs : ∀ k ∈ ks, k ∈ ks') : Starts ks' r := by
  rcases h with h | h | ⟨k, hk, t, e⟩
  · exact .inl h
  · exact .inr (.inl h)
  · exact .inr (.inr ⟨k, hs k hk, t, e⟩)

theorem Starts.nil (ks : List Str) : Starts ks [] := .inl rfl
theorem Starts.close (ks : List Str) (t : Str) : Starts ks (41 :: t) := .inr (.inl ⟨t, rfl⟩)

/-- A mandatory or optional item with its key. -/
theorem Starts.item {ks : List Str} {r : Str} (k : Str) (v : Str) : Starts (k :: ks) (k ++ 58 :: v ++ r) :=
  .inr (.inr ⟨k, List.mem_cons_self .., v ++ r, by simp⟩)

theorem Starts.optional {ks : List Str} {r : Str} (k : Str) (a : Option Int) (h : Starts ks r) : Starts (k :: ks) (optional k a ++ r) := by
  cases a with
  | none => exact h.mono fun x hx => List.mem_cons_of_mem _ hx
  | some v => exact .inr (.inr ⟨k, List.mem_cons_self .., decInt v ++ [44] ++ r, by simp [GoDedup.optional]⟩)

/-- An optional number can be read off. -/
theorem optional_inj {ks : List Str} {k : Str} {a b : Option Int} {r r' : Str} (h : optional k a ++ r = optional k b ++ r')
    (hr : Starts ks r) (hr' : Starts ks r') (hk : Key k) (hks : ∀ x ∈ ks, Key x) (hn : k ∉ ks) : a = b ∧ r = r' := by
  cases a with
  | none =>
    cases b with
    | none => exact ⟨rfl, h⟩
    | some v =>
      exfalso
      exact hr.not hk hks hn (decInt v ++ [44] ++ r') (by simpa [optional] using h)
  | some v =>
    cases b with
    | none =>
      exfalso
      exact hr'.not hk hks hn (decInt v ++ [44] ++ r) (by simpa [optional] using h.symm)
    | some v' =>
      simp only [optional, List.append_assoc, List.append_cancel_left_eq, List.cons_append, List.nil_append, List.cons.injEq, true_and] at h
      obtain ⟨e1, e2⟩ := split_mark (decInt_no (by decide) (by decide)) (decInt_no (by decide) (by decide)) h
      exact ⟨by rw [decInt_inj e1], e2⟩

/-- A mandatory number. -/
theorem number_inj {k : Str} {a b : Int} {r r' : Str} (h : optional k (some a) ++ r = optional k (some b) ++ r') : a = b ∧ r = r' := by
  simp only [optional, List.append_assoc, List.append_cancel_left_eq, List.cons_append, List.nil_append, List.cons.injEq, true_and] at h
  obtain ⟨e1, e2⟩ := split_mark (decInt_no (by decide) (by decide)) (decInt_no (by decide) (by decide)) h
  exact ⟨decInt_inj e1, e2⟩

theorem optional_closed {k : Str} (a : Option Int) (hk : Key k) : Closed (optional k a) := by
  cases a with
  | none => exact Closed.nil
  | some v =>
    apply Closed.plain
    intro c hc
    simp only [optional, List.mem_append, List.mem_singleton] at hc
    rcases hc with ((hc | hc) | hc) | hc
    · exact ⟨fun e => hk.2.2.1 (e ▸ hc), fun e => hk.2.1 (e ▸ hc)⟩
    · subst hc; decide
    · exact ⟨fun e => decInt_no (by decide) (by decide) (e ▸ hc), fun e => decInt_no (by decide) (by decide) (e ▸ hc)⟩
    · subst hc; decide

theorem key_closed {k : Str} (hk : Key k) : Closed k :=
  Closed.plain fun _ hc => ⟨fun e => hk.2.2.1 (e ▸ hc), fun e => hk.2.1 (e ▸ hc)⟩

theorem Spec.Plain.closed {s : Str} (h : Plain s) : Closed s := Closed.plain fun c hc => ⟨(h c hc).1, (h c hc).2.1⟩

/-! ### Results -/

theorem Go.bind_ret {α β : Type} {x : Go α} {f : α → Go β} {b : β} : (x >>= f) = Go.ret b ↔ ∃ a, x = Go.ret a ∧ f a = Go.ret b := by
  show Go.bind x f = _ ↔ _
  constructor
  · intro h
    match x, h with
    | .ok (some a), h => exact ⟨a, rfl, h⟩
    | .ok none, h => cases h
    | .abort, h => cases h
    | .ub, h => cases h
    | .hang, h => cases h
  · rintro ⟨a, rfl, h⟩
    exact h

theorem Go.pure_ret {α : Type} {a b : α} : (pure a : Go α) = Go.ret b ↔ a = b := by
  show Go.ret a = Go.ret b ↔ _
  constructor
  · intro h; cases h; rfl
  · rintro rfl; rfl

theorem Go.ret_inj {α : Type} {a b : α} : (Go.ret a : Go α) = Go.ret b ↔ a = b := Go.pure_ret

theorem Go.fail_ne {α : Type} {a : α} : (Go.fail : Go α) ≠ Go.ret a := by intro h; cases h
theorem Go.panic_ne {α : Type} {a : α} : (Go.panic : Go α) ≠ Go.ret a := by intro h; cases h

instance : LawfulMonad Go := LawfulMonad.mk'
  (id_map := by
    intro α x
    match x with
    | .ok (some _) => rfl
    | .ok none => rfl
    | .abort => rfl
    | .ub => rfl
    | .hang => rfl)
  (pure_bind := by intros; rfl)
  (bind_assoc := by
    intro α β γ x f g
    match x with
    | .ok (some _) => rfl
    | .ok none => rfl
    | .abort => rfl
    | .ub => rfl
    | .hang => rfl)

theorem Go.mapM_ret {α β : Type} {f : α → Go β} : ∀ {l : List α} {r : List β}, l.mapM f = Go.ret r ↔ Each (fun a b => f a = Go.ret b) l r
  | [], r => by
    rw [List.mapM_nil, Go.pure_ret]
    constructor
    · rintro rfl; exact .nil
    · intro h; cases h; rfl
  | a :: l, r => by
    rw [List.mapM_cons, Go.bind_ret]
    constructor
    · rintro ⟨b, h1, h2⟩
      rw [Go.bind_ret] at h2
      obtain ⟨bs, h2, h3⟩ := h2
      rw [Go.pure_ret] at h3
      subst h3
      exact .cons h1 (Go.mapM_ret.mp h2)
    · intro h
      cases h with
      | @cons _ b _ bs h1 h2 =>
        exact ⟨b, h1, Go.bind_ret.mpr ⟨bs, Go.mapM_ret.mpr h2, Go.pure_ret.mpr rfl⟩⟩

theorem Spec.Each.imp {α β : Type} {R S : α → β → Prop} {as : List α} {bs : List β} (h : Each R as bs) (hi : ∀ a b, a ∈ as → b ∈ bs → R a b → S a b) : Each S as bs := by
  induction h with
  | nil => exact .nil
  | cons h1 h2 ih =>
    exact .cons (hi _ _ (List.mem_cons_self ..) (List.mem_cons_self ..) h1)
      (ih fun a b ha hb => hi a b (List.mem_cons_of_mem _ ha) (List.mem_cons_of_mem _ hb))

theorem Spec.Each.right {α β : Type} {R : α → β → Prop} {as : List α} {bs : List β} (h : Each R as bs) {b : β} (hb : b ∈ bs) : ∃ a ∈ as, R a b := by
  induction h with
  | nil => cases hb
  | cons h1 h2 ih =>
    rcases List.mem_cons.mp hb with rfl | hb
    · exact ⟨_, List.mem_cons_self .., h1⟩
    · obtain ⟨a, ha, hr⟩ := ih hb
      exact ⟨a, List.mem_cons_of_mem _ ha, hr⟩

end Verif.GoDedup
