import Verif.Inherit.Spec
/-
Lemmas for inheritance emulation.
-/
namespace Verif.Inherit
open Spec

theorem declared_expand {env : Env} {x : Name} {items : List Item} {before : Env} (h : Declared env x items before) (hid : List Nat) :
    expand env hid x = expandItems (expand before) hid items := by
  induction h with
  | here => simp [expand]
  | there hne _ ih => simp [expand, hne, ih]

theorem expand_declared {env : Env} {hid : List Nat} {x : Name} {ms : List Member} (h : expand env hid x = some ms) :
    ∃ items before, Declared env x items before := by
  induction env with
  | nil => cases h
  | cons a env ih =>
    obtain ⟨y, items⟩ := a
    unfold expand at h
    split at h
    · next he => subst he; exact ⟨_, _, .here⟩
    · next hne => obtain ⟨i, b, hd⟩ := ih h; exact ⟨i, b, .there hne hd⟩

theorem declared_unique {env : Env} {x : Name} {i i' : List Item} {b b' : Env} (h : Declared env x i b) (h' : Declared env x i' b') : i = i' ∧ b = b' := by
  induction h with
  | here => cases h' with
    | here => exact ⟨rfl, rfl⟩
    | there hne _ => exact absurd rfl hne
  | there hne _ ih => cases h' with
    | here => exact absurd rfl hne
    | there _ h' => exact ih h'

theorem declared_length {env : Env} {x : Name} {i : List Item} {b : Env} (h : Declared env x i b) : b.length < env.length := by
  induction h with
  | here => simp
  | there _ _ ih => simp; omega

/-- If items can be replaced, each of them is. -/
theorem items_some {ex : List Nat → Name → Option (List Member)} {hid : List Nat} {is : List Item} {ms : List Member}
    (h : expandItems ex hid is = some ms) : ∀ i ∈ is, ∃ m, expandItem ex hid i = some m := by
  induction is generalizing ms with
  | nil => intro i hi; cases hi
  | cons a is ih =>
    unfold expandItems at h
    cases ha : expandItem ex hid a with
    | none => simp [ha] at h
    | some m =>
      cases hr : expandItems ex hid is with
      | none => simp [ha, hr] at h
      | some r =>
        intro i hi
        rcases List.mem_cons.1 hi with rfl | hi
        · exact ⟨m, ha⟩
        · exact ih hr i hi

theorem some_items {ex : List Nat → Name → Option (List Member)} {hid : List Nat} {is : List Item}
    (h : ∀ i ∈ is, ∃ m, expandItem ex hid i = some m) : ∃ ms, expandItems ex hid is = some ms := by
  induction is with
  | nil => exact ⟨[], rfl⟩
  | cons a is ih =>
    obtain ⟨m, hm⟩ := h a (by simp)
    obtain ⟨r, hr⟩ := ih fun i hi => h i (by simp [hi])
    exact ⟨m :: r, by simp [expandItems, hm, hr]⟩

theorem item_inherit {ex : List Nat → Name → Option (List Member)} {hid : List Nat} {k : Nat} {p : Name} {m : Member}
    (h : expandItem ex hid (.inherit k p) = some m) :
    k < 7 ∧ k ∉ hid ∧ ∃ a n, ex (k :: hid) p = some a ∧ ex [] p = some n ∧ m = .union a p n := by
  simp only [expandItem] at h
  split at h
  · next hk =>
    cases ha : ex (k :: hid) p with
    | none => simp [ha] at h
    | some a =>
      cases hn : ex [] p with
      | none => simp [ha, hn] at h
      | some n => simp [ha, hn] at h; exact ⟨hk.1, hk.2, a, n, rfl, rfl, h.symm⟩
  · cases h

/-- The members do not depend on the macros that are being rescanned. -/
theorem items_hidden {ex : List Nat → Name → Option (List Member)} (hex : ∀ h h' p m, (∀ k ∈ h', k ∈ h) → ex h p = some m → ex h' p = some m) {hid hid' : List Nat} (hs : ∀ k ∈ hid', k ∈ hid) :
    ∀ {is : List Item} {ms : List Member}, expandItems ex hid is = some ms → expandItems ex hid' is = some ms := by
  intro is
  induction is with
  | nil => intro ms h; exact h
  | cons a is ih =>
    intro ms h
    unfold expandItems at h
    cases ha : expandItem ex hid a with
    | none => simp [ha] at h
    | some m =>
      cases hr : expandItems ex hid is with
      | none => simp [ha, hr] at h
      | some r =>
        have e : expandItem ex hid' a = some m := by
          cases a with
          | field n s l => exact ha
          | inherit k p =>
            obtain ⟨h7, hk, an, nm, e1, e2, rfl⟩ := item_inherit ha
            have e3 := hex (k :: hid) (k :: hid') p an (by
              intro j hj
              rcases List.mem_cons.1 hj with rfl | hj
              · simp
              · simp [hs j hj]) e1
            have hk' : k ∉ hid' := fun hj => hk (hs k hj)
            simp [expandItem, h7, hk', e3, e2]
        simp [ha, hr] at h
        simp [expandItems, e, ih hr, h]

theorem expand_hidden (env : Env) : ∀ {hid hid' : List Nat} {x : Name} {ms : List Member}, (∀ k ∈ hid', k ∈ hid) → expand env hid x = some ms → expand env hid' x = some ms := by
  induction env with
  | nil => intro _ _ _ _ _ h; cases h
  | cons a env ih =>
    obtain ⟨y, items⟩ := a
    intro hid hid' x ms hs h
    unfold expand at h ⊢
    split at h
    · next he =>
      rw [if_pos he]
      exact items_hidden (ex := expand env) (fun h h' p m hs e => ih hs e) hs h
    · next hne => rw [if_neg hne]; exact ih hs h

/-- Both halves of the union are the same structure. -/
theorem union_halves {env : Env} {hid : List Nat} {k : Nat} {p : Name} {m : Member} (h : expandItem (expand env) hid (.inherit k p) = some m) :
    ∃ n, expand env [] p = some n ∧ m = .union n p n := by
  obtain ⟨_, _, a, n, e1, e2, rfl⟩ := item_inherit h
  have := expand_hidden env (hid' := []) (by simp) e1
  rw [e2] at this
  obtain rfl := Option.some.inj this
  exact ⟨n, e2, rfl⟩

theorem align_pos (ms : List Member) : 0 < align ms := by
  cases ms with
  | nil => simp [align]
  | cons m ms =>
    have := align_pos ms
    simp only [align]; omega

theorem alignUp_twice {o a : Nat} (h : 0 < a) : alignUp (alignUp o a) a = alignUp o a := by
  unfold alignUp
  generalize (o + (a - 1)) / a = q
  rw [Nat.add_comm (q * a), Nat.add_mul_div_right _ _ h, Nat.div_eq_of_lt (by omega), Nat.zero_add]

theorem union_size (ms : List Member) (p : Name) : memSize (.union ms p ms) = size ms ∧ memAlign (.union ms p ms) = align ms := by
  constructor
  · simp only [memSize, Nat.max_self, size]
    exact alignUp_twice (align_pos ms)
  · simp [memAlign]

mutual
theorem memPlaces_shift (m : Member) (o d : Nat) (q : List Name × Nat) (h : q ∈ memPlaces m o) : (q.1, d + q.2) ∈ memPlaces m (d + o) := by
  match m with
  | .field n s a =>
    simp only [memPlaces, List.mem_singleton] at h ⊢
    subst h; rfl
  | .union an p nm =>
    simp only [memPlaces, List.mem_append, List.mem_cons, List.mem_map] at h ⊢
    rcases h with h | rfl | ⟨r, hr, rfl⟩
    · exact .inl (listPlaces_shift an o 0 d q h)
    · exact .inr (.inl rfl)
    · exact .inr (.inr ⟨(r.1, d + r.2), listPlaces_shift nm o 0 d r hr, rfl⟩)
theorem listPlaces_shift (ms : List Member) (base rel d : Nat) (q : List Name × Nat) (h : q ∈ listPlaces ms base rel) : (q.1, d + q.2) ∈ listPlaces ms (d + base) rel := by
  match ms with
  | [] => cases h
  | m :: ms =>
    simp only [listPlaces, List.mem_append] at h ⊢
    rcases h with h | h
    · exact .inl (by rw [Nat.add_assoc]; exact memPlaces_shift m _ d q h)
    · exact .inr (listPlaces_shift ms base _ d q h)
end

end Verif.Inherit
