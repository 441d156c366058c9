import Verif.Inherit.Lemmas
/-
C117: what a structure takes over from another is in one place under both names.
-/
namespace Verif.Inherit
open Spec

theorem find_item {env : Env} {k : Nat} {p : Name} : ∀ {items : List Item} {ms : List Member}, expandItems (expand env) [] items = some ms →
    Item.inherit k p ∈ items → ∃ n, expand env [] p = some n ∧ ∀ base rel, ∃ off, ∀ q ∈ memPlaces (.union n p n) (base + off), q ∈ listPlaces ms base rel := by
  intro items
  induction items with
  | nil => intro ms _ h; cases h
  | cons a is ih =>
    intro ms h hm
    unfold expandItems at h
    cases ha : expandItem (expand env) [] a with
    | none => simp [ha] at h
    | some m =>
      cases hr : expandItems (expand env) [] is with
      | none => simp [ha, hr] at h
      | some r =>
        simp [ha, hr] at h
        subst h
        rcases List.mem_cons.1 hm with rfl | hm
        · obtain ⟨n, e, rfl⟩ := union_halves ha
          exact ⟨n, e, fun base rel => ⟨_, fun q hq => by simp only [listPlaces, List.mem_append]; exact .inl hq⟩⟩
        · obtain ⟨n, e, hq⟩ := ih hr hm
          refine ⟨n, e, fun base rel => ?_⟩
          obtain ⟨off, ho⟩ := hq base (alignUp rel (memAlign m) + memSize m)
          exact ⟨off, fun q hq => by simp only [listPlaces, List.mem_append]; exact .inr (ho q hq)⟩

/-- **C117.** If a structure takes over another, the other one is complete, there is a member of its name in
the structure, and whatever can be accessed in the other one can be accessed in the structure, with the name
and without it, in the same place: its place in the other one, from the place of the member on. -/
theorem C117_both {env : Env} {x : Name} {items : List Item} {before : Env} (hd : Declared env x items before) {ms : List Member} (hx : expand env [] x = some ms)
    {k : Nat} {p : Name} (hp : Item.inherit k p ∈ items) :
    ∃ n off, expand before [] p = some n ∧ ([p], off) ∈ places ms ∧
      ∀ π o, (π, o) ∈ places n → (π, off + o) ∈ places ms ∧ (p :: π, off + o) ∈ places ms := by
  rw [declared_expand hd] at hx
  obtain ⟨n, e, hq⟩ := find_item hx hp
  obtain ⟨off, ho⟩ := hq 0 0
  rw [Nat.zero_add] at ho
  refine ⟨n, off, e, ?_, fun π o h => ?_⟩
  · exact ho _ (by simp [memPlaces])
  · have hs := listPlaces_shift n 0 0 off _ h
    rw [Nat.add_zero] at hs
    constructor
    · exact ho _ (by simp only [memPlaces, List.mem_append]; exact .inl hs)
    · exact ho _ (by simp only [memPlaces, List.mem_append, List.mem_cons, List.mem_map]; exact .inr (.inr ⟨_, hs, rfl⟩))

theorem head_place {n : List Member} {p : Name} {r : List Member} {q : List Name × Nat} (h : q ∈ memPlaces (.union n p n) 0) : q ∈ places (.union n p n :: r) := by
  unfold places
  simp only [listPlaces, List.mem_append]
  refine .inl ?_
  have : alignUp 0 (memAlign (.union n p n)) = 0 := by
    rw [(union_size n p).2]
    unfold alignUp
    rw [Nat.div_eq_of_lt (by have := align_pos n; omega)]
    simp
  rw [this]; exact h

/-- **C117.** What is taken over first is at the beginning: a pointer to the structure is one to the other. -/
theorem C117_first {env : Env} {x : Name} {k : Nat} {p : Name} {items : List Item} {before : Env} (hd : Declared env x (.inherit k p :: items) before)
    {ms : List Member} (hx : expand env [] x = some ms) :
    ∃ n, expand before [] p = some n ∧ ([p], 0) ∈ places ms ∧ ∀ π o, (π, o) ∈ places n → (π, o) ∈ places ms ∧ (p :: π, o) ∈ places ms := by
  rw [declared_expand hd] at hx
  unfold expandItems at hx
  cases ha : expandItem (expand before) [] (.inherit k p) with
  | none => simp [ha] at hx
  | some m =>
    cases hr : expandItems (expand before) [] items with
    | none => simp [ha, hr] at hx
    | some r =>
      simp [ha, hr] at hx
      subst hx
      obtain ⟨n, e, rfl⟩ := union_halves ha
      refine ⟨n, e, head_place (by simp [memPlaces]), fun π o h => ⟨head_place ?_, head_place ?_⟩⟩
      · simp only [memPlaces, List.mem_append]; exact .inl h
      · simp only [memPlaces, List.mem_append, List.mem_cons, List.mem_map]; exact .inr (.inr ⟨_, h, rfl⟩)

/-- **C117.** The second name costs nothing: the structure is as large, as aligned, and its own members are
where they are, as with one plain member for each one taken over. -/
theorem C117_size {env : Env} {x : Name} {items : List Item} {before : Env} (hd : Declared env x items before) {ms : List Member} (hx : expand env [] x = some ms)
    (sizeOf alignOf : Name → Nat) (hs : ∀ p n, expand before [] p = some n → sizeOf p = size n ∧ alignOf p = align n) :
    size ms = size (items.map (plain sizeOf alignOf)) ∧ align ms = align (items.map (plain sizeOf alignOf)) ∧
    ∀ q ∈ places (items.map (plain sizeOf alignOf)), q ∈ places ms := by
  rw [declared_expand hd] at hx
  have key : ∀ {is : List Item} {ms : List Member}, expandItems (expand before) [] is = some ms →
      align ms = align (is.map (plain sizeOf alignOf)) ∧ (∀ o, fill ms o = fill (is.map (plain sizeOf alignOf)) o) ∧
      ∀ base rel, ∀ q ∈ listPlaces (is.map (plain sizeOf alignOf)) base rel, q ∈ listPlaces ms base rel := by
    intro is
    induction is with
    | nil =>
      intro ms h
      obtain rfl := Option.some.inj h
      exact ⟨rfl, fun _ => rfl, fun _ _ _ h => h⟩
    | cons a is ih =>
      intro ms h
      unfold expandItems at h
      cases ha : expandItem (expand before) [] a with
      | none => simp [ha] at h
      | some m =>
        cases hr : expandItems (expand before) [] is with
        | none => simp [ha, hr] at h
        | some r =>
          simp [ha, hr] at h
          subst h
          obtain ⟨h1, h2, h3⟩ := ih hr
          have hm : memAlign m = memAlign (plain sizeOf alignOf a) ∧ memSize m = memSize (plain sizeOf alignOf a) ∧
              ∀ o, ∀ q ∈ memPlaces (plain sizeOf alignOf a) o, q ∈ memPlaces m o := by
            cases a with
            | field n s l => obtain rfl := Option.some.inj ha; exact ⟨rfl, rfl, fun _ _ h => h⟩
            | inherit k p =>
              obtain ⟨n, e, rfl⟩ := union_halves ha
              obtain ⟨e1, e2⟩ := hs p n e
              obtain ⟨u1, u2⟩ := union_size n p
              refine ⟨by rw [u2, ← e2]; simp [plain, memAlign], by rw [u1, ← e1]; simp [plain, memSize], fun o q hq => ?_⟩
              simp only [plain, memPlaces, List.mem_singleton] at hq
              subst hq
              simp [memPlaces]
          obtain ⟨m1, m2, m3⟩ := hm
          refine ⟨by simp [align, m1, h1], fun o => by simp [fill, m1, m2, h2], fun base rel q hq => ?_⟩
          simp only [List.map_cons, listPlaces, List.mem_append, ← m1, ← m2] at hq ⊢
          rcases hq with hq | hq
          · exact .inl (m3 _ q hq)
          · exact .inr (h3 _ _ q hq)
  obtain ⟨h1, h2, h3⟩ := key hx
  exact ⟨by unfold size; rw [h1, h2], h1, h3 0 0⟩

/-- **C117.** The compiler accepts a structure exactly if all that it takes over has been declared before, and
on no way up from it a macro is used twice (or one that there is not). -/
theorem C117_levels (env : Env) (x : Name) :
    (∃ ms, expand env [] x = some ms) ↔ Complete env x ∧ ∀ ks, Way env x ks → ks.Nodup ∧ ∀ k ∈ ks, k < 7 := by
  have fwd : ∀ (l : Nat) (env : Env), env.length ≤ l → ∀ hid x ms, expand env hid x = some ms →
      Complete env x ∧ ∀ ks, Way env x ks → ks.Nodup ∧ ∀ k ∈ ks, k < 7 ∧ k ∉ hid := by
    intro l
    induction l with
    | zero =>
      intro env hl hid x ms h
      rw [List.length_eq_zero_iff.1 (Nat.le_zero.1 hl)] at h
      cases h
    | succ l ih =>
      intro env hl hid x ms h
      obtain ⟨items, before, hd⟩ := expand_declared h
      have hb := declared_length hd
      rw [declared_expand hd] at h
      have hi := items_some h
      have hup : ∀ k p, Item.inherit k p ∈ items → k < 7 ∧ k ∉ hid ∧ ∃ a, expand before (k :: hid) p = some a := by
        intro k p hp
        obtain ⟨m, hm⟩ := hi _ hp
        obtain ⟨h7, hk, a, n, e1, _⟩ := item_inherit hm
        exact ⟨h7, hk, a, e1⟩
      refine ⟨.intro hd fun k p hp => ?_, fun ks hw => ?_⟩
      · obtain ⟨_, _, a, e⟩ := hup k p hp
        exact (ih before (by omega) _ p a e).1
      · cases hw with
        | stop => simp
        | up hd' hp hw =>
          obtain ⟨rfl, rfl⟩ := declared_unique hd hd'
          obtain ⟨h7, hk, a, e⟩ := hup _ _ hp
          obtain ⟨n1, n2⟩ := (ih before (by omega) _ _ a e).2 _ hw
          refine ⟨List.nodup_cons.2 ⟨fun hin => (n2 _ hin).2 (by simp), n1⟩, fun j hj => ?_⟩
          rcases List.mem_cons.1 hj with rfl | hj
          · exact ⟨h7, hk⟩
          · exact ⟨(n2 j hj).1, fun hh => (n2 j hj).2 (by simp [hh])⟩
  have bwd : ∀ {env : Env} {x : Name}, Complete env x → ∀ hid, (∀ ks, Way env x ks → ks.Nodup ∧ ∀ k ∈ ks, k < 7 ∧ k ∉ hid) → ∃ ms, expand env hid x = some ms := by
    intro env x hc
    induction hc with
    | @intro env x items before hd _ ih =>
      intro hid hw
      rw [declared_expand hd]
      refine some_items fun i hi => ?_
      cases i with
      | field n s a => exact ⟨_, rfl⟩
      | inherit k p =>
        have h1 := hw [k] (.up hd hi .stop)
        have hk := h1.2 k (by simp)
        obtain ⟨a, ea⟩ := ih k p hi (k :: hid) fun ks hks => by
          obtain ⟨n1, n2⟩ := hw (k :: ks) (.up hd hi hks)
          rw [List.nodup_cons] at n1
          refine ⟨n1.2, fun j hj => ⟨(n2 j (by simp [hj])).1, ?_⟩⟩
          rintro hh
          rcases List.mem_cons.1 hh with rfl | hh
          · exact n1.1 hj
          · exact (n2 j (by simp [hj])).2 hh
        have en := expand_hidden before (hid' := []) (by simp) ea
        exact ⟨.union a p a, by simp [expandItem, hk.1, hk.2, ea, en]⟩
  constructor
  · rintro ⟨ms, h⟩
    obtain ⟨h1, h2⟩ := fwd env.length env (Nat.le_refl _) [] x ms h
    exact ⟨h1, fun ks hw => ⟨(h2 ks hw).1, fun k hk => ((h2 ks hw).2 k hk).1⟩⟩
  · rintro ⟨hc, hw⟩
    exact bwd hc [] fun ks h => ⟨(hw ks h).1, fun k hk => ⟨(hw ks h).2 k hk, by simp⟩⟩

theorem nodup_small : ∀ (n : Nat) (l : List Nat), l.Nodup → (∀ k ∈ l, k < n) → l.length ≤ n := by
  intro n
  induction n with
  | zero =>
    intro l _ h
    cases l with
    | nil => simp
    | cons a l => exact absurd (h a (by simp)) (by omega)
  | succ n ih =>
    intro l hn h
    have := ih (l.erase n) (hn.erase n) fun k hk => by
      have h1 := h k (List.mem_of_mem_erase hk)
      have h2 : k ≠ n := by
        rintro rfl
        exact (hn.not_mem_erase) hk
      omega
    rw [List.length_erase] at this
    split at this <;> omega

/-- **C117.** There are at most seven layers above a structure. -/
theorem C117_layers {env : Env} {x : Name} {ms : List Member} (h : expand env [] x = some ms) {ks : List Nat} (hw : Way env x ks) : ks.length ≤ 7 := by
  obtain ⟨h1, h2⟩ := ((C117_levels env x).1 ⟨ms, h⟩).2 ks hw
  exact nodup_small 7 ks h1 h2

/-! Concrete cases. -/

/-- A structure that takes over two, one of which takes over another. -/
def family : Env := [
  ("child", [.field "tag" 1 1, .inherit 1 "common", .inherit 1 "other", .field "specific" 8 8]),
  ("other", [.field "o" 2 2]),
  ("common", [.inherit 0 "root", .field "c" 4 4]),
  ("root", [.field "r" 8 8, .field "s" 1 1])]

theorem case117 : Declared family "child" [.field "tag" 1 1, .inherit 1 "common", .inherit 1 "other", .field "specific" 8 8] (family.drop 1) ∧
    (expand family [] "child").map (fun ms => (size ms, align ms, places ms)) =
      some (48, 8, [(["tag"], 0), (["r"], 8), (["s"], 16), (["root"], 8), (["root", "r"], 8), (["root", "s"], 16), (["c"], 24), (["common"], 8),
        (["common", "r"], 8), (["common", "s"], 16), (["common", "root"], 8), (["common", "root", "r"], 8), (["common", "root", "s"], 16),
        (["common", "c"], 24), (["o"], 32), (["other"], 32), (["other", "o"], 32), (["specific"], 40)]) :=
  ⟨.here, by decide +kernel⟩

/-- The same macro for parent and grandparent. -/
example : (expand [("c", [.inherit 0 "b"]), ("b", [.inherit 0 "a"]), ("a", [.field "r" 8 8])] [] "c").isNone = true := by decide +kernel

end Verif.Inherit
