import Verif.TagMap.Spec
import Verif.Entry.Lemmas
import Verif.ParamStorage.Lemmas
namespace Verif.TagMap
open Verif Verif.Entry Verif.Entry.Spec Verif.TagMap.Spec Verif.ParamStorage

/-! ### Lookup -/

theorem get_some {map : List (Ref × STag)} {r : Ref} {s : STag} (h : get map r = some s) : (r, s) ∈ map := by
  induction map with
  | nil => simp [get] at h
  | cons e m ih =>
    obtain ⟨k, s'⟩ := e
    simp only [get] at h
    split at h
    · rename_i hk; cases h; subst hk; exact List.mem_cons_self ..
    · exact List.mem_cons_of_mem _ (ih h)

theorem get_none {map : List (Ref × STag)} {r : Ref} (h : get map r = none) : ∀ s, (r, s) ∉ map := by
  induction map with
  | nil => simp
  | cons e m ih =>
    obtain ⟨k, s'⟩ := e
    simp only [get] at h
    split at h
    · simp at h
    · rename_i hk
      intro s hm
      rcases List.mem_cons.1 hm with he | hm
      · cases he; exact hk rfl
      · exact ih h s hm

theorem and_bit (mask i : Nat) : mask &&& (1 <<< i) = 0 ↔ mask.testBit i = false := by
  rw [Nat.shiftLeft_eq, Nat.one_mul]
  constructor
  · intro h
    have := congrArg (fun n => Nat.testBit n i) h
    simpa [Nat.testBit_and, Nat.testBit_two_pow_self] using this
  · intro h
    apply Nat.eq_of_testBit_eq
    intro j
    rw [Nat.testBit_and, Nat.testBit_two_pow, Nat.zero_testBit]
    by_cases hj : i = j
    · subst hj; simp [h]
    · simp [hj]

theorem applies_iff (db : Db) (r : Ref) (mask : Nat) : Applies db r mask ↔ mask &&& kindMask (kind db (some r)) ≠ 0 := by
  have var : ∀ t, (db r).info = .var t → (Applies db r mask ↔ mask &&& kindMask (kind db (some r)) ≠ 0) := by
    intro t ht
    have e : kindMask (kind db (some r)) = 1 <<< 0 := by simp [kind, ht, kindOf, kindMask]
    rw [e, Ne, and_bit]
    constructor
    · intro h; cases h <;> rename_i h1 h2 <;> simp_all
    · intro h; exact .var ht (by simpa using h)
  have param : ∀ u t, (db r).info = .param u t → (Applies db r mask ↔ mask &&& kindMask (kind db (some r)) ≠ 0) := by
    intro u t ht
    have e : kindMask (kind db (some r)) = 1 <<< 1 := by simp [kind, ht, kindOf, kindMask]
    rw [e, Ne, and_bit]
    constructor
    · intro h; cases h <;> rename_i h1 h2 <;> simp_all
    · intro h; exact .param ht (by simpa using h)
  have member : ∀ i, (db r).info = .member i → (Applies db r mask ↔ mask &&& kindMask (kind db (some r)) ≠ 0) := by
    intro t ht
    have e : kindMask (kind db (some r)) = 1 <<< 2 := by simp [kind, ht, kindOf, kindMask]
    rw [e, Ne, and_bit]
    constructor
    · intro h; cases h <;> rename_i h1 h2 <;> simp_all
    · intro h; exact .member ht (by simpa using h)
  by_cases h : (∃ t, (db r).info = .var t) ∨ (∃ u t, (db r).info = .param u t) ∨ (∃ i, (db r).info = .member i)
  · rcases h with ⟨t, h⟩ | ⟨u, t, h⟩ | ⟨i, h⟩
    · exact var _ h
    · exact param _ _ h
    · exact member _ h
  · have e : kindMask (kind db (some r)) = 0 := by
      cases hi : (db r).info with
      | var t => exact absurd (.inl ⟨_, hi⟩) h
      | param u t => exact absurd (.inr (.inl ⟨_, _, hi⟩)) h
      | member i => exact absurd (.inr (.inr ⟨_, hi⟩)) h
      | qual q t => cases q <;> simp [kind, hi, kindOf, kindMask]
      | struct k n ms => cases k <;> simp [kind, hi, kindOf, kindMask]
      | reference v n t => cases v <;> simp [kind, hi, kindOf, kindMask]
      | _ => simp [kind, hi, kindOf, kindMask]
    rw [e]
    simp only [Nat.and_zero, ne_eq, not_true_eq_false, iff_false]
    intro ha
    cases ha with
    | var h1 => exact h (.inl ⟨_, h1⟩)
    | param h1 => exact h (.inr (.inl ⟨_, _, h1⟩))
    | member h1 => exact h (.inr (.inr ⟨_, h1⟩))

/-- What an applicable own category answers. -/
theorem own_knows {db : Db} {r : Ref} (ha : Acyclic db r) (mask : Nat) (map : List (Ref × STag)) :
    (∃ s, get map r = some s ∧ Knows db r mask map s) ∨
    (get map r = none ∧ ∃ s, finalTag db (some r) mask map = .ok (some s) ∧ Knows db r mask map s) ∨
    (get map r = none ∧ finalTag db (some r) mask map = .ok none ∧ ∀ s, ¬ Knows db r mask map s) := by
  cases hg : get map r with
  | some s => exact .inl ⟨s, rfl, .entry (get_some hg)⟩
  | none =>
    right
    have hn := get_none hg
    obtain ⟨f, qs, hf⟩ := final_exists ha
    unfold finalTag
    by_cases hb : mask &&& finalMask = 0
    · right
      refine ⟨rfl, by simp [hb], fun s hs => ?_⟩
      cases hs with
      | entry h => exact hn _ h
      | final _ h => rw [finalMask, and_bit] at hb; simp [hb] at h
    · have hb' : mask.testBit 3 = true := by
        rw [finalMask, and_bit] at hb; simpa using hb
      have uniq : ∀ f' qs', Final db r (some f') qs' → f = some f' := by
        intro f' qs' h'
        have e1 := final_entry hf
        have e2 := final_entry h'
        rw [e1] at e2
        simp only [Option.some.injEq, Prod.mk.injEq] at e2
        exact e2.1
      simp only [hb, ne_eq, not_false_eq_true, if_true, final_entry hf, Outcome.ofLoop_some, Outcome.bind_ok, Outcome.pure_eq]
      cases f with
      | none =>
        right
        refine ⟨trivial, rfl, fun s hs => ?_⟩
        cases hs with
        | entry h => exact hn _ h
        | final _ _ h => exact absurd (uniq _ _ h) (by simp)
      | some f =>
        cases hgf : get map f with
        | some s => exact .inl ⟨trivial, s, by show Outcome.ok (get map f) = _; rw [hgf], .final hn hb' hf (get_some hgf)⟩
        | none =>
          right
          refine ⟨trivial, by show Outcome.ok (get map f) = _; rw [hgf], fun s hs => ?_⟩
          cases hs with
          | entry h => exact hn _ h
          | final _ _ h hm =>
            have := uniq _ _ h
            simp only [Option.some.injEq] at this
            subst this
            exact get_none hgf _ hm

mutual
theorem tagOf_spec {db : Db} {r : Ref} (ha : Acyclic db r) (m : TagMap) :
    (∃ t, tagOf db (some r) m = .ok t ∧ Gives db r m t) ∨ (tagOf db (some r) m = .abort ∧ Miss db r m) := by
  obtain ⟨b, cb, cats, d⟩ := m
  rw [tagOf]
  rcases searchCats_spec ha cats with ⟨s, h1, h2⟩ | ⟨h1, h2⟩ | ⟨h1, h2⟩
  · rw [h1]; exact .inl ⟨_, rfl, .category h2⟩
  · rw [h1]; exact .inl ⟨_, rfl, .default h2⟩
  · rw [h1]; exact .inr ⟨rfl, .mk h2⟩
theorem searchCats_spec {db : Db} {r : Ref} (ha : Acyclic db r) (cats : Cats) :
    (∃ s, searchCats db (some r) cats = .ok (some s) ∧ First db r cats s) ∨
    (searchCats db (some r) cats = .ok none ∧ Silent db r cats) ∨
    (searchCats db (some r) cats = .abort ∧ MissCats db r cats) := by
  cases cats with
  | nil => rw [searchCats]; exact .inr (.inl ⟨rfl, .nil⟩)
  | own mask hm map rest =>
    rw [searchCats]
    by_cases hk : mask &&& kindMask (kind db (some r)) = 0
    · have hn : ¬ Applies db r mask := by rw [applies_iff]; simpa using hk
      rw [if_pos hk]
      rcases searchCats_spec ha rest with ⟨s, h1, h2⟩ | ⟨h1, h2⟩ | ⟨h1, h2⟩
      · exact .inl ⟨s, h1, .laterOwn (fun h => absurd h hn) h2⟩
      · exact .inr (.inl ⟨h1, .own (fun h => absurd h hn) h2⟩)
      · exact .inr (.inr ⟨h1, .laterOwn (fun h => absurd h hn) h2⟩)
    · have hy : Applies db r mask := by rw [applies_iff]; exact hk
      rw [if_neg hk]
      rcases own_knows ha mask map with ⟨s, h1, h2⟩ | ⟨h0, s, h1, h2⟩ | ⟨h0, h1, h2⟩
      · simp only [getP, h1]; exact .inl ⟨s, rfl, .own hy h2⟩
      · simp only [getP, h0, h1]; exact .inl ⟨s, rfl, .own hy h2⟩
      · simp only [getP, h0, h1, Outcome.bind_ok]
        rcases searchCats_spec ha rest with ⟨s, h3, h4⟩ | ⟨h3, h4⟩ | ⟨h3, h4⟩
        · exact .inl ⟨s, h3, .laterOwn (fun _ => h2) h4⟩
        · exact .inr (.inl ⟨h3, .own (fun _ => h2) h4⟩)
        · exact .inr (.inr ⟨h3, .laterOwn (fun _ => h2) h4⟩)
  | ext mask m rest =>
    rw [searchCats]
    by_cases hk : mask &&& kindMask (kind db (some r)) = 0
    · have hn : ¬ Applies db r mask := by rw [applies_iff]; simpa using hk
      rw [if_pos hk]
      rcases searchCats_spec ha rest with ⟨s, h1, h2⟩ | ⟨h1, h2⟩ | ⟨h1, h2⟩
      · exact .inl ⟨s, h1, .skipExt hn h2⟩
      · exact .inr (.inl ⟨h1, .skipExt hn h2⟩)
      · exact .inr (.inr ⟨h1, .laterExt hn h2⟩)
    · have hy : Applies db r mask := by rw [applies_iff]; exact hk
      rw [if_neg hk]
      rcases tagOf_spec ha m with ⟨t, h1, h2⟩ | ⟨h1, h2⟩
      · cases t with
        | some s => rw [h1]; exact .inl ⟨s, rfl, .ext hy h2⟩
        | none => rw [h1]; exact .inr (.inr ⟨rfl, .here hy h2⟩)
      · rw [h1]; exact .inr (.inr ⟨rfl, .inside hy h2⟩)
end

/-! ### The specification determines the answer -/

theorem mem_unique {map : List (Ref × STag)} (hn : (map.map Prod.fst).Nodup) {r : Ref} {s s' : STag}
    (h : (r, s) ∈ map) (h' : (r, s') ∈ map) : s = s' := by
  induction map with
  | nil => simp at h
  | cons e m ih =>
    simp only [List.map_cons, List.nodup_cons, List.mem_map, not_exists, not_and] at hn
    rcases List.mem_cons.1 h with rfl | h1 <;> rcases List.mem_cons.1 h' with h2 | h2
    · cases h2; rfl
    · exact absurd rfl (hn.1 (_, s') h2)
    · subst h2; exact absurd rfl (hn.1 (_, s) h1)
    · exact ih hn.2 h1 h2

theorem Knows_unique {db : Db} {r : Ref} {mask : Nat} {map : List (Ref × STag)} (hn : (map.map Prod.fst).Nodup) {s s' : STag}
    (h : Knows db r mask map s) (h' : Knows db r mask map s') : s = s' := by
  cases h with
  | entry h1 =>
    cases h' with
    | entry h2 => exact mem_unique hn h1 h2
    | final h2 => exact absurd h1 (h2 _)
  | final n1 _ f1 m1 =>
    cases h' with
    | entry h2 => exact absurd h2 (n1 _)
    | final _ _ f2 m2 =>
      have e1 := final_entry f1
      rw [final_entry f2] at e1
      simp only [Option.some.injEq, Prod.mk.injEq] at e1
      obtain ⟨rfl, _⟩ := e1
      exact mem_unique hn m1 m2

mutual
theorem Gives_unique {db : Db} {r : Ref} (m : TagMap) (hd : Distinct m) {t t' : Option STag}
    (h : Gives db r m t) (h' : Gives db r m t') : t = t' := by
  obtain ⟨b, cb, cats, d⟩ := m
  rw [Distinct] at hd
  cases h with
  | category h1 =>
    cases h' with
    | category h2 => rw [(First_unique cats hd).1 h1 h2]
    | default h2 => exact ((First_unique cats hd).2 h1 h2).elim
  | default h1 =>
    cases h' with
    | category h2 => exact ((First_unique cats hd).2 h2 h1).elim
    | default h2 => rfl
theorem First_unique {db : Db} {r : Ref} (cats : Cats) (hd : DistinctCats cats) :
    (∀ {s s'}, First db r cats s → First db r cats s' → s = s') ∧ (∀ {s}, First db r cats s → Silent db r cats → False) := by
  cases cats with
  | nil => exact ⟨(by intro s s' h; cases h), (by intro s h; cases h)⟩
  | own mask hm map rest =>
    rw [DistinctCats] at hd
    have ih := First_unique (db := db) (r := r) rest hd.2
    refine ⟨?_, ?_⟩
    · intro s s' h h'
      cases h with
      | own a1 k1 =>
        cases h' with
        | own a2 k2 => exact Knows_unique hd.1 k1 k2
        | laterOwn n2 _ => exact absurd k1 (n2 a1 _)
      | laterOwn n1 f1 =>
        cases h' with
        | own a2 k2 => exact absurd k2 (n1 a2 _)
        | laterOwn _ f2 => exact ih.1 f1 f2
    · intro s h h'
      cases h' with
      | own n2 s2 =>
        cases h with
        | own a1 k1 => exact absurd k1 (n2 a1 _)
        | laterOwn _ f1 => exact ih.2 f1 s2
  | ext mask m rest =>
    rw [DistinctCats] at hd
    have ih := First_unique (db := db) (r := r) rest hd.2
    have im := fun {t t'} => Gives_unique (db := db) (r := r) m hd.1 (t := t) (t' := t')
    refine ⟨?_, ?_⟩
    · intro s s' h h'
      cases h with
      | ext a1 g1 =>
        cases h' with
        | ext a2 g2 => have := im g1 g2; simpa using this
        | skipExt n2 _ => exact absurd a1 n2
        | laterExt g2 _ => have := im g1 g2; simp at this
      | skipExt n1 f1 =>
        cases h' with
        | ext a2 g2 => exact absurd a2 n1
        | skipExt _ f2 => exact ih.1 f1 f2
        | laterExt _ f2 => exact ih.1 f1 f2
      | laterExt g1 f1 =>
        cases h' with
        | ext a2 g2 => have := im g1 g2; simp at this
        | skipExt _ f2 => exact ih.1 f1 f2
        | laterExt _ f2 => exact ih.1 f1 f2
    · intro s h h'
      have hs : Silent db r rest := by cases h' <;> assumption
      cases h with
      | ext a1 g1 =>
        cases h' with
        | skipExt n2 _ => exact absurd a1 n2
        | ext g2 _ => have := im g1 g2; simp at this
      | skipExt _ f1 => exact ih.2 f1 hs
      | laterExt _ f1 => exact ih.2 f1 hs
end

mutual
theorem miss_aborts {db : Db} {r : Ref} (ha : Acyclic db r) (m : TagMap) (hd : Distinct m) (h : Miss db r m) : tagOf db (some r) m = .abort := by
  obtain ⟨b, cb, cats, d⟩ := m
  rw [Distinct] at hd
  cases h with
  | mk h => rw [tagOf, missCats_aborts ha cats hd h]; rfl
theorem missCats_aborts {db : Db} {r : Ref} (ha : Acyclic db r) (cats : Cats) (hd : DistinctCats cats) (h : MissCats db r cats) :
    searchCats db (some r) cats = .abort := by
  cases cats with
  | nil => cases h
  | own mask hm map rest =>
    rw [DistinctCats] at hd
    cases h with
    | laterOwn n h =>
      rw [searchCats, missCats_aborts ha rest hd.2 h]
      by_cases hk : mask &&& kindMask (kind db (some r)) = 0
      · rw [if_pos hk]
      · rw [if_neg hk]
        have hy : Applies db r mask := by rw [applies_iff]; exact hk
        rcases own_knows ha mask map with ⟨s, h1, h2⟩ | ⟨h0, s, h1, h2⟩ | ⟨h0, h1, h2⟩
        · exact absurd h2 (n hy _)
        · exact absurd h2 (n hy _)
        · simp only [getP, h0, h1, Outcome.bind_ok]
  | ext mask m rest =>
    rw [DistinctCats] at hd
    rw [searchCats]
    cases h with
    | here a g =>
      rw [if_neg (by rwa [applies_iff] at a)]
      rcases tagOf_spec ha m with ⟨t, h1, h2⟩ | ⟨h1, h2⟩
      · rw [h1, Gives_unique m hd.1 h2 g]; rfl
      · rw [h1]; rfl
    | inside a h =>
      rw [if_neg (by rwa [applies_iff] at a), miss_aborts ha m hd.1 h]; rfl
    | laterExt n h =>
      rw [if_pos (by rw [applies_iff] at n; simpa using n)]
      exact missCats_aborts ha rest hd.2 h
end

theorem plain_no_miss {db : Db} {r : Ref} (cats : Cats) (h : Plain cats) : ¬ MissCats db r cats := by
  induction cats using Cats.rec (motive_1 := fun _ => True) with
  | mk => trivial
  | nil => intro h; cases h
  | own mask hm map rest ih =>
    rw [Plain] at h
    intro h'
    cases h' with
    | laterOwn _ h' => exact ih h h'
  | ext => exact h.elim

end Verif.TagMap
