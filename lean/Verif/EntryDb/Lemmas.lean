import Verif.EntryDb.Spec
namespace Verif.EntryDb
open Verif Verif.EntryDb.Spec
variable {E : Type}

theorem u8_lt_irrefl (a : UInt8) : ¬ a < a := by simp
theorem u8_trichotomy {a b : UInt8} (h : a ≠ b) (h2 : ¬ a < b) : b < a := by
  rw [UInt8.lt_iff_toNat_lt] at *
  have : a.toNat ≠ b.toNat := fun e => h (UInt8.toNat_inj.1 e)
  omega

theorem strcmp_spec (a b : Str) :
    (strcmp a b = 0 ∧ a = b) ∨ (strcmp a b < 0 ∧ Before a b) ∨ (0 < strcmp a b ∧ Before b a) := by
  induction a generalizing b with
  | nil =>
    cases b with
    | nil => simp [strcmp]
    | cons y ys => right; left; simp [strcmp]; exact .nil _ _
  | cons x xs ih =>
    cases b with
    | nil => right; right; simp [strcmp]; exact .nil _ _
    | cons y ys =>
      unfold strcmp
      by_cases h : x = y
      · subst h
        simp only [if_true]
        rcases ih ys with ⟨h1, h2⟩ | ⟨h1, h2⟩ | ⟨h1, h2⟩
        · left; exact ⟨h1, by rw [h2]⟩
        · right; left; exact ⟨h1, .eq _ _ _ h2⟩
        · right; right; exact ⟨h1, .eq _ _ _ h2⟩
      · simp only [h, if_false]
        by_cases h2 : x < y
        · right; left; simp [h2]; exact .lt _ _ _ _ h2
        · right; right; simp [h2]; exact .lt _ _ _ _ (u8_trichotomy h h2)

theorem Spec.Before.irrefl (a : Str) : ¬ Before a a := by
  induction a with
  | nil => intro h; cases h
  | cons x xs ih =>
    intro h
    cases h with
    | lt _ _ _ _ h => exact u8_lt_irrefl _ h
    | eq _ _ _ h => exact ih h

theorem Spec.Before.trans {a b c : Str} (h1 : Before a b) (h2 : Before b c) : Before a c := by
  induction h1 generalizing c with
  | nil b bs => cases h2 <;> exact .nil _ _
  | lt x y xs ys h =>
    cases h2 with
    | lt _ z _ zs h' => exact .lt _ _ _ _ (UInt8.lt_trans h h')
    | eq _ _ zs h' => exact .lt _ _ _ _ h
  | eq x xs ys h ih =>
    cases h2 with
    | lt _ z _ zs h' => exact .lt _ _ _ _ h'
    | eq _ _ zs h' => exact .eq _ _ _ (ih h')

theorem Spec.Before.asymm {a b : Str} (h1 : Before a b) : ¬ Before b a :=
  fun h2 => Before.irrefl _ (h1.trans h2)

theorem strcmp_eq_zero {a b : Str} : strcmp a b = 0 ↔ a = b := by
  rcases strcmp_spec a b with ⟨h1, h2⟩ | ⟨h1, h2⟩ | ⟨h1, h2⟩
  · exact ⟨fun _ => h2, fun _ => h1⟩
  · constructor
    · omega
    · intro e; subst e; exact absurd h2 (Before.irrefl _)
  · constructor
    · omega
    · intro e; subst e; exact absurd h2 (Before.irrefl _)

theorem strcmp_neg {a b : Str} : strcmp a b < 0 ↔ Before a b := by
  rcases strcmp_spec a b with ⟨h1, h2⟩ | ⟨h1, h2⟩ | ⟨h1, h2⟩
  · subst h2; rw [h1]; simp; exact Before.irrefl _
  · exact ⟨fun _ => h2, fun _ => h1⟩
  · exact ⟨by omega, fun h => absurd h h2.asymm⟩

theorem strcmp_pos {a b : Str} : 0 < strcmp a b ↔ Before b a := by
  rcases strcmp_spec a b with ⟨h1, h2⟩ | ⟨h1, h2⟩ | ⟨h1, h2⟩
  · subst h2; rw [h1]; simp; exact Before.irrefl _
  · exact ⟨by omega, fun h => absurd h h2.asymm⟩
  · exact ⟨fun _ => h2, fun _ => h1⟩

/-! ### Binary search -/

theorem find_none_of {A : Type} {p : A → Bool} {xs : List A} (h : ∀ (i : Nat) (x : A), xs[i]? = some x → p x = false) :
    xs.find? p = none := by
  rw [List.find?_eq_none]
  intro x hx
  obtain ⟨i, hi⟩ := List.mem_iff_getElem?.1 hx
  simp [h i x hi]

theorem find_some_of {A : Type} {p : A → Bool} {xs : List A} {i : Nat} {x : A} (hi : xs[i]? = some x)
    (hp : p x = true) (h : ∀ (j : Nat) (y : A), j < i → xs[j]? = some y → p y = false) :
    xs.find? p = some x := by
  induction xs generalizing i with
  | nil => simp at hi
  | cons y ys ih =>
    cases i with
    | zero => simp at hi; subst hi; simp [hp]
    | succ i =>
      have h0 := h 0 y (by omega) (by simp)
      simp only [List.find?_cons, h0]
      exact ih (by simpa using hi) (fun j z hj hz => h (j + 1) z (by omega) (by simpa using hz))

theorem bsearchLoop_spec {A : Type} (key : A → Str) (k : Str) (xs : List A)
    (hs : (xs.map key).Pairwise Before) (l u : Nat) (hu : u ≤ xs.length)
    (hl : ∀ (i : Nat) (x : A), i < l → xs[i]? = some x → Before (key x) k)
    (hr : ∀ (i : Nat) (x : A), u ≤ i → xs[i]? = some x → Before k (key x)) :
    bsearchLoop (fun x => strcmp k (key x)) xs l u = .ok (xs.find? (fun x => decide (key x = k))) := by
  have hlt : ∀ (i j : Nat) (x y : A), i < j → xs[i]? = some x → xs[j]? = some y → Before (key x) (key y) := by
    intro i j x y hij hx hy
    obtain ⟨hi, ex⟩ := List.getElem?_eq_some_iff.1 hx
    obtain ⟨hj, ey⟩ := List.getElem?_eq_some_iff.1 hy
    rw [List.pairwise_map] at hs
    have := List.pairwise_iff_getElem.1 hs i j hi hj hij
    rw [ex, ey] at this
    exact this
  unfold bsearchLoop
  split
  · rename_i hlu
    have hm : (l + u) / 2 < xs.length := by omega
    rw [List.getElem?_eq_getElem hm]
    simp only
    generalize hx : xs[(l + u) / 2] = x
    have hx' : xs[(l + u) / 2]? = some x := by rw [List.getElem?_eq_getElem hm, hx]
    split
    · rename_i hc
      have hb := strcmp_neg.1 hc
      exact bsearchLoop_spec key k xs hs l ((l + u) / 2) (by omega) hl (by
        intro i y hi hy
        by_cases he : i = (l + u) / 2
        · subst he; rw [hx'] at hy; injection hy with hy; rw [← hy]; exact hb
        · exact hb.trans (hlt _ _ _ _ (by omega) hx' hy))
    · split
      · rename_i hc
        have hb := strcmp_pos.1 hc
        exact bsearchLoop_spec key k xs hs ((l + u) / 2 + 1) u hu (by
          intro i y hi hy
          by_cases he : i = (l + u) / 2
          · subst he; rw [hx'] at hy; injection hy with hy; rw [← hy]; exact hb
          · exact (hlt _ _ _ _ (by omega) hy hx').trans hb) hr
      · rename_i h1 h2
        have he : k = key x := strcmp_eq_zero.1 (by omega)
        symm
        congr 1
        apply find_some_of hx' (by simp [he])
        intro j y hj hy
        have := hlt _ _ _ _ hj hy hx'
        simp only [decide_eq_false_iff_not]
        intro e
        rw [e, he] at this
        exact Before.irrefl _ this
  · rename_i hlu
    symm
    congr 1
    apply find_none_of
    intro i x hx
    simp only [decide_eq_false_iff_not]
    intro e
    by_cases hi : i < l
    · have := hl i x hi hx; rw [e] at this; exact Before.irrefl _ this
    · have := hr i x (by omega) hx; rw [e] at this; exact Before.irrefl _ this
termination_by u - l
decreasing_by all_goals omega

theorem bsearch_spec {A : Type} (key : A → Str) (k : Str) (xs : List A)
    (hs : (xs.map key).Pairwise Before) :
    bsearch (fun x => strcmp k (key x)) xs = .ok (xs.find? (fun x => decide (key x = k))) := by
  apply bsearchLoop_spec key k xs hs 0 xs.length (Nat.le_refl _)
  · intro i x hi; omega
  · intro i x hi hx
    obtain ⟨h, _⟩ := List.getElem?_eq_some_iff.1 hx
    omega

/-! ### Linear specification -/

theorem matching_append (rs rs' : List (Rec E)) (f l n : Str) :
    matching (rs ++ rs') f l n = matching rs f l n ++ matching rs' f l n := by
  simp [matching]

theorem matching_flatMap_nil {A : Type} (xs : List A) (g : A → List (Rec E)) (f l n : Str)
    (h : ∀ x ∈ xs, matching (g x) f l n = []) : matching (xs.flatMap g) f l n = [] := by
  induction xs with
  | nil => simp [matching]
  | cons x xs ih =>
    rw [List.flatMap_cons, matching_append, h x (by simp), ih (fun y hy => h y (by simp [hy]))]; rfl

/-- In a table with pairwise different keys only the item with the wanted key
contributes matching records. -/
theorem matching_flatMap {A : Type} (key : A → Str) (k : Str) (xs : List A) (g : A → List (Rec E))
    (f l n : Str) (hs : (xs.map key).Pairwise Before)
    (h : ∀ x ∈ xs, key x ≠ k → matching (g x) f l n = []) :
    matching (xs.flatMap g) f l n =
      match xs.find? (fun x => decide (key x = k)) with
      | none => []
      | some x => matching (g x) f l n := by
  induction xs with
  | nil => simp [matching]
  | cons x xs ih =>
    simp only [List.map_cons, List.pairwise_cons] at hs
    rw [List.flatMap_cons, matching_append]
    by_cases hk : key x = k
    · simp only [List.find?_cons, hk, decide_true]
      rw [matching_flatMap_nil xs g f l n, List.append_nil]
      intro y hy
      apply h y (by simp [hy])
      intro e
      have := hs.1 (key y) (List.mem_map_of_mem hy)
      rw [hk, e] at this
      exact Before.irrefl _ this
    · simp only [List.find?_cons, hk, decide_false]
      rw [h x (by simp) hk, List.nil_append]
      exact ih hs.2 (fun y hy => h y (by simp [hy]))

theorem lookup_spec (db : List (FileItem E)) (hs : Sorted db) (file loc name : Str) :
    lookup (some db) (some (some file, some loc)) (some name) =
      .ok (unique (matching (records db) file loc name)) := by
  unfold lookup
  simp only [bsearch_spec (fun (x : FileItem E) => x.file) file db hs.1, Outcome.bind_ok]
  unfold records
  rw [matching_flatMap (fun (x : FileItem E) => x.file) file db _ _ _ _ hs.1 (by
    intro x _ hk
    apply matching_flatMap_nil
    intro y _
    apply matching_flatMap_nil
    intro z _
    simp [matching, hk])]
  cases hf : db.find? (fun x => decide (x.file = file)) with
  | none => simp [unique]
  | some pf =>
    have hmem := List.mem_of_find?_eq_some hf
    have hk : pf.file = file := by simpa using List.find?_some hf
    obtain ⟨hs1, hs2⟩ := hs.2 pf hmem
    simp only [bsearch_spec (fun (x : LocItem E) => x.locName) loc pf.locs hs1, Outcome.bind_ok]
    rw [matching_flatMap (fun (x : LocItem E) => x.locName) loc pf.locs _ _ _ _ hs1 (by
      intro y _ hk
      apply matching_flatMap_nil
      intro z _
      simp [matching, hk])]
    cases hl : pf.locs.find? (fun x => decide (x.locName = loc)) with
    | none => simp [unique]
    | some pl =>
      have hmem2 := List.mem_of_find?_eq_some hl
      have hk2 : pl.locName = loc := by simpa using List.find?_some hl
      have hs3 := hs2 pl hmem2
      simp only [bsearch_spec (fun (x : NameItem E) => x.name) name pl.names hs3, Outcome.bind_ok]
      rw [matching_flatMap (fun (x : NameItem E) => x.name) name pl.names _ _ _ _ hs3 (by
        intro z _ hk
        simp [matching, hk])]
      cases hn : pl.names.find? (fun x => decide (x.name = name)) with
      | none => simp [unique]
      | some pn =>
        have hk3 : pn.name = name := by simpa using List.find?_some hn
        have : matching (pn.entries.map fun e => (⟨pf.file, pl.locName, pn.name, e⟩ : Rec E)) file loc name
            = pn.entries := by
          have hfil : (pn.entries.map fun e => (⟨pf.file, pl.locName, pn.name, e⟩ : Rec E)).filter
              (fun r => decide (r.file = file) && decide (r.loc = loc) && decide (r.name = name)) =
              pn.entries.map fun e => (⟨pf.file, pl.locName, pn.name, e⟩ : Rec E) := by
            rw [List.filter_eq_self]
            intro r hr
            obtain ⟨e, _, rfl⟩ := List.mem_map.1 hr
            simp [hk, hk2, hk3]
          unfold matching
          rw [hfil, List.map_map]
          simp [Function.comp_def]
        simp only [this]
        cases pn.entries with
        | nil => rfl
        | cons a as => cases as <;> rfl

/-! ### The generated tables -/

theorem dictUpd_keys {V : Type} (k : Str) (d : V) (f : V → V) (xs : List (Str × V)) (k' : Str) :
    k' ∈ (dictUpd k d f xs).map (·.1) ↔ k' = k ∨ k' ∈ xs.map (·.1) := by
  induction xs with
  | nil => simp [dictUpd]
  | cons x xs ih =>
    obtain ⟨kx, v⟩ := x
    unfold dictUpd
    split
    · rename_i h
      have : k = kx := strcmp_eq_zero.1 h
      subst this
      simp
    · split
      · simp
      · simp only [List.map_cons, List.mem_cons, ih]
        constructor
        · rintro (h | h | h) <;> simp [h]
        · rintro (h | h | h) <;> simp [h]

theorem dictUpd_sorted {V : Type} (k : Str) (d : V) (f : V → V) (xs : List (Str × V))
    (hs : (xs.map (·.1)).Pairwise Before) : ((dictUpd k d f xs).map (·.1)).Pairwise Before := by
  induction xs with
  | nil => simp [dictUpd]
  | cons x xs ih =>
    obtain ⟨kx, v⟩ := x
    simp only [List.map_cons, List.pairwise_cons] at hs
    unfold dictUpd
    split
    · simp only [List.map_cons, List.pairwise_cons]; exact hs
    · split
      · rename_i h1 h2
        have hb := strcmp_neg.1 h2
        simp only [List.map_cons, List.pairwise_cons]
        refine ⟨?_, hs.1, hs.2⟩
        intro y hy
        rcases List.mem_cons.1 hy with rfl | hy
        · exact hb
        · exact hb.trans (hs.1 y hy)
      · rename_i h1 h2
        have hb : Before kx k := by
          rcases strcmp_spec k kx with ⟨h, _⟩ | ⟨h, _⟩ | ⟨_, h⟩
          · exact absurd h h1
          · exact absurd h h2
          · exact h
        simp only [List.map_cons, List.pairwise_cons]
        refine ⟨?_, ih hs.2⟩
        intro y hy
        rw [dictUpd_keys] at hy
        rcases hy with rfl | hy
        · exact hb
        · exact hs.1 y hy

theorem dictUpd_vals {V : Type} (k : Str) (d : V) (f : V → V) (xs : List (Str × V)) (P : V → Prop)
    (hd : P d) (hf : ∀ v, P v → P (f v)) (h : ∀ x ∈ xs, P x.2) : ∀ x ∈ dictUpd k d f xs, P x.2 := by
  induction xs with
  | nil => simp [dictUpd, hd]
  | cons x xs ih =>
    obtain ⟨kx, v⟩ := x
    unfold dictUpd
    have hv := h (kx, v) (by simp)
    have ht := fun y hy => h y (List.mem_cons_of_mem _ hy)
    split
    · intro y hy
      rcases List.mem_cons.1 hy with rfl | hy
      · exact hf _ hv
      · exact ht y hy
    · split
      · intro y hy
        rcases List.mem_cons.1 hy with rfl | hy
        · exact hd
        · exact h y hy
      · intro y hy
        rcases List.mem_cons.1 hy with rfl | hy
        · exact hv
        · exact ih ht y hy

/-- Value found under a key. -/
def dget {V : Type} (k : Str) (xs : List (Str × V)) : Option V :=
  (xs.find? (fun x => decide (x.1 = k))).map (·.2)

theorem dget_dictUpd {V : Type} (k k' : Str) (d : V) (f : V → V) (xs : List (Str × V))
    (hs : (xs.map (·.1)).Pairwise Before) :
    dget k' (dictUpd k d f xs) =
      if k' = k then some (match dget k xs with | some v => f v | none => d) else dget k' xs := by
  induction xs with
  | nil =>
    simp only [dictUpd, dget, List.find?_cons, List.find?_nil]
    by_cases h : k' = k
    · simp [h]
    · have h' : ¬ k = k' := fun e => h e.symm
      simp [h, h']
  | cons x xs ih =>
    obtain ⟨kx, v⟩ := x
    simp only [List.map_cons, List.pairwise_cons] at hs
    unfold dictUpd
    split
    · rename_i h
      have e : k = kx := strcmp_eq_zero.1 h
      subst e
      by_cases hk : k' = k
      · simp [dget, hk]
      · have h' : ¬ k = k' := fun e => hk e.symm
        simp [dget, hk, h']
    · rename_i h1
      have hne : kx ≠ k := fun e => h1 (strcmp_eq_zero.2 e.symm)
      split
      · rename_i h2
        have hb := strcmp_neg.1 h2
        have hnone : dget k ((kx, v) :: xs) = none := by
          simp only [dget, Option.map_eq_none_iff, List.find?_eq_none]
          intro y hy
          simp only [decide_eq_true_eq]
          intro e
          rcases List.mem_cons.1 hy with rfl | hy
          · exact hne e
          · have := hb.trans (hs.1 y.1 (List.mem_map_of_mem hy))
            rw [e] at this; exact Before.irrefl _ this
        by_cases hk : k' = k
        · rw [hnone]; simp [dget, hk]
        · have h' : ¬ k = k' := fun e => hk e.symm
          simp [dget, hk, h']
      · have := ih hs.2
        by_cases hk : k' = kx
        · subst hk
          simp [dget, hne]
        · have hkx : ¬ kx = k' := fun e => hk e.symm
          simp only [dget, List.find?_cons, hkx, hne, decide_false] at this ⊢
          exact this

/-- Quoting keeps the dictionary order for identifiers. -/
theorem quote_before {a b : Str} (ha : IsIdent a) (hb : IsIdent b) :
    Before (quote a) (quote b) ↔ Before a b := by
  have gt34 : ∀ {s : Str}, IsIdent s → ∀ c ∈ s, (34 : UInt8) < c := by
    intro s hs c hc
    rcases hs c hc with h | h | h | h
    · exact UInt8.lt_of_lt_of_le (by decide) h.1
    · exact UInt8.lt_of_lt_of_le (by decide) h.1
    · rw [h]; decide
    · exact UInt8.lt_of_lt_of_le (by decide) h.1
  have key : ∀ a b : Str, (∀ c ∈ a, (34 : UInt8) < c) → (∀ c ∈ b, (34 : UInt8) < c) →
      (Before (a ++ [34]) (b ++ [34]) ↔ Before a b) := by
    intro a
    induction a with
    | nil =>
      intro b _ hb
      cases b with
      | nil => simp; constructor <;> intro h <;> cases h <;> rename_i h <;> first | exact absurd h (by decide) | cases h
      | cons y ys =>
        constructor
        · intro _; exact .nil _ _
        · intro _; exact .lt _ _ _ _ (hb y (by simp))
    | cons x xs ih =>
      intro b ha hb
      cases b with
      | nil =>
        constructor
        · intro h
          cases h with
          | lt _ _ _ _ h => exact absurd (UInt8.lt_trans h (ha x (by simp))) (u8_lt_irrefl _)
          | eq _ _ _ h => exact absurd (ha 34 (by simp)) (u8_lt_irrefl _)
        · intro h; cases h
      | cons y ys =>
        have := ih ys (fun c hc => ha c (by simp [hc])) (fun c hc => hb c (by simp [hc]))
        constructor
        · intro h
          cases h with
          | lt _ _ _ _ h => exact .lt _ _ _ _ h
          | eq _ _ _ h => exact .eq _ _ _ (this.1 h)
        · intro h
          cases h with
          | lt _ _ _ _ h => exact .lt _ _ _ _ h
          | eq _ _ _ h => exact .eq _ _ _ (this.2 h)
  unfold quote
  constructor
  · intro h
    cases h with
    | lt _ _ _ _ h => exact absurd h (u8_lt_irrefl _)
    | eq _ _ _ h => exact (key a b (gt34 ha) (gt34 hb)).1 h
  · intro h
    exact .eq _ _ _ ((key a b (gt34 ha) (gt34 hb)).2 h)

theorem unquote_quote (s : Str) : unquote (quote s) = s := by
  simp [unquote, quote]

theorem quote_inj {a b : Str} (h : quote a = quote b) : a = b := by
  have := congrArg unquote h
  simpa [unquote_quote] using this

theorem escapePath_id {s : Str} (h : NoBackslash s) : escapePath s = s := by
  unfold escapePath
  induction s with
  | nil => rfl
  | cons c cs ih =>
    simp only [NoBackslash, List.mem_cons, not_or] at h
    simp only [List.map_cons]
    rw [ih h.2, if_neg (fun e => h.1 e.symm)]

/-- Entries stored under a triple in the generator's dictionary. -/
def get3 (d : Dict3 E) (f l n : Str) : List E :=
  (((dget f d).bind (dget (quote l))).bind (dget (quote n))).getD []

def Keys {V : Type} (xs : List (Str × V)) : Prop := (xs.map (·.1)).Pairwise Before
def QKeys {V : Type} (xs : List (Str × V)) : Prop :=
  Keys xs ∧ ∀ x ∈ xs, ∃ s, IsIdent s ∧ x.1 = quote s

def DOk (d : Dict3 E) : Prop :=
  Keys d ∧ (∀ x ∈ d, NoBackslash x.1) ∧
  ∀ x ∈ d, QKeys x.2 ∧ ∀ y ∈ x.2, QKeys y.2

theorem dictUpd_keyP {V : Type} (k : Str) (d : V) (f : V → V) (xs : List (Str × V)) (P : Str → Prop)
    (hk : P k) (h : ∀ x ∈ xs, P x.1) : ∀ x ∈ dictUpd k d f xs, P x.1 := by
  intro x hx
  have := (dictUpd_keys k d f xs x.1).1 (List.mem_map_of_mem hx)
  rcases this with e | e
  · rw [e]; exact hk
  · obtain ⟨y, hy, e⟩ := List.mem_map.1 e
    rw [← e]; exact h y hy

theorem QKeys_upd {V : Type} {s : Str} (hs : IsIdent s) (d : V) (f : V → V) (xs : List (Str × V))
    (h : QKeys xs) : QKeys (dictUpd (quote s) d f xs) :=
  ⟨dictUpd_sorted _ _ _ _ h.1, dictUpd_keyP _ _ _ _ (fun k => ∃ s, IsIdent s ∧ k = quote s) ⟨s, hs, rfl⟩ h.2⟩

theorem QKeys_one {V : Type} {s : Str} (hs : IsIdent s) (v : V) : QKeys [(quote s, v)] := by
  refine ⟨by simp [Keys], ?_⟩
  intro x hx
  rw [List.mem_singleton] at hx
  exact ⟨s, hs, by rw [hx]⟩

theorem DOk_addRec {d : Dict3 E} (h : DOk d) (r : Rec E) (hf : NoBackslash r.file) (hl : IsIdent r.loc)
    (hn : IsIdent r.name) : DOk (addRec d r) := by
  refine ⟨dictUpd_sorted _ _ _ _ h.1, dictUpd_keyP _ _ _ _ _ hf h.2.1, ?_⟩
  apply dictUpd_vals _ _ _ _ (fun v => QKeys v ∧ ∀ y ∈ v, QKeys y.2)
  · exact ⟨QKeys_one hl _, fun y hy => by
      rw [List.mem_singleton] at hy; rw [hy]; exact QKeys_one hn _⟩
  · intro v hv
    refine ⟨QKeys_upd hl _ _ _ hv.1, ?_⟩
    apply dictUpd_vals _ _ _ _ (fun v => QKeys v) (QKeys_one hn _) (fun v hv => QKeys_upd hn _ _ _ hv) hv.2
  · exact h.2.2

theorem dget_mem {V : Type} {k : Str} {xs : List (Str × V)} {v : V} (h : dget k xs = some v) :
    (k, v) ∈ xs := by
  unfold dget at h
  rw [Option.map_eq_some_iff] at h
  obtain ⟨x, hx, rfl⟩ := h
  have h1 := List.find?_some hx
  have h2 := List.mem_of_find?_eq_some hx
  simp only [decide_eq_true_eq] at h1
  rw [← h1]; exact h2

theorem dget_one {V : Type} (k k' : Str) (v : V) : dget k' [(k, v)] = if k' = k then some v else none := by
  by_cases h : k' = k
  · simp [dget, h]
  · have h' : ¬ k = k' := fun e => h e.symm
    simp [dget, h, h']

theorem get3_addRec {d : Dict3 E} (h : DOk d) (r : Rec E) (f l n : Str) :
    get3 (addRec d r) f l n =
      get3 d f l n ++ (if r.file = f ∧ r.loc = l ∧ r.name = n then [r.entry] else []) := by
  have qi : ∀ a b : Str, quote a = quote b ↔ a = b := fun a b => ⟨quote_inj, fun e => by rw [e]⟩
  unfold get3 addRec
  rw [dget_dictUpd _ _ _ _ _ h.1]
  by_cases hf : f = r.file
  · subst hf
    simp only [if_true, true_and, Option.bind_some]
    cases h1 : dget r.file d with
    | none =>
      simp only [dget_one, qi, Option.bind_none, Option.getD_none, List.nil_append]
      by_cases hl : l = r.loc
      · by_cases hn : n = r.name
        · simp [hl, hn, dget_one]
        · have hn' : ¬ r.name = n := fun e => hn e.symm
          simp [hl, hn, hn', dget_one, qi]
      · have hl' : ¬ r.loc = l := fun e => hl e.symm
        simp [hl, hl']
    | some v =>
      have hv := h.2.2 _ (dget_mem h1)
      simp only [Option.bind_some]
      rw [dget_dictUpd _ _ _ _ _ hv.1.1]
      simp only [qi]
      by_cases hl : l = r.loc
      · subst hl
        simp only [if_true, true_and, Option.bind_some]
        cases h2 : dget (quote r.loc) v with
        | none =>
          simp only [dget_one, qi, Option.bind_none, Option.getD_none, List.nil_append]
          by_cases hn : n = r.name
          · simp [hn]
          · have hn' : ¬ r.name = n := fun e => hn e.symm
            simp [hn, hn']
        | some w =>
          have hw := hv.2 _ (dget_mem h2)
          simp only [Option.bind_some]
          rw [dget_dictUpd _ _ _ _ _ hw.1]
          simp only [qi]
          by_cases hn : n = r.name
          · subst hn
            simp only [if_true, Option.getD_some]
            cases dget (quote r.name) w <;> simp
          · have hn' : ¬ r.name = n := fun e => hn e.symm
            simp [hn, hn']
      · have hl' : ¬ r.loc = l := fun e => hl e.symm
        simp [hl, hl']
  · have hf' : ¬ r.file = f := fun e => hf e.symm
    simp [hf, hf']

theorem buildDict_spec (rs : List (Rec E)) (hr : ∀ r ∈ rs, NoBackslash r.file ∧ IsIdent r.loc ∧ IsIdent r.name) :
    DOk (buildDict rs) ∧ ∀ f l n, get3 (buildDict rs) f l n = matching rs f l n := by
  have : ∀ (rs : List (Rec E)) (d : Dict3 E), (∀ r ∈ rs, NoBackslash r.file ∧ IsIdent r.loc ∧ IsIdent r.name) → DOk d →
      DOk (rs.foldl addRec d) ∧ ∀ f l n, get3 (rs.foldl addRec d) f l n = get3 d f l n ++ matching rs f l n := by
    intro rs
    induction rs with
    | nil => intro d _ hd; exact ⟨hd, by intros; simp [matching]⟩
    | cons r rs ih =>
      intro d hr hd
      obtain ⟨h1, h2, h3⟩ := hr r (by simp)
      have := ih (addRec d r) (fun x hx => hr x (by simp [hx])) (DOk_addRec hd r h1 h2 h3)
      refine ⟨this.1, ?_⟩
      intro f l n
      rw [List.foldl_cons, this.2, get3_addRec hd, List.append_assoc]
      congr 1
      by_cases h : r.file = f ∧ r.loc = l ∧ r.name = n
      · obtain ⟨h1, h2, h3⟩ := h
        simp [matching, h1, h2, h3]
      · rw [if_neg h]
        have : (decide (r.file = f) && decide (r.loc = l) && decide (r.name = n)) = false := by
          rw [Bool.eq_false_iff]
          intro hc
          simp only [Bool.and_eq_true, decide_eq_true_eq] at hc
          exact h ⟨hc.1.1, hc.1.2, hc.2⟩
        simp [matching, this]
  have h0 : DOk ([] : Dict3 E) := by simp [DOk, Keys]
  have h := this rs [] hr h0
  refine ⟨h.1, ?_⟩
  intro f l n
  unfold buildDict
  rw [h.2]
  simp [get3, dget]

theorem QKeys_sorted {V : Type} {xs : List (Str × V)} (h : QKeys xs) :
    (xs.map fun x => unquote x.1).Pairwise Before := by
  have h1 := h.1
  unfold Keys at h1
  rw [List.pairwise_map] at h1 ⊢
  refine List.Pairwise.imp_of_mem ?_ h1
  intro a b ha hb hab
  obtain ⟨s, hs, es⟩ := h.2 a ha
  obtain ⟨t, ht, et⟩ := h.2 b hb
  rw [es, et, unquote_quote, unquote_quote]
  rw [es, et] at hab
  exact (quote_before hs ht).1 hab

theorem emit_sorted {d : Dict3 E} (h : DOk d) : Sorted (emit d) := by
  refine ⟨?_, ?_⟩
  · have h1 := h.1
    unfold Keys at h1
    unfold emit
    rw [List.map_map, List.pairwise_map]
    rw [List.pairwise_map] at h1
    refine List.Pairwise.imp_of_mem ?_ h1
    intro a b ha hb hab
    simp only [Function.comp_def]
    rw [escapePath_id (h.2.1 a ha), escapePath_id (h.2.1 b hb)]
    exact hab
  · intro f hf
    obtain ⟨x, hx, rfl⟩ := List.mem_map.1 hf
    have hx2 := h.2.2 x hx
    refine ⟨?_, ?_⟩
    · have := QKeys_sorted hx2.1
      simpa [List.map_map, Function.comp_def] using this
    · intro l hl
      obtain ⟨y, hy, rfl⟩ := List.mem_map.1 hl
      have := QKeys_sorted (hx2.2 y hy)
      simpa [List.map_map, Function.comp_def] using this

theorem find_unquote {V : Type} {xs : List (Str × V)} (h : QKeys xs) (k : Str) :
    xs.find? (fun x => decide (unquote x.1 = k)) = xs.find? (fun x => decide (x.1 = quote k)) := by
  have h2 := h.2
  clear h
  induction xs with
  | nil => rfl
  | cons x xs ih =>
    obtain ⟨s, _, es⟩ := h2 x (by simp)
    have := ih (fun y hy => h2 y (by simp [hy]))
    simp only [List.find?_cons, this, es, unquote_quote]
    by_cases e : s = k
    · simp [e]
    · have : ¬ quote s = quote k := fun hh => e (quote_inj hh)
      simp [e, this]

theorem find_escape {V : Type} {xs : List (Str × V)} (h2 : ∀ x ∈ xs, NoBackslash x.1) (k : Str) :
    xs.find? (fun x => decide (escapePath x.1 = k)) = xs.find? (fun x => decide (x.1 = k)) := by
  induction xs with
  | nil => rfl
  | cons x xs ih =>
    have := ih (fun y hy => h2 y (by simp [hy]))
    simp only [List.find?_cons, this, escapePath_id (h2 x (by simp))]

theorem matching_emit {d : Dict3 E} (h : DOk d) (f l n : Str) :
    matching (records (emit d)) f l n = get3 d f l n := by
  have hs := emit_sorted h
  unfold records
  rw [matching_flatMap (fun (x : FileItem E) => x.file) f (emit d) _ _ _ _ hs.1 (by
    intro x _ hk
    apply matching_flatMap_nil
    intro y _
    apply matching_flatMap_nil
    intro z _
    simp [matching, hk])]
  unfold get3
  have e1 : (emit d).find? (fun x => decide (x.file = f)) =
      (d.find? (fun x => decide (x.1 = f))).map fun (f, ls) =>
        { file := escapePath f, locs := ls.map fun (l, ns) =>
            { locName := unquote l, names := ns.map fun (n, es) => { name := unquote n, entries := es } } } := by
    unfold emit
    rw [List.find?_map, ← find_escape h.2.1]
    rfl
  rw [e1]
  unfold dget
  cases hd : d.find? (fun x => decide (x.1 = f)) with
  | none => simp
  | some x =>
    obtain ⟨f', ls⟩ := x
    have hm := List.mem_of_find?_eq_some hd
    have hf : f' = f := by simpa using List.find?_some hd
    obtain ⟨hq, hq2⟩ := h.2.2 _ hm
    have hfe : escapePath f' = f := by rw [escapePath_id (h.2.1 _ hm)]; exact hf
    simp only [Option.map_some, Option.bind_some]
    rw [matching_flatMap (fun (x : LocItem E) => x.locName) l _ _ _ _ _ (by
      have := QKeys_sorted hq
      simpa [List.map_map, Function.comp_def] using this) (by
      intro y _ hk
      apply matching_flatMap_nil
      intro z _
      simp [matching, hk])]
    rw [List.find?_map]
    have e2 : ls.find? ((fun x : LocItem E => decide (x.locName = l)) ∘ fun (l, ns) =>
        (⟨unquote l, ns.map fun (n, es) => ⟨unquote n, es⟩⟩ : LocItem E)) =
        ls.find? (fun x => decide (x.1 = quote l)) := by
      rw [← find_unquote hq]; rfl
    rw [e2]
    cases hd2 : ls.find? (fun x => decide (x.1 = quote l)) with
    | none => simp
    | some y =>
      obtain ⟨l', ns⟩ := y
      have hm2 := List.mem_of_find?_eq_some hd2
      have hl : l' = quote l := by simpa using List.find?_some hd2
      have hq3 := hq2 _ hm2
      simp only [Option.map_some, Option.bind_some]
      rw [matching_flatMap (fun (x : NameItem E) => x.name) n _ _ _ _ _ (by
        have := QKeys_sorted hq3
        simpa [List.map_map, Function.comp_def] using this) (by
        intro z _ hk
        simp [matching, hk])]
      rw [List.find?_map]
      have e3 : ns.find? ((fun x : NameItem E => decide (x.name = n)) ∘ fun (n, es) =>
          (⟨unquote n, es⟩ : NameItem E)) =
          ns.find? (fun x => decide (x.1 = quote n)) := by
        rw [← find_unquote hq3]; rfl
      rw [e3]
      cases hd3 : ns.find? (fun x => decide (x.1 = quote n)) with
      | none => simp
      | some z =>
        obtain ⟨n', es⟩ := z
        have hn : n' = quote n := by simpa using List.find?_some hd3
        have hall : ((es.map fun e => (⟨escapePath f', unquote l', unquote n', e⟩ : Rec E)).filter
              (fun r => decide (r.file = f) && decide (r.loc = l) && decide (r.name = n))) =
              es.map fun e => (⟨escapePath f', unquote l', unquote n', e⟩ : Rec E) := by
          rw [List.filter_eq_self]
          intro r hr
          obtain ⟨e, _, rfl⟩ := List.mem_map.1 hr
          simp [hfe, hl, hn, unquote_quote]
        simp only [Option.map_some, Option.getD_some]
        unfold matching
        rw [hall, List.map_map]
        simp [Function.comp_def]

end Verif.EntryDb
