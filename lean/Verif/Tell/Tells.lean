import Verif.Tell.Main
/-
Two values with the same text hold the same data: all types.
-/
namespace Verif.Tell
open Verif Verif.Entry Verif.Entry.Spec Verif.Value Verif.Value.Spec Verif.PrintString.Spec Verif.ValueString Verif.ValueString.Spec Verif.Tell.Spec

variable {env : Env} {deep : Bool} {db : Db} {S : Ref → Prop}

/-- Objects of one type, or arrays of one type of elements. -/
def Kin (db : Db) (v v' : Value) : Prop := v.entry = v'.entry ∨ ∃ e n n', IsArray db v e n ∧ IsArray db v' e n'

theorem info_unique {r : Ref} {x x' : Ref} {qs qs' : List Qual} {i i' : Info} (h : Final db r (some x) qs) (hi : (db x).info = i) (h' : Final db r (some x') qs') (hi' : (db x').info = i') : i = i' := by
  have := final_unique h h'
  cases this
  rw [← hi, ← hi']

theorem object_kin {v v' : Value} {i i' : Info} (hk : Kin db v v') (h : Object env db v i) (h' : Object env db v' i') :
    i = i' ∨ ∃ e n n', i = .array e n ∧ i' = .array e n' := by
  obtain ⟨-, -, x, qs, h1, h2⟩ := h
  obtain ⟨-, -, x', qs', h1', h2'⟩ := h'
  rcases hk with hk | ⟨e, n, n', ⟨-, y, q, a1, a2⟩, -, y', q', a1', a2'⟩
  · rw [hk] at h1
    exact .inl (info_unique h1 h2 h1' h2')
  · exact .inr ⟨e, n, n', info_unique h1 h2 a1 a2, info_unique h1' h2' a1' a2'⟩

theorem same_object {v v' : Value} {i : Info} (he : v.entry = v'.entry) (h : Object env db v i) {i' : Info} (h' : Object env db v' i') : i = i' := by
  obtain ⟨-, -, x, qs, h1, h2⟩ := h
  obtain ⟨-, -, x', qs', h1', h2'⟩ := h'
  rw [he] at h1
  exact info_unique h1 h2 h1' h2'

theorem not_packed (hd : DataTypes env db S) {v : Value} (hS : S v.entry) : ¬ Packed env db v := fun ⟨u, t, h, _⟩ => hd.data _ hS u t h

theorem not_call (hd : DataTypes env db S) {v : Value} (hS : S v.entry) {t : Option Ref} {ps : List Ref} : ¬ Object env db v (.subprogram t ps) ∧ ¬ Object env db v (.subroutine t ps) :=
  ⟨fun ⟨_, _, _, _, h1, h2⟩ => (hd.objects _ _ _ hS h1 t ps).1 h2, fun ⟨_, _, _, _, h1, h2⟩ => (hd.objects _ _ _ hS h1 t ps).2 h2⟩

theorem kin_entry {v v' : Value} {i : Info} (hk : Kin db v v') (h : Object env db v i) (hn : ∀ e n, i ≠ .array e n) : v.entry = v'.entry := by
  rcases hk with hk | ⟨e, n, n', ⟨-, y, q, a1, a2⟩, -⟩
  · exact hk
  · obtain ⟨-, -, x, qs, h1, h2⟩ := h
    exact absurd (info_unique h1 h2 a1 a2) (hn e n)

/-- The member of a struct without a name of its own. -/
def Bare (db : Db) (r : Ref) : Prop := (∃ mi, (db r).info = .member mi) ∧ (db r).name = none

theorem wrapped_head {v : Value} {t u : Text} (h : Wrapped db v t u) : (u = t ∧ Bare db v.entry) ∨ u = [123] ++ t ++ [125] := by
  cases h with
  | bare h1 h2 => exact .inl ⟨rfl, ⟨_, h1⟩, h2⟩
  | notMember => exact .inr rfl
  | named => exact .inr rfl

theorem brace_head (t : Text) : ∃ c s, [123] ++ t ++ [125] = c :: s ∧ ¬ Follows [c] := ⟨123, _, rfl, by unfold Follows; decide⟩

theorem membersText_nil {ws : List (Value × Text)} : membersText db ws = [] ↔ ∀ w ∈ ws, w.2 = [] := by
  unfold membersText
  have : ∀ xs : List Text, (∀ x ∈ xs, x ≠ []) → ([32].intercalate xs = [] ↔ xs = []) := by
    intro xs h
    cases xs with
    | nil => simp [List.intercalate]
    | cons x xs => simp [inter_cons, h x (by simp)]
  rw [this]
  · simp only [List.flatMap_eq_nil_iff, memberText_nil]
  · intro x hx
    obtain ⟨w, -, hw⟩ := List.mem_flatMap.mp hx
    unfold memberText at hw
    split at hw
    · cases hw
    · split at hw
      · rw [List.mem_singleton.mp hw]; assumption
      · rw [List.mem_singleton.mp hw]; simp

theorem membersText_head {ws : List (Value × Text)} (h : ∀ w ∈ ws, w.2 = [] ∨ ∃ c s, w.2 = c :: s ∧ ¬ Follows [c]) :
    membersText db ws = [] ∨ ∃ c s, membersText db ws = c :: s ∧ ¬ Follows [c] := by
  induction ws with
  | nil => exact .inl rfl
  | cons w ws ih =>
    unfold membersText at ih ⊢
    simp only [List.flatMap_cons]
    rcases h w (by simp) with h0 | ⟨c, s, h1, h2⟩
    · rw [memberText_nil.mpr h0]
      exact ih fun x hx => h x (by simp [hx])
    · right
      unfold memberText
      rw [if_neg (by rw [h1]; simp)]
      cases (db w.1.entry).name with
      | none =>
        simp only [List.singleton_append, inter_cons, h1, List.cons_append]
        exact ⟨_, _, rfl, h2⟩
      | some n =>
        simp only [List.singleton_append, inter_cons, List.cons_append, List.nil_append]
        exact ⟨_, _, rfl, by unfold Follows; decide⟩

/-! ### Inversion -/

local macro "other " ho:term:max hd:term:max hS:term:max : tactic =>
  `(tactic| first
    | (rename_i h _; cases same_object rfl $ho h; done)
    | (rename_i h _ _; cases same_object rfl $ho h; done)
    | (rename_i h _ _ _; cases same_object rfl $ho h; done)
    | (rename_i h _ _ _ _; cases same_object rfl $ho h; done)
    | (rename_i h _ _ _ _ _; cases same_object rfl $ho h; done)
    | (rename_i h _ _ _ _ _ _; cases same_object rfl $ho h; done)
    | (rename_i h _ _ _ _ _ _ _; cases same_object rfl $ho h; done)
    | (rename_i h _ _ _ _ _ _ _ _; cases same_object rfl $ho h; done)
    | (rename_i h _ _ _ _ _ _ _ _ _; cases same_object rfl $ho h; done)
    | (exact absurd (by assumption) (not_packed $hd $hS)))

theorem inv_base (hd : DataTypes env db S) {m : Mem} {o : List Value} {v : Value} {u : Text} (h : Shown env deep db m o v u) (hS : S v.entry) {s : UInt64} {e : Nat}
    (ho : Object env db v (.base s e)) : baseTypeString env db m v = .ok (some u) := by
  cases h with
  | base _ h => exact h
  | _ => other ho hd hS

theorem inv_enum (hd : DataTypes env db S) {m : Mem} {o : List Value} {v : Value} {u : Text} (h : Shown env deep db m o v u) (hS : S v.entry) {s : UInt64} {e : Nat} {es : List (Name × Int)}
    (ho : Object env db v (.enumeration s e es)) : enumerationString db m (some v) = .ok (some u) := by
  cases h with
  | enumeration _ h => exact h
  | _ => other ho hd hS

theorem inv_struct (hd : DataTypes env db S) {m : Mem} {o : List Value} {v : Value} {u : Text} (h : Shown env deep db m o v u) (hS : S v.entry) {s : UInt64} {ms : List Ref}
    (ho : Object env db v (.struct .struct s ms)) : ∃ ws : List (Value × Text), ws.length = ms.length ∧ (∀ (i : Nat) w u, ws[i]? = some (w, u) → Member db v ms i w) ∧
      (∀ w u, (w, u) ∈ ws → Shown env deep db m (v :: o) w u) ∧ Wrapped db v (membersText db ws) u := by
  cases h with
  | struct h hl hm hs hw => cases same_object rfl ho h; exact ⟨_, hl, hm, hs, hw⟩
  | _ => other ho hd hS

theorem inv_union (hd : DataTypes env db S) {m : Mem} {o : List Value} {v : Value} {u : Text} (h : Shown env deep db m o v u) (hS : S v.entry) {s : UInt64} {ms : List Ref}
    (ho : Object env db v (.struct .union s ms)) : ((ms ≠ [] → Reply env .unionMember v o none) ∧ Wrapped db v [] u) ∨
      ∃ w t, ms ≠ [] ∧ Reply env .unionMember v o (some w) ∧ Shown env deep db m (v :: o) w t ∧ Wrapped db v (membersText db [(w, t)]) u := by
  cases h with
  | union h hr hw => cases same_object rfl ho h; exact .inl ⟨hr, hw⟩
  | unionMember h hn hr hs hw => cases same_object rfl ho h; exact .inr ⟨_, _, hn, hr, hs, hw⟩
  | _ => other ho hd hS

theorem inv_array (hd : DataTypes env db S) {m : Mem} {o : List Value} {v : Value} {u : Text} (h : Shown env deep db m o v u) (hS : S v.entry) {e : Option Ref} {n : Int}
    (ho : Object env db v (.array e n)) : ∃ arr, Counted env v o e n arr ∧ (Literal env.pr db m arr u ∨
      ∃ e' n' ws, IsArray db arr e' n' ∧ ws.length = n'.toNat ∧ (∀ (i : Nat) w u, ws[i]? = some (w, u) → Element db arr e' i w) ∧
        (∀ w u, (w, u) ∈ ws → Shown env deep db m (v :: o) w u) ∧ u = [123] ++ elementsText ws ++ [125]) := by
  cases h with
  | skipped h ht hr => cases same_object rfl ho h; exact absurd hr (hd.arrays _ _ _ hS h ht)
  | literal h hc hl => cases same_object rfl ho h; exact ⟨_, hc, .inl hl⟩
  | array h hc hn ha hl he hs => cases same_object rfl ho h; exact ⟨_, hc, .inr ⟨_, _, _, ha, hl, he, hs, rfl⟩⟩
  | _ => other ho hd hS

theorem inv_pointer (hd : DataTypes env db S) {m : Mem} {o : List Value} {v : Value} {u : Text} (h : Shown env deep db m o v u) (hS : S v.entry) {ty : Option Ref}
    (ho : Object env db v (.pointer ty)) : ∃ a, Holds m v.addr 8 a ∧ ((a = 0 ∧ u = [78, 85, 76, 76]) ∨ (a ≠ 0 ∧ (deep = false ∨ ty = none) ∧ u = env.ptr a) ∨
      (a ≠ 0 ∧ deep = true ∧ ∃ arr e n t type, Target env db v o ty a arr ∧ Shown env deep db m (v :: o) arr t ∧ IsArray db arr (some e) n ∧
        TypeText db (env.dyn { info := .array (some e) (-1) }) type ∧ ((t.head? ≠ some 34 ∧ u = [40] ++ type ++ [41] ++ t) ∨ (t.head? = some 34 ∧ u = t)))) := by
  cases h with
  | null h1 h2 => exact ⟨0, h2, .inl ⟨rfl, rfl⟩⟩
  | address h0 h1 h2 h3 => exact ⟨_, h2, .inr (.inl ⟨h3, .inl h0, rfl⟩)⟩
  | void h0 h h2 h3 _ _ => cases same_object rfl ho h; exact ⟨_, h2, .inr (.inl ⟨h3, .inr rfl, rfl⟩)⟩
  | target h0 h h2 h3 _ h4 h5 h6 h7 h8 => cases same_object rfl ho h; exact ⟨_, h2, .inr (.inr ⟨h3, h0, _, _, _, _, _, h4, h5, h6, h7, .inl ⟨h8, rfl⟩⟩)⟩
  | string h0 h h2 h3 _ h4 h5 h6 h7 h8 => cases same_object rfl ho h; exact ⟨_, h2, .inr (.inr ⟨h3, h0, _, _, _, _, _, h4, h5, h6, h7, .inr ⟨h8, rfl⟩⟩)⟩
  | _ => other ho hd hS

/-- Texts begin with no comma, space or brace; they are only empty for members without a name. -/
theorem shown_head (hf : Formats env) (hd : DataTypes env db S) {m : Mem} {o : List Value} {v : Value} {u : Text} (h : Shown env deep db m o v u) : S v.entry →
    (u = [] ∧ Bare db v.entry ∧ ∃ k s ms, Object env db v (.struct k s ms) ∧ (k = .struct ∨ k = .union ∧ ms = [])) ∨ ∃ c s, u = c :: s ∧ ¬ Follows [c] := by
  induction h with
  | base _ h =>
    intro _
    obtain ⟨t, n, -, -, h⟩ := stringLoop_get h
    exact .inr (tyText_head hf h)
  | @enumeration o v s e es u ho h =>
    intro hS
    obtain ⟨-, -, x, qs, hx, hi⟩ := ho
    obtain ⟨k, -, h | ⟨-, rfl⟩⟩ := enumeration_text hx hi h
    · obtain ⟨c, r, rfl, hc, _⟩ := (hd.enumerators _ _ _ _ _ _ hS hx hi _ h).1
      exact .inr ⟨c, r, rfl, letter_word hc⟩
    · obtain ⟨c, r, h1, _⟩ := decimalInt_head k
      exact .inr ⟨c, r, h1, decimalInt_word k c (by rw [h1]; simp)⟩
  | null => exact fun _ => .inr ⟨_, _, rfl, by unfold Follows; decide⟩
  | @address _ _ _ a =>
    intro _
    obtain ⟨d, s, h, hd, _⟩ := hf.address a
    exact .inr ⟨d, s, h, digit_word hd⟩
  | @void _ _ a =>
    intro _
    obtain ⟨d, s, h, hd, _⟩ := hf.address a
    exact .inr ⟨d, s, h, digit_word hd⟩
  | target => exact fun _ => .inr ⟨40, _, rfl, by unfold Follows; decide⟩
  | @string _ _ _ _ _ _ _ t _ _ _ _ _ _ _ _ _ _ ht _ =>
    intro _
    cases t with
    | nil => cases ht
    | cons c s => cases ht; exact .inr ⟨34, s, rfl, by unfold Follows; decide⟩
  | @struct o v s ms ws t ho hl hm _ hw ih =>
    intro hS
    rcases wrapped_head hw with ⟨rfl, hb⟩ | rfl
    · have hm' : ∀ w ∈ ws, S w.1.entry := by
        intro w hw
        obtain ⟨i, hi⟩ := List.mem_iff_getElem?.mp hw
        obtain ⟨r, mi, h1, -, h3⟩ := hm i w.1 w.2 hi
        obtain ⟨-, -, x, qs, hx, hinfo⟩ := ho
        rw [h3]
        exact hd.members _ _ _ _ _ _ hS hx hinfo r (List.mem_of_getElem? h1)
      rcases membersText_head (db := db) (ws := ws) (fun w hw => (ih w.1 w.2 hw (hm' w hw)).imp (fun h => h.1) id) with h | h
      · exact .inl ⟨h, hb, _, _, _, ho, .inl rfl⟩
      · exact .inr h
    · exact .inr (brace_head _)
  | @union _ v _ ms _ ho hr hw =>
    intro hS
    rcases wrapped_head hw with ⟨rfl, hb⟩ | rfl
    · refine .inl ⟨rfl, hb, _, _, _, ho, .inr ⟨rfl, Classical.byContradiction fun h => hd.answered _ _ _ _ hS ho hb.2 hb.1 h (hr h)⟩⟩
    · exact .inr (brace_head _)
  | @unionMember o v s ms w u t ho hne hr _ hw ih =>
    intro hS
    rcases wrapped_head hw with ⟨rfl, hb⟩ | rfl
    · obtain ⟨i, r, mi, h1, h2, h3⟩ := hd.chosen v o s ms w hS ho hr
      have hin := List.mem_of_getElem? h1
      have ho' := ho
      obtain ⟨-, -, x, qs, hx, hinfo⟩ := ho'
      have hSw : S w.entry := by rw [h3]; exact hd.members _ _ _ _ _ _ hS hx hinfo r hin
      have := ih hSw
      rcases membersText_head (db := db) (ws := [(w, u)]) (fun y hy => by rw [List.mem_singleton.mp hy]; exact this.imp (fun h => h.1) id) with h | h
      · exfalso
        have h0 : u = [] := membersText_nil.mp h (w, u) (by simp)
        rcases this with ⟨-, ⟨-, h1⟩, -⟩ | ⟨c, s, h1, -⟩
        · rw [h3] at h1
          obtain ⟨n, hn, -⟩ := (hd.unions _ _ _ _ _ hS hx hinfo).2 r hin
          rw [hn] at h1; cases h1
        · rw [h0] at h1; cases h1
      · exact .inr h
    · exact .inr (brace_head _)
  | skipped ho ht hr => exact fun hS => absurd hr (hd.arrays _ _ _ hS ho ht)
  | literal _ _ h =>
    intro _
    obtain ⟨cs, s, -, -, -, -, -, rfl⟩ := h
    exact .inr ⟨34, _, rfl, by unfold Follows; decide⟩
  | array => exact fun _ => .inr (brace_head _)
  | arguments h => exact fun hS => absurd h (not_packed hd hS)
  | vaList h => exact fun hS => absurd h (not_packed hd hS)
  | call h => exact fun hS => absurd h (not_call hd hS).1
  | callPointer h => exact fun hS => absurd h (not_call hd hS).2

theorem wrapped_bare {v : Value} {t u : Text} (h : Wrapped db v t u) (hb : Bare db v.entry) : u = t := by
  cases h with
  | bare => rfl
  | notMember h => obtain ⟨⟨mi, hm⟩, -⟩ := hb; exact absurd hm (h mi)
  | named h => rw [hb.2] at h; cases h

theorem member_entry {v v' w w' : Value} {ms : List Ref} {i : Nat} (h : Member db v ms i w) (h' : Member db v' ms i w') : w.entry = w'.entry ∧ w.entry ∈ ms := by
  obtain ⟨r, mi, a1, -, a3⟩ := h
  obtain ⟨r', mi', b1, -, b3⟩ := h'
  rw [a1] at b1; cases b1
  rw [a3, b3]
  exact ⟨rfl, List.mem_of_getElem? a1⟩

theorem member_unique {v w w' : Value} {ms : List Ref} {i : Nat} (h : Member db v ms i w) (h' : Member db v ms i w') : w = w' := by
  obtain ⟨r, mi, a1, a2, a3⟩ := h
  obtain ⟨r', mi', b1, b2, b3⟩ := h'
  rw [a1] at b1; cases b1
  rw [a2] at b2; cases b2
  rw [a3, b3]

theorem members_data (hd : DataTypes env db S) {v : Value} (hS : S v.entry) {k : StructKind} {s : UInt64} {ms : List Ref} (ho : Object env db v (.struct k s ms)) : ∀ y ∈ ms, S y := by
  obtain ⟨-, -, x, qs, hx, hinfo⟩ := ho
  exact hd.members _ _ _ _ _ _ hS hx hinfo

/-- Whether there is a text depends on the type only. -/
theorem shown_empty (hf : Formats env) (hd : DataTypes env db S) {m m' : Mem} {o : List Value} {v : Value} {u : Text} (h : Shown env deep db m o v u) : ∀ {o' v' u'}, S v.entry →
    v.entry = v'.entry → Shown env deep db m' o' v' u' → u = [] → u' = [] := by
  have none' : ∀ {o v u}, Shown env deep db m o v u → S v.entry → u = [] → (∀ s ms, ¬ Object env db v (.struct .struct s ms)) →
      ∀ {o' v' u'}, v.entry = v'.entry → Shown env deep db m' o' v' u' → u' = [] := by
    intro o v u h hS h0 hn o' v' u' he h'
    rcases shown_head hf hd h hS with ⟨-, hb, k, s, ms, ho, rfl | ⟨rfl, rfl⟩⟩ | ⟨c, s, h1, -⟩
    · exact absurd ho (hn _ _)
    · have hS' : S v'.entry := he ▸ hS
      have ho' : v'.addr ≠ 0 → Object env db v' (.struct .union s []) := by
        intro ha
        obtain ⟨-, -, x, qs, hx, hi⟩ := ho
        exact ⟨not_packed hd hS', ha, x, qs, he ▸ hx, hi⟩
      have ha : v'.addr ≠ 0 := by
        cases h' with
        | base h | enumeration h | null h | address _ h | void _ h | target _ h | string _ h | struct h | union h | unionMember h | skipped h | literal h | array h
        | call h | callPointer h => exact h.2.1
        | arguments h | vaList h => exact absurd h (not_packed hd hS')
      rcases inv_union hd h' hS' (ho' ha) with ⟨-, hw⟩ | ⟨w, t, hne, -⟩
      · exact wrapped_bare hw (he ▸ hb)
      · exact absurd rfl hne
    · rw [h0] at h1; cases h1
  induction h with
  | @struct o v s ms ws t ho hl hm hsh hw ih =>
    intro o' v' u' hS he h' h0
    have hS' : S v'.entry := he ▸ hS
    have hb : Bare db v.entry := by
      rcases shown_head hf hd (.struct ho hl hm hsh hw) hS with h | ⟨c, s, h, -⟩
      · exact h.2.1
      · rw [h0] at h; cases h
    rw [wrapped_bare hw hb] at h0
    have h0 := membersText_nil.mp h0
    have ha : v'.addr ≠ 0 := by
      cases h' with
      | base h | enumeration h | null h | address _ h | void _ h | target _ h | string _ h | struct h | union h | unionMember h | skipped h | literal h | array h
      | call h | callPointer h => exact h.2.1
      | arguments h | vaList h => exact absurd h (not_packed hd hS')
    have ho' : Object env db v' (.struct .struct s ms) := by
      obtain ⟨-, -, x, qs, hx, hi⟩ := ho
      exact ⟨not_packed hd hS', ha, x, qs, he ▸ hx, hi⟩
    obtain ⟨ws', hl', hm', hsh', hw'⟩ := inv_struct hd h' hS' ho'
    rw [wrapped_bare hw' (he ▸ hb)]
    apply membersText_nil.mpr
    rintro ⟨w', u''⟩ hy
    obtain ⟨i, hi⟩ := List.mem_iff_getElem?.mp hy
    have hlt := (List.getElem?_eq_some_iff.mp hi).1
    obtain ⟨⟨w, u⟩, hi2⟩ : ∃ p, ws[i]? = some p := ⟨_, List.getElem?_eq_getElem (by omega)⟩
    obtain ⟨e1, e2⟩ := member_entry (hm i _ _ hi2) (hm' i _ _ hi)
    have hmem := List.mem_of_getElem? hi2
    exact ih w u hmem (members_data hd hS ho _ e2) e1 (hsh' _ _ hy) (h0 _ hmem)
  | @base _ v _ _ _ ho h => intro o' v' u' hS he h' h0; exact none' (.base (outer := []) ho h) hS h0 (fun _ _ h => by cases same_object rfl ho h) he h'
  | enumeration ho h => intro o' v' u' hS he h' h0; exact none' (.enumeration (outer := []) ho h) hS h0 (fun _ _ h => by cases same_object rfl ho h) he h'
  | null ho h => intro o' v' u' hS he h' h0; cases h0
  | @address _ _ _ a => intro o' v' u' hS he h' h0; obtain ⟨d, s, h, -⟩ := hf.address a; rw [h0] at h; cases h
  | @void _ _ a => intro o' v' u' hS he h' h0; obtain ⟨d, s, h, -⟩ := hf.address a; rw [h0] at h; cases h
  | target => intro o' v' u' hS he h' h0; simp at h0
  | string _ _ _ _ _ _ _ _ _ ht => intro o' v' u' hS he h' h0; rw [h0] at ht; cases ht
  | union ho hr hw => intro o' v' u' hS he h' h0; exact none' (.union ho hr hw) hS h0 (fun _ _ h => by cases same_object rfl ho h) he h'
  | unionMember ho hn hr hs hw => intro o' v' u' hS he h' h0; exact none' (.unionMember ho hn hr hs hw) hS h0 (fun _ _ h => by cases same_object rfl ho h) he h'
  | skipped ho ht hr => intro o' v' u' hS; exact absurd hr (hd.arrays _ _ _ hS ho ht)
  | literal _ _ h => intro o' v' u' hS he h' h0; obtain ⟨cs, s, -, -, -, -, -, rfl⟩ := h; simp at h0
  | array => intro o' v' u' hS he h' h0; simp at h0
  | arguments h => intro o' v' u' hS; exact absurd h (not_packed hd hS)
  | vaList h => intro o' v' u' hS; exact absurd h (not_packed hd hS)
  | call h => intro o' v' u' hS; exact absurd h (not_call hd hS).1
  | callPointer h => intro o' v' u' hS; exact absurd h (not_call hd hS).2

end Verif.Tell
