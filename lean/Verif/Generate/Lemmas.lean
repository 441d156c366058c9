import Verif.Generate.Spec
import Verif.EntryDb.Lemmas
import Verif.GoDedup.Text
/-
Lemmas about finding requests.
-/
namespace Verif.Generate
open Verif Verif.Generate.Spec
open Verif.GoDedup (Go decInt)
open Verif.EntryDb (dictUpd quote unquote Rec FileItem dget dictUpd_sorted dget_dictUpd)

theorem ret_bind {α β : Type} (a : α) (f : α → Go β) : ((Go.ret a : Go α) >>= f) = f a := rfl
theorem fail_bind {α β : Type} (f : α → Go β) : ((Go.fail : Go α) >>= f) = Go.fail := rfl
theorem pure_eq {α : Type} (a : α) : (pure a : Go α) = Go.ret a := rfl

theorem scopeMap_eq (db : Db) (k : Str) :
    scopeMap db k = [(go! "Subprogram", db.subprograms), (go! "Namespace", db.namespaces), (go! "LexBlock", db.lexBlocks),
    (go! "StructType", db.structTypes), (go! "ClassType", db.classTypes), (go! "UnionType", db.unionTypes)].lookup k := by
  simp only [scopeMap, List.lookup]
  repeat' split
  all_goals first | rfl | simp_all

theorem contents_eq (db : Db) (k i : Str) : contents db k i = (scopeMap db k).bind fun m => (m.lookup i).map Scope.hier := by
  rw [scopeMap_eq]; rfl

theorem isScope_iff (db : Db) (h : Item) : IsScope h ↔ (scopeMap db h.kind).isSome := by
  unfold IsScope scopeMap
  simp only [List.mem_cons, List.not_mem_nil, or_false]
  constructor
  · rintro (e | e | e | e | e | e) <;> rw [e] <;> rfl
  · repeat' split
    all_goals simp_all

/-! ### Names of requests -/

/-- What `note` reads in a name. -/
def hit (m n : Str) : Option (Str × Str) :=
  if (pre m).isPrefixOf n then
    match split2 (n.drop (pre m).length) with
    | [t, r] => some (t, r)
    | _ => none
  else none

theorem takeWhile_append {t r : Str} (h : (95 : UInt8) ∉ t) :
    (t ++ 95 :: r).takeWhile (· ≠ 95) = t ∧ ((t ++ 95 :: r).dropWhile (· ≠ 95)).drop 1 = r := by
  induction t with
  | nil => simp
  | cons c t ih =>
    simp only [List.mem_cons, not_or] at h
    have hc : c ≠ 95 := fun e => h.1 e.symm
    have := ih h.2
    simp only [List.cons_append, List.takeWhile_cons, List.dropWhile_cons]
    simp only [decide_eq_true hc, if_true]
    exact ⟨by rw [this.1], this.2⟩

theorem takeWhile_split {s : Str} (h : (95 : UInt8) ∈ s) :
    s = s.takeWhile (· ≠ 95) ++ 95 :: (s.dropWhile (· ≠ 95)).drop 1 ∧ (95 : UInt8) ∉ s.takeWhile (· ≠ 95) := by
  induction s with
  | nil => simp at h
  | cons c s ih =>
    by_cases hc : c = 95
    · subst hc; simp
    · have h' : (95 : UInt8) ∈ s := by
        rcases List.mem_cons.mp h with e | e
        · exact absurd e.symm hc
        · exact e
      have := ih h'
      simp only [List.takeWhile_cons, List.dropWhile_cons, decide_eq_true hc, if_true, List.cons_append, List.mem_cons, not_or]
      exact ⟨by rw [← this.1], fun e => hc e.symm, this.2⟩

theorem split2_iff {s t r : Str} : split2 s = [t, r] ↔ (95 : UInt8) ∉ t ∧ s = t ++ 95 :: r := by
  constructor
  · intro h
    unfold split2 at h
    split at h
    · rename_i hm
      have := takeWhile_split hm
      simp only [List.cons.injEq, and_true] at h
      rw [h.1, h.2] at this
      exact ⟨this.2, this.1⟩
    · cases h
  · rintro ⟨h1, rfl⟩
    have := takeWhile_append (r := r) h1
    rw [split2, if_pos (by simp), this.1, this.2]

theorem hit_iff {m n t r : Str} : hit m n = some (t, r) ↔ (95 : UInt8) ∉ t ∧ n = pre m ++ t ++ 95 :: r := by
  unfold hit
  constructor
  · intro h
    split at h
    · rename_i hp
      obtain ⟨x, rfl⟩ := List.isPrefixOf_iff_prefix.mp hp
      rw [List.drop_left] at h
      split at h
      · rename_i t' r' hs
        simp only [Option.some.injEq, Prod.mk.injEq] at h
        obtain ⟨rfl, rfl⟩ := h
        have := split2_iff.mp hs
        exact ⟨this.1, by rw [this.2]; simp⟩
      · cases h
    · cases h
  · rintro ⟨h1, rfl⟩
    rw [List.append_assoc, if_pos (List.isPrefixOf_iff_prefix.mpr ⟨_, rfl⟩), List.drop_left, split2_iff.mpr ⟨h1, rfl⟩]

theorem asked_iff {m t n r : Str} : asked m t n = some r ↔ n = go! "metac__" ++ m ++ [95] ++ t ++ [95] ++ r := by
  unfold asked
  simp only []
  constructor
  · intro h
    split at h
    · rename_i hp
      obtain ⟨x, rfl⟩ := hp
      rw [List.drop_left] at h
      cases h; rfl
    · cases h
  · rintro rfl
    rw [if_pos ⟨_, rfl⟩, List.drop_left]

theorem hit_asked {m n t r : Str} (hm : m ≠ []) : hit m n = some (t, r) ↔ (95 : UInt8) ∉ t ∧ asked m t n = some r := by
  rw [hit_iff, asked_iff, pre, if_pos hm]
  simp

/-- What a name asks of a module, by the type of request. -/
theorem asked_hit {m n t : Str} (hm : m ≠ []) (ht : (95 : UInt8) ∉ t) :
    asked m t n = (hit m n).bind fun x => if x.1 = t then some x.2 else none := by
  cases h : asked m t n with
  | some r => rw [(hit_asked hm).mpr ⟨ht, h⟩]; simp
  | none =>
    cases h' : hit m n with
    | none => rfl
    | some x =>
      obtain ⟨t', r⟩ := x
      have := (hit_asked hm).mp h'
      simp only [Option.bind_some]
      split
      · rename_i e; subst e; rw [h] at this; cases this.2
      · rfl

/-! ### The walk -/

/-- The variables that are visited are in the database. -/
def Present (db : Db) (l : List Item) : Prop := ∀ h ∈ l, h.kind = go! "Variable" → (db.variables.lookup h.id).isSome

/-- What `note` notes. -/
def noted (db : Db) (m : Str) (h : Item) : Option (Var × Str × Str) :=
  if h.kind = go! "Variable" then
    (db.variables.lookup h.id).bind fun v => v.name.bind fun n => (hit m n).map fun x => (v, x.1, x.2)
  else none

/-- Add references to the dictionary. -/
def addAll (refs : List (Str × Ref)) (res : Res) : Res :=
  refs.foldl (fun d x => dictUpd x.1 [x.2] (fun rs => rs ++ [x.2]) d) res

theorem addAll_append (a b : List (Str × Ref)) (res : Res) : addAll (a ++ b) res = addAll b (addAll a res) := by
  simp [addAll, List.foldl_append]

/-- The references are those of the items. -/
structure Refs (db : Db) (m cu : Str) (l : List Item) (refs : List (Str × Ref)) : Prop where
  what : refs.map (fun x => (x.2.h, x.2.var, x.1, x.2.reqName)) = l.filterMap fun h => (noted db m h).map fun y => (h, y.1, y.2.1, y.2.2)
  cu : ∀ x ∈ refs, x.2.cu = cu ∧ x.2.module = m

theorem Refs.nil {db : Db} {m cu : Str} : Refs db m cu [] [] := ⟨rfl, fun _ h => by simp at h⟩

theorem Refs.append {db : Db} {m cu : Str} {l l' : List Item} {refs refs' : List (Str × Ref)} (h : Refs db m cu l refs) (h' : Refs db m cu l' refs') :
    Refs db m cu (l ++ l') (refs ++ refs') :=
  ⟨by rw [List.map_append, List.filterMap_append, h.what, h'.what], fun x hx => (List.mem_append.mp hx).elim (h.cu x) (h'.cu x)⟩

theorem noted_eq {db : Db} {m : Str} {h : Item} {v : Var} {n : Str} (hk : h.kind = go! "Variable") (hv : db.variables.lookup h.id = some v) (hn : v.name = some n) :
    noted db m h = (hit m n).map fun x => (v, x.1, x.2) := by
  simp only [noted, hk, if_true, hv, Option.bind_some, hn]

theorem note_ret {db : Db} {m cu : Str} {path : List Nat} {b : Bool} {h : Item} {res res' : Res} (hn : note db m cu path b h res = Go.ret res') :
    Present db [h] ∧ ∃ refs, res' = addAll refs res ∧ Refs db m cu [h] refs := by
  unfold note at hn
  split at hn
  · rename_i hk
    split at hn
    · exact absurd hn Go.fail_ne
    · rename_i v hv
      have hp : Present db [h] := fun x hx _ => by simp only [List.mem_singleton] at hx; subst hx; rw [hv]; rfl
      refine ⟨hp, ?_⟩
      have none' : noted db m h = none → Go.ret res = (Go.ret res' : Go Res) → ∃ refs, res' = addAll refs res ∧ Refs db m cu [h] refs := by
        intro e e'
        exact ⟨[], (Go.ret_inj.mp e').symm, by simp [e], fun _ h => by simp at h⟩
      split at hn
      · rename_i hname
        exact none' (by simp [noted, hk, hv, hname]) hn
      · rename_i n hname
        split at hn
        · rename_i hpre
          split at hn
          · rename_i t r hs
            refine ⟨[(t, { reqName := r, module := m, cu, path, isLocal := b, h, var := v })], (Go.ret_inj.mp hn).symm, ?_, ?_⟩
            · have hh : hit m n = some (t, r) := by rw [hit, if_pos hpre, hs]
              have := noted_eq (m := m) hk hv hname
              simp [this, hh]
            · intro x hx
              simp only [List.mem_singleton] at hx
              subst hx
              exact ⟨rfl, rfl⟩
          · rename_i hs
            refine none' ?_ hn
            rw [noted_eq hk hv hname, hit, if_pos hpre]
            split
            · rename_i t r hs'; exact absurd hs' (hs t r)
            · rfl
        · rename_i hpre
          exact none' (by rw [noted_eq hk hv hname, hit, if_neg hpre]; rfl) hn
  · rename_i hk
    refine ⟨fun x hx e => by simp only [List.mem_singleton] at hx; subst hx; exact absurd e hk, ?_⟩
    exact ⟨[], (Go.ret_inj.mp hn).symm, by simp [noted, hk], fun _ h => by simp at h⟩

theorem note_ok {db : Db} {m cu : Str} {path : List Nat} {b : Bool} {h : Item} {res : Res} (hp : h.kind = go! "Variable" → (db.variables.lookup h.id).isSome) :
    ∃ res', note db m cu path b h res = Go.ret res' := by
  unfold note
  split
  · rename_i hk
    obtain ⟨v, hv⟩ := Option.isSome_iff_exists.mp (hp hk)
    rw [hv]
    simp only
    repeat' split
    all_goals exact ⟨_, rfl⟩
  · exact ⟨_, rfl⟩

theorem Present.append {db : Db} {l l' : List Item} : Present db (l ++ l') ↔ Present db l ∧ Present db l' := by
  constructor
  · intro h; exact ⟨fun x hx => h x (List.mem_append_left _ hx), fun x hx => h x (List.mem_append_right _ hx)⟩
  · rintro ⟨h, h'⟩ x hx; exact (List.mem_append.mp hx).elim (h x) (h' x)

theorem walk_sound {db : Db} {m cu : Str} {path : List Nat} {i : Nat} {b : Bool} {items : List Item} {res res' : Res}
    (h : walk db m cu path i b items res = Go.ret res') :
    ∃ l refs, All db items l ∧ Present db l ∧ res' = addAll refs res ∧ Refs db m cu l refs := by
  have := walk.fixpoint_induct db m cu (motive := fun g => ∀ path i b items res (o : Option Res), g path i b items res = Outcome.ok o → ∀ res', o = some res' →
      ∃ l refs, All db items l ∧ Present db l ∧ res' = addAll refs res ∧ Refs db m cu l refs)
    (by
      apply Lean.Order.admissible_pi_apply (P := fun path (g : Nat → Bool → List Item → Res → Go Res) => ∀ i b items res (o : Option Res), g i b items res = Outcome.ok o → ∀ res', o = some res' →
        ∃ l refs, All db items l ∧ Present db l ∧ res' = addAll refs res ∧ Refs db m cu l refs)
      intro path
      apply Lean.Order.admissible_pi_apply (P := fun i (g : Bool → List Item → Res → Go Res) => ∀ b items res (o : Option Res), g b items res = Outcome.ok o → ∀ res', o = some res' →
        ∃ l refs, All db items l ∧ Present db l ∧ res' = addAll refs res ∧ Refs db m cu l refs)
      intro i
      apply Lean.Order.admissible_pi_apply (P := fun b (g : List Item → Res → Go Res) => ∀ items res (o : Option Res), g items res = Outcome.ok o → ∀ res', o = some res' →
        ∃ l refs, All db items l ∧ Present db l ∧ res' = addAll refs res ∧ Refs db m cu l refs)
      intro b
      apply Lean.Order.admissible_pi_apply (P := fun items (g : Res → Go Res) => ∀ res (o : Option Res), g res = Outcome.ok o → ∀ res', o = some res' →
        ∃ l refs, All db items l ∧ Present db l ∧ res' = addAll refs res ∧ Refs db m cu l refs)
      intro items
      apply Lean.Order.admissible_pi_apply (P := fun res (g : Go Res) => ∀ (o : Option Res), g = Outcome.ok o → ∀ res', o = some res' →
        ∃ l refs, All db items l ∧ Present db l ∧ res' = addAll refs res ∧ Refs db m cu l refs)
      intro res
      exact Outcome.admissible_ok _)
    (by
      intro g hg path i b items res o ho res' he
      subst he
      change _ = Go.ret res' at ho
      cases items with
      | nil =>
        have := Go.ret_inj.mp ho
        exact ⟨[], [], .nil, fun _ h => by simp at h, this.symm, .nil⟩
      | cons x rest =>
        simp only at ho
        obtain ⟨r1, h1, ho⟩ := Go.bind_ret.mp ho
        obtain ⟨p1, refs1, e1, f1⟩ := note_ret h1
        cases hs : scopeMap db x.kind with
        | none =>
          rw [hs] at ho
          obtain ⟨l, refs, a1, a2, a3, a4⟩ := hg _ _ _ _ _ _ ho _ rfl
          refine ⟨x :: l, refs1 ++ refs, .leaf (by rw [isScope_iff db, hs]; simp) a1, ?_, ?_, f1.append a4⟩
          · exact (Present.append (l := [x])).mpr ⟨p1, a2⟩
          · rw [a3, e1, addAll_append]
        | some mp =>
          rw [hs] at ho
          simp only at ho
          cases hl : mp.lookup x.id with
          | none => rw [hl] at ho; exact absurd ho Go.fail_ne
          | some s =>
            rw [hl] at ho
            obtain ⟨r2, h2, ho⟩ := Go.bind_ret.mp ho
            obtain ⟨k, refs2, b1, b2, b3, b4⟩ := hg _ _ _ _ _ _ h2 _ rfl
            obtain ⟨l, refs, a1, a2, a3, a4⟩ := hg _ _ _ _ _ _ ho _ rfl
            refine ⟨x :: (k ++ l), refs1 ++ (refs2 ++ refs), .scope (by rw [isScope_iff db, hs]; rfl) (by rw [contents_eq, hs]; simp [hl]) b1 a1, ?_, ?_, f1.append (b4.append a4)⟩
            · exact (Present.append (l := [x])).mpr ⟨p1, Present.append.mpr ⟨b2, a2⟩⟩
            · rw [a3, b3, e1, addAll_append, addAll_append])
  exact this path i b items res _ h _ rfl

theorem walk_total {db : Db} {m cu : Str} {items l : List Item} (h : All db items l) : Present db l → ∀ (path : List Nat) (i : Nat) (b : Bool) (res : Res),
    ∃ res', walk db m cu path i b items res = Go.ret res' := by
  induction h with
  | nil => intro _ path i b res; rw [walk]; exact ⟨_, rfl⟩
  | leaf hs _ ih =>
    intro hp path i b res
    rename_i x rest l _
    rw [walk]
    simp only
    obtain ⟨r1, h1⟩ := note_ok (db := db) (m := m) (cu := cu) (path := path) (b := b) (res := res) (hp x (.head _))
    rw [h1, ret_bind]
    rw [isScope_iff db] at hs
    cases hs' : scopeMap db x.kind with
    | some _ => rw [hs'] at hs; simp at hs
    | none => exact ih (fun y hy => hp y (.tail _ hy)) _ _ _ _
  | scope hs hc _ _ ih1 ih2 =>
    intro hp path i b res
    rename_i x rest inner l k _ _
    rw [walk]
    simp only
    obtain ⟨r1, h1⟩ := note_ok (db := db) (m := m) (cu := cu) (path := path) (b := b) (res := res) (hp x (.head _))
    rw [h1, ret_bind]
    rw [contents_eq] at hc
    cases hs' : scopeMap db x.kind with
    | none => rw [hs'] at hc; simp at hc
    | some mp =>
      rw [hs'] at hc
      simp only [Option.bind_some, Option.map_eq_some_iff] at hc
      obtain ⟨s, hl, rfl⟩ := hc
      simp only [hl]
      have hp' := (Present.append (l := [x])).mp hp
      have hp'' := Present.append.mp hp'.2
      obtain ⟨r2, h2⟩ := ih1 hp''.1 (path ++ [i]) 0 (decide (x.kind = go! "Subprogram")) r1
      rw [h2, ret_bind]
      exact ih2 hp''.2 _ _ _ _

theorem Spec.All.unique {db : Db} {items l l' : List Item} (h : All db items l) (h' : All db items l') : l = l' := by
  induction h generalizing l' with
  | nil => cases h'; rfl
  | leaf hs _ ih =>
    cases h' with
    | leaf _ h' => rw [ih h']
    | scope hs' => exact absurd hs' hs
  | scope hs hc _ _ ih1 ih2 =>
    cases h' with
    | leaf hs' => exact absurd hs hs'
    | scope _ hc' h1 h2 =>
      rw [hc] at hc'
      cases hc'
      rw [ih1 h1, ih2 h2]

/-! ### The dictionary of requests -/

def Sorted (d : List (Str × α)) : Prop := (d.map (·.1)).Pairwise EntryDb.Spec.Before

theorem lookup_dget {V : Type} (k : Str) (xs : List (Str × V)) : xs.lookup k = dget k xs := by
  induction xs with
  | nil => rfl
  | cons x xs ih =>
    obtain ⟨a, v⟩ := x
    by_cases h : k = a
    · subst h
      simp [List.lookup, dget]
    · have h' : ¬ a = k := fun e => h e.symm
      have h2 : (k == a) = false := by simp [h]
      simp only [List.lookup, h2]
      rw [ih]
      simp [dget, h']

theorem addAll_sorted (refs : List (Str × Ref)) {res : Res} (h : Sorted res) : Sorted (addAll refs res) := by
  induction refs generalizing res with
  | nil => exact h
  | cons x refs ih => exact ih (dictUpd_sorted _ _ _ _ h)

/-- The requests of a type. -/
def get (res : Res) (t : Str) : List Ref := (res.lookup t).getD []

theorem get_addAll (refs : List (Str × Ref)) {res : Res} (h : Sorted res) (t : Str) :
    get (addAll refs res) t = get res t ++ (refs.filter (·.1 = t)).map (·.2) := by
  induction refs generalizing res with
  | nil => simp [addAll]
  | cons x refs ih =>
    have hs := dictUpd_sorted x.1 [x.2] (fun rs => rs ++ [x.2]) res h
    have : addAll (x :: refs) res = addAll refs (dictUpd x.1 [x.2] (fun rs => rs ++ [x.2]) res) := rfl
    rw [this, ih hs]
    unfold get
    rw [lookup_dget, dget_dictUpd _ _ _ _ _ h, lookup_dget]
    by_cases e : x.1 = t
    · subst e
      simp only [if_true, Option.getD_some, decide_true, List.filter_cons_of_pos, List.map_cons]
      cases dget x.1 res <;> simp
    · rw [if_neg (fun e' => e e'.symm), List.filter_cons_of_neg (by simpa using e)]

/-- The walks of the compile units. -/
structure Walked (db : Db) (vis : Str × CUnit → List Item) : Prop where
  all : ∀ u ∈ db.units, All db u.2.hier (vis u)
  present : ∀ u ∈ db.units, Present db (vis u)

theorem foldlM_units {db : Db} {m : Str} : ∀ {us : List (Str × CUnit)} {res res' : Res},
    us.foldlM (fun res u => walk db m u.1 [] 0 false u.2.hier res) res = Go.ret res' →
    ∃ refss : List (List (Str × Ref)), res' = addAll refss.flatten res ∧
      GoDedup.Spec.Each (fun u refs => ∃ l, All db u.2.hier l ∧ Present db l ∧ Refs db m u.1 l refs) us refss
  | [], res, res', h => ⟨[], (Go.ret_inj.mp h).symm, .nil⟩
  | u :: us, res, res', h => by
    rw [List.foldlM_cons] at h
    obtain ⟨r1, h1, h⟩ := Go.bind_ret.mp h
    obtain ⟨l, refs, a1, a2, a3, a4⟩ := walk_sound h1
    obtain ⟨refss, b1, b2⟩ := foldlM_units h
    exact ⟨refs :: refss, by rw [b1, a3, List.flatten_cons, addAll_append], .cons ⟨l, a1, a2, a4⟩ b2⟩

theorem foldlM_units_total {db : Db} {m : Str} {vis : Str × CUnit → List Item} : ∀ {us : List (Str × CUnit)} {res : Res},
    (∀ u ∈ us, All db u.2.hier (vis u) ∧ Present db (vis u)) →
    ∃ res', us.foldlM (fun res u => walk db m u.1 [] 0 false u.2.hier res) res = Go.ret res'
  | [], res, _ => ⟨_, rfl⟩
  | u :: us, res, h => by
    obtain ⟨r1, h1⟩ := walk_total (m := m) (cu := u.1) (h u (.head _)).1 (h u (.head _)).2 [] 0 false res
    obtain ⟨r2, h2⟩ := foldlM_units_total (res := r1) (fun x hx => h x (.tail _ hx))
    exact ⟨r2, by rw [List.foldlM_cons, h1, ret_bind]; exact h2⟩

end Verif.Generate
