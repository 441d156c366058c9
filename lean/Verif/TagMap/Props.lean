import Verif.TagMap.Assign
import Verif.Entry.Acyclic
/-
Theorems about tag maps: C33, C34, C56.
-/
namespace Verif.TagMap
open Verif Verif.Entry Verif.Entry.Spec Verif.TagMap.Spec

/-! ### Example objects -/

/-- Entries: 0 is `int`, 1 a typedef of it, 2 a variable, 3 a member and 4 a parameter of the
typedef's type, 5 a variable without tag. -/
def exDb : Db
  | 0 => ⟨.base 4 5, none, false, 0, []⟩
  | 1 => ⟨.typedef (some 0), none, false, 0, []⟩
  | 2 => ⟨.var (some 1), none, false, 0, []⟩
  | 3 => ⟨.member { type := some 1 }, none, false, 0, []⟩
  | 4 => ⟨.param false (some 1), none, false, 0, []⟩
  | _ => ⟨.var (some 0), none, false, 0, []⟩

theorem exDb_acyclic (r : Ref) : Acyclic exDb r := by
  refine acyclic_of_down ?_ r
  intro r t h
  unfold exDb at h
  split at h <;> simp [nextOf] at h <;> subst h
  · decide
  · decide
  · decide
  · decide
  · exact Nat.pos_of_ne_zero (by assumption)

def exTag (n : Nat) : Tag := ⟨some n, none, false, none⟩
def exS (n : Nat) : STag := ⟨n, none, exTag n⟩

/-- A map for variables (with final types) and members, with the default tag 9. -/
def exMap : TagMap := .mk 100 101 (.own 9 102 [(0, exS 1), (2, exS 2)] (.own 4 103 [(2, exS 3), (3, exS 4)] .nil)) (some (exS 9))
/-- A map that asks `exMap` about variables and parameters first and knows entry 4 itself. -/
def exOuter : TagMap := .mk 200 201 (.ext 3 exMap (.own 7 202 [(4, exS 5)] .nil)) none
/-- The same with a map that has no default tag. -/
def exNoDefault : TagMap := .mk 300 301 (.own 2 302 [] .nil) none
def exStacked : TagMap := .mk 400 401 (.ext 2 exNoDefault (.own 2 402 [(4, exS 5)] .nil)) none

/-! ### C33 -/

/-- C33 (partial: see `C33_ext_false`).  The lookup returns the tag that the order of the
categories prescribes — unless it comes to an external map that has no answer, in which case
the process aborts. -/
theorem C33_lookup_partial (db : Db) (m : TagMap) (r : Ref) (ha : Acyclic db r) :
    (∃ t, tag db (some m) (some r) = .ok t ∧ Gives db r m t) ∨ (tag db (some m) (some r) = .abort ∧ Miss db r m) :=
  tagOf_spec ha m

/-- The prescribed tag is unique, and the lookup never returns it by way of an external map
without an answer. -/
theorem C33_determined (db : Db) (m : TagMap) (r : Ref) (hd : Distinct m) (ha : Acyclic db r) :
    (∀ t t', Gives db r m t → Gives db r m t' → t = t') ∧ (Miss db r m → tag db (some m) (some r) = .abort) :=
  ⟨fun _ _ h h' => Gives_unique m hd h h', fun h => miss_aborts ha m hd h⟩

/-- C33 in full for maps without external categories, with NULL map and NULL entry. -/
theorem C33_lookup_plain (db : Db) (b cb : Nat) (cats : Cats) (d : Option STag) (hp : Plain cats) (r : Ref) (ha : Acyclic db r) :
    (∃ t, tag db (some (.mk b cb cats d)) (some r) = .ok t ∧ Gives db r (.mk b cb cats d) t) ∧
    tag db none (some r) = .ok none ∧ tag db none none = .ok none ∧ tag db (some (.mk b cb cats d)) none = .ok d := by
  refine ⟨?_, rfl, rfl, ?_⟩
  · rcases tagOf_spec ha (.mk b cb cats d) with h | ⟨_, h⟩
    · exact h
    · cases h with
      | mk h => exact absurd h (plain_no_miss cats hp)
  · have : ∀ cats, searchCats db none cats = .ok none := by
      intro cats
      induction cats using Cats.rec (motive_1 := fun _ => True) with
      | mk => trivial
      | nil => rw [searchCats]
      | own mask hm map rest ih => rw [searchCats]; simp only [kind, kindMask]; simpa using ih
      | ext mask m rest _ ih => rw [searchCats]; simp only [kind, kindMask]; simpa using ih
    show tagOf db none (.mk b cb cats d) = .ok d
    rw [tagOf, this]; rfl

/-- C33 is false of the code: entry 4 has a tag in the second category, but the first category
is external and does not know it. -/
theorem C33_ext_false : Gives exDb 4 exStacked (some (exS 5)) ∧ tag exDb (some exStacked) (some 4) = .abort := by
  refine ⟨.category (.laterExt (.default (.own ?_ .nil)) (.own (.param rfl rfl) (.entry (List.mem_singleton.2 rfl)))), ?_⟩
  · intro _ s h
    cases h with
    | entry h => simp at h
    | final _ _ _ h => simp at h
  · rfl

/-- The lookups of the example: directly, through the final type, by category, by default,
through an external map. -/
example : tag exDb (some exMap) (some 2) = .ok (some (exS 2)) ∧ tag exDb (some exMap) (some 3) = .ok (some (exS 4)) ∧
    tag exDb (some exMap) (some 4) = .ok (some (exS 9)) ∧ tag exDb (some exOuter) (some 4) = .ok (some (exS 9)) ∧
    tag exDb (some exOuter) (some 3) = .ok none := by
  refine ⟨rfl, rfl, rfl, rfl, rfl⟩
example : tag exDb (some exMap) (some 5) = .ok (some (exS 1)) := by
  have hf : Final exDb 5 (some 0) _ := .step (.var rfl) (.here (by intro t h; cases h <;> rename_i h <;> simp [exDb] at h))
  rcases C33_lookup_partial exDb exMap 5 (exDb_acyclic 5) with ⟨t, h1, h2⟩ | ⟨_, h⟩
  · rw [h1]
    have : Gives exDb 5 exMap (some (exS 1)) :=
      .category (.own (.var rfl rfl) (.final (by intro s h; simp at h) rfl hf (by simp)))
    rw [(C33_determined exDb exMap 5 ⟨by decide, by decide, trivial⟩ (exDb_acyclic 5)).1 _ _ h2 this]
  · cases h with
    | mk h => exact absurd h (plain_no_miss _ (by simp [Plain]))
example : Plain (.own 9 102 [(0, exS 1), (2, exS 2)] (.own 4 103 [(2, exS 3), (3, exS 4)] .nil)) := by simp [Plain]
example : Distinct exOuter ∧ Distinct exStacked := by
  simp only [exOuter, exMap, exStacked, exNoDefault, Distinct, DistinctCats, List.map]
  decide

/-! ### C34 -/

/-- C34.  Create a map with any categories, then make any calls: each call stores its tag,
reports the conflict, or changes nothing, as `Effect` says, starting from no assignments. -/
theorem C34_history (db : Db) (cs : List CatSpec) (d : Option Tag) (calls : List Call)
    (hac : ∀ c ∈ calls, ∀ r, c.entry = some r → Acyclic db r) (h : Heap) (ho : h.Ok) (tr : List Nat) :
    (∃ st, new (some cs) d (h, tr) = .ok (none, st) ∧ (cs = [] ∨ ∃ k, h.fails k = true)) ∨
    (∃ m st, new (some cs) d (h, tr) = .ok (some m, st) ∧ ∃ codes m' st' T, run db calls (some m) st = .ok (codes, some m', st') ∧
      History db (Own cs) ((∃ k, h.fails k = true) ∨ ∃ c ∈ calls, c.putOk = false) (fun _ _ => none) calls codes T) := by
  rcases new_ok cs d (Heap.Owns.init ho) tr with ⟨b, cb, cats, ds, h1, e1, o1, f1, hd, em, hf, hne⟩ | ⟨h1, tr1, e1, _, _, hk⟩
  · right
    refine ⟨_, _, e1, ?_⟩
    have inv : Inv cs cats := ⟨hf, fun n map hm => by rw [em.map hm]; simp⟩
    obtain ⟨codes, cats', h2, tr2, leak, e2, inv2, o2, f2, _, hh, _⟩ :=
      run_ok ((∃ k, h.fails k = true) ∨ ∃ c ∈ calls, c.putOk = false) calls hac inv (by
        intro c hc hk
        rcases hk with hk | hk
        · rw [f1] at hk; exact .inl hk
        · exact .inr ⟨c, hc, hk⟩) o1 tr
    refine ⟨codes, _, _, tableOf cats', e2, ?_⟩
    rw [tableOf_empty em] at hh
    exact hh
  · exact .inl ⟨_, e1, hk⟩

/-- C34, lookups: in a map without external categories every lookup after the calls returns
the tag that the assignments made so far prescribe. -/
theorem C34_lookup (db : Db) (masks : List Nat) (d : Option Tag) (calls : List Call)
    (hac : ∀ c ∈ calls, ∀ r, c.entry = some r → Acyclic db r) (h : Heap) (ho : h.Ok) (tr : List Nat) (m : TagMap) (st : Heap × List Nat)
    (hnew : new (some (masks.map (fun mask => (mask, none)))) d (h, tr) = .ok (some m, st)) :
    ∃ codes m' st' T, run db calls (some m) st = .ok (codes, some m', st') ∧
      History db (fun i => 0 ≤ i ∧ i < masks.length) ((∃ k, h.fails k = true) ∨ ∃ c ∈ calls, c.putOk = false) (fun _ _ => none) calls codes T ∧
      ∀ r, Acyclic db r → ∃ t, tag db (some m') (some r) = .ok t ∧ Chosen db r masks T d (t.map STag.tag) := by
  rcases new_ok (masks.map (fun mask => (mask, none))) d (Heap.Owns.init ho) tr with
    ⟨b, cb, cats, ds, h1, e1, o1, f1, hd, em, hf, hne⟩ | ⟨h1, tr1, e1, _, _, hk⟩
  · rw [e1] at hnew
    simp only [Outcome.ok.injEq, Prod.mk.injEq, Option.some.injEq] at hnew
    obtain ⟨rfl, rfl⟩ := hnew
    have inv : Inv (masks.map (fun mask => (mask, none))) cats := ⟨hf, fun n map hm => by rw [em.map hm]; simp⟩
    obtain ⟨codes, cats', h2, tr2, leak, e2, inv2, o2, f2, _, hh, _⟩ :=
      run_ok ((∃ k, h.fails k = true) ∨ ∃ c ∈ calls, c.putOk = false) calls hac inv (by
        intro c hc hk
        rcases hk with hk | hk
        · rw [f1] at hk; exact .inl hk
        · exact .inr ⟨c, hc, hk⟩) o1 tr
    have hown : Own (masks.map (fun mask => (mask, none))) = fun i : Int => 0 ≤ i ∧ i < masks.length := by
      funext i
      apply propext
      constructor
      · rintro ⟨n, mask, rfl, hn⟩
        have := (List.getElem?_eq_some_iff.1 hn).1
        rw [List.length_map] at this
        omega
      · rintro ⟨h1, h2⟩
        refine ⟨i.toNat, masks[i.toNat]'(by omega), by omega, ?_⟩
        rw [List.getElem?_map, List.getElem?_eq_getElem (by omega)]
        rfl
    refine ⟨codes, _, _, _, e2, by rw [tableOf_empty em] at hh; rw [← hown]; exact hh, ?_⟩
    intro r har
    obtain ⟨t, h1, h2⟩ := lookup_chosen (b := b) (cb := cb) (d := ds) har inv2
    exact ⟨t, h1, hd ▸ h2⟩
  · rw [e1] at hnew
    simp at hnew

/-- C34 for `metac_new_tag_map`: a lookup for a variable, member or parameter returns the tag
assigned to it, else the default tag. -/
theorem C34_simple (db : Db) (d : Option Tag) (calls : List Call) (hac : ∀ c ∈ calls, ∀ r, c.entry = some r → Acyclic db r)
    (h : Heap) (ho : h.Ok) (tr : List Nat) (m : TagMap) (st : Heap × List Nat) (hnew : newSimple d (h, tr) = .ok (some m, st)) :
    ∃ codes m' st' T, run db calls (some m) st = .ok (codes, some m', st') ∧
      History db (fun i => i = 0) ((∃ k, h.fails k = true) ∨ ∃ c ∈ calls, c.putOk = false) (fun _ _ => none) calls codes T ∧
      ∀ r, Acyclic db r → ((∃ t, (db r).info = .var t) ∨ (∃ u t, (db r).info = .param u t) ∨ (∃ i, (db r).info = .member i)) →
        ∃ t, tag db (some m') (some r) = .ok t ∧ t.map STag.tag = (T 0 r).or d := by
  obtain ⟨codes, m', st', T, h1, h2, h3⟩ := C34_lookup db [7] d calls hac h ho tr m st hnew
  have hown : (fun i : Int => 0 ≤ i ∧ i < ([7] : List Nat).length) = fun i => i = 0 := by
    funext i
    apply propext
    simp only [List.length_singleton]
    constructor <;> intro h <;> omega
  rw [hown] at h2
  refine ⟨codes, m', st', T, h1, h2, ?_⟩
  intro r har hk
  obtain ⟨t, e, hc⟩ := h3 r har
  refine ⟨t, e, ?_⟩
  have happ : Applies db r 7 := by
    rcases hk with ⟨t, hk⟩ | ⟨u, t, hk⟩ | ⟨i, hk⟩
    · exact .var hk rfl
    · exact .param hk rfl
    · exact .member hk rfl
  generalize ht : t.map STag.tag = t' at hc
  cases hc with
  | @category n mask tg hm ha hkn _ =>
    have hn : n = 0 := by
      have := (List.getElem?_eq_some_iff.1 hm).1
      simp at this
      exact this
    subst hn
    simp only [List.getElem?_cons_zero, Option.some.injEq] at hm
    subst hm
    cases hkn with
    | entry hT => rw [hT]; rfl
    | final _ hb => exact absurd hb (by decide)
  | default hnone =>
    have : T 0 r = none := by
      cases hT : T 0 r with
      | none => rfl
      | some tg => exact absurd (.entry hT) (hnone 0 7 rfl happ tg)
    rw [this]; rfl

/-- Entry 2 gets tag 1; a second assignment without override is refused, with it accepted; entry
3 gets tag 4; category 1 does not exist. -/
def exCalls : List Call :=
  [⟨0, false, some 2, 1, some (exTag 1), true⟩, ⟨0, false, some 2, 1, some (exTag 2), true⟩, ⟨0, true, some 2, 1, some (exTag 3), true⟩,
   ⟨0, false, some 3, 1, some (exTag 4), true⟩, ⟨1, false, some 3, 1, some (exTag 4), true⟩]

example : ∃ m st, newSimple (some (exTag 9)) (Heap.empty (fun _ => false), []) = .ok (some m, st) ∧
    ∃ m' st', run exDb exCalls (some m) st = .ok ([0, -114, 0, 0, -22], some m', st') ∧
      (∃ t, tag exDb (some m') (some 2) = .ok (some t) ∧ t.tag = exTag 3) ∧ (∃ t, tag exDb (some m') (some 3) = .ok (some t) ∧ t.tag = exTag 4) ∧
      ∃ t, tag exDb (some m') (some 4) = .ok (some t) ∧ t.tag = exTag 9 :=
  ⟨_, _, rfl, _, _, rfl, ⟨_, rfl, rfl⟩, ⟨_, rfl, rfl⟩, ⟨_, rfl, rfl⟩⟩
example : ∀ c ∈ exCalls, ∀ r, c.entry = some r → Acyclic exDb r := fun _ _ r _ => exDb_acyclic r

/-! ### C56 -/

/-- C56 (partial: see `C56_leak_false`).  Creating a map, making any calls and deleting it
gives back all memory and releases the context of the default tag and of each tag stored on
the way exactly once; a failed creation leaves no memory behind. -/
theorem C56_release_partial (db : Db) (cs : List CatSpec) (d : Option Tag) (calls : List Call)
    (hac : ∀ c ∈ calls, ∀ r, c.entry = some r → Acyclic db r) (hput : ∀ c ∈ calls, c.putOk = true) (h : Heap) (ho : h.Ok) (tr : List Nat) :
    (∃ h' tr', new (some cs) d (h, tr) = .ok (none, h', tr') ∧ h'.live = h.live) ∨
    (∃ m st, new (some cs) d (h, tr) = .ok (some m, st) ∧ ∃ codes m' st', run db calls (some m) st = .ok (codes, m', st') ∧
      ∃ h' tr', delete m' st' = .ok (h', tr') ∧ h'.live = h.live ∧ tr'.Perm (tr ++ (d.map release).getD [] ++ releases calls codes)) := by
  have same : ∀ h', Heap.Owns h.live h' [] → h'.live = h.live := by
    intro h' o; funext x; rw [o.live]; simp
  rcases new_ok cs d (Heap.Owns.init ho) tr with ⟨b, cb, cats, ds, h1, e1, o1, f1, hd, em, hf, hne⟩ | ⟨h1, tr1, e1, o1, _, hk⟩
  · right
    refine ⟨_, _, e1, ?_⟩
    have inv : Inv cs cats := ⟨hf, fun n map hm => by rw [em.map hm]; simp⟩
    obtain ⟨codes, cats', h2, tr2, leak, e2, inv2, o2, f2, hl, hh, hp⟩ := run_ok True calls hac inv (by simp) o1 tr
    rw [hl hput] at o2
    obtain ⟨h3, tr3, e3, p3, o3, f3⟩ := delete_ok _ o2 tr2
    refine ⟨codes, _, _, e2, h3, tr3, e3, same h3 (by simpa using o3), ?_⟩
    have c1 := List.perm_iff_count.1 hp
    have c2 := List.perm_iff_count.1 p3
    refine List.perm_iff_count.2 fun x => ?_
    have a1 := c1 x
    have a2 := c2 x
    have hde : (ds.map STag.ctxs).getD [] = (d.map release).getD [] := by rw [← hd]; cases ds <;> rfl
    rw [empty_ctxs cats em] at a1
    simp only [ctxsOf, hde, List.count_append, List.count_nil] at *
    omega
  · exact .inl ⟨_, _, e1, same h1 o1⟩

/-- C56 is false of the code when the hash map has no memory for a new entry: the copied tag
string (block 4 here) is never freed. -/
theorem C56_leak_false : ∃ m st, newSimple none (Heap.empty (fun _ => false), []) = .ok (some m, st) ∧
    ∃ m' st', run exDb [⟨0, false, some 2, 1, some ⟨none, none, false, some [97]⟩, false⟩] (some m) st = .ok ([-14], m', st') ∧
      ∃ h', delete m' st' = .ok (h', []) ∧ h'.live 4 = true :=
  ⟨_, _, rfl, _, _, rfl, _, rfl, rfl⟩

/-- Contexts 11 (overridden), 12 and 13 (default) are released once each. -/
example : ∃ m st, newSimple (some ⟨none, some 13, true, some [97]⟩) (Heap.empty (fun _ => false), []) = .ok (some m, st) ∧
    ∃ m' st', run exDb [⟨0, false, some 2, 1, some ⟨none, some 11, true, some [97]⟩, true⟩, ⟨0, true, some 2, 1, some ⟨none, some 12, true, none⟩, true⟩]
      (some m) st = .ok ([0, 0], m', st') ∧ ∃ h', delete m' st' = .ok (h', [11, 12, 13]) ∧ ∀ b < 20, h'.live b = false := by
  refine ⟨_, _, rfl, _, _, rfl, _, rfl, by decide⟩

end Verif.TagMap
