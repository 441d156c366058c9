import Verif.TagGen.Lemmas
/-
Theorems about the functions that the tag map macros make: C118.
-/
namespace Verif.TagGen
open Verif Verif.Entry Verif.Entry.Spec Verif.TagMap Verif.TagMap.Spec Verif.TagGen.Spec

/-- C118, `METAC_TAG_MAP_NEW`, whatever categories, statements and memory: the function returns
a map only if every entry was found and every assignment was made, and then the map answers
every lookup as these assignments say. -/
theorem C118_new (db : Db) (masks : List Nat) (d : Option Tag) (ss : List Stmt) (cs : List Call) (whole : Bool)
    (hw : Written db none ss cs whole) (hac : ∀ c ∈ cs, ∀ r, c.entry = some r → Acyclic db r) (h : Heap) (ho : h.Ok) (tr made : List Nat)
    (m : TagMap) (st : Heap × List Nat) (made' : List Nat)
    (hg : generate db (masks.map (fun mask => (mask, none))) d ss (h, tr) made = .ok (some m, st, made')) :
    whole = true ∧ ∃ T, History db (fun i => 0 ≤ i ∧ i < masks.length) ((∃ k, h.fails k = true) ∨ ∃ c ∈ cs, c.putOk = false) (fun _ _ => none)
        cs (cs.map fun _ => 0) T ∧
      ∀ r, Acyclic db r → ∃ t, tag db (some m) (some r) = .ok t ∧ Chosen db r masks T d (t.map STag.tag) := by
  rcases hn : new (some (masks.map (fun mask => (mask, none)))) d (h, tr) with ⟨m0, st0⟩ | _ | _ | _
  · rw [generate, hn] at hg
    cases m0 with
    | none => exact absurd (Outcome.ok.inj hg) (by simp)
    | some m0 =>
      obtain ⟨pre, codes, m', st', done, hp, h1, h2, h3⟩ := exec_progress hw false (some m0) st0 made (by
        intro pre hpre
        obtain ⟨codes, m', st', T, e, _⟩ := C34_lookup db masks d pre (fun c hc => hac c (hpre.subset hc)) h ho tr m0 st0 hn
        exact ⟨_, e⟩)
      obtain ⟨codes2, m2, st2, T, e, hh, hl⟩ := C34_lookup db masks d pre (fun c hc => hac c (hp.subset hc)) h ho tr m0 st0 hn
      rw [h1] at e
      cases e
      change (exec db false ss none (some m0) st0 made >>= _) = _ at hg
      rw [h3] at hg
      cases h2 with
      | done hw hz =>
        cases Outcome.ok.inj hg
        have hc : codes = cs.map fun _ => 0 := by
          refine List.ext_getElem (by simp [run_length h1]) fun i hi hi' => ?_
          simp [hz codes[i] (List.getElem_mem _)]
        exact ⟨hw, T, hc ▸ hh, hl⟩
      | missing =>
        cases hdel : delete (some m2) st' with
        | ok x => simp [outcome, fail, hdel, bind, pure, Outcome.bind] at hg
        | _ => simp [outcome, fail, hdel, bind, pure, Outcome.bind] at hg
      | refused =>
        cases hdel : delete (some m2) st' with
        | ok x => simp [outcome, fail, hdel, bind, pure, Outcome.bind] at hg
        | _ => simp [outcome, fail, hdel, bind, pure, Outcome.bind] at hg
  all_goals (rw [generate, hn] at hg; cases hg)

/-- C118, `METAC_TAG_MAP_NEW` with any categories: the function always comes to its end.  It
returns NULL exactly if the map itself cannot be made, an entry is missing or an assignment is
refused; nothing after the first such statement is tried. -/
theorem C118_outcome (db : Db) (cats : List CatSpec) (d : Option Tag) (ss : List Stmt) (cs : List Call) (whole : Bool)
    (hw : Written db none ss cs whole) (hac : ∀ c ∈ cs, ∀ r, c.entry = some r → Acyclic db r) (h : Heap) (ho : h.Ok) (tr made : List Nat) :
    (∃ st, generate db cats d ss (h, tr) made = .ok (none, st, made) ∧ (cats = [] ∨ ∃ k, h.fails k = true)) ∨
    (∃ pre codes T m st, Progress cs whole pre codes m.isSome ∧
      History db (Own cats) ((∃ k, h.fails k = true) ∨ ∃ c ∈ cs, c.putOk = false) (fun _ _ => none) pre codes T ∧
      generate db cats d ss (h, tr) made = .ok (m, st, made ++ contexts pre)) := by
  rcases generate_ok db cats d ss cs whole hw hac h ho tr made with ⟨h1, tr1, _, e, _, hk⟩ | ⟨pre, codes, T, done, hp, hh, _, hd⟩
  · exact .inl ⟨_, e, hk⟩
  · right
    rcases hd with ⟨rfl, m, st, e⟩ | ⟨rfl, h', tr', e, _⟩
    · exact ⟨pre, codes, T, some m, st, hp, hh, e⟩
    · exact ⟨pre, codes, T, none, _, hp, hh, e⟩

/-- C118 (partial: see `C118_context_false`), memory of a `METAC_TAG_MAP_NEW` function that
returns NULL: all blocks are given back, and each context that was made on the way is released
exactly once — apart from the one of the assignment that was refused. -/
theorem C118_memory_partial (db : Db) (cats : List CatSpec) (d : Option Tag) (ss : List Stmt) (cs : List Call) (whole : Bool)
    (hw : Written db none ss cs whole) (hac : ∀ c ∈ cs, ∀ r, c.entry = some r → Acyclic db r) (hput : ∀ c ∈ cs, c.putOk = true)
    (hop : ∀ c ∈ cs, c.op = 1 ∨ c.op = 2) (h : Heap) (ho : h.Ok) (tr made : List Nat) (h' : Heap) (tr' made' : List Nat)
    (hg : generate db cats d ss (h, tr) made = .ok (none, (h', tr'), made')) :
    h'.live = h.live ∧ ((∃ st, new (some cats) d (h, tr) = .ok (none, st)) ∨
      ∃ got lost, made' = made ++ got ∧ (tr' ++ lost).Perm (tr ++ (d.map release).getD [] ++ got) ∧
        (lost = [] ∨ ∃ a, Stmt.setTag a ∈ ss ∧ lost = release a.tag)) := by
  rcases generate_ok db cats d ss cs whole hw hac h ho tr made with ⟨h1, tr1, e0, e, hl, hk⟩ | ⟨pre, codes, T, done, hp, hh, hlen, hd⟩
  · rw [e] at hg
    cases hg
    exact ⟨hl, .inl ⟨_, e0⟩⟩
  · rcases hd with ⟨rfl, m, st, e⟩ | ⟨rfl, h1, tr1, e, hl, hperm⟩
    · rw [e] at hg
      cases hg
    · rw [e] at hg
      cases hg
      refine ⟨hl hput, .inr ⟨contexts pre, ?_⟩⟩
      cases hp with
      | missing _ hz =>
        rw [releases_zero cs codes hlen hz hop] at hperm
        exact ⟨[], rfl, by simpa using hperm, .inl rfl⟩
      | @refused pre c rest codes code hcs hz hne hl2 =>
        obtain ⟨a, ha1, ha2⟩ := written_mem hw (c := c) (by rw [hcs]; simp)
        refine ⟨release a.tag, rfl, ?_, .inr ⟨a, ha1, rfl⟩⟩
        rw [releases_append pre [c] codes [code] hl2, releases_zero pre codes hl2 hz (fun c hc => hop c (by rw [hcs]; simp [hc]))] at hperm
        have : contexts (pre ++ [c]) = contexts pre ++ release a.tag := by simp [contexts, ha2]
        rw [this]
        have h2 := hperm.append_right (release a.tag)
        simpa [releases, hne, List.append_assoc] using h2

/-- C118, `METAC_TAG_MAP_APPEND` (partial: see `C118_append_false`), applied to a map after any
calls: the function returns the map exactly if every entry was found and every assignment was
made.  Either way the map has its former assignments and those that were made up to the first
failure, in this order, and answers every lookup so. -/
theorem C118_append_partial (db : Db) (masks : List Nat) (d : Option Tag) (before : List Call) (ss : List Stmt) (cs : List Call) (whole : Bool)
    (hw : Written db none ss cs whole) (hac : ∀ c ∈ before ++ cs, ∀ r, c.entry = some r → Acyclic db r) (h : Heap) (ho : h.Ok) (tr made : List Nat)
    (m : TagMap) (st : Heap × List Nat) (hnew : new (some (masks.map (fun mask => (mask, none)))) d (h, tr) = .ok (some m, st))
    (codes : List Int) (m1 : Option TagMap) (st1 : Heap × List Nat) (hrun : run db before (some m) st = .ok (codes, m1, st1)) :
    ∃ done m2 st2 pre codes' T, appendTo db ss m1 st1 made = .ok (done, some m2, st2, made ++ contexts pre) ∧ Progress cs whole pre codes' done ∧
      History db (fun i => 0 ≤ i ∧ i < masks.length) ((∃ k, h.fails k = true) ∨ ∃ c ∈ before ++ pre, c.putOk = false) (fun _ _ => none)
        (before ++ pre) (codes ++ codes') T ∧
      ∀ r, Acyclic db r → ∃ t, tag db (some m2) (some r) = .ok t ∧ Chosen db r masks T d (t.map STag.tag) := by
  have hall : ∀ pre, pre <+: cs → ∀ c ∈ before ++ pre, ∀ r, c.entry = some r → Acyclic db r := by
    intro pre hpre c hc
    refine hac c ?_
    rcases List.mem_append.1 hc with hc | hc
    · simp [hc]
    · simp [hpre.subset hc]
  have hsplit : ∀ pre, pre <+: cs → ∃ c2 m2 st2 T, run db pre m1 st1 = .ok (c2, some m2, st2) ∧
      History db (fun i => 0 ≤ i ∧ i < masks.length) ((∃ k, h.fails k = true) ∨ ∃ c ∈ before ++ pre, c.putOk = false) (fun _ _ => none)
        (before ++ pre) (codes ++ c2) T ∧
      ∀ r, Acyclic db r → ∃ t, tag db (some m2) (some r) = .ok t ∧ Chosen db r masks T d (t.map STag.tag) := by
    intro pre hpre
    obtain ⟨c, m2, st2, T, e, hh, hl⟩ := C34_lookup db masks d (before ++ pre) (hall pre hpre) h ho tr m st hnew
    obtain ⟨c1, c2, m3, st3, e1, e2, rfl⟩ := run_split e
    rw [hrun] at e1
    cases e1
    exact ⟨c2, m2, st2, T, e2, hh, hl⟩
  obtain ⟨_, m1', _, _, e0, _⟩ := hsplit [] ⟨cs, rfl⟩
  cases e0
  obtain ⟨pre, codes', m', st', done, hp, h1, h2, h3⟩ := exec_progress hw true (some m1') st1 made (by
    intro pre hpre
    obtain ⟨_, _, _, _, e, _⟩ := hsplit pre hpre
    exact ⟨_, e⟩)
  obtain ⟨c2, m2, st2, T, e, hh, hl⟩ := hsplit pre hp
  rw [h1] at e
  cases e
  refine ⟨done, m2, st', pre, codes', T, ?_, h2, hh, hl⟩
  show exec db true ss none (some m1') st1 made = _
  rw [h3]
  cases done <;> rfl

/-- C118, a `METAC_TAG_MAP_APPEND` function for NULL: it returns NULL, sets nothing and makes no
contexts. -/
theorem C118_append_null (db : Db) (ss : List Stmt) (st : Heap × List Nat) (made : List Nat) :
    appendTo db ss none st made = .ok (false, none, st, made) := by
  simp [appendTo]

/-- C118 is false of the code for contexts: the context (12) that was made for an assignment
that is refused (here a second one for the same entry) is not released, although the function
deletes its map. -/
theorem C118_context_false : ∃ h', generate exDb [(7, none)] none
      [.entry (some 2), .setTag ⟨0, 1, false, .self, ⟨some 1, some 11, true, none⟩, true⟩,
        .setTag ⟨0, 1, false, .self, ⟨some 1, some 12, true, none⟩, true⟩] (Heap.empty (fun _ => false), []) [] =
      .ok (none, (h', [11]), [11, 12]) ∧ ∀ b < 20, h'.live b = false :=
  ⟨_, rfl, by decide⟩

/-- C118 is false of the code for appending: a function that returns NULL has left some of its
assignments (here for entry 3) in the caller's map, and making the same call again fails at the
first statement for that reason. -/
theorem C118_append_false : ∃ m st, newSimple none (Heap.empty (fun _ => false), []) = .ok (some m, st) ∧
    let ss := [Stmt.entry (some 3), .setTag ⟨0, 1, false, .self, exTag 1, true⟩, .entry none]
    ∃ m' st', appendTo exDb ss (some m) st [] = .ok (false, some m', st', []) ∧
      (∃ t, tag exDb (some m) (some 3) = .ok none ∧ tag exDb (some m') (some 3) = .ok (some t) ∧ t.tag = exTag 1) ∧
      ∃ st'', appendTo exDb ss (some m') st' [] = .ok (false, some m', st'', []) :=
  ⟨_, _, rfl, _, _, rfl, ⟨_, rfl, rfl, rfl⟩, _, rfl⟩

/-! ### The theorems apply -/

/-- A map with a section for variable 2 and one for member 3. -/
def exStmts : List Stmt :=
  [.entry (some 2), .setTag ⟨0, 1, false, .self, ⟨some 1, some 11, true, some [97]⟩, true⟩, .setTag ⟨0, 1, true, .self, exTag 2, true⟩,
    .entry (some 3), .setTag ⟨1, 1, false, .self, exTag 3, true⟩]
def exCalls : List Call :=
  [⟨0, false, some 2, 1, some ⟨some 1, some 11, true, some [97]⟩, true⟩, ⟨0, true, some 2, 1, some (exTag 2), true⟩,
    ⟨1, false, some 3, 1, some (exTag 3), true⟩]

theorem exWritten : Written exDb none exStmts exCalls true :=
  .entry (.setTag .self (.setTag .self (.entry (.setTag .self .end))))

/-- The function made of these statements returns a map which has the tag for entry 3. -/
theorem case118 : (∃ m st made', generate exDb ([1, 4].map fun mask => (mask, none)) none exStmts (Heap.empty (fun _ => false), []) [] = .ok (some m, st, made') ∧
      made' = [11] ∧ ∃ t, tag exDb (some m) (some 3) = .ok (some t) ∧ t.tag = exTag 3) ∧
    (∀ c ∈ exCalls, ∀ r, c.entry = some r → Acyclic exDb r) ∧ (∀ c ∈ exCalls, c.putOk = true ∧ (c.op = 1 ∨ c.op = 2)) := by
  refine ⟨⟨_, _, _, rfl, rfl, _, rfl, rfl⟩, fun c _ r _ => exDb_acyclic r, ?_⟩
  decide

/-- A struct type (0) with the members 2 and 3, and a function (4) with the parameter 5. -/
def exStruct : Db
  | 0 => ⟨.struct .struct 8 [2, 3], none, false, 0, []⟩
  | 1 => ⟨.base 4 5, none, false, 0, []⟩
  | 4 => ⟨.subprogram none [5], none, false, 0, []⟩
  | 5 => ⟨.param false (some 1), none, false, 0, []⟩
  | _ => ⟨.member { type := some 1 }, none, false, 0, []⟩

/-- Statements for its second member and for the parameter. -/
example : Written exStruct none
    [.entry (some 0), .setTag ⟨0, 1, false, .member [⟨none, 1⟩], exTag 1, true⟩, .entry (some 4), .setTag ⟨0, 1, false, .param ⟨none, 0⟩, exTag 2, true⟩]
    [⟨0, false, some 3, 1, some (exTag 1), true⟩, ⟨0, false, some 5, 1, some (exTag 2), true⟩] true :=
  .entry (.setTag (.member (by
    have h : finalOf exStruct (some 0) isStruct = some (some 0) := finalOf_final (db := exStruct) (r := 0) (.here (by intro t h; cases h <;> rename_i h <;> simp [exStruct] at h)) isStruct
    simp [byMemberIds, memberStep, byMemberId, h]
    rfl)) (.entry (.setTag (.param (by
    have h : finalOf exStruct (some 4) isFunc = some (some 4) := finalOf_final (db := exStruct) (r := 4) (.here (by intro t h; cases h <;> rename_i h <;> simp [exStruct] at h)) isFunc
    simp [byParameterIds, parameterStep, byParameterId, h]
    rfl)) .end)))

end Verif.TagGen
