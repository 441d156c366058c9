import Verif.Links.Symbols
/-
Lemmas for C100: the tests that are run.
-/
namespace Verif.Links
open Verif.GoMeta (Str)
open GoDwarf.Spec (Die)
open GoBuild.Spec (Tree Placed text num isTag parts)
open GoDedup (Off World St Go)
open GoDedup.Spec (tagName)
open Chain (Extra link Core)
open Chain.Spec (Input Read Program Told)
open Spec

variable {units : List (Nat × Tree)} {w : World} {st st0 : St} {order : List Off} {snake : Str → Str} {x : Extra} {db : Generate.Db}

/-- The test an entry is, if any. -/
def testIn (d : Tree) : Option Str :=
  if d.tag = go! "Variable" then (text d (go! "Name")).bind fun n => if go! "metac__test_" <+: n then some (n.drop 12) else none else none

theorem test_split {n : Str} {ts : List Str} : (if (go! "metac__").isPrefixOf n then
      match Generate.split2 (n.drop (go! "metac__").length) with
      | [t, r] => if t = go! "test" then Go.ret (ts ++ [r]) else Go.ret ts
      | _ => Go.ret ts
    else Go.ret ts) = Go.ret (ts ++ (if go! "metac__test_" <+: n then some (n.drop 12) else none : Option Str).toList) := by
  by_cases h : go! "metac__test_" <+: n
  · obtain ⟨r, rfl⟩ := h
    rw [if_pos (List.prefix_append _ r)]
    have e : (go! "metac__test_" ++ r) = go! "metac__" ++ (go! "test" ++ 95 :: r) := rfl
    have e2 : (go! "metac__test_" ++ r).drop 12 = r := rfl
    rw [e2, e, if_pos (List.isPrefixOf_iff_prefix.mpr ⟨_, rfl⟩), List.drop_left, Generate.split2_iff.mpr ⟨by decide, rfl⟩]
    rfl
  · rw [if_neg h]
    show _ = Go.ret (ts ++ [])
    rw [List.append_nil]
    split
    · rename_i hp
      obtain ⟨s, rfl⟩ := List.isPrefixOf_iff_prefix.mp hp
      rw [List.drop_left]
      split
      · rename_i t r hs
        obtain ⟨-, h2⟩ := Generate.split2_iff.mp hs
        rw [if_neg]
        rintro rfl
        exact h ⟨r, by rw [h2]; rfl⟩
      · rfl
    · rfl

theorem noteTest_eq (hi : Input units) (hc : Core units w st st0 order) (hT : Tables snake w st x db) {q : List Off} {d : Tree}
    (hp : Placed [] (units.map Prod.snd) q d) (ts : List Str) : noteTest db ts (item snake w st x d.off) = Go.ret (ts ++ (testIn d).toList) := by
  obtain ⟨c, c1, c2⟩ := kind_tag snake x hi hc hp
  have k1 : (item snake w st x d.off).kind = go! "Variable" ↔ d.tag = go! "Variable" := by rw [c2, cat_variable, c1]
  unfold noteTest testIn
  by_cases h1 : d.tag = go! "Variable"
  · rw [if_pos (k1.mpr h1), if_pos h1]
    have e : (item snake w st x d.off).id = link snake w st d.off := rfl
    rw [e, var_row hi hc hT hp h1]
    show (match text d (go! "Name") with
      | none => Go.ret ts
      | some n => _) = _
    cases text d (go! "Name") with
    | none => simp
    | some n => exact test_split
  · rw [if_neg (fun h => h1 (k1.mp h)), if_neg h1]
    simp

theorem unit_tests (hi : Input units) (hc : Core units w st st0 order) (hT : Tables snake w st x db) : ∀ {ds : List Tree} (_ : ∀ d ∈ ds, ∃ q, Placed [] (units.map Prod.snd) q d) (ts : List Str),
    (ds.map fun k => item snake w st x k.off).foldlM (noteTest db) ts = Go.ret (ts ++ ds.filterMap testIn)
  | [], _, ts => by rw [List.filterMap_nil, List.append_nil]; rfl
  | d :: ds, h, ts => by
    obtain ⟨q, hq⟩ := h d (List.mem_cons_self ..)
    rw [List.map_cons, List.foldlM_cons, noteTest_eq hi hc hT hq, Generate.ret_bind, unit_tests hi hc hT fun e he => h e (List.mem_cons_of_mem _ he), List.append_assoc]
    cases ht : testIn d with
    | none => rw [List.filterMap_cons_none ht]; rfl
    | some t => rw [List.filterMap_cons_some ht]; rfl

theorem all_tests (hi : Input units) (hc : Core units w st st0 order) (hT : Tables snake w st x db) : ∀ {us : List (Str × Generate.CUnit)} {k : Str × Generate.CUnit → List Tree}
    (_ : ∀ r ∈ us, r.2.hier = (k r).map (fun d => item snake w st x d.off) ∧ ∀ d ∈ k r, ∃ q, Placed [] (units.map Prod.snd) q d) (ts : List Str),
    us.foldlM (fun tests u => u.2.hier.foldlM (noteTest db) tests) ts = Go.ret (ts ++ us.flatMap fun r => (k r).filterMap testIn)
  | [], _, _, ts => by rw [List.flatMap_nil, List.append_nil]; rfl
  | r :: us, k, h, ts => by
    obtain ⟨h1, h2⟩ := h r (List.mem_cons_self ..)
    rw [List.foldlM_cons, h1, unit_tests hi hc hT h2, Generate.ret_bind, all_tests hi hc hT fun e he => h e (List.mem_cons_of_mem _ he), List.append_assoc, List.flatMap_cons]

/-- The parts of the unit a row is made from. -/
def partsOf (snake : Str → Str) (w : World) (st : St) (units : List (Nat × Tree)) (r : Str × Generate.CUnit) : List Tree :=
  match units.find? fun u => link snake w st u.2.off = r.1 with
  | none => []
  | some u => parts u.2

theorem partsOf_eq (hi : Input units) (hc : Core units w st st0 order) {u : Nat × Tree} (hu : u ∈ units) :
    partsOf snake w st units (unitOf snake w st x u.2) = parts u.2 := by
  unfold partsOf
  cases h : units.find? fun v => link snake w st v.2.off = (unitOf snake w st x u.2).1 with
  | none =>
    have := List.find?_eq_none.mp h u hu
    simp [unitOf] at this
  | some v =>
    have h1 := List.find?_some h
    have h2 := List.mem_of_find?_eq_some h
    simp only
    rw [unit_inj (snake := snake) hi hc h2 hu (of_decide_eq_true h1)]

theorem testsOf_eq (hi : Input units) (hc : Core units w st st0 order) (hT : Tables snake w st x db) :
    ∃ ts, testsOf db = Go.ret ts ∧ ts.Perm (tests units) := by
  refine ⟨_, all_tests hi hc hT (k := partsOf snake w st units) ?_ [], ?_⟩
  · intro r hr
    obtain ⟨u, hu, rfl⟩ := (unit_mem hi hc hT).mp hr
    rw [partsOf_eq hi hc hu]
    exact ⟨rfl, fun d hd => ⟨_, part_placed hu hd⟩⟩
  · rw [List.nil_append]
    refine ((units_perm hi hc hT).flatMap_right _).trans ?_
    rw [List.flatMap_map]
    have : units.flatMap (fun u => (partsOf snake w st units (unitOf snake w st x u.2)).filterMap testIn) = tests units := by
      unfold tests
      rw [List.flatMap_def, List.flatMap_def]
      congr 1
      apply List.map_congr_left
      intro u hu
      rw [partsOf_eq hi hc hu]
      rfl
    rw [this]

end Verif.Links
