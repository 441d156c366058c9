import Verif.Chain.SameProps
import Verif.Links.Model
import Verif.Links.Spec
/-
A program of two units for C97-C100: the first requests the symbol `y` of the second and, in a block of
its function, the entry of a local variable; each has a test.
-/
namespace Verif.Links
open Verif.GoMeta (Str)
open GoDwarf.Spec (Die)
open GoBuild (die)
open GoBuild.Spec (Tree Placed text num ref declared isTag parts)
open GoDedup (Off World St)
open Chain (Extra forall_some exSnake exSnake_word exSnake_snake)
open Chain.Spec (Input CTypes Writable WritableExtra Program typeTags uses sizes)
open Spec

def kInt (b : Off) : Tree := die (b + 30) (go! "BaseType") [(go! "Name", .str (go! "int")), (go! "ByteSize", .int 4), (go! "Encoding", .int 5)] []
def kVar (o t : Off) (n : Str) (file line : Int) : Tree :=
  die o (go! "Variable") [(go! "Name", .str n), (go! "Type", .off t), (go! "DeclFile", .int file), (go! "DeclLine", .int line)] []
def kX : Tree := kVar 40 30 (go! "x") 0 1
def kAskY : Tree := kVar 42 30 (go! "metac__dflt_gsym_y") 0 2
def kOne : Tree := kVar 44 30 (go! "metac__test_one") 0 3
def kI : Tree := kVar 54 30 (go! "i") 0 9
def kAskI : Tree := kVar 56 30 (go! "metac__dflt_entry_i1") 0 9
def kBlock : Tree := die 52 (go! "LexDwarfBlock") [] [kI, kAskI]
def kF : Tree := die 50 (go! "Subprogram") [(go! "Name", .str (go! "f")), (go! "Type", .off 30), (go! "DeclFile", .int 0), (go! "DeclLine", .int 8)] [kBlock]
def kY : Tree := kVar 140 130 (go! "y") 1 1
def kTwo : Tree := kVar 142 130 (go! "metac__test_two") 1 2
def kUnitA : Tree := die 11 (go! "CompileUnit") [(go! "Name", .str (go! "a.c"))] [kInt 0, kX, kAskY, kOne, kF]
def kUnitB : Tree := die 111 (go! "CompileUnit") [(go! "Name", .str (go! "b.c"))] [kInt 100, kY, kTwo]
def case97 : List (Nat × Tree) := [(1, kUnitA), (0, kUnitB)]
def all97 : List Tree := [kUnitA, kInt 0, kX, kAskY, kOne, kF, kBlock, kI, kAskI, kUnitB, kInt 100, kY, kTwo]

theorem case97_placed {q : List Off} {d : Tree} (h : Placed [] (case97.map Prod.snd) q d) :
    d ∈ all97 ∧ (d.tag ∈ typeTags → q = [11] ∨ q = [111]) := by
  have e1 : parts kUnitA = [kInt 0, kX, kAskY, kOne, kF] := rfl
  have e2 : parts kUnitB = [kInt 100, kY, kTwo] := rfl
  have e3 : ∀ b, parts (kInt b) = [] := fun _ => rfl
  have e4 : parts kX = [] ∧ parts kAskY = [] ∧ parts kOne = [] ∧ parts kI = [] ∧ parts kAskI = [] ∧ parts kY = [] ∧ parts kTwo = [] := ⟨rfl, rfl, rfl, rfl, rfl, rfl, rfl⟩
  obtain ⟨f1, f2, f3, f4, f5, f6, f7⟩ := e4
  have e5 : parts kF = [kBlock] := rfl
  have e6 : parts kBlock = [kI, kAskI] := rfl
  have e7 : case97.map Prod.snd = [kUnitA, kUnitB] := rfl
  have o1 : kUnitA.off = 11 := rfl
  have o2 : kUnitB.off = 111 := rfl
  rw [e7] at h
  simp only [GoBuild.placed_cons, GoBuild.placed_nil, e1, e2, e3, e5, e6, f1, f2, f3, f4, f5, f6, f7, o1, o2] at h
  simp only [all97, List.mem_cons, List.not_mem_nil, or_false]
  simp only [false_or, or_false] at h
  rcases h with ⟨rfl, rfl⟩ | (⟨rfl, rfl⟩ | ⟨rfl, rfl⟩ | ⟨rfl, rfl⟩ | ⟨rfl, rfl⟩ | ⟨rfl, rfl⟩ | ⟨rfl, rfl⟩ | ⟨rfl, rfl⟩ | ⟨rfl, rfl⟩) | ⟨rfl, rfl⟩ |
    (⟨rfl, rfl⟩ | ⟨rfl, rfl⟩ | ⟨rfl, rfl⟩) <;> first | (refine ⟨by simp, fun _ => ?_⟩; simp; done) | (refine ⟨by simp, fun ht => ?_⟩; exact absurd ht (by decide))

theorem case97_each {p : Tree → Prop} (h : ∀ d ∈ all97, p d) {q : List Off} {d : Tree} (hd : Placed [] (case97.map Prod.snd) q d) : p d := h d (case97_placed hd).1

theorem case97_unit {u : Tree} (h : u = kUnitA ∨ u = kUnitB) : Placed [] (case97.map Prod.snd) [] u := .here (by simpa [case97] using h)

theorem case97_int (b : Off) (hb : b = 0 ∨ b = 100) : GoBuild.Spec.TypeAt (case97.map Prod.snd) (b + 30) := by
  rcases hb with rfl | rfl
  · exact ⟨[11], kInt 0, .base, Chain.placed_part (d := kUnitA) (case97_unit (.inl rfl)) (by rw [show parts kUnitA = [kInt 0, kX, kAskY, kOne, kF] from rfl]; simp), rfl, rfl, rfl⟩
  · exact ⟨[111], kInt 100, .base, Chain.placed_part (d := kUnitB) (case97_unit (.inr rfl)) (by rw [show parts kUnitB = [kInt 100, kY, kTwo] from rfl]; simp), rfl, rfl, rfl⟩

theorem case97_link {d : Tree} {b : Off} (hb : b = 0 ∨ b = 100) (h : ref d (go! "Type") = some (b + 30)) : GoBuild.Spec.LinkOk (GoBuild.Spec.TypeAt (case97.map Prod.snd)) d := by
  intro t' h'
  rw [h] at h'
  cases h'
  exact case97_int b hb

theorem case97_complete {d : Tree} (hd : d ∈ all97) (hu : d ≠ kUnitA ∧ d ≠ kUnitB) : GoBuild.Spec.Complete (GoBuild.Spec.TypeAt (case97.map Prod.snd)) d := by
  have base : ∀ b, GoBuild.Spec.Complete (GoBuild.Spec.TypeAt (case97.map Prod.snd)) (kInt b) := fun b =>
    .base (n := go! "int") rfl rfl (fun h => absurd h (by decide)) rfl rfl rfl (by intro v hv; cases hv; decide)
  have var : ∀ o b n f l, b = 0 ∨ b = 100 → GoBuild.Spec.Complete (GoBuild.Spec.TypeAt (case97.map Prod.snd)) (kVar o (b + 30) n f l) := fun o b n f l hb =>
    .link (t := go! "Variable") (by decide) rfl (case97_link hb rfl)
  simp only [all97, List.mem_cons, List.not_mem_nil, or_false] at hd
  rcases hd with rfl | rfl | rfl | rfl | rfl | rfl | rfl | rfl | rfl | rfl | rfl | rfl | rfl
  · exact absurd rfl hu.1
  · exact base 0
  · exact var 40 0 _ _ _ (.inl rfl)
  · exact var 42 0 _ _ _ (.inl rfl)
  · exact var 44 0 _ _ _ (.inl rfl)
  · refine .func (t := go! "Subprogram") (by decide) rfl (case97_link (b := 0) (.inl rfl) rfl) ?_ ?_
    · intro k hk ht
      have : k = kBlock := by simpa [kF, die, Die.kids] using hk
      subst this
      exact absurd ht (by decide)
    · exact ⟨fun _ j hj => absurd hj (by simp), trivial⟩
  · exact .block rfl
  · exact var 54 0 _ _ _ (.inl rfl)
  · exact var 56 0 _ _ _ (.inl rfl)
  · exact absurd rfl hu.2
  · exact base 100
  · exact var 140 100 _ _ _ (.inr rfl)
  · exact var 142 100 _ _ _ (.inr rfl)

theorem case97_good : GoBuild.Spec.Good (case97.map Prod.snd) := by
  intro u hu
  have hu' : u = kUnitA ∨ u = kUnitB := by simpa [case97] using hu
  have below : ∀ q d, Placed [u.off] (parts u) q d → GoBuild.Spec.Complete (GoBuild.Spec.TypeAt (case97.map Prod.snd)) d := by
    intro q d hp
    have hp' : Placed [] (case97.map Prod.snd) q d := .there hu hp
    refine case97_complete (case97_placed hp').1 ?_
    have hn : q ≠ [] := by
      obtain ⟨q0, h0, -⟩ := Chain.placed_one hp _ _ rfl (fun x hx => GoBuild.parts_sub hx)
      rw [h0]
      simp
    have e1 : parts kUnitA = [kInt 0, kX, kAskY, kOne, kF] := rfl
    have e2 : parts kUnitB = [kInt 100, kY, kTwo] := rfl
    have e3 : ∀ b, parts (kInt b) = [] := fun _ => rfl
    have f0 : parts kX = [] ∧ parts kAskY = [] ∧ parts kOne = [] ∧ parts kI = [] ∧ parts kAskI = [] ∧ parts kY = [] ∧ parts kTwo = [] := ⟨rfl, rfl, rfl, rfl, rfl, rfl, rfl⟩
    obtain ⟨f1, f2, f3, f4, f5, f6, f7⟩ := f0
    have e5 : parts kF = [kBlock] := rfl
    have e6 : parts kBlock = [kI, kAskI] := rfl
    have ht : d.tag ≠ go! "CompileUnit" := by
      rcases hu' with rfl | rfl
      · simp only [GoBuild.placed_cons, GoBuild.placed_nil, e1, e3, e5, e6, f1, f2, f3, f4, f5, f6, f7, false_or, or_false] at hp
        rcases hp with ⟨rfl, rfl⟩ | ⟨rfl, rfl⟩ | ⟨rfl, rfl⟩ | ⟨rfl, rfl⟩ | ⟨rfl, rfl⟩ | ⟨rfl, rfl⟩ | ⟨rfl, rfl⟩ | ⟨rfl, rfl⟩ <;> decide
      · simp only [GoBuild.placed_cons, GoBuild.placed_nil, e2, e3, f6, f7, false_or, or_false] at hp
        rcases hp with ⟨rfl, rfl⟩ | ⟨rfl, rfl⟩ | ⟨rfl, rfl⟩ <;> decide
    exact ⟨fun e => ht (by rw [e]; rfl), fun e => ht (by rw [e]; rfl)⟩
  rcases hu' with rfl | rfl
  · exact ⟨⟨rfl, by decide, by decide⟩, below⟩
  · exact ⟨⟨rfl, by decide, by decide⟩, below⟩

theorem case97_input : Input case97 where
  sound := by simp [case97, kUnitA, kUnitB, die, kInt, kVar, kX, kAskY, kOne, kF, kBlock, kI, kAskI, kY, kTwo, Die.Sound, Die.SoundAll, Die.tag]
  distinct := by decide +kernel
  good := case97_good
  names := by
    intro q d h
    have t1 : ∀ d ∈ all97, (text d (go! "Name")).elim True GoDedup.Spec.TypeName := by
      simp only [all97, List.mem_cons, List.not_mem_nil, or_false]
      rintro d (rfl | rfl | rfl | rfl | rfl | rfl | rfl | rfl | rfl | rfl | rfl | rfl | rfl) <;>
        first | exact trivial | exact ⟨by decide, by unfold GoDedup.Spec.Closed; decide +kernel, by decide⟩
    have t2 : ∀ d ∈ all97, text d (go! "Name") = none → declared d = false := by decide +kernel
    have t3 : ∀ d ∈ all97, ∀ k ∈ d.kids, ¬ (k.tag = go! "Member" ∨ k.tag = go! "Enumerator") := by decide +kernel
    refine ⟨?_, t2 d (case97_placed h).1, fun k hk ht => absurd ht (t3 d (case97_placed h).1 k hk)⟩
    rw [forall_some]
    exact t1 d (case97_placed h).1
  flat := by
    intro q d h ht p hp
    rcases (case97_placed h).2 ht with rfl | rfl
    · exact ⟨_, kUnitA, case97_unit (.inl rfl), (List.mem_singleton.mp hp).symm, by decide⟩
    · exact ⟨_, kUnitB, case97_unit (.inr rfl), (List.mem_singleton.mp hp).symm, by decide⟩
  dims := by
    intro q d h
    exact case97_each (p := fun d => d.tag = go! "ArrayType" → d.kids.length ≤ 2) (by decide +kernel) h

theorem case97_ctypes : CTypes case97 where
  rank := by
    refine ⟨fun _ => 0, ?_⟩
    intro q d h ht hn q' T hT hu hnt
    exfalso
    have : ∀ d ∈ all97, d.tag ∈ typeTags → text d (go! "Name") = none ∨ d.tag = go! "ArrayType" → ∀ T ∈ all97, T.off ∈ uses d → text T (go! "Name") ≠ none := by decide +kernel
    exact this d (case97_placed h).1 ht hn T (case97_placed hT).1 hu hnt
  elements q d h := case97_each (p := fun d => d.tag = go! "ArrayType" → ref d (go! "Type") ≠ none) (by decide +kernel) h
  dims q d h := case97_each (p := fun d => d.tag = go! "ArrayType" → ∀ k ∈ d.kids, declared k = false) (by decide +kernel) h
  members q d h := case97_each (p := fun d => d.tag ∈ [go! "ClassType", go! "StructType", go! "UnionType"] →
    ∀ k ∈ d.kids, k.tag ∈ [go! "Member", go! "TemplateTypeParameter"]) (by decide +kernel) h

theorem case97_writable : Writable case97 exSnake where
  few := by decide +kernel
  names q d h := by
    simp only [forall_some]
    exact case97_each (p := fun d => ∀ k ∈ d :: d.kids, (text k (go! "Name")).elim True Emit.Spec.Plain) (by unfold Emit.Spec.Plain; decide +kernel) h
  words q d h n hn hs := exSnake_word n hs
  sizes q d h := by
    unfold Emit.Spec.Size
    simp only [forall_some]
    exact case97_each (p := fun d => ∀ k ∈ d :: d.kids, ∀ a ∈ sizes, (num k a).elim True fun v => 0 ≤ v ∧ v < 2 ^ 63) (by decide +kernel) h
  encodings q d h ht := by
    have := case97_each (p := fun d => d.tag = go! "BaseType" → num d (go! "Encoding") ≠ none ∧ (num d (go! "Encoding")).elim True fun v => 0 ≤ v ∧ v ≤ 18) (by decide +kernel) h ht
    obtain ⟨v, hv⟩ := Option.ne_none_iff_exists'.mp this.1
    rw [hv] at this
    exact ⟨v, hv, this.2⟩
  enumerators q d h := by
    intro ht
    exact absurd ht (case97_each (p := fun d => d.tag ≠ go! "EnumerationType") (by decide +kernel) h)
  arrays q d h := by
    intro ht
    exact absurd ht (case97_each (p := fun d => d.tag ≠ go! "ArrayType") (by decide +kernel) h)
  structures q d h := case97_each (p := fun d => d.tag ∈ [go! "ClassType", go! "StructType", go! "UnionType"] → declared d = false → num d (go! "ByteSize") ≠ none)
    (by decide +kernel) h

/-- Files and lines as in the units. -/
def extra97 : Extra where
  external _ := none
  linkage _ := none
  lang _ := some 29
  files _ := [go! "a.c", go! "b.c"]
  file o := (all97.find? fun d => d.off = o).bind fun d => num d (go! "DeclFile")
  line o := (all97.find? fun d => d.off = o).bind fun d => num d (go! "DeclLine")
  column _ := none

theorem extra97_writable : WritableExtra extra97 where
  linkage _ s h := by cases h
  lang _ := ⟨29, rfl, by decide, by decide⟩
  files _ := by
    show [go! "a.c", go! "b.c"].length < 2 ^ 31 ∧ ∀ f ∈ [go! "a.c", go! "b.c"], (34 : UInt8) ∉ f ∧ (10 : UInt8) ∉ f
    decide
  places l := by
    have : ∀ a ∈ [go! "DeclFile", go! "DeclLine"], ∀ d ∈ all97, (num d a).elim True fun v => 0 ≤ v ∧ v < 2 ^ 63 := by decide +kernel
    refine ⟨fun v h => ?_, fun v h => ?_, (fun v h => by cases h)⟩
    · obtain ⟨d, h1, h2⟩ := Option.bind_eq_some_iff.mp h
      have := this (go! "DeclFile") (by simp) d (List.mem_of_find?_eq_some h1)
      rw [h2] at this
      exact this
    · obtain ⟨d, h1, h2⟩ := Option.bind_eq_some_iff.mp h
      have := this (go! "DeclLine") (by simp) d (List.mem_of_find?_eq_some h1)
      rw [h2] at this
      exact this

theorem case97_program : ∃ w st db defs addr rt, Program case97 exSnake w st extra97 db defs addr rt :=
  Chain.C80_program_partial _ _ _ case97_input case97_ctypes case97_writable extra97_writable exSnake_snake

/-- The maps in the order of the build. -/
def tablesOf (snake : Str → Str) (w : World) (st : St) (x : Extra) : Generate.Db where
  variables := st.added.filterMap (varRow snake w st)
  subprograms := st.added.filterMap (scopeRow snake w st x .subprogram)
  namespaces := st.added.filterMap (scopeRow snake w st x .namespaceObj)
  lexBlocks := st.added.filterMap (scopeRow snake w st x .lexBlock)
  structTypes := st.added.filterMap (scopeRow snake w st x .structType)
  classTypes := st.added.filterMap (scopeRow snake w st x .classType)
  unionTypes := st.added.filterMap (scopeRow snake w st x .unionType)
  units := st.added.filterMap (unitRow snake w st x)

theorem tablesOf_tables (snake : Str → Str) (w : World) (st : St) (x : Extra) : Tables snake w st x (tablesOf snake w st x) :=
  ⟨.refl _, .refl _, .refl _, .refl _, .refl _, .refl _, .refl _, .refl _⟩

def files97 : Off → List Str := fun _ => [go! "a.c", go! "b.c"]

theorem case97_members : Members case97 := case97_ctypes.members

theorem case97_located (st : St) : Located case97 st extra97 files97 where
  file q d h := case97_each (p := fun d => extra97.file d.off = num d (go! "DeclFile")) (by decide +kernel) h
  line q d h := case97_each (p := fun d => extra97.line d.off = num d (go! "DeclLine")) (by decide +kernel) h
  paths _ _ _ _ := rfl

theorem case97_places : Places case97 files97 where
  names q d h n hn := by
    have : ∀ d ∈ all97, (if d.tag = go! "Variable" ∨ d.tag = go! "Subprogram" then (text d (go! "Name")).getD [] else []).all
        (fun c => decide ((48 ≤ c ∧ c ≤ 57) ∨ (65 ≤ c ∧ c ≤ 90) ∨ c = 95 ∨ (97 ≤ c ∧ c ≤ 122))) = true := by decide +kernel
    have := this d (case97_placed h).1
    rw [if_pos hn.1, hn.2] at this
    exact fun c hc => of_decide_eq_true (List.all_eq_true.mp this c hc)
  paths u hu f hf := by
    have : ∀ f ∈ [go! "a.c", go! "b.c"], EntryDb.Spec.NoBackslash f := by unfold EntryDb.Spec.NoBackslash; decide
    exact this f hf
  known := by decide +kernel

end Verif.Links
