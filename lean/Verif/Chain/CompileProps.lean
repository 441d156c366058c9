import Verif.Chain.Compile
import Verif.Chain.Props
/-
C80: the generator ends with a file that compiles.
-/
namespace Verif.Chain
open Verif.GoMeta (Str)
open GoDwarf.Spec (Die)
open GoBuild.Spec (Tree Placed text num ref declared isTag paramTags Dim)
open GoDedup (World St Go)
open GoDedup.Spec (Visits)
open Spec

/-- C80: for the debug information of a C program, whose names and numbers can be written, the
database is built, in whatever order Go visits the entries, and the file that is generated from it
(whatever order the templates visit the objects in) compiles; a program can be built with it.

Missing: arrays of more than two dimensions, for which it is false (`C80_dims_false`). -/
theorem C80_compiles_partial (units : List (Nat × Tree)) (snake : Str → Str) (x : Extra) (hi : Input units) (hC : CTypes units) (hW : Writable units snake)
    (hx : WritableExtra x) (hs : Emit.Spec.Snake snake) :
    ∃ E b, GoDwarf.newData (GoDwarf.Spec.storedUnits units) = Go.ret E ∧ GoBuild.build E = Go.ret b ∧
      ∀ order, Visits (GoBuild.start b) order → ∃ w st, GoBuild.newMetaDb E order = Go.ret (w, st) ∧
        ∀ db, Emitted snake w st x db → ∃ defs, Emit.compileFile (Emit.file snake db) = some defs ∧
          Program units snake w st x db defs (Emit.place defs) (Emit.memory defs) := by
  obtain ⟨E, b, e1, e2, e3⟩ := reads hi hC
  refine ⟨E, b, e1, e2, ?_⟩
  intro order hv
  obtain ⟨st, hst⟩ := e3 order hv
  refine ⟨_, st, hst, ?_⟩
  intro db hdb
  have hread : Read units (GoBuild.world E b) st := ⟨E, b, order, e1, e2, hv, hst⟩
  obtain ⟨st0, order', hc⟩ := core hi hread
  have hg := hc.good hi hC hW hx hdb
  obtain ⟨defs, d1, d2⟩ := Emit.C78_loadable snake hs db hg
  exact ⟨defs, d1, ⟨hi, hread, hdb, hs, hg, d1, d2⟩⟩

/-- C80: there is such a program. -/
theorem C80_program_partial (units : List (Nat × Tree)) (snake : Str → Str) (x : Extra) (hi : Input units) (hC : CTypes units) (hW : Writable units snake)
    (hx : WritableExtra x) (hs : Emit.Spec.Snake snake) : ∃ w st db defs addr rt, Program units snake w st x db defs addr rt := by
  obtain ⟨E, b, e1, e2, e3⟩ := C80_compiles_partial units snake x hi hC hW hx hs
  have hB := base hi e1 e2
  obtain ⟨w, st, -, h⟩ := e3 (Die.offsAll (units.map Prod.snd)) ⟨(List.nodup_cons.mp hi.distinct).2, fun i h => by
    obtain ⟨n, hn⟩ := Option.ne_none_iff_exists'.mp h
    exact hB.index hn⟩
  obtain ⟨defs, -, hp⟩ := h _ (List.Perm.refl _)
  exact ⟨w, st, _, defs, _, _, hp⟩

/-! ### A case -/

section
open GoBuild (case66 unitA unitB dInt dStruct dPtr dArray dVar dFunc dBlock dLocal dLong)

def wordChar (c : UInt8) : UInt8 := if (48 ≤ c ∧ c ≤ 57) ∨ (65 ≤ c ∧ c ≤ 90) ∨ (97 ≤ c ∧ c ≤ 122) ∨ c = 95 then c else 95

/-- Names with `_` for all that is no letter and no digit; the words of the templates as the library
has them. -/
def exSnake (s : Str) : Str :=
  match (Emit.Spec.encodings ++ Emit.Spec.tags.map fun t => (t.1, t.2.1)).lookup s with
  | some r => r
  | none =>
    match s.map wordChar with
    | [] => []
    | c :: t => if 48 ≤ c ∧ c ≤ 57 then [] else c :: t

theorem exSnake_snake : Emit.Spec.Snake exSnake := by
  unfold Emit.Spec.Snake
  decide +kernel

theorem lookup_some {l : List (Str × Str)} {s r : Str} (h : l.lookup s = some r) : (s, r) ∈ l := by
  induction l with
  | nil => cases h
  | cons a l ih =>
    rw [List.lookup_cons] at h
    by_cases he : (s == a.1) = true
    · rw [he] at h
      cases h
      have : s = a.1 := eq_of_beq he
      subst this
      exact List.mem_cons_self ..
    · rw [Bool.not_eq_true] at he
      rw [he] at h
      exact List.mem_cons_of_mem _ (ih h)

theorem exSnake_word (s : Str) (h : exSnake s ≠ []) : Emit.Spec.CName (exSnake s) := by
  unfold exSnake at h ⊢
  split
  · rename_i r hr
    have := lookup_some hr
    have hall : ∀ p ∈ Emit.Spec.encodings ++ Emit.Spec.tags.map fun t => (t.1, t.2.1), ((∀ c ∈ p.2, (48 ≤ c ∧ c ≤ 57) ∨ (65 ≤ c ∧ c ≤ 90) ∨ (97 ≤ c ∧ c ≤ 122) ∨ c = 95) ∧
      p.2 ≠ [] ∧ ¬ (48 ≤ p.2.headD 0 ∧ p.2.headD 0 ≤ 57)) := by decide +kernel
    obtain ⟨h1, h2, h3⟩ := hall _ this
    obtain ⟨c, t, rfl⟩ : ∃ c t, r = c :: t := by
      cases r with
      | nil => exact absurd rfl h2
      | cons c t => exact ⟨c, t, rfl⟩
    exact ⟨h1, c, t, rfl, h3⟩
  · rename_i hn
    rw [hn] at h
    cases s with
    | nil => exact absurd rfl h
    | cons a s =>
      simp only [List.map_cons] at h ⊢
      by_cases hc : 48 ≤ wordChar a ∧ wordChar a ≤ 57
      · rw [if_pos hc] at h
        exact absurd rfl h
      · rw [if_neg hc]
        refine ⟨?_, _, _, rfl, hc⟩
        intro c hc'
        rw [← List.map_cons] at hc'
        obtain ⟨b, -, rfl⟩ := List.mem_map.mp hc'
        unfold wordChar
        split
        · assumption
        · exact .inr (.inr (.inr rfl))

/-- Nothing besides. -/
def exExtra : Extra where
  external _ := none
  linkage _ := none
  lang _ := some 29
  files _ := [go! "a.c"]
  file _ := some 1
  line _ := none
  column _ := none

theorem exExtra_writable : WritableExtra exExtra where
  linkage _ s h := by cases h
  lang _ := ⟨29, rfl, by decide, by decide⟩
  files _ := by
    show [go! "a.c"].length < 2 ^ 31 ∧ ∀ f ∈ [go! "a.c"], (34 : UInt8) ∉ f ∧ (10 : UInt8) ∉ f
    decide
  places _ := ⟨fun v h => by cases h; decide, (fun v h => by cases h), (fun v h => by cases h)⟩

theorem case_placed {q : List GoDedup.Off} {d : Tree} (h : Placed [] (case66.map Prod.snd) q d) :
    d ∈ [unitA, unitB, dInt, dStruct, dPtr, dArray, dVar, dFunc, dBlock, dLocal, dLong] ∧ ∀ p ∈ q, p = 11 ∨ p = 111 ∨ p = 80 ∨ p = 86 := by
  have e1 : GoBuild.Spec.parts unitA = [dInt, dStruct, dPtr, dArray, dVar, dFunc] := rfl
  have e2 : GoBuild.Spec.parts unitB = [dLong] := rfl
  have e3 : GoBuild.Spec.parts dInt = [] := rfl
  have e4 : GoBuild.Spec.parts dStruct = [] := rfl
  have e5 : GoBuild.Spec.parts dPtr = [] := rfl
  have e6 : GoBuild.Spec.parts dArray = [] := rfl
  have e7 : GoBuild.Spec.parts dVar = [] := rfl
  have e8 : GoBuild.Spec.parts dFunc = [dBlock] := rfl
  have e9 : GoBuild.Spec.parts dBlock = [dLocal] := rfl
  have e10 : GoBuild.Spec.parts dLocal = [] := rfl
  have e11 : GoBuild.Spec.parts dLong = [] := rfl
  have e12 : case66.map Prod.snd = [unitA, unitB] := rfl
  have o1 : unitA.off = 11 := rfl
  have o2 : unitB.off = 111 := rfl
  have o3 : dFunc.off = 80 := rfl
  have o4 : dBlock.off = 86 := rfl
  rw [e12] at h
  simp only [GoBuild.placed_cons, GoBuild.placed_nil, e1, e2, e3, e4, e5, e6, e7, e8, e9, e10, e11, o1, o2, o3, o4] at h
  simp only [List.mem_cons, List.not_mem_nil, or_false]
  rcases h with h | (h | h | h | h | h | h | h | h | h | h | h | h | h | h | h) | h | h | h <;> grind

theorem case_sound : ∀ u ∈ case66, u.2.Sound := by
  simp [case66, unitA, unitB, GoBuild.die, dInt, dStruct, dPtr, dArray, dVar, dFunc, dBlock, dLocal, dLong, Die.Sound, Die.SoundAll, Die.tag]

/-- What can be asked of an entry and its parts alone. -/
def Each66 (p : Tree → Prop) : Prop := ∀ d ∈ [unitA, unitB, dInt, dStruct, dPtr, dArray, dVar, dFunc, dBlock, dLocal, dLong], p d

theorem case_each {p : Tree → Prop} (h : Each66 p) {q : List GoDedup.Off} {d : Tree} (hd : Placed [] (case66.map Prod.snd) q d) : p d := h d (case_placed hd).1

theorem case_input : Input case66 where
  sound := case_sound
  distinct := by decide +kernel
  good := GoBuild.case66_good
  names := by
    intro q d h
    refine case_each ?_ h
    simp only [Each66, List.mem_cons, List.not_mem_nil, or_false]
    rintro d (rfl | rfl | rfl | rfl | rfl | rfl | rfl | rfl | rfl | rfl | rfl)
    all_goals
      refine ⟨?_, (fun h => by first | (cases h; done) | rfl), ?_⟩
      · intro n h; cases h <;> exact ⟨by decide, by unfold GoDedup.Spec.Closed; decide +kernel, by decide⟩
      · intro k hk ht
        revert k
        simp [unitA, unitB, dInt, dPtr, dArray, dVar, dFunc, dBlock, dLocal, dLong, dStruct, GoBuild.die, Die.kids, Die.tag]
        try exact ⟨fun n h => by cases h; unfold GoDedup.Spec.Plain; decide, fun n h => by cases h; unfold GoDedup.Spec.Plain; decide⟩
  flat := by
    intro q d h _ p hp
    have mem : ∀ u ∈ [unitA, unitB], Placed [] (case66.map Prod.snd) [] u := fun u hu => .here hu
    rcases (case_placed h).2 p hp with rfl | rfl | rfl | rfl
    · exact ⟨_, unitA, mem _ (by simp), rfl, by decide⟩
    · exact ⟨_, unitB, mem _ (by simp), rfl, by decide⟩
    · exact ⟨_, dFunc, placed_part (mem unitA (by simp)) (by simp [show GoBuild.Spec.parts unitA = [dInt, dStruct, dPtr, dArray, dVar, dFunc] from rfl]), rfl, by decide⟩
    · refine ⟨_, dBlock, placed_part (placed_part (mem unitA (by simp)) (k := dFunc) (by simp [show GoBuild.Spec.parts unitA = [dInt, dStruct, dPtr, dArray, dVar, dFunc] from rfl])) ?_, rfl, by decide⟩
      simp [show GoBuild.Spec.parts dFunc = [dBlock] from rfl]
  dims := by
    intro q d h
    exact case_each (p := fun d => d.tag = go! "ArrayType" → d.kids.length ≤ 2) (by unfold Each66; decide +kernel) h

theorem case_types : CTypes case66 where
  rank := by
    refine ⟨fun _ => 0, ?_⟩
    intro q d h ht hn q' T hT hu hnt
    exfalso
    have : ∀ d ∈ [unitA, unitB, dInt, dStruct, dPtr, dArray, dVar, dFunc, dBlock, dLocal, dLong], d.tag ∈ typeTags → text d (go! "Name") = none ∨ d.tag = go! "ArrayType" →
      ∀ T ∈ [unitA, unitB, dInt, dStruct, dPtr, dArray, dVar, dFunc, dBlock, dLocal, dLong], T.off ∈ uses d → text T (go! "Name") ≠ none := by decide +kernel
    exact this d (case_placed h).1 ht hn T (case_placed hT).1 hu hnt
  elements q d h := case_each (p := fun d => d.tag = go! "ArrayType" → ref d (go! "Type") ≠ none) (by unfold Each66; decide +kernel) h
  dims q d h := case_each (p := fun d => d.tag = go! "ArrayType" → ∀ k ∈ d.kids, declared k = false) (by unfold Each66; decide +kernel) h
  members q d h := case_each (p := fun d => d.tag ∈ [go! "ClassType", go! "StructType", go! "UnionType"] →
    ∀ k ∈ d.kids, k.tag ∈ [go! "Member", go! "TemplateTypeParameter"]) (by unfold Each66; decide +kernel) h

theorem forall_some {α : Type} (o : Option α) (p : α → Prop) : (∀ v, o = some v → p v) ↔ o.elim True p := by
  cases o <;> simp

instance {α : Type} (o : Option α) (p : α → Prop) [DecidablePred p] : Decidable (o.elim True p) := by
  cases o <;> simp only [Option.elim] <;> infer_instance

theorem case_writable : Writable case66 exSnake where
  few := by decide +kernel
  names q d h := by
    simp only [forall_some]
    exact case_each (p := fun d => ∀ k ∈ d :: d.kids, (text k (go! "Name")).elim True Emit.Spec.Plain) (by unfold Each66 Emit.Spec.Plain; decide +kernel) h
  words q d h n hn hs := exSnake_word n hs
  sizes q d h := by
    unfold Emit.Spec.Size
    simp only [forall_some]
    exact case_each (p := fun d => ∀ k ∈ d :: d.kids, ∀ a ∈ sizes, (num k a).elim True fun v => 0 ≤ v ∧ v < 2 ^ 63) (by unfold Each66; decide +kernel) h
  encodings q d h ht := by
    have := case_each (p := fun d => d.tag = go! "BaseType" → num d (go! "Encoding") ≠ none ∧ (num d (go! "Encoding")).elim True fun v => 0 ≤ v ∧ v ≤ 18) (by unfold Each66; decide +kernel) h ht
    obtain ⟨v, hv⟩ := Option.ne_none_iff_exists'.mp this.1
    rw [hv] at this
    exact ⟨v, hv, this.2⟩
  enumerators q d h := by
    simp only [forall_some]
    exact case_each (p := fun d => d.tag = go! "EnumerationType" → ∀ k ∈ d.kids, ((text k (go! "Name")).elim True Emit.Spec.Printable) ∧ (num k (go! "ConstValue")).elim True Emit.Spec.Int64)
      (by unfold Each66 Emit.Spec.Printable Emit.Spec.Int64; decide +kernel) h
  arrays q d h := by
    simp only [forall_some]
    exact case_each (p := fun d => d.tag = go! "ArrayType" → num d (go! "StrideSize") = none ∧ ∀ k ∈ d.kids, ((num k (go! "LowerBound")).elim True Emit.Spec.Int64) ∧
      (num k (go! "Count")).elim True Emit.Spec.Int64) (by unfold Each66 Emit.Spec.Int64; decide +kernel) h
  structures q d h := case_each (p := fun d => d.tag ∈ [go! "ClassType", go! "StructType", go! "UnionType"] → declared d = false → num d (go! "ByteSize") ≠ none)
    (by unfold Each66; decide +kernel) h

/-- The hypotheses of C80, for two units with types, a function and variables. -/
example : Input case66 ∧ CTypes case66 ∧ Writable case66 exSnake ∧ WritableExtra exExtra ∧ Emit.Spec.Snake exSnake :=
  ⟨case_input, case_types, case_writable, exExtra_writable, exSnake_snake⟩

/-- The hypothesis of C79, for the same. -/
theorem case_program : ∃ w st db defs addr rt, Program case66 exSnake w st exExtra db defs addr rt :=
  C80_program_partial _ _ _ case_input case_types case_writable exExtra_writable exSnake_snake

theorem case_top {d : Tree} (h : d ∈ [dInt, dStruct, dPtr, dArray, dVar, dFunc]) : Placed [] (case66.map Prod.snd) [11] d :=
  placed_part (d := unitA) (.here (by simp [case66])) (by rw [show GoBuild.Spec.parts unitA = [dInt, dStruct, dPtr, dArray, dVar, dFunc] from rfl]; exact h)

/-- C79 for the case: what any program built with a file that was generated for it is told. -/
example {w st db defs addr rt} (h : Program case66 exSnake w st exExtra db defs addr rt) :
    (∃ r, Told rt r dStruct ∧ Entry.memberCount rt (some r) = some 2 ∧ Entry.memberNameToId rt (some r) (go! "next") = some 1 ∧
      (∃ e, Entry.byMemberId rt (some r) 1 = some (some e) ∧ ∃ i t, (rt e).info = .member i ∧ i.byteOffset.toNat = 8 ∧ i.type = some t ∧ Told rt t dPtr) ∧
      ∃ v, Entry.byteSize rt (some r) true = some (.ok v) ∧ v.toNat = 16) ∧
    (∃ r, Told rt r dFunc ∧ Entry.parametersCount rt (some r) = some 2 ∧ Entry.parameterNameToId rt (some r) (go! "p") = some 0) ∧
    (∃ r r', Told rt r dArray ∧ Entry.elementCount rt (some r) = some 2 ∧ Entry.elementEntry rt (some r) = some (some r') ∧ Entry.elementCount rt (some r') = some 3) := by
  have hs := case_top (d := dStruct) (by simp)
  have hf := case_top (d := dFunc) (by simp)
  have ha := case_top (d := dArray) (by simp)
  refine ⟨⟨_, C79_entries_partial h _ _ hs, ?_⟩, ⟨_, C79_entries_partial h _ _ hf, ?_⟩, ?_⟩
  · obtain ⟨h1, h2, -, h4, -, h6⟩ := C79_structures_partial h _ _ hs (by decide) rfl _ rfl _ rfl
    refine ⟨h1, h4 (go! "next") 1 ?_, ?_, h6 16 rfl⟩
    · refine ⟨⟨_, rfl, rfl⟩, ?_⟩
      intro i hi y hy
      have : i = 0 := by omega
      subst this
      cases hy
      decide
    · obtain ⟨e, e1, -, ⟨i, i1, i2, i3⟩, -⟩ := h2 1 _ rfl
      generalize hty : i.type = ty at i2
      have hr : ref (GoBuild.die 44 (go! "Member") [(go! "Name", .str (go! "next")), (go! "Type", .off 50), (go! "DataMemberLoc", .int 8)] []) (go! "Type") = some 50 := rfl
      rw [hr] at i2
      generalize h50 : (50 : GoDedup.Off) = f at i2
      generalize hsf : some f = sf at i2
      cases i2 with
      | none => cases hsf
      | @some q T r hT htold =>
        have e50 : T.off = 50 := by rw [← h50] at hsf; exact (Option.some.inj hsf).symm
        have : T = dPtr := by
          have : ∀ T ∈ [unitA, unitB, dInt, dStruct, dPtr, dArray, dVar, dFunc, dBlock, dLocal, dLong], T.off = 50 → T.tag = go! "PointerType" ∧ text T (go! "Name") = none := by decide +kernel
          have hm := (case_placed hT).1
          simp only [List.mem_cons, List.not_mem_nil, or_false] at hm
          rcases hm with rfl | rfl | rfl | rfl | rfl | rfl | rfl | rfl | rfl | rfl | rfl <;> first | rfl | exact absurd e50 (by decide)
        subst this
        refine ⟨e, e1, i, r, i1, ?_, hty, htold⟩
        have := i3 rfl
        have h8 : (i.byteOffset.toNat : Int) = 8 := this
        omega
  · obtain ⟨-, h1, -, -, h2⟩ := C79_functions_partial h _ _ hf (by decide) (fun h => absurd h (by decide)) _ rfl _ rfl
    refine ⟨h1, h2 rfl (go! "p") 0 ⟨⟨_, rfl, rfl⟩, fun i hi => absurd hi (by omega)⟩⟩
  · have := C79_arrays_partial h _ _ ha rfl rfl
    have hk : dArray.kids = [GoBuild.die 62 (go! "SubrangeType") [(go! "UpperBound", .int 1)] [], GoBuild.die 64 (go! "SubrangeType") [(go! "Count", .int 3)] []] := rfl
    have ht := C79_entries_partial h _ _ ha
    rw [hk] at this
    cases this with
    | cons a1 a2 a3 a4 =>
      refine ⟨_, _, ht, a2 2 (show Dim _ (1 + 1 - (num _ (go! "LowerBound")).getD 0) from .bounds rfl rfl) (by decide) (by decide), a3, ?_⟩
      cases a4 with
      | last b1 b2 b3 b4 => exact b2 3 (.count rfl) (by decide) (by decide)
end

end Verif.Chain
