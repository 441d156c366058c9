import Verif.Chain.Dims
/-
What is false of C79: structures that one unit declares and another defines.
-/
namespace Verif.Chain
open Verif.GoMeta (Str)
open GoDwarf.Spec (Die)
open GoBuild (die)
open GoBuild.Spec (Tree Placed text num ref declared)
open GoDedup (World St Go Off)
open GoDedup.Spec (Visits)
open Spec

/-- `typedef struct s T;` in one unit; `typedef struct s { int x; } T;` in another. -/
def oDecl := die 13 (go! "StructType") [(go! "Name", .str (go! "s")), (go! "Declaration", .bool true)] []
def oName := die 14 (go! "Typedef") [(go! "Name", .str (go! "T")), (go! "Type", .off 13)] []
def oUnit := die 11 (go! "CompileUnit") [(go! "Name", .str (go! "a.c"))] [oDecl, oName]
def oInt := die 32 (go! "BaseType") [(go! "Name", .str (go! "int")), (go! "ByteSize", .int 4), (go! "Encoding", .int 5)] []
def oMember := die 34 (go! "Member") [(go! "Name", .str (go! "x")), (go! "Type", .off 32), (go! "DataMemberLoc", .int 0)] []
def oStruct := die 33 (go! "StructType") [(go! "Name", .str (go! "s")), (go! "ByteSize", .int 4)] [oMember]
def oName' := die 35 (go! "Typedef") [(go! "Name", .str (go! "T")), (go! "Type", .off 33)] []
def oUnit' := die 31 (go! "CompileUnit") [(go! "Name", .str (go! "b.c"))] [oInt, oStruct, oName']
def caseOpaque : List (Nat × Tree) := [(2, oUnit), (0, oUnit')]
def allOpaque : List Tree := [oUnit, oUnit', oDecl, oName, oInt, oStruct, oName']

theorem opaque_placed {q : List Off} {d : Tree} (h : Placed [] (caseOpaque.map Prod.snd) q d) : d ∈ allOpaque ∧ ∀ p ∈ q, p = 11 ∨ p = 31 := by
  have e1 : GoBuild.Spec.parts oUnit = [oDecl, oName] := rfl
  have e2 : GoBuild.Spec.parts oUnit' = [oInt, oStruct, oName'] := rfl
  have e3 : ∀ d ∈ [oDecl, oName, oInt, oStruct, oName'], GoBuild.Spec.parts d = [] := by
    simp only [List.mem_cons, List.not_mem_nil, or_false]; rintro d (rfl | rfl | rfl | rfl | rfl) <;> rfl
  have e5 : caseOpaque.map Prod.snd = [oUnit, oUnit'] := rfl
  have o1 : oUnit.off = 11 := rfl
  have o2 : oUnit'.off = 31 := rfl
  rw [e5] at h
  simp only [GoBuild.placed_cons, GoBuild.placed_nil, e1, e2, e3 oDecl (by simp), e3 oName (by simp), e3 oInt (by simp), e3 oStruct (by simp), e3 oName' (by simp), o1, o2] at h
  unfold allOpaque
  simp only [List.mem_cons, List.not_mem_nil, or_false]
  grind

theorem opaque_each {p : Tree → Prop} (h : ∀ d ∈ allOpaque, p d) {q : List Off} {d : Tree} (hd : Placed [] (caseOpaque.map Prod.snd) q d) : p d := h d (opaque_placed hd).1

theorem opaque_unit {u : Tree} (h : u = oUnit ∨ u = oUnit') : Placed [] (caseOpaque.map Prod.snd) [] u := .here (by simpa [caseOpaque] using h)
theorem opaque_at {d : Tree} (h : d ∈ [oDecl, oName]) : Placed [] (caseOpaque.map Prod.snd) [11] d := placed_part (d := oUnit) (opaque_unit (.inl rfl)) h
theorem opaque_at' {d : Tree} (h : d ∈ [oInt, oStruct, oName']) : Placed [] (caseOpaque.map Prod.snd) [31] d := placed_part (d := oUnit') (opaque_unit (.inr rfl)) h

theorem opaque_complete {d : Tree} (hd : d ∈ [oDecl, oName, oInt, oStruct, oName']) : GoBuild.Spec.Complete (GoBuild.Spec.TypeAt (caseOpaque.map Prod.snd)) d := by
  have t1 : GoBuild.Spec.TypeAt (caseOpaque.map Prod.snd) 13 := ⟨_, oDecl, .aggregate .struct, opaque_at (by simp), rfl, rfl, rfl⟩
  have t2 : GoBuild.Spec.TypeAt (caseOpaque.map Prod.snd) 32 := ⟨_, oInt, .base, opaque_at' (by simp), rfl, rfl, rfl⟩
  have t3 : GoBuild.Spec.TypeAt (caseOpaque.map Prod.snd) 33 := ⟨_, oStruct, .aggregate .struct, opaque_at' (by simp), rfl, rfl, rfl⟩
  simp only [List.mem_cons, List.not_mem_nil, or_false] at hd
  rcases hd with rfl | rfl | rfl | rfl | rfl
  · exact .struct (t := go! "StructType") (by decide) rfl (by intro k hk; cases hk)
  · exact .typedef rfl (by decide) (by intro t ht; cases ht; exact t1)
  · exact .base rfl rfl (by decide) rfl rfl rfl (by intro v hv; cases hv; decide)
  · refine .struct (t := go! "StructType") (by decide) rfl ?_
    intro k hk _
    have : k = oMember := by simpa [oStruct, die, Die.kids] using hk
    subst this
    exact ⟨⟨32, rfl, t2⟩, fun h => absurd rfl h, .inl (by decide)⟩
  · exact .typedef rfl (by decide) (by intro t ht; cases ht; exact t3)

theorem opaque_good : GoBuild.Spec.Good (caseOpaque.map Prod.snd) := by
  have e1 : GoBuild.Spec.parts oUnit = [oDecl, oName] := rfl
  have e2 : GoBuild.Spec.parts oUnit' = [oInt, oStruct, oName'] := rfl
  have e3 : ∀ d ∈ [oDecl, oName, oInt, oStruct, oName'], GoBuild.Spec.parts d = [] := by
    simp only [List.mem_cons, List.not_mem_nil, or_false]; rintro d (rfl | rfl | rfl | rfl | rfl) <;> rfl
  intro u hu
  have hu' : u = oUnit ∨ u = oUnit' := by simpa [caseOpaque] using hu
  rcases hu' with rfl | rfl
  · refine ⟨⟨rfl, by decide, by decide⟩, ?_⟩
    intro q d hp
    simp only [GoBuild.placed_cons, GoBuild.placed_nil, e1, e3 oDecl (by simp), e3 oName (by simp)] at hp
    exact opaque_complete (by simp; grind)
  · refine ⟨⟨rfl, by decide, by decide⟩, ?_⟩
    intro q d hp
    simp only [GoBuild.placed_cons, GoBuild.placed_nil, e2, e3 oInt (by simp), e3 oStruct (by simp), e3 oName' (by simp)] at hp
    exact opaque_complete (by simp; grind)

theorem opaque_input : Input caseOpaque where
  sound := by simp [caseOpaque, oUnit, oUnit', oDecl, oName, oInt, oMember, oStruct, oName', die, Die.Sound, Die.SoundAll, Die.tag]
  distinct := by decide +kernel
  good := opaque_good
  names := by
    intro q d h
    refine opaque_each ?_ h
    simp only [allOpaque, List.mem_cons, List.not_mem_nil, or_false]
    rintro d (rfl | rfl | rfl | rfl | rfl | rfl | rfl)
    all_goals
      refine ⟨?_, (fun h => by first | (cases h; done) | rfl), ?_⟩
      · intro n h; cases h <;> exact ⟨by decide, by unfold GoDedup.Spec.Closed; decide +kernel, by decide⟩
      · intro k hk ht
        revert k
        simp [oUnit, oUnit', oDecl, oName, oInt, oMember, oStruct, oName', die, Die.kids, Die.tag]
        try exact fun n h => by cases h; unfold GoDedup.Spec.Plain; decide
  flat := by
    intro q d h _ p hp
    rcases (opaque_placed h).2 p hp with rfl | rfl
    · exact ⟨_, _, opaque_unit (.inl rfl), rfl, by decide⟩
    · exact ⟨_, _, opaque_unit (.inr rfl), rfl, by decide⟩
  dims q d h := opaque_each (p := fun d => d.tag = go! "ArrayType" → d.kids.length ≤ 2) (by decide +kernel) h

theorem opaque_ctypes : CTypes caseOpaque where
  rank := by
    refine ⟨fun _ => 0, ?_⟩
    intro q d h ht hn q' T hT hu hnt
    exfalso
    have : ∀ d ∈ allOpaque, d.tag ∈ typeTags → text d (go! "Name") = none ∨ d.tag = go! "ArrayType" → ∀ T ∈ allOpaque, T.off ∈ uses d → text T (go! "Name") ≠ none := by decide +kernel
    exact this d (opaque_placed h).1 ht hn T (opaque_placed hT).1 hu hnt
  elements q d h := opaque_each (p := fun d => d.tag = go! "ArrayType" → ref d (go! "Type") ≠ none) (by decide +kernel) h
  dims q d h := opaque_each (p := fun d => d.tag = go! "ArrayType" → ∀ k ∈ d.kids, declared k = false) (by decide +kernel) h
  members q d h := opaque_each (p := fun d => d.tag ∈ [go! "ClassType", go! "StructType", go! "UnionType"] →
    ∀ k ∈ d.kids, k.tag ∈ [go! "Member", go! "TemplateTypeParameter"]) (by decide +kernel) h

theorem opaque_writable : Writable caseOpaque exSnake where
  few := by decide +kernel
  names q d h := by
    simp only [forall_some]
    exact opaque_each (p := fun d => ∀ k ∈ d :: d.kids, (text k (go! "Name")).elim True Emit.Spec.Plain) (by unfold Emit.Spec.Plain; decide +kernel) h
  words q d h n hn hs := exSnake_word n hs
  sizes q d h := by
    unfold Emit.Spec.Size
    simp only [forall_some]
    exact opaque_each (p := fun d => ∀ k ∈ d :: d.kids, ∀ a ∈ sizes, (num k a).elim True fun v => 0 ≤ v ∧ v < 2 ^ 63) (by decide +kernel) h
  encodings q d h ht := by
    have := opaque_each (p := fun d => d.tag = go! "BaseType" → num d (go! "Encoding") ≠ none ∧ (num d (go! "Encoding")).elim True fun v => 0 ≤ v ∧ v ≤ 18) (by decide +kernel) h ht
    obtain ⟨v, hv⟩ := Option.ne_none_iff_exists'.mp this.1
    rw [hv] at this
    exact ⟨v, hv, this.2⟩
  enumerators q d h := by
    intro ht
    exact absurd ht (opaque_each (p := fun d => d.tag ≠ go! "EnumerationType") (by decide +kernel) h)
  arrays q d h := by
    intro ht
    exact absurd ht (opaque_each (p := fun d => d.tag ≠ go! "ArrayType") (by decide +kernel) h)
  structures q d h := opaque_each (p := fun d => d.tag ∈ [go! "ClassType", go! "StructType", go! "UnionType"] → declared d = false → num d (go! "ByteSize") ≠ none)
    (by decide +kernel) h

/-- A typedef of a structure of which nothing is known. -/
def hollow (rt : Entry.Db) (r : Entry.Ref) : Bool :=
  match (rt r).info with
  | .typedef (some r') => match (rt r').info with
    | .struct _ n m => n == 0 && m == []
    | _ => false
  | _ => false

theorem hollow_size {rt : Entry.Db} {r : Entry.Ref} (h : hollow rt r = true) : Entry.byteSize rt (some r) true = some (.ok 0) ∧ Entry.memberCount rt (some r) = some 0 := by
  unfold hollow at h
  split at h
  · rename_i r' hr
    split at h
    · rename_i k n m hr'
      rw [Bool.and_eq_true] at h
      have h1 := beq_iff_eq.mp h.1
      have h2 := beq_iff_eq.mp h.2
      subst h1 h2
      refine ⟨?_, ?_⟩
      · unfold Entry.byteSize
        simp [Entry.byteSizeLoop, hr, hr']
      · have : Entry.finalOf rt (some r) Entry.isStruct = some (some r') := by
          unfold Entry.finalOf Entry.finalEntry
          simp [Entry.finalLoop, hr, hr', Entry.isStruct]
        unfold Entry.memberCount
        simp [this, hr', Entry.membersOf]
    · cases h
  · cases h

def opaqueOrder : List Off := [14, 13, 33, 35, 11, 31, 32]

/-- FALSE of the code: the unit says that `T` is a structure of four bytes with a member; the program
is told that it has none and no size.  Go visits the typedef of the unit that only declares the
structure first; that of the other unit is dropped. -/
theorem C79_opaque_false : ∃ (units : List (Nat × Tree)) (snake : Str → Str) (x : Extra) (w : World) (st : St) (db : List Emit.Obj) (defs : List (Str × Emit.CEntry))
    (addr : Str → Entry.Ref) (rt : Entry.Db), CTypes units ∧ Writable units snake ∧ WritableExtra x ∧ Program units snake w st x db defs addr rt ∧
    ∃ q q' d s k, Placed [] (units.map Prod.snd) q d ∧ Placed [] (units.map Prod.snd) q' s ∧ d.tag = go! "Typedef" ∧ ref d (go! "Type") = some s.off ∧
      s.tag = go! "StructType" ∧ declared s = false ∧ num s (go! "ByteSize") = some 4 ∧ s.kids = [k] ∧ k.tag = go! "Member" ∧
      Entry.byteSize rt (some (addr (link snake w st d.off))) true = some (.ok 0) ∧ Entry.memberCount rt (some (addr (link snake w st d.off))) = some 0 := by
  obtain ⟨E, b, w, st, e1, e2, e3, e4⟩ := runsChain_runs (units := caseOpaque) opaque_input.toWhole (order := opaqueOrder) (n := 7)
    (p := fun w st => match Emit.compileFile (Emit.file exSnake (st.added.map (view exSnake w st exExtra))) with
      | some defs => hollow (Emit.memory defs) (Emit.place defs (link exSnake w st 35))
      | none => false) (by decide) (by decide +kernel)
  obtain ⟨E', b', r1, r2, r3⟩ := C80_compiles_partial caseOpaque exSnake exExtra opaque_input opaque_ctypes opaque_writable exExtra_writable exSnake_snake
  rw [e1] at r1; cases r1
  rw [e2] at r2; cases r2
  obtain ⟨w', st', r4, r5⟩ := r3 opaqueOrder (whole_visits opaque_input.toWhole e1 e2 (by decide) (by
    intro q d h
    exact opaque_each (p := fun d => d.off ∈ opaqueOrder ∧ (d.tag = go! "ArrayType" → ∀ o ∈ (d.kids.map Die.off).tail, o ∈ opaqueOrder)) (by decide +kernel) h))
  rw [e3] at r4; cases r4
  obtain ⟨defs, hdefs, hprog⟩ := r5 _ (List.Perm.refl _)
  rw [hdefs] at e4
  obtain ⟨s1, s2⟩ := hollow_size e4
  exact ⟨caseOpaque, exSnake, exExtra, w, st, _, defs, _, _, opaque_ctypes, opaque_writable, exExtra_writable, hprog, [31], [31], oName', oStruct, oMember, opaque_at' (by simp), opaque_at' (by simp),
    rfl, rfl, rfl, rfl, rfl, rfl, rfl, s1, s2⟩

/-- The units do not agree on the structure; they do on the type of its member, so that links to it are
answered exactly (C82). -/
example : ¬ Agreed caseOpaque oStruct ∧ Agreed caseOpaque oInt := by
  refine ⟨fun h => ?_, ?_⟩
  · have := (h [11] oDecl (go! "s") (opaque_at (by simp)) rfl (.other (by decide) (by decide)) (.other (by decide) (by decide))).1
    exact absurd this (by decide)
  · intro q d n hp ht hn hn'
    have : d = oInt := by
      have hm := (opaque_placed hp).1
      simp only [allOpaque, List.mem_cons, List.not_mem_nil, or_false] at hm
      rcases hm with rfl | rfl | rfl | rfl | rfl | rfl | rfl <;> first | rfl | exact absurd ht (by decide)
    subst this
    exact ⟨rfl, fun _ => ⟨rfl, rfl⟩, fun h => absurd rfl h⟩

end Verif.Chain
