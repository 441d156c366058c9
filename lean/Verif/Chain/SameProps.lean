import Verif.Chain.ParentsProps
/-
C82: a type that several units describe is one entry at run time.
-/
namespace Verif.Chain
open Verif.GoMeta (Str)
open GoDwarf.Spec (Die)
open GoBuild.Spec (Tree Placed text num ref declared isTag paramTags)
open GoDedup (World St Off)
open Spec

variable {units : List (Nat × Tree)} {w : World} {st : St} {snake : Str → Str} {x : Extra} {db : List Emit.Obj}
  {defs : List (Str × Emit.CEntry)} {addr : Str → Entry.Ref} {rt : Entry.Db}

/-- C82: types that say the same are found at one place. -/
theorem C82_one (h : Program units snake w st x db defs addr rt) (hC : CTypes units) (q q' : List Off) (d d' : Tree) (hp : Placed [] (units.map Prod.snd) q d)
    (hp' : Placed [] (units.map Prod.snd) q' d') (ht : d.tag ∈ typeTags) (hd : declared d = declared d') (hs : Says (Like units) d d') :
    addr (link snake w st d.off) = addr (link snake w st d'.off) := by
  obtain ⟨st0, order, hrun⟩ := h.run
  have := hrun.core.merged h.input hC hp hp' ht hd hs
  obtain ⟨t, o, -, -, -, g, -⟩ := hrun.core.placed h.input hp
  rw [link_ptr g, link_ptr (this ▸ g)]

/-- C82: and the units of all of them are its parents. -/
theorem C82_parents (h : Program units snake w st x db defs addr rt) (hC : CTypes units) (q q' : List Off) (d d' : Tree) (hp : Placed [] (units.map Prod.snd) q d)
    (hp' : Placed [] (units.map Prod.snd) q' d') (ht : d.tag ∈ typeTags) (hd : declared d = declared d') (hs : Says (Like units) d d') (hne : d.off ≠ d'.off)
    (p p' : Off) (hq : p ∈ q) (hq' : p' ∈ q') (r : Entry.Ref) (hr : r = addr (link snake w st d.off)) :
    ∃ k k' : Nat, k ≠ k' ∧ k < Entry.parentCount rt (some r) ∧ k' < Entry.parentCount rt (some r) ∧
      Entry.parentEntry rt (some r) k = some (some (addr (link snake w st p))) ∧ Entry.parentEntry rt (some r) k' = some (some (addr (link snake w st p'))) := by
  have hone : ∀ {q : List Off} {d : Tree} {p : Off}, Placed [] (units.map Prod.snd) q d → p ∈ q → q = [p] := by
    intro q d p hp hq
    rcases GoBuild.placed_top hp with ⟨rfl, -⟩ | ⟨u, hu, hp'⟩
    · cases hq
    · obtain ⟨q0, h0, -⟩ := placed_one hp' _ _ rfl (fun x hx => GoBuild.parts_sub hx)
      subst h0
      rw [List.mem_singleton.mp hq]
  have hu : d.tag ≠ go! "CompileUnit" := by intro e; rw [e] at ht; exact absurd ht (by decide)
  have hlink : link snake w st d.off = link snake w st d'.off := by
    obtain ⟨st0, order, hrun⟩ := h.run
    have := hrun.core.merged h.input hC hp hp' ht hd hs
    obtain ⟨t, o, -, -, -, g, -⟩ := hrun.core.placed h.input hp
    rw [link_ptr g, link_ptr (this ▸ g)]
  obtain ⟨l, -, l2, l3, l4, -⟩ := C81_parents h q d hp hu r hr
  have e1 := hone hp hq
  have e2 := hone hp' hq'
  subst e1 e2
  obtain ⟨k, hk⟩ := List.mem_iff_getElem?.mp ((l2 p d.off).mpr ⟨.entry hp, rfl⟩)
  obtain ⟨k', hk'⟩ := List.mem_iff_getElem?.mp ((l2 p' d'.off).mpr ⟨.entry hp', hlink.symm⟩)
  obtain ⟨_, _, _, _, g1, -⟩ := l4 k _ _ hk
  obtain ⟨_, _, _, _, g2, -⟩ := l4 k' _ _ hk'
  have b1 := (List.getElem?_eq_some_iff.mp hk).1
  have b2 := (List.getElem?_eq_some_iff.mp hk').1
  refine ⟨k, k', ?_, by rw [l3]; omega, by rw [l3]; omega, g1, g2⟩
  rintro rfl
  rw [hk] at hk'
  exact hne (Prod.mk.inj (Option.some.inj hk')).2

/-! ### A case: two units that include the same header -/

/-- `int`, `struct s { int a; struct s * next; }`, `struct s *` -/
def sInt (b : Off) : Tree := GoBuild.die (b + 30) (go! "BaseType") [(go! "Name", .str (go! "int")), (go! "ByteSize", .int 4), (go! "Encoding", .int 5)] []
def sNode (b : Off) : Tree := GoBuild.die (b + 40) (go! "StructType") [(go! "Name", .str (go! "s")), (go! "ByteSize", .int 16)]
  [GoBuild.die (b + 42) (go! "Member") [(go! "Name", .str (go! "a")), (go! "Type", .off (b + 30)), (go! "DataMemberLoc", .int 0)] [],
   GoBuild.die (b + 44) (go! "Member") [(go! "Name", .str (go! "next")), (go! "Type", .off (b + 50)), (go! "DataMemberLoc", .int 8)] []]
def sPtr (b : Off) : Tree := GoBuild.die (b + 50) (go! "PointerType") [(go! "ByteSize", .int 8), (go! "Type", .off (b + 40))] []
def sVar (b : Off) (n : Str) : Tree := GoBuild.die (b + 60) (go! "Variable") [(go! "Name", .str n), (go! "Type", .off (b + 50))] []
def sUnit (b : Off) (u n : Str) : Tree := GoBuild.die (b + 11) (go! "CompileUnit") [(go! "Name", .str u)] [sInt b, sNode b, sPtr b, sVar b n]
def unit1 : Tree := sUnit 0 (go! "a.c") (go! "x")
def unit2 : Tree := sUnit 100 (go! "b.c") (go! "y")
def case82 : List (Nat × Tree) := [(1, unit1), (0, unit2)]
def all82 : List Tree := [unit1, sInt 0, sNode 0, sPtr 0, sVar 0 (go! "x"), unit2, sInt 100, sNode 100, sPtr 100, sVar 100 (go! "y")]

theorem case82_placed {q : List Off} {d : Tree} (h : Placed [] (case82.map Prod.snd) q d) :
    d ∈ all82 ∧ (∀ p ∈ q, p = 11 ∨ p = 111) := by
  have e1 : GoBuild.Spec.parts unit1 = [sInt 0, sNode 0, sPtr 0, sVar 0 (go! "x")] := rfl
  have e2 : GoBuild.Spec.parts unit2 = [sInt 100, sNode 100, sPtr 100, sVar 100 (go! "y")] := rfl
  have e3 : ∀ b, GoBuild.Spec.parts (sInt b) = [] := fun _ => rfl
  have e4 : ∀ b, GoBuild.Spec.parts (sNode b) = [] := fun _ => rfl
  have e5 : ∀ b, GoBuild.Spec.parts (sPtr b) = [] := fun _ => rfl
  have e6 : ∀ b n, GoBuild.Spec.parts (sVar b n) = [] := fun _ _ => rfl
  have e7 : case82.map Prod.snd = [unit1, unit2] := rfl
  have o1 : unit1.off = 11 := rfl
  have o2 : unit2.off = 111 := rfl
  rw [e7] at h
  simp only [GoBuild.placed_cons, GoBuild.placed_nil, e1, e2, e3, e4, e5, e6, o1, o2] at h
  simp only [all82, List.mem_cons, List.not_mem_nil, or_false]
  simp only [false_or, or_false] at h
  rcases h with ⟨rfl, rfl⟩ | (⟨rfl, rfl⟩ | ⟨rfl, rfl⟩ | ⟨rfl, rfl⟩ | ⟨rfl, rfl⟩) | ⟨rfl, rfl⟩ | (⟨rfl, rfl⟩ | ⟨rfl, rfl⟩ | ⟨rfl, rfl⟩ | ⟨rfl, rfl⟩) <;> simp

theorem case82_each {p : Tree → Prop} (h : ∀ d ∈ all82, p d) {q : List Off} {d : Tree} (hd : Placed [] (case82.map Prod.snd) q d) : p d := h d (case82_placed hd).1

theorem case82_unit {u : Tree} (h : u = unit1 ∨ u = unit2) : Placed [] (case82.map Prod.snd) [] u := .here (by simpa [case82] using h)

theorem case82_at1 {d : Tree} (h : d ∈ [sInt 0, sNode 0, sPtr 0, sVar 0 (go! "x")]) : Placed [] (case82.map Prod.snd) [11] d := placed_part (d := unit1) (case82_unit (.inl rfl)) h
theorem case82_at2 {d : Tree} (h : d ∈ [sInt 100, sNode 100, sPtr 100, sVar 100 (go! "y")]) : Placed [] (case82.map Prod.snd) [111] d := placed_part (d := unit2) (case82_unit (.inr rfl)) h

theorem case82_base {b : Off} (hb : b = 0 ∨ b = 100) {d : Tree} (hd : d ∈ [sInt b, sNode b, sPtr b]) : ∃ q, Placed [] (case82.map Prod.snd) q d := by
  rcases hb with rfl | rfl
  · exact ⟨_, case82_at1 (by simp at hd ⊢; grind)⟩
  · exact ⟨_, case82_at2 (by simp at hd ⊢; grind)⟩

theorem case82_types {b : Off} (hb : b = 0 ∨ b = 100) {t : Off} (h : t ∈ [b + 30, b + 40, b + 50]) : GoBuild.Spec.TypeAt (case82.map Prod.snd) t := by
  simp only [List.mem_cons, List.not_mem_nil, or_false] at h
  rcases h with rfl | rfl | rfl
  · obtain ⟨q, hp⟩ := case82_base hb (d := sInt b) (by simp)
    exact ⟨q, _, .base, hp, rfl, rfl, rfl⟩
  · obtain ⟨q, hp⟩ := case82_base hb (d := sNode b) (by simp)
    exact ⟨q, _, .aggregate .struct, hp, rfl, rfl, rfl⟩
  · obtain ⟨q, hp⟩ := case82_base hb (d := sPtr b) (by simp)
    exact ⟨q, _, .pointer, hp, rfl, rfl, rfl⟩

theorem case82_link {b : Off} (hb : b = 0 ∨ b = 100) {d : Tree} {t : Off} (h : ref d (go! "Type") = some t) (ht : t ∈ [b + 30, b + 40, b + 50]) :
    GoBuild.Spec.LinkOk (GoBuild.Spec.TypeAt (case82.map Prod.snd)) d := by
  intro t' h'
  rw [h] at h'
  cases h'
  exact case82_types hb ht

theorem case82_complete {b : Off} (hb : b = 0 ∨ b = 100) (n : Str) {d : Tree} (hd : d ∈ [sInt b, sNode b, sPtr b, sVar b n]) :
    GoBuild.Spec.Complete (GoBuild.Spec.TypeAt (case82.map Prod.snd)) d := by
  simp only [List.mem_cons, List.not_mem_nil, or_false] at hd
  rcases hd with rfl | rfl | rfl | rfl
  · exact .base (n := go! "int") rfl rfl (fun h => absurd h (by decide)) rfl rfl rfl (by intro v hv; cases hv; decide)
  · refine .struct (t := go! "StructType") (by decide) rfl ?_
    intro k hk _
    have : k = GoBuild.die (b + 42) (go! "Member") [(go! "Name", .str (go! "a")), (go! "Type", .off (b + 30)), (go! "DataMemberLoc", .int 0)] [] ∨
      k = GoBuild.die (b + 44) (go! "Member") [(go! "Name", .str (go! "next")), (go! "Type", .off (b + 50)), (go! "DataMemberLoc", .int 8)] [] := by
      simpa [sNode, GoBuild.die, Die.kids] using hk
    rcases this with rfl | rfl
    · refine ⟨⟨b + 30, rfl, case82_types hb (by simp)⟩, ?_, .inl ?_⟩
      · intro h; exact absurd rfl h
      · show some (0 : Int) ≠ none; simp
    · refine ⟨⟨b + 50, rfl, case82_types hb (by simp)⟩, ?_, .inl ?_⟩
      · intro h; exact absurd rfl h
      · show some (8 : Int) ≠ none; simp
  · exact .link (t := go! "PointerType") (by decide) rfl (case82_link hb (t := b + 40) rfl (by simp))
  · exact .link (t := go! "Variable") (by decide) rfl (case82_link hb (t := b + 50) rfl (by simp))

theorem case82_good : GoBuild.Spec.Good (case82.map Prod.snd) := by
  intro u hu
  have hu' : u = unit1 ∨ u = unit2 := by simpa [case82] using hu
  have e1 : GoBuild.Spec.parts unit1 = [sInt 0, sNode 0, sPtr 0, sVar 0 (go! "x")] := rfl
  have e2 : GoBuild.Spec.parts unit2 = [sInt 100, sNode 100, sPtr 100, sVar 100 (go! "y")] := rfl
  have e3 : ∀ b, GoBuild.Spec.parts (sInt b) = [] := fun _ => rfl
  have e4 : ∀ b, GoBuild.Spec.parts (sNode b) = [] := fun _ => rfl
  have e5 : ∀ b, GoBuild.Spec.parts (sPtr b) = [] := fun _ => rfl
  have e6 : ∀ b n, GoBuild.Spec.parts (sVar b n) = [] := fun _ _ => rfl
  rcases hu' with rfl | rfl
  · refine ⟨⟨rfl, by decide, by decide⟩, ?_⟩
    intro q d hp
    simp only [GoBuild.placed_cons, GoBuild.placed_nil, e1, e3, e4, e5, e6] at hp
    exact case82_complete (b := 0) (.inl rfl) (go! "x") (by simp; grind)
  · refine ⟨⟨rfl, by decide, by decide⟩, ?_⟩
    intro q d hp
    simp only [GoBuild.placed_cons, GoBuild.placed_nil, e2, e3, e4, e5, e6] at hp
    exact case82_complete (b := 100) (.inr rfl) (go! "y") (by simp; grind)

theorem case82_input : Input case82 where
  sound := by simp [case82, unit1, unit2, sUnit, GoBuild.die, sInt, sNode, sPtr, sVar, Die.Sound, Die.SoundAll, Die.tag]
  distinct := by decide +kernel
  good := case82_good
  names := by
    intro q d h
    refine case82_each ?_ h
    simp only [all82, List.mem_cons, List.not_mem_nil, or_false]
    rintro d (rfl | rfl | rfl | rfl | rfl | rfl | rfl | rfl | rfl | rfl)
    all_goals
      refine ⟨?_, (fun h => by first | (cases h; done) | rfl), ?_⟩
      · intro n h; cases h <;> exact ⟨by decide, by unfold GoDedup.Spec.Closed; decide +kernel, by decide⟩
      · intro k hk ht
        revert k
        simp [unit1, unit2, sUnit, sInt, sPtr, sVar, sNode, GoBuild.die, Die.kids, Die.tag]
        try exact ⟨fun n h => by cases h; unfold GoDedup.Spec.Plain; decide, fun n h => by cases h; unfold GoDedup.Spec.Plain; decide⟩
  flat := by
    intro q d h _ p hp
    rcases (case82_placed h).2 p hp with rfl | rfl
    · exact ⟨_, unit1, case82_unit (.inl rfl), rfl, by decide⟩
    · exact ⟨_, unit2, case82_unit (.inr rfl), rfl, by decide⟩
  dims := by
    intro q d h
    exact case82_each (p := fun d => d.tag = go! "ArrayType" → d.kids.length ≤ 2) (by decide +kernel) h

theorem case82_ctypes : CTypes case82 where
  rank := by
    refine ⟨fun _ => 0, ?_⟩
    intro q d h ht hn q' T hT hu hnt
    exfalso
    have : ∀ d ∈ all82, d.tag ∈ typeTags → text d (go! "Name") = none ∨ d.tag = go! "ArrayType" → ∀ T ∈ all82, T.off ∈ uses d → text T (go! "Name") ≠ none := by decide +kernel
    exact this d (case82_placed h).1 ht hn T (case82_placed hT).1 hu hnt
  elements q d h := case82_each (p := fun d => d.tag = go! "ArrayType" → ref d (go! "Type") ≠ none) (by decide +kernel) h
  dims q d h := case82_each (p := fun d => d.tag = go! "ArrayType" → ∀ k ∈ d.kids, declared k = false) (by decide +kernel) h
  members q d h := case82_each (p := fun d => d.tag ∈ [go! "ClassType", go! "StructType", go! "UnionType"] →
    ∀ k ∈ d.kids, k.tag ∈ [go! "Member", go! "TemplateTypeParameter"]) (by decide +kernel) h

theorem case82_writable : Writable case82 exSnake where
  few := by decide +kernel
  names q d h := by
    simp only [forall_some]
    exact case82_each (p := fun d => ∀ k ∈ d :: d.kids, (text k (go! "Name")).elim True Emit.Spec.Plain) (by unfold Emit.Spec.Plain; decide +kernel) h
  words q d h n hn hs := exSnake_word n hs
  sizes q d h := by
    unfold Emit.Spec.Size
    simp only [forall_some]
    exact case82_each (p := fun d => ∀ k ∈ d :: d.kids, ∀ a ∈ sizes, (num k a).elim True fun v => 0 ≤ v ∧ v < 2 ^ 63) (by decide +kernel) h
  encodings q d h ht := by
    have := case82_each (p := fun d => d.tag = go! "BaseType" → num d (go! "Encoding") ≠ none ∧ (num d (go! "Encoding")).elim True fun v => 0 ≤ v ∧ v ≤ 18) (by decide +kernel) h ht
    obtain ⟨v, hv⟩ := Option.ne_none_iff_exists'.mp this.1
    rw [hv] at this
    exact ⟨v, hv, this.2⟩
  enumerators q d h := by
    intro ht
    exact absurd ht (case82_each (p := fun d => d.tag ≠ go! "EnumerationType") (by decide +kernel) h)
  arrays q d h := by
    intro ht
    exact absurd ht (case82_each (p := fun d => d.tag ≠ go! "ArrayType") (by decide +kernel) h)
  structures q d h := case82_each (p := fun d => d.tag ∈ [go! "ClassType", go! "StructType", go! "UnionType"] → declared d = false → num d (go! "ByteSize") ≠ none)
    (by decide +kernel) h

theorem case82_program : ∃ w st db defs addr rt, Program case82 exSnake w st exExtra db defs addr rt :=
  C80_program_partial _ _ _ case82_input case82_ctypes case82_writable exExtra_writable exSnake_snake

/-- The types of one unit are those of the other. -/
theorem case82_like {b b' : Off} (hb : b = 0 ∨ b = 100) (hb' : b' = 0 ∨ b' = 100) :
    Like case82 (b + 30) (b' + 30) ∧ Like case82 (b + 40) (b' + 40) ∧ Like case82 (b + 50) (b' + 50) := by
  obtain ⟨q1, p1⟩ := case82_base hb (d := sInt b) (by simp)
  obtain ⟨q2, p2⟩ := case82_base hb' (d := sInt b') (by simp)
  obtain ⟨q3, p3⟩ := case82_base hb (d := sNode b) (by simp)
  obtain ⟨q4, p4⟩ := case82_base hb' (d := sNode b') (by simp)
  obtain ⟨q5, p5⟩ := case82_base hb (d := sPtr b) (by simp)
  obtain ⟨q6, p6⟩ := case82_base hb' (d := sPtr b') (by simp)
  have h2 : ∀ R : Off → Off → Prop, (∀ x y, LikeStep case82 R x y → R x y) → R (b + 40) (b' + 40) := fun R hR =>
    hR _ _ (.named p3 p4 (by show go! "StructType" ∈ typeTags; decide) rfl (by show some (go! "s") ≠ none; simp) rfl (fun h => absurd h (by show go! "StructType" ≠ _; decide)))
  refine ⟨fun R hR => ?_, h2, fun R hR => ?_⟩
  · exact hR _ _ (.named p1 p2 (by show go! "BaseType" ∈ typeTags; decide) rfl (by show some (go! "int") ≠ none; simp) rfl (fun _ => rfl))
  · refine hR _ _ (.unnamed p5 p6 (by show go! "PointerType" ∈ typeTags; decide) rfl ⟨⟨rfl, rfl, ?_, .inr ⟨_, _, rfl, rfl, h2 R hR⟩⟩, .nil⟩)
    simp only [measures, sizes, List.cons_append, List.nil_append, List.forall_mem_cons]
    exact ⟨rfl, rfl, rfl, rfl, rfl, rfl, rfl, rfl, rfl, rfl, rfl, rfl, by simp⟩

theorem case82_says {b b' : Off} (hb : b = 0 ∨ b = 100) (hb' : b' = 0 ∨ b' = 100) : Says (Like case82) (sNode b) (sNode b') := by
  obtain ⟨h1, h2, h3⟩ := case82_like hb hb'
  refine ⟨⟨rfl, rfl, ?_, .inl ⟨rfl, rfl⟩⟩, .cons ⟨rfl, rfl, ?_, .inr ⟨_, _, rfl, rfl, h1⟩⟩ (.cons ⟨rfl, rfl, ?_, .inr ⟨_, _, rfl, rfl, h3⟩⟩ .nil)⟩
  all_goals
    simp only [measures, sizes, List.cons_append, List.nil_append, List.forall_mem_cons]
    exact ⟨rfl, rfl, rfl, rfl, rfl, rfl, rfl, rfl, rfl, rfl, rfl, rfl, by simp⟩

theorem case82_agreed {q : List Off} {d : Tree} (hp : Placed [] (case82.map Prod.snd) q d) (ht : d.tag ∈ typeTags) : Agreed case82 d := by
  intro q' d' n hp' htag hn hn'
  have h1 := (case82_placed hp).1
  have h2 := (case82_placed hp').1
  have tags : ∀ d ∈ all82, d.tag ∈ typeTags → (∃ b, (b = 0 ∨ b = 100) ∧ (d = sInt b ∨ d = sNode b ∨ d = sPtr b)) := by
    simp only [all82, List.mem_cons, List.not_mem_nil, or_false]
    rintro d (rfl | rfl | rfl | rfl | rfl | rfl | rfl | rfl | rfl | rfl) ht
    · exact absurd ht (by decide)
    · exact ⟨0, .inl rfl, .inl rfl⟩
    · exact ⟨0, .inl rfl, .inr (.inl rfl)⟩
    · exact ⟨0, .inl rfl, .inr (.inr rfl)⟩
    · exact absurd ht (by decide)
    · exact absurd ht (by decide)
    · exact ⟨100, .inr rfl, .inl rfl⟩
    · exact ⟨100, .inr rfl, .inr (.inl rfl)⟩
    · exact ⟨100, .inr rfl, .inr (.inr rfl)⟩
    · exact absurd ht (by decide)
  obtain ⟨b, hb, hd⟩ := tags d h1 ht
  obtain ⟨b', hb', hd'⟩ := tags d' h2 (htag ▸ ht)
  have ptr : ∀ b, ¬ NameAt (sPtr b) (some n) := by
    intro b h
    generalize hm : some n = m at h
    cases h with
    | base h => exact absurd h (by show go! "PointerType" ≠ _; decide)
    | block h => cases hm
    | other => cases hm
  rcases hd with rfl | rfl | rfl
  · rcases hd' with rfl | rfl | rfl
    · exact ⟨rfl, fun _ => ⟨rfl, rfl⟩, fun h => absurd rfl h⟩
    · exact absurd htag (by show go! "BaseType" ≠ go! "StructType"; decide)
    · exact absurd htag (by show go! "BaseType" ≠ go! "PointerType"; decide)
  · rcases hd' with rfl | rfl | rfl
    · exact absurd htag (by show go! "StructType" ≠ go! "BaseType"; decide)
    · exact ⟨rfl, fun h => absurd h (by show go! "StructType" ≠ go! "BaseType"; decide), fun _ => case82_says hb hb'⟩
    · exact absurd htag (by show go! "StructType" ≠ go! "PointerType"; decide)
  · exact absurd hn (ptr b)

/-- The hypotheses of C82 and of the exact answers of C79 hold for the case: the structure of both units is
found at one place, has both units as parents, and the pointer of the second unit, and that in
the structure, lead to it. -/
example : ∃ w st db defs addr rt, Program case82 exSnake w st exExtra db defs addr rt ∧ ∃ r, Told rt r (sNode 0) ∧ Told rt r (sNode 100) ∧
    (∃ (k k' : Nat) (u u' : Entry.Ref), k ≠ k' ∧ k < Entry.parentCount rt (some r) ∧ k' < Entry.parentCount rt (some r) ∧ Entry.parentEntry rt (some r) k = some (some u) ∧
      Entry.parentEntry rt (some r) k' = some (some u') ∧ Told rt u unit1 ∧ Told rt u' unit2) ∧
    (∃ p, Told rt p (sPtr 100) ∧ Entry.pointerEntry rt (some p) = some (some r)) ∧
    ∃ e i p, Entry.byMemberId rt (some r) 1 = some (some e) ∧ (rt e).info = .member i ∧ i.type = some p ∧ Told rt p (sPtr 0) ∧ Entry.pointerEntry rt (some p) = some (some r) := by
  obtain ⟨w, st, db, defs, addr, rt, h⟩ := case82_program
  have hn := case82_at1 (d := sNode 0) (by simp)
  have hn' := case82_at2 (d := sNode 100) (by simp)
  have hq := case82_at1 (d := sPtr 0) (by simp)
  have hq' := case82_at2 (d := sPtr 100) (by simp)
  have hs := case82_says (b := 0) (b' := 100) (.inl rfl) (.inr rfl)
  have hone := C82_one h case82_ctypes _ _ _ _ hn hn' (by decide) rfl hs
  have off : ∀ b, (sNode b).off = b + 40 := fun _ => rfl
  have deref : ∀ b q, (b = 0 ∨ b = 100) → Placed [] (case82.map Prod.snd) q (sPtr b) →
      Entry.pointerEntry rt (some (addr (link exSnake w st (sPtr b).off))) = some (some (addr (link exSnake w st (sNode 0).off))) := by
    intro b q hb hp
    obtain ⟨e, e1, e2⟩ := (C79_pointers_partial h q (sPtr b) hp rfl rfl _ rfl).1
    rw [e1]
    have hr : ref (sPtr b) (go! "Type") = some (b + 40) := rfl
    rw [hr] at e2
    generalize hf : some (b + 40) = f at e2
    cases e2 with
    | none => cases hf
    | @some q T r p1 p2 p3 =>
      have htt : T.tag ∈ typeTags := case82_each (p := fun d => d.off ∈ [40, 140] → d.tag ∈ typeTags) (by decide +kernel) p1 (by rw [← Option.some.inj hf]; rcases hb with rfl | rfl <;> decide)
      rw [p3 case82_ctypes (case82_agreed p1 htt), ← Option.some.inj hf]
      rcases hb with rfl | rfl
      · rfl
      · rw [show (100 + 40 : Off) = (sNode 100).off from rfl, ← hone]
  refine ⟨w, st, db, defs, addr, rt, h, _, C79_entries_partial h _ _ hn, ?_, ?_, ⟨_, C79_entries_partial h _ _ hq', deref 100 _ (.inr rfl) hq'⟩, ?_⟩
  · rw [hone]; exact C79_entries_partial h _ _ hn'
  · obtain ⟨k, k', h1, h2, h3, h4, h5⟩ := C82_parents h case82_ctypes _ _ _ _ hn hn' (by decide) rfl hs (by decide) 11 111 (by simp) (by simp) _ rfl
    exact ⟨k, k', _, _, h1, h2, h3, h4, h5, C79_entries_partial h _ _ (case82_unit (.inl rfl)), C79_entries_partial h _ _ (case82_unit (.inr rfl))⟩
  · obtain ⟨e, e1, e2⟩ := (C79_structures_partial h _ _ hn (by decide) rfl _ rfl _ rfl).2.1 1 _ rfl
    obtain ⟨i, i1, i2, -⟩ := e2.place
    have hr : ref (GoBuild.die (0 + 44) (go! "Member") [(go! "Name", .str (go! "next")), (go! "Type", .off (0 + 50)), (go! "DataMemberLoc", .int 8)] []) (go! "Type") = some 50 := rfl
    rw [hr] at i2
    generalize hty : i.type = ty at i2
    generalize hf : some (50 : Off) = f at i2
    cases i2 with
    | none => cases hf
    | @some q T r p1 p2 p3 =>
      have htt : T.tag ∈ typeTags := case82_each (p := fun d => d.off = 50 → d.tag ∈ typeTags) (by decide +kernel) p1 (Option.some.inj hf).symm
      have hloc := p3 case82_ctypes (case82_agreed p1 htt)
      rw [← Option.some.inj hf] at hloc
      refine ⟨e, i, r, e1, i1, hty, ?_, ?_⟩
      · rw [hloc]; exact C79_entries_partial h _ _ hq
      · rw [hloc]; exact deref 0 _ (.inl rfl) hq

end Verif.Chain
