import Verif.Chain.CompileProps
import Verif.GoDedup.Witness
/-
What is false of C79 and C80: arrays of three dimensions (a run of the generator whose file does not
compile, one whose file has an array without elements).
-/
namespace Verif.Chain
open Verif.GoMeta (Str)
open GoDwarf.Spec (Die)
open GoBuild (die Data B)
open GoBuild.Spec (Tree Placed text num ref declared)
open GoDedup (World St Go Off)
open GoDedup.Spec (Visits)
open Spec

/-! ### Runs that can be computed -/

/-- `processEntry` for entries without entries below them. -/
def leaf (data : Data) (parent i : Off) (b : B) : Go (Bool × B) := do
  let (e, b) ← GoBuild.getIndex data i b
  match GoBuild.kinds.lookup ((b.tag i).getD []) with
  | some .base => do return (true, GoBuild.finish i (← GoBuild.baseDesc e) [parent] b)
  | some .array => do return (true, ← GoBuild.processArray data parent i e b)
  | some .variable => do
    let (t, b) ← GoBuild.typeLink data e b
    return (true, GoBuild.finishObj i (.variable (GoBuild.objHead e) t) [parent] b)
  | some .typedef =>
    if GoBuild.strOf e (go! "Name") = none then Go.fail else GoBuild.linkType data parent i e (.typedef (GoBuild.head e)) b
  | some (.aggregate a) => do
    let (fs, hs, b) ← GoBuild.structKids (fun _ _ => Go.panic) data (a = .union) e.children b
    return (true, GoBuild.finish i (.struct (GoBuild.head e) a fs hs) [parent] b)
  | _ => Go.panic

theorem structKids_none (f : Off → B → Go (Bool × B)) (data : Data) (u : Bool) : ∀ (os : List Off) (b : B) r,
    GoBuild.structKids (fun _ _ => Go.panic) data u os b = Go.ret r → GoBuild.structKids f data u os b = Go.ret r := by
  intro os
  induction os with
  | nil => intro b r h; exact h
  | cons o os ih =>
    intro b r h
    simp only [GoBuild.structKids] at h ⊢
    split
    · rename_i hd; rw [hd] at h; exact h
    · rename_i e hd
      rw [hd] at h
      simp only at h
      split
      · rename_i hm
        rw [if_pos hm] at h
        obtain ⟨p, h1, h2⟩ := Go.bind_ret.mp h
        obtain ⟨p', h3, h4⟩ := Go.bind_ret.mp h2
        exact Go.bind_ret.mpr ⟨p, h1, Go.bind_ret.mpr ⟨p', ih _ _ h3, h4⟩⟩
      · rename_i hm
        rw [if_neg hm] at h
        split
        · rename_i ht; rw [if_pos ht] at h; exact ih _ _ h
        · rename_i ht; rw [if_neg ht] at h; cases h

theorem leaf_process {data : Data} {parent i : Off} {b : B} {r : Bool × B} (h : leaf data parent i b = Go.ret r) : GoBuild.processEntry data parent i b = Go.ret r := by
  rw [GoBuild.processEntry]
  unfold leaf at h
  obtain ⟨⟨e, b'⟩, h1, h2⟩ := Go.bind_ret.mp h
  refine Go.bind_ret.mpr ⟨⟨e, b'⟩, h1, ?_⟩
  simp only at h2 ⊢
  split at h2
  · rename_i hk; rw [hk]; exact h2
  · rename_i hk; rw [hk]; exact h2
  · rename_i hk; rw [hk]; exact h2
  · rename_i hk; rw [hk]; exact h2
  · rename_i hk
    rw [hk]
    obtain ⟨p, h3, h4⟩ := Go.bind_ret.mp h2
    exact Go.bind_ret.mpr ⟨p, structKids_none _ data _ _ _ _ h3, h4⟩
  · cases h2

theorem scopeKids_mono {f g : Off → B → Go (Bool × B)} (hfg : ∀ o b r, f o b = Go.ret r → g o b = Go.ret r) (data : Data) :
    ∀ (os : List Off) (b : B) r, GoBuild.scopeKids f data os b = Go.ret r → GoBuild.scopeKids g data os b = Go.ret r := by
  intro os
  induction os with
  | nil => intro b r h; exact h
  | cons o os ih =>
    intro b r h
    have key : ∀ x b, ((do let (k, b) ← f x b
                           if k then do
                             let (hs, b) ← GoBuild.scopeKids f data os b
                             return (x :: hs, b)
                           else Go.panic) : Go (List Off × B)) = Go.ret r →
        ((do let (k, b) ← g x b
             if k then do
               let (hs, b) ← GoBuild.scopeKids g data os b
               return (x :: hs, b)
             else Go.panic) : Go (List Off × B)) = Go.ret r := by
      intro x b h
      obtain ⟨⟨k, b'⟩, h1, h2⟩ := Go.bind_ret.mp h
      refine Go.bind_ret.mpr ⟨⟨k, b'⟩, hfg _ _ _ h1, ?_⟩
      simp only at h2 ⊢
      cases k with
      | false => exact h2
      | true =>
        simp only [if_true] at h2 ⊢
        obtain ⟨p, h3, h4⟩ := Go.bind_ret.mp h2
        exact Go.bind_ret.mpr ⟨p, ih _ _ h3, h4⟩
    simp only [GoBuild.scopeKids] at h ⊢
    split
    · rename_i hd; rw [hd] at h; exact h
    · rename_i e hd
      rw [hd] at h
      simp only at h
      split
      · rename_i hi
        rw [if_pos hi] at h
        split
        · rename_i ho; rw [ho] at h; exact ih _ _ h
        · rename_i y ho; rw [ho] at h; exact key _ _ h
      · rename_i hi
        rw [if_neg hi] at h
        exact key _ _ h

/-- The loop over the units, for units without deeper entries. -/
def leafUnits (data : Data) : List Off → B → Go B
  | [], b => Go.ret b
  | i :: is, b =>
    if (b.tag i).isSome then Go.fail
    else do
      let (e, b) ← GoBuild.getIndex data i b
      if e.tag = go! "CompileUnit" then
        match GoBuild.strOf e (go! "Name") with
        | none => Go.fail
        | some n => do
          let (hs, b) ← GoBuild.scopeKids (leaf data i) data e.children b
          leafUnits data is (GoBuild.finishObj i (.compileUnit n hs) [] b)
      else Go.fail

theorem leafUnits_build (data : Data) : ∀ (is : List Off) (b : B) r, leafUnits data is b = Go.ret r → GoBuild.buildUnits data is b = Go.ret r := by
  intro is
  induction is with
  | nil => intro b r h; exact h
  | cons i is ih =>
    intro b r h
    simp only [leafUnits] at h
    simp only [GoBuild.buildUnits]
    split
    · rename_i ht; rw [if_pos ht] at h; exact h
    · rename_i ht
      rw [if_neg ht] at h
      obtain ⟨⟨e, b'⟩, h1, h2⟩ := Go.bind_ret.mp h
      refine Go.bind_ret.mpr ⟨⟨e, b'⟩, h1, ?_⟩
      simp only at h2 ⊢
      split
      · rename_i hu
        rw [if_pos hu] at h2
        unfold GoBuild.processCompileUnit
        split at h2
        · cases h2
        · rename_i n hn
          obtain ⟨⟨hs, b2⟩, h3, h4⟩ := Go.bind_ret.mp h2
          refine Go.bind_ret.mpr ⟨_, ?_, ih _ _ h4⟩
          rw [hn]
          exact Go.bind_ret.mpr ⟨_, scopeKids_mono (fun o b r => leaf_process) data _ _ _ h3, rfl⟩
      · rename_i hu
        rw [if_neg hu] at h2
        exact h2

/-- Run the generator, up to the tokens of the file and their compilation, and look at the result. -/
def runsChain (units : List (Nat × Tree)) (order : List Off) (n : Nat) (p : World → St → Bool) : Bool :=
  match GoDwarf.newData (GoDwarf.Spec.storedUnits units) with
  | .ok (some E) =>
    match E 0 with
    | none => false
    | some e =>
      match leafUnits E e.children {} with
      | .ok (some b) =>
        match GoDedup.dedupWith (GoDedup.sigF (GoBuild.world E b).obj n) (GoBuild.world E b) order (GoBuild.start b) with
        | .ok (some st) => p (GoBuild.world E b) st
        | _ => false
      | _ => false
  | _ => false

theorem runsChain_runs {units : List (Nat × Tree)} (hi : Whole units) {order : List Off} {n : Nat} {p : World → St → Bool} (hn : order.Nodup)
    (h : runsChain units order n p = true) : ∃ E b w st, GoDwarf.newData (GoDwarf.Spec.storedUnits units) = Go.ret E ∧ GoBuild.build E = Go.ret b ∧
      GoBuild.newMetaDb E order = Go.ret (w, st) ∧ p w st = true := by
  unfold runsChain at h
  split at h
  · rename_i E hE
    split at h
    · cases h
    · rename_i e he
      split at h
      · rename_i b hb
        split at h
        · rename_i st hst
          have e1 : GoDwarf.newData (GoDwarf.Spec.storedUnits units) = Go.ret E := hE
          have e2 : GoBuild.build E = Go.ret b := by
            unfold GoBuild.build
            rw [he]
            exact leafUnits_build E _ _ _ hb
          obtain ⟨E', b', r1, r2, hs⟩ := GoBuild.C66_start units hi.sound hi.distinct hi.good hi.names
          rw [e1] at r1; cases r1
          rw [e2] at r2; cases r2
          refine ⟨E, b, _, st, e1, e2, ?_, h⟩
          have := GoDedup.dedup_of_computed hs order [] _ _ (GoDedup.inv_start hs) hn (by simp) hst
          unfold GoBuild.newMetaDb
          rw [e2, GoBuild.ret_bind]
          exact Go.bind_ret.mpr ⟨st, this, rfl⟩
        · cases h
      · cases h
  · cases h

/-! ### `extern int m[2][3][4];` in two units -/

def mInt (o : Nat) := die (o + 1) (go! "BaseType") [(go! "Name", .str (go! "int")), (go! "ByteSize", .int 4), (go! "Encoding", .int 5)] []
def mSub (o : Nat) (n : Int) := die o (go! "SubrangeType") [(go! "Count", .int n)] []
def mArray (o : Nat) := die (o + 2) (go! "ArrayType") [(go! "Type", .off (o + 1))] [mSub (o + 3) 2, mSub (o + 4) 3, mSub (o + 5) 4]
def mVar (o : Nat) := die (o + 6) (go! "Variable") [(go! "Name", .str (go! "m")), (go! "Type", .off (o + 2))] []
def mUnit (o : Nat) (n : Str) := die o (go! "CompileUnit") [(go! "Name", .str n)] [mInt o, mArray o, mVar o]
def caseDims : List (Nat × Tree) := [(2, mUnit 11 (go! "a.c")), (0, mUnit 31 (go! "b.c"))]
def allDims : List Tree := [mUnit 11 (go! "a.c"), mUnit 31 (go! "b.c"), mInt 11, mArray 11, mVar 11, mInt 31, mArray 31, mVar 31]

theorem dims_placed {q : List Off} {d : Tree} (h : Placed [] (caseDims.map Prod.snd) q d) : d ∈ allDims ∧ ∀ p ∈ q, p = 11 ∨ p = 31 := by
  have e1 : ∀ o n, GoBuild.Spec.parts (mUnit o n) = [mInt o, mArray o, mVar o] := fun _ _ => rfl
  have e2 : ∀ o, GoBuild.Spec.parts (mInt o) = [] := fun _ => rfl
  have e3 : ∀ o, GoBuild.Spec.parts (mArray o) = [] := fun _ => rfl
  have e4 : ∀ o, GoBuild.Spec.parts (mVar o) = [] := fun _ => rfl
  have e5 : caseDims.map Prod.snd = [mUnit 11 (go! "a.c"), mUnit 31 (go! "b.c")] := rfl
  have o1 : ∀ o n, (mUnit o n).off = o := fun _ _ => rfl
  rw [e5] at h
  simp only [GoBuild.placed_cons, GoBuild.placed_nil, e1, e2, e3, e4, o1] at h
  unfold allDims
  simp only [List.mem_cons, List.not_mem_nil, or_false]
  grind

theorem dims_each {p : Tree → Prop} (h : ∀ d ∈ allDims, p d) {q : List Off} {d : Tree} (hd : Placed [] (caseDims.map Prod.snd) q d) : p d := h d (dims_placed hd).1

theorem dims_unit {o : Nat} {n : Str} (h : (o, n) = (11, go! "a.c") ∨ (o, n) = (31, go! "b.c")) : Placed [] (caseDims.map Prod.snd) [] (mUnit o n) := by
  rcases h with h | h <;> cases h <;> exact .here (by simp [caseDims])

theorem dims_top {o : Nat} (h : o = 11 ∨ o = 31) {d : Tree} (hd : d ∈ [mInt o, mArray o, mVar o]) : ∃ q, Placed [] (caseDims.map Prod.snd) q d := by
  rcases h with rfl | rfl
  · exact ⟨_, placed_part (dims_unit (.inl rfl)) hd⟩
  · exact ⟨_, placed_part (dims_unit (.inr rfl)) hd⟩

theorem dims_complete {o : Nat} (h : o = 11 ∨ o = 31) {d : Tree} (hd : d ∈ [mInt o, mArray o, mVar o]) : GoBuild.Spec.Complete (GoBuild.Spec.TypeAt (caseDims.map Prod.snd)) d := by
  obtain ⟨q1, p1⟩ := dims_top h (d := mInt o) (by simp)
  obtain ⟨q2, p2⟩ := dims_top h (d := mArray o) (by simp)
  have t1 : GoBuild.Spec.TypeAt (caseDims.map Prod.snd) (o + 1) := ⟨_, _, .base, p1, rfl, rfl, rfl⟩
  have t2 : GoBuild.Spec.TypeAt (caseDims.map Prod.snd) (o + 2) := ⟨_, _, .array, p2, rfl, rfl, rfl⟩
  simp only [List.mem_cons, List.not_mem_nil, or_false] at hd
  rcases hd with rfl | rfl | rfl
  · rcases h with rfl | rfl <;> exact .base rfl rfl (by decide) rfl rfl rfl (by intro v hv; cases hv; decide)
  · refine .array rfl (by intro t ht; cases ht; exact t1) ?_
    intro k hk
    have : k = mSub (o + 3) 2 ∨ k = mSub (o + 4) 3 ∨ k = mSub (o + 5) 4 := by simpa [mArray, die, Die.kids] using hk
    rcases this with rfl | rfl | rfl <;> exact ⟨rfl, by intro v hv; cases hv⟩
  · exact .link (t := go! "Variable") (by decide) rfl (by intro t ht; cases ht; exact t2)

theorem dims_good : GoBuild.Spec.Good (caseDims.map Prod.snd) := by
  have e1 : ∀ o n, GoBuild.Spec.parts (mUnit o n) = [mInt o, mArray o, mVar o] := fun _ _ => rfl
  have e2 : ∀ o, GoBuild.Spec.parts (mInt o) = [] := fun _ => rfl
  have e3 : ∀ o, GoBuild.Spec.parts (mArray o) = [] := fun _ => rfl
  have e4 : ∀ o, GoBuild.Spec.parts (mVar o) = [] := fun _ => rfl
  intro u hu
  have hu' : u = mUnit 11 (go! "a.c") ∨ u = mUnit 31 (go! "b.c") := by simpa [caseDims] using hu
  rcases hu' with rfl | rfl
  · refine ⟨⟨rfl, by decide, by decide⟩, ?_⟩
    intro q d hp
    simp only [GoBuild.placed_cons, GoBuild.placed_nil, e1, e2, e3, e4] at hp
    exact dims_complete (.inl rfl) (by simp; grind)
  · refine ⟨⟨rfl, by decide, by decide⟩, ?_⟩
    intro q d hp
    simp only [GoBuild.placed_cons, GoBuild.placed_nil, e1, e2, e3, e4] at hp
    exact dims_complete (.inr rfl) (by simp; grind)

theorem dims_whole : Whole caseDims where
  sound := by simp [caseDims, mUnit, die, mInt, mArray, mVar, mSub, Die.Sound, Die.SoundAll, Die.tag]
  distinct := by decide +kernel
  good := dims_good
  names := by
    intro q d h
    refine dims_each ?_ h
    simp only [allDims, List.mem_cons, List.not_mem_nil, or_false]
    rintro d (rfl | rfl | rfl | rfl | rfl | rfl | rfl | rfl)
    all_goals
      refine ⟨?_, (fun h => by first | (cases h; done) | rfl), ?_⟩
      · intro n h; cases h <;> exact ⟨by decide, by unfold GoDedup.Spec.Closed; decide +kernel, by decide⟩
      · intro k hk ht
        revert k
        simp [mUnit, mInt, mArray, mVar, mSub, die, Die.kids, Die.tag]
  flat := by
    intro q d h _ p hp
    rcases (dims_placed h).2 p hp with rfl | rfl
    · exact ⟨_, _, dims_unit (.inl rfl), rfl, by decide⟩
    · exact ⟨_, _, dims_unit (.inr rfl), rfl, by decide⟩

theorem dims_ctypes : CTypes caseDims where
  rank := by
    refine ⟨fun _ => 0, ?_⟩
    intro q d h ht hn q' T hT hu hnt
    exfalso
    have : ∀ d ∈ allDims, d.tag ∈ typeTags → text d (go! "Name") = none ∨ d.tag = go! "ArrayType" → ∀ T ∈ allDims, T.off ∈ uses d → text T (go! "Name") ≠ none := by decide +kernel
    exact this d (dims_placed h).1 ht hn T (dims_placed hT).1 hu hnt
  elements q d h := dims_each (p := fun d => d.tag = go! "ArrayType" → ref d (go! "Type") ≠ none) (by decide +kernel) h
  dims q d h := dims_each (p := fun d => d.tag = go! "ArrayType" → ∀ k ∈ d.kids, declared k = false) (by decide +kernel) h
  members q d h := dims_each (p := fun d => d.tag ∈ [go! "ClassType", go! "StructType", go! "UnionType"] →
    ∀ k ∈ d.kids, k.tag ∈ [go! "Member", go! "TemplateTypeParameter"]) (by decide +kernel) h

theorem dims_writable : Writable caseDims exSnake where
  few := by decide +kernel
  names q d h := by
    simp only [forall_some]
    exact dims_each (p := fun d => ∀ k ∈ d :: d.kids, (text k (go! "Name")).elim True Emit.Spec.Plain) (by unfold Emit.Spec.Plain; decide +kernel) h
  words q d h n hn hs := exSnake_word n hs
  sizes q d h := by
    unfold Emit.Spec.Size
    simp only [forall_some]
    exact dims_each (p := fun d => ∀ k ∈ d :: d.kids, ∀ a ∈ sizes, (num k a).elim True fun v => 0 ≤ v ∧ v < 2 ^ 63) (by decide +kernel) h
  encodings q d h ht := by
    have := dims_each (p := fun d => d.tag = go! "BaseType" → num d (go! "Encoding") ≠ none ∧ (num d (go! "Encoding")).elim True fun v => 0 ≤ v ∧ v ≤ 18) (by decide +kernel) h ht
    obtain ⟨v, hv⟩ := Option.ne_none_iff_exists'.mp this.1
    rw [hv] at this
    exact ⟨v, hv, this.2⟩
  enumerators q d h := by
    intro ht
    exact absurd ht (dims_each (p := fun d => d.tag ≠ go! "EnumerationType") (by decide +kernel) h)
  arrays q d h := by
    simp only [forall_some]
    exact dims_each (p := fun d => d.tag = go! "ArrayType" → num d (go! "StrideSize") = none ∧ ∀ k ∈ d.kids, ((num k (go! "LowerBound")).elim True Emit.Spec.Int64) ∧
      (num k (go! "Count")).elim True Emit.Spec.Int64) (by unfold Emit.Spec.Int64; decide +kernel) h
  structures q d h := dims_each (p := fun d => d.tag ∈ [go! "ClassType", go! "StructType", go! "UnionType"] → declared d = false → num d (go! "ByteSize") ≠ none)
    (by decide +kernel) h

/-- The entries that become objects are visited. -/
theorem whole_visits {units : List (Nat × Tree)} (hi : Whole units) {E : Data} {b : B} (e1 : GoDwarf.newData (GoDwarf.Spec.storedUnits units) = Go.ret E)
    (e2 : GoBuild.build E = Go.ret b) {order : List Off} (hn : order.Nodup)
    (ho : ∀ q d, Placed [] (units.map Prod.snd) q d → d.off ∈ order ∧ (d.tag = go! "ArrayType" → ∀ o ∈ (d.kids.map Die.off).tail, o ∈ order)) : Visits (GoBuild.start b) order := by
  obtain ⟨E', b', r1, r2, -, h, -⟩ := GoBuild.C66_objects units hi.sound hi.distinct hi.good
  rw [e1] at r1; cases r1
  rw [e2] at r2; cases r2
  refine ⟨hn, ?_⟩
  intro i hi
  obtain ⟨n, hn⟩ := Option.ne_none_iff_exists'.mp hi
  obtain ⟨q, d, hp, rfl | ⟨ht, hk⟩⟩ := h i n hn
  · exact (ho q d hp).1
  · exact (ho q d hp).2 ht i hk

/-- FALSE of the code: the generator ends with a file that does not compile.  Two units with
`extern int m[2][3][4];`; Go visits the third dimension of the first unit, then the two arrays (the first is dropped), then the
second dimension of the first unit: it is dropped with its array, but is the parent of the third, and its
id is empty. -/
theorem C80_dims_false : ∃ (units : List (Nat × Tree)) (snake : Str → Str) (x : Extra), Whole units ∧ CTypes units ∧ Writable units snake ∧ WritableExtra x ∧ Emit.Spec.Snake snake ∧
    ∃ E b order w st db, GoDwarf.newData (GoDwarf.Spec.storedUnits units) = Go.ret E ∧ GoBuild.build E = Go.ret b ∧ Visits (GoBuild.start b) order ∧
      GoBuild.newMetaDb E order = Go.ret (w, st) ∧ Emitted snake w st x db ∧ Emit.compileFile (Emit.file snake db) = none := by
  refine ⟨caseDims, exSnake, exExtra, dims_whole, dims_ctypes, dims_writable, exExtra_writable, exSnake_snake, ?_⟩
  obtain ⟨E, b, w, st, e1, e2, e3, e4⟩ := runsChain_runs (units := caseDims) dims_whole (order := [16, 33, 13, 15, 36, 35, 11, 12, 31, 32, 17, 37]) (n := 7)
    (p := fun w st => (Emit.compileFile (Emit.file exSnake (st.added.map (view exSnake w st exExtra)))).isNone) (by decide) (by decide +kernel)
  refine ⟨E, b, _, w, st, _, e1, e2, whole_visits dims_whole e1 e2 (by decide) ?_, e3, List.Perm.refl _, Option.isNone_iff_eq_none.mp e4⟩
  intro q d h
  exact dims_each (p := fun d => d.off ∈ [16, 33, 13, 15, 36, 35, 11, 12, 31, 32, 17, 37] ∧ (d.tag = go! "ArrayType" → ∀ o ∈ (d.kids.map Die.off).tail, o ∈ [16, 33, 13, 15, 36, 35, 11, 12, 31, 32, 17, 37]))
    (by decide +kernel) h

/-- A dimension of an array of arrays whose elements are missing. -/
def lost (rt : Entry.Db) (r : Entry.Ref) : Bool :=
  match (rt r).info with
  | .array (some r') _ => (rt r').info == .array none 3
  | _ => false

theorem lost_elements {rt : Entry.Db} {r : Entry.Ref} (h : lost rt r = true) : ∃ r', Entry.elementEntry rt (some r) = some (some r') ∧
    Entry.elementCount rt (some r') = some 3 ∧ Entry.elementEntry rt (some r') = some none := by
  have fin : ∀ r t n, (rt r).info = .array t n → Entry.finalOf rt (some r) Entry.isArray = some (some r) := by
    intro r t n h
    unfold Entry.finalOf Entry.finalEntry
    simp [Entry.finalLoop, h, Entry.isArray]
  unfold lost at h
  split at h
  · rename_i r' n hr
    have hr' := beq_iff_eq.mp h
    refine ⟨r', ?_, ?_, ?_⟩
    · unfold Entry.elementEntry; simp [fin _ _ _ hr, hr]
    · unfold Entry.elementCount; simp [fin _ _ _ hr', hr']; decide
    · unfold Entry.elementEntry; simp [fin _ _ _ hr', hr']
  · cases h

/-- FALSE of the code: for `int m[2][3][4]` in two units a program can be told that the second
dimension has no elements: Go visits the second dimension of the second unit, then the two arrays (the second is dropped), then the
third dimension of the second unit, which is dropped with its array. -/
theorem C79_dims_false : ∃ (units : List (Nat × Tree)) (snake : Str → Str) (x : Extra) (w : World) (st : St) (db : List Emit.Obj) (defs : List (Str × Emit.CEntry)),
    Whole units ∧ CTypes units ∧ Writable units snake ∧ WritableExtra x ∧ Emit.Spec.Snake snake ∧ Read units w st ∧ Emitted snake w st x db ∧
    Emit.compileFile (Emit.file snake db) = some defs ∧
    ∃ q d a b c r', Placed [] (units.map Prod.snd) q d ∧ d.tag = go! "ArrayType" ∧ ref d (go! "Type") ≠ none ∧ d.kids = [a, b, c] ∧
      Entry.elementEntry (Emit.memory defs) (some (Emit.place defs (link snake w st d.off))) = some (some r') ∧
      Entry.elementCount (Emit.memory defs) (some r') = some 3 ∧ Entry.elementEntry (Emit.memory defs) (some r') = some none := by
  obtain ⟨E, b, w, st, e1, e2, e3, e4⟩ := runsChain_runs (units := caseDims) dims_whole (order := [35, 13, 33, 36, 15, 16, 11, 12, 31, 32, 17, 37]) (n := 7)
    (p := fun w st => match Emit.compileFile (Emit.file exSnake (st.added.map (view exSnake w st exExtra))) with
      | some defs => lost (Emit.memory defs) (Emit.place defs (link exSnake w st 13))
      | none => false) (by decide) (by decide +kernel)
  split at e4
  · rename_i defs hdefs
    refine ⟨caseDims, exSnake, exExtra, w, st, _, defs, dims_whole, dims_ctypes, dims_writable, exExtra_writable, exSnake_snake, ⟨E, b, _, e1, e2, ?_, e3⟩, List.Perm.refl _, hdefs, ?_⟩
    · refine whole_visits dims_whole e1 e2 (by decide) ?_
      intro q d h
      exact dims_each (p := fun d => d.off ∈ [35, 13, 33, 36, 15, 16, 11, 12, 31, 32, 17, 37] ∧ (d.tag = go! "ArrayType" → ∀ o ∈ (d.kids.map Die.off).tail, o ∈ [35, 13, 33, 36, 15, 16, 11, 12, 31, 32, 17, 37]))
        (by decide +kernel) h
    · obtain ⟨q, hp⟩ := dims_top (.inl rfl) (d := mArray 11) (by simp)
      obtain ⟨r', h1, h2, h3⟩ := lost_elements e4
      exact ⟨q, mArray 11, _, _, _, r', hp, rfl, by decide, rfl, h1, h2, h3⟩
  · cases e4

end Verif.Chain
