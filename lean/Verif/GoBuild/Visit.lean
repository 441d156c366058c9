import Verif.GoBuild.Names
/-
Visiting an entry, and everything below it, makes the objects of that entry.
-/
namespace Verif.GoBuild
open GoMeta (Str)
open GoDedup (Go Desc Head Field Param Qual Aggr isTypeTag)
open GoDedup.Spec (tagName cat)
open GoDwarf.Spec (Die)
open GoDwarf (Has HasAll made)
open Spec (Tree isTag)

/-- What `processArrayType` reads of the children. -/
def kidsOf (d : Tree) : List GoMeta.Child := d.kids.map fun k => subrange k.off (made d.off k)

/-- The array types of inner dimensions. -/
def innerEvs (ix : GoMeta.Index) : List Off → List Ev
  | [] => []
  | o :: os => innerEvs ix os ++ (match ix o with | none => [] | some a => [⟨o, .array { name := none } a.stride a.lower a.count a.level a.type, a.parents, false⟩])

def arrayEvs (p : Off) (d : Tree) : List Ev :=
  match GoMeta.processArrayType d.off p (Spec.ref d (go! "Type")) (kidsOf d) (Spec.num d (go! "StrideSize")) (fun _ => none) with
  | .error _ => []
  | .ok ix => innerEvs ix (d.kids.map Die.off).tail ++
    (match ix d.off with | none => [] | some a => [⟨d.off, .array (head (made p d)) a.stride a.lower a.count a.level a.type, a.parents, false⟩])

def enumOf (k : Tree) : Str × Int := ((Spec.text k (go! "Name")).getD [], (Spec.num k (go! "ConstValue")).getD 0)

def keepHier (k : Tree) : Bool := keepFunc k && !isTag Spec.codeTags k

/-- The objects made for the entry itself. -/
def own (p : Off) (d : Tree) : List Ev :=
  match kinds.lookup d.tag with
  | none | some .ignored => []
  | some .base => match baseDesc (made p d) with | .ok (some x) => [⟨d.off, x, [p], false⟩] | _ => []
  | some .enumeration => [⟨d.off, .enumeration (head (made p d)) (d.kids.map enumOf), [p], false⟩]
  | some .array => arrayEvs p d
  | some .pointer => [⟨d.off, .pointer (head (made p d)) (Spec.ref d (go! "Type")), [p], false⟩]
  | some (.reference r) => [⟨d.off, .reference (head (made p d)) r (Spec.ref d (go! "Type")), [p], false⟩]
  | some .unspecified => [⟨d.off, .unspecified (head (made p d)), [p], false⟩]
  | some (.qual q) => [⟨d.off, .qual (head (made p d)) q (Spec.ref d (go! "Type")), [p], false⟩]
  | some .typedef => [⟨d.off, .typedef (head (made p d)) (Spec.ref d (go! "Type")), [p], false⟩]
  | some .subroutine => [⟨d.off, .subroutine (head (made p d)) ((d.kids.filter (isTag Spec.paramTags)).map paramOf) (Spec.ref d (go! "Type")), [p], false⟩]
  | some (.aggregate a) => [⟨d.off, .struct (head (made p d)) a ((d.kids.filter (isTag [go! "Member"])).map fieldOf) ((d.kids.filter keepStruct).map Die.off), [p], false⟩]
  | some .variable => [⟨d.off, .variable (objHead (made p d)) (Spec.ref d (go! "Type")), [p], true⟩]
  | some .lexBlock => [⟨d.off, .lexBlock ((d.kids.filter fun k => !isTag Spec.codeTags k).map Die.off), [p], true⟩]
  | some .subprogram => [⟨d.off, .subprogram (objHead (made p d)) ((d.kids.filter (isTag Spec.paramTags)).map paramOf) (Spec.ref d (go! "Type"))
      ((d.kids.filter keepHier).map Die.off), [p], true⟩]
  | some .namespace_ => [⟨d.off, .namespace_ (objHead (made p d)) (d.kids.map Die.off), [p], true⟩]

/-- The children that are visited. -/
def keepOf (tag : Str) (k : Tree) : Bool :=
  match kinds.lookup tag with
  | some (.aggregate _) => keepStruct k
  | some .subprogram => keepFunc k
  | some .lexBlock | some .namespace_ => true
  | _ => false

mutual
/-- All objects made for an entry. -/
def evs (p : Off) : Tree → List Ev
  | .node o t b f s ks => evsAll (keepOf t) o ks ++ own p (.node o t b f s ks)
def evsAll (keep : Tree → Bool) (p : Off) : List Tree → List Ev
  | [] => []
  | k :: ks => (if keep k then evs p k else []) ++ evsAll keep p ks
end

theorem evsAll_eq (keep : Tree → Bool) (p : Off) : ∀ ks, evsAll keep p ks = evsOf (evs p) keep ks
  | [] => by rw [evsAll, evsOf]
  | k :: ks => by rw [evsAll, evsOf, evsAll_eq keep p ks]

theorem evsOf_none (ev : Tree → List Ev) : ∀ ks, evsOf ev (fun _ => false) ks = []
  | [] => rfl
  | k :: ks => by rw [evsOf, evsOf_none ev ks]; rfl

theorem evs_eq (p : Off) (d : Tree) : evs p d = evsOf (evs d.off) (keepOf d.tag) d.kids ++ own p d := by
  cases d; rw [evs, evsAll_eq]; rfl

theorem innerEvs_off (ix : GoMeta.Index) : ∀ (os : List Off), ∀ e ∈ innerEvs ix os, e.off ∈ os
  | [], e, h => by simp [innerEvs] at h
  | o :: os, e, h => by
    rw [innerEvs, List.mem_append] at h
    rcases h with h | h
    · exact List.mem_cons_of_mem _ (innerEvs_off ix os e h)
    · split at h
      · simp at h
      · rw [List.mem_singleton.mp h]; simp

theorem offs_eq (d : Tree) : d.offs = d.off :: Die.offsAll d.kids := by
  cases d; rw [Die.offs]; rfl

theorem arrayEvs_off (p : Off) (d : Tree) : ∀ e ∈ arrayEvs p d, e.off ∈ d.offs := by
  intro e he
  rw [offs_eq]
  unfold arrayEvs at he
  split at he
  · simp at he
  · rw [List.mem_append] at he
    rcases he with he | he
    · have := innerEvs_off _ _ e he
      obtain ⟨k, hk, hko⟩ := List.mem_map.mp (List.mem_of_mem_tail this)
      rw [← hko]
      exact List.mem_cons_of_mem _ (GoDwarf.off_memAll hk)
    · split at he
      · simp at he
      · rw [List.mem_singleton.mp he]; simp

theorem own_off (p : Off) (d : Tree) : ∀ e ∈ own p d, e.off ∈ d.offs := by
  intro e he
  unfold own at he
  have single : ∀ x ps ob, e ∈ ([⟨d.off, x, ps, ob⟩] : List Ev) → e.off ∈ d.offs := by
    intro x ps ob h
    rw [List.mem_singleton.mp h]
    exact GoDwarf.off_mem d
  split at he
  · simp at he
  · simp at he
  · split at he
    · exact single _ _ _ he
    · simp at he
  · exact single _ _ _ he
  · exact arrayEvs_off p d e he
  all_goals exact single _ _ _ he

mutual
theorem evs_off : ∀ (p : Off) (d : Tree), ∀ e ∈ evs p d, e.off ∈ d.offs
  | p, .node o t b f s ks, e, he => by
    rw [evs, List.mem_append] at he
    rcases he with he | he
    · rw [Die.offs]
      exact List.mem_cons_of_mem _ (evsAll_off _ o ks e he)
    · exact own_off p _ e he
theorem evsAll_off : ∀ (keep : Tree → Bool) (p : Off) (ks : List Tree), ∀ e ∈ evsAll keep p ks, e.off ∈ Die.offsAll ks
  | keep, p, [], e, he => by simp [evsAll] at he
  | keep, p, k :: ks, e, he => by
    rw [evsAll, List.mem_append] at he
    rw [Die.offsAll, List.mem_append]
    rcases he with he | he
    · split at he
      · exact .inl (evs_off p k e he)
      · simp at he
    · exact .inr (evsAll_off keep p ks e he)
end

/-! ### Arrays -/

theorem subranges_run {data : Data} {p : Off} : ∀ (ks : List Tree) (b : B), HasAll data p ks → (∀ k ∈ ks, k.tag ≠ go! "CompileUnit") → ∃ b', subranges data (ks.map Die.off) b = Go.ret (ks.map fun k => subrange k.off (made p k), b') ∧ Step data b [] b'
  | [], b, _, _ => ⟨b, rfl, Step.nil data b⟩
  | k :: ks, b, h, hu => by
    obtain ⟨b1, e1, s1⟩ := subranges_run ks b h.2 (fun j hj => hu j (by simp [hj]))
    obtain ⟨b2, e2, s2, _⟩ := getIndex_step (b := b1) (HasAll.get h (List.mem_cons_self ..)) (hu k (by simp))
    refine ⟨b2, ?_, s1.trans_nil s2⟩
    rw [List.map_cons, subranges]
    exact Go.bind_ret.mpr ⟨_, e1, Go.bind_ret.mpr ⟨_, e2, rfl⟩⟩

theorem finishInner_step {data : Data} (ix : GoMeta.Index) : ∀ (os : List Off) (b : B), os.Nodup → Step data b (innerEvs ix os) (finishInner ix os b)
  | [], b, _ => Step.nil data b
  | o :: os, b, h => by
    rw [List.nodup_cons] at h
    have ih := finishInner_step (data := data) ix os b h.2
    rw [innerEvs, finishInner]
    cases hix : ix o with
    | none => simpa [hix] using ih
    | some a =>
      refine ih.trans (l' := [_]) (b1 := finishInner ix os b) ?_ ?_
      · refine ⟨⟨rfl, rfl, rfl, rfl, rfl⟩, ?_, ?_, ?_⟩
        · intro x t ht
          by_cases hx : x = o
          · right; simp [hx]
          · left
            show GoDedup.set _ _ _ _ = _
            simp [GoDedup.set, hx, ht]
        · intro e he
          rw [List.mem_singleton.mp he]
          show GoDedup.set _ _ _ _ = _
          simp [GoDedup.set, tagName, cat]
        · intro x t ht
          change GoDedup.set _ _ _ _ = _ at ht
          by_cases hx : x = o
          · right; left; simp [hx]
          · left
            simpa [GoDedup.set, hx] using ht
      · intro x hx hm
        obtain ⟨e, he, rfl⟩ := List.mem_map.mp hx
        have := innerEvs_off ix os e he
        simp at hm
        rw [hm] at this
        exact h.1 this

theorem offs_nodup : ∀ {ks : List Tree}, (Die.offsAll ks).Nodup → (ks.map Die.off).Nodup
  | [], _ => List.nodup_nil
  | k :: ks, h => by
    rw [Die.offsAll] at h
    obtain ⟨h1, h2, h3⟩ := GoDwarf.nodup_app h
    rw [List.map_cons, List.nodup_cons]
    refine ⟨?_, offs_nodup h2⟩
    intro hm
    obtain ⟨j, hj, hjo⟩ := List.mem_map.mp hm
    exact h3 k.off (GoDwarf.off_mem k) (hjo ▸ GoDwarf.off_memAll hj)

theorem array_index (p : Off) (d : Tree) (hk : ∀ k ∈ d.kids, k.tag = go! "SubrangeType" ∧ Spec.InRange k) (hnd : d.offs.Nodup) :
    ∃ ix a, GoMeta.processArrayType d.off p (Spec.ref d (go! "Type")) (kidsOf d) (Spec.num d (go! "StrideSize")) (fun _ => none) = .ok ix ∧ ix d.off = some a := by
  cases hks : kidsOf d with
  | nil =>
    obtain ⟨ix, a, h1, h2, _⟩ := GoMeta.C48_no_subrange d.off p (Spec.ref d (go! "Type")) (Spec.num d (go! "StrideSize")) (fun _ => none)
    exact ⟨ix, a, h1, h2⟩
  | cons c cs =>
    obtain ⟨ix, h1, h2, _⟩ := GoMeta.C48_dimensions d.off p (Spec.ref d (go! "Type")) c cs (Spec.num d (go! "StrideSize")) (fun _ => none)
      (by
        intro x hx
        rw [← hks] at hx
        obtain ⟨k, hk', rfl⟩ := List.mem_map.mp hx
        exact decide_eq_true (hk k hk').1)
      (by
        intro x hx
        rw [← hks] at hx
        obtain ⟨k, hk', rfl⟩ := List.mem_map.mp hx
        simp only [GoMeta.Spec.InRange, subrange, intOf_made]
        exact (hk k hk').2)
      (by
        rw [← hks, kidsOf, List.map_map]
        rw [offs_eq, List.nodup_cons] at hnd
        rw [List.nodup_cons]
        have : (GoMeta.Child.off ∘ fun k => subrange k.off (made d.off k)) = (Die.off : Tree → Off) := rfl
        rw [this]
        refine ⟨?_, ?_⟩
        · intro hm
          obtain ⟨k, hk', hko⟩ := List.mem_map.mp hm
          exact hnd.1 (hko ▸ GoDwarf.off_memAll hk')
        · exact offs_nodup hnd.2)
    rcases h2 with ⟨g, _⟩ | ⟨g, _⟩
    · exact ⟨ix, _, h1, g⟩
    · exact ⟨ix, _, h1, g⟩
/-! ### Entries -/

/-- The object of the entry itself, after those of the children. -/
theorem own_step {data : Data} {b b1 b2 : B} {l : List Ev} {o : Off} {t : Str} {x : Desc} {ps : List Off} (h1 : Step data b [] b1) (ht : b1.tag o = some t) (h2 : Step data b1 l b2)
    (ho : o ∉ l.map Ev.off) (hx : t = tagName (cat x)) : Step data b (l ++ [⟨o, x, ps, false⟩]) (finish o x ps b2) := by
  refine h1.trans_nil (h2.trans (finish_step ?_) ?_)
  · rcases h2.keep o t ht with h | h
    · rw [h, hx]
    · exact absurd h ho
  · intro y hy hm
    simp at hm
    exact ho (hm ▸ hy)
theorem ownObj_step {data : Data} {b b1 b2 : B} {l : List Ev} {o : Off} {t : Str} {x : Desc} {ps : List Off} (h1 : Step data b [] b1) (ht : b1.tag o = some t) (h2 : Step data b1 l b2)
    (ho : o ∉ l.map Ev.off) (hx : t = tagName (cat x)) : Step data b (l ++ [⟨o, x, ps, true⟩]) (finishObj o x ps b2) := by
  refine h1.trans_nil (h2.trans (finishObj_step ?_) ?_)
  · rcases h2.keep o t ht with h | h
    · rw [h, hx]
    · exact absurd h ho
  · intro y hy hm
    simp at hm
    exact ho (hm ▸ hy)

theorem enumerators_run {data : Data} {p : Off} : ∀ (ks : List Tree), HasAll data p ks → (∀ k ∈ ks, k.tag = go! "Enumerator" ∧ Spec.text k (go! "Name") ≠ none ∧ Spec.num k (go! "ConstValue") ≠ none) →
    enumerators data (ks.map Die.off) = Go.ret (ks.map enumOf)
  | [], _, _ => rfl
  | k :: ks, hh, hk => by
    obtain ⟨h1, h2, h3⟩ := hk k (by simp)
    rw [List.map_cons, enumerators, HasAll.get hh (List.mem_cons_self ..)]
    simp only [strOf_made, intOf_made]
    rw [if_pos (show (made p k).tag = _ from h1)]
    cases hn : Spec.text k (go! "Name") with
    | none => exact absurd hn h2
    | some n =>
      cases hv : Spec.num k (go! "ConstValue") with
      | none => exact absurd hv h3
      | some v =>
        refine Go.bind_ret.mpr ⟨_, enumerators_run ks hh.2 (fun j hj => hk j (by simp [hj])), ?_⟩
        simp only [List.map_cons, enumOf, hn, hv]
        rfl

/-- Everything in `d` that becomes an object is complete. -/
def AllC (ty : Off → Prop) (d : Tree) : Prop := ∀ q k, Spec.Placed [] [d] q k → Spec.Complete ty k

theorem Placed.lift {p : List Off} {ds : List Tree} {q : List Off} {j : Tree} (h : Spec.Placed p ds q j) : ∀ p', ∃ q', Spec.Placed p' ds q' j := by
  intro p'
  cases h with
  | here h => exact ⟨p', .here h⟩
  | there h h' => exact ⟨q, .there h h'⟩

theorem Placed.sub {p : List Off} {ds : List Tree} {q : List Off} {j : Tree} (h : Spec.Placed p ds q j) {ds' : List Tree} (hs : ∀ d ∈ ds, d ∈ ds') : Spec.Placed p ds' q j := by
  cases h with
  | here h => exact .here (hs _ h)
  | there h h' => exact .there (hs _ h) h'

theorem AllC.self {ty : Off → Prop} {d : Tree} (h : AllC ty d) : Spec.Complete ty d := h [] d (.here (by simp))
theorem AllC.kid {ty : Off → Prop} {d k : Tree} (h : AllC ty d) (hk : k ∈ Spec.parts d) : AllC ty k := by
  intro q j hj
  obtain ⟨q', hj'⟩ := Placed.lift hj [d.off]
  exact h q' j (.there (List.mem_singleton.mpr rfl) (Placed.sub hj' (by simpa using hk)))

section
variable {data : Data}

theorem run_start {d : Tree} {p : Off} {b : B} (hd : data d.off = some (made p d)) (hu : d.tag ≠ go! "CompileUnit") (hc : Clean data b d.offs) :
    ∃ b1, getIndex data d.off b = Go.ret (made p d, b1) ∧ Step data b [] b1 ∧ b1.tag d.off = some d.tag ∧ Clean data b1 (Die.offsAll d.kids) := by
  obtain ⟨b1, e1, s1, t1⟩ := getIndex_step (b := b) hd hu
  have c1 : Clean data b1 d.offs := hc.step s1 (by simp)
  refine ⟨b1, e1, s1, ?_, c1.sub fun x hx => by rw [offs_eq]; simp [hx]⟩
  obtain ⟨t, ht⟩ := Option.isSome_iff_exists.mp t1
  obtain ⟨e, he, het⟩ := c1 _ (GoDwarf.off_mem d) t ht
  rw [hd] at he
  cases he
  rw [ht, ← het]; rfl

theorem run_code {d : Tree} {p : Off} (hd : Has data p d) (h : isTag Spec.codeTags d = true) : Runs data p (evs p) d := by
  have hd : data d.off = some (made p d) := by cases d; exact hd.1
  have hk : kinds.lookup d.tag = some .ignored := by
    simp only [isTag, Spec.codeTags, List.contains_iff_mem, List.mem_cons, List.not_mem_nil, or_false] at h
    rcases h with h | h | h <;> (rw [h]; rfl)
  intro b hc
  obtain ⟨b1, e1, s1, t1, _⟩ := run_start hd (by intro hu; rw [hu] at hk; cases hk) hc
  refine ⟨b1, ?_, ?_⟩
  · rw [processEntry]
    refine Go.bind_ret.mpr ⟨_, e1, ?_⟩
    simp only [t1, Option.getD_some, hk, h]
    rfl
  · rw [evs_eq]
    have : keepOf d.tag = fun _ => false := by funext k; simp [keepOf, hk]
    rw [this, evsOf_none]
    simp only [own, hk]
    exact s1

theorem typeLinkOwn {ty : Off → Prop} (hty : ∀ t, ty t → ∃ e, data t = some e ∧ isTypeTag e.tag = true) {d : Tree} {p : Off} {b b1 : B} (hl : Spec.LinkOk ty d) (s1 : Step data b [] b1)
    (t1 : b1.tag d.off = some d.tag) (mk : Option Off → Desc) (hm : d.tag = tagName (cat (mk (Spec.ref d (go! "Type"))))) :
    ∃ b', linkType data p d.off (made p d) mk b1 = Go.ret (true, b') ∧ Step data b [⟨d.off, mk (Spec.ref d (go! "Type")), [p], false⟩] b' := by
  obtain ⟨b2, e2, s2⟩ := typeLink_step hty (p := p) b1 hl
  exact ⟨_, Go.bind_ret.mpr ⟨_, e2, rfl⟩, own_step (l := []) s1 t1 s2 (by simp) hm⟩

theorem parts_struct {d : Tree} (h : isTag [go! "ClassType", go! "StructType", go! "UnionType"] d = true) : Spec.parts d = d.kids.filter keepStruct := by
  unfold Spec.parts
  rw [if_pos h]; rfl
theorem parts_func {d : Tree} (h : d.tag = go! "Subprogram") : Spec.parts d = d.kids.filter keepHier := by
  unfold Spec.parts
  rw [if_neg (by simp [isTag, h]), if_pos (by simp [isTag, h])]
  congr 1
  funext k
  simp only [keepHier, keepFunc, isTag, Spec.paramTags, Spec.codeTags]
  generalize k.tag = t
  simp only [List.contains_cons, List.contains_nil, List.cons_append, List.nil_append, Bool.or_false, Bool.not_or]
  generalize (!t == go! "FormalParameter") = a1
  generalize (!t == go! "UnspecifiedParameters") = a2
  generalize (!t == go! "TemplateTypeParameter") = a3
  generalize (!t == go! "Label") = a4
  generalize (!t == go! "CallSite") = a5
  generalize (!t == go! "InlinedSubroutine") = a6
  revert a1 a2 a3 a4 a5 a6; decide
theorem parts_scope {d : Tree} (h : isTag [go! "Namespace", go! "CompileUnit", go! "LexDwarfBlock"] d = true) : Spec.parts d = d.kids.filter fun k => !isTag Spec.codeTags k := by
  unfold Spec.parts
  simp only [isTag, List.contains_iff_mem, List.mem_cons, List.not_mem_nil, or_false] at h
  rw [if_neg, if_neg, if_pos]
  · simpa [isTag] using h
  · rcases h with h | h | h <;> simp [isTag, h]
  · rcases h with h | h | h <;> simp [isTag, h]

/-- The tags of complete entries. -/
def goodTags : List Str :=
  [go! "PointerType", go! "ReferenceType", go! "RvalueReferenceType", go! "ConstType", go! "VolatileType", go! "RestrictType", go! "MutableType",
      go! "SharedType", go! "PackedType", go! "Variable", go! "SubroutineType", go! "Subprogram", go! "ClassType", go! "StructType", go! "UnionType",
      go! "BaseType", go! "EnumerationType", go! "Typedef", go! "UnspecifiedType", go! "ArrayType", go! "LexDwarfBlock", go! "Namespace"]

theorem good_tag {ty : Off → Prop} {d : Tree} (h : Spec.Complete ty d) : d.tag ∈ goodTags := by
  have sub : ∀ l : List Str, l.all (fun t => goodTags.contains t) = true → ∀ t ∈ l, t ∈ goodTags := by
    intro l hl t ht
    have := List.all_eq_true.mp hl t ht
    exact List.contains_iff_mem.mp this
  cases h with
  | link h1 h2 => rw [h2]; exact sub _ (by decide +kernel) _ h1
  | func h1 h2 => rw [h2]; exact sub _ (by decide +kernel) _ h1
  | struct h1 h2 => rw [h2]; exact sub _ (by decide +kernel) _ h1
  | base h1 | enumeration h1 | typedef h1 | unspecified h1 | array h1 | block h1 | scope h1 => rw [h1]; decide +kernel

theorem notCode {ty : Off → Prop} {d : Tree} (h : Spec.Complete ty d) : isTag Spec.codeTags d = false := by
  have all : ∀ t ∈ goodTags, Spec.codeTags.contains t = false := by decide +kernel
  exact all _ (good_tag h)
theorem notUnit {ty : Off → Prop} {d : Tree} (h : Spec.Complete ty d) : d.tag ≠ go! "CompileUnit" := by
  have all : ∀ t ∈ goodTags, t ≠ go! "CompileUnit" := by decide +kernel
  exact all _ (good_tag h)
theorem notImport {ty : Off → Prop} {d : Tree} (h : Spec.Complete ty d) : d.tag ≠ go! "ImportedModule" ∧ d.tag ≠ go! "ImportedDeclaration" := by
  have all : ∀ t ∈ goodTags, t ≠ go! "ImportedModule" ∧ t ≠ go! "ImportedDeclaration" := by decide +kernel
  exact all _ (good_tag h)

/-- What is known of the children. -/
def KidsRun (data : Data) (ty : Off → Prop) (d : Tree) : Prop := ∀ k ∈ d.kids, isTag Spec.codeTags k = true ∨ AllC ty k → Runs data d.off (evs d.off) k

theorem notin_evs {d : Tree} {keep : Tree → Bool} (hnd : d.offs.Nodup) : d.off ∉ (evsOf (evs d.off) keep d.kids).map Ev.off := by
  intro h
  rw [offs_eq, List.nodup_cons] at hnd
  exact hnd.1 (evsOf_off (evs_off _) _ _ h)

theorem keepOf_eq {d : Tree} {k : Kind} (hk : kinds.lookup d.tag = some k) (keep : Tree → Bool)
    (h : ∀ t, (match (some k : Option Kind) with | some (.aggregate _) => keepStruct t | some .subprogram => keepFunc t | some .lexBlock | some .namespace_ => true | _ => false) = keep t) :
    keepOf d.tag = keep := by
  funext t
  rw [← h t, keepOf, hk]

theorem evs_leaf {d : Tree} {p : Off} {k : Kind} (hk : kinds.lookup d.tag = some k)
    (h : ∀ t : Tree, (match (some k : Option Kind) with | some (.aggregate _) => keepStruct t | some .subprogram => keepFunc t | some .lexBlock | some .namespace_ => true | _ => false) = false) :
    evs p d = own p d := by
  rw [evs_eq, keepOf_eq hk (fun _ => false) h, evsOf_none]
  rfl

theorem run_node {ty : Off → Prop} (hty : ∀ t, ty t → ∃ e, data t = some e ∧ isTypeTag e.tag = true) {d : Tree} {p : Off} (hd : data d.off = some (made p d)) (hks : HasAll data d.off d.kids)
    (hnd : d.offs.Nodup) (hc : AllC ty d) (hkids : KidsRun data ty d) : Runs data p (evs p) d := by
  intro b hcl
  obtain ⟨b1, e1, s1, t1, c1⟩ := run_start hd (notUnit hc.self) hcl
  have hnk : (Die.offsAll d.kids).Nodup := by
    rw [offs_eq, List.nodup_cons] at hnd; exact hnd.2
  have code : isTag Spec.codeTags d = false := notCode hc.self
  rw [code]
  suffices hs : ∃ b', (match kinds.lookup ((b1.tag d.off).getD []) with
      | none => Go.fail
      | some .ignored => Go.ret (false, b1)
      | some .base => do return (true, finish d.off (← baseDesc (made p d)) [p] b1)
      | some .enumeration => do return (true, finish d.off (.enumeration (head (made p d)) (← enumerators data (made p d).children)) [p] b1)
      | some .array => do return (true, ← processArray data p d.off (made p d) b1)
      | some .pointer => linkType data p d.off (made p d) (.pointer (head (made p d))) b1
      | some (.reference r) => linkType data p d.off (made p d) (.reference (head (made p d)) r) b1
      | some .unspecified => Go.ret (true, finish d.off (.unspecified (head (made p d))) [p] b1)
      | some (.qual q) => linkType data p d.off (made p d) (.qual (head (made p d)) q) b1
      | some .typedef =>
        if strOf (made p d) (go! "Name") = none then Go.fail else linkType data p d.off (made p d) (.typedef (head (made p d))) b1
      | some .subroutine => do
        let (t, b) ← typeLink data (made p d) b1
        let (ps, _, b) ← funcKids (fun _ b => Go.ret (none, b)) data false (made p d).children b
        return (true, finish d.off (.subroutine (head (made p d)) ps t) [p] b)
      | some (.aggregate a) => do
        let (fs, hs, b) ← structKids (processEntry data d.off) data (a = .union) (made p d).children b1
        return (true, finish d.off (.struct (head (made p d)) a fs hs) [p] b)
      | some .variable => do
        let (t, b) ← typeLink data (made p d) b1
        return (true, finishObj d.off (.variable (objHead (made p d)) t) [p] b)
      | some .lexBlock => do
        let (hs, b) ← blockKids (processEntry data d.off) (made p d).children b1
        return (true, finishObj d.off (.lexBlock hs) [p] b)
      | some .subprogram => do
        let (t, b) ← typeLink data (made p d) b1
        let (ps, hs, b) ← funcKids (fun o b => do let (k, b) ← processEntry data d.off o b; return (if k then some o else none, b)) data false (made p d).children b
        return (true, finishObj d.off (.subprogram (objHead (made p d)) ps t hs) [p] b)
      | some .namespace_ => do
        let (hs, b) ← scopeKids (processEntry data d.off) data (made p d).children b1
        return (true, finishObj d.off (.namespace_ (objHead (made p d)) hs) [p] b)) = Go.ret (true, b') ∧ Step data b (evs p d) b' by
    obtain ⟨b', h1, h2⟩ := hs
    refine ⟨b', ?_, h2⟩
    rw [processEntry]
    exact Go.bind_ret.mpr ⟨_, e1, h1⟩
  rw [t1, Option.getD_some]
  have hself := hc.self
  have kidAll : ∀ k ∈ Spec.parts d, AllC ty k := fun k hk => hc.kid hk
  cases hself with
  | base htag hn hcx hb1 hb2 hb3 henc =>
    have hk : kinds.lookup d.tag = some .base := by rw [htag]; rfl
    obtain ⟨x, hx, hcat⟩ : ∃ x, baseDesc (made p d) = Go.ret x ∧ cat x = .base := by
      obtain ⟨nm, hnm, _⟩ := baseName_ok hcx
      unfold baseDesc
      simp only [strOf_made, intOf_made, hn, hb1, hb2, hb3]
      exact ⟨_, Go.bind_ret.mpr ⟨_, hnm, rfl⟩, rfl⟩
    rw [hk, evs_leaf hk fun _ => rfl]
    refine ⟨_, Go.bind_ret.mpr ⟨x, hx, rfl⟩, ?_⟩
    simp only [own, hk, hx, Go.ret]
    exact own_step (l := []) s1 t1 (Step.nil ..) (by simp) (by rw [htag, hcat]; rfl)
  | enumeration htag hen =>
    have hk : kinds.lookup d.tag = some .enumeration := by rw [htag]; rfl
    rw [hk, evs_leaf hk fun _ => rfl]
    refine ⟨_, Go.bind_ret.mpr ⟨_, enumerators_run d.kids hks hen, rfl⟩, ?_⟩
    simp only [own, hk]
    exact own_step (l := []) s1 t1 (Step.nil ..) (by simp) (by rw [htag]; rfl)
  | unspecified htag =>
    have hk : kinds.lookup d.tag = some .unspecified := by rw [htag]; rfl
    rw [hk, evs_leaf hk fun _ => rfl]
    refine ⟨_, rfl, ?_⟩
    simp only [own, hk]
    exact own_step (l := []) s1 t1 (Step.nil ..) (by simp) (by rw [htag]; rfl)
  | typedef htag hn hl =>
    have hk : kinds.lookup d.tag = some .typedef := by rw [htag]; rfl
    rw [hk, evs_leaf hk fun _ => rfl]
    simp only [own, hk, strOf_made, if_neg hn]
    exact typeLinkOwn hty hl s1 t1 _ (by rw [htag]; rfl)
  | link hm htag hl =>
    simp only [List.mem_cons, List.not_mem_nil, or_false] at hm
    have vars : ∀ k mk, kinds.lookup d.tag = some k → d.tag = tagName (cat (mk (Spec.ref d (go! "Type")))) →
        (∀ t : Tree, (match (some k : Option Kind) with | some (.aggregate _) => keepStruct t | some .subprogram => keepFunc t | some .lexBlock | some .namespace_ => true | _ => false) = false) →
        own p d = [⟨d.off, mk (Spec.ref d (go! "Type")), [p], false⟩] →
        ∃ b', linkType data p d.off (made p d) mk b1 = Go.ret (true, b') ∧ Step data b (evs p d) b' := by
      intro k mk hk ht hkeep hown
      rw [evs_leaf hk hkeep, hown]
      exact typeLinkOwn hty hl s1 t1 mk ht
    rcases hm with rfl | rfl | rfl | rfl | rfl | rfl | rfl | rfl | rfl | rfl
    · have hk : kinds.lookup d.tag = some .pointer := by rw [htag]; rfl
      rw [hk]
      exact vars _ (.pointer (head (made p d))) hk htag (fun _ => rfl) (by simp only [own, hk])
    · have hk : kinds.lookup d.tag = some (.reference false) := by rw [htag]; rfl
      rw [hk]
      exact vars _ (.reference (head (made p d)) false) hk htag (fun _ => rfl) (by simp only [own, hk])
    · have hk : kinds.lookup d.tag = some (.reference true) := by rw [htag]; rfl
      rw [hk]
      exact vars _ (.reference (head (made p d)) true) hk htag (fun _ => rfl) (by simp only [own, hk])
    · have hk : kinds.lookup d.tag = some (.qual .const) := by rw [htag]; rfl
      rw [hk]
      exact vars _ (.qual (head (made p d)) .const) hk htag (fun _ => rfl) (by simp only [own, hk])
    · have hk : kinds.lookup d.tag = some (.qual .volatile) := by rw [htag]; rfl
      rw [hk]
      exact vars _ (.qual (head (made p d)) .volatile) hk htag (fun _ => rfl) (by simp only [own, hk])
    · have hk : kinds.lookup d.tag = some (.qual .restrict) := by rw [htag]; rfl
      rw [hk]
      exact vars _ (.qual (head (made p d)) .restrict) hk htag (fun _ => rfl) (by simp only [own, hk])
    · have hk : kinds.lookup d.tag = some (.qual .mutable) := by rw [htag]; rfl
      rw [hk]
      exact vars _ (.qual (head (made p d)) .mutable) hk htag (fun _ => rfl) (by simp only [own, hk])
    · have hk : kinds.lookup d.tag = some (.qual .shared) := by rw [htag]; rfl
      rw [hk]
      exact vars _ (.qual (head (made p d)) .shared) hk htag (fun _ => rfl) (by simp only [own, hk])
    · have hk : kinds.lookup d.tag = some (.qual .packed) := by rw [htag]; rfl
      rw [hk]
      exact vars _ (.qual (head (made p d)) .packed) hk htag (fun _ => rfl) (by simp only [own, hk])
    · have hk : kinds.lookup d.tag = some .variable := by rw [htag]; rfl
      obtain ⟨b2, e2, s2⟩ := typeLink_step hty (p := p) b1 hl
      rw [hk, evs_leaf hk fun _ => rfl]
      simp only [own, hk]
      exact ⟨_, Go.bind_ret.mpr ⟨_, e2, rfl⟩, ownObj_step (l := []) s1 t1 s2 (by simp) htag⟩
  | func hm htag hl hlk hrl =>
    obtain ⟨b2, e2, s2⟩ := typeLink_step hty (p := p) b1 hl
    have c2 : Clean data b2 (Die.offsAll d.kids) := c1.step s2 (by simp)
    have t2 : b2.tag d.off = some d.tag := by simpa using s2.keep _ _ t1
    have ho := notin_evs (keep := keepOf d.tag) hnd
    simp only [List.mem_cons, List.not_mem_nil, or_false] at hm
    rcases hm with rfl | rfl
    · have hk : kinds.lookup d.tag = some .subroutine := by rw [htag]; rfl
      obtain ⟨b3, e3, s3⟩ := funcKids_run (evs_off d.off) hty (other := fun _ b => Go.ret (none, b)) (keep := fun _ => false) (hier := fun _ => false) d.kids false b2 hks hnk c2 hlk hrl
        (by simp) (by simp) (fun k _ _ b _ => ⟨b, rfl, Step.nil data b⟩)
      rw [evsOf_none] at s3
      rw [hk, evs_leaf hk fun _ => rfl]
      simp only [own, hk]
      exact ⟨_, Go.bind_ret.mpr ⟨_, e2, Go.bind_ret.mpr ⟨_, e3, rfl⟩⟩, own_step (l := []) (s1.trans_nil s2) t2 s3 (by simp) htag⟩
    · have hk : kinds.lookup d.tag = some .subprogram := by rw [htag]; rfl
      have hkeep : keepOf d.tag = keepFunc := keepOf_eq hk _ fun _ => rfl
      obtain ⟨b3, e3, s3⟩ := funcKids_run (evs_off d.off) hty (other := fun o b => do let (k, b) ← processEntry data d.off o b; return (if k then some o else none, b))
        (keep := keepFunc) (hier := keepHier) d.kids false b2 hks hnk c2 hlk hrl (by simp)
        (fun k _ h => ⟨h, by simp [keepHier, h]⟩) (by
          intro k hkm hkf b hcb
          have : isTag Spec.codeTags k = true ∨ AllC ty k := by
            cases hcc : isTag Spec.codeTags k with
            | true => exact .inl rfl
            | false =>
              refine .inr (kidAll k ?_)
              rw [parts_func htag, List.mem_filter]
              exact ⟨hkm, by simp [keepHier, hkf, hcc]⟩
          obtain ⟨b', r1, r2⟩ := hkids k hkm this b hcb
          refine ⟨b', Go.bind_ret.mpr ⟨_, r1, ?_⟩, by rw [hkf]; exact r2⟩
          simp only [keepHier, hkf, Bool.true_and]
          rfl)
      rw [hkeep] at ho
      rw [hk, evs_eq, hkeep]
      simp only [own, hk]
      exact ⟨_, Go.bind_ret.mpr ⟨_, e2, Go.bind_ret.mpr ⟨_, e3, rfl⟩⟩, ownObj_step (s1.trans_nil s2) t2 s3 ho htag⟩
  | array htag hl hsub =>
    have hk : kinds.lookup d.tag = some .array := by rw [htag]; rfl
    obtain ⟨b2, e2, s2⟩ := typeLink_step hty (p := p) b1 hl
    obtain ⟨b3, e3, s3⟩ := subranges_run d.kids b2 hks (fun k hk => by rw [(hsub k hk).1]; decide)
    obtain ⟨ix, a, h1, h2⟩ := array_index p d hsub hnd
    have t3 : b3.tag d.off = some d.tag := by
      have : b2.tag d.off = some d.tag := by simpa using s2.keep _ _ t1
      simpa using s3.keep _ _ this
    have hno : ((d.kids.map Die.off).tail).Nodup := (offs_nodup hnk).sublist (List.tail_sublist _)
    have s4 := finishInner_step (data := data) ix _ b3 hno
    rw [hk, evs_leaf hk fun _ => rfl]
    simp only [own, hk, arrayEvs, h1, h2]
    refine ⟨finish d.off (.array (head (made p d)) a.stride a.lower a.count a.level a.type) a.parents (finishInner ix (d.kids.map Die.off).tail b3), ?_, ?_⟩
    · refine Go.bind_ret.mpr ⟨_, ?_, rfl⟩
      refine Go.bind_ret.mpr ⟨_, e2, Go.bind_ret.mpr ⟨_, e3, ?_⟩⟩
      have h1' : GoMeta.processArrayType d.off p (Spec.ref d (go! "Type")) (d.kids.map fun k => subrange k.off (made d.off k)) (intOf (made p d) (go! "StrideSize")) (fun _ => none) = .ok ix := by
        rw [intOf_made]; exact h1
      simp only [h1', h2]
      rfl
    · refine own_step (s1.trans_nil (s2.trans_nil s3)) t3 s4 ?_ htag
      intro hm
      obtain ⟨e, he, heo⟩ := List.mem_map.mp hm
      have := List.mem_of_mem_tail (innerEvs_off _ _ e he)
      obtain ⟨k, hk', hko⟩ := List.mem_map.mp this
      rw [offs_eq, List.nodup_cons] at hnd
      rw [← heo, ← hko] at hnd
      exact hnd.1 (GoDwarf.off_memAll hk')
  | struct hm htag hmem =>
    obtain ⟨a, hk, ha, hu⟩ : ∃ a, kinds.lookup d.tag = some (.aggregate a) ∧ d.tag = tagName (.aggregate a) ∧ isTag [go! "UnionType"] d = decide (a = .union) := by
      simp only [List.mem_cons, List.not_mem_nil, or_false] at hm
      rcases hm with rfl | rfl | rfl
      · exact ⟨.class_, by rw [htag]; rfl, htag, by rw [isTag, htag]; rfl⟩
      · exact ⟨.struct, by rw [htag]; rfl, htag, by rw [isTag, htag]; rfl⟩
      · exact ⟨.union, by rw [htag]; rfl, htag, by rw [isTag, htag]; rfl⟩
    have hs : isTag [go! "ClassType", go! "StructType", go! "UnionType"] d = true := by rw [isTag, htag, List.contains_iff_mem]; exact hm
    have hkeep : keepOf d.tag = keepStruct := keepOf_eq hk _ fun _ => rfl
    have ho := notin_evs (keep := keepOf d.tag) hnd
    rw [hkeep] at ho
    rw [hu] at hmem
    obtain ⟨b3, e3, s3⟩ := structKids_run (evs_off d.off) hty (u := decide (a = .union)) d.kids b1 hks hnk c1 hmem (by
      intro k hkm hkk
      have hp : k ∈ Spec.parts d := by rw [parts_struct hs, List.mem_filter]; exact ⟨hkm, hkk⟩
      refine ⟨hkids k hkm (.inr (kidAll k hp)), ?_⟩
      exact notCode (kidAll k hp).self)
    rw [hk, evs_eq, hkeep]
    simp only [own, hk]
    exact ⟨_, Go.bind_ret.mpr ⟨_, e3, rfl⟩, own_step s1 t1 s3 ho ha⟩
  | block htag =>
    have hk : kinds.lookup d.tag = some .lexBlock := by rw [htag]; rfl
    have hkeep : keepOf d.tag = fun _ => true := keepOf_eq hk _ fun _ => rfl
    have ho := notin_evs (keep := keepOf d.tag) hnd
    rw [hkeep] at ho
    obtain ⟨b3, e3, s3⟩ := blockKids_run (evs_off d.off) d.kids b1 hnk c1 (by
      intro k hkm
      apply hkids k hkm
      cases hcc : isTag Spec.codeTags k with
      | true => exact .inl rfl
      | false =>
        refine .inr (kidAll k ?_)
        rw [parts_scope (by rw [isTag, htag]; rfl), List.mem_filter]
        exact ⟨hkm, by simp [hcc]⟩)
    rw [hk, evs_eq, hkeep]
    simp only [own, hk]
    exact ⟨_, Go.bind_ret.mpr ⟨_, e3, rfl⟩, ownObj_step s1 t1 s3 ho htag⟩
  | scope htag hcode =>
    have hk : kinds.lookup d.tag = some .namespace_ := by rw [htag]; rfl
    have hkeep : keepOf d.tag = fun _ => true := keepOf_eq hk _ fun _ => rfl
    have ho := notin_evs (keep := keepOf d.tag) hnd
    rw [hkeep] at ho
    obtain ⟨b3, e3, s3⟩ := scopeKids_run (evs_off d.off) d.kids b1 hks hnk c1 (by
      intro k hkm
      have hp : AllC ty k := by
        refine kidAll k ?_
        rw [parts_scope (by rw [isTag, htag]; rfl), List.mem_filter]
        exact ⟨hkm, by simp [hcode k hkm]⟩
      exact ⟨hkids k hkm (.inr hp), hcode k hkm, notImport hp.self⟩)
    rw [hk, evs_eq, hkeep]
    simp only [own, hk]
    exact ⟨_, Go.bind_ret.mpr ⟨_, e3, rfl⟩, ownObj_step s1 t1 s3 ho htag⟩

mutual
theorem run {ty : Off → Prop} (hty : ∀ t, ty t → ∃ e, data t = some e ∧ isTypeTag e.tag = true) : ∀ (d : Tree) (p : Off), Has data p d → d.offs.Nodup →
    isTag Spec.codeTags d = true ∨ AllC ty d → Runs data p (evs p) d
  | .node o t b f s ks, p, hh, hnd, hc => by
    rcases hc with hc | hc
    · exact run_code hh hc
    · refine run_node hty hh.1 hh.2 hnd hc ?_
      rw [Die.offs, List.nodup_cons] at hnd
      exact runAll hty ks o hh.2 hnd.2
theorem runAll {ty : Off → Prop} (hty : ∀ t, ty t → ∃ e, data t = some e ∧ isTypeTag e.tag = true) : ∀ (ks : List Tree) (p : Off), HasAll data p ks → (Die.offsAll ks).Nodup →
    ∀ k ∈ ks, isTag Spec.codeTags k = true ∨ AllC ty k → Runs data p (evs p) k
  | [], _, _, _, k, hk, _ => absurd hk (by simp)
  | j :: ks, p, hh, hnd, k, hk, hc => by
    obtain ⟨n1, n2, _⟩ := GoDwarf_nodup_offsAll hnd
    rcases List.mem_cons.mp hk with h | h
    · have := run hty j p hh.1 n1 (h ▸ hc)
      exact h ▸ this
    · exact runAll hty ks p hh.2 n2 k h hc
end

/-! ### Units -/

/-- The objects made for a unit. -/
def unitEvs (u : Tree) : List Ev :=
  evsOf (evs u.off) (fun _ => true) u.kids ++ [⟨u.off, .compileUnit ((Spec.text u (go! "Name")).getD []) (u.kids.map Die.off), [], true⟩]
def unitsEvs : List Tree → List Ev
  | [] => []
  | u :: us => unitEvs u ++ unitsEvs us

theorem unitEvs_off (u : Tree) : ∀ e ∈ unitEvs u, e.off ∈ u.offs := by
  intro e he
  rw [unitEvs, List.mem_append] at he
  rw [offs_eq]
  rcases he with he | he
  · exact List.mem_cons_of_mem _ (evsOf_off (evs_off _) _ _ (List.mem_map_of_mem he))
  · rw [List.mem_singleton.mp he]; simp
theorem unitsEvs_off : ∀ (us : List Tree), ∀ e ∈ unitsEvs us, e.off ∈ Die.offsAll us
  | [], e, he => by simp [unitsEvs] at he
  | u :: us, e, he => by
    rw [unitsEvs, List.mem_append] at he
    rw [Die.offsAll, List.mem_append]
    exact he.imp (unitEvs_off u e) (unitsEvs_off us e)

theorem parts_unit {u : Tree} (h : Spec.UnitOk u) : Spec.parts u = u.kids := by
  rw [parts_scope (by rw [isTag, h.tag]; rfl)]
  apply List.filter_eq_self.mpr
  intro k hk
  simp [h.kids k hk]

theorem unit_run {ty : Off → Prop} (hty : ∀ t, ty t → ∃ e, data t = some e ∧ isTypeTag e.tag = true) {u : Tree} (hu : Spec.UnitOk u) (hks : HasAll data u.off u.kids) (hnd : u.offs.Nodup)
    (hc : ∀ q d, Spec.Placed [u.off] (Spec.parts u) q d → Spec.Complete ty d) {b : B} (hcl : Clean data b (Die.offsAll u.kids)) (ht : b.tag u.off = some u.tag) :
    ∃ b', processCompileUnit data u.off (made 0 u) b = Go.ret b' ∧ Step data b (unitEvs u) b' := by
  have hnk : (Die.offsAll u.kids).Nodup := by
    rw [offs_eq, List.nodup_cons] at hnd; exact hnd.2
  rw [parts_unit hu] at hc
  obtain ⟨b1, e1, s1⟩ := scopeKids_run (evs_off u.off) u.kids b hks hnk hcl (by
    intro k hk
    have hp : AllC ty k := by
      intro q j hj
      obtain ⟨q', hj'⟩ := Placed.lift hj [u.off]
      exact hc q' j (Placed.sub hj' (by simpa using hk))
    exact ⟨runAll hty u.kids u.off hks hnk k hk (.inr hp), hu.kids k hk, notImport hp.self⟩)
  cases hn : Spec.text u (go! "Name") with
  | none => exact absurd hn hu.name
  | some n =>
    refine ⟨finishObj u.off (.compileUnit n (u.kids.map Die.off)) [] b1, ?_, ?_⟩
    · unfold processCompileUnit
      rw [strOf_made, hn]
      exact Go.bind_ret.mpr ⟨_, e1, rfl⟩
    · rw [unitEvs, hn]
      exact ownObj_step (Step.nil data b) ht s1 (notin_evs hnd) hu.tag

/-- The index entry of a unit, and then the objects of the unit. -/
theorem unit_step {b b' : B} {u : Off} {t : Str} {l : List Ev} (hb : b.tag u = none) (hl : u ∈ l.map Ev.off) (h : Step data { b with tag := GoDedup.set b.tag u (some t) } l b') : Step data b l b' where
  core := h.core.trans (Core.put (b := { b with tag := GoDedup.set b.tag u (some t) }) (b' := b) ⟨rfl, rfl, rfl, rfl, rfl⟩ l)
  keep x s hx := by
    refine h.keep x s ?_
    show GoDedup.set _ _ _ _ = _
    unfold GoDedup.set
    rw [if_neg]
    · exact hx
    · intro hxu; rw [hxu, hb] at hx; cases hx
  tags := h.tags
  known x s hx := by
    rcases h.known x s hx with h1 | h1
    · change GoDedup.set _ _ _ _ = _ at h1
      unfold GoDedup.set at h1
      split at h1
      · rename_i hxu; right; left; rw [hxu]; exact hl
      · exact .inl h1
    · exact .inr h1

theorem units_run {ty : Off → Prop} (hty : ∀ t, ty t → ∃ e, data t = some e ∧ isTypeTag e.tag = true) : ∀ (us : List Tree) (b : B), HasAll data 0 us → (Die.offsAll us).Nodup →
    (∀ u ∈ us, Spec.UnitOk u ∧ ∀ q d, Spec.Placed [u.off] (Spec.parts u) q d → Spec.Complete ty d) → Clean data b (Die.offsAll us) → (∀ u ∈ us, b.tag u.off = none) →
    ∃ b', buildUnits data (us.map Die.off) b = Go.ret b' ∧ Step data b (unitsEvs us) b'
  | [], b, _, _, _, _, _ => ⟨b, rfl, Step.nil data b⟩
  | u :: us, b, hh, hnd, hok, hcl, hfresh => by
    have hd : data u.off = some (made 0 u) := HasAll.get hh (List.mem_cons_self ..)
    have hks : HasAll data u.off u.kids := by
      have := hh.1
      cases u; exact this.2
    obtain ⟨n1, n2, n3⟩ := GoDwarf_nodup_offsAll hnd
    have hf := hfresh u (by simp)
    let b1 : B := { b with tag := GoDedup.set b.tag u.off (some u.tag) }
    have c1 : Clean data b1 (Die.offsAll u.kids) := by
      intro x hx t ht
      change GoDedup.set _ _ _ _ = _ at ht
      unfold GoDedup.set at ht
      split at ht
      · rename_i hxu
        rw [offs_eq, List.nodup_cons] at n1
        exact absurd (hxu ▸ hx) n1.1
      · exact hcl x (by rw [Die.offsAll, offs_eq]; simp [hx]) t ht
    obtain ⟨b2, e2, s2⟩ := unit_run hty (hok u (by simp)).1 hks n1 (hok u (by simp)).2 c1 (by simp [b1, GoDedup.set])
    have hin : u.off ∈ (unitEvs u).map Ev.off := by rw [unitEvs]; simp
    have s2' := unit_step hf hin s2
    have hnew : ∀ x ∈ Die.offsAll us, x ∉ (unitEvs u).map Ev.off := by
      intro x hx hm
      obtain ⟨e, he, rfl⟩ := List.mem_map.mp hm
      exact n3 _ (unitEvs_off u e he) hx
    have c2 : Clean data b2 (Die.offsAll us) := Clean.step (hcl.sub fun x hx => by rw [Die.offsAll]; simp [hx]) s2' hnew
    obtain ⟨b3, e3, s3⟩ := units_run hty us b2 hh.2 n2 (fun v hv => hok v (by simp [hv])) c2 (by
      intro v hv
      cases ht : b2.tag v.off with
      | none => rfl
      | some t =>
        rcases s2'.known _ t ht with h | h | ⟨e, h1, h2, h3⟩
        · rw [hfresh v (by simp [hv])] at h; cases h
        · exact absurd h (hnew _ (GoDwarf.off_memAll hv))
        · rw [HasAll.get hh (List.mem_cons_of_mem _ hv)] at h1
          cases h1
          exact absurd (h2.symm.trans (hok v (by simp [hv])).1.tag) h3)
    refine ⟨b3, ?_, s2'.trans s3 ?_⟩
    · rw [List.map_cons, buildUnits, hf]
      simp only [Option.isSome_none, Bool.false_eq_true, if_false]
      refine Go.bind_ret.mpr ⟨(made 0 u, b1), ?_, ?_⟩
      · unfold getIndex
        rw [hd, hf]; rfl
      · simp only
        rw [if_pos (show (made 0 u).tag = _ from (hok u (by simp)).1.tag)]
        exact Go.bind_ret.mpr ⟨_, e2, e3⟩
    · intro x hx hm
      obtain ⟨e, he, rfl⟩ := List.mem_map.mp hm
      exact hnew _ (unitsEvs_off us e he) hx

end

end Verif.GoBuild
