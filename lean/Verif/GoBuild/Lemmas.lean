import Verif.GoBuild.Spec
import Verif.GoDwarf.Props
import Verif.GoMeta.Props
/-
Lemmas: what visiting an entry does to the state of the build, as a list of the objects made.
-/
namespace Verif.GoBuild
open GoMeta (Str)
open GoDedup (Go Desc Head Field Param Qual Aggr isTypeTag)
open GoDedup.Spec (tagName cat)
open GoDwarf.Spec (Die)
open GoDwarf (Has HasAll made)
open Spec (Tree isTag)

/-! ### Attributes -/

theorem lookup_find {β : Type} (a : Str) : ∀ l : List (Str × β), l.lookup a = (l.find? fun x => x.1 == a).map Prod.snd
  | [] => rfl
  | (k, v) :: l => by
    rw [List.lookup_cons, List.find?_cons]
    by_cases h : k = a
    · simp [h]
    · have : (a == k) = false := by simp [Ne.symm h]
      have h' : (k == a) = false := by simp [h]
      simp only [this, h', lookup_find a l]

theorem val_made (p : Off) (d : Tree) (a : Str) : val (made p d) a = Spec.attr d a := by
  simp only [val, made, Option.map_some, Option.getD_some, Spec.attr, lookup_find]
theorem strOf_made (p : Off) (d : Tree) (a : Str) : strOf (made p d) a = Spec.text d a := by
  simp only [strOf, val_made, Spec.text]
  cases Spec.attr d a with
  | none => rfl
  | some v => cases v <;> rfl
theorem intOf_made (p : Off) (d : Tree) (a : Str) : intOf (made p d) a = Spec.num d a := by
  simp only [intOf, val_made, Spec.num]
  cases Spec.attr d a with
  | none => rfl
  | some v => cases v <;> rfl
theorem offOf_made (p : Off) (d : Tree) (a : Str) : offOf (made p d) a = Spec.ref d a := by
  simp only [offOf, val_made, Spec.ref]
  cases Spec.attr d a with
  | none => rfl
  | some v => cases v <;> rfl
theorem declOf_made (p : Off) (d : Tree) : declOf (made p d) = Spec.declared d := by
  simp only [declOf, boolOf, val_made, Spec.declared]
  cases Spec.attr d (go! "Declaration") with
  | none => rfl
  | some v =>
    cases v with
    | bool x => cases x <;> decide
    | _ => rfl

theorem head_made (p : Off) (d : Tree) : Spec.TypeHead d (head (made p d)) :=
  ⟨strOf_made .., declOf_made .., intOf_made .., intOf_made ..⟩
theorem objHead_made (p : Off) (d : Tree) : Spec.ObjectHead d (objHead (made p d)) := ⟨strOf_made .., declOf_made ..⟩

/-! ### The objects made -/

/-- An object made for the entry `off`; `obj`: it is not a type. -/
structure Ev where
  off : Off
  desc : Desc
  parents : List Off
  obj : Bool

def put : List Ev → B → B
  | [], b => b
  | e :: es, b => put es (if e.obj then finishObj e.off e.desc e.parents b else finish e.off e.desc e.parents b)

theorem put_append (l l' : List Ev) (b : B) : put (l ++ l') b = put l' (put l b) := by
  induction l generalizing b with
  | nil => rfl
  | cons e l ih => exact ih _

/-- Equal but for the tags of the index. -/
structure Core (b b' : B) : Prop where
  ptr : b.ptr = b'.ptr
  obj : b.obj = b'.obj
  parents : b.parents = b'.parents
  next : b.next = b'.next
  added : b.added = b'.added

theorem Core.refl (b : B) : Core b b := ⟨rfl, rfl, rfl, rfl, rfl⟩
theorem Core.trans {a b c : B} (h : Core a b) (h' : Core b c) : Core a c :=
  ⟨h.ptr.trans h'.ptr, h.obj.trans h'.obj, h.parents.trans h'.parents, h.next.trans h'.next, h.added.trans h'.added⟩

theorem Core.finish {b b' : B} (h : Core b b') (i : Off) (d : Desc) (ps : List Off) : Core (finish i d ps b) (finish i d ps b') := by
  obtain ⟨h1, h2, h3, h4, h5⟩ := h
  constructor <;> simp [GoBuild.finish, h1, h2, h3, h4, h5]
theorem Core.finishObj {b b' : B} (h : Core b b') (i : Off) (d : Desc) (ps : List Off) : Core (finishObj i d ps b) (finishObj i d ps b') := by
  obtain ⟨h1, h2, h3, h4, h5⟩ := h
  constructor <;> simp [GoBuild.finish, GoBuild.finishObj, h1, h2, h3, h4, h5]

theorem Core.put {b b' : B} (h : Core b b') (l : List Ev) : Core (put l b) (put l b') := by
  induction l generalizing b b' with
  | nil => exact h
  | cons e l ih =>
    simp only [GoBuild.put]
    cases e.obj
    · exact ih (h.finish ..)
    · exact ih (h.finishObj ..)

/-- The step from `b` to `b'` makes the objects `l`. -/
structure Step (data : Data) (b : B) (l : List Ev) (b' : B) : Prop where
  core : Core b' (put l b)
  keep : ∀ x t, b.tag x = some t → b'.tag x = some t ∨ x ∈ l.map Ev.off
  tags : ∀ e ∈ l, b'.tag e.off = some (tagName (cat e.desc))
  known : ∀ x t, b'.tag x = some t → b.tag x = some t ∨ x ∈ l.map Ev.off ∨ ∃ e, data x = some e ∧ e.tag = t ∧ t ≠ go! "CompileUnit"

theorem Step.nil (data : Data) (b : B) : Step data b [] b :=
  ⟨Core.refl b, fun _ _ h => .inl h, by simp, fun _ _ h => .inl h⟩

theorem Step.trans {data : Data} {b b1 b2 : B} {l l' : List Ev} (h : Step data b l b1) (h' : Step data b1 l' b2)
    (hd : ∀ x ∈ l.map Ev.off, x ∉ l'.map Ev.off) : Step data b (l ++ l') b2 where
  core := by
    rw [put_append]
    exact h'.core.trans (h.core.put l')
  keep x t ht := by
    rw [List.map_append, List.mem_append]
    rcases h.keep x t ht with h1 | h1
    · rcases h'.keep x t h1 with h2 | h2
      · exact .inl h2
      · exact .inr (.inr h2)
    · exact .inr (.inl h1)
  tags e he := by
    rcases List.mem_append.mp he with he | he
    · rcases h'.keep _ _ (h.tags e he) with h2 | h2
      · exact h2
      · exact absurd h2 (hd e.off (List.mem_map_of_mem he))
    · exact h'.tags e he
  known x t ht := by
    rw [List.map_append, List.mem_append]
    rcases h'.known x t ht with h1 | h1 | h1
    · rcases h.known x t h1 with h2 | h2 | h2
      · exact .inl h2
      · exact .inr (.inl (.inl h2))
      · exact .inr (.inr h2)
    · exact .inr (.inl (.inr h1))
    · exact .inr (.inr h1)

/-- The tags of the index entries among `xs` are those of the entries. -/
def Clean (data : Data) (b : B) (xs : List Off) : Prop := ∀ x ∈ xs, ∀ t, b.tag x = some t → ∃ e, data x = some e ∧ e.tag = t

theorem Clean.sub {data : Data} {b : B} {xs ys : List Off} (h : Clean data b xs) (hs : ∀ x ∈ ys, x ∈ xs) : Clean data b ys := fun x hx => h x (hs x hx)

theorem Clean.step {data : Data} {b b' : B} {xs : List Off} {l : List Ev} (h : Clean data b xs) (hs : Step data b l b') (hd : ∀ x ∈ xs, x ∉ l.map Ev.off) : Clean data b' xs := by
  intro x hx t ht
  rcases hs.known x t ht with h1 | h1 | h1
  · exact h x hx t h1
  · exact absurd h1 (hd x hx)
  · obtain ⟨e, h1, h2, _⟩ := h1
    exact ⟨e, h1, h2⟩

/-! ### Index entries and links -/

theorem getIndex_step {data : Data} {b : B} {i : Off} {e : DEntry} (h : data i = some e) (hu : e.tag ≠ go! "CompileUnit") : ∃ b', getIndex data i b = Go.ret (e, b') ∧ Step data b [] b' ∧ (b'.tag i).isSome := by
  unfold getIndex
  rw [h]
  cases ht : b.tag i with
  | some t =>
    refine ⟨b, rfl, Step.nil data b, ?_⟩
    rw [ht]; rfl
  | none =>
    refine ⟨{ b with tag := GoDedup.set b.tag i (some e.tag) }, rfl, ⟨⟨rfl, rfl, rfl, rfl, rfl⟩, ?_, by simp, ?_⟩, by simp [GoDedup.set]⟩
    · intro x t hx
      left
      show GoDedup.set b.tag i (some e.tag) x = _
      unfold GoDedup.set
      split
      · rename_i hxi; rw [hxi, ht] at hx; cases hx
      · exact hx
    · intro x t hx
      change GoDedup.set b.tag i (some e.tag) x = _ at hx
      unfold GoDedup.set at hx
      split at hx
      · rename_i hxi; cases hx; exact .inr (.inr ⟨e, by rw [hxi, h], rfl, hu⟩)
      · exact .inl hx

theorem typeTag_ne {t : Str} (h : isTypeTag t = true) : t ≠ go! "CompileUnit" := by
  intro ht
  rw [ht] at h
  revert h; decide +kernel

theorem processTypeEntry_step {data : Data} {i : Off} (b : B) (h : ∃ e, data i = some e ∧ isTypeTag e.tag = true) : ∃ b', processTypeEntry data i b = Go.ret b' ∧ Step data b [] b' := by
  obtain ⟨e, he, ht⟩ := h
  obtain ⟨b', h1, h2, _⟩ := getIndex_step (b := b) he (typeTag_ne ht)
  refine ⟨b', ?_, h2⟩
  unfold processTypeEntry
  refine Go.bind_ret.mpr ⟨(e, b'), h1, ?_⟩
  simp only [ht, if_true]

theorem typeLink_step {data : Data} {ty : Off → Prop} (hty : ∀ t, ty t → ∃ e, data t = some e ∧ isTypeTag e.tag = true) {d : Tree} {p : Off} (b : B) (h : Spec.LinkOk ty d) :
    ∃ b', typeLink data (made p d) b = Go.ret (Spec.ref d (go! "Type"), b') ∧ Step data b [] b' := by
  unfold typeLink
  rw [offOf_made]
  cases hr : Spec.ref d (go! "Type") with
  | none => exact ⟨b, rfl, Step.nil data b⟩
  | some t =>
    obtain ⟨b', h1, h2⟩ := processTypeEntry_step b (hty t (h t hr))
    exact ⟨b', Go.bind_ret.mpr ⟨b', h1, rfl⟩, h2⟩

theorem Step.trans_nil {data : Data} {b b1 b2 : B} {l : List Ev} (h : Step data b [] b1) (h' : Step data b1 l b2) : Step data b l b2 := h.trans h' (by simp)
theorem Step.nil_trans {data : Data} {b b1 b2 : B} {l : List Ev} (h : Step data b l b1) (h' : Step data b1 [] b2) : Step data b l b2 := by
  have := h.trans h' (by simp)
  rwa [List.append_nil] at this

/-- The object of an index entry with the right tag. -/
theorem finish_step {data : Data} {b : B} {i : Off} {d : Desc} {ps : List Off} (h : b.tag i = some (tagName (cat d))) : Step data b [⟨i, d, ps, false⟩] (finish i d ps b) :=
  ⟨Core.refl _, fun _ _ h => .inl h, fun e he => by rw [List.mem_singleton.mp he]; exact h, fun _ _ h => .inl h⟩
theorem finishObj_step {data : Data} {b : B} {i : Off} {d : Desc} {ps : List Off} (h : b.tag i = some (tagName (cat d))) : Step data b [⟨i, d, ps, true⟩] (finishObj i d ps b) :=
  ⟨Core.refl _, fun _ _ h => .inl h, fun e he => by rw [List.mem_singleton.mp he]; exact h, fun _ _ h => .inl h⟩

/-! ### Children -/

theorem HasAll.get {data : Data} {p : Off} {ks : List Tree} (h : HasAll data p ks) {k : Tree} (hk : k ∈ ks) : data k.off = some (made p k) := by
  have := h.mem hk
  cases k
  exact this.1

/-- A member, as a field. -/
def fieldOf (k : Tree) : Field :=
  { name := Spec.text k (go! "Name"), type := Spec.ref k (go! "Type"), byteSize := Spec.num k (go! "ByteSize"), alignment := Spec.num k (go! "Alignment"),
    bitOffset := Spec.num k (go! "BitOffset"), dataBitOffset := Spec.num k (go! "DataBitOffset"), bitSize := Spec.num k (go! "BitSize"),
    byteOffset := (Spec.num k (go! "DataMemberLoc")).getD 0 }

theorem member_step {data : Data} {ty : Off → Prop} (hty : ∀ t, ty t → ∃ e, data t = some e ∧ isTypeTag e.tag = true) {k : Tree} {p : Off} {u : Bool} (b : B) (h : Spec.MemberOk ty u k) :
    ∃ b', member data u (made p k) b = Go.ret (fieldOf k, b') ∧ Step data b [] b' := by
  obtain ⟨⟨t, h1, h2⟩, h3, h4⟩ := h
  obtain ⟨b', e1, e2⟩ := processTypeEntry_step b (hty t h2)
  refine ⟨b', ?_, e2⟩
  unfold member
  simp only [offOf_made, h1]
  refine Go.bind_ret.mpr ⟨b', e1, ?_⟩
  simp only [strOf_made, intOf_made]
  rw [if_neg, if_neg]
  · simp [fieldOf, h1]
  · rintro ⟨g1, g2, g3⟩
    rcases h4 with h4 | h4 | h4
    · exact h4 g1
    · rw [g2] at h4; cases h4
    · exact h4 g3
  · rintro ⟨g1, g2⟩
    exact h3 (by intro h; rw [h] at g1; cases g1) g2

theorem Each_map {α β : Type} {R : α → β → Prop} (f : α → β) : ∀ (l : List α), (∀ a ∈ l, R a (f a)) → GoDedup.Spec.Each R l (l.map f)
  | [], _ => .nil
  | a :: l, h => .cons (h a (by simp)) (Each_map f l fun b hb => h b (by simp [hb]))

theorem fieldOf_spec (k : Tree) : Spec.FieldOf k (fieldOf k) := ⟨rfl, rfl, rfl, rfl, rfl, rfl, rfl, rfl⟩

/-- A parameter. -/
def paramOf (k : Tree) : Param := ⟨k.tag = go! "UnspecifiedParameters", Spec.ref k (go! "Type"), Spec.text k (go! "Name")⟩
theorem paramOf_spec (k : Tree) : Spec.ParamOf k (paramOf k) := ⟨by simp [paramOf, isTag], rfl, rfl⟩

/-- The objects made for the children that are kept. -/
def evsOf (ev : Tree → List Ev) (keep : Tree → Bool) : List Tree → List Ev
  | [] => []
  | k :: ks => (if keep k then ev k else []) ++ evsOf ev keep ks

theorem evsOf_off {ev : Tree → List Ev} {keep : Tree → Bool} (hev : ∀ k, ∀ e ∈ ev k, e.off ∈ k.offs) : ∀ (ks : List Tree), ∀ x ∈ (evsOf ev keep ks).map Ev.off, x ∈ Die.offsAll ks
  | [], x, h => by simp [evsOf] at h
  | k :: ks, x, h => by
    rw [evsOf, List.map_append, List.mem_append] at h
    rw [Die.offsAll, List.mem_append]
    rcases h with h | h
    · left
      split at h
      · obtain ⟨e, he, rfl⟩ := List.mem_map.mp h
        exact hev k e he
      · simp at h
    · exact .inr (evsOf_off hev ks x h)

def keepStruct (k : Tree) : Bool := !isTag [go! "Member", go! "TemplateTypeParameter"] k
def keepFunc (k : Tree) : Bool := !isTag (Spec.paramTags ++ [go! "TemplateTypeParameter", go! "CallSite"]) k

theorem GoDwarf_nodup_offsAll {k : Tree} {ks : List Tree} (h : (Die.offsAll (k :: ks)).Nodup) : k.offs.Nodup ∧ (Die.offsAll ks).Nodup ∧ ∀ x ∈ k.offs, x ∉ Die.offsAll ks := by
  rw [Die.offsAll] at h
  exact GoDwarf.nodup_app h

/-- What is known of a child that is visited. -/
def Runs (data : Data) (p : Off) (ev : Tree → List Ev) (k : Tree) : Prop :=
  ∀ b, Clean data b k.offs → ∃ b', processEntry data p k.off b = Go.ret (!isTag Spec.codeTags k, b') ∧ Step data b (ev k) b'

section
variable {data : Data} {p : Off} {ev : Tree → List Ev} (hev : ∀ k, ∀ e ∈ ev k, e.off ∈ k.offs)
include hev

/-- One child, then the others. -/
theorem Runs.seq {k : Tree} {ks : List Tree} {b : B} (hr : Runs data p ev k) (hnd : (Die.offsAll (k :: ks)).Nodup) (hc : Clean data b (Die.offsAll (k :: ks))) :
    ∃ b', processEntry data p k.off b = Go.ret (!isTag Spec.codeTags k, b') ∧ Step data b (ev k) b' ∧ Clean data b' (Die.offsAll ks) := by
  obtain ⟨n1, n2, n3⟩ := GoDwarf_nodup_offsAll hnd
  obtain ⟨b', h1, h2⟩ := hr b (hc.sub fun x hx => by rw [Die.offsAll]; simp [hx])
  refine ⟨b', h1, h2, Clean.step (hc.sub fun x hx => by rw [Die.offsAll]; simp [hx]) h2 ?_⟩
  intro x hx hm
  obtain ⟨e, he, rfl⟩ := List.mem_map.mp hm
  exact n3 _ (hev k e he) hx

theorem step_cons {k : Tree} {ks : List Tree} {keep : Tree → Bool} {b b1 b2 : B} (hnd : (Die.offsAll (k :: ks)).Nodup) (h1 : Step data b (if keep k then ev k else []) b1)
    (h2 : Step data b1 (evsOf ev keep ks) b2) : Step data b (evsOf ev keep (k :: ks)) b2 := by
  obtain ⟨n1, n2, n3⟩ := GoDwarf_nodup_offsAll hnd
  refine h1.trans h2 ?_
  intro x hx hm
  split at hx
  · obtain ⟨e, he, rfl⟩ := List.mem_map.mp hx
    exact n3 _ (hev k e he) (evsOf_off hev ks _ hm)
  · simp at hx

theorem clean_tail {k : Tree} {ks : List Tree} {b b' : B} (hc : Clean data b (Die.offsAll (k :: ks))) (h : Step data b [] b') : Clean data b' (Die.offsAll ks) :=
  Clean.step (hc.sub fun x hx => by rw [Die.offsAll]; simp [hx]) h (by simp)

theorem structKids_run {ty : Off → Prop} (hty : ∀ t, ty t → ∃ e, data t = some e ∧ isTypeTag e.tag = true) {u : Bool} : ∀ (ks : List Tree) (b : B), HasAll data p ks → (Die.offsAll ks).Nodup →
    Clean data b (Die.offsAll ks) → (∀ k ∈ ks, k.tag = go! "Member" → Spec.MemberOk ty u k) → (∀ k ∈ ks, keepStruct k = true → Runs data p ev k ∧ isTag Spec.codeTags k = false) →
    ∃ b', structKids (processEntry data p) data u (ks.map Die.off) b = Go.ret ((ks.filter (isTag [go! "Member"])).map fieldOf, (ks.filter keepStruct).map Die.off, b') ∧
      Step data b (evsOf ev keepStruct ks) b'
  | [], b, _, _, _, _, _ => ⟨b, rfl, Step.nil data b⟩
  | k :: ks, b, hh, hnd, hc, hm, hr => by
    have hd : data k.off = some (made p k) := HasAll.get hh (by simp)
    have n2 := (GoDwarf_nodup_offsAll hnd).2.1
    have ih := fun b hc => structKids_run hty ks b hh.2 n2 hc (fun j hj => hm j (by simp [hj])) (fun j hj => hr j (by simp [hj]))
    simp only [List.map_cons, structKids, hd]
    by_cases h1 : k.tag = go! "Member"
    · have t1 : isTag [go! "Member"] k = true := by simp [isTag, h1]
      have t2 : keepStruct k = false := by simp [keepStruct, isTag, h1]
      rw [if_pos (show (made p k).tag = _ from h1)]
      obtain ⟨b1, e1, e2⟩ := member_step hty (p := p) b (hm k (by simp) h1)
      obtain ⟨b2, e3, e4⟩ := ih b1 (clean_tail hev hc e2)
      refine ⟨b2, Go.bind_ret.mpr ⟨_, e1, Go.bind_ret.mpr ⟨_, e3, ?_⟩⟩, step_cons hev hnd (by rw [t2]; exact e2) e4⟩
      simp [List.filter_cons, t1, t2]; rfl
    · have t1 : isTag [go! "Member"] k = false := by simp [isTag, h1]
      rw [if_neg (show (made p k).tag ≠ _ from h1)]
      by_cases h2 : k.tag = go! "TemplateTypeParameter"
      · have t2 : keepStruct k = false := by simp [keepStruct, isTag, h2]
        rw [if_pos (show (made p k).tag = _ from h2)]
        obtain ⟨b2, e3, e4⟩ := ih b (clean_tail hev hc (Step.nil data b))
        refine ⟨b2, ?_, step_cons hev hnd (by rw [t2]; exact Step.nil data b) e4⟩
        rw [e3]
        simp [List.filter_cons, t1, t2]
      · have t2 : keepStruct k = true := by simp [keepStruct, isTag, h1, h2]
        rw [if_neg (show (made p k).tag ≠ _ from h2)]
        obtain ⟨r1, r2⟩ := hr k (by simp) t2
        obtain ⟨b1, e1, e2, c1⟩ := r1.seq hev hnd hc
        obtain ⟨b2, e3, e4⟩ := ih b1 c1
        refine ⟨b2, Go.bind_ret.mpr ⟨_, e1, ?_⟩, step_cons hev hnd (by rw [t2]; exact e2) e4⟩
        simp only [r2, Bool.not_false, if_true]
        refine Go.bind_ret.mpr ⟨_, e3, ?_⟩
        simp [List.filter_cons, t1, t2]; rfl

theorem blockKids_run : ∀ (ks : List Tree) (b : B), (Die.offsAll ks).Nodup → Clean data b (Die.offsAll ks) → (∀ k ∈ ks, Runs data p ev k) →
    ∃ b', blockKids (processEntry data p) (ks.map Die.off) b = Go.ret ((ks.filter fun k => !isTag Spec.codeTags k).map Die.off, b') ∧ Step data b (evsOf ev (fun _ => true) ks) b'
  | [], b, _, _, _ => ⟨b, rfl, Step.nil data b⟩
  | k :: ks, b, hnd, hc, hr => by
    obtain ⟨b1, e1, e2, c1⟩ := (hr k (by simp)).seq hev hnd hc
    obtain ⟨b2, e3, e4⟩ := blockKids_run ks b1 (GoDwarf_nodup_offsAll hnd).2.1 c1 (fun j hj => hr j (by simp [hj]))
    refine ⟨b2, Go.bind_ret.mpr ⟨_, e1, Go.bind_ret.mpr ⟨_, e3, ?_⟩⟩, step_cons hev hnd (by simpa using e2) e4⟩
    cases h : isTag Spec.codeTags k <;> (simp [List.filter_cons, h]; rfl)

theorem scopeKids_run : ∀ (ks : List Tree) (b : B), HasAll data p ks → (Die.offsAll ks).Nodup → Clean data b (Die.offsAll ks) →
    (∀ k ∈ ks, Runs data p ev k ∧ isTag Spec.codeTags k = false ∧ k.tag ≠ go! "ImportedModule" ∧ k.tag ≠ go! "ImportedDeclaration") →
    ∃ b', scopeKids (processEntry data p) data (ks.map Die.off) b = Go.ret (ks.map Die.off, b') ∧ Step data b (evsOf ev (fun _ => true) ks) b'
  | [], b, _, _, _, _ => ⟨b, rfl, Step.nil data b⟩
  | k :: ks, b, hh, hnd, hc, hr => by
    have hd : data k.off = some (made p k) := HasAll.get hh (by simp)
    obtain ⟨r1, r2, r3, r4⟩ := hr k (by simp)
    obtain ⟨b1, e1, e2, c1⟩ := r1.seq hev hnd hc
    obtain ⟨b2, e3, e4⟩ := scopeKids_run ks b1 hh.2 (GoDwarf_nodup_offsAll hnd).2.1 c1 (fun j hj => hr j (by simp [hj]))
    refine ⟨b2, ?_, step_cons hev hnd (by simpa using e2) e4⟩
    simp only [List.map_cons, scopeKids, hd]
    rw [if_neg (show ¬ ((made p k).tag = _ ∨ (made p k).tag = _) from fun h => h.elim r3 r4)]
    refine Go.bind_ret.mpr ⟨_, e1, ?_⟩
    simp only [r2, Bool.not_false, if_true]
    exact Go.bind_ret.mpr ⟨_, e3, rfl⟩

theorem funcKids_run {ty : Off → Prop} (hty : ∀ t, ty t → ∃ e, data t = some e ∧ isTypeTag e.tag = true) {other : Off → B → Go (Option Off × B)} {keep hier : Tree → Bool} :
    ∀ (ks : List Tree) (had : Bool) (b : B), HasAll data p ks → (Die.offsAll ks).Nodup → Clean data b (Die.offsAll ks) →
    (∀ k ∈ ks, isTag Spec.paramTags k = true → Spec.LinkOk ty k) → Spec.RestLast ks →
    (had = true → ∀ j ∈ ks, isTag (Spec.paramTags ++ [go! "TemplateTypeParameter"]) j = false) →
    (∀ k ∈ ks, keepFunc k = false → keep k = false ∧ hier k = false) →
    (∀ k ∈ ks, keepFunc k = true → ∀ b, Clean data b k.offs → ∃ b', other k.off b = Go.ret (if hier k then some k.off else none, b') ∧ Step data b (if keep k then ev k else []) b') →
    ∃ b', funcKids other data had (ks.map Die.off) b = Go.ret ((ks.filter (isTag Spec.paramTags)).map paramOf, (ks.filter hier).map Die.off, b') ∧ Step data b (evsOf ev keep ks) b'
  | [], _, b, _, _, _, _, _, _, _, _ => ⟨b, rfl, Step.nil data b⟩
  | k :: ks, had, b, hh, hnd, hc, hl, hrl, hhad, hk0, hk1 => by
    have hd : data k.off = some (made p k) := HasAll.get hh (by simp)
    have n2 := (GoDwarf_nodup_offsAll hnd).2.1
    have ih := fun had b hc hhad => funcKids_run hty (other := other) (keep := keep) (hier := hier) ks had b hh.2 n2 hc (fun j hj => hl j (by simp [hj])) hrl.2 hhad
      (fun j hj => hk0 j (by simp [hj])) (fun j hj => hk1 j (by simp [hj]))
    simp only [List.map_cons, funcKids, hd]
    have htag : (made p k).tag = k.tag := rfl
    rw [htag]
    have hno : ¬ (had = true ∧ (k.tag = go! "FormalParameter" ∨ k.tag = go! "UnspecifiedParameters" ∨ k.tag = go! "TemplateTypeParameter")) := by
      rintro ⟨h1, h2⟩
      have := hhad h1 k (by simp)
      simp only [isTag, Spec.paramTags] at this
      rcases h2 with h2 | h2 | h2 <;> simp [h2] at this
    rw [if_neg hno]
    by_cases h1 : k.tag = go! "UnspecifiedParameters" ∨ k.tag = go! "FormalParameter"
    · rw [if_pos h1]
      have t1 : isTag Spec.paramTags k = true := by rcases h1 with h1 | h1 <;> simp [isTag, Spec.paramTags, h1]
      have t2 : keepFunc k = false := by rcases h1 with h1 | h1 <;> simp [keepFunc, isTag, Spec.paramTags, h1]
      obtain ⟨t3, t4⟩ := hk0 k (by simp) t2
      obtain ⟨b1, e1, e2⟩ := typeLink_step hty (p := p) b (hl k (by simp) t1)
      obtain ⟨b2, e3, e4⟩ := ih (had || (k.tag = go! "UnspecifiedParameters")) b1 (clean_tail hev hc e2) (by
        intro hx j hj
        rw [Bool.or_eq_true] at hx
        rcases hx with hx | hx
        · exact hhad hx j (by simp [hj])
        · exact hrl.1 (by simpa [isTag] using hx) j hj)
      refine ⟨b2, Go.bind_ret.mpr ⟨_, e1, Go.bind_ret.mpr ⟨_, e3, ?_⟩⟩, step_cons hev hnd (by rw [t3]; exact e2) e4⟩
      simp [List.filter_cons, t1, t4, paramOf, strOf_made]; rfl
    · rw [if_neg h1]
      rw [not_or] at h1
      have t1 : isTag Spec.paramTags k = false := by simp [isTag, Spec.paramTags, h1]
      by_cases h2 : k.tag = go! "CallSite" ∨ k.tag = go! "TemplateTypeParameter"
      · rw [if_pos h2]
        have t2 : keepFunc k = false := by rcases h2 with h2 | h2 <;> simp [keepFunc, isTag, Spec.paramTags, h2]
        obtain ⟨t3, t4⟩ := hk0 k (by simp) t2
        obtain ⟨b2, e3, e4⟩ := ih had b (clean_tail hev hc (Step.nil data b)) (fun hx j hj => hhad hx j (by simp [hj]))
        refine ⟨b2, ?_, step_cons hev hnd (by rw [t3]; exact Step.nil data b) e4⟩
        rw [e3]
        simp [List.filter_cons, t1, t4]
      · rw [if_neg h2]
        rw [not_or] at h2
        have t2 : keepFunc k = true := by simp [keepFunc, isTag, Spec.paramTags, h1, h2]
        obtain ⟨n1, _, n3⟩ := GoDwarf_nodup_offsAll hnd
        obtain ⟨b1, e1, e2⟩ := hk1 k (by simp) t2 b (hc.sub fun x hx => by rw [Die.offsAll]; simp [hx])
        have c1 : Clean data b1 (Die.offsAll ks) := by
          refine Clean.step (hc.sub fun x hx => by rw [Die.offsAll]; simp [hx]) e2 ?_
          intro x hx hm
          split at hm
          · obtain ⟨e, he, rfl⟩ := List.mem_map.mp hm
            exact n3 _ (hev k e he) hx
          · simp at hm
        obtain ⟨b2, e3, e4⟩ := ih had b1 c1 (fun hx j hj => hhad hx j (by simp [hj]))
        refine ⟨b2, Go.bind_ret.mpr ⟨_, e1, Go.bind_ret.mpr ⟨_, e3, ?_⟩⟩, step_cons hev hnd e2 e4⟩
        cases h : hier k <;> (simp [List.filter_cons, t1, h]; rfl)
end

end Verif.GoBuild
