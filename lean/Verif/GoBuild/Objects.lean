import Verif.GoBuild.Visit
/-
The objects made for a forest of entries.
-/
namespace Verif.GoBuild
open GoMeta (Str)
open GoDedup (Go Desc Head Field Param Qual Aggr isTypeTag)
open GoDedup.Spec (tagName cat)
open GoDwarf.Spec (Die)
open GoDwarf (Has HasAll made)
open Spec (Tree isTag)

/-! ### The state -/

/-- The objects `l`, numbered from `n`, are in the state. -/
structure Holds (l : List Ev) (n : Nat) (b : B) : Prop where
  ptr : ∀ i e, l[i]? = some e → b.ptr e.off = some (n + i)
  obj : ∀ i e, l[i]? = some e → b.obj (n + i) = e.desc
  parents : ∀ i e, l[i]? = some e → b.parents (n + i) = e.parents

theorem put_next : ∀ (l : List Ev) (b : B), (put l b).next = b.next + l.length
  | [], b => rfl
  | e :: l, b => by
    rw [put, put_next l]
    have : (if e.obj then finishObj e.off e.desc e.parents b else finish e.off e.desc e.parents b).next = b.next + 1 := by split <;> rfl
    rw [this, List.length_cons]; omega

theorem put_ptr : ∀ (l : List Ev) (b : B) (x : Off), x ∉ l.map Ev.off → (put l b).ptr x = b.ptr x
  | [], b, x, _ => rfl
  | e :: l, b, x, h => by
    rw [put, put_ptr l _ x (fun hx => h (by simp [hx]))]
    have hx : x ≠ e.off := fun hx => h (by simp [hx])
    split <;> simp [finishObj, finish, GoDedup.set, hx]

theorem put_obj : ∀ (l : List Ev) (b : B) (m : Nat), m < b.next ∨ b.next + l.length ≤ m → (put l b).obj m = b.obj m ∧ (put l b).parents m = b.parents m
  | [], b, m, _ => ⟨rfl, rfl⟩
  | e :: l, b, m, h => by
    have hn : (if e.obj then finishObj e.off e.desc e.parents b else finish e.off e.desc e.parents b).next = b.next + 1 := by split <;> rfl
    rw [List.length_cons] at h
    rw [put]
    obtain ⟨h1, h2⟩ := put_obj l (if e.obj then finishObj e.off e.desc e.parents b else finish e.off e.desc e.parents b) m (by rw [hn]; omega)
    rw [h1, h2]
    have hm : m ≠ b.next := by omega
    split <;> simp [finishObj, finish, GoDedup.set, hm]

theorem put_holds : ∀ (l : List Ev) (b : B), (l.map Ev.off).Nodup → Holds l b.next (put l b)
  | [], b, _ => ⟨by simp, by simp, by simp⟩
  | e :: l, b, h => by
    rw [List.map_cons, List.nodup_cons] at h
    have hn : (if e.obj then finishObj e.off e.desc e.parents b else finish e.off e.desc e.parents b).next = b.next + 1 := by split <;> rfl
    have ih := put_holds l (if e.obj then finishObj e.off e.desc e.parents b else finish e.off e.desc e.parents b) h.2
    rw [hn] at ih
    rw [put]
    have hm := put_obj l (if e.obj then finishObj e.off e.desc e.parents b else finish e.off e.desc e.parents b) b.next (by rw [hn]; omega)
    refine ⟨?_, ?_, ?_⟩
    · intro i x hx
      cases i with
      | zero =>
        simp at hx
        subst hx
        rw [put_ptr l _ _ h.1]
        split <;> simp [finishObj, finish, GoDedup.set]
      | succ i =>
        rw [List.getElem?_cons_succ] at hx
        rw [ih.ptr i x hx]; congr 1; omega
    · intro i x hx
      cases i with
      | zero =>
        simp at hx
        subst hx
        rw [Nat.add_zero, hm.1]
        split <;> simp [finishObj, finish, GoDedup.set]
      | succ i =>
        rw [List.getElem?_cons_succ] at hx
        rw [← ih.obj i x hx]; congr 1; omega
    · intro i x hx
      cases i with
      | zero =>
        simp at hx
        subst hx
        rw [Nat.add_zero, hm.2]
        split <;> simp [finishObj, finish, GoDedup.set]
      | succ i =>
        rw [List.getElem?_cons_succ] at hx
        rw [← ih.parents i x hx]; congr 1; omega

theorem put_added : ∀ (l : List Ev) (b : B), (∀ n ∈ b.added, n < b.next) → b.added.Nodup →
    (put l b).added.Nodup ∧ ∀ n, n ∈ (put l b).added ↔ n ∈ b.added ∨ ∃ i e, l[i]? = some e ∧ e.obj = true ∧ n = b.next + i
  | [], b, _, h => ⟨h, by simp [put]⟩
  | e :: l, b, hlt, h => by
    rw [put]
    cases he : e.obj with
    | false =>
      obtain ⟨h1, h2⟩ := put_added l (finish e.off e.desc e.parents b) (fun n hn => Nat.lt_succ_of_lt (hlt n hn)) h
      refine ⟨h1, fun n => (h2 n).trans ?_⟩
      refine or_congr Iff.rfl ?_
      constructor
      · rintro ⟨i, x, hx, hxo, rfl⟩
        refine ⟨i + 1, x, by simpa using hx, hxo, ?_⟩
        show b.next + 1 + i = _
        omega
      · rintro ⟨i, x, hx, hxo, rfl⟩
        cases i with
        | zero =>
          simp at hx
          subst hx
          rw [he] at hxo; cases hxo
        | succ i =>
          refine ⟨i, x, by simpa using hx, hxo, ?_⟩
          show _ = b.next + 1 + i
          omega
    | true =>
      obtain ⟨h1, h2⟩ := put_added l (finishObj e.off e.desc e.parents b) (by
          intro n hn
          change n ∈ b.added ++ [b.next] at hn
          show n < b.next + 1
          rw [List.mem_append] at hn
          rcases hn with hn | hn
          · exact Nat.lt_succ_of_lt (hlt n hn)
          · rw [List.mem_singleton.mp hn]; omega) (by
          show (b.added ++ [b.next]).Nodup
          rw [List.nodup_append]
          refine ⟨h, by simp, ?_⟩
          intro x hx y hy hxy
          have := hlt x hx
          rw [List.mem_singleton.mp hy] at hxy
          omega)
      refine ⟨h1, fun n => (h2 n).trans ?_⟩
      have : n ∈ (finishObj e.off e.desc e.parents b).added ↔ n ∈ b.added ∨ n = b.next := by
        show n ∈ b.added ++ [b.next] ↔ _
        simp
      rw [this]
      constructor
      · rintro ((h | h) | ⟨i, x, hx, hxo, rfl⟩)
        · exact .inl h
        · exact .inr ⟨0, e, by simp, he, by simpa using h⟩
        · refine .inr ⟨i + 1, x, by simpa using hx, hxo, ?_⟩
          show b.next + 1 + i = _
          omega
      · rintro (h | ⟨i, x, hx, hxo, rfl⟩)
        · exact .inl (.inl h)
        · cases i with
          | zero => exact .inl (.inr rfl)
          | succ i =>
            refine .inr ⟨i, x, by simpa using hx, hxo, ?_⟩
            show _ = b.next + 1 + i
            omega

/-! ### Offsets are distinct -/

theorem innerEvs_nodup (ix : GoMeta.Index) : ∀ (os : List Off), os.Nodup → ((innerEvs ix os).map Ev.off).Nodup
  | [], _ => by simp [innerEvs]
  | o :: os, h => by
    rw [List.nodup_cons] at h
    rw [innerEvs, List.map_append, List.nodup_append]
    refine ⟨innerEvs_nodup ix os h.2, ?_, ?_⟩
    · split <;> simp
    · intro x hx y hy hxy
      obtain ⟨e, he, rfl⟩ := List.mem_map.mp hx
      split at hy
      · simp at hy
      · simp at hy
        have := innerEvs_off ix os e he
        rw [hxy, hy] at this
        exact h.1 this

theorem own_nodup (p : Off) (d : Tree) (hnd : d.offs.Nodup) : ((own p d).map Ev.off).Nodup := by
  rw [offs_eq, List.nodup_cons] at hnd
  unfold own
  split <;> try (simp; done)
  · split <;> simp
  · unfold arrayEvs
    split
    · simp
    · rw [List.map_append, List.nodup_append]
      refine ⟨innerEvs_nodup _ _ ((offs_nodup hnd.2).sublist (List.tail_sublist _)), ?_, ?_⟩
      · split <;> simp
      · intro x hx y hy hxy
        obtain ⟨e, he, rfl⟩ := List.mem_map.mp hx
        split at hy
        · simp at hy
        · simp at hy
          have := List.mem_of_mem_tail (innerEvs_off _ _ e he)
          obtain ⟨k, hk, hko⟩ := List.mem_map.mp this
          rw [hxy, hy] at hko
          exact hnd.1 (hko ▸ GoDwarf.off_memAll hk)

/-- The objects of the entry itself and those below it are at different entries (arrays: nothing is below). -/
theorem own_apart (p : Off) (d : Tree) (hnd : d.offs.Nodup) : ∀ x ∈ (evsOf (evs d.off) (keepOf d.tag) d.kids).map Ev.off, x ∉ (own p d).map Ev.off := by
  intro x hx hm
  cases hk : kinds.lookup d.tag with
  | none =>
    simp only [own, hk] at hm
    simp at hm
  | some k =>
    by_cases hka : k = .array
    · subst hka
      rw [keepOf_eq hk (fun _ => false) fun _ => rfl, evsOf_none] at hx
      simp at hx
    · have ho := notin_evs (keep := keepOf d.tag) hnd
      have : x = d.off := by
        simp only [own, hk] at hm
        revert hm
        cases k with
        | array => exact absurd rfl hka
        | base =>
          generalize baseDesc (made p d) = r
          cases r with
          | ok o => cases o <;> simp
          | _ => simp
        | _ => simp
      rw [this] at hx
      exact ho hx

mutual
theorem evs_nodup : ∀ (p : Off) (d : Tree), d.offs.Nodup → ((evs p d).map Ev.off).Nodup
  | p, .node o t b f s ks, h => by
    have ha := own_apart p (.node o t b f s ks) h
    have hw := own_nodup p (.node o t b f s ks) h
    rw [Die.offs, List.nodup_cons] at h
    have ih := evsAll_nodup (keepOf t) o ks h.2
    rw [evs, List.map_append, List.nodup_append]
    refine ⟨ih, hw, ?_⟩
    intro x hx y hy hxy
    rw [evsAll_eq] at hx
    exact ha x hx (hxy ▸ hy)
theorem evsAll_nodup : ∀ (keep : Tree → Bool) (p : Off) (ks : List Tree), (Die.offsAll ks).Nodup → ((evsAll keep p ks).map Ev.off).Nodup
  | keep, p, [], _ => by simp [evsAll]
  | keep, p, k :: ks, h => by
    obtain ⟨n1, n2, n3⟩ := GoDwarf_nodup_offsAll h
    have ih1 := evs_nodup p k n1
    have ih2 := evsAll_nodup keep p ks n2
    rw [evsAll, List.map_append, List.nodup_append]
    refine ⟨?_, ih2, ?_⟩
    · split
      · exact ih1
      · simp
    · intro x hx y hy hxy
      obtain ⟨e', he', rfl⟩ := List.mem_map.mp hy
      have h2 := evsAll_off keep p ks e' he'
      split at hx
      · obtain ⟨e, he, rfl⟩ := List.mem_map.mp hx
        exact n3 _ (evs_off p k e he) (hxy ▸ h2)
      · simp at hx
end

theorem unitEvs_nodup (u : Tree) (h : u.offs.Nodup) : ((unitEvs u).map Ev.off).Nodup := by
  have ho := notin_evs (keep := fun _ => true) h
  rw [offs_eq, List.nodup_cons] at h
  rw [unitEvs, List.map_append, List.nodup_append]
  refine ⟨?_, by simp, ?_⟩
  · rw [← evsAll_eq]; exact evsAll_nodup _ _ _ h.2
  · intro x hx y hy hxy
    simp at hy
    rw [hxy, hy] at hx
    exact ho hx
theorem unitsEvs_nodup : ∀ (us : List Tree), (Die.offsAll us).Nodup → ((unitsEvs us).map Ev.off).Nodup
  | [], _ => by simp [unitsEvs]
  | u :: us, h => by
    obtain ⟨n1, n2, n3⟩ := GoDwarf_nodup_offsAll h
    rw [unitsEvs, List.map_append, List.nodup_append]
    refine ⟨unitEvs_nodup u n1, unitsEvs_nodup us n2, ?_⟩
    intro x hx y hy hxy
    obtain ⟨e, he, rfl⟩ := List.mem_map.mp hx
    obtain ⟨e', he', rfl⟩ := List.mem_map.mp hy
    exact n3 _ (unitEvs_off u e he) (hxy ▸ unitsEvs_off us e' he')

/-! ### Which objects there are -/

theorem parts_keep {k j : Tree} (hu : k.tag ≠ go! "CompileUnit") (h : j ∈ Spec.parts k) : j ∈ k.kids ∧ keepOf k.tag j = true := by
  unfold Spec.parts at h
  split at h
  · rename_i hs
    rw [List.mem_filter] at h
    refine ⟨h.1, ?_⟩
    simp only [isTag, List.contains_iff_mem, List.mem_cons, List.not_mem_nil, or_false] at hs
    rcases hs with hs | hs | hs <;> (rw [hs]; exact h.2)
  · split at h
    · rename_i hs
      have hs : k.tag = go! "Subprogram" := by simpa [isTag] using hs
      have : j ∈ Spec.parts k := by
        unfold Spec.parts
        rw [if_neg (by assumption), if_pos (by simp [isTag, hs])]
        exact h
      rw [parts_func hs, List.mem_filter] at this
      refine ⟨this.1, ?_⟩
      rw [hs]
      have h2 := this.2
      simp only [keepHier, Bool.and_eq_true] at h2
      exact h2.1
    · split at h
      · rename_i hs
        rw [List.mem_filter] at h
        refine ⟨h.1, ?_⟩
        simp only [isTag, List.contains_iff_mem, List.mem_cons, List.not_mem_nil, or_false] at hs
        rcases hs with hs | hs | hs
        · rw [hs]; rfl
        · exact absurd hs hu
        · rw [hs]; rfl
      · simp at h

theorem mem_evsOf {ev : Tree → List Ev} {keep : Tree → Bool} {e : Ev} : ∀ {ks : List Tree}, e ∈ evsOf ev keep ks ↔ ∃ k ∈ ks, keep k = true ∧ e ∈ ev k
  | [] => by simp [evsOf]
  | k :: ks => by
    rw [evsOf, List.mem_append, mem_evsOf (ks := ks)]
    constructor
    · rintro (h | ⟨j, h1, h2⟩)
      · split at h
        · rename_i hk; exact ⟨k, by simp, hk, h⟩
        · simp at h
      · exact ⟨j, by simp [h1], h2⟩
    · rintro ⟨j, h1, h2, h3⟩
      rcases List.mem_cons.mp h1 with rfl | h1
      · left; rw [if_pos h2]; exact h3
      · exact .inr ⟨j, h1, h2, h3⟩

theorem placed_own {l : List Ev} {p : List Off} {ds : List Tree} {q : List Off} {d : Tree} (h : Spec.Placed p ds q d) : ∀ p0, p = [p0] → (∀ q k, Spec.Placed p ds q k → k.tag ≠ go! "CompileUnit") →
    (∀ k ∈ ds, ∀ e ∈ evs p0 k, e ∈ l) → ∃ q0, q = [q0] ∧ ∀ e ∈ own q0 d, e ∈ l := by
  induction h with
  | @here p ds d hd =>
    rintro p0 rfl hu hl
    refine ⟨p0, rfl, fun e he => hl d hd e ?_⟩
    rw [evs_eq, List.mem_append]
    exact .inr he
  | @there p ds k q d hk hp ih =>
    rintro p0 rfl hu hl
    refine ih k.off rfl (fun q j hj => hu q j (.there hk hj)) ?_
    intro j hj e he
    obtain ⟨h1, h2⟩ := parts_keep (hu _ k (.here hk)) hj
    apply hl k hk
    rw [evs_eq, List.mem_append]
    exact .inl (mem_evsOf.mpr ⟨j, h1, h2, he⟩)

/-- What is visited and becomes no object makes none. -/
theorem evs_code {p : Off} {d : Tree} (h : isTag Spec.codeTags d = true) : evs p d = [] := by
  have hk : kinds.lookup d.tag = some .ignored := by
    simp only [isTag, Spec.codeTags, List.contains_iff_mem, List.mem_cons, List.not_mem_nil, or_false] at h
    rcases h with h | h | h <;> (rw [h]; rfl)
  rw [evs_leaf hk fun _ => rfl]
  simp only [own, hk]

theorem keep_parts {k j : Tree} (hj : j ∈ k.kids) (hk : keepOf k.tag j = true) (hc : isTag Spec.codeTags j = false) : j ∈ Spec.parts k := by
  unfold keepOf at hk
  split at hk
  · rename_i a ha
    have : isTag [go! "ClassType", go! "StructType", go! "UnionType"] k = true := by
      have := lookup_mem ha
      have all : ∀ e ∈ kinds, (∃ a, e.2 = Kind.aggregate a) → [go! "ClassType", go! "StructType", go! "UnionType"].contains e.1 = true := by
        intro e he
        have : ∀ e ∈ kinds, (match e.2 with | Kind.aggregate _ => [go! "ClassType", go! "StructType", go! "UnionType"].contains e.1 | _ => true) = true := by decide +kernel
        rintro ⟨a, ha⟩
        have := this e he
        rw [ha] at this
        exact this
      exact all _ this ⟨a, rfl⟩
    rw [parts_struct this, List.mem_filter]
    exact ⟨hj, hk⟩
  · rename_i ha
    have all : ∀ e ∈ kinds, e.2 = Kind.subprogram → e.1 = go! "Subprogram" := by decide +kernel
    have ht : k.tag = go! "Subprogram" := all _ (lookup_mem ha) rfl
    rw [parts_func ht, List.mem_filter]
    exact ⟨hj, by simp [keepHier, hk, hc]⟩
  · rename_i ha
    have all : ∀ e ∈ kinds, e.2 = Kind.lexBlock → e.1 = go! "LexDwarfBlock" := by decide +kernel
    have ht : k.tag = go! "LexDwarfBlock" := all _ (lookup_mem ha) rfl
    rw [parts_scope (by rw [isTag, ht]; rfl), List.mem_filter]
    exact ⟨hj, by simp [hc]⟩
  · rename_i ha
    have all : ∀ e ∈ kinds, e.2 = Kind.namespace_ → e.1 = go! "Namespace" := by decide +kernel
    have ht : k.tag = go! "Namespace" := all _ (lookup_mem ha) rfl
    rw [parts_scope (by rw [isTag, ht]; rfl), List.mem_filter]
    exact ⟨hj, by simp [hc]⟩
  · simp at hk

mutual
theorem evs_placed : ∀ (p : Off) (d : Tree), ∀ e ∈ evs p d, ∃ q k, Spec.Placed [p] [d] [q] k ∧ e ∈ own q k
  | p, .node o t b f s ks, e, he => by
    rw [evs, List.mem_append] at he
    rcases he with he | he
    · obtain ⟨k, hk, hkeep, hcode, q, j, hj, hej⟩ := evsAll_placed (keepOf t) o ks e he
      refine ⟨q, j, .there (List.mem_singleton.mpr rfl) (Placed.sub hj ?_), hej⟩
      intro x hx
      rw [List.mem_singleton.mp hx]
      exact keep_parts (k := .node o t b f s ks) hk hkeep hcode
    · exact ⟨p, _, .here (List.mem_singleton.mpr rfl), he⟩
theorem evsAll_placed : ∀ (keep : Tree → Bool) (p : Off) (ks : List Tree), ∀ e ∈ evsAll keep p ks, ∃ k ∈ ks, keep k = true ∧ isTag Spec.codeTags k = false ∧ ∃ q j, Spec.Placed [p] [k] [q] j ∧ e ∈ own q j
  | keep, p, [], e, he => by simp [evsAll] at he
  | keep, p, k :: ks, e, he => by
    rw [evsAll, List.mem_append] at he
    rcases he with he | he
    · split at he
      · rename_i hk
        refine ⟨k, by simp, hk, ?_, evs_placed p k e he⟩
        cases hc : isTag Spec.codeTags k with
        | false => rfl
        | true => rw [evs_code hc] at he; simp at he
      · simp at he
    · obtain ⟨j, h1, h2⟩ := evsAll_placed keep p ks e he
      exact ⟨j, by simp [h1], h2⟩
end

theorem unitsEvs_mem {e : Ev} : ∀ {us : List Tree}, e ∈ unitsEvs us ↔ ∃ u ∈ us, e ∈ unitEvs u
  | [] => by simp [unitsEvs]
  | u :: us => by
    rw [unitsEvs, List.mem_append, unitsEvs_mem (us := us)]
    constructor
    · rintro (h | ⟨v, h1, h2⟩)
      · exact ⟨u, by simp, h⟩
      · exact ⟨v, by simp [h1], h2⟩
    · rintro ⟨v, h1, h2⟩
      rcases List.mem_cons.mp h1 with rfl | h1
      · exact .inl h2
      · exact .inr ⟨v, h1, h2⟩

/-! ### What the objects say -/

theorem arrayLoop_stride {top : Off} {n : Nat} : ∀ (cs : List GoMeta.Child) (ix : GoMeta.Index) (t : Option Off) (prev : Option (Off × GoMeta.ArrayT)) (child : Nat) (r : Option GoMeta.ArrayT) (ix' : GoMeta.Index),
    (∀ o a, ix o = some a → a.stride = none) → (∀ x, prev = some x → x.2.stride = none) → GoMeta.arrayLoop top n ix t prev child cs = .ok (r, ix') → ∀ o a, ix' o = some a → a.stride = none
  | [], ix, t, prev, child, r, ix', h1, h2, h => by
    simp only [GoMeta.arrayLoop] at h
    cases h
    exact h1
  | c :: cs, ix, t, prev, child, r, ix', h1, h2, h => by
    simp only [GoMeta.arrayLoop] at h
    split at h
    · refine arrayLoop_stride cs _ _ _ _ r ix' ?_ ?_ h
      · intro o a ho
        have hp : ∀ o a, (match prev with
            | none => ix
            | some (o, p) =>
              let p := { p with parents := p.parents ++ [if child = n - 1 then top else c.off] }
              fun x => if x = o then some p else ix x) o = some a → a.stride = none := by
          intro o a ho
          cases prev with
          | none => exact h1 o a ho
          | some x =>
            obtain ⟨o', p'⟩ := x
            simp only at ho
            split at ho
            · cases ho; exact h2 (o', p') rfl
            · exact h1 o a ho
        by_cases hc : child < n - 1
        · rw [if_pos hc] at ho
          split at ho
          · cases ho; rfl
          · exact hp o a ho
        · rw [if_neg hc] at ho
          exact hp o a ho
      · rintro x hx
        cases hx; rfl
    · cases h

theorem array_stride {top parent : Off} {elem : Option Off} {cs : List GoMeta.Child} {stride : Option Int} {ix : GoMeta.Index}
    (h : GoMeta.processArrayType top parent elem cs stride (fun _ => none) = .ok ix) : (∀ a, ix top = some a → a.stride = stride) ∧ ∀ o a, o ≠ top → ix o = some a → a.stride = none := by
  unfold GoMeta.processArrayType at h
  split at h
  · cases h
  · cases h
  · rename_i a ix1 heq
    cases h
    refine ⟨?_, ?_⟩
    · intro a ha
      simp at ha
      rw [← ha]
    · intro o a ho ha
      simp only [if_neg ho] at ha
      split at heq
      · cases heq; cases ha
      · exact arrayLoop_stride _ _ _ _ _ _ _ (by simp) (by simp) heq o a ha

theorem innerEvs_mem {ix : GoMeta.Index} {o : Off} {a : GoMeta.ArrayT} (h : ix o = some a) : ∀ {os : List Off}, o ∈ os →
    (⟨o, .array { name := none } a.stride a.lower a.count a.level a.type, a.parents, false⟩ : Ev) ∈ innerEvs ix os
  | x :: os, hm => by
    rw [innerEvs, List.mem_append]
    rcases List.mem_cons.mp hm with rfl | hm
    · right; rw [h]; simp
    · exact .inl (innerEvs_mem h hm)

theorem dim_eq {p : Off} {k : Tree} {c : Int} (h : GoMeta.Spec.Dim (subrange k.off (made p k)) c) : Spec.Dim k c := by
  cases h with
  | count h => exact .count (by rw [← h]; exact (intOf_made p k _).symm)
  | upper h1 h2 h3 =>
    have h1 : Spec.num k (go! "Count") = none := by rw [← h1]; exact (intOf_made p k _).symm
    have h2 : Spec.num k (go! "UpperBound") = some _ := (intOf_made p k _).symm.trans h2
    have h3 : Spec.num k (go! "LowerBound") = none := (intOf_made p k _).symm.trans h3
    have := Spec.Dim.bounds h1 h2
    rw [h3] at this
    simpa using this
  | bounds h1 h2 h3 =>
    have h1 : Spec.num k (go! "Count") = none := by rw [← h1]; exact (intOf_made p k _).symm
    have h2 : Spec.num k (go! "UpperBound") = some _ := (intOf_made p k _).symm.trans h2
    have h3 : Spec.num k (go! "LowerBound") = some _ := (intOf_made p k _).symm.trans h3
    have := Spec.Dim.bounds h1 h2
    rw [h3] at this
    simpa using this
  | unknown h1 h2 => exact .unknown ((intOf_made p k _).symm.trans h1) ((intOf_made p k _).symm.trans h2)

/-- From the index of `processArrayType` to the objects. -/
theorem dims_chain {ix : GoMeta.Index} {elem : Option Off} {ptr : Off → Option Nat} {obj : Nat → Desc} {parents : Nat → List Off} {p : Off} : ∀ (ks : List Tree) (h : Head) (s : Option Int) (top par : Off),
    ks ≠ [] → GoMeta.Spec.Chain ix elem top par (ks.map fun k => subrange k.off (made p k)) →
    (∀ a, ix top = some a → ∃ n, ptr top = some n ∧ obj n = .array h s a.lower a.count a.level a.type ∧ parents n = a.parents) →
    (∀ o ∈ (ks.map Die.off).tail, ∀ a, ix o = some a → ∃ n, ptr o = some n ∧ obj n = .array { name := none } none a.lower a.count a.level a.type ∧ parents n = a.parents) →
    Spec.Dims ptr obj parents elem h s top par ks
  | [], _, _, _, _, hn, _, _, _ => absurd rfl hn
  | [k], h, s, top, par, _, hc, htop, _ => by
    cases hc with
    | last g1 g2 g3 g4 g5 g6 =>
      obtain ⟨n, e1, e2, e3⟩ := htop _ g1
      rw [g3, g4, g5] at e2
      have : (subrange k.off (made p k)).lower = Spec.num k (go! "LowerBound") := intOf_made p k _
      rw [this] at e2
      exact .last e1 e2 (dim_eq g2) (e3.trans g6)
  | k :: k' :: ks, h, s, top, par, _, hc, htop, hin => by
    cases hc with
    | cons g1 g2 g3 g4 g5 g6 g7 =>
      obtain ⟨n, e1, e2, e3⟩ := htop _ g1
      rw [g3, g4, g5] at e2
      have : (subrange k.off (made p k)).lower = Spec.num k (go! "LowerBound") := intOf_made p k _
      rw [this] at e2
      refine .cons e1 ?_ (dim_eq g2) (e3.trans g6) (dims_chain (k' :: ks) _ _ _ _ (by simp) g7 (fun a ha => hin k'.off (by simp) a ha) (fun o ho => hin o ?_))
      · rw [e2]
        simp only [List.length_cons, List.length_map]
        rfl
      · simp only [List.map_cons, List.tail_cons] at ho ⊢
        exact List.mem_cons_of_mem _ ho

/-- The objects of an array. -/
theorem array_own {p : Off} {d : Tree} (hk : ∀ k ∈ d.kids, k.tag = go! "SubrangeType" ∧ Spec.InRange k) (hnd : d.offs.Nodup) :
    ∃ h s, ∃ a : GoMeta.ArrayT, Spec.TypeHead d h ∧ s = Spec.num d (go! "StrideSize") ∧ (⟨d.off, .array h s a.lower a.count a.level a.type, [p], false⟩ : Ev) ∈ arrayEvs p d ∧
      (∀ e ∈ arrayEvs p d, e.obj = false ∧ cat e.desc = .array ∧ GoDedup.Spec.name e.desc = (if e.off = d.off then Spec.text d (go! "Name") else none) ∧
        GoDedup.Spec.declared e.desc = (if e.off = d.off then Spec.declared d else false) ∧ (e.off = d.off ∨ e.off ∈ (d.kids.map Die.off).tail)) ∧
      ∀ ptr obj parents, (∀ e ∈ arrayEvs p d, ∃ n, ptr e.off = some n ∧ obj n = e.desc ∧ parents n = e.parents) →
        Spec.Dims ptr obj parents (Spec.ref d (go! "Type")) h s d.off p d.kids := by
  obtain ⟨ix, a, h1, h2⟩ := array_index p d hk hnd
  obtain ⟨st1, st2⟩ := array_stride h1
  have hn1 := hnd
  rw [offs_eq, List.nodup_cons] at hn1
  have hne : ∀ o ∈ (d.kids.map Die.off).tail, o ≠ d.off := by
    intro o ho hod
    obtain ⟨k, hk', hko⟩ := List.mem_map.mp (List.mem_of_mem_tail ho)
    exact hn1.1 (by rw [← hod, ← hko]; exact GoDwarf.off_memAll hk')
  have hall : arrayEvs p d = innerEvs ix (d.kids.map Die.off).tail ++ [⟨d.off, .array (head (made p d)) a.stride a.lower a.count a.level a.type, a.parents, false⟩] := by
    simp only [arrayEvs, h1, h2]
  have hpar : a.parents = [p] ∧ (d.kids = [] → a.lower = none ∧ a.count = -1 ∧ a.level = 0 ∧ a.type = Spec.ref d (go! "Type")) ∧
      (d.kids ≠ [] → GoMeta.Spec.Chain ix (Spec.ref d (go! "Type")) d.off p (kidsOf d)) := by
    cases hks : d.kids with
    | nil =>
      have : kidsOf d = [] := by rw [kidsOf, hks]; rfl
      rw [this] at h1
      have e : GoMeta.processArrayType d.off p (Spec.ref d (go! "Type")) [] (Spec.num d (go! "StrideSize")) (fun _ => none) =
        .ok fun x => if x = d.off then some ⟨Spec.ref d (go! "Type"), -1, 0, none, [p], Spec.num d (go! "StrideSize")⟩ else none := rfl
      rw [e] at h1
      cases h1
      simp at h2
      subst h2
      exact ⟨rfl, fun _ => ⟨rfl, rfl, rfl, rfl⟩, fun h => absurd rfl h⟩
    | cons k ks =>
      obtain ⟨c, cs, hcs⟩ : ∃ c cs, kidsOf d = c :: cs := by rw [kidsOf, hks]; exact ⟨_, _, rfl⟩
      obtain ⟨ix', g1, g2, _⟩ := GoMeta.C48_dimensions d.off p (Spec.ref d (go! "Type")) c cs (Spec.num d (go! "StrideSize")) (fun _ => none)
        (by
          intro x hx
          rw [← hcs] at hx
          obtain ⟨k, hk', rfl⟩ := List.mem_map.mp hx
          exact decide_eq_true (hk k hk').1)
        (by
          intro x hx
          rw [← hcs] at hx
          obtain ⟨k, hk', rfl⟩ := List.mem_map.mp hx
          simp only [GoMeta.Spec.InRange, subrange, intOf_made]
          exact (hk k hk').2)
        (by
          rw [← hcs, kidsOf, List.map_map]
          rw [List.nodup_cons]
          refine ⟨?_, offs_nodup hn1.2⟩
          intro hm
          obtain ⟨k, hk', hko⟩ := List.mem_map.mp hm
          exact hn1.1 (hko ▸ GoDwarf.off_memAll hk'))
      rw [hcs] at h1
      rw [h1] at g1
      cases g1
      refine ⟨?_, fun h => by simp at h, fun _ => by rw [hcs]; exact g2⟩
      cases g2 with
      | last q1 _ _ _ _ q6 => rw [h2] at q1; cases q1; exact q6
      | cons q1 _ _ _ _ q6 _ => rw [h2] at q1; cases q1; exact q6
  refine ⟨head (made p d), a.stride, a, head_made p d, st1 a h2, ?_, ?_, ?_⟩
  · rw [hall, hpar.1]; simp
  · intro e he
    rw [hall, List.mem_append] at he
    rcases he with he | he
    · have hin := innerEvs_off _ _ e he
      have : e.obj = false ∧ cat e.desc = .array ∧ GoDedup.Spec.name e.desc = none ∧ GoDedup.Spec.declared e.desc = false := by
        clear hall hin hne
        revert he
        generalize (d.kids.map Die.off).tail = os
        induction os with
        | nil => intro he; simp [innerEvs] at he
        | cons o os ih =>
          intro he
          rw [innerEvs, List.mem_append] at he
          rcases he with he | he
          · exact ih he
          · split at he
            · simp at he
            · rw [List.mem_singleton.mp he]; exact ⟨rfl, rfl, rfl, rfl⟩
      rw [if_neg (hne _ hin), if_neg (hne _ hin)]
      exact ⟨this.1, this.2.1, this.2.2.1, this.2.2.2, .inr hin⟩
    · rw [List.mem_singleton.mp he]
      simp only [if_true]
      exact ⟨trivial, rfl, (head_made p d).name, (head_made p d).decl, .inl trivial⟩
  · intro ptr obj parents hp
    have htop : ∃ n, ptr d.off = some n ∧ obj n = .array (head (made p d)) a.stride a.lower a.count a.level a.type ∧ parents n = a.parents :=
      hp ⟨d.off, .array (head (made p d)) a.stride a.lower a.count a.level a.type, a.parents, false⟩ (by rw [hall]; simp)
    by_cases hks : d.kids = []
    · obtain ⟨q1, q2, q3, q4⟩ := hpar.2.1 hks
      obtain ⟨n, e1, e2, e3⟩ := htop
      rw [q1, q2, q3, q4] at e2
      rw [hks]
      exact .none e1 e2 (e3.trans hpar.1)
    · refine dims_chain (p := d.off) d.kids _ _ _ _ hks (hpar.2.2 hks) ?_ ?_
      · intro a' ha'
        rw [h2] at ha'
        cases ha'
        exact htop
      · intro o ho a' ha'
        have := hp _ (by rw [hall, List.mem_append]; exact .inl (innerEvs_mem ha' ho))
        rw [st2 o a' (hne o ho) ha'] at this
        exact this

theorem baseName_typeName {n nm : Str} {size : Option Int} (hn : GoDedup.Spec.TypeName n) (h : baseName n size = Go.ret nm) : GoDedup.Spec.TypeName nm := by
  have all : ∀ e ∈ synonyms, e.2 ≠ [] ∧ GoDedup.Spec.depth 0 e.2 = some 0 ∧ e.2.getLast? ≠ some 44 := by decide +kernel
  unfold baseName at h
  split at h
  · split at h
    · cases h
    · split at h
      · cases h; exact ⟨by decide, by unfold GoDedup.Spec.Closed; decide, by decide⟩
      · split at h
        · cases h; exact ⟨by decide, by unfold GoDedup.Spec.Closed; decide, by decide⟩
        · split at h
          · cases h; exact ⟨by decide, by unfold GoDedup.Spec.Closed; decide, by decide⟩
          · cases h
  · cases h
    rcases deSynonim_cases n with h1 | h1
    · rw [h1]; exact hn
    · exact all _ h1

theorem encoding_plain {v : Int} {s : Str} (h : Spec.encodings.lookup v = some s) : GoDedup.Spec.Plain s := by
  have all : ∀ e ∈ Spec.encodings, ∀ c ∈ e.2, c ≠ 40 ∧ c ≠ 41 ∧ c ≠ 44 ∧ c ≠ 58 := by decide +kernel
  exact all _ (lookup_mem h)

/-- Objects that are neither structures, enumerations nor base types have simple names. -/
theorem names_simple {d : Tree} {x : Desc} (hg : Spec.GoodNames d) (h1 : GoDedup.Spec.name x = Spec.text d (go! "Name")) (h2 : GoDedup.Spec.declared x = Spec.declared d)
    (h3 : cat x ≠ .base) (h4 : cat x ≠ .enumeration) (h5 : ∀ a, cat x ≠ .aggregate a) : GoDedup.Spec.Names x where
  type n hn := hg.name n (h1 ▸ hn)
  decl hn := by rw [h2]; exact hg.decl (h1 ▸ hn)
  fields h a fs hs hx := by subst hx; exact absurd rfl (h5 a)
  enumerators h es hx := by subst hx; exact absurd rfl h4
  encoding h e hx := by subst hx; exact absurd rfl h3

theorem names_block (hs : List Off) : GoDedup.Spec.Names (.lexBlock hs) := by
  refine ⟨?_, fun _ => rfl, ?_, ?_, ?_⟩
  · intro n h; cases h
  · intro _ _ _ _ h; cases h
  · intro _ _ h; cases h
  · intro _ _ h; cases h

/-- The object of an entry that is no array. -/
theorem own_plain {ty : Off → Prop} {p : Off} {d : Tree} (hc : Spec.Complete ty d) (hna : d.tag ≠ go! "ArrayType") :
    ∃ x ob, own p d = [⟨d.off, x, [p], ob⟩] ∧ Spec.Describes d x ∧ ob = !(cat x).type ∧ (Spec.GoodNames d → GoDedup.Spec.Names x) := by
  have hh := head_made p d
  have ho := objHead_made p d
  cases hc with
  | array htag => exact absurd htag hna
  | base htag hn hcx hb1 hb2 hb3 henc =>
    have hk : kinds.lookup d.tag = some .base := by rw [htag]; rfl
    obtain ⟨nm, hnm, hname⟩ := baseName_ok hcx
    have he : (intOf (made p d) (go! "Encoding")).elim [] encodingString = (((Spec.num d (go! "Encoding")).bind fun v => Spec.encodings.lookup v).getD []) := by
      rw [intOf_made]
      cases hv : Spec.num d (go! "Encoding") with
      | none => rfl
      | some v =>
        cases hl : Spec.encodings.lookup v with
        | none => exact absurd hl (henc v hv)
        | some s =>
          simp only [Option.elim_some, Option.bind_some, hl, Option.getD_some]
          exact encodingString_eq hl
    have hb : baseDesc (made p d) = Go.ret (.base { head (made p d) with name := some nm } (((Spec.num d (go! "Encoding")).bind fun v => Spec.encodings.lookup v).getD [])) := by
      unfold baseDesc
      rw [he]
      simp only [strOf_made, intOf_made, hn, hb1, hb2, hb3]
      exact Go.bind_ret.mpr ⟨_, hnm, rfl⟩
    refine ⟨_, false, by simp only [own, hk, hb, Go.ret], .base htag hn hname hh, rfl, ?_⟩
    intro hg
    refine ⟨?_, ?_, ?_, ?_, ?_⟩
    · intro n' h'
      cases h'
      exact baseName_typeName (hg.name _ hn) hnm
    · intro h'; cases h'
    · intro _ _ _ _ h'; cases h'
    · intro _ _ h'; cases h'
    · intro _ e h'
      cases h'
      cases hv : Spec.num d (go! "Encoding") with
      | none => intro c hc; simp at hc
      | some v =>
        cases hl : Spec.encodings.lookup v with
        | none => exact absurd hl (henc v hv)
        | some s => simpa [hl] using encoding_plain hl
  | enumeration htag hen =>
    have hk : kinds.lookup d.tag = some .enumeration := by rw [htag]; rfl
    refine ⟨_, false, by simp only [own, hk], .enumeration (es := d.kids.map enumOf) htag hh ?_, rfl, ?_⟩
    · refine Each_map enumOf d.kids ?_
      intro k hk'
      obtain ⟨_, h2, h3⟩ := hen k hk'
      unfold enumOf
      cases hn : Spec.text k (go! "Name") with
      | none => exact absurd hn h2
      | some n =>
        cases hv : Spec.num k (go! "ConstValue") with
        | none => exact absurd hv h3
        | some v => exact ⟨rfl, rfl⟩
    · intro hg
      refine ⟨?_, ?_, ?_, ?_, ?_⟩
      · intro n hn
        exact hg.name n (by rw [← hh.name]; exact hn)
      · intro hn
        show (head (made p d)).decl = false
        rw [hh.decl]
        exact hg.decl (by rw [← hh.name]; exact hn)
      · intro _ _ _ _ h'; cases h'
      · intro _ es h' e he
        cases h'
        obtain ⟨k, hk', rfl⟩ := List.mem_map.mp he
        obtain ⟨h1, h2, _⟩ := hen k hk'
        cases hn : Spec.text k (go! "Name") with
        | none => exact absurd hn h2
        | some n =>
          simp only [enumOf, hn, Option.getD_some]
          exact hg.parts k hk' (.inr h1) n hn
      · intro _ _ h'; cases h'
  | unspecified htag =>
    have hk : kinds.lookup d.tag = some .unspecified := by rw [htag]; rfl
    exact ⟨_, false, by simp only [own, hk], .unspecified htag hh, rfl, fun hg => names_simple hg hh.name hh.decl (by simp [cat]) (by simp [cat]) (by simp [cat])⟩
  | typedef htag =>
    have hk : kinds.lookup d.tag = some .typedef := by rw [htag]; rfl
    exact ⟨_, false, by simp only [own, hk], .typedef htag hh, rfl, fun hg => names_simple hg hh.name hh.decl (by simp [cat]) (by simp [cat]) (by simp [cat])⟩
  | link hm htag =>
    simp only [List.mem_cons, List.not_mem_nil, or_false] at hm
    rcases hm with rfl | rfl | rfl | rfl | rfl | rfl | rfl | rfl | rfl | rfl
    · have hk : kinds.lookup d.tag = some .pointer := by rw [htag]; rfl
      exact ⟨_, false, by simp only [own, hk], .pointer htag hh, rfl, fun hg => names_simple hg hh.name hh.decl (by simp [cat]) (by simp [cat]) (by simp [cat])⟩
    · have hk : kinds.lookup d.tag = some (.reference false) := by rw [htag]; rfl
      exact ⟨_, false, by simp only [own, hk], .reference (r := false) htag hh, rfl, fun hg => names_simple hg hh.name hh.decl (by simp [cat]) (by simp [cat]) (by simp [cat])⟩
    · have hk : kinds.lookup d.tag = some (.reference true) := by rw [htag]; rfl
      exact ⟨_, false, by simp only [own, hk], .reference (r := true) htag hh, rfl, fun hg => names_simple hg hh.name hh.decl (by simp [cat]) (by simp [cat]) (by simp [cat])⟩
    · have hk : kinds.lookup d.tag = some (.qual .const) := by rw [htag]; rfl
      exact ⟨_, false, by simp only [own, hk], .qual (q := .const) htag hh, rfl, fun hg => names_simple hg hh.name hh.decl (by simp [cat]) (by simp [cat]) (by simp [cat])⟩
    · have hk : kinds.lookup d.tag = some (.qual .volatile) := by rw [htag]; rfl
      exact ⟨_, false, by simp only [own, hk], .qual (q := .volatile) htag hh, rfl, fun hg => names_simple hg hh.name hh.decl (by simp [cat]) (by simp [cat]) (by simp [cat])⟩
    · have hk : kinds.lookup d.tag = some (.qual .restrict) := by rw [htag]; rfl
      exact ⟨_, false, by simp only [own, hk], .qual (q := .restrict) htag hh, rfl, fun hg => names_simple hg hh.name hh.decl (by simp [cat]) (by simp [cat]) (by simp [cat])⟩
    · have hk : kinds.lookup d.tag = some (.qual .mutable) := by rw [htag]; rfl
      exact ⟨_, false, by simp only [own, hk], .qual (q := .mutable) htag hh, rfl, fun hg => names_simple hg hh.name hh.decl (by simp [cat]) (by simp [cat]) (by simp [cat])⟩
    · have hk : kinds.lookup d.tag = some (.qual .shared) := by rw [htag]; rfl
      exact ⟨_, false, by simp only [own, hk], .qual (q := .shared) htag hh, rfl, fun hg => names_simple hg hh.name hh.decl (by simp [cat]) (by simp [cat]) (by simp [cat])⟩
    · have hk : kinds.lookup d.tag = some (.qual .packed) := by rw [htag]; rfl
      exact ⟨_, false, by simp only [own, hk], .qual (q := .packed) htag hh, rfl, fun hg => names_simple hg hh.name hh.decl (by simp [cat]) (by simp [cat]) (by simp [cat])⟩
    · have hk : kinds.lookup d.tag = some .variable := by rw [htag]; rfl
      exact ⟨_, true, by simp only [own, hk], .variable htag ho, rfl, fun hg => names_simple hg ho.name ho.decl (by simp [cat]) (by simp [cat]) (by simp [cat])⟩
  | func hm htag =>
    have hps : GoDedup.Spec.Each Spec.ParamOf (d.kids.filter (isTag Spec.paramTags)) ((d.kids.filter (isTag Spec.paramTags)).map paramOf) := Each_map _ _ fun k _ => paramOf_spec k
    simp only [List.mem_cons, List.not_mem_nil, or_false] at hm
    rcases hm with rfl | rfl
    · have hk : kinds.lookup d.tag = some .subroutine := by rw [htag]; rfl
      exact ⟨_, false, by simp only [own, hk], .subroutine htag hh hps, rfl, fun hg => names_simple hg hh.name hh.decl (by simp [cat]) (by simp [cat]) (by simp [cat])⟩
    · have hk : kinds.lookup d.tag = some .subprogram := by rw [htag]; rfl
      exact ⟨.subprogram (objHead (made p d)) ((d.kids.filter (isTag Spec.paramTags)).map paramOf) (Spec.ref d (go! "Type")) ((Spec.parts d).map Die.off), true,
        by simp only [own, hk, parts_func htag], .subprogram htag ho hps, rfl, fun hg => names_simple hg ho.name ho.decl (by simp [cat]) (by simp [cat]) (by simp [cat])⟩
  | struct hm htag =>
    obtain ⟨a, hk, ha⟩ : ∃ a, kinds.lookup d.tag = some (.aggregate a) ∧ d.tag = tagName (.aggregate a) := by
      simp only [List.mem_cons, List.not_mem_nil, or_false] at hm
      rcases hm with rfl | rfl | rfl
      · exact ⟨.class_, by rw [htag]; rfl, htag⟩
      · exact ⟨.struct, by rw [htag]; rfl, htag⟩
      · exact ⟨.union, by rw [htag]; rfl, htag⟩
    have hs : isTag [go! "ClassType", go! "StructType", go! "UnionType"] d = true := by rw [isTag, htag, List.contains_iff_mem]; exact hm
    refine ⟨.struct (head (made p d)) a ((d.kids.filter (isTag [go! "Member"])).map fieldOf) ((Spec.parts d).map Die.off), false, by simp only [own, hk, parts_struct hs], ?_, rfl, ?_⟩
    · exact .struct ha hh (Each_map _ _ fun k _ => fieldOf_spec k)
    · intro hg
      refine ⟨?_, ?_, ?_, ?_, ?_⟩
      · intro n hn
        exact hg.name n (by rw [← hh.name]; exact hn)
      · intro hn
        show (head (made p d)).decl = false
        rw [hh.decl]
        exact hg.decl (by rw [← hh.name]; exact hn)
      · intro _ _ fs _ h' f hf n hn
        cases h'
        obtain ⟨k, hk', rfl⟩ := List.mem_map.mp hf
        rw [List.mem_filter] at hk'
        exact hg.parts k hk'.1 (.inl (by simpa [isTag] using hk'.2)) n hn
      · intro _ _ h'; cases h'
      · intro _ _ h'; cases h'
  | block htag =>
    have hk : kinds.lookup d.tag = some .lexBlock := by rw [htag]; rfl
    refine ⟨.lexBlock ((Spec.parts d).map Die.off), true, by simp only [own, hk]; rw [parts_scope (by rw [isTag, htag]; rfl)], ?_, rfl, ?_⟩
    · exact .lexBlock htag
    · intro _
      exact names_block _
  | scope htag hcode =>
    have hk : kinds.lookup d.tag = some .namespace_ := by rw [htag]; rfl
    have hp : Spec.parts d = d.kids := by
      rw [parts_scope (by rw [isTag, htag]; rfl)]
      apply List.filter_eq_self.mpr
      intro k hk'
      simp [hcode k hk']
    exact ⟨.namespace_ (objHead (made p d)) ((Spec.parts d).map Die.off), true, by simp only [own, hk, hp], .namespace_ htag ho, rfl, fun hg => names_simple hg ho.name ho.decl (by simp [cat]) (by simp [cat]) (by simp [cat])⟩

end Verif.GoBuild
