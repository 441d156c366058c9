import Verif.TagMap.Store
namespace Verif.TagMap
open Verif Verif.Entry Verif.Entry.Spec Verif.TagMap.Spec

/-! ### The association list -/

theorem get_put (map : List (Ref × STag)) (r r' : Ref) (s : STag) : get (put map r s).1 r' = if r' = r then some s else get map r' := by
  induction map with
  | nil =>
    simp only [put, get]
    by_cases h : r = r'
    · simp [h]
    · simp [h, Ne.symm h]
  | cons e m ih =>
    obtain ⟨k, s'⟩ := e
    simp only [put]
    by_cases hk : k = r
    · subst hk
      simp only [if_true, get]
      by_cases h : k = r'
      · simp [h]
      · simp [h, Ne.symm h]
    · simp only [hk, if_false, get, ih]
      by_cases h : k = r'
      · subst h; simp [hk]
      · simp [h]

theorem put_prev (map : List (Ref × STag)) (r : Ref) (s : STag) : (put map r s).2 = get map r := by
  induction map with
  | nil => rfl
  | cons e m ih =>
    obtain ⟨k, s'⟩ := e
    simp only [put, get]
    by_cases hk : k = r
    · simp [hk]
    · simp [hk, ih]

theorem put_keys (map : List (Ref × STag)) (r : Ref) (s : STag) : ((put map r s).1.map Prod.fst) =
    if (get map r).isSome then map.map Prod.fst else map.map Prod.fst ++ [r] := by
  induction map with
  | nil => rfl
  | cons e m ih =>
    obtain ⟨k, s'⟩ := e
    simp only [put, get]
    by_cases hk : k = r
    · simp [hk]
    · simp only [hk, if_false, List.map_cons, ih]
      split <;> simp

theorem put_nodup (map : List (Ref × STag)) (r : Ref) (s : STag) (h : (map.map Prod.fst).Nodup) : ((put map r s).1.map Prod.fst).Nodup := by
  rw [put_keys]
  split
  · exact h
  · rename_i hn
    simp only [Bool.not_eq_true, Option.isSome_eq_false_iff, Option.isNone_iff_eq_none] at hn
    rw [List.nodup_append]
    refine ⟨h, by simp, ?_⟩
    intro a ha b hb e
    simp only [List.mem_singleton] at hb
    subst hb; subst e
    obtain ⟨⟨k, s'⟩, hm, rfl⟩ := List.mem_map.1 ha
    exact get_none hn s' hm

theorem put_new (g : STag → List Nat) (map : List (Ref × STag)) (r : Ref) (s : STag) (h : get map r = none) :
    (flat g (put map r s).1).Perm (g s ++ flat g map) := by
  induction map with
  | nil => simp [put, flat]
  | cons e m ih =>
    obtain ⟨k, s'⟩ := e
    simp only [get] at h
    split at h
    · simp at h
    · rename_i hk
      simp only [put, hk, if_false, flat, List.flatMap_cons]
      exact (List.Perm.append_left (g s') (ih h)).trans (perm_move _ _ _)

theorem put_old (g : STag → List Nat) (map : List (Ref × STag)) (r : Ref) (s p : STag) (h : get map r = some p) :
    (g p ++ flat g (put map r s).1).Perm (g s ++ flat g map) := by
  induction map with
  | nil => simp [get] at h
  | cons e m ih =>
    obtain ⟨k, s'⟩ := e
    simp only [get] at h
    split at h
    · rename_i hk
      simp only [Option.some.injEq] at h
      subst h
      simp only [put, hk, if_true, flat, List.flatMap_cons]
      exact perm_move _ _ _
    · rename_i hk
      simp only [put, hk, if_false, flat, List.flatMap_cons]
      have := ih h
      simp only [flat] at this
      exact (perm_move _ _ _).trans ((List.Perm.append_left _ this).trans (perm_move _ _ _))

/-! ### Categories -/

theorem setMap_flat (f : Nat → List Nat) (g : STag → List Nat) (cats : Cats) (n : Nat) (map : List (Ref × STag)) (h : cats.map n = some map)
    (a b : List Nat) (map' : List (Ref × STag)) (hp : (a ++ flat g map').Perm (b ++ flat g map)) :
    (a ++ flatCats f g (cats.setMap n map')).Perm (b ++ flatCats f g cats) := by
  induction n generalizing cats with
  | zero =>
    cases cats with
    | nil => simp [Cats.map] at h
    | ext mask m rest => simp [Cats.map] at h
    | own mask hm map0 rest =>
      simp only [Cats.map, Option.some.injEq] at h
      subst h
      simp only [Cats.setMap, flatCats]
      have h1 := List.perm_iff_count.1 hp
      refine List.perm_iff_count.2 fun x => ?_
      have := h1 x
      simp only [List.count_append] at this ⊢
      omega
  | succ n ih =>
    cases cats with
    | nil => simp [Cats.map] at h
    | ext mask m rest => exact ih rest h
    | own mask hm map0 rest =>
      simp only [Cats.setMap, flatCats]
      have h1 := List.perm_iff_count.1 (ih rest h)
      refine List.perm_iff_count.2 fun x => ?_
      have := h1 x
      simp only [List.count_append] at this ⊢
      omega

theorem map_setMap (cats : Cats) (n n' : Nat) (map map' : List (Ref × STag)) (h : cats.map n = some map) :
    (cats.setMap n map').map n' = if n' = n then some map' else cats.map n' := by
  induction n generalizing cats n' with
  | zero =>
    cases cats with
    | nil => simp [Cats.map] at h
    | ext mask m rest => simp [Cats.map] at h
    | own mask hm map0 rest => cases n' <;> simp [Cats.setMap, Cats.map]
  | succ n ih =>
    cases cats with
    | nil => simp [Cats.map] at h
    | ext mask m rest =>
      cases n' with
      | zero => simp [Cats.setMap, Cats.map]
      | succ n' => simp only [Cats.setMap, Cats.map, ih rest n' h]; simp
    | own mask hm map0 rest =>
      cases n' with
      | zero => simp [Cats.setMap, Cats.map]
      | succ n' => simp only [Cats.setMap, Cats.map, ih rest n' h]; simp

theorem Fits.setMap {cs : List CatSpec} {cats : Cats} (h : Fits cs cats) (n : Nat) (map : List (Ref × STag)) : Fits cs (cats.setMap n map) := by
  induction n generalizing cs cats with
  | zero =>
    cases cats with
    | nil => exact h
    | ext mask m rest => exact h
    | own mask hm map0 rest =>
      match cs, h with
      | (_, none) :: cs, h => exact h
  | succ n ih =>
    cases cats with
    | nil => exact h
    | ext mask m rest =>
      match cs, h with
      | (_, some _) :: cs, h => exact ⟨h.1, h.2.1, ih h.2.2⟩
    | own mask hm map0 rest =>
      match cs, h with
      | (_, none) :: cs, h => exact ⟨h.1, ih h.2⟩

theorem Fits.count {cs : List CatSpec} {cats : Cats} (h : Fits cs cats) : cats.count = cs.length := by
  induction cs generalizing cats with
  | nil =>
    cases cats with
    | nil => rfl
    | own | ext => exact h.elim
  | cons c cs ih =>
    obtain ⟨mask, x⟩ := c
    cases cats with
    | nil => cases x <;> exact h.elim
    | own mask' hm map rest =>
      cases x with
      | none => simp [Cats.count, ih h.2]
      | some => exact h.elim
    | ext mask' m rest =>
      cases x with
      | none => exact h.elim
      | some => simp [Cats.count, ih h.2.2]

theorem Fits.map {cs : List CatSpec} {cats : Cats} (h : Fits cs cats) (n : Nat) :
    (∃ mask map, cs[n]? = some (mask, none) ∧ cats.map n = some map) ∨ ((∀ mask, cs[n]? ≠ some (mask, none)) ∧ cats.map n = none) := by
  induction cs generalizing cats n with
  | nil =>
    cases cats with
    | nil => exact .inr ⟨by simp, rfl⟩
    | own | ext => exact h.elim
  | cons c cs ih =>
    obtain ⟨mask, x⟩ := c
    cases cats with
    | nil => cases x <;> exact h.elim
    | own mask' hm map rest =>
      cases x with
      | some => exact h.elim
      | none =>
        cases n with
        | zero => exact .inl ⟨mask, map, rfl, rfl⟩
        | succ n => exact ih h.2 n
    | ext mask' m rest =>
      cases x with
      | none => exact h.elim
      | some =>
        cases n with
        | zero => exact .inr ⟨by simp, rfl⟩
        | succ n => exact ih h.2.2 n

/-- Every own map has distinct keys. -/
def KeysOk (cats : Cats) : Prop := ∀ n map, cats.map n = some map → (map.map Prod.fst).Nodup

theorem Empty.map {cats : Cats} (h : Empty cats) {n : Nat} {map : List (Ref × STag)} (hm : cats.map n = some map) : map = [] := by
  induction n generalizing cats with
  | zero =>
    cases cats with
    | nil => simp [Cats.map] at hm
    | ext => simp [Cats.map] at hm
    | own mask b m0 rest => simp only [Cats.map, Option.some.injEq] at hm; subst hm; exact h.1
  | succ n ih =>
    cases cats with
    | nil => simp [Cats.map] at hm
    | ext mask m rest => exact ih (cats := rest) h hm
    | own mask b m0 rest => exact ih (cats := rest) h.2 hm

/-- The assignment table of the categories. -/
def tableOf (cats : Cats) : Table := fun n r => ((cats.map n).bind (fun map => get map r)).map STag.tag

theorem tableOf_empty {cats : Cats} (h : Empty cats) : tableOf cats = fun _ _ => none := by
  funext n r
  unfold tableOf
  cases hm : cats.map n with
  | none => rfl
  | some map => rw [h.map hm]; rfl

theorem tableOf_put {cats : Cats} {n : Nat} {map : List (Ref × STag)} (h : cats.map n = some map) (r : Ref) (s : STag) :
    tableOf (cats.setMap n (put map r s).1) = (tableOf cats).assign n r s.tag := by
  funext n' r'
  unfold tableOf Table.assign
  rw [map_setMap cats n n' map _ h]
  by_cases hn : n' = n
  · subst hn
    simp only [if_true, Option.bind_some, get_put, true_and, h]
    by_cases hr : r' = r <;> simp [hr]
  · simp [hn]

/-! ### Assignments -/

/-- What holds for the categories of a map at any time. -/
structure Inv (cs : List CatSpec) (cats : Cats) : Prop where
  fits : Fits cs cats
  keys : KeysOk cats

theorem setTagRaw_ok {cs : List CatSpec} {cats : Cats} (inv : Inv cs cats) {n : Nat} {map : List (Ref × STag)} (hm : cats.map n = some map)
    (override : Bool) (r : Ref) (t : Tag) (putOk : Bool) {base : Nat → Bool} {h : Heap} {bs : List Nat}
    (o : Heap.Owns base h (blocksCats cats ++ bs)) (tr : List Nat) :
    ∃ code cats' h' tr' leak, setTagRaw cats n override r t putOk (h, tr) = .ok (code, cats', h', tr') ∧ Inv cs cats' ∧
      Heap.Owns base h' (blocksCats cats' ++ (leak ++ bs)) ∧ h'.fails = h.fails ∧ (putOk = true → leak = []) ∧
      ((code = 0 ∧ (override = true ∨ tableOf cats n r = none) ∧ tableOf cats' = (tableOf cats).assign n r t ∧
          (tr' ++ ctxsCats cats').Perm (release t ++ (tr ++ ctxsCats cats))) ∨
       (code = -114 ∧ override = false ∧ (∃ t', tableOf cats n r = some t') ∧ cats' = cats ∧ tr' = tr) ∨
       ((code = -12 ∨ code = -14) ∧ (override = true ∨ tableOf cats n r = none) ∧ cats' = cats ∧ tr' = tr ∧
          ((∃ k, h.fails k = true) ∨ putOk = false))) := by
  have htab : tableOf cats n r = (get map r).map STag.tag := by simp [tableOf, hm]
  unfold setTagRaw
  simp only [hm]
  by_cases hc : override = false ∧ (get map r).isSome
  · rw [if_pos hc]
    obtain ⟨p, hp⟩ := Option.isSome_iff_exists.1 hc.2
    exact ⟨-114, cats, h, tr, [], rfl, inv, by simpa using o, rfl, fun _ => rfl,
      .inr (.inl ⟨rfl, hc.1, ⟨p.tag, by rw [htab, hp]; rfl⟩, rfl, rfl⟩)⟩
  · rw [if_neg hc]
    have hfree : override = true ∨ tableOf cats n r = none := by
      cases override with
      | true => exact .inl rfl
      | false =>
        right
        simp only [true_and, Bool.not_eq_true, Option.isSome_eq_false_iff, Option.isNone_iff_eq_none] at hc
        rw [htab, hc]; rfl
    rcases newTag_ok t o with ⟨s, h1, e1, ht, o1, f1⟩ | ⟨h1, e1, o1, f1, k1⟩
    · simp only [e1, Outcome.bind_ok]
      by_cases hp : putOk = false ∧ get map r = none
      · rw [if_pos hp]
        have o2 : Heap.Owns base h1 (s.block :: (blocksCats cats ++ (s.strBlock.toList ++ bs))) := by
          refine o1.perm ?_
          simp only [STag.blocks]
          perm
        obtain ⟨h2, e2, o3, f2⟩ := o2.free
        simp only [e2, Outcome.bind_ok, Outcome.pure_eq]
        exact ⟨-14, cats, h2, tr, s.strBlock.toList, rfl, inv, o3, f2.trans f1, by simp [hp.1],
          .inr (.inr ⟨.inr rfl, hfree, rfl, rfl, .inr hp.1⟩)⟩
      · rw [if_neg hp]
        have keys' : KeysOk (cats.setMap n (put map r s).1) := by
          intro n' map' hm'
          rw [map_setMap cats n n' map _ hm] at hm'
          split at hm'
          · simp only [Option.some.injEq] at hm'
            subst hm'
            exact put_nodup map r s (inv.keys n map hm)
          · exact inv.keys n' map' hm'
        have inv' : Inv cs (cats.setMap n (put map r s).1) := ⟨inv.fits.setMap n _, keys'⟩
        have htab' : tableOf (cats.setMap n (put map r s).1) = (tableOf cats).assign n r t := by rw [tableOf_put hm, ht]
        have hprev := put_prev map r s
        cases hg : get map r with
        | none =>
          have pb := setMap_flat (fun b => [b]) STag.blocks cats n map hm [] s.blocks (put map r s).1 (by simpa using put_new _ map r s hg)
          have pc := setMap_flat (fun _ => []) STag.ctxs cats n map hm [] s.ctxs (put map r s).1 (by simpa using put_new _ map r s hg)
          rw [hg] at hprev
          cases hput : put map r s with
          | mk map' prev =>
            rw [hput] at hprev pb pc inv' htab'
            simp only at hprev pb pc inv' htab'
            subst hprev
            simp only [Outcome.pure_eq]
            refine ⟨0, _, h1, tr, [], rfl, inv', ?_, f1, fun _ => rfl, .inl ⟨rfl, hfree, htab', ?_⟩⟩
            · refine o1.perm ?_
              have h1 := List.perm_iff_count.1 pb
              refine List.perm_iff_count.2 fun x => ?_
              have := h1 x
              simp only [List.count_append, List.count_nil, blocksCats] at this ⊢
              omega
            · have h1 := List.perm_iff_count.1 pc
              refine List.perm_iff_count.2 fun x => ?_
              have := h1 x
              simp only [List.count_append, List.count_nil, ctxsCats, STag.ctxs, ht] at this ⊢
              omega
        | some p =>
          have pb := setMap_flat (fun b => [b]) STag.blocks cats n map hm p.blocks s.blocks (put map r s).1 (put_old _ map r s p hg)
          have pc := setMap_flat (fun _ => []) STag.ctxs cats n map hm p.ctxs s.ctxs (put map r s).1 (put_old _ map r s p hg)
          rw [hg] at hprev
          have hov : override = true := by
            cases override with
            | true => rfl
            | false => exact absurd ⟨rfl, by simp [hg]⟩ hc
          cases hput : put map r s with
          | mk map' prev =>
            rw [hput] at hprev pb pc inv' htab'
            simp only at hprev pb pc inv' htab'
            subst hprev
            have o2 : Heap.Owns base h1 (p.blocks ++ (blocksCats (cats.setMap n map') ++ bs)) := by
              refine o1.perm ?_
              have h1 := List.perm_iff_count.1 pb
              refine List.perm_iff_count.2 fun x => ?_
              have := h1 x
              simp only [List.count_append, blocksCats] at this ⊢
              omega
            obtain ⟨h2, e2, o3, f2⟩ := deleteTag_ok p o2 tr
            simp only [hov, Bool.true_eq_false, if_false, e2, Outcome.bind_ok, Outcome.pure_eq]
            refine ⟨0, _, h2, _, [], rfl, inv', by simpa using o3, f2.trans f1, fun _ => rfl, .inl ⟨rfl, by simp, htab', ?_⟩⟩
            have h1 := List.perm_iff_count.1 pc
            refine List.perm_iff_count.2 fun x => ?_
            have := h1 x
            simp only [List.count_append, ctxsCats] at this ⊢
            have e : s.ctxs = release t := by simp [STag.ctxs, ht]
            rw [e] at this
            omega
    · simp only [e1, Outcome.bind_ok, Outcome.pure_eq]
      exact ⟨-12, cats, h1, tr, [], rfl, inv, by simpa using o1, f1, fun _ => rfl,
        .inr (.inr ⟨.inl rfl, hfree, rfl, rfl, .inl k1⟩)⟩

/-- The contexts a call takes over. -/
def taken (c : Call) (code : Int) : List Nat :=
  if code = 0 ∧ (c.op = 1 ∨ c.op = 2) then (c.tag.map release).getD [] else []

theorem setTag_ok {db : Db} {cs : List CatSpec} {b cb : Nat} {cats : Cats} {d : Option STag} (inv : Inv cs cats) (c : Call)
    (hac : ∀ r, c.entry = some r → Acyclic db r) {base : Nat → Bool} {h : Heap} {bs : List Nat}
    (o : Heap.Owns base h (blocksOf (.mk b cb cats d) ++ bs)) (tr : List Nat) :
    ∃ code cats' h' tr' leak, setTag db (some (.mk b cb cats d)) c.category c.override c.entry c.op c.tag c.putOk (h, tr) =
        .ok (code, some (.mk b cb cats' d), h', tr') ∧ Inv cs cats' ∧
      Heap.Owns base h' (blocksOf (.mk b cb cats' d) ++ (leak ++ bs)) ∧ h'.fails = h.fails ∧ (c.putOk = true → leak = []) ∧
      Effect db (Own cs) ((∃ k, h.fails k = true) ∨ c.putOk = false) (tableOf cats) c code (tableOf cats') ∧
      (tr' ++ ctxsCats cats').Perm (taken c code ++ (tr ++ ctxsCats cats)) := by
  obtain ⟨category, override, entry, op, tag, putOk⟩ := c
  simp only at hac ⊢
  have stay : ∀ code, (code ≠ 0 ∨ (op ≠ 1 ∧ op ≠ 2)) → Effect db (Own cs) ((∃ k, h.fails k = true) ∨ putOk = false) (tableOf cats)
      ⟨category, override, entry, op, tag, putOk⟩ code (tableOf cats) →
      ∃ code' cats' h' tr' leak, (Outcome.ok (code, some (TagMap.mk b cb cats d), h, tr)) = .ok (code', some (.mk b cb cats' d), h', tr') ∧ Inv cs cats' ∧
      Heap.Owns base h' (blocksOf (.mk b cb cats' d) ++ (leak ++ bs)) ∧ h'.fails = h.fails ∧ (putOk = true → leak = []) ∧
      Effect db (Own cs) ((∃ k, h.fails k = true) ∨ putOk = false) (tableOf cats) ⟨category, override, entry, op, tag, putOk⟩ code' (tableOf cats') ∧
      (tr' ++ ctxsCats cats').Perm (taken ⟨category, override, entry, op, tag, putOk⟩ code' ++ (tr ++ ctxsCats cats)) := by
    intro code hcode he
    refine ⟨code, cats, h, tr, [], rfl, inv, by simpa using o, rfl, fun _ => rfl, he, ?_⟩
    have : taken ⟨category, override, entry, op, tag, putOk⟩ code = [] := by
      simp only [taken]
      rw [if_neg]
      rintro ⟨h1, h2⟩
      rcases hcode with h3 | ⟨h3, h4⟩
      · exact h3 h1
      · rcases h2 with h2 | h2
        · exact h3 h2
        · exact h4 h2
    rw [this]
    simp
  -- one assignment to a known key
  have go : ∀ (n : Nat) (map : List (Ref × STag)) (r : Ref) (t : Tag), category = n → cats.map n = some map → tag = some t → (op = 1 ∨ op = 2) →
      Target db ⟨category, override, entry, op, tag, putOk⟩ (some r) → Own cs n →
      ∃ code' cats' h' tr' leak, (setTagRaw cats category.toNat override r t putOk (h, tr) >>= fun x =>
          (Outcome.ok (x.1, some (TagMap.mk b cb x.2.1 d), x.2.2) : Outcome (Int × Option TagMap × Heap × List Nat))) = .ok (code', some (.mk b cb cats' d), h', tr') ∧ Inv cs cats' ∧
      Heap.Owns base h' (blocksOf (.mk b cb cats' d) ++ (leak ++ bs)) ∧ h'.fails = h.fails ∧ (putOk = true → leak = []) ∧
      Effect db (Own cs) ((∃ k, h.fails k = true) ∨ putOk = false) (tableOf cats) ⟨category, override, entry, op, tag, putOk⟩ code' (tableOf cats') ∧
      (tr' ++ ctxsCats cats').Perm (taken ⟨category, override, entry, op, tag, putOk⟩ code' ++ (tr ++ ctxsCats cats)) := by
    intro n map r t hcn hmap htag hop htar hown
    have hn : category.toNat = n := by omega
    have o' : Heap.Owns base h (blocksCats cats ++ (b :: cb :: ((d.map STag.blocks).getD [] ++ bs))) := by
      refine o.perm ?_
      simp only [blocksOf]
      perm
    obtain ⟨code, cats', h', tr', leak, e, inv', ow, hf, hl, hcase⟩ := setTagRaw_ok inv hmap override r t putOk o' tr
    refine ⟨code, cats', h', tr', leak, by rw [hn, e]; rfl, inv', ?_, hf, hl, ?_, ?_⟩
    · refine ow.perm ?_
      simp only [blocksOf]
      perm
    · rcases hcase with ⟨rfl, h1, h2, _⟩ | ⟨rfl, h1, ⟨t', h2⟩, rfl, _⟩ | ⟨h0, h1, rfl, _, h2⟩
      · rw [h2]; exact .stored hown hcn htar htag h1
      · exact .conflict hown hcn htar htag h1 h2
      · exact .noMemory hown hcn htar htag h1 h2 h0
    · rcases hcase with ⟨rfl, h1, h2, h3⟩ | ⟨rfl, h1, ⟨t', h2⟩, rfl, rfl⟩ | ⟨h0, h1, rfl, rfl, h2⟩
      · have : taken ⟨category, override, entry, op, tag, putOk⟩ 0 = release t := by
          simp only [taken, true_and]; rw [if_pos hop, htag]; rfl
        rw [this]
        exact h3
      · simp [taken]
      · have : ¬ (code = 0 ∧ (op = 1 ∨ op = 2)) := by rintro ⟨h, _⟩; omega
        simp only [taken]
        rw [if_neg this]
        simp
  unfold setTag
  cases entry with
  | none => exact stay (-22) (.inl (by decide)) (.invalid (.inr (.inl rfl)))
  | some r =>
    cases tag with
    | none => exact stay (-22) (.inl (by decide)) (.invalid (.inr (.inr rfl)))
    | some t =>
      simp only []
      by_cases hrange : category < 0 ∨ category ≥ cats.count
      · rw [if_pos hrange]
        refine stay (-22) (.inl (by decide)) (.invalid (.inl ?_))
        rintro ⟨n, mask, hn, hcs⟩
        have := (List.getElem?_eq_some_iff.1 hcs).1
        simp only at hn
        rw [inv.fits.count] at hrange
        omega
      · rw [if_neg hrange]
        obtain ⟨n, hn⟩ : ∃ n : Nat, category = n := ⟨category.toNat, by omega⟩
        have hnn : category.toNat = n := by omega
        have hat : cats.at category = .ok (cats.map n) := by
          unfold Cats.at; rw [if_neg hrange, hnn]
        simp only [hat, Outcome.bind_ok]
        rcases inv.fits.map n with ⟨mask, map, hcs, hmap⟩ | ⟨hcs, hmap⟩
        · have hown : Own cs n := ⟨n, mask, rfl, hcs⟩
          rw [hnn]
          simp only [hmap]
          by_cases h1 : op = 1
          · rw [if_pos h1]
            have := go n map r t hn hmap rfl (.inl h1) (.entry rfl h1) hown
            rw [hnn] at this
            exact this
          · rw [if_neg h1]
            by_cases h2 : op = 2
            · rw [if_pos h2]
              obtain ⟨f, qs, hf⟩ := final_exists (hac r rfl)
              simp only [final_entry hf, Outcome.ofLoop_some, Outcome.bind_ok]
              cases f with
              | none =>
                simp only [Outcome.pure_eq]
                exact stay (-14) (.inl (by decide)) (.void (by simp only; rw [hn]; exact hown) (.final rfl h2 hf) rfl)
              | some f =>
                have := go n map f t hn hmap rfl (.inr h2) (.final rfl h2 hf) hown
                rw [hnn] at this
                exact this
            · rw [if_neg h2]
              exact stay 0 (.inr ⟨h1, h2⟩) (.nothing (by simp only; rw [hn]; exact hown) rfl rfl h1 h2)
        · rw [hnn]
          simp only [hmap]
          refine stay (-22) (.inl (by decide)) (.invalid (.inl ?_))
          rintro ⟨n', mask, hn', hcs'⟩
          simp only at hn'
          have : n' = n := by omega
          subst this
          exact hcs mask hcs'

theorem Spec.Effect.mono {db : Db} {own : Int → Prop} {p q : Prop} {T T' : Table} {c : Call} {code : Int} (hpq : p → q)
    (h : Effect db own p T c code T') : Effect db own q T c code T' := by
  cases h with
  | stored h1 h2 h3 h4 h5 => exact .stored h1 h2 h3 h4 h5
  | conflict h1 h2 h3 h4 h5 h6 => exact .conflict h1 h2 h3 h4 h5 h6
  | noMemory h1 h2 h3 h4 h5 h6 h7 => exact .noMemory h1 h2 h3 h4 h5 (hpq h6) h7
  | void h1 h2 h3 => exact .void h1 h2 h3
  | nothing h1 h2 h3 h4 h5 => exact .nothing h1 h2 h3 h4 h5
  | invalid h => exact .invalid h

theorem run_ok {db : Db} {cs : List CatSpec} {b cb : Nat} {d : Option STag} (oom : Prop) (calls : List Call)
    (hac : ∀ c ∈ calls, ∀ r, c.entry = some r → Acyclic db r) {cats : Cats} (inv : Inv cs cats) {base : Nat → Bool} {h : Heap} {bs : List Nat}
    (hoom : ∀ c ∈ calls, ((∃ k, h.fails k = true) ∨ c.putOk = false) → oom)
    (o : Heap.Owns base h (blocksOf (.mk b cb cats d) ++ bs)) (tr : List Nat) :
    ∃ codes cats' h' tr' leak, run db calls (some (.mk b cb cats d)) (h, tr) = .ok (codes, some (.mk b cb cats' d), h', tr') ∧ Inv cs cats' ∧
      Heap.Owns base h' (blocksOf (.mk b cb cats' d) ++ (leak ++ bs)) ∧ h'.fails = h.fails ∧ ((∀ c ∈ calls, c.putOk = true) → leak = []) ∧
      History db (Own cs) oom (tableOf cats) calls codes (tableOf cats') ∧
      (tr' ++ ctxsCats cats').Perm (releases calls codes ++ (tr ++ ctxsCats cats)) := by
  induction calls generalizing cats h bs tr with
  | nil => exact ⟨[], cats, h, tr, [], rfl, inv, by simpa using o, rfl, fun _ => rfl, .nil, by simp [releases]⟩
  | cons c calls ih =>
    obtain ⟨code, cats1, h1, tr1, leak1, e1, inv1, o1, f1, l1, eff1, p1⟩ := setTag_ok inv c (hac c (by simp)) o tr
    obtain ⟨codes, cats2, h2, tr2, leak2, e2, inv2, o2, f2, l2, eff2, p2⟩ :=
      ih (fun c' hc' => hac c' (by simp [hc'])) inv1 (fun c' hc' hk => hoom c' (by simp [hc']) (by rw [f1] at hk; exact hk)) o1 tr1
    refine ⟨code :: codes, cats2, h2, tr2, leak2 ++ leak1, ?_, inv2, by simpa [List.append_assoc] using o2, f2.trans f1, ?_, ?_, ?_⟩
    · simp only [run, e1, e2, Outcome.bind_ok, Outcome.pure_eq]
    · intro hp
      rw [l1 (hp c (by simp)), l2 (fun c' hc' => hp c' (by simp [hc']))]
      rfl
    · exact .cons (eff1.mono (hoom c (by simp))) eff2
    · have c1 := List.perm_iff_count.1 p1
      have c2 := List.perm_iff_count.1 p2
      refine List.perm_iff_count.2 fun x => ?_
      have := c1 x
      have := c2 x
      simp only [releases, List.count_append, taken] at *
      omega

/-! ### Lookup after a history -/

theorem get_mem {map : List (Ref × STag)} (hn : (map.map Prod.fst).Nodup) {r : Ref} {s : STag} (h : (r, s) ∈ map) : get map r = some s := by
  cases hg : get map r with
  | none => exact absurd h (get_none hg s)
  | some s' => rw [mem_unique hn h (get_some hg)]

theorem table_get {cats : Cats} {n : Nat} {map : List (Ref × STag)} (hm : cats.map n = some map) (r : Ref) :
    tableOf cats n r = (get map r).map STag.tag := by simp [tableOf, hm]

theorem knows_table {db : Db} {r : Ref} {mask n : Nat} {cats : Cats} {map : List (Ref × STag)} (hm : cats.map n = some map)
    (hn : (map.map Prod.fst).Nodup) {s : STag} (h : Knows db r mask map s) : KnowsT db r (tableOf cats) n mask s.tag := by
  cases h with
  | entry h => exact .entry (by rw [table_get hm, get_mem hn h]; rfl)
  | final h1 h2 h3 h4 =>
    refine .final ?_ h2 h3 (by rw [table_get hm, get_mem hn h4]; rfl)
    rw [table_get hm]
    cases hg : get map r with
    | none => rfl
    | some s' => exact absurd (get_some hg) (h1 s')

theorem table_knows {db : Db} {r : Ref} {mask n : Nat} {cats : Cats} {map : List (Ref × STag)} (hm : cats.map n = some map)
    {t : Tag} (h : KnowsT db r (tableOf cats) n mask t) : ∃ s, Knows db r mask map s := by
  cases h with
  | entry h =>
    rw [table_get hm] at h
    cases hg : get map r with
    | none => rw [hg] at h; simp at h
    | some s => exact ⟨s, .entry (get_some hg)⟩
  | @final f qs t h1 h2 h3 h4 =>
    rw [table_get hm] at h1 h4
    cases hg : get map r with
    | some s => exact ⟨s, .entry (get_some hg)⟩
    | none =>
      cases hf : get map f with
      | none => rw [hf] at h4; simp at h4
      | some s => exact ⟨s, .final (get_none hg) h2 h3 (get_some hf)⟩

/-- The categories from `k` on are `rest`. -/
def From (cats : Cats) (k : Nat) (rest : Cats) : Prop := ∀ n, cats.map (k + n) = rest.map n

theorem chosen_from {db : Db} {r : Ref} {cats : Cats} (keys : KeysOk cats) (rest : Cats) (masks : List Nat) (k : Nat)
    (hf : From cats k rest) (hfit : Fits (masks.map (fun m => (m, none))) rest) :
    (∀ s, First db r rest s → ∃ n mask, masks[n]? = some mask ∧ Applies db r mask ∧ KnowsT db r (tableOf cats) (k + n) mask s.tag ∧
      ∀ n' mask', n' < n → masks[n']? = some mask' → Applies db r mask' → ∀ t', ¬ KnowsT db r (tableOf cats) (k + n') mask' t') ∧
    (Silent db r rest → ∀ n' mask', masks[n']? = some mask' → Applies db r mask' → ∀ t', ¬ KnowsT db r (tableOf cats) (k + n') mask' t') := by
  induction masks generalizing rest k with
  | nil =>
    cases rest with
    | nil => exact ⟨fun s h => (by cases h), fun _ n' mask' h => (by simp at h)⟩
    | own | ext => exact hfit.elim
  | cons m masks ih =>
    cases rest with
    | nil | ext => exact hfit.elim
    | own mask hm map rest =>
      obtain ⟨rfl, hfit⟩ := hfit
      have hmap : cats.map k = some map := hf 0
      have hf' : From cats (k + 1) rest := by
        intro n
        have := hf (n + 1)
        rw [show k + 1 + n = k + (n + 1) by omega]
        exact this
      have ih := ih rest (k + 1) hf' hfit
      have quiet : (Applies db r m → ∀ s', ¬ Knows db r m map s') → ∀ n' mask', (n' = 0 → (m :: masks)[n']? = some mask' → Applies db r mask' →
          ∀ t', ¬ KnowsT db r (tableOf cats) (k + n') mask' t') := by
        intro hq n' mask' h0 hm' ha t' hk
        subst h0
        simp only [List.getElem?_cons_zero, Option.some.injEq] at hm'
        subst hm'
        obtain ⟨s, hs⟩ := table_knows hmap hk
        exact hq ha s hs
      refine ⟨?_, ?_⟩
      · intro s h
        cases h with
        | own ha hk => exact ⟨0, m, rfl, ha, knows_table hmap (keys k map hmap) hk, by intro n' mask' h; omega⟩
        | laterOwn hq h =>
          obtain ⟨n, mask, h1, h2, h3, h4⟩ := ih.1 s h
          refine ⟨n + 1, mask, h1, h2, by rw [show k + (n + 1) = k + 1 + n by omega]; exact h3, ?_⟩
          intro n' mask' hlt hm' ha
          cases n' with
          | zero => exact quiet hq 0 mask' rfl hm' ha
          | succ n' =>
            rw [show k + (n' + 1) = k + 1 + n' by omega]
            exact h4 n' mask' (by omega) hm' ha
      · intro h n' mask' hm' ha
        cases h with
        | own hq h =>
          cases n' with
          | zero => exact quiet hq 0 mask' rfl hm' ha
          | succ n' =>
            rw [show k + (n' + 1) = k + 1 + n' by omega]
            exact ih.2 h n' mask' hm' ha

theorem plain_fits {masks : List Nat} {cats : Cats} (h : Fits (masks.map (fun m => (m, none))) cats) : Plain cats := by
  induction masks generalizing cats with
  | nil =>
    cases cats with
    | nil => trivial
    | own | ext => exact h.elim
  | cons m ms ih =>
    cases cats with
    | nil | ext => exact h.elim
    | own mask hm map rest => exact (ih h.2 : Plain rest)

/-- The lookup in a map without external categories, in terms of the assignment table. -/
theorem lookup_chosen {db : Db} {r : Ref} (ha : Acyclic db r) {masks : List Nat} {b cb : Nat} {cats : Cats} {d : Option STag}
    (inv : Inv (masks.map (fun m => (m, none))) cats) :
    ∃ t, tag db (some (.mk b cb cats d)) (some r) = .ok t ∧ Chosen db r masks (tableOf cats) (d.map STag.tag) (t.map STag.tag) := by
  have hc := chosen_from (db := db) (r := r) inv.keys cats masks 0 (fun n => by rw [Nat.zero_add]) inv.fits
  simp only [Nat.zero_add] at hc
  rcases tagOf_spec ha (.mk b cb cats d) with ⟨t, h1, h2⟩ | ⟨h1, h2⟩
  · refine ⟨t, h1, ?_⟩
    cases h2 with
    | category h =>
      obtain ⟨n, mask, a1, a2, a3, a4⟩ := hc.1 _ h
      exact .category a1 a2 a3 a4
    | default h => exact .default (hc.2 h)
  · cases h2 with
    | mk h2 => exact absurd h2 (plain_no_miss cats (plain_fits inv.fits))

end Verif.TagMap
