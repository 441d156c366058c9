import Verif.Chain.Reads
import Verif.Chain.RunLemmas
/-
Lemmas for C80: the generated file of a C program compiles.
-/
namespace Verif.Chain
open Verif.GoMeta (Str)
open GoDwarf.Spec (Die)
open GoBuild.Spec (Tree Placed text num ref declared isTag parts paramTags Describes Dims)
open GoDedup (Off World St Go Desc isTypeTag isType sig idOf)
open GoDedup.Spec (Start Visits cat tagName links)
open Emit.Spec (Plain Named Few Size Link HeadFits ObjFits ParamsFit FieldFits HierFits Fits CName)
open Spec

variable {units : List (Nat × Tree)} {w : World} {st st0 : St} {order : List Off} {snake : Str → Str} {x : Extra} {db : List Emit.Obj}

/-! ### Parents -/

theorem merge_parents {i o f : Nat} {st' : St} (h : GoDedup.merge w i o f st = Go.ret st') :
    ∃ fo, st.ptr f = some fo ∧ st'.ptr = GoDedup.set st.ptr i (some fo) ∧ st'.parents = GoDedup.set st.parents fo (st.parents fo ++ st.parents o) := by
  obtain ⟨fo, h1, h2⟩ := GoDedup.merge_ret h
  exact ⟨fo, h1, by rw [h2], by rw [h2]⟩

theorem step_parents {i : Off} {st' : St} (h : GoDedup.stepWith (sig w.obj) w i st = Go.ret st') :
    (st'.ptr = st.ptr ∧ st'.parents = st.parents) ∨
    ∃ o k f fo, st.ptr i = some o ∧ isTypeTag (w.tag i) = true ∧ GoDedup.lookupKey st k = some f ∧ st.ptr f = some fo ∧
      st'.ptr = GoDedup.set st.ptr i (some fo) ∧ st'.parents = GoDedup.set st.parents fo (st.parents fo ++ st.parents o) := by
  unfold GoDedup.stepWith at h
  split at h
  · exact .inl (by rw [GoDedup.Go.ret_inj.mp h]; exact ⟨rfl, rfl⟩)
  · rename_i o hp
    split at h
    · exact .inl (by rw [GoDedup.Go.ret_inj.mp h]; exact ⟨rfl, rfl⟩)
    · rename_i ht
      have ht : isTypeTag (w.tag i) = true := by simpa using ht
      split at h
      · split at h
        · exact absurd h GoDedup.Go.fail_ne
        · split at h
          · exact .inl (by rw [← GoDedup.Go.ret_inj.mp h]; exact ⟨rfl, rfl⟩)
          · obtain ⟨hs, -, h⟩ := GoDedup.Go.bind_ret.mp h
            split at h
            · split at h
              · rename_i f hf
                obtain ⟨fo, h1, h2⟩ := merge_parents h
                exact .inr ⟨o, .inl hs, f, fo, hp, ht, hf, h1, h2⟩
              · exact .inl (by rw [← GoDedup.Go.ret_inj.mp h]; exact ⟨rfl, rfl⟩)
            · obtain ⟨cs, -, h⟩ := GoDedup.Go.bind_ret.mp h
              split at h
              · rename_i f hf
                obtain ⟨fo, h1, h2⟩ := merge_parents h
                exact .inr ⟨o, .inr (hs, cs), f, fo, hp, ht, hf, h1, h2⟩
              · exact .inl (by rw [← GoDedup.Go.ret_inj.mp h]; exact ⟨rfl, rfl⟩)
      · exact absurd h GoDedup.Go.panic_ne

/-- What happens to the parents of objects. -/
structure Parents (w : World) (st0 : St) (done : List Off) (st : St) : Prop where
  own : ∀ i o, st0.ptr i = some o → i ∉ done ∨ isTypeTag (w.tag i) = false → st.parents o = st0.parents o
  origin : ∀ i o, st0.ptr i = some o → ∀ p ∈ st.parents o, ∃ j n, st0.ptr j = some n ∧ p ∈ st0.parents n
  len : ∀ i o, st0.ptr i = some o → (st.parents o).length ≤ 1 + (done.filter fun j => (st0.ptr j).isSome).length

theorem parents_step {done : List Off} {i : Off} {st' : St} (hs : Start w st0) (inv : GoDedup.Inv w st0 done st) (hi : Parents w st0 done st) (hn : i ∉ done)
    (h1 : ∀ j n, st0.ptr j = some n → (st0.parents n).length ≤ 1) (h : GoDedup.stepWith (sig w.obj) w i st = Go.ret st') : Parents w st0 (i :: done) st' := by
  have mono : ((done.filter fun j => (st0.ptr j).isSome)).length ≤ ((i :: done).filter fun j => (st0.ptr j).isSome).length := by
    rw [List.filter_cons]; split <;> simp
  rcases step_parents h with ⟨-, e⟩ | ⟨o, k, f, fo, e1, e2, e3, e4, -, e5⟩
  · refine ⟨fun j n hj hd => ?_, fun j n hj => ?_, fun j n hj => ?_⟩
    · rw [e]; exact hi.own j n hj (hd.imp_left fun h hm => h (List.mem_cons_of_mem _ hm))
    · rw [e]; exact hi.origin j n hj
    · rw [e]; exact Nat.le_trans (hi.len j n hj) (by omega)
  · rw [(inv.pending i (.inl hn)).1] at e1
    obtain ⟨f1, f2, fo', f3, f4, -⟩ := inv.found k f e3
    rw [e4] at f4
    cases f4
    have ho : st.parents o = st0.parents o := hi.own i o e1 (.inl hn)
    have hcount : ((i :: done).filter fun j => (st0.ptr j).isSome).length = (done.filter fun j => (st0.ptr j).isSome).length + 1 := by
      rw [List.filter_cons_of_pos (by simp [e1])]; rfl
    refine ⟨fun j n hj hd => ?_, fun j n hj p hp => ?_, fun j n hj => ?_⟩
    · by_cases hx : n = fo
      · subst hx
        have : j = f := hs.own _ _ _ hj f3
        subst this
        rcases hd with hd | hd
        · exact absurd (List.mem_cons_of_mem _ f1) hd
        · rw [f2] at hd; cases hd
      · rw [e5, GoDedup.set_other _ _ hx]
        exact hi.own j n hj (hd.imp_left fun h hm => h (List.mem_cons_of_mem _ hm))
    · rw [e5] at hp
      by_cases hx : n = fo
      · subst hx
        rw [GoDedup.set_same, List.mem_append] at hp
        rcases hp with hp | hp
        · exact hi.origin j n hj p hp
        · exact hi.origin i o e1 p hp
      · rw [GoDedup.set_other _ _ hx] at hp
        exact hi.origin j n hj p hp
    · rw [e5, hcount]
      by_cases hx : n = fo
      · subst hx
        rw [GoDedup.set_same, List.length_append, ho]
        have := hi.len j n hj
        have := h1 i o e1
        omega
      · rw [GoDedup.set_other _ _ hx]
        have := hi.len j n hj
        omega

theorem parents_dedup (hs : Start w st0) (h1 : ∀ j n, st0.ptr j = some n → (st0.parents n).length ≤ 1) : ∀ (order done : List Off) (st st' : St), GoDedup.Inv w st0 done st →
    Parents w st0 done st → order.Nodup → (∀ i ∈ order, i ∉ done) → GoDedup.dedup w order st = Go.ret st' → Parents w st0 (order.reverse ++ done) st'
  | [], _, _, _, _, hp, _, _, h => by cases GoDedup.Go.ret_inj.mp h; exact hp
  | i :: is, done, st, st', hi, hp, hnd, hdis, h => by
    obtain ⟨st1, g1, g2⟩ := GoDedup.Go.bind_ret.mp h
    have hid := hdis i (List.mem_cons_self ..)
    have := parents_dedup hs h1 is (i :: done) st1 st' (GoDedup.inv_step hs hi hid g1) (parents_step hs hi hp hid h1 g1) (List.nodup_cons.mp hnd).2 (by
      intro j hj hm
      rcases List.mem_cons.mp hm with rfl | hm
      · exact (List.nodup_cons.mp hnd).1 hj
      · exact hdis j (List.mem_cons_of_mem _ hj) hm) g2
    rw [List.reverse_cons, List.append_assoc]
    exact this

theorem nodup_length {α : Type} [DecidableEq α] : ∀ {l m : List α}, l.Nodup → (∀ x ∈ l, x ∈ m) → l.length ≤ m.length
  | [], _, _, _ => Nat.zero_le _
  | a :: l, m, hn, h => by
    have ha := h a (by simp)
    have := nodup_length (l := l) (m := m.erase a) (List.nodup_cons.mp hn).2 (by
      intro x hx
      exact (List.mem_erase_of_ne (by rintro rfl; exact (List.nodup_cons.mp hn).1 hx)).mpr (h x (by simp [hx])))
    have h0 : 0 < m.length := List.length_pos_of_mem ha
    rw [List.length_erase_of_mem ha] at this
    simp only [List.length_cons]
    omega

/-! ### Entries -/

theorem placed_parent {p : List Off} {ds : List Tree} {q : List Off} {d : Tree} (h : Placed p ds q d) : q = p ∨ ∃ q' e, Placed p ds q' e ∧ q = [e.off] := by
  induction h with
  | here hd => exact .inl rfl
  | @there p ds k _ _ hk _ ih =>
    rcases ih with rfl | ⟨q', e, h1, h2⟩
    · exact .inr ⟨_, k, .here hk, rfl⟩
    · exact .inr ⟨q', e, .there hk h1, h2⟩

theorem offs_length {k : Tree} : ∀ {ds : List Tree}, k ∈ ds → k.offs.length ≤ (Die.offsAll ds).length
  | [], h => by cases h
  | d :: ds, h => by
    rw [Die.offsAll, List.length_append]
    rcases List.mem_cons.mp h with rfl | h
    · omega
    · have := offs_length h; omega

theorem kids_offs (d : Tree) : Die.offsAll d.kids = d.offs.tail := by cases d; rfl

theorem below_length {p0 : Off} {ds : List Tree} {q : Off} {d : Tree} (h : Die.Below p0 ds q d) : d.offs.length ≤ (Die.offsAll ds).length := by
  induction h with
  | here hd => exact offs_length hd
  | @there p ds k _ _ hk _ ih =>
    rw [kids_offs, List.length_tail] at ih
    have := offs_length hk
    omega

theorem kids_length : ∀ (ds : List Tree), ds.length ≤ (Die.offsAll ds).length
  | [] => Nat.le_refl _
  | d :: ds => by
    have := kids_length ds
    have h1 : 0 < d.offs.length := List.length_pos_of_mem (GoDwarf.off_mem d)
    rw [Die.offsAll, List.length_append, List.length_cons]
    omega

theorem below_mem {p0 : Off} {ds : List Tree} {q : Off} {d : Tree} (h : Die.Below p0 ds q d) : d.off ∈ Die.offsAll ds := by
  induction h with
  | here hd => exact GoDwarf.off_memAll hd
  | @there p ds k _ d hk _ ih =>
    have h1 : d.off ∈ k.offs := by
      rw [kids_offs] at ih
      exact List.mem_of_mem_tail ih
    clear ih
    induction ds with
    | nil => cases hk
    | cons e ds ih =>
      rw [Die.offsAll, List.mem_append]
      rcases List.mem_cons.mp hk with rfl | hk
      · exact .inl h1
      · exact .inr (ih hk)

theorem placed_kids {q : List Off} {d : Tree} (hp : Placed [] (units.map Prod.snd) q d) : d.kids.length < (Die.offsAll (units.map Prod.snd)).length := by
  obtain ⟨q0, hb⟩ := GoBuild.placed_below hp 0 _ (fun x hx => hx)
  have h1 := below_length hb
  have h2 := kids_length d.kids
  rw [kids_offs, List.length_tail] at h2
  have h3 : 0 < d.offs.length := List.length_pos_of_mem (GoDwarf.off_mem d)
  omega

theorem Base.index (hB : Base units w st0) {i : Off} {o : Nat} (h : st0.ptr i = some o) : i ∈ Die.offsAll (units.map Prod.snd) := by
  obtain ⟨q, d, hp, hd⟩ := hB.entry i o h
  obtain ⟨q0, hb⟩ := GoBuild.placed_below hp 0 _ (fun x hx => hx)
  rcases hd with rfl | ⟨-, hd⟩
  · exact below_mem hb
  · obtain ⟨k, hk, rfl⟩ := List.mem_map.mp (List.mem_of_mem_tail hd)
    exact below_mem (below_kid hb hk)

/-- The parents before types are merged. -/
theorem Base.above (hi : Input units) (hB : Base units w st0) {i : Off} {o : Nat} (h : st0.ptr i = some o) :
    (st0.parents o).length ≤ 1 ∧ ∀ p ∈ st0.parents o, At units p := by
  obtain ⟨q, d, hp, hd⟩ := hB.entry i o h
  obtain ⟨n, n1, n2, n3, n4⟩ := hB.obj q d hp
  rcases hd with rfl | ⟨ha, hd⟩
  · rw [h] at n1; cases n1
    rw [n3]
    rcases placed_parent hp with rfl | ⟨q', e, h1, rfl⟩
    · simp
    · exact ⟨by simp, fun p hp' => ⟨q', e, h1, (List.mem_singleton.mp hp').symm⟩⟩
  · obtain ⟨hh, p, -, rfl, hdims⟩ := n4 ha
    have hlen := hi.dims _ d hp ha
    generalize hks : d.kids = ks at hdims hlen hd
    cases hdims with
    | none => cases hd
    | last => cases hd
    | @cons _ _ _ _ k k' ks' n' c m1 m2 m3 m4 m5 =>
      have : ks' = [] := by
        cases ks' with
        | nil => rfl
        | cons => simp at hlen
      subst this
      have hik : i = k'.off := by simpa using hd
      subst hik
      cases m5 with
      | last x1 x2 x3 x4 =>
        rw [x1] at h; cases h
        rw [x4]
        exact ⟨by simp, fun p hp' => ⟨_, d, hp, (List.mem_singleton.mp hp').symm⟩⟩

theorem Core.parents (hi : Input units) (hc : Core units w st st0 order) : Parents w st0 order.reverse st := by
  have := parents_dedup hc.start (fun j n h => (hc.toBase.above hi h).1) order [] st0 st (GoDedup.inv_start hc.start)
    ⟨fun _ _ _ _ => rfl, fun i o h p hp => ⟨i, o, h, hp⟩, fun i o h => by simpa using (hc.toBase.above hi h).1⟩ hc.visits.once (by simp) hc.run
  simpa using this

/-! ### Identifiers -/

theorem Core.ids_eq (hc : Core units w st st0 order) : st.added.map (idOf snake w st.added) = GoDedup.idsOf snake w st.added := by
  have hn := hc.inv.once
  obtain ⟨hlen, -⟩ := GoMeta.C46_unique snake (st.added.map fun o => ⟨GoDedup.kindOf (w.obj o), GoDedup.nameOf (w.obj o)⟩)
  have hl : (GoDedup.idsOf snake w st.added).length = st.added.length := by
    show (GoMeta.addAll snake GoMeta.Db.empty _).1.length = _
    rw [hlen, List.length_map]
  refine List.ext_getElem (by rw [List.length_map, hl]) ?_
  intro i h1 h2
  rw [List.length_map] at h1
  rw [List.getElem_map]
  unfold idOf
  rw [GoDedup.lookup_mem (b := (GoDedup.idsOf snake w st.added)[i])]
  · rfl
  · rw [List.map_reverse, List.map_fst_zip (by omega)]
    exact List.pairwise_reverse.mpr (hn.imp fun h => Ne.symm h)
  · rw [List.mem_reverse]
    refine List.mem_of_getElem? (i := i) ?_
    rw [List.getElem?_zip_eq_some]
    exact ⟨List.getElem?_eq_getElem h1, List.getElem?_eq_getElem h2⟩

theorem Emitted.ids (he : Emitted snake w st x db) (hc : Core units w st st0 order) : (db.map Emit.Obj.id).Perm (GoDedup.idsOf snake w st.added) := by
  have := he.map Emit.Obj.id
  rw [List.map_map] at this
  rw [← hc.ids_eq]
  refine this.trans (List.Perm.of_eq ?_)
  exact List.map_congr_left fun o _ => view_id o

theorem nameOf_some {y : Desc} {n : Str} (h : GoDedup.nameOf y = some n) : GoDedup.Spec.name y = some n := by
  cases y <;> first | exact h | cases h

/-- The array types of the inner dimensions have no names. -/
theorem inner_name {ptr : Off → Option Nat} {obj : Nat → Desc} {parents : Nat → List Off} {elem : Option Off} {h : GoDedup.Head} {s : Option Int} {o par : Off} {ks : List Tree}
    (hd : Dims ptr obj parents elem h s o par ks) : (∃ n, ptr o = some n ∧ GoDedup.Spec.name (obj n) = h.name) ∧
      ∀ y ∈ (ks.map Die.off).tail, ∃ n, ptr y = some n ∧ GoDedup.Spec.name (obj n) = none := by
  induction hd with
  | none h1 h2 => exact ⟨⟨_, h1, by rw [h2]; rfl⟩, by simp⟩
  | last h1 h2 => exact ⟨⟨_, h1, by rw [h2]; rfl⟩, by simp⟩
  | cons h1 h2 _ _ _ ih =>
    refine ⟨⟨_, h1, by rw [h2]; rfl⟩, ?_⟩
    intro y hy
    rcases List.mem_cons.mp hy with rfl | hy
    · exact ih.1
    · exact ih.2 y (by simpa using hy)

theorem Base.name (hB : Base units w st0) {i : Off} {o : Nat} (h : st0.ptr i = some o) {n : Str} (hn : GoDedup.Spec.name (w.obj o) = some n) :
    ∃ q d, Placed [] (units.map Prod.snd) q d ∧ NameAt d (some n) := by
  obtain ⟨q, d, hp, hd⟩ := hB.entry i o h
  obtain ⟨m, n1, n2, n3, n4⟩ := hB.obj q d hp
  rcases hd with rfl | ⟨ha, hd⟩
  · rw [h] at n1; cases n1
    exact ⟨q, d, hp, by rw [← hn]; exact describes_name n2⟩
  · obtain ⟨hh, p, -, -, hdims⟩ := n4 ha
    obtain ⟨m', m1, m2⟩ := (inner_name hdims).2 i hd
    rw [h] at m1; cases m1
    rw [hn] at m2; cases m2

theorem Core.words (hW : Writable units snake) (hc : Core units w st st0 order) : ∀ a ∈ GoDedup.idsOf snake w st.added, CName a := by
  refine (Emit.C76_ids snake _).2.2.2 ?_
  intro y hy n hn hs
  obtain ⟨o, ho, rfl⟩ := List.mem_map.mp hy
  obtain ⟨i, h1, -⟩ := hc.home ho
  obtain ⟨q, d, hp, hd⟩ := hc.toBase.name h1 (nameOf_some hn)
  exact hW.words q d hp n hd hs

/-! ### What is written of an object -/

theorem words_chars : ∀ (s v : Str), ∀ c ∈ v ++ s, c = 32 ∨ ∃ y ∈ GoBuild.Spec.words v s, c ∈ y
  | [], v, c, hc => by
    rw [List.append_nil] at hc
    refine .inr ⟨v, ?_, hc⟩
    unfold GoBuild.Spec.words
    rw [if_neg (by rintro rfl; cases hc)]
    simp
  | a :: s, v, c, hc => by
    unfold GoBuild.Spec.words
    by_cases ha : a = 32
    · rw [if_pos ha]
      rcases List.mem_append.mp hc with hc | hc
      · rw [if_neg (by rintro rfl; cases hc)]
        exact .inr ⟨v, by simp, hc⟩
      · rcases List.mem_cons.mp hc with rfl | hc
        · exact .inl ha
        · rcases words_chars s [] c (by simpa using hc) with h | ⟨y, h1, h2⟩
          · exact .inl h
          · refine .inr ⟨y, ?_, h2⟩
            split
            · exact h1
            · simp [h1]
    · rw [if_neg ha]
      exact words_chars s (v ++ [a]) c (by simpa using hc)

theorem ctype_plain {n : Str} {t : GoBuild.Spec.CType} (h : GoBuild.Spec.ctype n = some t) : Plain n := by
  have hall : ∀ y ∈ GoBuild.Spec.words [] n, y ∈ GoBuild.Spec.specifiers := by
    unfold GoBuild.Spec.ctype GoBuild.Spec.counts at h
    by_cases ha : ((GoBuild.Spec.words [] n).all fun w => GoBuild.Spec.specifiers.contains w) = true
    · intro y hy
      simpa using List.all_eq_true.mp ha y hy
    · rw [if_neg ha] at h
      cases h
  have : ∀ c ∈ n, c = 32 ∨ ∃ y ∈ GoBuild.Spec.specifiers, c ∈ y := by
    intro c hc
    rcases words_chars n [] c hc with h | ⟨y, h1, h2⟩
    · exact .inl h
    · exact .inr ⟨y, hall y h1, h2⟩
  have hno : ∀ c ∈ [(34 : UInt8), 92, 10], ¬ (c = 32 ∨ ∃ y ∈ GoBuild.Spec.specifiers, c ∈ y) := by decide
  exact ⟨fun h => hno _ (by simp) (this _ h), fun h => hno _ (by simp) (this _ h), fun h => hno _ (by simp) (this _ h)⟩

theorem name_plain (hW : Writable units snake) {q : List Off} {d : Tree} (hp : Placed [] (units.map Prod.snd) q d) {n : Option Str} (h : NameAt d n) : Named n := by
  intro s hs
  cases h with
  | base h1 h2 h3 =>
    cases hs
    cases h3 with
    | same => exact hW.names q d hp d (by simp) _ h2
    | other _ h => exact ctype_plain h
    | cfloat | cdouble | cldouble => unfold Plain; decide
  | block => cases hs
  | other => exact hW.names q d hp d (by simp) _ hs

theorem each_few {α β : Type} {R : α → β → Prop} {as : List α} {bs : List β} (h : GoDedup.Spec.Each R as bs) (ha : Few as) : Few bs := by
  unfold Few
  rw [← (each_get h).1]
  exact ha

theorem kids_few (hW : Writable units snake) {q : List Off} {d : Tree} (hp : Placed [] (units.map Prod.snd) q d) : Few d.kids := by
  have := placed_kids hp
  have := hW.few
  unfold Few
  omega

theorem filter_few {α : Type} {l : List α} (h : Few l) (p : α → Bool) : Few (l.filter p) :=
  Nat.lt_of_le_of_lt (List.length_filter_le ..) h
theorem map_few {α β : Type} {l : List α} (h : Few l) (f : α → β) : Few (l.map f) := by
  unfold Few
  rw [List.length_map]
  exact h

theorem parts_few {d : Tree} (h : Few d.kids) : Few (parts d) := by
  unfold parts
  repeat' split
  all_goals first | exact filter_few h _ | (unfold Few; decide)

/-- The ids of the links. -/
structure Ids (units : List (Nat × Tree)) (snake : Str → Str) (w : World) (st : St) (ids : List Str) : Prop where
  entry : ∀ l, At units l → link snake w st l ∈ ids
  link : ∀ o ∈ st.added, ∀ l ∈ links (w.obj o), link snake w st l ∈ ids
  void : ∀ a ∈ ids, a ≠ go! "void"
  heads : ∀ o ∈ st.added, (∀ p ∈ (st.parents o).map (Chain.link snake w st), p ∈ ids) ∧ Few ((st.parents o).map (Chain.link snake w st))

theorem Core.ids (hi : Input units) (hW : Writable units snake) (hc : Core units w st st0 order) : Ids units snake w st (GoDedup.idsOf snake w st.added) := by
  have mem : ∀ o ∈ st.added, idOf snake w st.added o ∈ GoDedup.idsOf snake w st.added := by
    intro o ho
    rw [← hc.ids_eq]
    exact List.mem_map_of_mem ho
  have entry : ∀ l, At units l → Chain.link snake w st l ∈ GoDedup.idsOf snake w st.added := by
    rintro l ⟨q, d, hp, rfl⟩
    obtain ⟨t, o, -, -, h1, h2, -⟩ := hc.placed hi hp
    rw [link_ptr h2]
    exact mem o h1
  refine ⟨entry, ?_, (Emit.C76_ids snake _).2.1, ?_⟩
  · intro o ho l hl
    obtain ⟨t, o', -, h1, h2, -⟩ := hc.link hi ho hl
    rw [link_ptr h2]
    exact mem o' h1
  · intro o ho
    obtain ⟨i, h1, -⟩ := hc.home ho
    have hP := hc.parents hi
    constructor
    · intro p hp
      obtain ⟨l, hl, rfl⟩ := List.mem_map.mp hp
      obtain ⟨j, n, g1, g2⟩ := hP.origin i o h1 l hl
      exact entry l ((hc.toBase.above hi g1).2 l g2)
    · refine map_few ?_ _
      have g := hP.len i o h1
      have g2 : (order.reverse.filter fun j => (st0.ptr j).isSome).length ≤ (Die.offsAll (units.map Prod.snd)).length := by
        refine nodup_length ((List.pairwise_reverse.mpr (hc.visits.once.imp fun h => Ne.symm h)).filter _) ?_
        intro j hj
        obtain ⟨-, hj⟩ := List.mem_filter.mp hj
        obtain ⟨n, hn⟩ := Option.isSome_iff_exists.mp hj
        exact hc.toBase.index hn
      have := hW.few
      unfold Few
      omega

section
variable {ids : List Str} (hI : Ids units snake w st ids)
include hI

theorem Ids.type {o : Nat} (ho : o ∈ st.added) {t : Option Off} (ht : ∀ l ∈ t, l ∈ links (w.obj o)) : Link ids (typeLink snake w st t) := by
  cases t with
  | none => exact .inr (.inl rfl)
  | some l => exact .inr (.inr (hI.link o ho l (ht l rfl)))

theorem Ids.head {o : Nat} (ho : o ∈ st.added) {h : GoDedup.Head} (hn : Named h.name) : HeadFits ids (Chain.head snake w st o h) :=
  ⟨hn, (hI.heads o ho).1, (hI.heads o ho).2⟩

theorem Ids.params (hW : Writable units snake) {q : List Off} {d : Tree} (hp : Placed [] (units.map Prod.snd) q d) {o : Nat} (ho : o ∈ st.added) {ps : List GoDedup.Param}
    (h : GoDedup.Spec.Each GoBuild.Spec.ParamOf (d.kids.filter (isTag paramTags)) ps) (hl : ∀ l ∈ ps.filterMap GoDedup.Param.type, l ∈ links (w.obj o)) :
    ParamsFit ids (ps.map (param snake w st)) := by
  refine ⟨map_few (each_few h (filter_few (kids_few hW hp) _)) _, ?_⟩
  intro p hpm
  obtain ⟨p', hp', rfl⟩ := List.mem_map.mp hpm
  obtain ⟨k, hk, hk2⟩ := each_mem h p' hp'
  refine ⟨?_, hI.type ho ?_⟩
  · intro s hs
    refine hW.names q d hp k (List.mem_cons_of_mem _ (List.mem_filter.mp hk).1) s ?_
    rw [← hk2.name]
    exact hs
  · intro l hl'
    exact hl l (List.mem_filterMap.mpr ⟨p', hp', hl'⟩)

theorem Ids.fields (hW : Writable units snake) {q : List Off} {d : Tree} (hp : Placed [] (units.map Prod.snd) q d) {o : Nat} (ho : o ∈ st.added) {fs : List GoDedup.Field}
    (h : GoDedup.Spec.Each GoBuild.Spec.FieldOf (d.kids.filter (isTag [go! "Member"])) fs) (hl : ∀ l ∈ fs.filterMap GoDedup.Field.type, l ∈ links (w.obj o)) :
    Few (fs.map (field snake w st)) ∧ ∀ f ∈ fs.map (field snake w st), FieldFits ids f := by
  refine ⟨map_few (each_few h (filter_few (kids_few hW hp) _)) _, ?_⟩
  intro p hpm
  obtain ⟨p', hp', rfl⟩ := List.mem_map.mp hpm
  obtain ⟨k, hk, hk2⟩ := each_mem h p' hp'
  have hkm : k ∈ d :: d.kids := List.mem_cons_of_mem _ (List.mem_filter.mp hk).1
  have hs := hW.sizes q d hp k hkm
  refine ⟨?_, hI.type ho ?_, ?_, ?_, ?_, ?_, ?_, ?_⟩
  · intro s hs
    refine hW.names q d hp k hkm s ?_
    rw [← hk2.name]
    exact hs
  · intro l hl'
    exact hl l (List.mem_filterMap.mpr ⟨p', hp', hl'⟩)
  · show Size p'.byteSize; rw [hk2.size]; exact hs _ (by decide)
  · show Size p'.alignment; rw [hk2.alignment]; exact hs _ (by decide)
  · show Size (some p'.byteOffset); rw [hk2.offset]
    have := hs (go! "DataMemberLoc") (by decide)
    intro v hv
    cases hv
    cases hn : num k (go! "DataMemberLoc") with
    | none => exact ⟨Int.le_refl _, by decide⟩
    | some v => exact this v hn
  · show Size p'.dataBitOffset; rw [hk2.dataBitOffset]; exact hs _ (by decide)
  · show Size p'.bitOffset; rw [hk2.bitOffset]; exact hs _ (by decide)
  · show Size p'.bitSize; rw [hk2.bitSize]; exact hs _ (by decide)

theorem Ids.hier (hW : Writable units snake) (hx : WritableExtra x) {q : List Off} {d : Tree} (hp : Placed [] (units.map Prod.snd) q d) :
    HierFits ids (((parts d).map Die.off).map (item snake w st x)) := by
  refine ⟨map_few (map_few (parts_few (kids_few hW hp)) _) _, ?_⟩
  intro i hi
  obtain ⟨l, hl, rfl⟩ := List.mem_map.mp hi
  obtain ⟨k, hk, rfl⟩ := List.mem_map.mp hl
  exact ⟨hI.entry _ ⟨_, k, placed_part hp hk, rfl⟩, hx.places k.off⟩
end

theorem encoding_mem {v : Int} (h1 : 0 ≤ v) (h2 : v ≤ 18) : ((some v).bind fun v => GoBuild.Spec.encodings.lookup v).getD [] ∈ Emit.Spec.encodings.map (·.1) := by
  have : ∀ c ∈ List.range 19, ((some (c : Int)).bind fun v => GoBuild.Spec.encodings.lookup v).getD [] ∈ Emit.Spec.encodings.map (·.1) := by decide +kernel
  have := this v.toNat (List.mem_range.mpr (by omega))
  rwa [Int.toNat_of_nonneg h1] at this

theorem Core.fits (hi : Input units) (hC : CTypes units) (hW : Writable units snake) (hx : WritableExtra x) (hc : Core units w st st0 order) {o : Nat} (ho : o ∈ st.added) :
    Fits (GoDedup.idsOf snake w st.added) (view snake w st x o) := by
  have hI := hc.ids hi hW
  generalize GoDedup.idsOf snake w st.added = ids at hI
  obtain ⟨i, h1, -⟩ := hc.home ho
  have hname : Named (GoDedup.Spec.name (w.obj o)) := by
    intro n hn
    obtain ⟨q, d, hp, hd⟩ := hc.toBase.name h1 hn
    exact name_plain hW hp hd n rfl
  by_cases ha : cat (w.obj o) = .array
  · have elem : ∀ {d : Tree} {q : List Off}, Placed [] (units.map Prod.snd) q d → d.tag = go! "ArrayType" → ∀ l, ref d (go! "Type") = some l → Chain.link snake w st l ∈ ids := by
      intro d q hp hd l hl
      exact hI.entry l (at_link (complete_link (complete hi hp (by rw [hd]; decide)) (by rw [hd]; decide)) hl).at
    have count : ∀ {d : Tree} {q : List Off}, Placed [] (units.map Prod.snd) q d → d.tag = go! "ArrayType" → ∀ k ∈ d.kids, ∀ c, GoBuild.Spec.Dim k c → Emit.Spec.Int64 c := by
      intro d q hp hd k hk c hdim
      have hcomp := complete hi hp (by rw [hd]; decide)
      have hr : GoBuild.Spec.InRange k := by
        cases hcomp with
        | array _ _ h => exact (h k hk).2
        | base h1 | enumeration h1 | unspecified h1 | block h1 | scope h1 | typedef h1 => rw [h1] at hd; exact absurd hd (by decide)
        | struct h1 h2 | func h1 h2 | link h1 h2 => rw [h2] at hd; rw [hd] at h1; exact absurd h1 (by decide)
      cases hdim with
      | count h => exact ((hW.arrays q d hp hd).2 k hk).2 _ h
      | bounds h h' => exact hr _ h h'
      | unknown => unfold Emit.Spec.Int64; decide
    obtain ⟨q, d, hp, hd⟩ := hc.entry i o h1
    obtain ⟨m, n1, n2, n3, n4⟩ := hc.obj q d hp
    have hda : d.tag = go! "ArrayType" := by
      rcases hd with rfl | ⟨hd, -⟩
      · rw [h1] at n1; cases n1
        have := GoBuild.describes_tag n2
        rw [ha] at this
        exact this
      · exact hd
    obtain ⟨hh, p, hh1, rfl, hdims⟩ := n4 hda
    have hlen := hi.dims _ d hp hda
    have elemT := hC.elements _ d hp hda
    obtain ⟨l, hl⟩ := Option.ne_none_iff_exists'.mp elemT
    have hel := elem hp hda l hl
    have hcount := count hp hda
    obtain ⟨hstride, hbounds⟩ := hW.arrays _ d hp hda
    rw [hl, hstride] at hdims
    generalize hks : d.kids = ks at hdims hlen hd hcount hbounds
    have fits : ∀ {h : GoDedup.Head} {lo : Option Int} {c v : Int} {l : Off}, w.obj o = .array h none lo c v (some l) → Emit.Spec.Int64 c → 0 ≤ v → v < 2 ^ 31 →
        (∀ v, lo = some v → Emit.Spec.Int64 v) → Chain.link snake w st l ∈ ids → Fits ids (view snake w st x o) := by
      intro h lo c v l he g1 g2 g3 g4 g5
      unfold view
      rw [he] at hname ⊢
      exact ⟨hI.head ho hname, g1, g2, g3, g4, rfl, .inr (.inr g5), hI.void _ g5⟩
    cases hdims with
    | none m1 m2 m3 =>
      rcases hd with rfl | ⟨-, hd⟩
      · rw [m1] at h1; cases h1
        exact fits m2 (by unfold Emit.Spec.Int64; decide) (by decide) (by decide) (by simp) hel
      · cases hd
    | last m1 m2 m3 m4 =>
      rcases hd with rfl | ⟨-, hd⟩
      · rw [m1] at h1; cases h1
        exact fits m2 (hcount _ (by simp) _ m3) (by decide) (by decide) (hbounds _ (by simp)).1 hel
      · cases hd
    | @cons _ _ _ _ k k' ks' n' c m1 m2 m3 m4 m5 =>
      have : ks' = [] := by
        cases ks' with
        | nil => rfl
        | cons => simp at hlen
      subst this
      rcases hd with rfl | ⟨-, hd⟩
      · rw [m1] at h1; cases h1
        exact fits m2 (hcount _ (by simp) _ m3) (by simp) (by simp) (hbounds _ (by simp)).1 (hI.link o ho _ (by rw [m2]; simp [links]))
      · have hik : i = k'.off := by simpa using hd
        subst hik
        cases m5 with
        | last x1 x2 x3 x4 =>
          rw [x1] at h1; cases h1
          exact fits x2 (hcount _ (by simp) _ x3) (by decide) (by decide) (hbounds _ (by simp)).1 hel
  · obtain ⟨q, d, hp, rfl, hd⟩ := hc.described h1 ha
    obtain ⟨m, n1, n2, n3, -⟩ := hc.obj q d hp
    rw [h1] at n1; cases n1
    have hs := hW.sizes q d hp d (by simp)
    have hpar : isTypeTag (w.tag d.off) = false → d.tag ≠ go! "CompileUnit" → parentOf snake w st o ∈ ids := by
      intro ht hu
      have e1 := (hc.parents hi).own d.off o h1 (.inr ht)
      rw [n3] at e1
      rcases GoBuild.placed_top hp with ⟨-, hm⟩ | ⟨u, hm, hp'⟩
      · exact absurd (hi.good d hm).1.tag hu
      · obtain ⟨q0, rfl, -⟩ := placed_one hp' _ _ rfl (fun x hx => hx)
        unfold parentOf
        rw [e1]
        exact (hI.heads o ho).1 _ (by rw [e1]; simp)
    have htag : isTypeTag (w.tag d.off) = (cat (w.obj o)).type := by rw [hc.start.tag _ _ h1, GoBuild.typeTag_cat]
    have hlinks : ∀ t, (∀ l ∈ t, l ∈ links (w.obj o)) → Link ids (typeLink snake w st t) := fun t ht => hI.type ho ht
    have hparams := fun ps => hI.params hW hp ho (ps := ps)
    have hfields := fun fs => hI.fields hW hp ho (fs := fs)
    have hheads := fun h => hI.head ho (h := h)
    have hhier := hI.hier hW hx hp
    unfold view
    generalize w.obj o = y at hd hname htag hlinks hparams hfields ha
    cases hd with
    | @base n n' h g1 g2 g3 g4 =>
      obtain ⟨v, v1, v2, v3⟩ := hW.encodings q d hp g1
      refine ⟨hheads _ hname, ?_, ?_⟩
      · show Size h.byteSize; rw [g4.size]; exact hs _ (by decide)
      · rw [v1]; exact encoding_mem v2 v3
    | @enumeration h es g1 g2 g3 =>
      refine ⟨hheads _ hname, by rw [g2.size]; exact hs _ (by decide), each_few g3 (kids_few hW hp), ?_⟩
      intro e he
      obtain ⟨k, hk, k1, k2⟩ := each_mem g3 e he
      have := hW.enumerators q d hp g1 k hk
      exact ⟨this.1 _ k1, this.2 _ k2⟩
    | @qual h q' g1 g2 => exact ⟨hheads _ hname, hlinks _ (by simp [links]), by cases q' <;> decide⟩
    | typedef g1 g2 => exact ⟨hheads _ hname, hlinks _ (by simp [links])⟩
    | pointer g1 g2 => exact ⟨hheads _ hname, hlinks _ (by simp [links])⟩
    | unspecified g1 g2 => exact hheads _ hname
    | @reference h r g1 g2 => exact ⟨hheads _ hname, by cases r <;> decide, by rw [g2.size]; exact hs _ (by decide), hlinks _ (by simp [links])⟩
    | @subroutine h ps g1 g2 g3 =>
      exact ⟨hheads _ hname, hlinks _ (fun l hl => List.mem_append_right _ (by simpa using hl)), hparams _ g3 (fun l hl => List.mem_append_left _ hl)⟩
    | array g1 => exact absurd rfl ha
    | @struct h a fs g1 g2 g3 =>
      refine ⟨hheads _ hname, by cases a <;> decide, by rw [g2.size]; exact hs _ (by decide), by rw [g2.alignment]; exact hs _ (by decide), ?_,
        (hfields _ g3 (fun l hl => List.mem_append_left _ hl)).1, (hfields _ g3 (fun l hl => List.mem_append_left _ hl)).2, hhier⟩
      intro hdecl
      rw [g2.size]
      refine hW.structures q d hp (by rw [g1]; cases a <;> decide) ?_
      rw [← g2.decl]
      cases hh : h.decl with
      | false => rfl
      | true => exact absurd (by show flagOf h.decl = some true; rw [hh]; rfl) hdecl
    | @«variable» h g1 g2 =>
      exact ⟨⟨hname, hpar htag (by rw [g1]; decide), hx.linkage o⟩, hlinks _ (by simp [links])⟩
    | @subprogram h ps g1 g2 g3 =>
      exact ⟨⟨hname, hpar htag (by rw [g1]; decide), hx.linkage o⟩, hlinks _ (fun l hl => List.mem_append_left _ (List.mem_append_right _ (by simpa using hl))),
        hparams _ g3 (fun l hl => List.mem_append_left _ (List.mem_append_left _ hl)), hhier⟩
    | namespace_ g1 g2 => exact ⟨hname, hpar htag (by rw [g1]; decide), rfl, rfl, hhier⟩
    | lexBlock g1 => exact ⟨hpar htag (by rw [g1]; decide), hhier⟩
    | compileUnit g1 g2 => exact ⟨hname _ rfl, hx.lang o, (hx.files o).1, (hx.files o).2, rfl, rfl, hhier⟩

theorem fits_perm {ids ids' : List Str} (h : ∀ a, a ∈ ids ↔ a ∈ ids') (y : Emit.Obj) (hf : Fits ids y) : Fits ids' y := by
  have : (fun a => a ∈ ids) = (fun a => a ∈ ids') := funext fun a => propext (h a)
  cases y <;> simp only [Fits, HeadFits, ObjFits, ParamsFit, FieldFits, HierFits, Link, h] at hf ⊢ <;> exact hf

/-- The database can be written. -/
theorem Core.good (hi : Input units) (hC : CTypes units) (hW : Writable units snake) (hx : WritableExtra x) (hc : Core units w st st0 order) (he : Emitted snake w st x db) :
    Emit.Spec.Good db := by
  have hp := Emitted.ids he hc
  obtain ⟨h1, h2, h3, -⟩ := Emit.C76_ids snake (st.added.map fun o => ⟨GoDedup.kindOf (w.obj o), GoDedup.nameOf (w.obj o)⟩)
  have mem : ∀ o ∈ db, o.id ∈ GoDedup.idsOf snake w st.added := fun o ho => hp.mem_iff.mp (List.mem_map_of_mem ho)
  refine ⟨hp.nodup_iff.mpr h1, fun o ho => hc.words hW _ (mem o ho), fun o ho => h2 _ (mem o ho), fun o ho p hp => h3 _ (mem o ho) _ (mem p hp), ?_⟩
  intro o ho
  obtain ⟨n, hn, rfl⟩ := List.mem_map.mp (he.mem_iff.mp ho)
  exact fits_perm (fun a => hp.mem_iff.symm) _ (hc.fits hi hC hW hx hn)

end Verif.Chain
