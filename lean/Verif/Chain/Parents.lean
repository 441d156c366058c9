import Verif.Chain.Compile
/-
Lemmas for C81: the parents of the objects after types were merged.
-/
namespace Verif.Chain
open Verif.GoMeta (Str)
open GoDwarf.Spec (Die)
open GoBuild.Spec (Tree Placed text num ref declared isTag parts paramTags Describes Dims)
open GoDedup (Off World St Go Desc isTypeTag isType sig idOf)
open GoDedup.Spec (Start Visits cat tagName links)
open Spec

variable {units : List (Nat × Tree)} {w : World} {st st0 : St} {order : List Off} {snake : Str → Str} {x : Extra} {db : List Emit.Obj}
  {defs : List (Str × Emit.CEntry)} {addr : Str → Entry.Ref} {rt : Entry.Db}

/-- The entry `j` was merged into the object `o`. -/
def into (st0 st : St) (o : Nat) (j : Off) : Bool := decide (st.ptr j = some o ∧ st0.ptr j ≠ some o)

/-- The parents of the object of the entry `j`, before types were merged. -/
def above (st0 : St) (j : Off) : List Off := (st0.ptr j).elim [] st0.parents

/-- The parents of an object: its own, then those of the entries that were merged into it. -/
def Gathered (st0 : St) (done : List Off) (st : St) : Prop :=
  ∀ i o, st0.ptr i = some o → st.parents o = st0.parents o ++ (done.reverse.filter (into st0 st o)).flatMap (above st0)

theorem filter_same {α : Type} {p q : α → Bool} {l : List α} (h : ∀ a ∈ l, p a = q a) : l.filter p = l.filter q := List.filter_congr h

theorem gathered_step {done : List Off} {i : Off} {st' : St} (hs : Start w st0) (inv : GoDedup.Inv w st0 done st) (hi : Parents w st0 done st) (hg : Gathered st0 done st)
    (hn : i ∉ done) (h : GoDedup.stepWith (sig w.obj) w i st = Go.ret st') : Gathered st0 (i :: done) st' := by
  have pend : st.ptr i = st0.ptr i := (inv.pending i (.inl hn)).1
  have same : st'.ptr = st.ptr → st'.parents = st.parents → Gathered st0 (i :: done) st' := by
    intro h1 h2 j o hj
    rw [h2, hg j o hj, List.reverse_cons, List.filter_append]
    have e1 : done.reverse.filter (into st0 st' o) = done.reverse.filter (into st0 st o) := filter_same fun a _ => by unfold into; rw [h1]
    have e2 : [i].filter (into st0 st' o) = [] := by
      have : into st0 st' o i = false := by
        unfold into
        rw [h1, pend]
        simp
      rw [List.filter_cons_of_neg (by simp [this])]
      rfl
    rw [e1, e2, List.append_nil]
  rcases step_parents h with ⟨h1, h2⟩ | ⟨o, k, f, fo, e1, -, e3, e4, m1, m2⟩
  · exact same h1 h2
  · rw [pend] at e1
    obtain ⟨f1, -, fo', f3, f4, -⟩ := inv.found k f e3
    rw [e4] at f4
    cases f4
    have ho : st.parents o = st0.parents o := hi.own i o e1 (.inl hn)
    have hne : o ≠ fo := by
      rintro rfl
      have := hs.own _ _ _ e1 f3
      subst this
      exact hn f1
    intro j n hj
    have old : done.reverse.filter (into st0 st' n) = done.reverse.filter (into st0 st n) := by
      refine filter_same fun a ha => ?_
      have hai : a ≠ i := by
        rintro rfl
        exact hn (List.mem_reverse.mp ha)
      unfold into
      rw [m1, GoDedup.set_other _ _ hai]
    rw [m2, List.reverse_cons, List.filter_append, old, List.flatMap_append]
    by_cases hx : n = fo
    · subst hx
      rw [GoDedup.set_same, hg j n hj, ho, List.append_assoc]
      congr 2
      have : into st0 st' n i = true := by
        unfold into
        rw [m1, GoDedup.set_same, e1]
        simpa using hne
      rw [List.filter_cons_of_pos this]
      simp [above, e1]
    · rw [GoDedup.set_other _ _ hx, hg j n hj]
      have : into st0 st' n i = false := by
        unfold into
        rw [m1, GoDedup.set_same]
        simp [Ne.symm hx]
      rw [List.filter_cons_of_neg (by simp [this])]
      simp

theorem gathered_dedup (hs : Start w st0) (h1 : ∀ j n, st0.ptr j = some n → (st0.parents n).length ≤ 1) : ∀ (order done : List Off) (st st' : St), GoDedup.Inv w st0 done st →
    Parents w st0 done st → Gathered st0 done st → order.Nodup → (∀ i ∈ order, i ∉ done) → GoDedup.dedup w order st = Go.ret st' → Gathered st0 (order.reverse ++ done) st'
  | [], _, _, _, _, _, hg, _, _, h => by cases GoDedup.Go.ret_inj.mp h; exact hg
  | i :: is, done, st, st', hi, hp, hg, hnd, hdis, h => by
    obtain ⟨st1, g1, g2⟩ := GoDedup.Go.bind_ret.mp h
    have hid := hdis i (List.mem_cons_self ..)
    have := gathered_dedup hs h1 is (i :: done) st1 st' (GoDedup.inv_step hs hi hid g1) (parents_step hs hi hp hid h1 g1) (gathered_step hs hi hp hg hid g1) (List.nodup_cons.mp hnd).2 (by
      intro j hj hm
      rcases List.mem_cons.mp hm with rfl | hm
      · exact (List.nodup_cons.mp hnd).1 hj
      · exact hdis j (List.mem_cons_of_mem _ hj) hm) g2
    rw [List.reverse_cons, List.append_assoc]
    exact this

theorem Core.gathered (hi : Input units) (hc : Core units w st st0 order) {i : Off} {o : Nat} (h : st0.ptr i = some o) :
    st.parents o = st0.parents o ++ (order.filter (into st0 st o)).flatMap (above st0) := by
  have := gathered_dedup hc.start (fun j n h => (hc.toBase.above hi h).1) order [] st0 st (GoDedup.inv_start hc.start)
    ⟨fun _ _ _ _ => rfl, fun i o h p hp => ⟨i, o, h, hp⟩, fun i o h => by simpa using (hc.toBase.above hi h).1⟩ (fun i o h => by simp) hc.visits.once (by simp) hc.run i o h
  simpa using this

theorem Core.kept (hc : Core units w st st0 order) {o : Nat} (ho : o ∈ st.added) : ∃ i, st0.ptr i = some o ∧ st.ptr i = some o := by
  obtain ⟨i, h1, h2⟩ := hc.home ho
  refine ⟨i, h1, ?_⟩
  cases ht : isTypeTag (w.tag i) with
  | false => rw [(hc.inv.pending i (.inr (.inl ht))).1, h1]
  | true =>
    cases hc.inv.fate i (by rw [List.mem_reverse]; exact hc.visits.all _ (by rw [h1]; simp)) o ht h1 with
    | rep g1 => exact g1
    | merged g1 => rw [h2] at g1; cases g1
    | dropped g1 => exact g1

theorem Core.into_type (hc : Core units w st st0 order) {o : Nat} {j : Off} (h : into st0 st o j = true) :
    st.ptr j = some o ∧ ∃ n, st0.ptr j = some n ∧ (cat (w.obj n)).type = true := by
  simp only [into, decide_eq_true_eq] at h
  obtain ⟨h1, h2⟩ := h
  refine ⟨h1, ?_⟩
  cases ht : isTypeTag (w.tag j) with
  | false => rw [(hc.inv.pending j (.inr (.inl ht))).1] at h1; exact absurd h1 h2
  | true =>
    cases hn : st0.ptr j with
    | none => rw [(hc.inv.pending j (.inr (.inr hn))).1, hn] at h1; cases h1
    | some n =>
      refine ⟨n, rfl, ?_⟩
      rw [← GoBuild.typeTag_cat, ← hc.start.tag j n hn, ht]

theorem dims_two {ptr : Off → Option Nat} {obj : Nat → Desc} {parents : Nat → List Off} {elem : Option Off} {h : GoDedup.Head} {s : Option Int} {o par : Off} {ks : List Tree}
    (hd : Dims ptr obj parents elem h s o par ks) (hl : ks.length ≤ 2) {c : Off} (hc : c ∈ (ks.map Die.off).tail) : ∃ n, ptr c = some n ∧ parents n = [o] := by
  cases hd with
  | none => cases hc
  | last => cases hc
  | @cons _ _ _ _ k k' ks' n' c' m1 m2 m3 m4 m5 =>
    have : ks' = [] := by
      cases ks' with
      | nil => rfl
      | cons => simp at hl
    subst this
    have hik : c = k'.off := by simpa using hc
    subst hik
    cases m5 with
    | last x1 x2 x3 x4 => exact ⟨_, x1, x4⟩

theorem Base.under (hi : Input units) (hB : Base units w st0) {p c : Off} (h : Under units p c) : ∃ n, st0.ptr c = some n ∧ st0.parents n = [p] := by
  cases h with
  | entry hp =>
    obtain ⟨n, n1, -, n3, -⟩ := hB.obj _ _ hp
    exact ⟨n, n1, n3⟩
  | @dim q d c hp ha hm =>
    obtain ⟨n, -, -, -, n4⟩ := hB.obj _ _ hp
    obtain ⟨_, _, -, -, hd⟩ := n4 ha
    exact dims_two hd (hi.dims q d hp ha) hm

theorem Base.over (hi : Input units) (hB : Base units w st0) {c : Off} {n : Nat} (h : st0.ptr c = some n) (hu : cat (w.obj n) ≠ .compileUnit) :
    ∃ p, Under units p c ∧ st0.parents n = [p] := by
  obtain ⟨q, d, hp, hd⟩ := hB.entry c n h
  obtain ⟨m, n1, n2, n3, n4⟩ := hB.obj q d hp
  rcases hd with rfl | ⟨ha, hd⟩
  · rw [h] at n1; cases n1
    rcases GoBuild.placed_top hp with ⟨-, htop⟩ | ⟨u, hu', hp'⟩
    · have h1 := (hi.good d htop).1.tag
      rw [GoBuild.describes_tag n2] at h1
      refine absurd ?_ hu
      revert h1
      cases cat (w.obj n) with
      | qual q => cases q <;> decide
      | reference r => cases r <;> decide
      | aggregate a => cases a <;> decide
      | _ => decide
    · obtain ⟨q0, h0, h1⟩ := placed_one hp' _ _ rfl (fun x hx => GoBuild.parts_sub hx)
      subst h0
      exact ⟨q0, .entry hp, n3⟩
  · obtain ⟨_, _, -, -, hdims⟩ := n4 ha
    obtain ⟨n', g1, g2⟩ := dims_two hdims (hi.dims q d hp ha) hd
    rw [h] at g1; cases g1
    exact ⟨_, .dim hp ha hd, g2⟩

theorem idOf_other {o : Nat} (h : o ∉ st.added) : idOf snake w st.added o = [] := by
  unfold idOf
  rw [List.lookup_eq_none_iff.mpr]
  · rfl
  · rintro ⟨a, b⟩ hm
    have := (List.of_mem_zip (List.mem_reverse.mp hm)).1
    simp only [bne_iff_ne, ne_eq]
    rintro rfl
    exact h this

/-- The ids of objects of the database are different, and no others. -/
theorem Run.id_inj (h : Run units snake w st st0 order x db defs addr rt) {c : Off} {o : Nat} (ho : o ∈ st.added)
    (he : link snake w st c = idOf snake w st.added o) : st.ptr c = some o := by
  have hm := h.mem ho
  have h1 := h.p.good.reserved _ hm
  obtain ⟨-, a, s, h2⟩ := h.p.good.names _ hm
  rw [view_id] at h1 h2
  cases hc : st.ptr c with
  | none =>
    simp only [link, GoDedup.streamline, hc] at he
    exact absurd he.symm h1
  | some n =>
    rw [link_ptr hc] at he
    by_cases hn : n ∈ st.added
    · have hnd : (st.added.map (idOf snake w st.added)).Nodup := by
        have := (h.p.emitted.map Emit.Obj.id).nodup_iff.mp h.p.good.ids
        rw [List.map_map] at this
        have e : (Emit.Obj.id ∘ view snake w st x) = idOf snake w st.added := funext fun n => view_id n
        rwa [e] at this
      obtain ⟨i, hi, rfl⟩ := List.mem_iff_getElem.mp hn
      obtain ⟨j, hj, rfl⟩ := List.mem_iff_getElem.mp ho
      congr 1
      by_cases hij : i = j
      · subst hij; rfl
      · exfalso
        rw [List.nodup_iff_pairwise_ne, List.pairwise_iff_getElem] at hnd
        rcases Nat.lt_or_gt_of_ne hij with hlt | hlt
        · exact hnd i j (by simpa) (by simpa) hlt (by simpa using he)
        · exact hnd j i (by simpa) (by simpa) hlt (by simpa using he.symm)
    · rw [idOf_other hn] at he
      rw [← he] at h2
      exact absurd h2.1 (by simp)

theorem flatMap_one {f : Off → List Off} {g : Off → Off} : ∀ {l : List Off}, (∀ c ∈ l, f c = [g c]) → l.flatMap f = l.map g
  | [], _ => rfl
  | a :: l, h => by
    rw [List.flatMap_cons, h a (by simp), flatMap_one fun c hc => h c (by simp [hc])]
    rfl

/-- The entries an object stands for, each with its parent. -/
theorem Run.parents (h : Run units snake w st st0 order x db defs addr rt) {o : Nat} (ho : o ∈ st.added) (hu : cat (w.obj o) ≠ .compileUnit) :
    ∃ l : List (Off × Off), l.Nodup ∧ (∀ p c, (p, c) ∈ l ↔ Under units p c ∧ link snake w st c = idOf snake w st.added o) ∧ st.parents o = l.map Prod.fst := by
  obtain ⟨i, h1, h2⟩ := h.core.kept ho
  have hB := h.core.toBase
  have hi := h.p.input
  have one : ∀ c ∈ i :: order.filter (into st0 st o), st.ptr c = some o ∧ ∃ p, Under units p c ∧ above st0 c = [p] := by
    intro c hc
    rcases List.mem_cons.mp hc with rfl | hc
    · obtain ⟨p, p1, p2⟩ := hB.over hi h1 hu
      exact ⟨h2, p, p1, by simp [above, h1, p2]⟩
    · obtain ⟨g1, n, g2, g3⟩ := h.core.into_type (List.mem_filter.mp hc).2
      obtain ⟨p, p1, p2⟩ := hB.over hi g2 (by intro e; rw [e] at g3; cases g3)
      exact ⟨g1, p, p1, by simp [above, g2, p2]⟩
  have head : ∀ {c p : Off}, Under units p c → above st0 c = [p] := by
    intro c p hp
    obtain ⟨n, n1, n2⟩ := hB.under hi hp
    simp [above, n1, n2]
  refine ⟨(i :: order.filter (into st0 st o)).map fun c => ((above st0 c).headD 0, c), ?_, ?_, ?_⟩
  · refine List.Pairwise.map _ (R := fun a b => a ≠ b) (fun a b hab e => hab (Prod.mk.inj e).2) ?_
    refine List.nodup_cons.mpr ⟨?_, h.core.visits.once.filter _⟩
    intro hm
    have := (List.mem_filter.mp hm).2
    simp only [into, decide_eq_true_eq] at this
    exact this.2 h1
  · intro p c
    rw [List.mem_map]
    constructor
    · rintro ⟨c', hc', e⟩
      obtain ⟨rfl, rfl⟩ := Prod.mk.inj e
      obtain ⟨g1, p, p1, p2⟩ := one _ hc'
      rw [p2]
      exact ⟨p1, link_ptr g1⟩
    · rintro ⟨g1, g2⟩
      refine ⟨c, ?_, by rw [head g1]; rfl⟩
      have hp := h.id_inj ho g2
      obtain ⟨n, n1, -⟩ := hB.under hi g1
      by_cases hn : n = o
      · subst hn
        rw [h.core.start.own _ _ _ n1 h1]
        exact List.mem_cons_self ..
      · refine List.mem_cons_of_mem _ (List.mem_filter.mpr ⟨h.core.visits.all _ (by rw [n1]; simp), ?_⟩)
        simp only [into, decide_eq_true_eq, n1]
        exact ⟨hp, fun e => hn (Option.some.inj e)⟩
  · have e : st.parents o = (i :: order.filter (into st0 st o)).flatMap (above st0) := by
      rw [h.core.gathered hi h1, List.flatMap_cons]
      simp [above, h1]
    rw [e, List.map_map]
    refine flatMap_one fun c hc => ?_
    obtain ⟨-, p, -, p2⟩ := one c hc
    simp [p2]

/-- The parents in the generated file. -/
theorem Run.parents_view (h : Run units snake w st st0 order x db defs addr rt) {o : Nat} (ho : o ∈ st.added) (hu : cat (w.obj o) ≠ .compileUnit) :
    Emit.Spec.parentsOf (view snake w st x o) = (st.parents o).map (link snake w st) := by
  obtain ⟨i, h1, -⟩ := h.core.kept ho
  have one : (cat (w.obj o)).type = false → [parentOf snake w st o] = (st.parents o).map (link snake w st) := by
    intro ht
    obtain ⟨p, -, p2⟩ := h.core.toBase.over h.p.input h1 hu
    have : st.parents o = [p] := by
      rw [(h.core.parents h.p.input).own i o h1 (.inr (by rw [h.core.start.tag i o h1, GoBuild.typeTag_cat, ht])), p2]
    simp [parentOf, this]
  unfold view
  cases hobj : w.obj o with
  | compileUnit => rw [hobj] at hu; exact absurd rfl hu
  | subprogram | «variable» | lexBlock | namespace_ => rw [hobj] at one; exact one rfl
  | _ => rfl

end Verif.Chain
