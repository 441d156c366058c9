import Verif.GoDedup.SigMain
/-
What a run of the merging does to each index entry.
-/
namespace Verif.GoDedup
open Spec
open GoMeta (Str)

theorem tag_type (d : Desc) : isType d = (cat d).type ∧ isTypeTag (tagName (cat d)) = (cat d).type := by
  have : ∀ c : Cat, isTypeTag (tagName c) = c.type := by
    intro c
    cases c <;> first | decide +kernel | (rename_i q; cases q <;> decide +kernel)
  exact ⟨by cases d <;> rfl, this _⟩

theorem Spec.Start.type {w : World} {st : St} (h : Start w st) (i : Off) (o : Nat) (ho : st.ptr i = some o) : isType (w.obj o) = isTypeTag (w.tag i) := by
  rw [h.tag i o ho, (tag_type _).1, (tag_type _).2]

theorem Spec.Start.others {w : World} {st : St} (h : Start w st) (i : Off) (o : Nat) (ho : st.ptr i = some o) : o ∈ st.added ↔ isTypeTag (w.tag i) = false := by
  rw [h.nontypes i o ho, h.tag i o ho, (tag_type _).2]

abbrev Key' := Str ⊕ (Str × Str)

def lookupKey (st : St) : Key' → Option Off
  | .inl hs => List.lookup hs st.heads
  | .inr k => List.lookup k st.sigs

/-- The key the object has in the two maps. -/
inductive Sigs (w : World) (st0 : St) (o : Nat) : Bool → Key' → Prop where
  | decl {hs} : sig w.obj st0.ptr o false = Go.ret hs → Sigs w st0 o true (.inl hs)
  | defn {hs cs} : sig w.obj st0.ptr o false = Go.ret hs → sig w.obj st0.ptr o true = Go.ret cs → Sigs w st0 o false (.inr (hs, cs))

theorem Sigs.unique {w : World} {st0 : St} {o : Nat} {d d' : Bool} {k k' : Key'} (h : Sigs w st0 o d k) (h' : Sigs w st0 o d' k') (hd : d = d') : k = k' := by
  cases h <;> cases h'
  · rename_i h1 _ h2; rw [h1] at h2; rw [Go.ret_inj.mp h2]
  · cases hd
  · cases hd
  · rename_i h1 h2 _ _ h3 h4
    rw [h1] at h3; rw [h2] at h4
    rw [Go.ret_inj.mp h3, Go.ret_inj.mp h4]

/-- What happened to the type entry `i` with the object `o`. -/
inductive Fate (w : World) (st0 st : St) (i : Off) (o : Nat) : Prop where
  | rep {k} : st.ptr i = some o → st.dup i = false → o ∈ st.added → Sigs w st0 o (w.decl i) k → lookupKey st k = some i → Fate w st0 st i o
  | merged {k f fo} : st.dup i = true → o ∉ st.added → Sigs w st0 o (w.decl i) k → lookupKey st k = some f → f ≠ i → st0.ptr f = some fo → st.ptr i = some fo → Fate w st0 st i o
  | dropped {p} : st.ptr i = some o → st.dup i = true → o ∉ st.added → Spec.parent w i = some p → st.dup p = true → Fate w st0 st i o

structure Inv (w : World) (st0 : St) (done : List Off) (st : St) : Prop where
  pending : ∀ i, i ∉ done ∨ isTypeTag (w.tag i) = false ∨ st0.ptr i = none → st.ptr i = st0.ptr i ∧ st.dup i = false
  fate : ∀ i ∈ done, ∀ o, isTypeTag (w.tag i) = true → st0.ptr i = some o → Fate w st0 st i o
  found : ∀ k f, lookupKey st k = some f → f ∈ done ∧ isTypeTag (w.tag f) = true ∧ ∃ o, st0.ptr f = some o ∧ st.ptr f = some o ∧ st.dup f = false ∧ o ∈ st.added ∧ Sigs w st0 o (w.decl f) k
  added : ∀ o ∈ st.added, o ∈ st0.added ∨ ∃ i ∈ done, isTypeTag (w.tag i) = true ∧ st0.ptr i = some o ∧ st.dup i = false
  base : ∀ o ∈ st0.added, o ∈ st.added
  once : st.added.Nodup
  kept : Kept w.obj st0.ptr st.ptr

theorem inv_start {w : World} {st0 : St} (h : Start w st0) : Inv w st0 [] st0 where
  pending i _ := ⟨rfl, h.fresh.1 i⟩
  fate i hi := absurd hi (by simp)
  found k f hk := by
    cases k with
    | inl hs => simp [lookupKey, h.fresh.2.1] at hk
    | inr k => simp [lookupKey, h.fresh.2.2] at hk
  added o ho := .inl ho
  base o ho := ho
  once := h.once
  kept l := .inl rfl

theorem merge_ret {w : World} {i o f : Nat} {st st' : St} (h : merge w i o f st = Go.ret st') : ∃ fo, st.ptr f = some fo ∧
    st' = { st with parents := set st.parents fo (st.parents fo ++ st.parents o), dup := set st.dup i true, ptr := set st.ptr i (some fo) } := by
  unfold merge at h
  split at h
  · exact absurd h Go.fail_ne
  · rename_i fo hf
    split at h
    · exact ⟨fo, hf, (Go.ret_inj.mp h).symm⟩
    · exact absurd h Go.fail_ne

theorem set_same {β : Type} (f : Nat → β) (a : Nat) (b : β) : set f a b a = b := by simp [set]
theorem set_other {β : Type} (f : Nat → β) {a x : Nat} (b : β) (h : x ≠ a) : set f a b x = f x := by simp [set, h]

/-- The ways a step can end. -/
theorem step_ret {w : World} {i : Off} {st st' : St} (h : stepWith (sig w.obj) w i st = Go.ret st') :
    (st' = st ∧ (st.ptr i = none ∨ isTypeTag (w.tag i) = false)) ∨
    ∃ o p, st.ptr i = some o ∧ isTypeTag (w.tag i) = true ∧ Spec.parent w i = some p ∧
      ((st.dup p = true ∧ st' = { st with dup := set st.dup i true }) ∨
       (st.dup p = false ∧ ∃ k, Sigs w st o (w.decl i) k ∧
        ((∃ f fo, lookupKey st k = some f ∧ st.ptr f = some fo ∧
            st' = { st with parents := set st.parents fo (st.parents fo ++ st.parents o), dup := set st.dup i true, ptr := set st.ptr i (some fo) }) ∨
         (lookupKey st k = none ∧ st'.ptr = st.ptr ∧ st'.dup = st.dup ∧ st'.added = st.added ++ [o] ∧
            ∀ k', lookupKey st' k' = if k' = k then some i else lookupKey st k')))) := by
  unfold stepWith at h
  split at h
  · rename_i hp; exact .inl ⟨(Go.ret_inj.mp h).symm, .inl hp⟩
  · rename_i o hp
    split at h
    · rename_i ht; exact .inl ⟨(Go.ret_inj.mp h).symm, .inr ht⟩
    · rename_i ht
      have ht : isTypeTag (w.tag i) = true := by simpa using ht
      split at h
      · rename_i p he
        have hpar : Spec.parent w i = some p := by simp [Spec.parent, he]
        refine .inr ⟨o, p, hp, ht, hpar, ?_⟩
        split at h
        · exact absurd h Go.fail_ne
        · split at h
          · rename_i hd; exact .inl ⟨hd, (Go.ret_inj.mp h).symm⟩
          · rename_i hd
            refine .inr ⟨by simpa using hd, ?_⟩
            obtain ⟨hs, h1, h⟩ := Go.bind_ret.mp h
            split at h
            · rename_i hdc
              refine ⟨.inl hs, by rw [hdc]; exact .decl h1, ?_⟩
              split at h
              · rename_i f hf
                obtain ⟨fo, h2, h3⟩ := merge_ret h
                exact .inl ⟨f, fo, hf, h2, h3⟩
              · rename_i hf
                cases Go.ret_inj.mp h
                refine .inr ⟨hf, rfl, rfl, rfl, ?_⟩
                intro k'
                cases k' with
                | inl x =>
                  simp only [lookupKey, List.lookup_cons, Sum.inl.injEq, beq_iff_eq]
                  by_cases hx : x = hs
                  · simp [hx]
                  · have : (x == hs) = false := by simpa using hx
                    simp [this, hx]
                | inr x => simp [lookupKey]
            · rename_i hdc
              have hdc : w.decl i = false := by simpa using hdc
              obtain ⟨cs, h2, h⟩ := Go.bind_ret.mp h
              refine ⟨.inr (hs, cs), by rw [hdc]; exact .defn h1 h2, ?_⟩
              split at h
              · rename_i f hf
                obtain ⟨fo, h2, h3⟩ := merge_ret h
                exact .inl ⟨f, fo, hf, h2, h3⟩
              · rename_i hf
                cases Go.ret_inj.mp h
                refine .inr ⟨hf, rfl, rfl, rfl, ?_⟩
                intro k'
                cases k' with
                | inl x => simp [lookupKey]
                | inr x =>
                  simp only [lookupKey, List.lookup_cons, Sum.inr.injEq, beq_iff_eq]
                  by_cases hx : x = (hs, cs)
                  · simp [hx]
                  · have : (x == (hs, cs)) = false := by simpa using hx
                    simp [this, hx]
      · exact absurd h Go.panic_ne

theorem Sigs.start {w : World} {st0 st : St} (hk : Kept w.obj st0.ptr st.ptr) {o : Nat} (ho : isType (w.obj o) = true) {d : Bool} {k : Key'} (h : Sigs w st o d k) :
    Sigs w st0 o d k := by
  cases h with
  | decl h1 => exact .decl ((sig_kept hk _ _ _ _ rfl (.inr rfl)).mp h1)
  | defn h1 h2 => exact .defn ((sig_kept hk _ _ _ _ rfl (.inr rfl)).mp h1) ((sig_kept hk _ _ _ _ rfl (.inl ho)).mp h2)

theorem Sigs.head {w : World} {st0 : St} {a b : Nat} {d d' : Bool} {k : Key'} (h : Sigs w st0 a d k) (h' : Sigs w st0 b d' k) :
    d = d' ∧ sig w.obj st0.ptr a false = sig w.obj st0.ptr b false := by
  cases h <;> cases h'
  · rename_i h1 h2; exact ⟨rfl, h1.trans h2.symm⟩
  · rename_i h1 _ h2 _; exact ⟨rfl, h1.trans h2.symm⟩

/-- A step keeps the invariant. -/
theorem inv_step {w : World} {st0 st st' : St} {done : List Off} {i : Off} (hs : Start w st0) (hi : Inv w st0 done st) (hn : i ∉ done)
    (h : stepWith (sig w.obj) w i st = Go.ret st') : Inv w st0 (i :: done) st' := by
  obtain ⟨hpi, hdi⟩ := hi.pending i (.inl hn)
  have hfd : ∀ k f, lookupKey st k = some f → f ≠ i := fun k f hk e => hn (e ▸ (hi.found k f hk).1)
  rcases step_ret h with ⟨rfl, hc⟩ | ⟨o, p, ho, ht, hp, hcase⟩
  · refine ⟨fun j hj => hi.pending j ?_, ?_, ?_, ?_, hi.base, hi.once, hi.kept⟩
    · rcases hj with hj | hj
      · exact .inl fun hm => hj (List.mem_cons_of_mem _ hm)
      · exact .inr hj
    · intro j hj o ht ho
      rcases List.mem_cons.mp hj with rfl | hj
      · rcases hc with hc | hc
        · rw [hpi, ho] at hc; cases hc
        · rw [ht] at hc; cases hc
      · exact hi.fate j hj o ht ho
    · intro k f hk
      obtain ⟨h1, h2⟩ := hi.found k f hk
      exact ⟨List.mem_cons_of_mem _ h1, h2⟩
    · intro o ho
      rcases hi.added o ho with h1 | ⟨j, hj, h1⟩
      · exact .inl h1
      · exact .inr ⟨j, List.mem_cons_of_mem _ hj, h1⟩
  · have ho0 : st0.ptr i = some o := by rw [← hpi]; exact ho
    have hty : isType (w.obj o) = true := by rw [hs.type i o ho0]; exact ht
    have hna : o ∉ st.added := by
      intro hm
      rcases hi.added o hm with h1 | ⟨j, hj, -, h1, -⟩
      · have := (hs.others i o ho0).mp h1
        rw [ht] at this; cases this
      · exact hn (hs.own i j o ho0 h1 ▸ hj)
    have hpend : ∀ {st2 : St}, (∀ j, j ≠ i → st2.ptr j = st.ptr j ∧ st2.dup j = st.dup j) →
        ∀ j, j ∉ i :: done ∨ isTypeTag (w.tag j) = false ∨ st0.ptr j = none → st2.ptr j = st0.ptr j ∧ st2.dup j = false := by
      intro st2 hf j hj
      have hji : j ≠ i := by
        rintro rfl
        rcases hj with hj | hj | hj
        · exact hj (List.mem_cons_self ..)
        · rw [ht] at hj; cases hj
        · rw [ho0] at hj; cases hj
      rw [(hf j hji).1, (hf j hji).2]
      apply hi.pending
      rcases hj with hj | hj
      · exact .inl fun hm => hj (List.mem_cons_of_mem _ hm)
      · exact .inr hj
    rcases hcase with ⟨hdp, rfl⟩ | ⟨hdp, k, hk, ⟨f, fo, hf, hfo, rfl⟩ | ⟨hf, e1, e2, e3, hl⟩⟩
    · -- the parent is a duplicate
      have hfr : ∀ j, j ≠ i → ({ st with dup := set st.dup i true } : St).ptr j = st.ptr j ∧ ({ st with dup := set st.dup i true } : St).dup j = st.dup j :=
        fun j hj => ⟨rfl, set_other _ _ hj⟩
      refine ⟨hpend hfr, ?_, ?_, ?_, hi.base, hi.once, hi.kept⟩
      · intro j hj o' ht' ho'
        by_cases hji : j = i
        · subst hji
          rw [ho0] at ho'; cases ho'
          refine .dropped ho (set_same ..) hna hp ?_
          show set st.dup j true p = true
          by_cases hpj : p = j
          · rw [hpj]; exact set_same ..
          · rw [set_other _ _ hpj]; exact hdp
        · rcases List.mem_cons.mp hj with e | hj
          · exact absurd e hji
          cases hi.fate j hj o' ht' ho' with
          | rep h1 h2 h3 h4 h5 => exact .rep h1 (by rw [(hfr j hji).2]; exact h2) h3 h4 h5
          | merged h1 h2 h3 h4 h5 h6 h7 => exact .merged (by rw [(hfr j hji).2]; exact h1) h2 h3 h4 h5 h6 h7
          | @dropped q h1 h2 h3 h4 h5 =>
            refine .dropped h1 (by rw [(hfr j hji).2]; exact h2) h3 h4 ?_
            show set st.dup i true q = true
            by_cases hq : q = i
            · rw [hq]; exact set_same ..
            · rw [set_other _ _ hq]; exact h5
      · intro k f hk
        obtain ⟨h1, h2, o', h3, h4, h5, h6⟩ := hi.found k f hk
        exact ⟨List.mem_cons_of_mem _ h1, h2, o', h3, h4, by rw [(hfr f (hfd k f hk)).2]; exact h5, h6⟩
      · intro o' ho'
        rcases hi.added o' ho' with h1 | ⟨j, hj, h1, h2, h3⟩
        · exact .inl h1
        · refine .inr ⟨j, List.mem_cons_of_mem _ hj, h1, h2, ?_⟩
          rw [(hfr j (fun e => hn (e ▸ hj))).2]
          exact h3
    · -- merged with `f`
      have hk0 := hk.start hi.kept hty
      obtain ⟨hfm, hft, fo', hf0, hfp, hfdup, hfa, hfs⟩ := hi.found k f hf
      rw [hfo] at hfp; cases hfp
      have hfi := hfd k f hf
      let st2 : St := { st with parents := set st.parents fo (st.parents fo ++ st.parents o), dup := set st.dup i true, ptr := set st.ptr i (some fo) }
      have hfr : ∀ j, j ≠ i → st2.ptr j = st.ptr j ∧ st2.dup j = st.dup j := fun j hj => ⟨set_other _ _ hj, set_other _ _ hj⟩
      refine ⟨hpend hfr, ?_, ?_, ?_, hi.base, hi.once, ?_⟩
      · intro j hj o' ht' ho'
        by_cases hji : j = i
        · subst hji
          rw [ho0] at ho'; cases ho'
          exact .merged (set_same ..) hna hk0 hf hfi hf0 (set_same ..)
        · rcases List.mem_cons.mp hj with e | hj
          · exact absurd e hji
          cases hi.fate j hj o' ht' ho' with
          | rep h1 h2 h3 h4 h5 => exact .rep (by rw [(hfr j hji).1]; exact h1) (by rw [(hfr j hji).2]; exact h2) h3 h4 h5
          | merged h1 h2 h3 h4 h5 h6 h7 => exact .merged (by rw [(hfr j hji).2]; exact h1) h2 h3 h4 h5 h6 (by rw [(hfr j hji).1]; exact h7)
          | @dropped q h1 h2 h3 h4 h5 =>
            refine .dropped (by rw [(hfr j hji).1]; exact h1) (by rw [(hfr j hji).2]; exact h2) h3 h4 ?_
            show set st.dup i true q = true
            by_cases hq : q = i
            · rw [hq]; exact set_same ..
            · rw [set_other _ _ hq]; exact h5
      · intro k' f' hk'
        obtain ⟨h1, h2, o', h3, h4, h5, h6⟩ := hi.found k' f' hk'
        have hne := hfd k' f' hk'
        exact ⟨List.mem_cons_of_mem _ h1, h2, o', h3, by rw [(hfr f' hne).1]; exact h4, by rw [(hfr f' hne).2]; exact h5, h6⟩
      · intro o' ho'
        rcases hi.added o' ho' with h1 | ⟨j, hj, h1, h2, h3⟩
        · exact .inl h1
        · refine .inr ⟨j, List.mem_cons_of_mem _ hj, h1, h2, ?_⟩
          rw [(hfr j (fun e => hn (e ▸ hj))).2]
          exact h3
      · intro l
        by_cases hli : l = i
        · subst hli
          exact .inr ⟨fo, o, set_same .., ho0, (hk0.head hfs).2.symm⟩
        · show set st.ptr i (some fo) l = st0.ptr l ∨ ∃ o o0, set st.ptr i (some fo) l = some o ∧ _
          rw [set_other _ _ hli]
          exact hi.kept l
    · -- a new type
      have hk0 := hk.start hi.kept hty
      have hfr : ∀ j, j ≠ i → st'.ptr j = st.ptr j ∧ st'.dup j = st.dup j := fun j _ => ⟨by rw [e1], by rw [e2]⟩
      have hold : ∀ k' f', lookupKey st k' = some f' → lookupKey st' k' = some f' := by
        intro k' f' h'
        rw [hl]
        split
        · rename_i e; rw [e, hf] at h'; cases h'
        · exact h'
      refine ⟨hpend hfr, ?_, ?_, ?_, ?_, ?_, ?_⟩
      · intro j hj o' ht' ho'
        by_cases hji : j = i
        · subst hji
          rw [ho0] at ho'; cases ho'
          exact .rep (by rw [e1]; exact ho) (by rw [e2]; exact hdi) (by rw [e3]; simp) hk0 (by rw [hl, if_pos rfl])
        · rcases List.mem_cons.mp hj with e | hj
          · exact absurd e hji
          have hoo : o' ≠ o := by
            rintro rfl
            exact hji (hs.own j i o' ho' ho0)
          cases hi.fate j hj o' ht' ho' with
          | rep h1 h2 h3 h4 h5 => exact .rep (by rw [e1]; exact h1) (by rw [e2]; exact h2) (by rw [e3]; simp [h3]) h4 (hold _ _ h5)
          | merged h1 h2 h3 h4 h5 h6 h7 => exact .merged (by rw [e2]; exact h1) (by rw [e3]; simp [h2, hoo]) h3 (hold _ _ h4) h5 h6 (by rw [e1]; exact h7)
          | dropped h1 h2 h3 h4 h5 => exact .dropped (by rw [e1]; exact h1) (by rw [e2]; exact h2) (by rw [e3]; simp [h3, hoo]) h4 (by rw [e2]; exact h5)
      · intro k' f' hk'
        rw [hl] at hk'
        split at hk'
        · rename_i e
          cases hk'
          subst e
          exact ⟨List.mem_cons_self .., ht, o, ho0, by rw [e1]; exact ho, by rw [e2]; exact hdi, by rw [e3]; simp, hk0⟩
        · obtain ⟨h1, h2, o', h3, h4, h5, h6, h7⟩ := hi.found k' f' hk'
          exact ⟨List.mem_cons_of_mem _ h1, h2, o', h3, by rw [e1]; exact h4, by rw [e2]; exact h5, by rw [e3]; simp [h6], h7⟩
      · intro o' ho'
        rw [e3] at ho'
        rcases List.mem_append.mp ho' with ho' | ho'
        · rcases hi.added o' ho' with h1 | ⟨j, hj, h1, h2, h3⟩
          · exact .inl h1
          · exact .inr ⟨j, List.mem_cons_of_mem _ hj, h1, h2, by rw [e2]; exact h3⟩
        · rw [List.mem_singleton] at ho'
          subst ho'
          exact .inr ⟨i, List.mem_cons_self .., ht, ho0, by rw [e2]; exact hdi⟩
      · intro o' ho'
        rw [e3]
        exact List.mem_append_left _ (hi.base o' ho')
      · rw [e3]
        refine List.nodup_append.mpr ⟨hi.once, by simp, ?_⟩
        intro a ha b hb e
        rw [List.mem_singleton] at hb
        subst hb e
        exact hna ha
      · rw [e1]; exact hi.kept

theorem inv_dedup {w : World} {st0 : St} (hs : Start w st0) : ∀ (order done : List Off) (st st' : St), Inv w st0 done st → order.Nodup → (∀ i ∈ order, i ∉ done) →
    dedup w order st = Go.ret st' → Inv w st0 (order.reverse ++ done) st'
  | [], done, st, st', hi, _, _, h => by
    cases Go.ret_inj.mp h
    exact hi
  | i :: is, done, st, st', hi, hnd, hdis, h => by
    obtain ⟨st1, h1, h2⟩ := Go.bind_ret.mp h
    have := inv_dedup hs is (i :: done) st1 st' (inv_step hs hi (hdis i (List.mem_cons_self ..)) h1) (List.nodup_cons.mp hnd).2 (by
      intro j hj hm
      rcases List.mem_cons.mp hm with rfl | hm
      · exact (List.nodup_cons.mp hnd).1 hj
      · exact hdis j (List.mem_cons_of_mem _ hj) hm) h2
    simpa using this

/-- The state at the end. -/
theorem inv_final {w : World} {st0 st : St} {order : List Off} (hs : Start w st0) (hv : Visits st0 order) (h : dedup w order st0 = Go.ret st) :
    Inv w st0 order.reverse st := by
  have := inv_dedup hs order [] st0 st (inv_start hs) hv.once (by simp) h
  simpa using this

end Verif.GoDedup
