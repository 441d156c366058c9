import Verif.DeepEnds.Basic
import Verif.DeepEnds.Spec
/-
Walks over values end: a pointer is followed only if no pointer around it holds the same
address.
-/
namespace Verif.DeepEnds
open Verif Verif.Entry Verif.Entry.Spec Verif.Value Verif.Handlers Verif.ValueString Verif.ValueString.Spec Verif.DeepEnds.Spec

/-! ### The walk in general -/

/-- What is visited next, inside what. -/
inductive Goes (env : ValueString.Env) (db : Db) (m : Mem) : List Value × Value → List Value × Value → Prop where
  | inside {outer p w} : Inside env db p w → Goes env db m (p :: outer, w) (outer, p)
  | follow {outer p w a l} : pointer db m (some p) = .ok (.ok a) → introducedLoop db m ((p :: outer).map some) = .ok l → l ≤ 0 →
      Goes env db m (p :: outer, w) (outer, p)

theorem nodup_bound : ∀ (n : Nat) (l : List Nat), l.Nodup → (∀ a ∈ l, a < n) → l.length ≤ n
  | 0, l, _, h => by
    cases l with
    | nil => exact Nat.le_refl _
    | cons a l => exact absurd (h a (List.mem_cons_self ..)) (Nat.not_lt_zero _)
  | n + 1, l, hn, h => by
    have h1 := nodup_bound n (l.erase n) (hn.erase n) (by
      intro a ha
      have h2 := h a (List.mem_of_mem_erase ha)
      have h3 : a ≠ n := fun e => by
        subst e
        exact (List.Nodup.not_mem_erase hn) ha
      omega)
    have := List.length_erase (a := n) (l := l)
    split at this <;> omega

theorem load_length {m : Mem} : ∀ {n a : Nat} {bs}, m.load a n = .ok bs → bs.length = n
  | 0, _, _, h => by cases h; rfl
  | n + 1, a, bs, h => by
    rw [Mem.load] at h
    split at h
    · cases h
    · rw [bind_ok_iff] at h
      obtain ⟨r, h1, h2⟩ := h
      cases h2
      simp [load_length h1]

theorem pointer_inv {db : Db} {m : Mem} {p : Value} {a : Nat} (h : pointer db m (some p) = .ok (.ok a)) :
    a < 2 ^ 64 ∧ ∃ f, finalOf db (some p.entry) isPointer = some (some f) := by
  unfold pointer at h
  dsimp only at h
  rw [bind_ok_iff] at h
  obtain ⟨o, h1, h⟩ := h
  cases hf : finalOf db (some p.entry) isPointer with
  | none => rw [hf] at h1; cases h1
  | some f =>
    rw [hf] at h1
    cases h1
    cases o with
    | none => cases h
    | some f =>
      dsimp only at h
      split at h
      · cases h
      · rw [bind_ok_iff] at h
        obtain ⟨n, h2, h3⟩ := h
        cases h3
        unfold Mem.loadN at h2
        rw [bind_ok_iff] at h2
        obtain ⟨bs, h4, h5⟩ := h2
        cases h5
        have := Mem.le_lt bs
        rw [load_length h4] at this
        exact ⟨this, f, rfl⟩

theorem loopLevels_none {db : Db} {m : Mem} {a : Nat} : ∀ {vs : List (Option Value)} {l r : Int}, loopLevels db m a vs l = .ok r → 0 < l → r ≤ 0 →
    ∀ w b, some w ∈ vs → pointer db m (some w) = .ok (.ok b) → b ≠ a
  | [], _, _, _, _, _, w, b, hw, _ => by cases hw
  | none :: vs, l, r, h, hl, hr, w, b, hw, hb => by
    rcases List.mem_cons.mp hw with e | hw
    · cases e
    · exact loopLevels_none (vs := vs) h (by omega) hr w b hw hb
  | some v :: vs, l, r, h, hl, hr, w, b, hw, hb => by
    rw [loopLevels, bind_ok_iff] at h
    obtain ⟨o, h1, h⟩ := h
    have next : loopLevels db m a vs (l + 1) = .ok r → some w ∈ vs → b ≠ a := fun h hw => loopLevels_none h (by omega) hr w b hw hb
    cases o with
    | none =>
      rcases List.mem_cons.mp hw with e | hw
      · cases e
        obtain ⟨_, f, hf⟩ := pointer_inv hb
        rw [hf] at h1
        cases h1
      · exact next h hw
    | some f =>
      dsimp only at h
      rw [bind_ok_iff] at h
      obtain ⟨x, h2, h⟩ := h
      cases x with
      | error e =>
        rcases List.mem_cons.mp hw with e | hw
        · cases e
          rw [hb] at h2
          cases h2
        · exact next h hw
      | ok c =>
        dsimp only at h
        split at h
        · cases h
          omega
        · next hc =>
          rcases List.mem_cons.mp hw with e | hw
          · cases e
            rw [hb] at h2
            cases h2
            exact fun e => hc e.symm
          · exact next h hw

theorem introducedLoop_none {db : Db} {m : Mem} {p : Value} {outer : List Value} {a : Nat} {l : Int} (hp : pointer db m (some p) = .ok (.ok a))
    (h : introducedLoop db m ((p :: outer).map some) = .ok l) (hl : l ≤ 0) : ∀ w ∈ outer, ∀ b, pointer db m (some w) = .ok (.ok b) → b ≠ a := by
  intro w hw b hb
  obtain ⟨_, f, hf⟩ := pointer_inv hp
  cases outer with
  | nil => cases hw
  | cons v outer =>
    simp only [List.map_cons, introducedLoop, hf, Outcome.ofLoop_some, Outcome.bind_ok, hp] at h
    exact loopLevels_none h (by decide) hl w b (by simpa using List.mem_cons.mp hw |>.imp id fun h => h) hb

/-- Different addresses, each held by a pointer around. -/
def Held (db : Db) (m : Mem) (outer : List Value) (l : List Nat) : Prop :=
  l.Nodup ∧ ∀ a ∈ l, a < 2 ^ 64 ∧ ∃ w ∈ outer, pointer db m (some w) = .ok (.ok a)

theorem goes_acc {env : ValueString.Env} {db : Db} {m : Mem} (ho : ∀ v, Acc (fun w v => Inside env db v w) v) :
    ∀ (k : Nat) (l : List Nat) (outer : List Value), Held db m outer l → 2 ^ 64 - l.length ≤ k → ∀ p, Acc (Goes env db m) (outer, p) := by
  intro k
  induction k with
  | zero =>
    intro l outer hl hk p
    induction ho p generalizing outer with
    | intro p _ ih =>
      refine ⟨_, fun y hy => ?_⟩
      cases hy with
      | inside hi => exact ih _ hi (p :: outer) ⟨hl.1, fun a ha => ⟨(hl.2 a ha).1, (hl.2 a ha).2.imp fun w hw => ⟨List.mem_cons_of_mem _ hw.1, hw.2⟩⟩⟩
      | @follow _ _ w a _ hp h0 hn =>
        exfalso
        have hf := introducedLoop_none hp h0 hn
        have h1 : a ∉ l := fun ha => by
          obtain ⟨_, w, hw, hb⟩ := hl.2 a ha
          exact hf w hw a hb rfl
        have := nodup_bound (2 ^ 64) (a :: l) (List.nodup_cons.mpr ⟨h1, hl.1⟩) (by
          intro b hb
          rcases List.mem_cons.mp hb with rfl | hb
          · exact (pointer_inv hp).1
          · exact (hl.2 b hb).1)
        simp only [List.length_cons] at this
        omega
  | succ k ihk =>
    intro l outer hl hk p
    induction ho p generalizing outer with
    | intro p _ ih =>
      have hl' : Held db m (p :: outer) l := ⟨hl.1, fun a ha => ⟨(hl.2 a ha).1, (hl.2 a ha).2.imp fun w hw => ⟨List.mem_cons_of_mem _ hw.1, hw.2⟩⟩⟩
      refine ⟨_, fun y hy => ?_⟩
      cases hy with
      | inside hi => exact ih _ hi (p :: outer) hl'
      | @follow _ _ w a _ hp h0 hn =>
        have hf := introducedLoop_none hp h0 hn
        have h1 : a ∉ l := fun ha => by
          obtain ⟨_, w, hw, hb⟩ := hl.2 a ha
          exact hf w hw a hb rfl
        refine ihk (a :: l) (p :: outer) ⟨List.nodup_cons.mpr ⟨h1, hl.1⟩, ?_⟩ (by simp only [List.length_cons]; omega) w
        intro b hb
        rcases List.mem_cons.mp hb with rfl | hb
        · exact ⟨(pointer_inv hp).1, p, List.mem_cons_self .., hp⟩
        · exact hl'.2 b hb

/-- No walk goes on forever. -/
theorem goes_ends {env : ValueString.Env} {db : Db} (h : Tame env db) (m : Mem) (outer : List Value) (p : Value) : Acc (Goes env db m) (outer, p) :=
  goes_acc h.objects _ [] outer ⟨List.nodup_nil, by intro a ha; cases ha⟩ (Nat.le_refl _) p

/-! ### Where a visit goes -/

theorem collect_mem {get : Nat → Outcome (Option Value)} : ∀ {n i : Nat} {vs : List Value} {f : Bool}, collect get n i = .ok (vs, f) →
    ∀ w ∈ vs, ∃ j : Nat, get j = .ok (some w)
  | 0, i, vs, f, h, w, hw => by cases h; cases hw
  | n + 1, i, vs, f, h, w, hw => by
    rw [collect, bind_ok_iff] at h
    obtain ⟨o, h1, h⟩ := h
    cases o with
    | none => cases h; cases hw
    | some v =>
      dsimp only at h
      rw [bind_ok_iff] at h
      obtain ⟨⟨us, g⟩, h2, h3⟩ := h
      cases h3
      rcases List.mem_cons.mp hw with rfl | hw
      · exact ⟨i, h1⟩
      · exact collect_mem h2 w hw

theorem collect_ends {get : Nat → Outcome (Option Value)} (h : ∀ i, Ends (get i)) : ∀ n i, Ends (collect get n i)
  | 0, _ => Ends.ok _
  | n + 1, i => by
    rw [collect]
    have h1 := h i
    have h2 := collect_ends h n (i + 1)
    ends

theorem request_ends {env : ValueString.Env} {db : Db} (h : Tame env db) (ev : Event) (p : Value) (outer : List Value) : Ends (request env.tags ev p outer) := by
  unfold request
  split
  · exact Ends.ok _
  · next tags ht =>
    split
    · exact Ends.ok _
    · next f hf =>
      have h1 : Ends (f ev ((p :: outer).map some)) := h.back tags p.entry f ev _ ht hf
      ends

theorem final_of {db : Db} (ha : ∀ r, Acyclic db r) {r f : Ref} {want : Info → Bool} (h : finalOf db (some r) want = some (some f)) :
    (∃ qs, Final db r (some f) qs) ∧ want (db f).info = true := by
  obtain ⟨o, qs, ho⟩ := final_exists (ha r)
  rw [finalOf_final ho] at h
  cases o with
  | none => cases h
  | some x =>
    simp only [keep, Option.some.injEq] at h
    split at h
    · cases h
      exact ⟨⟨qs, ho⟩, ‹_›⟩
    · cases h

theorem member_inside {env : ValueString.Env} {db : Db} (ha : ∀ r, Acyclic db r) {v w : Value} {i : Nat} (h : memberValue db (some v) i = .ok (some w)) : Inside env db v w := by
  unfold memberValue at h
  dsimp only at h
  rw [bind_ok_iff] at h
  obtain ⟨o, h1, h⟩ := h
  cases o with
  | none => cases h
  | some f =>
    cases hf : finalOf db (some v.entry) isStruct with
    | none => rw [hf] at h1; cases h1
    | some g =>
      rw [hf] at h1
      cases h1
      obtain ⟨⟨qs, h2⟩, h3⟩ := final_of ha hf
      dsimp only at h
      rw [bind_ok_iff] at h
      obtain ⟨c, _, h⟩ := h
      split at h
      · cases h
      · rw [bind_ok_iff] at h
        obtain ⟨o, h4, h⟩ := h
        cases o with
        | none => cases h
        | some e =>
          dsimp only at h
          split at h
          · next mi hmi =>
            cases hs : (db f).info with
            | struct k s ms =>
              refine .member (i := i) h2 hs ?_
              have hself : finalOf db (some f) isStruct = some (some f) := by
                rw [finalOf_final (final_of_final h2)]
                simp [keep, h3]
              unfold byMemberId at h4
              rw [hself] at h4
              have h5 : item ms i = some e := by
                rw [Option.bind_eq_bind, Option.bind_some] at h4
                dsimp only at h4
                rw [hs] at h4
                exact Outcome.ok.inj h4
              unfold item at h5
              split at h5
              · cases h5
              · refine ⟨e, mi, by simpa using h5, hmi, ?_⟩
                have h6 := Outcome.ok.inj h
                unfold newValue at h6
                split at h6
                · cases h6
                · exact (Option.some.inj h6).symm
            | _ => rw [hs] at h3; cases h3
          · cases h

section
variable {env : ValueString.Env} {db : Db} (ht : Tame env db)
include ht

theorem element_inside {v w : Value} {i : Nat} (h : elementValue db (some v) i = .ok (some w)) : Inside env db v w := by
  unfold elementValue at h
  dsimp only at h
  rw [bind_ok_iff] at h
  obtain ⟨o, h1, h⟩ := h
  cases o with
  | none => cases h
  | some f =>
    cases hf : finalOf db (some v.entry) isArray with
    | none => rw [hf] at h1; cases h1
    | some g =>
      rw [hf] at h1
      cases h1
      obtain ⟨⟨qs, h2⟩, h3⟩ := final_of ht.types hf
      dsimp only at h
      rw [bind_ok_iff] at h
      obtain ⟨c, _, h⟩ := h
      split at h
      · cases h
      · split at h
        · cases h
        · rw [bind_ok_iff] at h
          obtain ⟨o, h4, h⟩ := h
          cases o with
          | none => cases h
          | some e =>
            dsimp only at h
            rw [bind_ok_iff] at h
            obtain ⟨sz, _, h⟩ := h
            cases sz with
            | error _ => cases h
            | ok size =>
              cases hs : (db f).info with
              | array t n =>
                have hself : finalOf db (some f) isArray = some (some f) := by
                  rw [finalOf_final (final_of_final h2)]
                  simp [keep, h3]
                unfold elementEntry at h4
                rw [hself] at h4
                have h5 : t = some e := by
                  rw [Option.bind_eq_bind, Option.bind_some] at h4
                  dsimp only at h4
                  rw [hs] at h4
                  exact Outcome.ok.inj h4
                have h6 := Outcome.ok.inj h
                unfold newValue at h6
                split at h6
                · cases h6
                · rw [← Option.some.inj h6]
                  exact .element h2 (h5 ▸ hs) (Nat.le_add_right ..)
              | _ => rw [hs] at h3; cases h3

theorem argument_inside {v w : Value} {i : Nat} (hl : hasLoad env.toEnv db v = .ok true) (h : paramItem env.toEnv v i = .ok (some w)) : Inside env db v w := by
  obtain ⟨f, qs, hf⟩ := final_exists (ht.types v.entry)
  obtain ⟨b, hb, hiff⟩ := hasLoad_iff (env := env) hf
  rw [hl] at hb
  cases hb
  refine .argument (hiff.mp rfl) ?_
  unfold paramItem at h
  have h := Outcome.ok.inj h
  cases hp : (env.params v.addr)[i]? with
  | none => rw [hp] at h; cases h
  | some p =>
    rw [hp] at h
    simp only [Option.bind_some, newValue] at h
    split at h
    · cases h
    · cases h
      exact List.mem_of_getElem? hp

/-- An array made with the length 0 has no elements. -/
theorem empty_count {m : Mem} {p v : Value} (h : countValue env db m p 0 = .ok (some v)) : valueElementCount db (some v) = .ok 0 := by
  unfold countValue at h
  rw [bind_ok_iff] at h
  obtain ⟨o, h1, h⟩ := h
  cases o with
  | none => cases h
  | some ea =>
    obtain ⟨e, a⟩ := ea
    have he : ∃ t, e = { info := .array t 0 } := by
      unfold elementCountValue at h1
      dsimp only at h1
      split at h1
      · cases h1
      · rw [bind_ok_iff] at h1
        obtain ⟨⟨f, q⟩, _, h1⟩ := h1
        cases f with
        | none => cases h1
        | some f =>
          have key : ∀ {x : Outcome (Option Nat)}, (x >>= fun addr => match addr with
              | none => pure none
              | some addr => do
                match ← Outcome.ofLoop (newElementCountEntry db (some p.entry) 0) with
                | none => return none
                | some e => return some (e, addr)) = Outcome.ok (some (e, a)) → ∃ t, e = { info := .array t 0 } := by
            intro x hx
            rw [bind_ok_iff] at hx
            obtain ⟨o, _, hx⟩ := hx
            cases o with
            | none => cases hx
            | some addr =>
              dsimp only at hx
              rw [bind_ok_iff] at hx
              obtain ⟨o, h2, hx⟩ := hx
              cases o with
              | none => cases hx
              | some e' =>
                cases hx
                have h3 : newElementCountEntry db (some p.entry) 0 = some (some e) := by
                  cases hn : newElementCountEntry db (some p.entry) 0 with
                  | none => rw [hn] at h2; cases h2
                  | some o => rw [hn] at h2; cases h2; rfl
                unfold newElementCountEntry at h3
                dsimp only at h3
                cases hfe : finalEntry db (some p.entry) with
                | none => rw [hfe] at h3; cases h3
                | some fe =>
                  rw [hfe] at h3
                  simp only [Option.bind_eq_bind, Option.bind_some] at h3
                  split at h3
                  · cases h3
                  · split at h3
                    · rw [Option.bind_eq_some_iff] at h3
                      obtain ⟨t, _, h3⟩ := h3
                      cases t with
                      | none => cases h3
                      | some t => cases h3; exact ⟨_, rfl⟩
                    · rw [Option.bind_eq_some_iff] at h3
                      obtain ⟨t, _, h3⟩ := h3
                      cases t with
                      | none => cases h3
                      | some t => cases h3; exact ⟨_, rfl⟩
                    · cases h3
          dsimp only at h1
          split at h1
          · exact key (x := pure _) h1
          · rw [bind_ok_iff] at h1
            obtain ⟨n, _, h1⟩ := h1
            exact key (x := pure _) h1
          · exact key (x := pure _) h1
    obtain ⟨t, rfl⟩ := he
    have hi := ht.interned t 0 (.inr (.inl rfl))
    have h2 := Outcome.ok.inj h
    unfold newValue at h2
    split at h2
    · cases h2
    · cases h2
      have hfin : finalOf db (some (env.dyn { info := .array t 0 })) isArray = some (some (env.dyn { info := .array t 0 })) := by
        unfold finalOf finalEntry
        dsimp only
        rw [finalLoop.eq_def]
        dsimp only
        simp only [hi, isArray, if_true]
      unfold valueElementCount
      dsimp only
      rw [hfin]
      simp only [Outcome.ofLoop_some, Outcome.bind_ok, elementCount, hfin, Option.bind_eq_bind, Option.bind_some, hi]
      rfl

end

end Verif.DeepEnds
