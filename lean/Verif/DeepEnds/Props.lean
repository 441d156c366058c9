import Verif.DeepEnds.Ops
import Verif.DeepCopy.World
import Verif.Deep.Example
import Verif.CDecl.Props
import Verif.Value.PropsBase
/-
Property theorems on the end of the deep operations: C92.
-/
namespace Verif.DeepEnds
open Verif Verif.Entry Verif.Entry.Spec Verif.Value Verif.Handlers Verif.ValueString Verif.ValueString.Spec Verif.DeepEnds.Spec

/-! ### C92 -/

/-- C92 (map): whatever memory holds, the memory map of a value is made (or refused) in
finitely many steps, in every mode. -/
theorem C92_map {env : Deep.Env} {db : Db} (h : Tame env.vs db) (order : List (Nat × Nat × Nat) → List (Nat × Nat × Nat)) (mode : Deep.Mode)
    (m : Mem) (v : Option Value) : Deep.memoryMap env order mode db m v ≠ .hang :=
  memoryMap_ends h order mode m v

/-- C92 (free): freeing ends. -/
theorem C92_free {env : Deep.Env} {db : Db} (h : Tame env.vs db) (order : List (Nat × Nat × Nat) → List (Nat × Nat × Nat)) (mode : Deep.Mode)
    (m : Mem) (v : Option Value) : Deep.freeEx env order mode db m v ≠ .hang := by
  have h1 := memoryMap_ends h order { mode with dag := true } m v
  change Ends _
  unfold Deep.freeEx
  ends

/-- C92 (equality): comparing ends. -/
theorem C92_equal {env : Deep.Env} {db : Db} (h : Tame env.vs db) (order : List (Nat × Nat × Nat) → List (Nat × Nat × Nat)) (mode : Deep.Mode)
    (m : Mem) (v w : Option Value) : Deep.equalEx env order mode db m v w ≠ .hang := by
  change Ends _
  unfold Deep.equalEx
  split
  · next v w =>
    refine Ends.bind (memoryMap_ends h _ _ _ _) fun o _ => ?_
    cases o with
    | none => exact Ends.ok _
    | some M₁ =>
      refine Ends.bind (memoryMap_ends h _ _ _ _) fun o _ => ?_
      cases o with
      | none => exact Ends.ok _
      | some M₂ => exact Ends.bind (cmp_ends h _ _ _ _ _ _ _) fun _ _ => Ends.pure _
  · exact Ends.ok _

/-- C92 (copy): copying ends, if the declarations of types do not run in a circle and argument
lists are copied in finitely many steps. -/
theorem C92_copy {env : DeepCopy.Env} {db : Db} (h : Tame env.deep.vs db) (hd : ∀ r, CDecl.Spec.Finite db r)
    (hc : ∀ m a b, env.copyParams m a b ≠ .hang) (order : List (Nat × Nat × Nat) → List (Nat × Nat × Nat)) (mode : Deep.Mode)
    (st : DeepCopy.State) (v w : Option Value) : DeepCopy.copyEx env order mode db st v w ≠ .hang := by
  have ha := h.types
  change Ends _
  unfold DeepCopy.copyEx
  split
  · next v w =>
    have hs : Ends (DeepCopy.sameType db v w) := by
      have := fun r => cdecl_ends (hd r)
      unfold DeepCopy.sameType
      ends
      all_goals exact this _
    refine Ends.bind hs fun b _ => ?_
    refine Ends.ite (fun _ => Ends.pure _) fun _ => ?_
    refine Ends.bind (memoryMap_ends h _ _ _ _) fun o _ => ?_
    cases o with
    | none => exact Ends.ok _
    | some M =>
      dsimp only
      split
      · refine Ends.bind (preallocate_ends _ _ _ _) fun r _ => ?_
        obtain ⟨ok, tbl, st⟩ := r
        dsimp only
        split
        · exact Ends.bind (releaseAll_ends _ _) fun _ _ => Ends.pure _
        · refine Ends.bind (copyNode_ends ha hc _ _ _ _ _ _ _) fun r _ => ?_
          obtain ⟨ok, st⟩ := r
          dsimp only
          split
          · exact Ends.pure _
          · exact Ends.bind (releaseAll_ends _ _) fun _ _ => Ends.pure _
      · exact copyNode_ends ha hc _ _ _ _ _ _ _
  · exact Ends.ok _

/-- C92 (print): printing ends, shallow and deep, if the declarations of types do not run in a
circle. -/
theorem C92_print {env : ValueString.Env} {db : Db} (h : Tame env db) (hd : ∀ r, CDecl.Spec.Finite db r) (deep : Bool) (m : Mem) (v : Option Value) :
    ValueString.valueString env deep db m v ≠ .hang := by
  cases v with
  | none => exact nofun
  | some v => exact pwalk_ends h hd deep m [] v

/-! ### Handlers -/

theorem siblingLoop_ends {db : Db} (ha : ∀ r, Acyclic db r) (cfg : Plat) (m : Mem) {get : Nat → Outcome (Option Value)} (hg : ∀ i, Ends (get i)) (name : Name) :
    ∀ n i, Ends (siblingLoop cfg db m get name n i)
  | 0, _ => Ends.ok _
  | n + 1, i => by
    have ih := siblingLoop_ends ha cfg m hg name n (i + 1)
    have h1 := hg i
    have hdel : ∀ v, Ends (deleteValue v) := fun v => by cases v <;> simp only [deleteValue] <;> ends
    rw [siblingLoop]
    ends
    all_goals exact hdel _

theorem counted_ends {db : Db} (ha : ∀ r, Acyclic db r) (m : Mem) (v : Value) (s : Sibling) : Ends (counted db m v s) := by
  unfold counted; ends

theorem strlen_ends {m : Mem} {a : Nat} : ∀ (k n : Nat), (m (a + (n + k)) = none ∨ m (a + (n + k)) = some 0) →
    (strlen m a n).isSome = true ∧ ∀ r, strlen m a n = some r → Ends r
  | k, n, h => by
    rw [strlen.eq_def]
    cases hm : m (a + n) with
    | none => exact ⟨rfl, fun r h => by cases h; exact Ends.ub⟩
    | some b =>
      dsimp only
      split
      · exact ⟨rfl, fun r h => by cases h; exact Ends.ok _⟩
      · next hb =>
        cases k with
        | zero =>
          rw [Nat.add_zero, hm] at h
          rcases h with h | h
          · cases h
          · exact absurd (Option.some.inj h) hb
        | succ k => exact strlen_ends k (n + 1) (by rwa [show n + 1 + k = n + (k + 1) by omega])

theorem castLoop_ends {db : Db} (ha : ∀ r, Acyclic db r) (m : Mem) (v : Value) (ty count : Int) : ∀ cs, Ends (castLoop db m v ty count cs)
  | [] => Ends.ok _
  | c :: cs => by
    have ih := castLoop_ends ha m v ty count cs
    have hdel : ∀ v, Ends (deleteValue v) := fun v => by cases v <;> simp only [deleteValue] <;> ends
    rw [castLoop]
    ends
    all_goals exact hdel _

theorem caseLoop_ends {db : Db} (ha : ∀ r, Acyclic db r) (u : Ref) (id : Int) : ∀ cs, Ends (caseLoop db u id cs)
  | [] => Ends.ok _
  | c :: cs => by
    have ih := caseLoop_ends ha u id cs
    rw [caseLoop]
    ends

/-- C92 (handlers): the handlers of the library come back, for every event, stack of values and
context; the one for strings if every run of bytes reaches a 0 or the end of memory. -/
theorem C92_handlers {db : Db} (ha : ∀ r, Acyclic db r) (cfg : Plat) (m : Mem) (stack : List (Option Value)) (ev : Option Event) :
    (∀ env ctx, countBy env cfg db m stack ev ctx ≠ .hang) ∧ (∀ loc ctx, containerOf db m loc stack ev ctx ≠ .hang) ∧
    (∀ ctx, unionSelect cfg db m stack ev ctx ≠ .hang) ∧ (∀ ctx, ptrCast cfg db m stack ev ctx ≠ .hang) ∧
    ((∀ a, ∃ n, m (a + n) = none ∨ m (a + n) = some 0) → zeroEnded db m stack ev ≠ .hang) := by
  have hdel : ∀ v, Ends (deleteValue v) := fun v => by cases v <;> simp only [deleteValue] <;> ends
  have hsib : ∀ p n, Ends (memberSibling cfg db m p n) := fun p n => by
    unfold memberSibling
    exact Ends.bind (by ends) fun _ _ => siblingLoop_ends ha cfg m (fun i => memberValue_ends ha _ _) n _ _
  have hcount := counted_ends ha m
  refine ⟨fun env ctx => ?_, fun loc ctx => ?_, fun ctx => ?_, fun ctx => ?_, fun hm => ?_⟩
  · have hpar : ∀ p n, Ends (paramSibling env cfg db m p n) := fun p n =>
      siblingLoop_ends ha cfg m (fun i => Ends.ok _) n _ _
    change Ends _
    unfold countBy
    ends
    all_goals first | exact hsib _ _ | exact hpar _ _ | exact hcount _ _
  · change Ends _
    unfold containerOf
    ends
    all_goals exact hdel _
  · have hsel : ∀ v cs s, Ends (selected db v cs s) := fun v cs s => by
      have := caseLoop_ends ha v.entry
      unfold selected
      ends
      all_goals exact this _ _
    change Ends _
    unfold unionSelect
    ends
    all_goals first | exact hsib _ _ | exact hsel _ _ _
  · have hcs : ∀ p i, Ends (castSibling cfg db m p i) := fun p i => by
      unfold castSibling
      ends
      all_goals exact hdel _
    have hcl := castLoop_ends ha m
    change Ends _
    unfold ptrCast
    ends
    all_goals first | exact hcs _ _ | exact hcl _ _ _ _
  · have hlen : ∀ a, Ends (strlenOf m a) := fun a => by
      obtain ⟨n, hn⟩ := hm a
      have := strlen_ends (m := m) (a := a) n 0 (by simpa using hn)
      unfold strlenOf
      split
      · next r hr => exact this.2 r hr
      · next hr => rw [hr] at this; cases this.1
    change Ends _
    unfold zeroEnded
    ends
    all_goals exact hlen _

theorem member_in {env : ValueString.Env} {db : Db} (ha : ∀ r, Acyclic db r) {v w : Value} {i : Int} (h : memberValue db (some v) i = .ok (some w)) :
    Inside env db v w := by
  by_cases hi : i < 0
  · exfalso
    unfold memberValue at h
    dsimp only at h
    rw [bind_ok_iff] at h
    obtain ⟨o, h1, h⟩ := h
    cases o with
    | none => cases h
    | some f =>
      dsimp only at h
      rw [bind_ok_iff] at h
      obtain ⟨c, _, h⟩ := h
      rw [if_pos (.inl hi)] at h
      cases h
  · have : ((i.toNat : Nat) : Int) = i := by omega
    rw [← this] at h
    exact member_inside ha h

/-- C92 (unions): what the library's handler for unions replies is inside the union, as is asked
of handlers. -/
theorem C92_union_reply {env : ValueString.Env} {db : Db} (ha : ∀ r, Acyclic db r) (cfg : Plat) (m : Mem) {v w : Value} {outer : List (Option Value)} {ev ctx}
    (h : unionSelect cfg db m (some v :: outer) ev ctx = .ok (0, some w)) : Inside env db v w := by
  have hsel : ∀ cs s, selected db v cs s = .ok (0, some w) → Inside env db v w := by
    intro cs s h
    cases s with
    | missing => cases h
    | bad => cases h
    | num n =>
      have fin : ∀ x : Outcome (Except Int Int), (x >>= fun id => match id with
          | .error c => pure (c, none)
          | .ok id => do
            let r ← memberValue db (some v) id
            return (0, r)) = Outcome.ok ((0 : Int), some w) → Inside env db v w := by
        intro x h
        rw [bind_ok_iff] at h
        obtain ⟨o, _, h⟩ := h
        cases o with
        | error c => cases h
        | ok id =>
          dsimp only at h
          rw [bind_ok_iff] at h
          obtain ⟨r, h1, h⟩ := h
          cases h
          exact member_in ha h1
      simp only [selected] at h
      split at h
      · exact fin _ h
      · exact fin _ h
  unfold unionSelect at h
  split at h
  · cases h
  · split at h
    · split at h
      · cases h
      · cases h
      · cases h
      · split at h
        · next v' p hv hp =>
          cases hv
          rw [bind_ok_iff] at h
          obtain ⟨b, _, h⟩ := h
          split at h
          · cases h
          · rw [bind_ok_iff] at h
            obtain ⟨b, _, h⟩ := h
            split at h
            · cases h
            · rw [bind_ok_iff] at h
              obtain ⟨s, _, h⟩ := h
              exact hsel _ _ h
        · cases h
      · split at h
        · cases h
        · next v' hv =>
          cases hv
          rw [bind_ok_iff] at h
          obtain ⟨b, _, h⟩ := h
          split at h
          · cases h
          · rw [bind_ok_iff] at h
            obtain ⟨r, h1, h⟩ := h
            cases h
            exact member_in ha h1
    · cases h

theorem counted_array {db : Db} {m : Mem} {v : Value} {e : Entry} {a : Nat} {n : Int} {t : Option Ref} {c : Int} {x qs} (hx : Final db v.entry (some x) qs)
    (hi : (db x).info = .array t c) (h : elementCountValue db m (some v) n = .ok (some (e, a))) : a = v.addr ∧ ∃ n, e.info = .array t n := by
  by_cases h0 : v.addr = 0
  · simp [elementCountValue, h0] at h
  · cases t with
    | none => 
      have hn : newElementCountEntry db (some v.entry) n = some none := by
        have hxx : Final db x (some x) [] := .here fun t ha => by cases ha <;> simp_all
        simp [newElementCountEntry, final_entry hx, hi, elementEntry, finalOf_final hxx, keep, isArray]
      simp [elementCountValue, h0, final_entry hx, hi, hn] at h
    | some t =>
      obtain ⟨e', h1, h2⟩ := (C55_element_count_value db m v _ qs hx h0 n).2.1 x t c rfl hi
      rw [h1] at h
      cases h
      exact ⟨rfl, _, h2⟩

/-- C92 (arrays): the array the library's handler replies for an array is one of the same
elements at the same place, as is asked of handlers. -/
theorem C92_array_reply {db : Db} (env : Handlers.Env) (cfg : Plat) (m : Mem) {v : Value} {outer : List (Option Value)} {ev ctx} {e : Entry} {a : Nat} {t : Option Ref} {c : Int} {x qs}
    (hx : Final db v.entry (some x) qs) (hi : (db x).info = .array t c)
    (h : countBy env cfg db m (some v :: outer) ev ctx = .ok (0, some (e, a)) ∨ zeroEnded db m (some v :: outer) ev = .ok (0, some (e, a))) :
    a = v.addr ∧ ∃ n, e.info = .array t n := by
  have hcnt : ∀ s, counted db m v s = .ok (0, some (e, a)) → a = v.addr ∧ ∃ n, e.info = .array t n := by
    intro s h
    cases s with
    | missing => cases h
    | bad => cases h
    | num n =>
      simp only [counted] at h
      rw [bind_ok_iff] at h
      obtain ⟨r, h1, h⟩ := h
      cases h
      exact counted_array hx hi h1
  rcases h with h | h
  · unfold countBy at h
    split at h
    · cases h
    · split at h
      · split at h
        · cases h
        · cases h
        · cases h
        · split at h
          · next v' p hv hp =>
            cases hv
            rw [bind_ok_iff] at h
            obtain ⟨b, _, h⟩ := h
            split at h
            · rw [bind_ok_iff] at h
              obtain ⟨s, _, h⟩ := h
              exact hcnt _ h
            · rw [bind_ok_iff] at h
              obtain ⟨b, _, h⟩ := h
              split at h
              · rw [bind_ok_iff] at h
                obtain ⟨s, _, h⟩ := h
                exact hcnt _ h
              · cases h
          · cases h
      · cases h
  · unfold zeroEnded at h
    split at h
    · cases h
    · split at h
      · split at h
        · cases h
        · next v' hv =>
          cases hv
          rw [finalOf_final hx] at h
          simp [keep, hi, isPointer] at h
      · cases h

/-! ### The hypotheses are met -/

section
open Verif.Deep.World Verif.Deep.Example

/-- The descriptions of the ring: members have smaller numbers than what they are in. -/
theorem world_tame {es : List Entry} {szs : List Nat} (h : worldOk es szs = true)
    (hm : ∀ r k s ms, (world es r).info = .struct k s ms → ∀ x ∈ ms, @LT.lt Nat _ x r) : Tame (env es).vs (world es) where
  types := (world_sane h).acyclic
  objects := by
    have down : ∀ {r f : Nat} {qs}, Final (world es) r (some f) qs → @LE.le Nat _ f r := by
      intro r f qs hf
      generalize ho : some f = o at hf
      induction hf with
      | here => cases ho; exact Nat.le_refl _
      | void => cases ho
      | step ha _ ih =>
        have := ih ho
        have h2 := world_down h _ _ (next_nextOf (.alias ha))
        exact Nat.le_trans this (Nat.le_of_lt h2)
    have key : ∀ v w, Inside (env es).vs (world es) v w → @LT.lt Nat _ w.entry v.entry := by
      intro v w hi
      cases hi with
      | member hf hs hw =>
        obtain ⟨r, mi, h1, _, rfl⟩ := hw
        exact Nat.lt_of_lt_of_le (hm _ _ _ _ hs r (List.mem_of_getElem? h1)) (down hf)
      | @element x _ e n _ hf hs _ =>
        have : @LT.lt Nat _ e x := world_down h _ _ (by rw [hs]; rfl)
        exact Nat.lt_of_lt_of_le this (down hf)
      | argument _ hw => cases hw
    intro v
    exact (InvImage.wf (fun v : Value => (v.entry : Nat)) Nat.lt_wfRel.wf).apply v |> fun a => by
      induction a with
      | intro v _ ih => exact ⟨_, fun w hw => ih w (key v w hw)⟩
  interned := world_interned es
  back := nofun
  unions := by intro v outer w _ hr; cases hr with | reply ht => cases ht
  arrays := by intro v outer arr w _ hr; cases hr with | reply ht => cases ht

theorem ring_tame : Tame (env types).vs (world types) := by
  refine world_tame types_ok fun r k s ms hi x hx => ?_
  by_cases hr : r < types.length
  · have all : ∀ r < types.length, (match (world types r).info with | .struct _ _ ms => ms.all fun x => decide (@LT.lt Nat _ x r) | _ => true) = true := by decide
    have := all r hr
    rw [hi] at this
    simpa using List.all_eq_true.mp this x hx
  · obtain ⟨t, c, h1, _⟩ := world_new (es := types) (r := r) (Nat.le_of_not_lt hr)
    rw [h1] at hi
    cases hi

/-- The declarations of the ring use: `int`, pointers, structs by name. -/
theorem ring_finite (r : Ref) : CDecl.Spec.Finite (world types) r := by
  let rank (r : Nat) : Nat := if r < types.length then [0, 0, 1, 1, 0, 0, 0, 0, 0, 0, 0, 0, 0, 0, 0, 0, 0, 1, 1, 0, 0, 2][r]?.getD 0 else r
  have low : ∀ r : Nat, r < types.length → rank r < 3 := by decide
  have old : ∀ r : Nat, r < types.length → ((match (world types r).info with | .struct .. => (world types r).name.isSome | _ => false) ||
      (CDecl.links (world types) r).all fun d => decide (rank d < rank r)) = true := by decide
  have key : ∀ r d, CDecl.Spec.Uses (world types) r d → rank d < rank r := by
    intro r d u
    by_cases hr : r < types.length
    · have := old r hr
      rw [Bool.or_eq_true] at this
      rcases this with h | h
      · cases u with
        | field hi hn =>
          rw [hi, hn] at h
          cases h
        | var hi => rw [hi] at h; cases h
        | array hi => rw [hi] at h; cases h
        | qual hi => rw [hi] at h; cases h
        | pointer hi => rw [hi] at h; cases h
        | result hi => rcases hi with hi | hi <;> rw [hi] at h <;> cases h
        | param hi => rcases hi with hi | hi <;> rw [hi] at h <;> cases h
      · simpa using List.all_eq_true.mp h d (CDecl.uses_links u)
    · obtain ⟨t, c, h1, h2, _⟩ := world_new (es := types) (r := r) (Nat.le_of_not_lt hr)
      have hu := CDecl.uses_links u
      rw [CDecl.links, h1] at hu
      have hd : t = some d := by simpa using hu
      have hlt : @LT.lt Nat _ d r := h2 d hd
      have hrr : rank r = r := if_neg hr
      rw [hrr]
      by_cases hdd : d < types.length
      · have h3 := low d hdd
        have h4 : @LE.le Nat _ 22 r := Nat.le_of_not_lt hr
        exact Nat.lt_of_lt_of_le h3 (Nat.le_trans (by decide) h4)
      · rw [show rank d = d from if_neg hdd]
        exact hlt
  have := (InvImage.wf rank Nat.lt_wfRel.wf).apply r
  induction this with
  | intro r _ ih => exact ⟨_, fun d u => ih d (key r d u)⟩

/-- The two nodes of the ring point to each other, and still every operation on them ends. -/
example : Deep.memoryMap (env types) id mode (world types) ring (some ⟨11, 100⟩) ≠ .hang ∧
    Deep.freeEx (env types) id mode (world types) ring (some ⟨11, 100⟩) ≠ .hang ∧
    Deep.equalEx (env types) id mode (world types) ring (some ⟨11, 100⟩) (some ⟨11, 100⟩) ≠ .hang ∧
    (∀ st, DeepCopy.copyEx (DeepCopy.World.copier types 5) id mode (world types) st (some ⟨11, 100⟩) (some ⟨11, 600⟩) ≠ .hang) ∧
    ValueString.valueString (env types).vs true (world types) ring (some ⟨11, 100⟩) ≠ .hang :=
  ⟨C92_map ring_tame _ _ _ _, C92_free ring_tame _ _ _ _, C92_equal ring_tame _ _ _ _ _,
    fun st => C92_copy (env := DeepCopy.World.copier types 5) ring_tame ring_finite nofun _ _ st _ _, C92_print ring_tame ring_finite _ _ _⟩

end

end Verif.DeepEnds
