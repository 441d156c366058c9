import Verif.DeepCopy.Run
/-
What is true after the copy.
-/
namespace Verif.DeepCopy
open Verif Verif.Entry Verif.Entry.Spec Verif.Value Verif.Value.Spec Verif.Handlers Verif.ValueString.Spec Verif.Deep.Spec Verif.DeepCopy.Spec
open Verif.Bitfield.Spec (Field)
open Verif.Deep (Node Map Table Keys Ids)

/-! ### Blocks are neither made nor freed while objects are copied -/

theorem copied_live {st : State} {r : Bool × Mem} : (copied st r).2.live = st.live := rfl

theorem targetPlace_live {env : Env} {mode : Deep.Mode} (hd : mode.dag = true) {db : Db} {M : Map} {tbl : List (Nat × Nat)} {k : Node} {st : State}
    {r : Option Nat × State} (h : targetPlace env mode db M tbl k st = .ok r) : r.2 = st := by
  simp only [targetPlace, hd, if_true] at h
  rw [ValueString.bind_ok_iff] at h
  obtain ⟨_, _, h⟩ := h
  split at h <;> cases h <;> rfl

theorem head_live {env : Env} {mode : Deep.Mode} (hd : mode.dag = true) {db : Db} {M : Map} {tbl : List (Nat × Nat)} {outer : List Value} {k : Node} {d : Value}
    {st : State} {r : Head × State} (h : head env mode db M tbl outer k d st = .ok r) : r.2.live = st.live := by
  unfold head at h
  rw [ValueString.bind_ok_iff] at h
  obtain ⟨b, _, h⟩ := h
  split at h
  · split at h
    · unfold copyUnfollowed at h
      split at h
      · split at h
        · cases h; rfl
        · rw [ValueString.bind_ok_iff] at h
          obtain ⟨_, _, h⟩ := h
          rw [ValueString.bind_ok_iff] at h
          obtain ⟨_, _, h⟩ := h
          rw [ValueString.bind_ok_iff] at h
          obtain ⟨_, _, h⟩ := h
          cases h; rfl
      · split at h
        · rw [ValueString.bind_ok_iff] at h
          obtain ⟨_, _, h⟩ := h
          cases h; rfl
        · rw [ValueString.bind_ok_iff] at h
          obtain ⟨_, _, h⟩ := h
          cases h; rfl
        · cases h; rfl
        · cases h; rfl
    · unfold copyTarget at h
      rw [ValueString.bind_ok_iff] at h
      obtain ⟨⟨o, st₁⟩, h1, h⟩ := h
      have := targetPlace_live hd h1
      simp only at this
      subst this
      cases o with
      | none => cases h; rfl
      | some a =>
        simp only at h
        rw [ValueString.bind_ok_iff] at h
        obtain ⟨q, _, h⟩ := h
        split at h
        · cases h
        · rw [ValueString.bind_ok_iff] at h
          obtain ⟨_, _, h⟩ := h
          rw [ValueString.bind_ok_iff] at h
          obtain ⟨_, _, h⟩ := h
          split at h <;> cases h <;> rfl
    · cases h
  · rw [ValueString.bind_ok_iff] at h
    obtain ⟨_, _, h⟩ := h
    split at h
    · rw [ValueString.bind_ok_iff] at h
      obtain ⟨_, _, h⟩ := h
      cases h; rfl
    · rw [ValueString.bind_ok_iff] at h
      obtain ⟨_, _, h⟩ := h
      split at h
      · rw [ValueString.bind_ok_iff] at h
        obtain ⟨_, _, h⟩ := h
        cases h; rfl
      · rw [ValueString.bind_ok_iff] at h
        obtain ⟨_, _, h⟩ := h
        split at h
        · split at h
          · rw [ValueString.bind_ok_iff] at h
            obtain ⟨_, _, h⟩ := h
            cases h; rfl
          · rw [ValueString.bind_ok_iff] at h
            obtain ⟨_, _, h⟩ := h
            cases h; rfl
          · cases h; rfl
        · rw [ValueString.bind_ok_iff] at h
          obtain ⟨_, _, h⟩ := h
          split at h
          · rw [ValueString.bind_ok_iff] at h
            obtain ⟨⟨r', m'⟩, _, h⟩ := h
            cases r' <;> cases h <;> rfl
          · cases h; rfl

mutual
theorem copyNode_live {env : Env} {mode : Deep.Mode} (hd : mode.dag = true) {db : Db} {M : Map} {tbl : List (Nat × Nat)} :
    ∀ {k : Node} {outer : List Value} {d : Value} {st : State} {r : Bool × State}, copyNode env mode db M tbl outer k d st = .ok r → r.2.live = st.live
  | .mk i v s l f ks, outer, d, st, r, h => by
    unfold copyNode at h
    rw [ValueString.bind_ok_iff] at h
    obtain ⟨⟨hh, st₁⟩, h1, h⟩ := h
    have e1 := head_live hd h1
    have go : ∀ (hh : Head), (do
        let (ok, st) ← copyAll env mode db M tbl (d :: outer) ks (places v d ks hh) st₁
        return (ok, ← undo env mode ok st hh) : Outcome (Bool × State)) = .ok r → r.2.live = st.live := by
      intro hh h
      rw [ValueString.bind_ok_iff] at h
      obtain ⟨⟨ok, st₂⟩, h2, h⟩ := h
      have e2 := copyAll_live hd h2
      simp only at h
      rw [ValueString.bind_ok_iff] at h
      obtain ⟨st₃, h3, h⟩ := h
      have : st₃ = st₂ := by
        cases hh <;> simp [undo, hd] at h3 <;> exact h3.symm
      cases h
      rw [this]
      exact e2.trans e1
    cases hh with
    | fail => cases h; exact e1
    | parts => exact go _ h
    | target a => exact go _ h
    | args vs => exact go _ h
theorem copyAll_live {env : Env} {mode : Deep.Mode} (hd : mode.dag = true) {db : Db} {M : Map} {tbl : List (Nat × Nat)} :
    ∀ {ks : List Node} {outer : List Value} {ds : List (Option Value)} {st : State} {r : Bool × State}, copyAll env mode db M tbl outer ks ds st = .ok r → r.2.live = st.live
  | [], _, _, _, _, h => by cases h; rfl
  | _ :: _, _, [], _, _, h => by cases h
  | _ :: _, _, none :: _, _, _, h => by cases h
  | k :: ks, outer, some d :: ds, st, r, h => by
    unfold copyAll at h
    rw [ValueString.bind_ok_iff] at h
    obtain ⟨⟨ok, st₁⟩, h1, h⟩ := h
    have e1 := copyNode_live hd h1
    simp only at h
    rw [ValueString.bind_ok_iff] at h
    obtain ⟨⟨ok', st₂⟩, h2, h⟩ := h
    have e2 := copyAll_live hd h2
    cases h
    exact e2.trans e1
end

/-! ### The result of a copy that was set up -/

section
variable {env : Env} {order : Table → Table} {mode : Deep.Mode} {db : Db} {st₀ st₁ : State} {M : Map} {dst : Value} {B : Blocks}

/-- Around an object of a tree are objects of the tree. -/
theorem chain {deep : Deep.Env} {m : Mem} {k : Node} (ht : Tree deep mode db m [] k) {x : Node} (h : Within k x) :
    ∃ outs : List Node, Tree deep mode db m (outs.map (·.val)) x ∧ ∀ y ∈ outs, Within k y ∧ y.kids ≠ [] := by
  induction h with
  | top => exact ⟨[], ht, by simp⟩
  | @part x y hx hy ih =>
    obtain ⟨outs, h1, h2⟩ := ih
    refine ⟨x :: outs, tree_kids h1 y hy, ?_⟩
    intro z hz
    rw [List.mem_cons] at hz
    rcases hz with rfl | hz
    · exact ⟨hx, by intro he; rw [he] at hy; cases hy⟩
    · exact h2 z hz

/-- A pointer that closes a loop holds what one around it holds. -/
theorem Setup.taken (h : Setup env order mode db st₀ M dst st₁ B) {x : Node} {p : Nat} (hf : Followed db st₀.m M x p) :
    ∃ y t k, Within M.top y ∧ Typed db y.val (.pointer t) ∧ y.deref = true ∧ k ∈ y.kids ∧ Holds st₀.m y.val.addr 8 p := by
  obtain ⟨t, ht⟩ := hf.type
  obtain ⟨outs, h1, h2⟩ := chain h.tree hf.within
  have direct : ∀ {y : Node} {t : Option Ref} {outer : List Value}, Tree env.deep mode db st₀.m outer y → Within M.top y → y.kids ≠ [] → Typed db y.val (.pointer t) →
      y.deref = true ∧ ∃ k, k ∈ y.kids := by
    intro y t outer hy hw hk ht
    obtain ⟨k, hk⟩ : ∃ k, k ∈ y.kids := by
      cases hy : y.kids with
      | nil => exact absurd hy hk
      | cons k ks => exact ⟨k, by simp⟩
    have no : ∀ {i : Info} {P : Prop}, ValueString.Spec.Object env.vs db y.val i → (∀ t, i ≠ .pointer t) → P := by
      intro i P h1 h3
      exact absurd (Deep.typed_unique h1.2.2 ht) (h3 t)
    have hcal := h.copyable.calls _ hw
    cases hy with
    | leaf h => simp [Node.kids] at hk
    | parts h =>
      cases h with
      | struct h => exact no h (by simp)
      | union h => exact no h (by simp)
      | unionMember h => exact no h (by simp)
      | array h => exact no h (by simp)
      | noElements h => exact no h (by simp)
    | target h => exact ⟨rfl, k, hk⟩
    | args h =>
      cases h with
      | arguments h => exact absurd h hcal.1
      | call h =>
        rcases h with h | h
        · exact no h (by simp)
        · exact no h (by simp)
  by_cases hk : x.kids = []
  · have hl : x.loop ≠ 0 := hf.taken.resolve_left (fun h => h hk)
    cases h1 with
    | leaf h =>
      cases h with
      | base => exact absurd rfl hl
      | enumeration => exact absurd rfl hl
      | null => exact absurd rfl hl
      | unknown => exact absurd rfl hl
      | @loop t' n a _ _ hsz hh ha hlo =>
        have := Value.holds_unique hf.holds hh
        subst this
        obtain ⟨i, q, _, hq, ⟨hq0, ⟨f, qs, t'', hfi, hinf⟩, hqh⟩, _⟩ := hlo
        rw [List.getElem?_map] at hq
        cases ho : outs[i]? with
        | none => rw [ho] at hq; cases hq
        | some y =>
          rw [ho] at hq
          simp only [Option.map_some, Option.some.injEq] at hq
          subst hq
          obtain ⟨a1, a2⟩ := h2 y (List.mem_of_getElem? ho)
          obtain ⟨o, hy⟩ := Deep.within_tree ‹Setup env order mode db st₀ M dst st₁ B›.tree a1
          obtain ⟨b1, k, b2⟩ := direct hy a1 a2 ⟨f, qs, hfi, hinf⟩
          exact ⟨y, t'', k, a1, ⟨f, qs, hfi, hinf⟩, b1, b2, hqh⟩
    | parts => exact absurd rfl hl
    | target => exact absurd rfl hl
    | args => exact absurd rfl hl
  · obtain ⟨b1, k, b2⟩ := direct h1 hf.within hk ht
    exact ⟨x, t, k, hf.within, ht, b1, b2, hf.holds⟩

theorem Setup.followed_block (h : Setup env order mode db st₀ M dst st₁ B) {x : Node} {p : Nat} (hf : Followed db st₀.m M x p) :
    ∃ b ∈ B, b.1 ≤ p ∧ p < b.1 + max b.2.2 1 := by
  obtain ⟨y, t, k, h1, _, h2, h3, h4⟩ := h.taken hf
  obtain ⟨b, hb, h5, _⟩ := h.point h1 h2 h3 h4
  exact ⟨b, hb, h5⟩

theorem Setup.result (h : Setup env order mode db st₀ M dst st₁ B) {m' : Mem} (hi : Inv env mode db st₀ M dst B m')
    (hd : ∀ x w, Copy (place B) M.top dst x w → Done env mode db st₀ B m' x w) : Copied env mode db st₀ M dst ⟨m', st₁.live⟩ (place B) := by
  have start : ∀ b ∈ B, place B b.1 = b.2.1 := by
    intro b hb
    rw [h.place_in hb (Nat.le_refl _) (by omega)]
    omega
  refine ⟨?_, ?_, ?_, ?_, ?_, ?_, ?_, ?_⟩
  · intro x w o l u hc hw
    exact hd x w hc o l u hw
  · intro x w p hf hc
    obtain ⟨t, ht⟩ := hf.type
    have hw : Wants env.cfg mode db st₀.m x 0 64 (.copyOf p) := .followed ht hf.holds hf.nonNull hf.taken
    obtain ⟨b, hb, h1, h2⟩ := h.followed_block hf
    refine ⟨holds_of_field8 (by simpa [Want.value] using hd x w hc _ _ _ hw), ?_, (h.place_lt hb h1 h2).2⟩
    rw [h.place_in hb h1 h2]
    exact h.new.fresh b hb _ (by omega)
  · intro x y p q hf hg he
    obtain ⟨b, hb, h1, h2⟩ := h.followed_block hf
    obtain ⟨c, hc, h3, h4⟩ := h.followed_block hg
    rw [h.place_in hb h1 h2, h.place_in hc h3 h4] at he
    by_cases hbc : b = c
    · subst hbc; omega
    · have := pairwise_all (fun _ _ => Or.symm) h.new.apart hb hc hbc
      omega
  · refine ⟨(B.map fun b => (b.2.1, b.2.2)).reverse, h.new.live, ?_, ?_⟩
    · rw [List.map_reverse, List.Perm.nodup_iff (List.reverse_perm _), List.map_map]
      exact h.new.distinct
    · intro t n
      rw [List.mem_reverse, List.mem_map]
      constructor
      · rintro ⟨b, hb, he⟩
        simp only [Prod.mk.injEq] at he
        obtain ⟨rfl, rfl⟩ := he
        exact ⟨b.1, h.block_located hb, (start b hb).symm⟩
      · rintro ⟨a, hl, rfl⟩
        obtain ⟨t, ht⟩ := h.located_block hl
        exact ⟨_, ht, by simp only [Prod.mk.injEq, and_true]; exact (start _ ht).symm⟩
  · intro a n hl
    obtain ⟨t, ht⟩ := h.located_block hl
    rw [start _ ht]
    refine ⟨h.new.fresh _ ht, fun i hn => hi.mapped _ (List.mem_cons_of_mem _ ht) _ ⟨?_, ?_⟩⟩ <;> simp only <;> omega
  · intro a n p hl h1 h2
    obtain ⟨t, ht⟩ := h.located_block hl
    rw [start _ ht, h.place_in ht h1 h2]
  · intro x p hf
    obtain ⟨b, hb, h1, h2⟩ := h.followed_block hf
    exact ⟨b.1, b.2.2, h.block_located hb, h1, h2⟩
  · intro a ha hb
    apply hi.outside
    intro r hr
    unfold regions at hr
    rw [List.mem_cons] at hr
    unfold In
    rcases hr with rfl | hr
    · simp only; omega
    · have := hb _ _ (h.block_located hr)
      rw [start r hr] at this
      omega

end
end Verif.DeepCopy
