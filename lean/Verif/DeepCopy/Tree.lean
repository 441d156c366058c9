import Verif.DeepCopy.Fails
/-
Copies in tree mode: the blocks made.
-/
namespace Verif.DeepCopy
open Verif Verif.Entry Verif.Entry.Spec Verif.Value Verif.Value.Spec Verif.Handlers Verif.ValueString.Spec Verif.Deep.Spec Verif.DeepCopy.Spec
open Verif.Deep (Node Map Table isA isA_final)

/-- Two blocks (of one byte at least) do not overlap. -/
def Apart (b c : Nat × Nat) : Prop := b.1 + max b.2 1 ≤ c.1 ∨ c.1 + max c.2 1 ≤ b.1

theorem Apart.symm {b c : Nat × Nat} (h : Apart b c) : Apart c b := Or.symm h

/-- `st'` has a new block for each of `ts`. -/
def Grown (st st' : State) (ts : List Node) : Prop :=
  ∃ B, st'.live = B ++ st.live ∧ (B.map (·.2)).Perm (ts.map Node.size) ∧ B.Pairwise Apart ∧ ∀ b ∈ B, ∀ c ∈ st.live, Apart b c

theorem Grown.same {st st' : State} (h : st'.live = st.live) : Grown st st' [] := ⟨[], h, by simp, by simp, by simp⟩

theorem Grown.trans {a b c : State} {ts us : List Node} (h : Grown a b ts) (h' : Grown b c us) : Grown a c (ts ++ us) := by
  obtain ⟨B, h1, h2, h3, h4⟩ := h
  obtain ⟨C, g1, g2, g3, g4⟩ := h'
  refine ⟨C ++ B, by rw [g1, h1, List.append_assoc], ?_, ?_, ?_⟩
  · rw [List.map_append, List.map_append]
    exact (g2.append h2).trans List.perm_append_comm
  · rw [List.pairwise_append]
    exact ⟨g3, h3, fun x hx y hy => g4 x hx y (by rw [h1]; simp [hy])⟩
  · intro x hx y hy
    rcases List.mem_append.1 hx with hx | hx
    · exact g4 x hx y (by rw [h1]; simp [hy])
    · exact h4 x hx y hy

theorem Grown.perm {a b : State} {ts us : List Node} (h : Grown a b ts) (hp : ts.Perm us) : Grown a b us := by
  obtain ⟨B, h1, h2, h3, h4⟩ := h
  exact ⟨B, h1, h2.trans (hp.map _), h3, h4⟩

section
variable {env : Env} {mode : Deep.Mode} {db : Db} {M : Map} {tbl : List (Nat × Nat)}

theorem nmemb_divides {k : Node} {n : Nat} (h : nmemb db k = .ok n) : n * (k.size / n) = k.size := by
  unfold nmemb at h
  rw [ValueString.bind_ok_iff] at h
  obtain ⟨b, _, h⟩ := h
  split at h
  · rw [ValueString.bind_ok_iff] at h
    obtain ⟨c, _, h⟩ := h
    obtain rfl := Outcome.ok.inj h
    split
    · next hc => exact Nat.mul_div_cancel' (Nat.dvd_of_mod_eq_zero hc.2)
    · simp
  · obtain rfl := Outcome.ok.inj h
    simp

theorem place_grown (ha : Allocator env.calloc) (hd : mode.dag = false) {k : Node} {st st' : State} {a : Nat}
    (h : targetPlace env mode db M tbl k st = .ok (some a, st')) : Grown st st' [k] := by
  simp only [targetPlace, hd] at h
  rw [if_neg (by simp), ValueString.bind_ok_iff] at h
  obtain ⟨n, hn, h⟩ := h
  have hm := nmemb_divides hn
  unfold alloc at h
  rcases hc : env.calloc st n (k.size / n) with _ | t
  · rw [hc] at h; cases h
  · rw [hc] at h
    cases h
    refine ⟨[(a, k.size)], by simp [hm], by simp, by simp, ?_⟩
    intro b hb c hcl
    simp only [List.mem_singleton] at hb
    subst hb
    have := ha.apart _ _ _ _ hc c.1 c.2 hcl
    rw [hm] at this
    exact this

/-- A followed pointer: one new block; and nothing in all other cases. -/
theorem head_grown (ha : Allocator env.calloc) (hd : mode.dag = false) {outer : List Value} {k : Node} {d : Value} {st : State} {r : Head × State}
    (h : head env mode db M tbl outer k d st = .ok r) (hr : r.1 ≠ .fail) :
    (∃ t, k.kids = [t] ∧ isA db isPointer k.val = .ok true ∧ Grown st r.2 [t]) ∨
      ((k.kids = [] ∨ isA db isPointer k.val = .ok false) ∧ r.2.live = st.live) := by
  unfold head at h
  rw [ValueString.bind_ok_iff] at h
  obtain ⟨b, hb, h⟩ := h
  split at h
  · next hbt =>
    split at h
    · next hk =>
      right
      refine ⟨.inl hk, ?_⟩
      unfold copyUnfollowed at h
      split at h
      · split at h
        · cases h; rfl
        · rw [ValueString.bind_ok_iff] at h
          obtain ⟨_, _, h⟩ := h
          rw [ValueString.bind_ok_iff] at h
          obtain ⟨_, _, h⟩ := h
          rw [ValueString.bind_ok_iff] at h
          obtain ⟨_, _, h⟩ := h
          cases h; rfl
      · split at h
        · rw [ValueString.bind_ok_iff] at h
          obtain ⟨_, _, h⟩ := h
          cases h; rfl
        · rw [ValueString.bind_ok_iff] at h
          obtain ⟨_, _, h⟩ := h
          cases h; rfl
        · cases h; rfl
        · cases h; rfl
    · next t hk =>
      left
      refine ⟨t, hk, by rw [hb, hbt], ?_⟩
      unfold copyTarget at h
      rw [ValueString.bind_ok_iff] at h
      obtain ⟨⟨o, st₁⟩, h1, h⟩ := h
      cases o with
      | none => cases h; exact absurd rfl hr
      | some a =>
        have hg := place_grown ha hd h1
        simp only at h
        rw [ValueString.bind_ok_iff] at h
        obtain ⟨q, _, h⟩ := h
        split at h
        · cases h
        · rw [ValueString.bind_ok_iff] at h
          obtain ⟨_, _, h⟩ := h
          rw [ValueString.bind_ok_iff] at h
          obtain ⟨_, _, h⟩ := h
          split at h
          · cases h; exact absurd rfl hr
          · cases h; exact hg
    · cases h
  · next hbf =>
    right
    refine ⟨.inr (by rw [hb]; cases b <;> simp_all), ?_⟩
    rw [ValueString.bind_ok_iff] at h
    obtain ⟨_, _, h⟩ := h
    split at h
    · rw [ValueString.bind_ok_iff] at h
      obtain ⟨_, _, h⟩ := h
      cases h; rfl
    · rw [ValueString.bind_ok_iff] at h
      obtain ⟨_, _, h⟩ := h
      split at h
      · rw [ValueString.bind_ok_iff] at h
        obtain ⟨_, _, h⟩ := h
        cases h; rfl
      · rw [ValueString.bind_ok_iff] at h
        obtain ⟨_, _, h⟩ := h
        split at h
        · split at h
          · rw [ValueString.bind_ok_iff] at h
            obtain ⟨_, _, h⟩ := h
            cases h; rfl
          · rw [ValueString.bind_ok_iff] at h
            obtain ⟨_, _, h⟩ := h
            cases h; rfl
          · cases h; rfl
        · rw [ValueString.bind_ok_iff] at h
          obtain ⟨_, _, h⟩ := h
          split at h
          · rw [ValueString.bind_ok_iff] at h
            obtain ⟨⟨r', m'⟩, _, h⟩ := h
            cases r' <;> cases h <;> rfl
          · cases h; rfl

/-- Only a pointer is a node with a target. -/
theorem tree_deref {deep : Deep.Env} {m : Mem} {outer : List Value} {k : Node} (h : Tree deep mode db m outer k) (hc : ¬ Packed deep.vs db k.val) :
    (k.deref = true ∧ isA db isPointer k.val = .ok true) ∨ (k.deref = false ∧ (k.kids = [] ∨ isA db isPointer k.val = .ok false)) := by
  have key : ∀ {v : Value} {i : Info}, ValueString.Spec.Object deep.vs db v i → isA db isPointer v = .ok (isPointer i) := by
    rintro v i ⟨_, _, f, qs, hf, rfl⟩
    exact isA_final hf _
  cases h with
  | leaf h => exact .inr ⟨rfl, .inl rfl⟩
  | parts h =>
    right
    refine ⟨rfl, ?_⟩
    cases h with
    | struct h => exact .inr (key h)
    | union h => exact .inr (key h)
    | unionMember h => exact .inr (key h)
    | array h => exact .inr (key h)
    | noElements h => exact .inr (key h)
  | target h =>
    left
    refine ⟨rfl, ?_⟩
    cases h with
    | target h => exact key h
  | args h =>
    right
    refine ⟨rfl, .inr ?_⟩
    cases h with
    | arguments h => exact absurd h hc
    | call h =>
      rcases h with h | h
      · exact key h
      · exact key h

theorem within_kid {k x : Node} {i s l : Nat} {v : Value} {f : Bool} {ks : List Node} (hk : k ∈ ks) (h : Within k x) : Within (.mk i v s l f ks) x := by
  induction h with
  | top => exact .part .top hk
  | part _ hy ih => exact .part ih hy

mutual
theorem node_grown (ha : Allocator env.calloc) (hd : mode.dag = false) {deep : Deep.Env} {m : Mem} :
    ∀ {k : Node} {o outer : List Value} {d : Value} {st st' : State}, Tree deep mode db m o k → (∀ x, Within k x → ¬ Packed deep.vs db x.val) →
      copyNode env mode db M tbl outer k d st = .ok (true, st') → Grown st st' (targets k)
  | .mk i v s l f ks, o, outer, d, st, st', ht, hc, h => by
    unfold copyNode at h
    rw [ValueString.bind_ok_iff] at h
    obtain ⟨⟨hh, st₁⟩, h1, h⟩ := h
    have hkids : ∃ o', ∀ k ∈ ks, Tree deep mode db m o' k := by
      cases ht with
      | leaf => exact ⟨[], by simp⟩
      | parts _ _ _ hk => exact ⟨_, hk⟩
      | target _ hk => exact ⟨_, by simpa using hk⟩
      | args _ _ hk => exact ⟨_, hk⟩
    obtain ⟨o', hkids⟩ := hkids
    have go : ∀ (hh : Head), hh ≠ .fail → head env mode db M tbl outer (.mk i v s l f ks) d st = .ok (hh, st₁) → (do
        let (ok, st) ← copyAll env mode db M tbl (d :: outer) ks (places v d ks hh) st₁
        return (ok, ← undo env mode ok st hh) : Outcome (Bool × State)) = .ok (true, st') → Grown st st' (targets (.mk i v s l f ks)) := by
      intro hh hne h1 h
      rw [ValueString.bind_ok_iff] at h
      obtain ⟨⟨ok, st₂⟩, h2, h⟩ := h
      simp only at h
      rw [ValueString.bind_ok_iff] at h
      obtain ⟨st₃, h3, h⟩ := h
      cases h
      have : st' = st₂ := by
        cases hh <;> simp [undo] at h3 <;> exact h3.symm
      subst this
      have hg := all_grown ha hd hkids (fun k hk x hx => hc x (within_kid hk hx)) h2
      rcases head_grown ha hd h1 hne with ⟨t, hk, hp, g⟩ | ⟨hk, g⟩
      · rcases tree_deref ht (hc _ .top) with ⟨hf, _⟩ | ⟨_, hf⟩
        · have hf : f = true := hf
          have hk : ks = [t] := hk
          subst hf
          subst hk
          refine (g.trans hg).perm ?_
          simp only [targets, if_true]
          exact List.perm_append_comm
        · rcases hf with hf | hf
          · rw [hf] at hk; cases hk
          · rw [hp] at hf; cases hf
      · rcases tree_deref ht (hc _ .top) with ⟨hf, hp⟩ | ⟨hf, _⟩
        · rcases hk with hk | hk
          · cases ht with
            | leaf => cases hf
            | parts => cases hf
            | target => cases hk
            | args => cases hf
          · rw [hp] at hk; cases hk
        · have hf : f = false := hf
          subst hf
          simpa [targets] using (Grown.same g).trans hg
    cases hh with
    | fail => cases h
    | parts => exact go _ (by simp) h1 h
    | target a => exact go _ (by simp) h1 h
    | args vs => exact go _ (by simp) h1 h
theorem all_grown (ha : Allocator env.calloc) (hd : mode.dag = false) {deep : Deep.Env} {m : Mem} :
    ∀ {ks : List Node} {o outer : List Value} {ds : List (Option Value)} {st st' : State}, (∀ k ∈ ks, Tree deep mode db m o k) →
      (∀ k ∈ ks, ∀ x, Within k x → ¬ Packed deep.vs db x.val) → copyAll env mode db M tbl outer ks ds st = .ok (true, st') → Grown st st' (targetsAll ks)
  | [], _, _, _, _, _, _, _, h => by cases h; exact .same rfl
  | _ :: _, _, _, [], _, _, _, _, h => by cases h
  | _ :: _, _, _, none :: _, _, _, _, _, h => by cases h
  | k :: ks, o, outer, some d :: ds, st, st', ht, hc, h => by
    unfold copyAll at h
    rw [ValueString.bind_ok_iff] at h
    obtain ⟨⟨ok, st₁⟩, h1, h⟩ := h
    simp only at h
    rw [ValueString.bind_ok_iff] at h
    obtain ⟨⟨ok', st₂⟩, h2, h⟩ := h
    have h := Outcome.ok.inj h
    simp only [Prod.mk.injEq, Bool.and_eq_true] at h
    obtain ⟨⟨rfl, rfl⟩, rfl⟩ := h
    have e1 := node_grown ha hd (ht k (by simp)) (hc k (by simp)) h1
    have e2 := all_grown ha hd (fun k' h' => ht k' (by simp [h'])) (fun k' h' => hc k' (by simp [h'])) h2
    simpa [targetsAll] using e1.trans e2
end

end

end Verif.DeepCopy
