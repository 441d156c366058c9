import Verif.DeepCopy.Result
/-
Data whose copy cannot succeed.
-/
namespace Verif.DeepCopy
open Verif Verif.Entry Verif.Entry.Spec Verif.Value Verif.Value.Spec Verif.Handlers Verif.ValueString.Spec Verif.Deep.Spec Verif.DeepCopy.Spec
open Verif.Bitfield.Spec (Field)
open Verif.Deep (Node Map Table Keys Ids)

section
variable {env : Env} {mode : Deep.Mode} {db : Db} {M : Map} {tbl : List (Nat × Nat)}

/-- If a tree was copied, so were its parts. -/
theorem copyNode_step {outer : List Value} {k : Node} {d : Value} {st st' : State} (h : copyNode env mode db M tbl outer k d st = .ok (true, st')) :
    ∃ hd st₁ st₂, head env mode db M tbl outer k d st = .ok (hd, st₁) ∧ hd ≠ .fail ∧
      copyAll env mode db M tbl (d :: outer) k.kids (places k.val d k.kids hd) st₁ = .ok (true, st₂) := by
  obtain ⟨i, v, s, l, f, ks⟩ := k
  unfold copyNode at h
  rw [ValueString.bind_ok_iff] at h
  obtain ⟨⟨hh, st₁⟩, h1, h⟩ := h
  have go : ∀ (hh : Head), (do
      let (ok, st) ← copyAll env mode db M tbl (d :: outer) ks (places v d ks hh) st₁
      return (ok, ← undo env mode ok st hh) : Outcome (Bool × State)) = .ok (true, st') → ∃ st₂, copyAll env mode db M tbl (d :: outer) ks (places v d ks hh) st₁ = .ok (true, st₂) := by
    intro hh h
    rw [ValueString.bind_ok_iff] at h
    obtain ⟨⟨ok, st₂⟩, h2, h⟩ := h
    simp only at h
    rw [ValueString.bind_ok_iff] at h
    obtain ⟨st₃, h3, h⟩ := h
    cases h
    exact ⟨st₂, h2⟩
  cases hh with
  | fail => cases h
  | parts => obtain ⟨st₂, h2⟩ := go _ h; exact ⟨_, _, st₂, h1, by simp, h2⟩
  | target a => obtain ⟨st₂, h2⟩ := go _ h; exact ⟨_, _, st₂, h1, by simp, h2⟩
  | args vs => obtain ⟨st₂, h2⟩ := go _ h; exact ⟨_, _, st₂, h1, by simp, h2⟩

theorem copyAll_step {outer : List Value} : ∀ {ks : List Node} {ds : List (Option Value)} {st st' : State}, copyAll env mode db M tbl outer ks ds st = .ok (true, st') →
    ∀ {i : Nat} {y : Node}, ks[i]? = some y → ∃ d st₁ st₂, ds[i]? = some (some d) ∧ copyNode env mode db M tbl outer y d st₁ = .ok (true, st₂)
  | [], _, _, _, _, _, _, hy => by simp at hy
  | _ :: _, [], _, _, h, _, _, _ => by cases h
  | _ :: _, none :: _, _, _, h, _, _, _ => by cases h
  | k :: ks, some d :: ds, st, st', h, i, y, hy => by
    unfold copyAll at h
    rw [ValueString.bind_ok_iff] at h
    obtain ⟨⟨ok, st₁⟩, h1, h⟩ := h
    simp only at h
    rw [ValueString.bind_ok_iff] at h
    obtain ⟨⟨ok', st₂⟩, h2, h⟩ := h
    simp only [Outcome.pure_eq, Outcome.ok.injEq, Prod.mk.injEq, Bool.and_eq_true] at h
    obtain ⟨⟨rfl, rfl⟩, _⟩ := h
    cases i with
    | zero => cases hy; exact ⟨d, _, _, rfl, h1⟩
    | succ i => simpa using copyAll_step h2 (i := i) (by simpa using hy)

theorem copyNode_within {k : Node} {d : Value} {st st' : State} (h : copyNode env mode db M tbl [] k d st = .ok (true, st')) {x : Node} (hx : Within k x) :
    ∃ outer d st₁ st₂, copyNode env mode db M tbl outer x d st₁ = .ok (true, st₂) := by
  induction hx with
  | top => exact ⟨_, _, _, _, h⟩
  | part hx hy ih =>
    obtain ⟨outer, d, st₁, st₂, h⟩ := ih
    obtain ⟨hd, st₃, st₄, _, _, h3⟩ := copyNode_step h
    obtain ⟨i, hi⟩ := List.mem_iff_getElem?.mp hy
    obtain ⟨d', st₅, st₆, _, h4⟩ := copyAll_step h3 hi
    exact ⟨_, _, _, _, h4⟩

/-- Where the parts were copied to. -/
theorem copyNode_part {k : Node} {d : Value} {st st' : State} (h : copyNode env mode db M tbl [] k d st = .ok (true, st')) {x y : Node} (hx : Within k x) (hy : y ∈ x.kids) :
    (∃ outer d st₁ vs st₂, head env mode db M tbl outer x d st₁ = .ok (.args vs, st₂)) ∨
    ∃ outer d st₁ st₂, copyNode env mode db M tbl outer y d st₁ = .ok (true, st₂) ∧ d.entry = y.val.entry ∧ d.addr ≠ 0 := by
  obtain ⟨outer, d, st₁, st₂, h⟩ := copyNode_within h hx
  obtain ⟨hd, st₃, st₄, h1, h2, h3⟩ := copyNode_step h
  obtain ⟨i, hi⟩ := List.mem_iff_getElem?.mp hy
  obtain ⟨d', st₅, st₆, h4, h5⟩ := copyAll_step h3 hi
  have new : ∀ a, newValue y.val.entry a = some d' → d'.entry = y.val.entry ∧ d'.addr ≠ 0 := by
    intro a ha
    unfold newValue at ha
    split at ha
    · cases ha
    · next h0 => cases ha; exact ⟨rfl, h0⟩
  cases hd with
  | fail => exact absurd rfl h2
  | parts =>
    simp only [places, List.getElem?_map, hi, Option.map_some, Option.some.injEq] at h4
    exact .inr ⟨_, _, _, _, h5, new _ h4⟩
  | target a =>
    simp only [places, List.getElem?_map, hi, Option.map_some, Option.some.injEq] at h4
    exact .inr ⟨_, _, _, _, h5, new _ h4⟩
  | args vs => exact .inl ⟨_, _, _, _, _, h1⟩

theorem targets_parent : ∀ {k t : Node}, t ∈ targets k → ∃ x, Within k x ∧ x.deref = true ∧ t ∈ x.kids := by
  have trans : ∀ {k y x : Node}, y ∈ k.kids → Within y x → Within k x := by
    intro k y x hy hx
    induction hx with
    | top => exact .part .top hy
    | part _ hz ih => exact .part ih hz
  intro k
  induction k using Node.rec (motive_2 := fun ks => ∀ t, t ∈ targetsAll ks → ∃ k ∈ ks, ∃ x, Within k x ∧ x.deref = true ∧ t ∈ x.kids) with
  | mk i v s l d ks ih =>
    intro t ht
    simp only [targets, List.mem_append] at ht
    rcases ht with ht | ht
    · obtain ⟨k, hk, x, h1, h2⟩ := ih t ht
      exact ⟨x, trans (k := .mk i v s l d ks) hk h1, h2⟩
    · split at ht
      · next hd => exact ⟨_, .top, hd, ht⟩
      · cases ht
  | nil => rename_i ht; simp [targetsAll] at ht
  | cons k ks h1 h2 =>
    rename_i t ht
    simp only [targetsAll, List.mem_append] at ht
    rcases ht with ht | ht
    · obtain ⟨x, h⟩ := h1 ht
      exact ⟨k, by simp, x, h⟩
    · obtain ⟨k', hk', x, h⟩ := h2 t ht
      exact ⟨k', by simp [hk'], x, h⟩

/-- A target whose place is not known is not copied. -/
theorem head_target {outer : List Value} {x k : Node} {d : Value} {st : State} (hp : Deep.isA db isPointer x.val = .ok true) (hk : x.kids = [k])
    (ht : targetPlace env mode db M tbl k st = .ok (none, st)) : head env mode db M tbl outer x d st = .ok (.fail, st) := by
  simp only [head, hp, Outcome.bind_ok, if_true, hk, copyTarget, ht]
  rfl

theorem head_args {outer : List Value} {x : Node} {d : Value} {st st' : State} {vs : List Value} (h : head env mode db M tbl outer x d st = .ok (.args vs, st')) :
    hasLoad env.toEnv db x.val = .ok true := by
  have hc : ∀ {st : State} {r : Bool × Mem}, copied st r ≠ (.args vs, st') := by
    intro st r h
    unfold copied at h
    split at h <;> cases h
  have bindc : ∀ {st : State} {o : Outcome (Bool × Mem)}, (o >>= fun r => (pure (copied st r) : Outcome (Head × State))) ≠ .ok (.args vs, st') := by
    intro st o h
    rw [ValueString.bind_ok_iff] at h
    obtain ⟨r, _, h⟩ := h
    exact hc (Outcome.ok.inj h)
  unfold head at h
  rw [ValueString.bind_ok_iff] at h
  obtain ⟨b, _, h⟩ := h
  split at h
  · exfalso
    split at h
    · unfold copyUnfollowed at h
      split at h
      · split at h
        · cases h
        · rw [ValueString.bind_ok_iff] at h
          obtain ⟨_, _, h⟩ := h
          rw [ValueString.bind_ok_iff] at h
          obtain ⟨_, _, h⟩ := h
          exact bindc h
      · split at h
        · rw [ValueString.bind_ok_iff] at h
          obtain ⟨⟨c, m⟩, _, h⟩ := h
          exact hc (Outcome.ok.inj h)
        · exact bindc h
        · cases h
        · cases h
    · unfold copyTarget at h
      rw [ValueString.bind_ok_iff] at h
      obtain ⟨⟨a, st₁⟩, _, h⟩ := h
      cases a with
      | none => cases h
      | some a =>
        simp only at h
        rw [ValueString.bind_ok_iff] at h
        obtain ⟨r, _, h⟩ := h
        cases r with
        | error => cases h
        | ok p =>
          simp only at h
          rw [ValueString.bind_ok_iff] at h
          obtain ⟨_, _, h⟩ := h
          rw [ValueString.bind_ok_iff] at h
          obtain ⟨⟨c, m⟩, _, h⟩ := h
          simp only at h
          split at h <;> cases h
    · cases h
  rw [ValueString.bind_ok_iff] at h
  obtain ⟨b, _, h⟩ := h
  split at h
  · exact absurd h bindc
  rw [ValueString.bind_ok_iff] at h
  obtain ⟨b, _, h⟩ := h
  split at h
  · exact absurd h bindc
  rw [ValueString.bind_ok_iff] at h
  obtain ⟨b, _, h⟩ := h
  split at h
  · exfalso
    split at h
    · rw [ValueString.bind_ok_iff] at h
      obtain ⟨_, _, h⟩ := h
      cases h
    · rw [ValueString.bind_ok_iff] at h
      obtain ⟨_, _, h⟩ := h
      cases h
    · cases h
  rw [ValueString.bind_ok_iff] at h
  obtain ⟨b, h1, h⟩ := h
  split at h
  · next hb => rw [h1, hb]
  · cases h

/-- Numbers declared `const` are not written. -/
theorem copy_const {cfg : Plat} (hn : Named db) {m : Mem} {src dst : Value} {x : Ref} {qs : List Qual} (hf : Final db dst.entry (some x) qs) {s : UInt64} {e : Nat}
    (hi : (db x).info = .base s e) (ha : dst.addr ≠ 0) (hq : Qual.const ∈ qs) : ∀ {ts : List Ty} {r : Bool × Mem}, copyLoop cfg db m src dst ts = .ok r → r.1 = false
  | [], r, h => by cases h; rfl
  | t :: ts, r, h => by
    unfold copyLoop at h
    rw [ValueString.bind_ok_iff] at h
    obtain ⟨b, _, h⟩ := h
    split at h
    · rw [ValueString.bind_ok_iff] at h
      obtain ⟨b', _, h⟩ := h
      split at h
      · cases h; rfl
      · rw [ValueString.bind_ok_iff] at h
        obtain ⟨g, _, h⟩ := h
        split at h
        · cases h; rfl
        · rename_i a _
          split at h
          · obtain ⟨c, h1, h2⟩ := setTy_const (cfg := cfg) hn (m := m) hf (by unfold Dots; rw [hi]; simp) ha t hq a
            rw [h1] at h
            simp only [Outcome.bind_ok] at h
            cases h
            simpa using h2
          · cases h
    · exact copy_const hn hf hi ha hq h
/-- A copy that succeeded. -/
theorem copyEx_true {order : Table → Table} {src dst : Value} {st st' : State} (hm : Deep.memoryMap env.deep order mode db st.m (some src) = .ok (some M))
    (h : copyEx env order mode db st (some src) (some dst) = .ok (true, st')) :
    ∃ tbl st₁, (mode.dag = true → preallocate env M (order M.map) [] st = .ok (true, tbl, st₁)) ∧ copyNode env mode db M tbl [] M.top dst st₁ = .ok (true, st') := by
  simp only [copyEx] at h
  rw [ValueString.bind_ok_iff] at h
  obtain ⟨b, _, h⟩ := h
  split at h
  · cases h
  rw [hm] at h
  simp only [Outcome.bind_ok] at h
  split at h
  · rw [ValueString.bind_ok_iff] at h
    obtain ⟨⟨ok, tbl, st₁⟩, h1, h⟩ := h
    simp only at h
    split at h
    · rw [ValueString.bind_ok_iff] at h
      obtain ⟨_, _, h⟩ := h
      cases h
    next hok =>
    rw [ValueString.bind_ok_iff] at h
    obtain ⟨⟨ok', st₂⟩, h2, h⟩ := h
    simp only at h
    split at h
    · next hok' =>
      cases h
      cases ok
      · exact absurd rfl hok
      cases ok'
      · cases hok'
      exact ⟨tbl, st₁, fun _ => h1, h2⟩
    · rw [ValueString.bind_ok_iff] at h
      obtain ⟨_, _, h⟩ := h
      cases h
  · next hd => exact ⟨[], st, fun hd' => absurd hd' hd, h⟩

end

end Verif.DeepCopy
