import Verif.ValueString.Spec
import Verif.Value.PropsBase
import Verif.PrintString.Lemmas
import Verif.CDecl.Lemmas
/-
Helper lemmas for `Verif.ValueString.Props`: one step of printing.
-/
namespace Verif.ValueString
open Verif Verif.Entry Verif.Entry.Spec Verif.Value Verif.Value.Spec Verif.Handlers Verif.PrintString.Spec Spec

/-- One step, the values inside being printed by `f`. -/
def body (env : Env) (deep : Bool) (db : Db) (m : Mem) (f : List Value → Value → Outcome (Option Text)) (outer : List Value) (p : Value) :
    Outcome (Option Text) := do
  let s ← finalCase env db p
  match ← start env deep db m s p outer with
  | .done out => return out
  | .deps vs failed =>
    let outs ← vs.mapM (f (p :: outer))
    finish env db m s p failed (vs.zip outs)

theorem walk_body (env : Env) (deep : Bool) (db : Db) (m : Mem) : walk env deep db m = body env deep db m (walk env deep db m) := by
  funext outer p
  rw [walk.eq_def]
  rfl

/-- The result of a first visit, continued. -/
def cont (env : Env) (db : Db) (m : Mem) (f : List Value → Value → Outcome (Option Text)) (s : Case) (outer : List Value) (p : Value) :
    Next → Outcome (Option Text)
  | .done out => .ok out
  | .deps vs failed => do
    let outs ← vs.mapM (f (p :: outer))
    finish env db m s p failed (vs.zip outs)

theorem body_case {env : Env} {deep : Bool} {db : Db} {m : Mem} {f : List Value → Value → Outcome (Option Text)} {outer : List Value} {p : Value} {s : Case}
    (h : finalCase env db p = .ok s) : body env deep db m f outer p = (start env deep db m s p outer >>= cont env db m f s outer p) := by
  unfold body
  rw [h]
  simp only [Outcome.bind_ok]
  cases start env deep db m s p outer with
  | ok n => cases n <;> rfl
  | _ => rfl

/-! ### The case -/

theorem finalOf_some' {db : Db} {r x : Ref} {qs : List Qual} (h : Final db r (some x) qs) (want : Info → Bool) (hw : want (db x).info = true) :
    finalOf db (some r) want = some (some x) := by
  rw [finalOf_final h]
  simp [keep, hw]

theorem finalOf_no {db : Db} {r : Ref} {f : Option Ref} {qs : List Qual} (h : Final db r f qs) (want : Info → Bool)
    (hw : ∀ x, f = some x → want (db x).info = false) : finalOf db (some r) want = some none := by
  rw [finalOf_final h]
  cases f with
  | none => rfl
  | some x => simp [keep, hw x rfl]

theorem isFunc_iff (i : Info) : isFunc i = true ↔ ∃ t ps, i = .subprogram t ps ∨ i = .subroutine t ps := by
  cases i <;> simp [isFunc]

/-- A function, called or recorded. -/
def Func (db : Db) (v : Value) : Prop :=
  ∃ x qs t ps, Final db v.entry (some x) qs ∧ ((db x).info = .subprogram t ps ∨ (db x).info = .subroutine t ps)

theorem hasLoad_iff {env : Env} {db : Db} {v : Value} {f : Option Ref} {qs : List Qual} (h : Final db v.entry f qs) :
    ∃ b, hasLoad env.toEnv db v = .ok b ∧ (b = true ↔ Packed env db v ∨ Func db v) := by
  by_cases hf : Func db v
  · obtain ⟨x, qs', t, ps, hx, hi⟩ := id hf
    refine ⟨true, ?_, by simp [hf]⟩
    rw [hasLoad, finalOf_some' hx isFunc ((isFunc_iff _).mpr ⟨t, ps, hi⟩)]
    rfl
  · have hno : finalOf db (some v.entry) isFunc = some none := by
      apply finalOf_no h
      intro x hx
      cases hb : isFunc (db x).info with
      | false => rfl
      | true =>
        obtain ⟨t, ps, hi⟩ := (isFunc_iff _).mp hb
        exact absurd ⟨x, qs, t, ps, hx ▸ h, hi⟩ hf
    unfold hasLoad
    rw [hno]
    simp only [Outcome.ofLoop_some, Outcome.bind_ok]
    split
    · next u t hi =>
      refine ⟨_, rfl, ?_⟩
      rw [Bool.or_eq_true]
      constructor
      · rintro (h | h)
        · exact .inl ⟨u, t, hi, .inl h⟩
        · exact .inl ⟨u, t, hi, .inr (.inl h)⟩
      · rintro (⟨u', t', hi', h⟩ | h)
        · rw [hi] at hi'
          cases hi'
          rcases h with h | h | ⟨x, qs, t, ps, h⟩
          · exact .inl h
          · exact .inr h
          · exact absurd ⟨x, qs, t, ps, h⟩ hf
        · exact absurd h hf
    · next hi =>
      refine ⟨false, rfl, ?_⟩
      simp only [Bool.false_eq_true, false_iff]
      rintro (⟨u', t', hi', _⟩ | h)
      · exact hi _ _ hi'
      · exact hf h

theorem isParam_iff (i : Info) : isParam i = true ↔ ∃ u t, i = .param u t := by
  cases i <;> simp [isParam]

theorem finalCase_packed {env : Env} {db : Db} (hs : Sane db) {v : Value} (h : Packed env db v) : finalCase env db v = .ok .packed := by
  obtain ⟨f, qs, hf⟩ := final_exists (hs.acyclic v.entry)
  obtain ⟨b, hb, hiff⟩ := hasLoad_iff (env := env) hf
  rw [hiff.mpr (.inl h)] at hb
  obtain ⟨u, t, hi, _⟩ := h
  unfold finalCase
  rw [(isParam_iff _).mpr ⟨u, t, hi⟩]
  simp [hb]

theorem finalCase_not {env : Env} {db : Db} (hs : Sane db) {v : Value} (h : ¬ Packed env db v) :
    finalCase env db v = (do
      Outcome.assert (v.addr ≠ 0)
      match ← Outcome.ofLoop (finalEntry db (some v.entry)) with
      | (none, _) => return .other
      | (some f, _) => return caseOf (db f).info) := by
  obtain ⟨f, qs, hf⟩ := final_exists (hs.acyclic v.entry)
  obtain ⟨b, hb, hiff⟩ := hasLoad_iff (env := env) hf
  unfold finalCase
  cases hp : isParam (db v.entry).info with
  | false =>
    simp only [Bool.false_eq_true, if_false]
    rfl
  | true =>
    obtain ⟨u, t, hi⟩ := (isParam_iff _).mp hp
    have hb' : b = false := by
      cases b with
      | false => rfl
      | true =>
        rcases hiff.mp rfl with h' | ⟨x, qs, t, ps, h'⟩
        · exact absurd h' h
        · exact absurd ⟨u, _, hi, .inr (.inr ⟨x, qs, t, ps, h'⟩)⟩ h
    simp only [if_true, hb, hb', Outcome.bind_ok, Bool.false_eq_true, if_false]
    rfl

theorem finalCase_object {env : Env} {db : Db} (hs : Sane db) {v : Value} {i : Info} (h : Object env db v i) : finalCase env db v = .ok (caseOf i) := by
  obtain ⟨hp, ha, x, qs, hx, rfl⟩ := h
  rw [finalCase_not hs hp, final_entry hx]
  simp [Outcome.assert, ha]

/-- If the case can be told, the value is of one of the known sorts. -/
theorem finalCase_inv {env : Env} {db : Db} (hs : Sane db) {v : Value} {s : Case} (h : finalCase env db v = .ok s) :
    (Packed env db v ∧ s = .packed) ∨ (∃ i, Object env db v i ∧ s = caseOf i) ∨ (¬ Packed env db v ∧ s = .other) := by
  by_cases hp : Packed env db v
  · rw [finalCase_packed hs hp] at h
    cases h
    exact .inl ⟨hp, rfl⟩
  · right
    rw [finalCase_not hs hp] at h
    by_cases ha : v.addr = 0
    · simp [Outcome.assert, ha] at h
    · obtain ⟨f, qs, hf⟩ := final_exists (hs.acyclic v.entry)
      rw [final_entry hf] at h
      simp only [Outcome.assert, ne_eq, ha, not_false_eq_true, decide_true, if_true, Outcome.bind_ok, Outcome.ofLoop_some] at h
      cases f with
      | none => cases h; exact .inr ⟨hp, rfl⟩
      | some x =>
        cases h
        exact .inl ⟨_, ⟨hp, ha, x, qs, hf, rfl⟩, rfl⟩

/-! ### Queueing and joining -/

theorem collect_iff {get : Nat → Outcome (Option Value)} : ∀ {n i : Nat} {vs : List Value},
    collect get n i = .ok (vs, false) ↔ vs.length = n ∧ ∀ (k : Nat) v, vs[k]? = some v → get (i + k) = .ok (some v)
  | 0, i, vs => by
    simp only [collect, Outcome.ok.injEq, Prod.mk.injEq, and_true]
    constructor
    · rintro rfl; simp
    · rintro ⟨h, _⟩; exact (List.length_eq_zero_iff.mp h).symm
  | n + 1, i, vs => by
    rw [collect]
    constructor
    · intro h
      cases hg : get i with
      | ok o =>
        rw [hg] at h
        cases o with
        | none => simp at h
        | some v =>
          simp only [Outcome.bind_ok] at h
          cases hc : collect get n (i + 1) with
          | ok r =>
            obtain ⟨us, b⟩ := r
            rw [hc] at h
            simp only [Outcome.bind_ok, Outcome.pure_eq, Outcome.ok.injEq, Prod.mk.injEq] at h
            obtain ⟨rfl, rfl⟩ := h
            obtain ⟨h1, h2⟩ := collect_iff.mp hc
            refine ⟨by simp [h1], ?_⟩
            intro k w hk
            cases k with
            | zero => simp at hk; subst hk; exact hg
            | succ k =>
              have := h2 k w (by simpa using hk)
              rwa [Nat.add_assoc, Nat.add_comm 1 k] at this
          | _ => rw [hc] at h; simp at h
      | _ => rw [hg] at h; simp at h
    · rintro ⟨h1, h2⟩
      cases vs with
      | nil => simp at h1
      | cons v vs =>
        have h0 := h2 0 v rfl
        rw [Nat.add_zero] at h0
        have hc : collect get n (i + 1) = .ok (vs, false) := by
          rw [collect_iff]
          refine ⟨by simpa using h1, ?_⟩
          intro k w hk
          have := h2 (k + 1) w (by simpa using hk)
          rwa [Nat.add_assoc, Nat.add_comm 1 k]
        simp [h0, hc]

/-- The texts, none of them missing. -/
def full (ws : List (Value × Text)) : List (Value × Option Text) := ws.map fun w => (w.1, some w.2)

theorem mapM_full {f : Value → Outcome (Option Text)} {P : List (Value × Option Text) → Prop} (hP : ∀ l, P l → ∀ x ∈ l, x.2 ≠ none) (vs : List Value) :
    (∃ outs, vs.mapM f = .ok outs ∧ P (vs.zip outs)) ↔
      ∃ ws : List (Value × Text), ws.map (·.1) = vs ∧ (∀ w u, (w, u) ∈ ws → f w = .ok (some u)) ∧ P (full ws) := by
  constructor
  · rintro ⟨outs, hm, hp⟩
    rw [Outcome.mapM_ok] at hm
    obtain ⟨hl, hf⟩ := hm
    have hall := hP _ hp
    refine ⟨(vs.zip outs).map fun x => (x.1, x.2.getD []), ?_, ?_, ?_⟩
    · rw [List.map_map]
      exact List.map_fst_zip (by omega)
    · intro w u hw
      rw [List.mem_map] at hw
      obtain ⟨⟨w', o⟩, hmem, he⟩ := hw
      simp only [Prod.mk.injEq] at he
      obtain ⟨rfl, rfl⟩ := he
      have hne := hall _ hmem
      obtain ⟨i, hi⟩ := List.mem_iff_getElem?.mp hmem
      rw [List.getElem?_zip_eq_some] at hi
      have := hf i _ _ hi.1 hi.2
      cases o with
      | none => exact absurd rfl hne
      | some u => exact this
    · have : full ((vs.zip outs).map fun x => (x.1, x.2.getD [])) = vs.zip outs := by
        unfold full
        rw [List.map_map]
        conv => rhs; rw [← List.map_id (vs.zip outs)]
        apply List.map_congr_left
        rintro ⟨w, o⟩ hmem
        cases o with
        | none => exact absurd rfl (hall _ hmem)
        | some u => rfl
      rw [this]
      exact hp
  · rintro ⟨ws, rfl, hf, hp⟩
    refine ⟨ws.map fun w => some w.2, ?_, ?_⟩
    · rw [Outcome.mapM_ok]
      refine ⟨by simp, ?_⟩
      intro i a b ha hb
      rw [List.getElem?_map] at ha hb
      cases hi : ws[i]? with
      | none => rw [hi] at ha; cases ha
      | some w =>
        rw [hi] at ha hb
        cases ha
        cases hb
        exact hf w.1 w.2 (List.mem_of_getElem? hi)
    · have : (ws.map (·.1)).zip (ws.map fun w => some w.2) = full ws := by
        exact List.zip_map'
      rw [this]
      exact hp

/-- Texts added one after the other. -/
def glue (s : Text) (out : Option Text) (l : List Text) : Option Text := l.foldl (fun o t => some (sep o s ++ t)) out

theorem glue_some (s a : Text) (l : List Text) : glue s (some a) l = some (a ++ l.flatMap (s ++ ·)) := by
  unfold glue
  induction l generalizing a with
  | nil => simp
  | cons t l ih =>
    rw [List.foldl_cons, ih]
    simp [sep]

theorem intercalate_cons (s t : Text) (l : List Text) : s.intercalate (t :: l) = t ++ l.flatMap (s ++ ·) := by
  induction l generalizing t with
  | nil => simp [List.intercalate]
  | cons u l ih =>
    rw [List.flatMap_cons, List.append_assoc, ← ih]
    simp [List.intercalate]

theorem glue_none (s : Text) (l : List Text) : glue s none l = if l = [] then none else some (s.intercalate l) := by
  cases l with
  | nil => rfl
  | cons t l =>
    have : glue s none (t :: l) = glue s (some t) l := by simp [glue, sep]
    rw [this, glue_some, intercalate_cons]
    simp

theorem glue_getD (s : Text) (l : List Text) : (glue s none l).getD [] = s.intercalate l := by
  rw [glue_none]
  cases l with
  | nil => rfl
  | cons t l => simp

theorem joinMembers_some {db : Db} : ∀ {l : List (Value × Option Text)} {out r}, joinMembers db l out = some r → ∀ x ∈ l, x.2 ≠ none
  | [], _, _, _ => by simp
  | (v, none) :: l, out, r, h => by simp [joinMembers] at h
  | (v, some t) :: l, out, r, h => by
    have key : ∃ out', joinMembers db l out' = some r := by
      rw [joinMembers] at h
      split at h
      · exact ⟨_, h⟩
      · split at h <;> exact ⟨_, h⟩
    obtain ⟨out', h'⟩ := key
    intro x hx
    rcases List.mem_cons.mp hx with rfl | hx
    · simp
    · exact joinMembers_some h' x hx

theorem joinMembers_full (db : Db) : ∀ (ws : List (Value × Text)) (out : Option Text),
    joinMembers db (full ws) out = some (glue [32] out (ws.flatMap fun w => memberText (db w.1.entry).name w.2))
  | [], out => rfl
  | (v, t) :: ws, out => by
    have ih := joinMembers_full db ws
    rw [full, List.map_cons, joinMembers]
    change (if t = [] then joinMembers db (full ws) out else _) = _
    by_cases ht : t = []
    · rw [if_pos ht, ih, List.flatMap_cons]
      simp [memberText, ht]
    · rw [if_neg ht, List.flatMap_cons]
      cases hn : (db v.entry).name with
      | none =>
        rw [show memberText none t = [t] by simp [memberText, ht]]
        exact ih _
      | some n =>
        rw [show memberText (some n) t = [[46] ++ n ++ [32, 61, 32] ++ t ++ [44]] by simp [memberText, ht]]
        rw [show (List.map (fun w : Value × Text => (w.1, some w.2)) ws) = full ws from rfl]
        simp [glue]
        exact ih _

theorem joinElements_some : ∀ {l : List (Value × Option Text)} {out r}, joinElements l out = some r → ∀ x ∈ l, x.2 ≠ none
  | [], _, _, _ => by simp
  | (v, none) :: l, out, r, h => by simp [joinElements] at h
  | (v, some t) :: l, out, r, h => by
    rw [joinElements] at h
    intro x hx
    rcases List.mem_cons.mp hx with rfl | hx
    · simp
    · exact joinElements_some h x hx

theorem joinElements_full : ∀ (ws : List (Value × Text)) (out : Option Text),
    joinElements (full ws) out = some (glue [32] out (ws.map fun w => w.2 ++ [44]))
  | [], out => rfl
  | (v, t) :: ws, out => by
    rw [full, List.map_cons, joinElements]
    rw [show (List.map (fun w : Value × Text => (w.1, some w.2)) ws) = full ws from rfl, joinElements_full ws]
    simp [glue]

theorem joinParams_some {db : Db} {packed : Bool} : ∀ {l : List (Value × Option Text)} {out r}, joinParams db packed l out = .ok (some r) → ∀ x ∈ l, x.2 ≠ none
  | [], _, _, _ => by simp
  | (v, none) :: l, out, r, h => by simp [joinParams] at h
  | (v, some t) :: l, out, r, h => by
    have key : ∃ out', joinParams db packed l out' = .ok (some r) := by
      rw [joinParams] at h
      split at h
      · cases hc : CDecl.cdecl db v.entry with
        | ok o =>
          rw [hc] at h
          cases o with
          | none =>
            simp only [Outcome.bind_ok] at h
            split at h
            · cases h
            · cases h
          | some pat =>
            simp only [Outcome.bind_ok] at h
            cases hf : CDecl.fmt pat [[]] with
            | ok type =>
              rw [hf] at h
              simp only [Outcome.bind_ok] at h
              split at h <;> exact ⟨_, h⟩
            | _ => rw [hf] at h; cases h
        | _ => rw [hc] at h; cases h
      · exact ⟨_, h⟩
    obtain ⟨out', h'⟩ := key
    intro x hx
    rcases List.mem_cons.mp hx with rfl | hx
    · simp
    · exact joinParams_some h' x hx

theorem joinParams_plain (db : Db) : ∀ (ws : List (Value × Text)) (out : Option Text),
    joinParams db false (full ws) out = .ok (some (glue [44, 32] out (ws.map (·.2))))
  | [], out => rfl
  | (v, t) :: ws, out => by
    rw [full, List.map_cons, joinParams]
    simp only [Bool.false_eq_true, if_false]
    exact joinParams_plain db ws _

theorem cut_unique {t u w : Text} (h : CDecl.Spec.Cut t u) (h' : CDecl.Spec.Cut t w) : u = w := by
  obtain ⟨⟨k, hk⟩, hu⟩ := h
  obtain ⟨⟨j, hj⟩, hw⟩ := h'
  have key : ∀ (k j : Nat) (u w : Text), u ++ List.replicate k 32 = w ++ List.replicate j 32 → u.getLast? ≠ some 32 → w.getLast? ≠ some 32 → u = w := by
    intro k
    induction k with
    | zero =>
      intro j u w h hu hw
      cases j with
      | zero => simpa using h
      | succ j =>
        rw [List.replicate_succ', ← List.append_assoc] at h
        simp only [List.replicate_zero, List.append_nil] at h
        exact absurd (by rw [h]; simp) hu
    | succ k ih =>
      intro j u w h hu hw
      cases j with
      | zero =>
        rw [List.replicate_succ', ← List.append_assoc] at h
        simp only [List.replicate_zero, List.append_nil] at h
        exact absurd (by rw [← h]; simp) hw
      | succ j =>
        rw [List.replicate_succ', ← List.append_assoc, List.replicate_succ', ← List.append_assoc] at h
        exact ih j u w (List.append_cancel_right h) hu hw
  exact key k j u w (hk ▸ hj) hu hw

theorem quoted_iff (t : Text) : quoted t = true ↔ t.head? = some 34 := by simp [quoted]

/-- The arguments of a list, with their types. -/
inductive Args (db : Db) : List (Value × Text) → List Text → Prop where
  | nil : Args db [] []
  | cons {w u x ws us} : Argument db w u x → Args db ws us → Args db ((w, u) :: ws) (x :: us)

theorem args_iff {db : Db} : ∀ {ws : List (Value × Text)} {us : List Text},
    Args db ws us ↔ us.length = ws.length ∧ ∀ (i : Nat) w u x, ws[i]? = some (w, u) → us[i]? = some x → Argument db w u x
  | [], us => by
    constructor
    · rintro ⟨⟩; simp
    · rintro ⟨h, _⟩
      cases us with
      | nil => exact .nil
      | cons u us => simp at h
  | (w, u) :: ws, us => by
    constructor
    · intro h
      cases h with
      | cons h1 h2 =>
        obtain ⟨hl, h2⟩ := args_iff.mp h2
        refine ⟨by simp [hl], ?_⟩
        intro i w' u' x hw hx
        cases i with
        | zero => simp at hw hx; obtain ⟨rfl, rfl⟩ := hw; subst hx; exact h1
        | succ i => exact h2 i w' u' x (by simpa using hw) (by simpa using hx)
    · rintro ⟨hl, h⟩
      cases us with
      | nil => simp at hl
      | cons x us =>
        refine .cons (h 0 w u x rfl rfl) (args_iff.mpr ⟨by simpa using hl, fun i w' u' y hw hy => h (i + 1) w' u' y (by simpa using hw) (by simpa using hy)⟩)

theorem typeText_of {db : Db} {r : Ref} {type : Text} (h : TypeText db r type) {pat} (hc : CDecl.cdecl db r = .ok (some pat)) : CDecl.fmt pat [[]] = .ok type := by
  obtain ⟨pat', h1, h2⟩ := h
  rw [hc] at h1
  cases h1
  exact h2

theorem joinParams_typed (db : Db) : ∀ (ws : List (Value × Text)) (out r : Option Text),
    joinParams db true (full ws) out = .ok (some r) ↔ ∃ us, Args db ws us ∧ r = glue [44, 32] out us
  | [], out, r => by
    constructor
    · intro h
      cases h
      exact ⟨[], .nil, rfl⟩
    · rintro ⟨us, h, rfl⟩
      cases h
      rfl
  | (v, t) :: ws, out, r => by
    have ih := joinParams_typed db ws
    rw [full, List.map_cons, joinParams]
    simp only [if_true]
    rw [show (List.map (fun w : Value × Text => (w.1, some w.2)) ws) = full ws from rfl]
    constructor
    · intro h
      cases hc : CDecl.cdecl db v.entry with
      | ok o =>
        rw [hc] at h
        cases o with
        | none =>
          simp only [Outcome.bind_ok] at h
          split at h
          · cases h
          · cases h
        | some pat =>
          simp only [Outcome.bind_ok] at h
          cases hf : CDecl.fmt pat [[]] with
          | ok type =>
            rw [hf] at h
            simp only [Outcome.bind_ok] at h
            split at h
            · next hq =>
              obtain ⟨us, h1, h2⟩ := (ih _ _).mp h
              exact ⟨t :: us, .cons (.literal ⟨pat, hc, hf⟩ ((quoted_iff t).mp hq)) h1, h2⟩
            · next hq =>
              obtain ⟨us, h1, h2⟩ := (ih _ _).mp h
              refine ⟨([40] ++ CDecl.trim type ++ [41] ++ t) :: us, .cons (.typed ⟨pat, hc, hf⟩ (CDecl.trim_cut type) (fun h => hq ((quoted_iff t).mpr h))) h1, ?_⟩
              rw [h2]
              simp [glue]
          | _ => rw [hf] at h; cases h
      | _ => rw [hc] at h; cases h
    · rintro ⟨us, h, rfl⟩
      cases h with
      | cons h1 h2 =>
        cases h1 with
        | literal hty hq =>
          obtain ⟨pat, hc, hf⟩ := hty
          simp only [hc, hf, Outcome.bind_ok, (quoted_iff t).mpr hq, if_true]
          exact (ih _ _).mpr ⟨_, h2, rfl⟩
        | typed hty hcut hq =>
          obtain ⟨pat, hc, hf⟩ := hty
          have hq' : quoted t = false := by
            cases hb : quoted t with
            | false => rfl
            | true => exact absurd ((quoted_iff t).mp hb) hq
          simp only [hc, hf, Outcome.bind_ok, hq', Bool.false_eq_true, if_false]
          rw [ih]
          refine ⟨_, h2, ?_⟩
          rw [cut_unique hcut (CDecl.trim_cut _)]
          simp [glue]

/-! ### Questions to handlers, new values -/

theorem request_iff {env : Env} {ev : Event} {p : Value} {outer : List Value} {r : Option Value} :
    request env.tags ev p outer = .ok (some r) ↔ Reply env ev p outer r := by
  constructor
  · intro h
    unfold request at h
    cases ht : env.tags with
    | none => rw [ht] at h; cases h; exact .noMap ht
    | some tags =>
      rw [ht] at h
      simp only [handlerOf] at h
      cases hh : tags p.entry with
      | none => rw [hh] at h; cases h; exact .noHandler ht hh
      | some hd =>
        rw [hh] at h
        simp only at h
        cases hr : hd ev ((p :: outer).map some) with
        | ok cr =>
          obtain ⟨c, r'⟩ := cr
          rw [hr] at h
          simp only [Outcome.bind_ok] at h
          split at h
          · cases h
          · next hc =>
            cases h
            simp only [ne_eq, Decidable.not_not] at hc
            subst hc
            exact .reply ht hh hr
        | _ => rw [hr] at h; cases h
  · intro h
    cases h with
    | noMap ht => simp [request, ht]
    | noHandler ht hh => simp [request, ht, handlerOf, hh]
    | reply ht hh hr =>
      unfold request
      rw [ht]
      simp only [handlerOf, hh]
      rw [List.map_cons, hr]
      rfl

theorem countValue_array {env : Env} {db : Db} {m : Mem} {v : Value} {x : Ref} {qs : List Qual} {t : Option Ref} {n : Int}
    (h : Final db v.entry (some x) qs) (ha : v.addr ≠ 0) (hi : (db x).info = .array t n) (c : Int) :
    countValue env db m v c = .ok (t.map fun e => ⟨env.dyn { info := .array (some e) c }, v.addr⟩) := by
  obtain ⟨h1, h2, _⟩ := C52_new_element_count db v.entry _ _ h c
  unfold countValue elementCountValue
  simp only [ha, if_false, final_entry h, Outcome.ofLoop_some, Outcome.bind_ok, hi, Outcome.pure_eq]
  cases t with
  | some e =>
    rw [(h1 x e n rfl (.inr hi)).1]
    simp [newValue, ha]
  | none =>
    rw [h2 (by intro y u hy; cases hy; simp [hi])]
    simp

theorem countValue_pointer {env : Env} {db : Db} {m : Mem} {v : Value} {x : Ref} {qs : List Qual} {t : Option Ref} {a : Nat}
    (h : Final db v.entry (some x) qs) (ha : v.addr ≠ 0) (hi : (db x).info = .pointer t) (hm : Holds m v.addr 8 a) (h0 : a ≠ 0) (c : Int) :
    countValue env db m v c = .ok (t.map fun e => ⟨env.dyn { info := .array (some e) c }, a⟩) := by
  obtain ⟨h1, h2, _⟩ := C52_new_element_count db v.entry _ _ h c
  rw [holds_loadN] at hm
  unfold countValue elementCountValue
  simp only [ha, if_false, final_entry h, Outcome.ofLoop_some, Outcome.bind_ok, hi, Outcome.pure_eq, hm, h0]
  cases t with
  | some e =>
    rw [(h1 x e 0 rfl (.inl hi)).1]
    simp [newValue, h0]
  | none =>
    rw [h2 (by intro y u hy; cases hy; simp [hi])]
    simp

theorem hasElements_iff {db : Db} (hs : Sane db) (v : Value) : ∃ b, hasElements db v = .ok b ∧ (b = true ↔ ∃ x qs e n, Final db v.entry (some x) qs ∧ (db x).info = .array e n) := by
  obtain ⟨f, qs, hf⟩ := final_exists (hs.acyclic v.entry)
  unfold hasElements
  by_cases h : ∃ x e n, f = some x ∧ (db x).info = .array e n
  · obtain ⟨x, e, n, rfl, hi⟩ := h
    refine ⟨true, ?_, ?_⟩
    · rw [finalOf_some' hf isArray (by rw [hi]; rfl)]; rfl
    · simp only [true_iff]
      exact ⟨x, qs, e, n, hf, hi⟩
  · refine ⟨false, ?_, ?_⟩
    · rw [finalOf_no hf isArray]
      · rfl
      · intro x hx
        cases hi : (db x).info with
        | array e n => exact absurd ⟨x, e, n, hx, hi⟩ h
        | _ => rfl
    · simp only [Bool.false_eq_true, false_iff]
      rintro ⟨x, qs', e, n, hf', hi⟩
      exact h ⟨x, e, n, final_unique hf hf', hi⟩

theorem elementCount_of {db : Db} (hs : Sane db) {v : Value} {x : Ref} {qs : List Qual} {e : Option Ref} {n : Int}
    (h : Final db v.entry (some x) qs) (hi : (db x).info = .array e n) : valueElementCount db (some v) = .ok n := by
  have hb := hs.counts x e n hi
  obtain ⟨_, h2, _⟩ := C52_accessors_partial db x _ _ (final_of_final h)
  have := (h2 x e n rfl hi).2.2 hb.1 (by omega)
  unfold valueElementCount
  simp only [finalOf_some' h isArray (by rw [hi]; rfl), Outcome.ofLoop_some, Outcome.bind_ok, this]

/-! ### Literals -/

theorem measure_none {pr : UInt8 → Bool} {m : Mem} {c : UInt8} (hc : ¬ Expressible pr c) : ∀ (cs : List UInt8) (left a len : Nat), cs.length < left →
    Bytes m a (cs ++ [c]) → (∀ d ∈ cs, Expressible pr d) → len + 2 * cs.length ≤ Str.INT_MAX → PrintString.measure pr m left a len = .ok none
  | cs, 0, a, len, h, _, _, _ => by omega
  | [], left + 1, a, len, h, hb, hd, hl => by
    have h1 := (PrintString.bytes_cons hb).1
    have h2 : PrintString.findSpecial c PrintString.specialChars = none := (PrintString.find_none c).mpr fun e he => hc (.inr ⟨e, he⟩)
    have h3 : pr c = false := by
      cases hp : pr c with
      | false => rfl
      | true => exact absurd (.inl hp) hc
    rw [PrintString.measure, h1]
    simp [h2, h3]
  | d :: cs, left + 1, a, len, h, hb, hd, hl => by
    obtain ⟨h1, hb'⟩ := PrintString.bytes_cons hb
    have hd' : ∀ e ∈ cs, Expressible pr e := fun e he => hd e (List.mem_cons_of_mem _ he)
    simp only [List.length_cons] at h hl
    rw [PrintString.measure, h1]
    cases hf : PrintString.findSpecial d PrintString.specialChars with
    | some e =>
      simp only [hf]
      rw [if_pos (by omega)]
      exact measure_none hc cs left (a + 1) (len + 2) (by omega) hb' hd' (by omega)
    | none =>
      have hp : pr d = true := by
        rcases hd d List.mem_cons_self with h | ⟨e, he⟩
        · exact h
        · exact absurd he ((PrintString.find_none d).mp hf e)
      simp only [hf, hp, if_true]
      rw [if_pos (by omega)]
      exact measure_none hc cs left (a + 1) (len + 1) (by omega) hb' hd' (by omega)

/-- What the first loop finds out. -/
theorem measure_inv {pr : UInt8 → Bool} {m : Mem} : ∀ (left a len : Nat) {r}, PrintString.measure pr m left a len = .ok r →
    (r ≠ none → ∃ cs : List UInt8, cs.length = left ∧ Bytes m a cs ∧ ∀ c ∈ cs, Expressible pr c) ∧
    (r = none → ∃ (cs : List UInt8) (c : UInt8), cs.length < left ∧ Bytes m a (cs ++ [c]) ∧ (∀ d ∈ cs, Expressible pr d) ∧ ¬ Expressible pr c)
  | 0, a, len, r, h => by
    cases h
    exact ⟨fun _ => ⟨[], rfl, by intro k c hk; simp at hk, by simp⟩, fun h => by cases h⟩
  | left + 1, a, len, r, h => by
    rw [PrintString.measure] at h
    cases hm : m a with
    | none => rw [hm] at h; cases h
    | some d =>
      rw [hm] at h
      have cons : ∀ {cs : List UInt8}, Bytes m (a + 1) cs → Bytes m a (d :: cs) := by
        intro cs hb k c hk
        cases k with
        | zero => simp at hk; subst hk; exact hm
        | succ k =>
          have := hb k c (by simpa using hk)
          rwa [Nat.add_assoc, Nat.add_comm 1 k] at this
      have step : ∀ {len'}, Expressible pr d → PrintString.measure pr m left (a + 1) len' = .ok r → _ := fun {len'} hd h => by
        obtain ⟨h1, h2⟩ := measure_inv left (a + 1) len' h
        refine (⟨?_, ?_⟩ : (r ≠ none → ∃ cs : List UInt8, cs.length = left + 1 ∧ Bytes m a cs ∧ ∀ c ∈ cs, Expressible pr c) ∧
    (r = none → ∃ (cs : List UInt8) (c : UInt8), cs.length < left + 1 ∧ Bytes m a (cs ++ [c]) ∧ (∀ d ∈ cs, Expressible pr d) ∧ ¬ Expressible pr c))
        · intro hr
          obtain ⟨cs, hl, hb, hc⟩ := h1 hr
          exact ⟨d :: cs, by simp [hl], cons hb, by simpa using ⟨hd, hc⟩⟩
        · intro hr
          obtain ⟨cs, c, hl, hb, hc, hn⟩ := h2 hr
          exact ⟨d :: cs, c, by simp; omega, cons hb, by simpa using ⟨hd, hc⟩, hn⟩
      cases hf : PrintString.findSpecial d PrintString.specialChars with
      | some e =>
        simp only [hf] at h
        split at h
        · exact step (.inr ⟨e, (PrintString.find_iff d e).mp hf⟩) h
        · cases h
      | none =>
        simp only [hf] at h
        split at h
        · next hp =>
          split at h
          · exact step (.inl hp) h
          · cases h
        · next hp =>
          cases h
          refine ⟨fun h => absurd rfl h, fun _ => ⟨[], d, by simp, ?_, by simp, ?_⟩⟩
          · intro k c hk
            cases k with
            | zero => simp at hk; subst hk; exact hm
            | succ k => simp at hk
          · rintro (h | ⟨e, he⟩)
            · exact hp h
            · exact (PrintString.find_none d).mp hf e he

theorem escaped_iff : ∀ {cs s : List UInt8}, Escaped cs s ↔ s = PrintString.encAll cs
  | [], s => by
    constructor
    · rintro ⟨⟩; rfl
    · rintro rfl; exact .nil
  | c :: cs, s => by
    rw [PrintString.encAll_cons]
    unfold PrintString.enc
    constructor
    · intro h
      cases h with
      | plain h1 h2 =>
        rw [(PrintString.find_none c).mpr h1, escaped_iff.mp h2]
        rfl
      | escape h1 h2 =>
        rw [(PrintString.find_iff _ _).mpr h1, escaped_iff.mp h2]
        rfl
    · rintro rfl
      cases hf : PrintString.findSpecial c PrintString.specialChars with
      | some e => exact .escape ((PrintString.find_iff _ _).mp hf) (escaped_iff.mpr rfl)
      | none => exact .plain ((PrintString.find_none c).mp hf) (escaped_iff.mpr rfl)

theorem chars_array {db : Db} {v : Value} {k : Nat} {e : Option Ref} {n : Int} (hc : Chars db v k) (ha : IsArray db v e n) : n = k := by
  obtain ⟨_, x, qs, t, f, qs', bs, be, hx, hxi, _⟩ := hc
  obtain ⟨_, y, qs'', hy, hyi⟩ := ha
  have := final_unique hx hy
  cases this
  rw [hxi] at hyi
  cases hyi
  rfl

/-- The attempt to print an array as a literal. -/
theorem dprintable_spec {pr : UInt8 → Bool} {db : Db} {m : Mem} (hs : Sane db) (hp : Locale pr) {v : Value} {e : Option Ref} {n : Int} (ha : IsArray db v e n) :
    (∀ block, PrintString.dprintable pr true db m (some v) = .ok (some block) → ∃ s, Str.cstr block = .ok s ∧ Literal pr db m v (34 :: s ++ [34])) ∧
    (∀ t, Literal pr db m v t → ∃ block s, PrintString.dprintable pr true db m (some v) = .ok (some block) ∧ Str.cstr block = .ok s ∧ t = 34 :: s ++ [34]) ∧
    (PrintString.dprintable pr true db m (some v) = .ok none ↔ NoLiteral pr db m v) := by
  have hsize : ∀ k, Chars db v k → k < 2 ^ 30 := by
    intro k hk
    obtain ⟨_, x, qs, hx, hxi⟩ := id ha
    have := hs.counts x _ _ hxi
    have := chars_array hk ha
    omega
  have hlit : ∀ (cs : List UInt8), Chars db v (cs.length + 1) → cs ≠ [] → Bytes m v.addr (cs ++ [0]) → (∀ c ∈ cs, Expressible pr c) →
      PrintString.dprintable pr true db m (some v) = .ok (some (PrintString.encAll cs ++ [0])) ∧ Str.cstr (PrintString.encAll cs ++ [0]) = .ok (PrintString.encAll cs) := by
    intro cs hc hne hb he
    have h2 : 2 ≤ cs.length + 1 := by
      have := List.length_pos_iff.mpr hne
      omega
    have h0 : m (v.addr + (cs.length + 1 - 1)) = some 0 := hb cs.length 0 (by simp)
    have hle := PrintString.encAll_len cs
    have hsz := hsize _ hc
    rw [PrintString.dprintable_chars hc h2 (by omega) h0, if_pos rfl, PrintString.escape_all (PrintString.bytes_left hb) he (by unfold Str.INT_MAX; omega)]
    exact ⟨rfl, Str.cstr_spec (PrintString.enc_no_zero hp he)⟩
  by_cases hch : ∃ k, Chars db v k ∧ 2 ≤ k
  · obtain ⟨k, hk, h2⟩ := hch
    have hsz := hsize _ hk
    have hnk := chars_array hk ha
    have huniq : ∀ k', Chars db v k' → k' = k := by
      intro k' hk'
      have := chars_array hk' ha
      omega
    cases hm : m (v.addr + (k - 1)) with
    | none =>
      have hub : PrintString.dprintable pr true db m (some v) = .ub := by
        obtain ⟨ha', x, qs, t, f, qs', bs, be, hx, hxi, hf, hfi, hfn⟩ := hk
        have hxx := final_of_final hx
        have h3 : finalEntry db (some t) = some (some f, _) := final_entry hf
        have h4 : elementEntry db (some v.entry) = some (some t) := by
          simp [elementEntry, finalOf_some' hx isArray (by rw [hxi]; rfl), hxi]
        simp only [PrintString.dprintable, finalOf_some' hx isArray (by rw [hxi]; rfl), Outcome.ofLoop_some, Outcome.bind_ok, ha', if_false, h4, h3,
          hfi, isBase, hfn, Bool.not_true, Bool.false_eq_true, elementCount_of hs hx hxi]
        rw [if_neg (by decide), if_neg (by omega)]
        simp only [Int.toNat_natCast, hm]
      refine ⟨?_, ?_, ?_⟩
      · intro block h; rw [hub] at h; cases h
      · rintro t ⟨cs, s, h1, h2', h3, h4, h5, rfl⟩
        have := huniq _ h1
        subst this
        have h0 := h3 cs.length 0 (by simp)
        simp at hm
        rw [hm] at h0
        cases h0
      · rw [hub]
        constructor
        · intro h; cases h
        · intro h
          exfalso
          cases h with
          | other h => exact h k hk
          | short h h' =>
            have := chars_array hk h
            omega
          | unterminated h1 h2 h3 h4 =>
            have := huniq _ h1
            subst this
            rw [hm] at h3; cases h3
          | unprintable h1 h2 h3 h4 h5 h6 =>
            have := huniq _ h1
            subst this
            rw [hm] at h3; cases h3
    | some c =>
      have hd := PrintString.dprintable_chars (pr := pr) (alloc := true) hk h2 (by omega) hm
      by_cases hc : c = 0
      · subst hc
        rw [if_pos rfl] at hd
        have hmeas : ∀ r, PrintString.measure pr m (k - 1) v.addr 1 = .ok r → _ := fun r h => measure_inv (k - 1) v.addr 1 h
        have hnone : PrintString.measure pr m (k - 1) v.addr 1 = .ok none → PrintString.dprintable pr true db m (some v) = .ok none := by
          intro h
          rw [hd, PrintString.escape, h]
          rfl
        have hgood : ∀ l, PrintString.measure pr m (k - 1) v.addr 1 = .ok (some l) → ∃ cs : List UInt8, Chars db v (cs.length + 1) ∧ cs ≠ [] ∧ Bytes m v.addr (cs ++ [0]) ∧ ∀ c ∈ cs, Expressible pr c := by
          intro l h
          obtain ⟨cs, hl, hb, he⟩ := (hmeas _ h).1 (by simp)
          have : cs.length + 1 = k := by omega
          refine ⟨cs, this ▸ hk, ?_, ?_, he⟩
          · rintro rfl
            simp at this
            omega
          · intro j d hj
            by_cases hjl : j < cs.length
            · rw [List.getElem?_append_left hjl] at hj
              exact hb j d hj
            · have hjl' : j = cs.length := by
                have := (List.getElem?_eq_some_iff.mp hj).1
                simp at this
                omega
              subst hjl'
              simp at hj
              subst hj
              rw [hl]
              exact hm
        refine ⟨?_, ?_, ?_⟩
        · intro block h
          cases hms : PrintString.measure pr m (k - 1) v.addr 1 with
          | ok r =>
            cases r with
            | none => rw [hnone hms] at h; cases h
            | some l =>
              obtain ⟨cs, h1, h2, h3, h4⟩ := hgood l hms
              obtain ⟨e1, e2⟩ := hlit cs h1 h2 h3 h4
              rw [e1] at h
              cases h
              exact ⟨_, e2, cs, _, h1, h2, h3, h4, escaped_iff.mpr rfl, by simp⟩
          | _ => rw [hd, PrintString.escape, hms] at h; cases h
        · rintro t ⟨cs, s, h1, h2, h3, h4, h5, rfl⟩
          obtain ⟨e1, e2⟩ := hlit cs h1 h2 h3 h4
          refine ⟨_, _, e1, e2, ?_⟩
          rw [escaped_iff.mp h5]
          simp
        · constructor
          · intro h
            cases hms : PrintString.measure pr m (k - 1) v.addr 1 with
            | ok r =>
              cases r with
              | none =>
                obtain ⟨cs, c, g1, g2, g3, g4⟩ := (hmeas _ hms).2 rfl
                exact .unprintable hk (by omega) hm g2 g3 g4
              | some l =>
                obtain ⟨cs, h1, h2, h3, h4⟩ := hgood l hms
                rw [(hlit cs h1 h2 h3 h4).1] at h
                cases h
            | _ => rw [hd, PrintString.escape, hms] at h; cases h
          · intro h
            cases h with
            | other h => exact absurd hk (h k)
            | short h h' =>
              have := chars_array hk h
              omega
            | unterminated h1 h2 h3 h4 =>
              have := huniq _ h1
              subst this
              rw [hm] at h3
              cases h3
              exact absurd rfl h4
            | @unprintable k' cs c h1 h2 h3 h4 h5 h6 =>
              have := huniq _ h1
              subst this
              exact hnone (measure_none h6 cs _ _ _ (by omega) h4 h5 (by unfold Str.INT_MAX; omega))
      · rw [if_neg hc] at hd
        refine ⟨?_, ?_, ?_⟩
        · intro block h; rw [hd] at h; cases h
        · rintro t ⟨cs, s, h1, h2', h3, h4, h5, rfl⟩
          have := huniq _ h1
          subst this
          have h0 := h3 cs.length 0 (by simp)
          simp at hm
          rw [hm] at h0
          cases h0
          exact absurd rfl hc
        · rw [hd]
          simp only [true_iff]
          exact .unterminated hk h2 hm hc
  · have hd : PrintString.dprintable pr true db m (some v) = .ok none := by
      obtain ⟨ha', x, qs, hx, hxi⟩ := id ha
      have h4 : elementEntry db (some v.entry) = some e := by
        simp [elementEntry, finalOf_some' hx isArray (by rw [hxi]; rfl), hxi]
      simp only [PrintString.dprintable, finalOf_some' hx isArray (by rw [hxi]; rfl), Outcome.ofLoop_some, Outcome.bind_ok, ha', if_false, h4]
      cases e with
      | none => rfl
      | some t =>
        obtain ⟨f, qs', hf⟩ := final_exists (hs.acyclic t)
        rw [final_entry hf]
        simp only [Outcome.ofLoop_some, Outcome.bind_ok]
        cases f with
        | none => rfl
        | some f =>
          simp only
          cases hb : isBase (db f).info with
          | false => rfl
          | true =>
            simp only [Bool.not_true, Bool.false_eq_true, if_false]
            obtain ⟨bs, be, hbi⟩ : ∃ bs be, (db f).info = .base bs be := by
              cases hi : (db f).info <;> simp [hi, isBase] at hb
              exact ⟨_, _, rfl⟩
            cases hn : (db f).name with
            | none => exact absurd hn (hs.named f bs be hbi)
            | some name =>
              simp only
              by_cases hname : name = nm ['c', 'h', 'a', 'r']
              · subst hname
                simp only [elementCount_of hs hx hxi, Outcome.bind_ok]
                rw [if_neg (by simp), if_pos]
                · rfl
                · rcases Int.lt_or_le n 2 with h | h
                  · exact h
                  · exfalso
                    apply hch
                    refine ⟨n.toNat, ⟨ha', x, qs, t, f, qs', bs, be, hx, ?_, hf, hbi, hn⟩, by omega⟩
                    rw [hxi, Int.toNat_of_nonneg (by omega)]
              · rw [if_pos hname]
                rfl
    refine ⟨?_, ?_, ?_⟩
    · intro block h; rw [hd] at h; cases h
    · rintro t ⟨cs, s, h1, h2', h3, h4, h5, rfl⟩
      exact absurd ⟨_, h1, by have := List.length_pos_iff.mpr h2'; omega⟩ hch
    · rw [hd]
      simp only [true_iff]
      by_cases h : ∃ k, Chars db v k
      · obtain ⟨k, hk⟩ := h
        refine .short ha ?_
        have := chars_array hk ha
        have : ¬ 2 ≤ k := fun h => hch ⟨k, hk, h⟩
        omega
      · exact .other fun n hn => h ⟨n, hn⟩

/-! ### One step, by cases -/

theorem bind_ok_iff {α β} {x : Outcome α} {g : α → Outcome β} {b : β} : (x >>= g) = .ok b ↔ ∃ a, x = .ok a ∧ g a = .ok b := by
  cases x with
  | ok a => simp
  | _ => simp

theorem finish_some {env : Env} {db : Db} {m : Mem} {s : Case} {p : Value} {l : List (Value × Option Text)} {t : Text}
    (h : finish env db m s p false l = .ok (some t)) : ∀ x ∈ l, x.2 ≠ none := by
  unfold finish at h
  simp only [Bool.false_eq_true, if_false] at h
  have hpar : ∀ {s}, finishParams env db s p l = .ok (some t) → ∀ x ∈ l, x.2 ≠ none := by
    intro s h
    unfold finishParams at h
    rw [bind_ok_iff] at h
    obtain ⟨o, h1, h2⟩ := h
    cases o with
    | none => cases h2
    | some r => exact joinParams_some h1
  have hstr : finishStruct db p l = some t → ∀ x ∈ l, x.2 ≠ none := by
    intro h
    unfold finishStruct at h
    cases hj : joinMembers db l none with
    | none => rw [hj] at h; cases h
    | some r => exact joinMembers_some hj
  cases s <;> simp only at h
  case pointer =>
    match l, h with
    | [(arr, some t')], _ => simp
    | [(_, none)], h => cases h
    | [], h => cases h
    | a :: b :: l', h => simp [finishPointer] at h
  case struct => exact hstr (by simpa using h)
  case union => exact hstr (by simpa using h)
  case array =>
    unfold finishArray at h
    cases hj : joinElements l none with
    | none => rw [hj] at h; cases h
    | some r => exact joinElements_some hj
  case packed => exact hpar h
  case subroutine => exact hpar h
  case subprogram => exact hpar h
  all_goals cases h

theorem cont_deps {env : Env} {db : Db} {m : Mem} {f : List Value → Value → Outcome (Option Text)} {s : Case} {outer : List Value} {p : Value}
    {vs : List Value} {failed : Bool} {t : Text} : cont env db m f s outer p (.deps vs failed) = .ok (some t) ↔
      failed = false ∧ ∃ ws : List (Value × Text), ws.map (·.1) = vs ∧ (∀ w u, (w, u) ∈ ws → f (p :: outer) w = .ok (some u)) ∧
        finish env db m s p false (full ws) = .ok (some t) := by
  unfold cont
  simp only
  rw [bind_ok_iff]
  cases failed with
  | true =>
    constructor
    · rintro ⟨outs, _, h⟩
      simp [finish] at h
    · rintro ⟨h, _⟩; cases h
  | false =>
    rw [mapM_full (P := fun l => finish env db m s p false l = .ok (some t)) (fun l hl => finish_some hl)]
    simp

theorem cont_collect {env : Env} {db : Db} {m : Mem} {f : List Value → Value → Outcome (Option Text)} {s : Case} {outer : List Value} {p : Value}
    {get : Nat → Outcome (Option Value)} {n : Nat} {t : Text} :
    ((do let (vs, failed) ← collect get n 0; return Next.deps vs failed) >>= cont env db m f s outer p) = .ok (some t) ↔
      ∃ ws : List (Value × Text), ws.length = n ∧ (∀ (i : Nat) w u, ws[i]? = some (w, u) → get i = .ok (some w)) ∧
        (∀ w u, (w, u) ∈ ws → f (p :: outer) w = .ok (some u)) ∧ finish env db m s p false (full ws) = .ok (some t) := by
  rw [bind_ok_iff]
  constructor
  · rintro ⟨nx, h1, h2⟩
    rw [bind_ok_iff] at h1
    obtain ⟨⟨vs, failed⟩, h1, h3⟩ := h1
    cases h3
    obtain ⟨rfl, ws, rfl, h3, h4⟩ := cont_deps.mp h2
    obtain ⟨h5, h6⟩ := collect_iff.mp h1
    refine ⟨ws, by simpa using h5, ?_, h3, h4⟩
    intro i w u hi
    have := h6 i w (by simp [hi])
    simpa using this
  · rintro ⟨ws, h1, h2, h3, h4⟩
    refine ⟨.deps (ws.map (·.1)) false, ?_, cont_deps.mpr ⟨rfl, ws, rfl, h3, h4⟩⟩
    rw [bind_ok_iff]
    refine ⟨(ws.map (·.1), false), ?_, rfl⟩
    rw [collect_iff]
    refine ⟨by simpa using h1, ?_⟩
    intro k v hk
    rw [List.getElem?_map] at hk
    cases hi : ws[k]? with
    | none => rw [hi] at hk; cases hk
    | some wu =>
      rw [hi] at hk
      cases hk
      simpa using h2 k wu.1 wu.2 hi

theorem isMember_iff (i : Info) : isMember i = true ↔ ∃ mi, i = .member mi := by
  cases i <;> simp [isMember]

theorem finishStruct_iff {db : Db} {p : Value} {ws : List (Value × Text)} {t : Text} :
    finishStruct db p (full ws) = some t ↔ Wrapped db p (membersText db ws) t := by
  unfold finishStruct
  rw [joinMembers_full]
  simp only [glue_getD]
  rw [show [32].intercalate (ws.flatMap fun w => memberText (db w.1.entry).name w.2) = membersText db ws from rfl]
  constructor
  · intro h
    split at h
    · next hm =>
      cases h
      obtain ⟨mi, hi⟩ := (isMember_iff _).mp hm.1
      exact .bare hi hm.2
    · next hm =>
      cases h
      by_cases h1 : isMember (db p.entry).info = true
      · cases hn : (db p.entry).name with
        | none => exact absurd ⟨h1, hn⟩ hm
        | some n => exact .named hn
      · exact .notMember fun mi hi => h1 ((isMember_iff _).mpr ⟨mi, hi⟩)
  · intro h
    cases h with
    | bare h1 h2 => rw [if_pos ⟨(isMember_iff _).mpr ⟨_, h1⟩, h2⟩]
    | notMember h1 =>
      rw [if_neg]
      rintro ⟨h2, _⟩
      obtain ⟨mi, hi⟩ := (isMember_iff _).mp h2
      exact h1 mi hi
    | named h1 =>
      rw [if_neg]
      rintro ⟨_, h2⟩
      rw [h1] at h2
      cases h2

section
variable {env : Env} {deep : Bool} {db : Db} {m : Mem} {f : List Value → Value → Outcome (Option Text)} {outer : List Value} {v : Value} {t : Text}

theorem body_base (hs : Sane db) {n : UInt64} {e : Nat} (ho : Object env db v (.base n e)) :
    body env deep db m f outer v = .ok (some t) ↔ baseTypeString env db m v = .ok (some t) := by
  rw [body_case (finalCase_object hs ho)]
  simp only [caseOf, start, bind_assoc, Outcome.pure_eq, Outcome.bind_ok, cont]
  cases baseTypeString env db m v <;> simp

theorem body_enumeration (hs : Sane db) {n : UInt64} {e : Nat} {es} (ho : Object env db v (.enumeration n e es)) :
    body env deep db m f outer v = .ok (some t) ↔ enumerationString db m (some v) = .ok (some t) := by
  rw [body_case (finalCase_object hs ho)]
  simp only [caseOf, start, bind_assoc, Outcome.pure_eq, Outcome.bind_ok, cont]
  cases enumerationString db m (some v) <;> simp

theorem memberValue_iff (hs : Sane db) {k : StructKind} {n : UInt64} {ms : List Ref} {x : Ref} {qs : List Qual} (ha : v.addr ≠ 0)
    (hx : Final db v.entry (some x) qs) (hi : (db x).info = .struct k n ms) (i : Nat) (w : Value) (hlt : i < ms.length) :
    memberValue db (some v) i = .ok (some w) ↔ Member db v ms i w := by
  obtain ⟨h1, _⟩ := C23_members db v _ _ hx ha
  obtain ⟨h1, _⟩ := h1 x k n ms rfl hi (hs.members x k n ms hi)
  obtain ⟨r, hr⟩ : ∃ r, ms[i]? = some r := ⟨_, List.getElem?_eq_getElem hlt⟩
  obtain ⟨mi, hmi⟩ := hs.members x k n ms hi r (List.mem_of_getElem? hr)
  rw [h1 i r mi hr hmi]
  constructor
  · intro h
    cases h
    exact ⟨r, mi, hr, hmi, rfl⟩
  · rintro ⟨r', mi', hr', hmi', rfl⟩
    rw [hr] at hr'
    cases hr'
    rw [hmi] at hmi'
    cases hmi'
    rfl

theorem hasMembers_of {k : StructKind} {n : UInt64} {ms : List Ref} {x : Ref} {qs : List Qual}
    (hx : Final db v.entry (some x) qs) (hi : (db x).info = .struct k n ms) : hasMembers db v = .ok true ∧ memberCountOf db v = .ok ms.length := by
  have hf := finalOf_some' hx isStruct (by rw [hi]; rfl)
  have hf' := finalOf_some' (final_of_final hx) isStruct (by rw [hi]; rfl)
  constructor
  · simp [hasMembers, hf]
  · simp [memberCountOf, hf, memberCount, hf', hi, membersOf]

theorem body_struct (hs : Sane db) {n : UInt64} {ms : List Ref} (ho : Object env db v (.struct .struct n ms)) :
    body env deep db m f outer v = .ok (some t) ↔ ∃ ws : List (Value × Text), ws.length = ms.length ∧
      (∀ (i : Nat) w u, ws[i]? = some (w, u) → Member db v ms i w) ∧ (∀ w u, (w, u) ∈ ws → f (v :: outer) w = .ok (some u)) ∧
      Wrapped db v (membersText db ws) t := by
  rw [body_case (finalCase_object hs ho)]
  obtain ⟨_, ha, x, qs, hx, hi⟩ := ho
  obtain ⟨h1, h2⟩ := hasMembers_of hx hi
  simp only [caseOf, start, startStruct, h1, h2, Outcome.bind_ok, Outcome.assert, if_true, Int.toNat_natCast]
  rw [cont_collect]
  simp only [finish, Bool.false_eq_true, if_false, Outcome.ok.injEq, finishStruct_iff]
  constructor
  · rintro ⟨ws, h3, h4, h5⟩
    refine ⟨ws, h3, ?_, h5⟩
    intro i w u hw
    exact (memberValue_iff hs ha hx hi i w (by rw [← h3]; exact (List.getElem?_eq_some_iff.mp hw).1)).mp (h4 i w u hw)
  · rintro ⟨ws, h3, h4, h5⟩
    refine ⟨ws, h3, ?_, h5⟩
    intro i w u hw
    exact (memberValue_iff hs ha hx hi i w (by rw [← h3]; exact (List.getElem?_eq_some_iff.mp hw).1)).mpr (h4 i w u hw)

theorem body_union (hs : Sane db) {n : UInt64} {ms : List Ref} (ho : Object env db v (.struct .union n ms)) :
    body env deep db m f outer v = .ok (some t) ↔
      ((ms ≠ [] → Reply env .unionMember v outer none) ∧ Wrapped db v [] t) ∨
      (ms ≠ [] ∧ ∃ w u, Reply env .unionMember v outer (some w) ∧ f (v :: outer) w = .ok (some u) ∧ Wrapped db v (membersText db [(w, u)]) t) := by
  rw [body_case (finalCase_object hs ho)]
  obtain ⟨_, ha, x, qs, hx, hi⟩ := ho
  obtain ⟨h1, h2⟩ := hasMembers_of hx hi
  have hempty : cont env db m f .union outer v (.deps [] false) = .ok (some t) ↔ Wrapped db v [] t := by
    rw [cont_deps]
    simp only [finish, Bool.false_eq_true, if_false, Outcome.ok.injEq, true_and, List.map_eq_nil_iff]
    constructor
    · rintro ⟨ws, rfl, _, h⟩
      exact finishStruct_iff.mp h
    · intro h
      exact ⟨[], rfl, by simp, finishStruct_iff.mpr h⟩
  have hone : ∀ w, cont env db m f .union outer v (.deps [w] false) = .ok (some t) ↔
      ∃ u, f (v :: outer) w = .ok (some u) ∧ Wrapped db v (membersText db [(w, u)]) t := by
    intro w
    rw [cont_deps]
    simp only [finish, Bool.false_eq_true, if_false, Outcome.ok.injEq, true_and]
    constructor
    · rintro ⟨ws, hm, hf, h⟩
      match ws, hm with
      | [(w', u)], hm =>
        simp at hm
        subst hm
        exact ⟨u, hf w' u (by simp), finishStruct_iff.mp h⟩
    · rintro ⟨u, hf, h⟩
      refine ⟨[(w, u)], rfl, ?_, finishStruct_iff.mpr h⟩
      intro w' u' hm
      simp at hm
      obtain ⟨rfl, rfl⟩ := hm
      exact hf
  simp only [caseOf, start, startUnion, h1, h2, Outcome.bind_ok, Outcome.assert, if_true]
  by_cases hms : ms = []
  · subst hms
    simp [hempty]
  · have hpos : 0 < ms.length := List.length_pos_iff.mpr hms
    rw [if_pos (by omega)]
    rw [bind_ok_iff]
    constructor
    · rintro ⟨nx, h3, h4⟩
      rw [bind_ok_iff] at h3
      obtain ⟨o, h3, h5⟩ := h3
      cases o with
      | none => cases h5; cases h4
      | some r =>
        have hr := request_iff.mp h3
        cases r with
        | none =>
          cases h5
          exact .inl ⟨fun _ => hr, hempty.mp h4⟩
        | some w =>
          cases h5
          obtain ⟨u, h6, h7⟩ := (hone w).mp h4
          exact .inr ⟨hms, w, u, hr, h6, h7⟩
    · rintro (⟨h3, h4⟩ | ⟨_, w, u, h3, h4, h5⟩)
      · refine ⟨.deps [] false, ?_, hempty.mpr h4⟩
        rw [request_iff.mpr (h3 hms)]
        rfl
      · refine ⟨.deps [w] false, ?_, (hone w).mpr ⟨u, h4, h5⟩⟩
        rw [request_iff.mpr h3]
        rfl

theorem final_self {db : Db} {r : Ref} {t : Option Ref} {c : Int} (h : (db r).info = .array t c) : Final db r (some r) [] := by
  refine .here ?_
  intro t ha
  cases ha <;> rename_i ha <;> rw [h] at ha <;> cases ha

theorem interned_array (hin : Interned env db) {e : Option Ref} {c : Int} (hc : c = -1 ∨ c = 0 ∨ c = 1) {a : Nat} (ha : a ≠ 0) :
    IsArray db ⟨env.dyn { info := .array e c }, a⟩ e c := by
  have hi : (db (env.dyn { info := .array e c })).info = .array e c := by rw [hin e c hc]
  exact ⟨ha, _, _, final_self hi, hi⟩

theorem elementValue_iff (hs : Sane db) {e : Option Ref} {n : Int} {arr : Value} (ha : IsArray db arr e n) (i : Nat) (w : Value) (hlt : i < n.toNat) :
    elementValue db (some arr) i = .ok (some w) ↔ Element db arr e i w := by
  obtain ⟨ha, x, qs, hx, hi⟩ := ha
  have hb := hs.counts x e n hi
  obtain ⟨h1, _, h3, _⟩ := C23_elements_partial db arr _ _ hx ha
  have hsz : ∀ r k, e = some r → Size db r k → elementValue db (some arr) i = .ok (some ⟨r, arr.addr + i * k⟩) := by
    rintro r k rfl hk
    obtain ⟨h, _⟩ := h1 x r k n rfl hi hb.1 (by omega) hk (hs.sizes x r n k hi hk)
    simpa using h i (by omega)
  constructor
  · intro h
    cases e with
    | none =>
      exfalso
      have hfo := finalOf_some' hx isArray (by rw [hi]; rfl)
      have hfo' := finalOf_some' (final_of_final hx) isArray (by rw [hi]; rfl)
      obtain ⟨_, h2, _⟩ := C52_accessors_partial db x _ _ (final_of_final hx)
      obtain ⟨_, hee, hec⟩ := h2 x none n rfl hi
      have hec := hec hb.1 (by omega)
      simp only [elementValue, hfo, Outcome.ofLoop_some, Outcome.bind_ok, hec, hee] at h
      split at h
      · cases h
      · split at h <;> cases h
    | some r =>
      rcases size_or_nosize (hs.acyclic r) with ⟨k, hk⟩ | hno
      · rw [hsz r k rfl hk] at h
        cases h
        exact ⟨r, k, rfl, hk, rfl⟩
      · rw [h3 x r n rfl hi hno hb.1 (by omega)] at h
        cases h
  · rintro ⟨r, k, rfl, hk, rfl⟩
    exact hsz r k rfl hk

/-- The text of an array whose length is known. -/
def ArrayText (env : Env) (db : Db) (m : Mem) (f : List Value → Value → Outcome (Option Text)) (outer : List Value) (v arr : Value) (t : Text) : Prop :=
  Literal env.pr db m arr t ∨ ∃ (e' : Option Ref) (n' : Int) (ws : List (Value × Text)), NoLiteral env.pr db m arr ∧ IsArray db arr e' n' ∧ ws.length = n'.toNat ∧
    (∀ (i : Nat) w u, ws[i]? = some (w, u) → Element db arr e' i w) ∧ (∀ w u, (w, u) ∈ ws → f (v :: outer) w = .ok (some u)) ∧
    t = [123] ++ elementsText ws ++ [125]

theorem isArray_unique {e e' : Option Ref} {n n' : Int} {arr : Value} (h : IsArray db arr e n) (h' : IsArray db arr e' n') : e = e' ∧ n = n' := by
  obtain ⟨_, x, qs, hx, hi⟩ := h
  obtain ⟨_, y, qs', hy, hj⟩ := h'
  cases final_unique hx hy
  rw [hi] at hj
  cases hj
  exact ⟨rfl, rfl⟩

theorem elements_iff (hs : Sane db) (hp : Locale env.pr) {e : Option Ref} {n : Int} {arr : Value} (ha : IsArray db arr e n) :
    (startElements env db m arr >>= cont env db m f .array outer v) = .ok (some t) ↔ ArrayText env db m f outer v arr t := by
  obtain ⟨d1, d2, d3⟩ := dprintable_spec (m := m) hs hp ha
  have hcount : valueElementCount db (some arr) = .ok n := by
    obtain ⟨_, x, qs, hx, hi⟩ := ha
    exact elementCount_of hs hx hi
  have hfin : ∀ ws, finish env db m .array v false (full ws) = .ok (some t) ↔ t = [123] ++ elementsText ws ++ [125] := by
    intro ws
    simp only [finish, Bool.false_eq_true, if_false, finishArray, joinElements_full, glue_getD]
    rw [show [32].intercalate (ws.map fun w => w.2 ++ [44]) = elementsText ws from rfl]
    simp [eq_comm]
  unfold startElements
  cases hd : PrintString.dprintable env.pr true db m (some arr) with
  | ok o =>
    cases o with
    | some block =>
      simp only [Outcome.bind_ok]
      obtain ⟨s, hc, hl⟩ := d1 block hd
      simp only [hc, Outcome.bind_ok, Outcome.pure_eq, cont, Outcome.ok.injEq, Option.some.injEq]
      constructor
      · rintro rfl
        exact .inl hl
      · rintro (h | ⟨_, _, _, h, _⟩)
        · obtain ⟨block', s', hd', hc', rfl⟩ := d2 t h
          rw [hd] at hd'
          cases hd'
          rw [hc] at hc'
          cases hc'
          rfl
        · rw [d3.mpr h] at hd
          cases hd
    | none =>
      simp only [Outcome.bind_ok, hcount]
      rw [cont_collect]
      have hnl := d3.mp hd
      constructor
      · rintro ⟨ws, h1, h2, h3, h4⟩
        refine .inr ⟨e, n, ws, hnl, ha, h1, ?_, h3, (hfin ws).mp h4⟩
        intro i w u hw
        exact (elementValue_iff hs ha i w (by rw [← h1]; exact (List.getElem?_eq_some_iff.mp hw).1)).mp (h2 i w u hw)
      · rintro (h | ⟨e', n', ws, _, h0, h1, h2, h3, h4⟩)
        · obtain ⟨block', s', hd', _⟩ := d2 t h
          rw [hd] at hd'
          cases hd'
        · obtain ⟨rfl, rfl⟩ := isArray_unique ha h0
          refine ⟨ws, h1, ?_, h3, (hfin ws).mpr h4⟩
          intro i w u hw
          exact (elementValue_iff hs ha i w (by rw [← h1]; exact (List.getElem?_eq_some_iff.mp hw).1)).mpr (h2 i w u hw)
  | _ =>
    simp only [Outcome.bind_ub, Outcome.bind_abort, Outcome.bind_hang]
    constructor
    · intro h; cases h
    · rintro (h | ⟨_, _, _, h, _⟩)
      · obtain ⟨block', s', hd', _⟩ := d2 t h
        rw [hd] at hd'
        cases hd'
      · rw [d3.mpr h] at hd
        cases hd

theorem body_array (hs : Sane db) (hin : Interned env db) (hh : Honest env db) (hp : Locale env.pr) {e : Option Ref} {n : Int} (ho : Object env db v (.array e n)) :
    body env deep db m f outer v = .ok (some t) ↔
      (n = -1 ∧ env.tags ≠ none ∧ Reply env .flexArrayCount v outer none ∧ t = []) ∨
      ∃ arr, Counted env v outer e n arr ∧ ArrayText env db m f outer v arr t := by
  rw [body_case (finalCase_object hs ho)]
  obtain ⟨_, ha, x, qs, hx, hi⟩ := ho
  have harr : IsArray db v e n := ⟨ha, x, qs, hx, hi⟩
  obtain ⟨b, hb, hbi⟩ := hasElements_iff hs v
  rw [hbi.mpr ⟨x, qs, e, n, hx, hi⟩] at hb
  simp only [caseOf, start, startArray, hb, Outcome.bind_ok, Outcome.assert, if_true, elementCount_of hs hx hi]
  by_cases hn : n = -1
  · subst hn
    rw [if_pos rfl]
    cases ht : env.tags with
    | none =>
      simp only [countValue_array hx ha hi, Outcome.bind_ok]
      cases e with
      | none =>
        constructor
        · intro h; cases h
        · rintro (⟨_, h, _⟩ | ⟨arr, h, _⟩)
          · exact absurd rfl h
          · cases h with
            | known h => exact absurd rfl h
            | empty _ h => cases h
            | reply h => exact absurd ht h
      | some r =>
        simp only [Option.map_some]
        rw [elements_iff hs hp (interned_array hin (.inr (.inl rfl)) ha)]
        constructor
        · intro h
          exact .inr ⟨_, .empty ht rfl, h⟩
        · rintro (⟨_, h, _⟩ | ⟨arr, h, h'⟩)
          · exact absurd rfl h
          · cases h with
            | known h => exact absurd rfl h
            | empty _ h => exact h'
            | reply h => exact absurd ht h
    | some tags =>
      simp only
      rw [← ht]
      constructor
      · intro h
        rw [bind_ok_iff] at h
        obtain ⟨nx, h1, h2⟩ := h
        rw [bind_ok_iff] at h1
        obtain ⟨o, h3, h4⟩ := h1
        cases o with
        | none => cases h4; cases h2
        | some o =>
          have hr := request_iff.mp h3
          cases o with
          | none =>
            cases h4
            cases h2
            exact .inl ⟨trivial, by simp [ht], hr, rfl⟩
          | some arr =>
            obtain ⟨e', n', harr'⟩ := hh v outer arr hr
            refine .inr ⟨arr, .reply (by simp [ht]) hr, ?_⟩
            rw [← elements_iff hs hp harr', bind_ok_iff]
            exact ⟨nx, h4, h2⟩
      · rintro (⟨_, _, hr, rfl⟩ | ⟨arr, h, h'⟩)
        · rw [request_iff.mpr hr]
          rfl
        · cases h with
          | known h => exact absurd rfl h
          | empty h => rw [ht] at h; cases h
          | reply _ hr =>
            obtain ⟨e', n', harr'⟩ := hh v outer arr hr
            rw [request_iff.mpr hr]
            exact (elements_iff hs hp harr').mpr h'
  · rw [if_neg hn, elements_iff hs hp harr]
    constructor
    · intro h
      exact .inr ⟨v, .known hn, h⟩
    · rintro (⟨h, _⟩ | ⟨arr, h, h'⟩)
      · exact absurd h hn
      · cases h with
        | known _ => exact h'
        | empty => exact absurd rfl hn
        | reply => exact absurd rfl hn

theorem pointer_iff {ty : Option Ref} {x : Ref} {qs : List Qual} (ha : v.addr ≠ 0) (hx : Final db v.entry (some x) qs) (hi : (db x).info = .pointer ty)
    {r : Except Int Nat} : pointer db m (some v) = .ok r ↔ ∃ a, Holds m v.addr 8 a ∧ r = .ok a := by
  simp only [pointer, finalOf_some' hx isPointer (by rw [hi]; rfl), Outcome.ofLoop_some, Outcome.bind_ok, ha, if_false]
  rw [bind_ok_iff]
  constructor
  · rintro ⟨a, h1, h2⟩
    cases h2
    exact ⟨a, holds_loadN.mpr h1, rfl⟩
  · rintro ⟨a, h1, rfl⟩
    exact ⟨a, holds_loadN.mp h1, rfl⟩

theorem pointerString_iff {ty : Option Ref} {x : Ref} {qs : List Qual} (ha : v.addr ≠ 0) (hx : Final db v.entry (some x) qs) (hi : (db x).info = .pointer ty)
    {o : Option Text} : pointerString env db m v = .ok o ↔ ∃ a, Holds m v.addr 8 a ∧ o = some (if a = 0 then [78, 85, 76, 76] else env.ptr a) := by
  simp only [pointerString, finalOf_some' hx isPointer (by rw [hi]; rfl), Outcome.ofLoop_some, Outcome.bind_ok]
  rw [bind_ok_iff]
  constructor
  · rintro ⟨r, h1, h2⟩
    obtain ⟨a, h3, rfl⟩ := (pointer_iff ha hx hi).mp h1
    cases h2
    exact ⟨a, h3, rfl⟩
  · rintro ⟨a, h1, rfl⟩
    exact ⟨.ok a, (pointer_iff ha hx hi).mpr ⟨a, h1, rfl⟩, rfl⟩

theorem body_pointer_shallow (hs : Sane db) (hd : deep = false) {ty : Option Ref} (ho : Object env db v (.pointer ty)) :
    body env deep db m f outer v = .ok (some t) ↔ ∃ a, Holds m v.addr 8 a ∧ t = if a = 0 then [78, 85, 76, 76] else env.ptr a := by
  rw [body_case (finalCase_object hs ho)]
  obtain ⟨_, ha, x, qs, hx, hi⟩ := ho
  subst hd
  simp only [caseOf, start, Bool.false_eq_true, if_false]
  rw [bind_ok_iff]
  constructor
  · rintro ⟨nx, h1, h2⟩
    rw [bind_ok_iff] at h1
    obtain ⟨o, h1, h3⟩ := h1
    cases h3
    cases h2
    obtain ⟨a, h4, h5⟩ := (pointerString_iff ha hx hi).mp h1
    cases h5
    exact ⟨a, h4, rfl⟩
  · rintro ⟨a, h1, rfl⟩
    exact ⟨.done (some _), by rw [(pointerString_iff ha hx hi).mpr ⟨a, h1, rfl⟩]; rfl, rfl⟩

theorem loopLevels_iff (hs : Sane db) {a : Nat} : ∀ (ws : List Value) (l : Int), 1 ≤ l →
    ((∃ r, loopLevels db m a (ws.map some) l = .ok r ∧ r ≤ 0) ↔ Fresh db m ws a)
  | [], l, hl => by
    simp [loopLevels, Fresh]
  | w :: ws, l, hl => by
    have ih := loopLevels_iff hs (a := a) ws (l + 1) (by omega)
    have hcons : Fresh db m (w :: ws) a ↔ (∀ x qs t, Final db w.entry (some x) qs → (db x).info = .pointer t → w.addr ≠ 0 → ∃ b, Holds m w.addr 8 b ∧ b ≠ a) ∧ Fresh db m ws a := by
      unfold Fresh
      simp
    rw [hcons, ← ih, List.map_cons, loopLevels]
    obtain ⟨g, qs, hg⟩ := final_exists (hs.acyclic w.entry)
    by_cases hp : ∃ x t, g = some x ∧ (db x).info = .pointer t
    · obtain ⟨x, t, rfl, hi⟩ := hp
      simp only [finalOf_some' hg isPointer (by rw [hi]; rfl), Outcome.ofLoop_some, Outcome.bind_ok]
      by_cases ha : w.addr = 0
      · have : pointer db m (some w) = .ok (.error (-22)) := by
          simp [pointer, finalOf_some' hg isPointer (by rw [hi]; rfl), ha]
        simp only [this, Outcome.bind_ok]
        constructor
        · intro h; exact ⟨fun _ _ _ _ _ h => absurd ha h, h⟩
        · intro h; exact h.2
      · constructor
        · rintro ⟨r, h1, h2⟩
          rw [bind_ok_iff] at h1
          obtain ⟨q, h3, h4⟩ := h1
          obtain ⟨b, hb, rfl⟩ := (pointer_iff ha hg hi).mp h3
          simp only at h4
          split at h4
          · cases h4; omega
          · next hne =>
            exact ⟨fun _ _ _ _ _ _ => ⟨b, hb, fun h => hne h.symm⟩, r, h4, h2⟩
        · rintro ⟨h1, r, h2, h3⟩
          obtain ⟨b, hb, hne⟩ := h1 x qs t hg hi ha
          refine ⟨r, ?_, h3⟩
          rw [(pointer_iff ha hg hi).mpr ⟨b, hb, rfl⟩]
          simp only [Outcome.bind_ok]
          rw [if_neg (fun h => hne h.symm)]
          exact h2
    · have : finalOf db (some w.entry) isPointer = some none := by
        apply finalOf_no hg
        intro x hx
        cases hi : (db x).info with
        | pointer t => exact absurd ⟨x, t, hx, hi⟩ hp
        | _ => rfl
      simp only [this, Outcome.ofLoop_some, Outcome.bind_ok]
      constructor
      · intro h
        refine ⟨fun x qs' t hx hi => ?_, h⟩
        exact absurd ⟨x, t, final_unique hg hx, hi⟩ hp
      · intro h; exact h.2

theorem introducedLoop_iff (hs : Sane db) {ty : Option Ref} {x : Ref} {qs : List Qual} (ha : v.addr ≠ 0) (hx : Final db v.entry (some x) qs)
    (hi : (db x).info = .pointer ty) {a : Nat} (hh : Holds m v.addr 8 a) :
    (∃ r, introducedLoop db m ((v :: outer).map some) = .ok r ∧ r ≤ 0) ↔ Fresh db m outer a := by
  cases outer with
  | nil => simp [introducedLoop, Fresh]
  | cons w ws =>
    rw [← loopLevels_iff hs (w :: ws) 1 (by omega)]
    simp only [List.map_cons, introducedLoop, finalOf_some' hx isPointer (by rw [hi]; rfl), Outcome.ofLoop_some, Outcome.bind_ok,
      (pointer_iff ha hx hi).mpr ⟨a, hh, rfl⟩]

theorem isVoidPointer_of {ty : Option Ref} {x : Ref} {qs : List Qual} (hx : Final db v.entry (some x) qs) (hi : (db x).info = .pointer ty) :
    isVoidPointer db v = .ok ty.isNone := by
  simp only [isVoidPointer, finalOf_some' hx isPointer (by rw [hi]; rfl), Outcome.ofLoop_some, Outcome.bind_ok, hi]
  cases ty <;> rfl

/-- The text of a pointer whose target is known. -/
def TargetText (env : Env) (db : Db) (f : List Value → Value → Outcome (Option Text)) (outer : List Value) (v arr : Value) (t : Text) : Prop :=
  ∃ (e : Ref) (n : Int) (u type : Text), f (v :: outer) arr = .ok (some u) ∧ IsArray db arr (some e) n ∧ TypeText db (env.dyn { info := .array (some e) (-1) }) type ∧
    t = if u.head? = some 34 then u else [40] ++ type ++ [41] ++ u

theorem target_iff {e : Option Ref} {n : Int} {arr : Value} (ha : IsArray db arr e n) :
    cont env db m f .pointer outer v (.deps [arr] false) = .ok (some t) ↔ TargetText env db f outer v arr t := by
  obtain ⟨ha', x, qs, hx, hi⟩ := id ha
  rw [cont_deps]
  simp only [finish, Bool.false_eq_true, if_false, true_and]
  have hfin : ∀ u, finishPointer env db m (full [(arr, u)]) = .ok (some t) ↔ ∃ e', e = some e' ∧ ∃ type, TypeText db (env.dyn { info := .array (some e') (-1) }) type ∧
      t = if u.head? = some 34 then u else [40] ++ type ++ [41] ++ u := by
    intro u
    simp only [full, List.map_cons, List.map_nil, finishPointer, countValue_array hx ha' hi, Outcome.bind_ok]
    cases e with
    | none =>
      simp
    | some e' =>
      simp only [Option.map_some]
      constructor
      · intro h
        rw [bind_ok_iff] at h
        obtain ⟨o, h1, h2⟩ := h
        cases o with
        | none => cases h2
        | some pat =>
          simp only at h2
          rw [bind_ok_iff] at h2
          obtain ⟨type, h3, h4⟩ := h2
          refine ⟨e', rfl, type, ⟨pat, h1, h3⟩, ?_⟩
          by_cases hq : u.head? = some 34
          · rw [if_pos ((quoted_iff u).mpr hq)] at h4
            cases h4
            rw [if_pos hq]
          · rw [if_neg (fun h => hq ((quoted_iff u).mp h))] at h4
            cases h4
            rw [if_neg hq]
      · rintro ⟨e'', he, type, ⟨pat, h1, h2⟩, rfl⟩
        cases he
        rw [h1]
        simp only [Outcome.bind_ok, h2]
        by_cases hq : u.head? = some 34
        · rw [if_pos ((quoted_iff u).mpr hq), if_pos hq]
          rfl
        · rw [if_neg (fun h => hq ((quoted_iff u).mp h)), if_neg hq]
          rfl
  constructor
  · rintro ⟨ws, hm, hf, h⟩
    match ws, hm with
    | [(w', u)], hm =>
      simp at hm
      subst hm
      obtain ⟨e', rfl, type, h1, h2⟩ := (hfin u).mp h
      exact ⟨e', n, u, type, hf w' u (by simp), ha, h1, h2⟩
  · rintro ⟨e', n', u, type, hf, ha'', h1, h2⟩
    refine ⟨[(arr, u)], rfl, ?_, (hfin u).mpr ⟨e', (isArray_unique ha ha'').1, type, h1, h2⟩⟩
    intro w' u' hm
    simp at hm
    obtain ⟨rfl, rfl⟩ := hm
    exact hf

theorem body_pointer_deep (hs : Sane db) (hin : Interned env db) (hd : deep = true) {ty : Option Ref} (ho : Object env db v (.pointer ty)) :
    body env deep db m f outer v = .ok (some t) ↔ (Holds m v.addr 8 0 ∧ t = [78, 85, 76, 76]) ∨
      ∃ a, Holds m v.addr 8 a ∧ a ≠ 0 ∧ Fresh db m outer a ∧ ((ty = none ∧ Reply env .pointerArrayCount v outer none ∧ t = env.ptr a) ∨
        ∃ arr, Target env db v outer ty a arr ∧ TargetText env db f outer v arr t) := by
  rw [body_case (finalCase_object hs ho)]
  obtain ⟨_, ha, x, qs, hx, hi⟩ := ho
  subst hd
  simp only [caseOf, start, if_true]
  have hps : ∀ a, Holds m v.addr 8 a → pointerString env db m v = .ok (some (if a = 0 then [78, 85, 76, 76] else env.ptr a)) :=
    fun a h => (pointerString_iff ha hx hi).mpr ⟨a, h, rfl⟩
  by_cases hh : ∃ a, Holds m v.addr 8 a
  · obtain ⟨a, hh⟩ := hh
    have huniq : ∀ b, Holds m v.addr 8 b → b = a := fun b hb => holds_unique hb hh
    simp only [startPointer, (pointer_iff ha hx hi).mpr ⟨a, hh, rfl⟩, Outcome.bind_ok]
    by_cases h0 : a = 0
    · subst h0
      simp only [if_true, hps 0 hh, Outcome.bind_ok, Outcome.pure_eq, cont]
      constructor
      · intro h; cases h; exact .inl ⟨hh, rfl⟩
      · rintro (⟨_, rfl⟩ | ⟨a, h1, h2, _⟩)
        · rfl
        · exact absurd (huniq a h1) h2
    · simp only [if_neg h0]
      have hred : ∀ P : Nat → Prop, ((Holds m v.addr 8 0 ∧ t = [78, 85, 76, 76]) ∨ ∃ b, Holds m v.addr 8 b ∧ b ≠ 0 ∧ P b) ↔ P a := by
        intro P
        constructor
        · rintro (⟨h, _⟩ | ⟨b, h1, h2, h3⟩)
          · exact absurd (huniq 0 h).symm h0
          · rw [huniq b h1] at h3; exact h3
        · intro h; exact .inr ⟨a, hh, h0, h⟩
      rw [hred (fun a => Fresh db m outer a ∧ _)]
      by_cases hfr : Fresh db m outer a
      · obtain ⟨r, hr, hle⟩ := (introducedLoop_iff hs ha hx hi hh).mpr hfr
        simp only [hr, Outcome.bind_ok, if_neg (by omega : ¬ r > 0), hfr, true_and]
        constructor
        · intro h
          rw [bind_ok_iff] at h
          obtain ⟨nx, h1, h2⟩ := h
          rw [bind_ok_iff] at h1
          obtain ⟨o, h3, h4⟩ := h1
          cases o with
          | none => cases h4; cases h2
          | some o =>
            have hrep := request_iff.mp h3
            cases o with
            | some arr =>
              simp only at h4
              split at h4
              · cases h4; cases h2
              · next hne =>
                simp only [ne_eq, Decidable.not_not] at hne
                obtain ⟨b, hb, hbi⟩ := hasElements_iff hs arr
                simp only [hb, Outcome.bind_ok] at h4
                cases b with
                | false => cases h4; cases h2
                | true =>
                  obtain ⟨y, qs', e, n, hy, hyi⟩ := hbi.mp rfl
                  have harr : IsArray db arr e n := ⟨by rw [hne]; exact h0, y, qs', hy, hyi⟩
                  cases h4
                  exact .inr ⟨arr, .reply hrep hne harr, (target_iff harr).mp h2⟩
            | none =>
              simp only [isVoidPointer_of hx hi, Outcome.bind_ok] at h4
              cases ty with
              | none =>
                simp only [Option.isNone_none, if_true, hps a hh, Outcome.bind_ok, if_neg h0] at h4
                cases h4
                cases h2
                exact .inl ⟨rfl, hrep, rfl⟩
              | some e =>
                have harr : IsArray db ⟨env.dyn { info := .array (some e) 1 }, a⟩ (some e) 1 := interned_array hin (.inr (.inr rfl)) h0
                obtain ⟨b, hb, hbi⟩ := hasElements_iff hs ⟨env.dyn { info := .array (some e) 1 }, a⟩
                obtain ⟨_, y, qs', hy, hyi⟩ := id harr
                rw [hbi.mpr ⟨y, qs', _, _, hy, hyi⟩] at hb
                simp only [Option.isNone_some, Bool.false_eq_true, if_false, countValue_pointer hx ha hi hh h0, Outcome.bind_ok, Option.map_some, hb, if_true] at h4
                cases h4
                exact .inr ⟨_, .one hrep rfl, (target_iff harr).mp h2⟩
        · rintro (⟨rfl, hrep, rfl⟩ | ⟨arr, htar, htt⟩)
          · rw [request_iff.mpr hrep]
            simp only [Outcome.bind_ok, isVoidPointer_of hx hi, Option.isNone_none, if_true, hps a hh, if_neg h0, Outcome.pure_eq, cont]
          · cases htar with
            | @reply _ e n hrep hadr harr =>
              rw [request_iff.mpr hrep]
              obtain ⟨b, hb, hbi⟩ := hasElements_iff hs arr
              obtain ⟨_, y, qs', hy, hyi⟩ := id harr
              rw [hbi.mpr ⟨y, qs', _, _, hy, hyi⟩] at hb
              simp only [Outcome.bind_ok, ne_eq, hadr, not_true, if_false, hb, if_true, Outcome.pure_eq]
              exact (target_iff harr).mpr htt
            | @one e hrep hty =>
              subst hty
              rw [request_iff.mpr hrep]
              have harr : IsArray db ⟨env.dyn { info := .array (some e) 1 }, a⟩ (some e) 1 := interned_array hin (.inr (.inr rfl)) h0
              obtain ⟨b, hb, hbi⟩ := hasElements_iff hs ⟨env.dyn { info := .array (some e) 1 }, a⟩
              obtain ⟨_, y, qs', hy, hyi⟩ := id harr
              rw [hbi.mpr ⟨y, qs', _, _, hy, hyi⟩] at hb
              simp only [Outcome.bind_ok, isVoidPointer_of hx hi, Option.isNone_some, Bool.false_eq_true, if_false, countValue_pointer hx ha hi hh h0, Option.map_some, hb, if_true, Outcome.pure_eq]
              exact (target_iff harr).mpr htt
      · constructor
        · intro h
          exfalso
          rw [bind_ok_iff] at h
          obtain ⟨nx, h1, h2⟩ := h
          rw [bind_ok_iff] at h1
          obtain ⟨r, h3, h4⟩ := h1
          split at h4
          · cases h4; cases h2
          · next hle => exact hfr ((introducedLoop_iff hs ha hx hi hh).mp ⟨r, h3, by omega⟩)
        · rintro ⟨h, _⟩
          exact absurd h hfr
  · constructor
    · intro h
      exfalso
      rw [bind_ok_iff] at h
      obtain ⟨nx, h1, h2⟩ := h
      unfold startPointer at h1
      rw [bind_ok_iff] at h1
      obtain ⟨r, h3, _⟩ := h1
      obtain ⟨a, h, _⟩ := (pointer_iff ha hx hi).mp h3
      exact hh ⟨a, h⟩
    · rintro (⟨h, _⟩ | ⟨a, h, _⟩)
      · exact absurd ⟨_, h⟩ hh
      · exact absurd ⟨_, h⟩ hh

theorem paramItem_iff {p : Value} {i : Nat} {w : Value} : paramItem env.toEnv p i = .ok (some w) ↔ (env.params p.addr)[i]? = some w ∧ w.addr ≠ 0 := by
  unfold paramItem
  cases h : (env.params p.addr)[i]? with
  | none => simp
  | some q =>
    obtain ⟨e, a⟩ := q
    simp only [Option.bind_some, newValue, Outcome.ok.injEq, Option.some.injEq]
    split
    · next h0 =>
      constructor
      · intro h; cases h
      · rintro ⟨rfl, h⟩; exact absurd h0 h
    · next h0 =>
      constructor
      · intro h; cases h; exact ⟨rfl, h0⟩
      · rintro ⟨rfl, _⟩; rfl

/-- The arguments stored in a value, with their texts. -/
def Stored (env : Env) (f : List Value → Value → Outcome (Option Text)) (outer : List Value) (v : Value) (ws : List (Value × Text)) : Prop :=
  ws.map (·.1) = env.params v.addr ∧ (∀ w u, (w, u) ∈ ws → w.addr ≠ 0) ∧ (∀ w u, (w, u) ∈ ws → f (v :: outer) w = .ok (some u))

theorem params_iff {s : Case} (hl : hasLoad env.toEnv db v = .ok true) :
    (startParams env db v >>= cont env db m f s outer v) = .ok (some t) ↔
      ∃ ws, Stored env f outer v ws ∧ finish env db m s v false (full ws) = .ok (some t) := by
  unfold startParams
  simp only [hl, Outcome.bind_ok, Outcome.assert, if_true]
  rw [cont_collect]
  have key : ∀ ws : List (Value × Text), (ws.length = (env.params v.addr).length ∧ ∀ (i : Nat) w u, ws[i]? = some (w, u) → paramItem env.toEnv v i = .ok (some w)) ↔
      (ws.map (·.1) = env.params v.addr ∧ ∀ w u, (w, u) ∈ ws → w.addr ≠ 0) := by
    intro ws
    constructor
    · rintro ⟨h1, h2⟩
      constructor
      · apply List.ext_getElem?
        intro i
        rw [List.getElem?_map]
        cases hi : ws[i]? with
        | none =>
          rw [List.getElem?_eq_none_iff] at hi
          rw [List.getElem?_eq_none_iff.mpr (by omega)]
          rfl
        | some wu => exact (paramItem_iff.mp (h2 i wu.1 wu.2 hi)).1.symm
      · intro w u hw
        obtain ⟨i, hi⟩ := List.mem_iff_getElem?.mp hw
        exact (paramItem_iff.mp (h2 i w u hi)).2
    · rintro ⟨h1, h2⟩
      constructor
      · rw [← h1]; simp
      · intro i w u hw
        rw [paramItem_iff, ← h1, List.getElem?_map, hw]
        exact ⟨rfl, h2 w u (List.mem_of_getElem? hw)⟩
  constructor
  · rintro ⟨ws, h1, h2, h3, h4⟩
    obtain ⟨k1, k2⟩ := (key ws).mp ⟨h1, h2⟩
    exact ⟨ws, ⟨k1, k2, h3⟩, h4⟩
  · rintro ⟨ws, ⟨h1, h2, h3⟩, h4⟩
    obtain ⟨k1, k2⟩ := (key ws).mpr ⟨h1, h2⟩
    exact ⟨ws, k1, k2, h3, h4⟩

theorem hasLoad_true (hs : Sane db) (h : Packed env db v ∨ Func db v) : hasLoad env.toEnv db v = .ok true := by
  obtain ⟨g, qs, hg⟩ := final_exists (hs.acyclic v.entry)
  obtain ⟨b, hb, hbi⟩ := hasLoad_iff (env := env) hg
  rw [hbi.mpr h] at hb
  exact hb

theorem args_nil {ws : List (Value × Text)} {us : List Text} (h : Args db ws us) : us = [] ↔ ws = [] := by
  cases h <;> simp

theorem body_packed (hs : Sane db) (hp : Packed env db v) :
    body env deep db m f outer v = .ok (some t) ↔ ∃ ws us, Stored env f outer v ws ∧ Args db ws us ∧ ws ≠ [] ∧
      t = if env.vaList v.entry then [86, 65, 95, 76, 73, 83, 84, 40] ++ [44, 32].intercalate us ++ [41] else [44, 32].intercalate us := by
  rw [body_case (finalCase_packed hs hp)]
  simp only [start]
  rw [params_iff (hasLoad_true hs (.inl hp))]
  have hfin : ∀ ws, finish env db m .packed v false (full ws) = .ok (some t) ↔ ∃ us, Args db ws us ∧ ws ≠ [] ∧
      t = if env.vaList v.entry then [86, 65, 95, 76, 73, 83, 84, 40] ++ [44, 32].intercalate us ++ [41] else [44, 32].intercalate us := by
    intro ws
    simp only [finish, Bool.false_eq_true, if_false, finishParams, decide_true]
    rw [bind_ok_iff]
    constructor
    · rintro ⟨o, h1, h2⟩
      cases o with
      | none => cases h2
      | some r =>
        obtain ⟨us, h3, rfl⟩ := (joinParams_typed db ws none r).mp h1
        rw [glue_none] at h2
        by_cases hu : us = []
        · rw [if_pos hu] at h2
          simp only at h2
          split at h2 <;> cases h2
        · rw [if_neg hu] at h2
          refine ⟨us, h3, fun h => hu ((args_nil h3).mpr h), ?_⟩
          simp only at h2
          split at h2
          · next hv => cases h2; rw [if_pos hv]
          · next hv => cases h2; rw [if_neg hv]
    · rintro ⟨us, h1, h2, rfl⟩
      refine ⟨_, (joinParams_typed db ws none _).mpr ⟨us, h1, rfl⟩, ?_⟩
      rw [glue_none, if_neg (fun h => h2 ((args_nil h1).mp h))]
      simp only
      split <;> rfl
  constructor
  · rintro ⟨ws, h1, h2⟩
    obtain ⟨us, h3⟩ := (hfin ws).mp h2
    exact ⟨ws, us, h1, h3⟩
  · rintro ⟨ws, us, h1, h3⟩
    exact ⟨ws, h1, (hfin ws).mpr ⟨us, h3⟩⟩

theorem body_call (hs : Sane db) {ty : Option Ref} {ps : List Ref} (ho : Object env db v (.subprogram ty ps)) :
    body env deep db m f outer v = .ok (some t) ↔ ∃ ws n, Stored env f outer v ws ∧ (db v.entry).name = some n ∧
      t = n ++ [40] ++ [44, 32].intercalate (ws.map (·.2)) ++ [41] := by
  rw [body_case (finalCase_object hs ho)]
  obtain ⟨_, ha, x, qs, hx, hi⟩ := ho
  simp only [caseOf, start]
  rw [params_iff (hasLoad_true hs (.inr ⟨x, qs, ty, ps, hx, .inl hi⟩))]
  apply exists_congr
  intro ws
  simp only [finish, Bool.false_eq_true, if_false, finishParams, decide_false, joinParams_plain, Outcome.bind_ok, glue_getD, reduceCtorEq]
  cases hn : (db v.entry).name with
  | none => simp
  | some n => simp [eq_comm]

theorem body_callPointer (hs : Sane db) {ty : Option Ref} {ps : List Ref} (ho : Object env db v (.subroutine ty ps)) :
    body env deep db m f outer v = .ok (some t) ↔ ∃ ws n, Stored env f outer v ws ∧ (db v.entry).name = some n ∧
      t = [40] ++ n ++ [41, 40] ++ [44, 32].intercalate (ws.map (·.2)) ++ [41] := by
  rw [body_case (finalCase_object hs ho)]
  obtain ⟨_, ha, x, qs, hx, hi⟩ := ho
  simp only [caseOf, start]
  rw [params_iff (hasLoad_true hs (.inr ⟨x, qs, ty, ps, hx, .inr hi⟩))]
  apply exists_congr
  intro ws
  simp only [finish, Bool.false_eq_true, if_false, finishParams, decide_false, joinParams_plain, Outcome.bind_ok, glue_getD, reduceCtorEq]
  cases hn : (db v.entry).name with
  | none => simp
  | some n => simp [eq_comm]

theorem body_other (h : finalCase env db v = .ok .other) : body env deep db m f outer v ≠ .ok (some t) := by
  rw [body_case h]
  simp [start, cont]

/-- A step whose inner values are printed correctly is correct. -/
theorem body_shown (hs : Sane db) (hin : Interned env db) (hh : Honest env db) (hp : Locale env.pr)
    (hf : ∀ outer w u, f outer w = .ok (some u) → Shown env deep db m outer w u) (h : body env deep db m f outer v = .ok (some t)) : Shown env deep db m outer v t := by
  have hfc : ∃ s, finalCase env db v = .ok s := by
    unfold body at h
    rw [bind_ok_iff] at h
    obtain ⟨s, h, _⟩ := h
    exact ⟨s, h⟩
  obtain ⟨s, hfc⟩ := hfc
  have hst : ∀ {ws}, Stored env f outer v ws → ws.map (·.1) = env.params v.addr ∧ (∀ w u, (w, u) ∈ ws → w.addr ≠ 0) ∧ (∀ w u, (w, u) ∈ ws → Shown env deep db m (v :: outer) w u) :=
    fun h => ⟨h.1, h.2.1, fun w u hw => hf _ _ _ (h.2.2 w u hw)⟩
  rcases finalCase_inv hs hfc with ⟨hpk, rfl⟩ | ⟨i, ho, rfl⟩ | ⟨_, rfl⟩
  · obtain ⟨ws, us, h1, h2, h3, rfl⟩ := (body_packed hs hpk).mp h
    obtain ⟨g1, g2, g3⟩ := hst h1
    obtain ⟨a1, a2⟩ := args_iff.mp h2
    split
    · next hv => exact .vaList hpk hv g1 g2 g3 a1 a2 h3
    · next hv => exact .arguments hpk (by simpa using hv) g1 g2 g3 a1 a2 h3
  · cases i with
    | base n e => exact .base ho ((body_base hs ho).mp h)
    | enumeration n e es => exact .enumeration ho ((body_enumeration hs ho).mp h)
    | pointer ty =>
      cases hd : deep with
      | false =>
        rw [hd] at h
        obtain ⟨a, h1, rfl⟩ := (body_pointer_shallow hs rfl ho).mp h
        split
        · next h0 => subst h0; exact .null ho h1
        · next h0 => exact .address rfl ho h1 h0
      | true =>
        rw [hd] at h hf
        rcases (body_pointer_deep hs hin rfl ho).mp h with ⟨h1, rfl⟩ | ⟨a, h1, h2, h3, ⟨rfl, h4, rfl⟩ | ⟨arr, h4, e, n, u, type, h5, h6, h7, rfl⟩⟩
        · exact .null ho h1
        · exact .void rfl ho h1 h2 h3 h4
        · split
          · next hq => exact .string rfl ho h1 h2 h3 h4 (hf _ _ _ h5) h6 h7 hq
          · next hq => exact .target rfl ho h1 h2 h3 h4 (hf _ _ _ h5) h6 h7 hq
    | struct k n ms =>
      cases k with
      | struct =>
        obtain ⟨ws, h1, h2, h3, h4⟩ := (body_struct hs ho).mp h
        exact .struct ho h1 h2 (fun w u hw => hf _ _ _ (h3 w u hw)) h4
      | union =>
        rcases (body_union hs ho).mp h with ⟨h1, h2⟩ | ⟨h1, w, u, h2, h3, h4⟩
        · exact .union ho h1 h2
        · exact .unionMember ho h1 h2 (hf _ _ _ h3) h4
      | «class» => exact absurd h (body_other hfc)
    | array e n =>
      rcases (body_array hs hin hh hp ho).mp h with ⟨rfl, h1, h2, rfl⟩ | ⟨arr, h1, h2 | ⟨e', n', ws, h2, h3, h4, h5, h6, rfl⟩⟩
      · exact .skipped ho h1 h2
      · exact .literal ho h1 h2
      · exact .array ho h1 h2 h3 h4 h5 (fun w u hw => hf _ _ _ (h6 w u hw))
    | subprogram ty ps =>
      obtain ⟨ws, n, h1, h2, rfl⟩ := (body_call hs ho).mp h
      obtain ⟨g1, g2, g3⟩ := hst h1
      exact .call ho g1 g2 g3 h2
    | subroutine ty ps =>
      obtain ⟨ws, n, h1, h2, rfl⟩ := (body_callPointer hs ho).mp h
      obtain ⟨g1, g2, g3⟩ := hst h1
      exact .callPointer ho g1 g2 g3 h2
    | param u t =>
      exfalso
      obtain ⟨hnp, _, x, qs, hx, hi⟩ := ho
      cases u with
      | false => exact final_not_alias hx t (.param hi)
      | true =>
        simp only [caseOf] at hfc
        rw [body_case hfc] at h
        rw [bind_ok_iff] at h
        obtain ⟨nx, h1, h2⟩ := h
        simp only [start, startParams] at h1
        obtain ⟨b, hb, hbi⟩ := hasLoad_iff (env := env) hx
        cases b with
        | true =>
          rcases hbi.mp rfl with h | ⟨y, qs', ty, ps, hy, hyi⟩
          · exact hnp h
          · cases final_unique hx hy
            rw [hi] at hyi
            simp at hyi
        | false =>
          simp [hb, Outcome.assert] at h1
    | _ => exact absurd h (body_other hfc)
  · exact absurd h (body_other hfc)
end

/-- Everything printed is printed as specified. -/
theorem walk_shown {env : Env} {deep : Bool} {db : Db} {m : Mem} (hs : Sane db) (hin : Interned env db) (hh : Honest env db) (hp : Locale env.pr) (outer : List Value) (v : Value) (t : Text)
    (h : walk env deep db m outer v = .ok (some t)) : Shown env deep db m outer v t := by
  revert t
  have := walk.fixpoint_induct env deep db m (motive := fun g => ∀ outer v r, g outer v = .ok r → ∀ t, r = some t → Shown env deep db m outer v t)
    (by
      apply Lean.Order.admissible_pi_apply (P := fun outer (g : Value → Outcome (Option Text)) => ∀ v r, g v = .ok r → ∀ t, r = some t → Shown env deep db m outer v t)
      intro outer
      apply Lean.Order.admissible_pi_apply (P := fun v (g : Outcome (Option Text)) => ∀ r, g = .ok r → ∀ t, r = some t → Shown env deep db m outer v t)
      intro v
      exact Outcome.admissible_ok _)
    (by
      intro g hg outer v r h t hr
      subst hr
      exact body_shown hs hin hh hp (fun outer w u hw => hg outer w _ hw u rfl) h)
  exact fun t h => this outer v _ h t rfl

/-- Everything specified is printed so. -/
theorem shown_walk {env : Env} {deep : Bool} {db : Db} {m : Mem} (hs : Sane db) (hin : Interned env db) (hh : Honest env db) (hp : Locale env.pr) {outer : List Value} {v : Value} {t : Text}
    (h : Shown env deep db m outer v t) : walk env deep db m outer v = .ok (some t) := by
  induction h with
  | base ho h => rw [walk_body]; exact (body_base hs ho).mpr h
  | enumeration ho h => rw [walk_body]; exact (body_enumeration hs ho).mpr h
  | null ho h =>
    rw [walk_body]
    cases hd : deep with
    | false => exact (body_pointer_shallow hs rfl ho).mpr ⟨0, h, rfl⟩
    | true => exact (body_pointer_deep hs hin rfl ho).mpr (.inl ⟨h, rfl⟩)
  | address hd ho h h0 => rw [walk_body]; exact (body_pointer_shallow hs hd ho).mpr ⟨_, h, by rw [if_neg h0]⟩
  | void hd ho h h0 h1 h2 => rw [walk_body]; exact (body_pointer_deep hs hin hd ho).mpr (.inr ⟨_, h, h0, h1, .inl ⟨rfl, h2, rfl⟩⟩)
  | target hd ho h h0 h1 h2 _ h4 h5 h6 ih =>
    rw [walk_body]; exact (body_pointer_deep hs hin hd ho).mpr (.inr ⟨_, h, h0, h1, .inr ⟨_, h2, _, _, _, _, ih, h4, h5, by rw [if_neg h6]⟩⟩)
  | string hd ho h h0 h1 h2 _ h4 h5 h6 ih =>
    rw [walk_body]; exact (body_pointer_deep hs hin hd ho).mpr (.inr ⟨_, h, h0, h1, .inr ⟨_, h2, _, _, _, _, ih, h4, h5, by rw [if_pos h6]⟩⟩)
  | struct ho h1 h2 _ h4 ih => rw [walk_body]; exact (body_struct hs ho).mpr ⟨_, h1, h2, ih, h4⟩
  | union ho h1 h2 => rw [walk_body]; exact (body_union hs ho).mpr (.inl ⟨h1, h2⟩)
  | unionMember ho h1 h2 _ h4 ih => rw [walk_body]; exact (body_union hs ho).mpr (.inr ⟨h1, _, _, h2, ih, h4⟩)
  | skipped ho h1 h2 => rw [walk_body]; exact (body_array hs hin hh hp ho).mpr (.inl ⟨rfl, h1, h2, rfl⟩)
  | literal ho h1 h2 => rw [walk_body]; exact (body_array hs hin hh hp ho).mpr (.inr ⟨_, h1, .inl h2⟩)
  | array ho h1 h2 h3 h4 h5 _ ih => rw [walk_body]; exact (body_array hs hin hh hp ho).mpr (.inr ⟨_, h1, .inr ⟨_, _, _, h2, h3, h4, h5, ih, rfl⟩⟩)
  | arguments hpk hv g1 g2 _ a1 a2 a3 ih => rw [walk_body]; exact (body_packed hs hpk).mpr ⟨_, _, ⟨g1, g2, ih⟩, args_iff.mpr ⟨a1, a2⟩, a3, by simp [hv]⟩
  | vaList hpk hv g1 g2 _ a1 a2 a3 ih => rw [walk_body]; exact (body_packed hs hpk).mpr ⟨_, _, ⟨g1, g2, ih⟩, args_iff.mpr ⟨a1, a2⟩, a3, by rw [if_pos hv]⟩
  | call ho g1 g2 _ hn ih => rw [walk_body]; exact (body_call hs ho).mpr ⟨_, _, ⟨g1, g2, ih⟩, hn, rfl⟩
  | callPointer ho g1 g2 _ hn ih => rw [walk_body]; exact (body_callPointer hs ho).mpr ⟨_, _, ⟨g1, g2, ih⟩, hn, rfl⟩

end Verif.ValueString
