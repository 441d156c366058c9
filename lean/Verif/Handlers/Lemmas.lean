import Verif.Handlers.Spec
import Verif.Value.PropsBase
/-
Helper lemmas for the tag handlers.
-/
namespace Verif.Handlers
open Verif Verif.Entry Verif.Entry.Spec Verif.Value Verif.Value.Spec Verif.Handlers.Spec

theorem number_num {cfg : Plat} {db : Db} (hn : Named db) {m : Mem} {v : Value} {n : Int} (h : Number cfg db m v n) (hi : IsInt n) :
    num cfg db m (some v) = .ok (.ok n) := by
  obtain ⟨h1, h2⟩ := hi
  cases h with
  | plain hf hd hint hb ha hh hbool => exact (C26_num_partial cfg db hn m v _ _ hf ha).1 _ _ _ rfl hd hint hb hh hbool h1 h2
  | enumeration hf hi ha hs hh => exact (C26_num_partial cfg db hn m v _ _ hf ha).2.1 _ _ _ _ _ rfl hi hs hh h1 h2
  | bits hb h30 hw hf hiso hbool hchar _ => exact C26_bitfield_partial cfg db hn m v _ _ _ _ _ _ hb h30 hw _ hf hiso hbool hchar

theorem no_number_num {cfg : Plat} {db : Db} (hn : Named db) {m : Mem} {v : Value} (h : NoNumber db v) :
    num cfg db m (some v) = .ok (.error (-95)) := by
  obtain ⟨ha, f, qs, hf, h1, h2⟩ := h
  exact (C26_num_partial cfg db hn m v _ _ hf ha).2.2 h1 h2

theorem struct_final {db : Db} {v : Value} {ms : List Ref} (h : Struct db v ms) :
    ∃ x k size, finalOf db (some v.entry) isStruct = some (some x) ∧ (db x).info = .struct k size ms ∧ ∃ qs, Final db v.entry (some x) qs := by
  obtain ⟨ha, ⟨x, qs, k, size, hf, hi⟩, hm⟩ := h
  have hfo := finalOf_some hf isStruct
  simp only [hi, isStruct, if_true] at hfo
  exact ⟨x, k, size, hfo, hi, qs, hf⟩

theorem noStruct_final {db : Db} {v : Value} (h : NoStruct db v) : finalOf db (some v.entry) isStruct = some none := by
  obtain ⟨f, qs, hf, hno⟩ := h
  cases f with
  | none => exact finalOf_none hf _ (by simp)
  | some x =>
    have := finalOf_some hf isStruct
    rw [this]
    cases hi : (db x).info with
    | struct k size ms => exact absurd hi (hno x k size ms rfl)
    | _ => rfl

theorem hasMembers_struct {db : Db} {v : Value} {ms : List Ref} (h : Struct db v ms) : hasMembers db v = .ok true := by
  obtain ⟨x, k, size, hf, _⟩ := struct_final h
  simp [hasMembers, hf]

theorem hasMembers_no {db : Db} {v : Value} (h : NoStruct db v) : hasMembers db v = .ok false := by
  simp [hasMembers, noStruct_final h]

theorem memberCountOf_struct {db : Db} {v : Value} {ms : List Ref} (h : Struct db v ms) : memberCountOf db v = .ok (ms.length : Int) := by
  obtain ⟨x, k, size, hf, hi, qs, hfin⟩ := struct_final h
  have := ((C19_members db x _ _ (final_of_final hfin)).1 x k size ms rfl hi).1
  simp [memberCountOf, hf, this]

theorem memberValue_struct {db : Db} {v : Value} {ms : List Ref} (h : Struct db v ms) {i : Nat} {w : Value} (hw : Spec.Member db v ms i w) :
    memberValue db (some v) i = .ok (some w) := by
  obtain ⟨ha, ⟨x, qs, k, size, hf, hi⟩, hm⟩ := h
  obtain ⟨r, mi, hr, hmi, rfl⟩ := hw
  exact (((C23_members db v _ _ hf ha).1 x k size ms rfl hi hm).1 i r mi hr hmi)

theorem memberValue_out {db : Db} {v : Value} {ms : List Ref} (h : Struct db v ms) {i : Int} (hw : i < 0 ∨ i ≥ ms.length) :
    memberValue db (some v) i = .ok none := by
  obtain ⟨ha, ⟨x, qs, k, size, hf, hi⟩, hm⟩ := h
  exact (((C23_members db v _ _ hf ha).1 x k size ms rfl hi hm).2 i hw)

theorem member_exists {db : Db} {v : Value} {ms : List Ref} (h : Struct db v ms) {i : Nat} (hi : i < ms.length) :
    ∃ w, Spec.Member db v ms i w ∧ ms[i]? = some w.entry := by
  obtain ⟨mi, hmi⟩ := h.2.2 (ms[i]) (List.getElem_mem hi)
  have hr : ms[i]? = some ms[i] := List.getElem?_eq_getElem hi
  exact ⟨_, ⟨ms[i], mi, hr, hmi, rfl⟩, hr⟩

/-- search: all earlier siblings have other names. -/
theorem siblingLoop_at {cfg : Plat} {db : Db} {m : Mem} {get : Nat → Outcome (Option Value)} {name : Name} {w : Value} {res : Sibling}
    (hw : (db w.entry).name = some name)
    (hres : (∃ n, num cfg db m (some w) = .ok (.ok n) ∧ res = .num n) ∨ (∃ c, num cfg db m (some w) = .ok (.error c)) ∧ res = .bad) :
    ∀ (i left k : Nat), i < left → (∀ j < i, ∃ s, get (k + j) = .ok (some s) ∧ (db s.entry).name ≠ some name) →
      get (k + i) = .ok (some w) → siblingLoop cfg db m get name left k = .ok res
  | 0, left + 1, k, _, _, hg => by
    rw [Nat.add_zero] at hg
    rcases hres with ⟨n, hn, rfl⟩ | ⟨⟨c, hc⟩, rfl⟩
    · simp [siblingLoop, hg, valueName, hw, hn, deleteValue]
    · simp [siblingLoop, hg, valueName, hw, hc, deleteValue]
  | i + 1, left + 1, k, hl, hj, hg => by
    obtain ⟨s, hs, hne⟩ := hj 0 (by omega)
    rw [Nat.add_zero] at hs
    have ih := siblingLoop_at hw hres i left (k + 1) (by omega)
      (fun j hjl => by have := hj (j + 1) (by omega); rwa [show k + (j + 1) = k + 1 + j by omega] at this)
      (by rwa [show k + 1 + i = k + (i + 1) by omega])
    simp [siblingLoop, hs, valueName, hne, deleteValue, ih]

theorem siblingLoop_missing {cfg : Plat} {db : Db} {m : Mem} {get : Nat → Outcome (Option Value)} {name : Name} :
    ∀ (left k : Nat), (∀ j < left, ∃ s, get (k + j) = .ok (some s) ∧ (db s.entry).name ≠ some name) →
      siblingLoop cfg db m get name left k = .ok .missing
  | 0, _, _ => rfl
  | left + 1, k, hj => by
    obtain ⟨s, hs, hne⟩ := hj 0 (by omega)
    rw [Nat.add_zero] at hs
    have ih := siblingLoop_missing (cfg := cfg) (m := m) left (k + 1)
      (fun j hjl => by have := hj (j + 1) (by omega); rwa [show k + (j + 1) = k + 1 + j by omega] at this)
    simp [siblingLoop, hs, valueName, hne, deleteValue, ih]

theorem memberSibling_field {cfg : Plat} {db : Db} {m : Mem} {p : Value} {ms : List Ref} (h : Struct db p ms) {name : Name} {w : Value}
    (hw : Spec.Field db p ms name w) {res : Sibling}
    (hres : (∃ n, num cfg db m (some w) = .ok (.ok n) ∧ res = .num n) ∨ (∃ c, num cfg db m (some w) = .ok (.error c)) ∧ res = .bad) :
    memberSibling cfg db m p name = .ok res := by
  obtain ⟨i, ⟨⟨r, hr, hrn⟩, hfst⟩, hmem⟩ := hw
  have hil : i < ms.length := by
    rcases Nat.lt_or_ge i ms.length with hl | hl
    · exact hl
    · rw [List.getElem?_eq_none hl] at hr; cases hr
  have hwn : (db w.entry).name = some name := by
    obtain ⟨r', mi, hr', _, rfl⟩ := hmem
    rw [hr] at hr'
    cases hr'
    exact hrn
  simp only [memberSibling, memberCountOf_struct h, Outcome.bind_ok, Int.toNat_natCast]
  refine siblingLoop_at hwn hres i _ 0 hil (fun j hj => ?_) ?_
  · obtain ⟨s, hs, hse⟩ := member_exists h (show j < ms.length by omega)
    refine ⟨s, ?_, hfst j hj _ hse⟩
    rw [Nat.zero_add]
    exact memberValue_struct h hs
  · rw [Nat.zero_add]
    exact memberValue_struct h hmem

theorem memberSibling_none {cfg : Plat} {db : Db} {m : Mem} {p : Value} {ms : List Ref} (h : Struct db p ms) {name : Name}
    (hw : NoField db ms name) : memberSibling cfg db m p name = .ok .missing := by
  simp only [memberSibling, memberCountOf_struct h, Outcome.bind_ok, Int.toNat_natCast]
  refine siblingLoop_missing _ 0 (fun j hj => ?_)
  obtain ⟨s, hs, hse⟩ := member_exists h hj
  refine ⟨s, ?_, hw _ (List.mem_of_getElem? hse)⟩
  rw [Nat.zero_add]
  exact memberValue_struct h hs

theorem elements_value {db : Db} {m : Mem} {v : Value} {n : Int} {r : Option (Entry × Nat)} (h : Elements db m v n r) :
    elementCountValue db m (some v) n = .ok r := by
  cases h with
  | target ha hf hi hh h0 he =>
    obtain ⟨e', h1, h2⟩ := ((C55_element_count_value db m v _ _ hf ha n).1 _ _ _ rfl hi hh).1 h0
    have hne := ((C52_new_element_count db v.entry _ _ hf n).1 _ _ 0 rfl (.inl hi)).1
    rw [holds_loadN] at hh
    subst he
    simp [elementCountValue, ha, final_entry hf, hi, hh, h0, hne]
  | null ha hf hi hh => exact ((C55_element_count_value db m v _ _ hf ha n).1 _ _ _ rfl hi hh).2 rfl
  | array ha hf hi he =>
    have hne := ((C52_new_element_count db v.entry _ _ hf n).1 _ _ _ rfl (.inr hi)).1
    subst he
    simp [elementCountValue, ha, final_entry hf, hi, hne]

theorem hasLoad_call {env : Env} {db : Db} {v : Value} (h : Call env db v) : hasLoad env db v = .ok true := by
  cases h with
  | func hf hi =>
    have := finalOf_some hf isFunc
    rcases hi with hi | hi <;> simp only [hi, isFunc, if_true] at this <;> simp [hasLoad, this]
  | variadic hi =>
    have hf : Final db v.entry (some v.entry) [] := .here (by
      intro t ha
      cases ha <;> rename_i ha <;> rw [hi] at ha <;> simp at ha)
    have := finalOf_some hf isFunc
    simp only [hi, isFunc] at this
    simp [hasLoad, this, hi]
  | @vaList f qs t hf hi hv =>
    have hx : ∃ o, finalOf db (some v.entry) isFunc = some o := by
      cases f with
      | none => exact ⟨_, finalOf_none hf _ (by simp)⟩
      | some x => exact ⟨_, finalOf_some hf _⟩
    obtain ⟨o, ho⟩ := hx
    cases o <;> simp [hasLoad, ho, hi, hv]

theorem caseLoop_first {db : Db} {u : Ref} {n : Int} {c : UnionCase} {pre post : List UnionCase} (hc : c.val = n) (hpre : ∀ d ∈ pre, d.val ≠ n) :
    caseLoop db u n (pre ++ c :: post) = caseLoop db u n [c] := by
  induction pre with
  | nil =>
    simp only [List.nil_append, caseLoop, hc, if_true]
  | cons d pre ih =>
    have hd := hpre d (by simp)
    have := ih (fun x hx => hpre x (by simp [hx]))
    rw [List.cons_append, ← this, caseLoop, if_neg hd]

theorem caseLoop_none {db : Db} {u : Ref} {n : Int} {cs : List UnionCase} (h : ∀ d ∈ cs, d.val ≠ n) : caseLoop db u n cs = .ok (.error (-2)) := by
  induction cs with
  | nil => rfl
  | cons d cs ih => rw [caseLoop, if_neg (h d (by simp)), ih fun x hx => h x (by simp [hx])]

theorem castLoop_first {db : Db} {m : Mem} {v : Value} {n k : Int} {c : CastCase} {pre post : List CastCase} (hc : c.val = n)
    (hpre : ∀ d ∈ pre, d.val ≠ n) : castLoop db m v n k (pre ++ c :: post) = castLoop db m v n k [c] := by
  induction pre with
  | nil => simp only [List.nil_append, castLoop, hc, if_true]
  | cons d pre ih =>
    have hd := hpre d (by simp)
    have := ih (fun x hx => hpre x (by simp [hx]))
    rw [List.cons_append, ← this, castLoop, if_neg (fun e => hd e.symm)]

theorem castLoop_none {db : Db} {m : Mem} {v : Value} {n k : Int} {cs : List CastCase} (h : ∀ d ∈ cs, d.val ≠ n) :
    castLoop db m v n k cs = .ok (0, none) := by
  induction cs with
  | nil => rfl
  | cons d cs ih => rw [castLoop, if_neg (fun e => h d (by simp) e.symm), ih fun x hx => h x (by simp [hx])]

theorem strlen_spec {m : Mem} {a n : Nat} (h : CString m a n) : ∀ d k, k + d = n → strlen m a k = some (.ok n)
  | 0, k, hk => by
    subst hk
    rw [strlen.eq_def]
    have := h.2
    rw [Nat.add_zero] at this ⊢
    rw [this]
    rfl
  | d + 1, k, hk => by
    obtain ⟨b, hb, hb0⟩ := h.1 k (by omega)
    rw [strlen.eq_def, hb]
    simp only [hb0, if_false]
    exact strlen_spec h d (k + 1) (by omega)

theorem strlenOf_spec {m : Mem} {a n : Nat} (h : CString m a n) : strlenOf m a = .ok n := by
  simp [strlenOf, strlen_spec h n 0 (by omega)]

theorem cast_field {cfg : Plat} {db : Db} {m : Mem} {p : Value} {ms : List Ref} (h : Struct db p ms)
    (hid : ∀ n i, First db ms n i → memberNameToId db (some p.entry) n = some (i : Int)) {name : Name} {w : Value}
    (hw : Spec.Field db p ms name w) {res : Option Int}
    (hres : (∃ n, num cfg db m (some w) = .ok (.ok n) ∧ res = some n) ∨ (∃ c, num cfg db m (some w) = .ok (.error c)) ∧ res = none) :
    ∃ i : Nat, memberNameToId db (some p.entry) name = some (i : Int) ∧ castSibling cfg db m p i = .ok res := by
  obtain ⟨i, hfst, hmem⟩ := hw
  refine ⟨i, hid _ _ hfst, ?_⟩
  rcases hres with ⟨n, hn, rfl⟩ | ⟨⟨c, hc⟩, rfl⟩
  · simp [castSibling, memberValue_struct h hmem, hn, deleteValue]
  · simp [castSibling, memberValue_struct h hmem, hc, deleteValue]

end Verif.Handlers
