import Verif.WrapCall.Lemmas
import Verif.Entry.Acyclic
/-
Property theorems of the collection of call arguments (C40).
-/
namespace Verif.WrapCall
open Verif Verif.Entry Verif.Entry.Spec Verif.ParamStorage Verif.ParamStorage.Spec Verif.WrapCall.Spec Verif.Value

theorem finalOf_func {db : Db} {entry : Ref} {ps : List Ref} (hd : Declares db entry ps) :
    ∃ f, finalOf db (some entry) isFunc = some (some f) ∧ paramsOf (db f).info = ps := by
  obtain ⟨f, qs, r, hf, hi⟩ := hd
  refine ⟨f, ?_, ?_⟩
  · rw [finalOf_final hf]
    rcases hi with hi | hi <;> simp [keep, hi, isFunc]
  · rcases hi with hi | hi <;> simp [paramsOf, hi]

theorem wrap_spec (R : Ref → List Arg → List View → Prop) (env : Env) (db : Db) (tags : Option (Ref → Option Handler))
    (hh : Handled R env db tags) (entry : Ref) (ps : List Ref) (hd : Declares db entry ps)
    (args : List Arg) (slots : List Slot) (complete : Bool) (hcall : Call env db tags ps args slots complete)
    (st : Sto) (h : Heap) (hc : Consistent st h) (hempty : st.items = []) (handle : Nat) (hl : h.live handle = true)
    (hne : handle ≠ st.block) (hiter : h.fails h.next = false) :
    ∃ ret st' h', wrap env db tags (some handle) entry st args h = .ok (ret, st', h') ∧
      Consistent st' h' ∧ st'.block = st.block ∧
      (ret = true → complete = true ∧ AllFilled R slots (views st'.items)) ∧
      (complete = true → (∀ k, h.fails k = false) → ret = true) ∧
      (∀ x, h'.live x = true ↔ (h.live x = true ∧ (ret = true ∨ x ≠ handle)) ∨ x ∈ ownedL st'.items) ∧
      (∀ x ∈ ownedL st'.items, h.live x = false) ∧ h'.fails = h.fails := by
  obtain ⟨f, hf, hps⟩ := finalOf_func hd
  unfold wrap
  simp only [hf, Outcome.ofLoop_some, Outcome.bind_ok, hps]
  have ha : h.alloc = (some h.next, { h with next := h.next + 1, live := fun x => x == h.next || h.live x }) := by
    simp [Heap.alloc, hiter]
  have ga := alloc_grows ha
  simp only [ha]
  simp only [Option.toList_some] at ga
  generalize hh1 : ({ h with next := h.next + 1, live := fun x => x == h.next || h.live x } : Heap) = h1 at ga
  obtain ⟨done, new, h2, e2, hg, g2, hdone, hnf⟩ := params_spec hh hcall 0 st h1 (Consistent_grows hc ga) (by simp [hempty])
  rw [e2]
  simp only [Outcome.bind_ok]
  have gall := ga.trans g2
  obtain ⟨h3, e3, g3⟩ := free_new hc.1 gall
  have hfresh : ∀ x ∈ ownedL new, h.next ≤ x := fun x hx => (g3.fresh x hx).1
  have hdead : ∀ x ∈ ownedL new, h.live x = false := by
    intro x hx
    cases hlx : h.live x with
    | false => rfl
    | true => have := hc.1 x hlx; have := hfresh x hx; omega
  have hitems : (extend st new).items = new := by simp [extend, hempty]
  have hc3 : Consistent (extend st new) h3 := Consistent_appendL hc new g3 hg
  cases done with
  | true =>
    simp only [if_true]
    rw [e3]
    refine ⟨true, extend st new, h3, rfl, hc3, rfl, ?_, fun _ _ => rfl, ?_, by rw [hitems]; exact hdead, g3.fails⟩
    · intro _
      rw [hitems]
      exact hdone rfl
    · intro x
      rw [hitems, g3.live]
      simp
  | false =>
    simp only [Bool.false_eq_true, if_false]
    have hl2 : h2.live handle = true := by rw [gall.live, hl]; rfl
    have hlt := hc.1 _ hl
    have hf4 : h2.free handle = .ok { h2 with live := fun x => x != handle && h2.live x } := by simp [Heap.free, hl2]
    rw [hf4]
    simp only [Outcome.bind_ok]
    have hiter2 : h2.live h.next = true := by rw [gall.live]; simp
    have hf5 : Heap.free h.next { h2 with live := fun x => x != handle && h2.live x } =
        .ok { h2 with live := fun x => x != h.next && (x != handle && h2.live x) } := by
      have : (h.next != handle && h2.live h.next) = true := by
        rw [hiter2]; simp; omega
      simp [Heap.free, this]
    rw [hf5]
    have hlive : ∀ x, (x != h.next && (x != handle && h2.live x)) = true ↔
        (h.live x = true ∧ x ≠ handle) ∨ x ∈ ownedL new := by
      intro x
      have hn := (List.nodup_cons.1 gall.nodup).1
      rw [gall.live]
      by_cases h1 : x = h.next
      · subst h1
        have : ¬ h.live h.next = true := fun hx => Nat.lt_irrefl _ (hc.1 _ hx)
        simp only [List.append_eq, List.nil_append] at hn
        simp [this, hn]
      · by_cases h2 : x = handle
        · subst h2
          have : x ∉ ownedL new := fun hx => by have := hfresh x hx; omega
          simp [this]
        · simp [h1, h2]
    obtain ⟨c1, c2, c3, c4, c5, c6⟩ := hc3
    refine ⟨false, extend st new, _, rfl, ⟨?_, c2, ?_, c4, c5, c6⟩, rfl, by simp, ?_, ?_, by rw [hitems]; exact hdead, gall.fails⟩
    · intro x hx
      simp only [] at hx ⊢
      rw [hlive] at hx
      rcases hx with ⟨hx, _⟩ | hx
      · exact Nat.lt_of_lt_of_le (hc.1 _ hx) gall.next
      · exact (gall.fresh x (by simp [hx])).2
    · intro b hb
      simp only []
      rw [hlive]
      rw [hitems] at hb
      rcases List.mem_cons.1 hb with rfl | hb
      · exact .inl ⟨hc.2.2.1 _ (by simp [extend]), by simpa [extend] using hne.symm⟩
      · exact .inr hb
    · intro hk hn
      have := hnf hk (by rw [ga.fails]; exact hn)
      cases this
    · intro x
      rw [hitems]
      simp only [Bool.false_eq_true, false_or]
      exact hlive x

/-- C40.  Collecting the arguments of a call into an empty storage: the call answers, the
storage stays consistent, and nothing is allocated afterwards but what the storage owns (and,
on success, the value handle; on failure it is released).  A value is only returned if there
is one stored item per declared parameter, in order, holding the bytes of the argument passed
for it (for `...` and `va_list` parameters: what the handler had to store); if the signature
can be collected and no allocation fails, it is returned.
Missing for the full claim: a failing allocation of the iterator (`C40_iterator_ub`), variable
arguments without a handler (`C40_no_handler_leaks`, `C40_no_handler_wrong_argument`), structs
without a fetch function (`C40_struct_double_free`) or not passed like characters
(`C40_struct_in_registers`), values that are no functions (`C40_not_a_function_leaks`), storages
that are not empty (`C40_storage_reused`). -/
theorem C40_wrap_partial (R : Ref → List Arg → List View → Prop) (env : Env) (db : Db) (tags : Option (Ref → Option Handler))
    (hh : Handled R env db tags) (entry : Ref) (ps : List Ref) (hd : Declares db entry ps)
    (args : List Arg) (slots : List Slot) (complete : Bool) (hcall : Call env db tags ps args slots complete)
    (st : Sto) (h : Heap) (hc : Consistent st h) (hempty : st.items = []) (handle : Nat) (hl : h.live handle = true)
    (hne : handle ≠ st.block) (hiter : h.fails h.next = false) :
    ∃ ret st' h', wrap env db tags (some handle) entry st args h = .ok (ret, st', h') ∧
      Consistent st' h' ∧ st'.block = st.block ∧
      (ret = true → complete = true ∧ AllFilled R slots (views st'.items)) ∧
      (complete = true → (∀ k, h.fails k = false) → ret = true) ∧
      (∀ x, h'.live x = true ↔ (h.live x = true ∧ (ret = true ∨ x ≠ handle)) ∨ x ∈ ownedL st'.items) ∧
      (∀ x ∈ ownedL st'.items, h.live x = false) := by
  obtain ⟨ret, st', h', e, h1, h2, h3, h4, h5, h6, _⟩ := wrap_spec R env db tags hh entry ps hd args slots complete hcall st h hc hempty handle hl hne hiter
  exact ⟨ret, st', h', e, h1, h2, h3, h4, h5, h6⟩

/-- C40, release: whatever the outcome, deleting the storage afterwards frees everything the
call has allocated, exactly once. -/
theorem C40_nothing_left_partial (R : Ref → List Arg → List View → Prop) (env : Env) (db : Db) (tags : Option (Ref → Option Handler))
    (hh : Handled R env db tags) (entry : Ref) (ps : List Ref) (hd : Declares db entry ps)
    (args : List Arg) (slots : List Slot) (complete : Bool) (hcall : Call env db tags ps args slots complete)
    (st : Sto) (h : Heap) (hc : Consistent st h) (hempty : st.items = []) (handle : Nat) (hl : h.live handle = true)
    (hne : handle ≠ st.block) (hiter : h.fails h.next = false) :
    ∃ ret st' h' h'', wrap env db tags (some handle) entry st args h = .ok (ret, st', h') ∧
      delete (some st') h' = .ok h'' ∧
      ∀ x, h''.live x = true ↔ h.live x = true ∧ x ≠ st.block ∧ (ret = true ∨ x ≠ handle) := by
  obtain ⟨ret, st', h', e, hc', hb, hdone, _, hlive, hdead⟩ :=
    C40_wrap_partial R env db tags hh entry ps hd args slots complete hcall st h hc hempty handle hl hne hiter
  obtain ⟨h'', e2, _, _, hl2⟩ := delete_ok st' h' hc'
  refine ⟨ret, st', h', h'', e, e2, fun x => ?_⟩
  rw [hl2]
  simp only [Bool.and_eq_true, decide_eq_true_eq, Bool.not_eq_true', decide_eq_false_iff_not, List.mem_cons, not_or, hlive, hb]
  constructor
  · rintro ⟨⟨h1, h2⟩ | h1, h3, h4⟩
    · exact ⟨h1, h3, h2⟩
    · exact absurd h1 h4
  · rintro ⟨h1, h2, h3⟩
    exact ⟨.inl ⟨h1, h3⟩, h2, fun hx => by rw [hdead x hx] at h1; cases h1⟩

theorem final_nosize {db : Db} {t f : Ref} {qs : List Qual} (h : Final db t (some f) qs) (hs : NoSize db f) : NoSize db t := by
  generalize hf : some f = o at h
  induction h with
  | here => simp at hf; subst hf; exact hs
  | void => simp at hf
  | step ha _ ih => exact .through ha (ih hf)

theorem final_void {db : Db} {t : Ref} {qs : List Qual} (h : Final db t none qs) : NoSize db t := by
  generalize hf : (none : Option Ref) = o at h
  induction h with
  | here => simp at hf
  | void ha => exact .void ha
  | step ha _ ih => exact .through ha (ih hf)

/-- C40, every type is covered: a type that does not run in a circle, whose base types have
names and whose structs are smaller than 2 GiB and have a fetch function, is either collected
(in exactly one way) or refused, never both. -/
theorem C40_types (env : Env) (db : Db) (t : Ref) (ha : Acyclic db t)
    (hname : ∀ f size enc, (db f).info = .base size enc → ∃ n, (db f).name = some n)
    (hstruct : ∀ f k size ms, (db f).info = .struct k size ms → size.toNat < 2 ^ 31 ∧ env.structFn f = true) :
    ((∃ c, Takes env db t c) ∨ Unknown db t) ∧ ¬ ((∃ c, Takes env db t c) ∧ Unknown db t) ∧
    (∀ c c', Takes env db t c → Takes env db t c' → c = c') := by
  refine ⟨?_, ?_, ?_⟩
  · rcases size_or_nosize ha with ⟨n, hs⟩ | hs
    · obtain ⟨f, qs, hf⟩ := final_exists ha
      cases f with
      | none => exact .inr (.noSize (final_void hf))
      | some f =>
        have hna := final_not_alias hf
        cases hi : (db f).info with
        | typedef u => exact absurd (.typedef hi) (hna u)
        | qual q u => exact absurd (.qual hi) (hna u)
        | member m => exact absurd (.member hi) (hna m.type)
        | var u => exact absurd (.var hi) (hna u)
        | param u v =>
          cases u with
          | false => exact absurd (.param hi) (hna v)
          | true => exact .inr (.dots hf hi hs)
        | base size enc =>
          obtain ⟨nm, hn⟩ := hname f size enc hi
          by_cases h1 : (nm, size.toNat) ∈ small
          · exact .inl ⟨_, .small hf hi hn h1⟩
          by_cases h2 : ∃ ty, (nm, size.toNat, ty) ∈ wide
          · obtain ⟨ty, h2⟩ := h2; exact .inl ⟨_, .wide hf hi hn h2⟩
          by_cases h3 : (nm, size.toNat) = (text "_Bool", 1)
          · simp only [Prod.mk.injEq] at h3
            have : size = 1 := UInt64.toNat_inj.1 h3.2
            exact .inl ⟨_, .bool hf (by rw [hi, this]) (by rw [hn, h3.1])⟩
          by_cases h4 : (nm, size.toNat) = (text "float", 4)
          · simp only [Prod.mk.injEq] at h4
            have : size = 4 := UInt64.toNat_inj.1 h4.2
            exact .inl ⟨_, .float hf (by rw [hi, this]) (by rw [hn, h4.1])⟩
          exact .inr (.base hf hi hn h1 (fun ty h => h2 ⟨ty, h⟩) h3 h4)
        | pointer u => exact .inl ⟨_, .pointer hf hi⟩
        | reference v size u => exact .inr (.reference hf hi)
        | enumeration size enc es =>
          by_cases hm : size.toNat ∈ [1, 2, 4, 8]
          · simp only [List.mem_cons, List.not_mem_nil, or_false] at hm
            rcases hm with hm | hm | hm | hm
            · exact .inl ⟨_, .enum1 hf (by rw [hi, show size = 1 from UInt64.toNat_inj.1 hm])⟩
            · exact .inl ⟨_, .enum2 hf (by rw [hi, show size = 2 from UInt64.toNat_inj.1 hm])⟩
            · exact .inl ⟨_, .enum4 hf (by rw [hi, show size = 4 from UInt64.toNat_inj.1 hm])⟩
            · exact .inl ⟨_, .enum8 hf (by rw [hi, show size = 8 from UInt64.toNat_inj.1 hm])⟩
          · exact .inr (.enum hf hi hm)
        | array e c => exact .inr (.array hf hi hs)
        | struct k size ms =>
          obtain ⟨h1, h2⟩ := hstruct f k size ms hi
          by_cases h0 : 0 < size.toNat
          · exact .inl ⟨_, .agg hf hi h0 h1 h2⟩
          · have : size = 0 := UInt64.toNat_inj.1 (by show size.toNat = 0; omega)
            exact .inr (.empty hf (by rw [hi, this]))
        | subprogram r ps => exact .inr (.noSize (final_nosize hf (.subprogram hi)))
        | subroutine r ps => exact .inr (.noSize (final_nosize hf (.subroutine hi)))
        | unspecifiedType => exact .inr (.noSize (final_nosize hf (.unspecified hi)))
        | lexBlock => exact .inr (.noSize (final_nosize hf (.lexBlock hi)))
        | nspace => exact .inr (.noSize (final_nosize hf (.nspace hi)))
        | compileUnit => exact .inr (.noSize (final_nosize hf (.compileUnit hi)))
    · exact .inr (.noSize hs)
  · rintro ⟨⟨c, hc⟩, hu⟩
    obtain ⟨p1, e1, h1⟩ := planType_takes hc
    obtain ⟨p2, e2, h2⟩ := planType_unknown (env := env) hu
    rw [e1] at e2
    cases e2
    rcases h2 with rfl | ⟨fn, rfl⟩
    · cases h1
    · cases h1 with
      | agg h0 _ => exact absurd h0 (by decide)
  · intro c c' hc hc'
    obtain ⟨p1, e1, h1⟩ := planType_takes hc
    obtain ⟨p2, e2, h2⟩ := planType_takes hc'
    rw [e1] at e2
    cases e2
    cases h1 <;> cases h2 <;> rfl

/-- C40, the bytes that have to be stored are determined by the argument. -/
theorem C40_bytes_unique (env : Env) (c : Class) (bs bs' : List UInt8) (a : Arg) (h : Carries env c bs a)
    (h' : Carries env c bs' a) : bs = bs' := by
  cases h with
  | small s hl =>
    generalize ha : Arg.val ArgTy.int (promote s bs) = b at h'
    cases h' with
    | small s' hl' =>
      injection ha with _ ha
      rw [← promote_take s hl, ha, promote_take s' hl']
  | wide hl => cases h'; rfl
  | boolFalse => cases h'; rfl
  | boolTrue => cases h'; rfl
  | float _ _ hn =>
    cases h' with
    | float _ _ hn' => rw [← hn, hn']
  | agg => cases h'; rfl

/-- A call of something that is no function, or of a NULL value: nothing is stored. -/
theorem C40_not_a_function (env : Env) (db : Db) (tags : Option (Ref → Option Handler)) (handle : Option Nat) (entry : Ref)
    (st : Sto) (args : List Arg) (h : Heap)
    (hno : handle = none ∨ NoFunction db entry) :
    wrap env db tags handle entry st args h = .ok (false, st, h) := by
  cases handle with
  | none => rfl
  | some hd =>
    rcases hno with hno | hno
    · cases hno
    · unfold wrap
      simp only [finalOf_noFunction hno, Outcome.ofLoop_some, Outcome.bind_ok]
      rfl

/-! ### Concrete cases -/

/-- Types and functions of the examples. -/
def demo : Db := fun r =>
  match r with
  | 1 => ⟨.base 4 5, some (text "int"), false, 0, []⟩
  | 2 => ⟨.base 1 6, some (text "char"), false, 0, []⟩
  | 3 => ⟨.pointer (some 2), none, false, 0, []⟩
  | 4 => ⟨.struct .struct 3 [], some (text "s"), false, 0, []⟩
  | 5 => ⟨.typedef (some 1), some (text "my_int"), false, 0, []⟩
  | 7 => ⟨.base 4 4, some (text "float"), false, 0, []⟩
  | 8 => ⟨.base 1 6, some (text "signed char"), false, 0, []⟩
  | 10 => ⟨.param false (some 5), some (text "i"), false, 0, []⟩
  | 11 => ⟨.param false (some 3), some (text "s"), false, 0, []⟩
  | 12 => ⟨.param true none, none, false, 0, []⟩
  | 13 => ⟨.param false (some 4), some (text "st"), false, 0, []⟩
  | 14 => ⟨.param false (some 3), some (text "ap"), false, 0, []⟩
  | 15 => ⟨.param false (some 8), some (text "c"), false, 0, []⟩
  | 16 => ⟨.param false (some 7), some (text "f"), false, 0, []⟩
  | 30 => ⟨.subprogram none [10, 14, 11, 13, 16, 12], some (text "all"), false, 0, []⟩
  | 31 => ⟨.subprogram none [14, 11], some (text "vf"), false, 0, []⟩
  | 32 => ⟨.subprogram none [13], some (text "sf"), false, 0, []⟩
  | 33 => ⟨.subprogram none [15], some (text "cf"), false, 0, []⟩
  | 34 => ⟨.subprogram none [12], some (text "df"), false, 0, []⟩
  | 35 => ⟨.subprogram none [10], some (text "if"), false, 0, []⟩
  | _ => ⟨.unspecifiedType, none, false, 0, []⟩

/-- Parameter 14 is a `va_list`. -/
def demoEnv (fn : Bool) : Env where
  vaList := fun r => r == 14
  structFn := fun _ => fn
  narrow := fun d => d.take 4

/-- A handler that stores one 4-byte parameter. -/
def demoHandler : Handler := fun _ _ inner args h => do
  let (r, st, h) ← appendBuffer (some inner) (some ⟨1, false, false⟩) 4 h
  match st with
  | some st => return (r, st, args, h)
  | none => return (r, inner, args, h)

def demoTags : Option (Ref → Option Handler) := some fun _ => some demoHandler

def demoR : Ref → List Arg → List View → Prop := fun _ _ vs => vs = [.bytes ⟨1, false, false⟩ [0, 0, 0, 0]]

theorem demoHandler_behaves (p : Ref) : Behaves (demoR p) demoHandler := by
  intro i outer b args h hc
  rcases appendBuffer_spec ⟨b, [], 0, none⟩ (some ⟨1, false, false⟩) 4 h hc with
    ⟨r, h', e1, hr, g, hf⟩ | ⟨e0, node, d, addr, h', he, hn, e1, g⟩
  · refine ⟨r, ⟨b, [], 0, none⟩, args, h', ?_, rfl, Consistent_grows hc g, Grows.adds g, fun h0 => absurd h0 hr, ?_⟩
    · simp [demoHandler, e1]
    · intro hnf
      rcases hf with ⟨k, hk⟩ | hf | hf
      · rw [hnf k] at hk; cases hk
      · cases hf
      · exact absurd hf (by decide)
  · cases he
    refine ⟨0, ⟨b, [.buf node ⟨1, false, false⟩ d addr [0, 0, 0, 0]], 1, some node⟩, args, h', ?_, rfl, ?_, ?_, ?_, fun _ => rfl⟩
    · simp only [demoHandler, e1, Outcome.bind_ok]; rfl
    · exact Consistent_append hc _ g (by show List.replicate 4 (0 : UInt8) ≠ []; simp)
    · simpa [ownedL, owned] using Grows.adds g
    · intro _; rfl

/-- A storage (block 0), a value handle (block 1), nothing else. -/
def demoHeap (fails : Nat → Bool) : Heap := ⟨2, fun x => x == 0 || x == 1, fails⟩
def demoSto : Sto := ⟨0, [], 0, none⟩

theorem demo_consistent (fails : Nat → Bool) : Consistent demoSto (demoHeap fails) := by
  refine ⟨?_, by simp [demoSto, ownedL], by simp [demoSto, ownedL, demoHeap], trivial, rfl, rfl⟩
  intro x hx
  simp [demoHeap] at hx ⊢
  omega

theorem here {r : Ref} (h : ∀ t, ¬ Alias demo r t) : Final demo r (some r) [] := .here h

theorem no_alias {r : Ref} (h : match (demo r).info with
    | .typedef _ | .var _ | .param false _ | .member _ | .qual .. => False
    | _ => True) : ∀ t, ¬ Alias demo r t := by
  intro t ha
  cases ha with
  | typedef h' => rw [h'] at h; exact h
  | var h' => rw [h'] at h; exact h
  | param h' => rw [h'] at h; exact h
  | member h' => rw [h'] at h; exact h
  | qual h' => rw [h'] at h; exact h

/-- The arguments of a call `all(7, ap, s, st, 1.5f, 9)`, where `ap` is a `va_list`. -/
def demoArgs : List Arg :=
  [.val .int [7, 0, 0, 0], .vaList [9, 9, 9, 9, 9, 9, 9, 9] [.val .int [5, 0, 0, 0]], .val .ptr [1, 2, 3, 4, 5, 6, 7, 8],
   .val (.agg true) [1, 2, 3], .val .double [0, 0, 0xC0, 0x3F, 0, 0, 0, 0], .val .int [9, 0, 0, 0]]

def demoSlots : List Slot :=
  [.bytes 10 [7, 0, 0, 0], .rest 14 [.val .int [5, 0, 0, 0]], .bytes 11 [1, 2, 3, 4, 5, 6, 7, 8],
   .bytes 13 [1, 2, 3], .bytes 16 [0, 0, 0xC0, 0x3F], .rest 12 [.val .int [9, 0, 0, 0]]]

/-- The hypotheses of `C40_wrap_partial` are met by a function with a typedef'd int, a
`va_list`, a pointer, a struct, a float and `...`. -/
example : Handled demoR (demoEnv true) demo demoTags ∧ Declares demo 30 [10, 14, 11, 13, 16, 12] ∧
    Call (demoEnv true) demo demoTags [10, 14, 11, 13, 16, 12] demoArgs demoSlots true := by
  refine ⟨?_, ?_, ?_⟩
  · intro tag ht p _
    cases ht
    exact ⟨_, rfl, demoHandler_behaves p⟩
  · exact ⟨30, [], none, here (no_alias trivial), .inl rfl⟩
  · have h1 : Final demo 5 (some 1) [] := .step (.typedef rfl) (here (no_alias trivial))
    refine .plain (t := 5) ⟨rfl, rfl⟩ (.wide (ty := .int) h1 rfl rfl (by decide)) (.wide rfl) ?_
    refine .vaList ⟨⟨_, rfl⟩, rfl⟩ (by simp [demoTags]) ?_
    refine .plain (t := 3) ⟨rfl, rfl⟩ (.pointer (here (no_alias trivial)) rfl) (.wide rfl) ?_
    refine .plain (t := 4) ⟨rfl, rfl⟩ (.agg (here (no_alias trivial)) rfl (by decide) (by decide) rfl) (.agg rfl) ?_
    refine .plain (t := 7) ⟨rfl, rfl⟩ (.float (here (no_alias trivial)) rfl rfl) (.float rfl rfl rfl) ?_
    exact .dots ⟨_, rfl⟩ (by simp [demoTags])

/-! ### What is wrong -/

theorem demo_func {r : Ref} {ps : List Ref} (h : (demo r).info = .subprogram none ps) : finalOf demo (some r) isFunc = some (some r) := by
  have : Final demo r (some r) [] := here (no_alias (by rw [h]; trivial))
  rw [finalOf_final this]
  simp [keep, h, isFunc]

/-- The iterator cannot be allocated: the library dereferences NULL. -/
theorem C40_iterator_ub : wrap (demoEnv true) demo none (some 1) 35 demoSto [.val .int [7, 0, 0, 0]] (demoHeap fun k => k == 2) = .ub := by
  unfold wrap
  simp only [demo_func (r := 35) rfl]
  rfl

/-- `...` with a tag map but without a handler: the call succeeds, and after the storage is
deleted a block is still allocated that nobody knows. -/
theorem C40_no_handler_leaks :
    ∃ st' h' h'', wrap (demoEnv true) demo (some fun _ => none) (some 1) 34 demoSto [] (demoHeap fun _ => false) = .ok (true, st', h') ∧
      delete (some st') h' = .ok h'' ∧ ∃ x, x ≠ 1 ∧ h''.live x = true := by
  unfold wrap
  simp only [demo_func (r := 34) rfl]
  exact ⟨_, _, _, rfl, rfl, 5, by decide, rfl⟩

theorem plan_pointer (env : Env) (tags : Option (Ref → Option Handler)) (h : env.vaList 11 = false) :
    plan env demo tags 11 = .ok (.take 8 .ptr .whole) := by
  unfold plan
  have : (demo 11).info = .param false (some 3) := rfl
  simp only [this, h]
  exact planType_pointer (here (no_alias trivial)) rfl

/-- A `va_list` parameter with a tag map but without a handler is not taken off the
arguments: the next parameter gets the `va_list` instead of its own argument. -/
theorem C40_no_handler_wrong_argument :
    ∃ st' h', wrap (demoEnv true) demo (some fun _ => none) (some 1) 31 demoSto
        [.vaList [9, 9, 9, 9, 9, 9, 9, 9] [], .val .ptr [1, 2, 3, 4, 5, 6, 7, 8]] (demoHeap fun _ => false) = .ok (true, st', h') ∧
      views st'.items = [.list ⟨14, false, true⟩ [], .bytes ⟨11, false, false⟩ [9, 9, 9, 9, 9, 9, 9, 9]] := by
  unfold wrap
  simp only [demo_func (r := 31) rfl, Outcome.ofLoop_some, Outcome.bind_ok]
  simp only [show paramsOf (demo 31).info = [14, 11] from rfl, params, doParam, plan_pointer (demoEnv true) (some fun _ => none) rfl]
  exact ⟨_, _, rfl, rfl⟩

theorem plan_struct (fn : Bool) (tags : Option (Ref → Option Handler)) :
    plan (demoEnv fn) demo tags 13 = .ok (.agg 3 fn) := by
  have : (demo 13).info = .param false (some 4) := rfl
  unfold plan
  simp only [this]
  exact planType_struct (here (no_alias trivial)) rfl

/-- A struct for which no fetch function was generated: the call fails, but the buffer it
freed is still in the storage, and deleting the storage frees it again. -/
theorem C40_struct_double_free :
    ∃ st' h', wrap (demoEnv false) demo none (some 1) 32 demoSto [.val (.agg true) [1, 2, 3]] (demoHeap fun _ => false) = .ok (false, st', h') ∧
      delete (some st') h' = .ub := by
  unfold wrap
  simp only [demo_func (r := 32) rfl, Outcome.ofLoop_some, Outcome.bind_ok]
  simp only [show paramsOf (demo 32).info = [13] from rfl, params, doParam, plan_struct, Outcome.bind_ok, show toInt32 ((3 : UInt64).toNat : Int) = 3 from by decide]
  exact ⟨_, _, rfl, rfl⟩

/-- A struct that the platform passes in floating-point registers: the generated function
fetches an array of characters instead. -/
theorem C40_struct_in_registers :
    wrap (demoEnv true) demo none (some 1) 32 demoSto [.val (.agg false) [1, 2, 3]] (demoHeap fun _ => false) = .ub := by
  unfold wrap
  simp only [demo_func (r := 32) rfl, Outcome.ofLoop_some, Outcome.bind_ok]
  simp only [show paramsOf (demo 32).info = [13] from rfl, params, doParam, plan_struct, Outcome.bind_ok, show toInt32 ((3 : UInt64).toNat : Int) = 3 from by decide]
  rfl

theorem plan_schar (env : Env) (tags : Option (Ref → Option Handler)) (h : env.vaList 15 = false) :
    plan env demo tags 15 = .ok .refuse := by
  have : (demo 15).info = .param false (some 8) := rfl
  unfold plan
  simp only [this, h]
  exact planType_base (here (no_alias trivial)) rfl

example : Unknown demo 8 :=
  .base (here (no_alias trivial)) rfl rfl (by decide) (by simp [wide, text]) (by decide) (by decide)

/-- Both calls return NULL; the handle is released by the first (a `signed char` parameter
cannot be collected) and not by the second (the value is no function). -/
theorem C40_not_a_function_leaks :
    (∃ st' h', wrap (demoEnv true) demo none (some 1) 33 demoSto [.val .int [1, 0, 0, 0]] (demoHeap fun _ => false) = .ok (false, st', h') ∧
      h'.live 1 = false) ∧
    (∃ st' h', wrap (demoEnv true) demo none (some 1) 1 demoSto [] (demoHeap fun _ => false) = .ok (false, st', h') ∧
      h'.live 1 = true) := by
  constructor
  · unfold wrap
    simp only [demo_func (r := 33) rfl, Outcome.ofLoop_some, Outcome.bind_ok]
    simp only [show paramsOf (demo 33).info = [15] from rfl, params, doParam, plan_schar (demoEnv true) none rfl]
    exact ⟨_, _, rfl, rfl⟩
  · exact ⟨_, _, C40_not_a_function _ _ _ _ _ _ _ _ (.inr ⟨some 1, [], here (no_alias trivial), by rintro _ ⟨⟩ t ps; simp [demo]⟩), rfl⟩

theorem plan_int (env : Env) (tags : Option (Ref → Option Handler)) (h : env.vaList 10 = false) :
    plan env demo tags 10 = .ok (.take 4 .int .whole) := by
  have : (demo 10).info = .param false (some 5) := rfl
  have h1 : Final demo 5 (some 1) [] := .step (.typedef rfl) (here (no_alias trivial))
  unfold plan
  simp only [this, h]
  exact planType_base h1 rfl

/-- Two calls collected into the same storage: there are two items, but the first call's
argument is overwritten by the second and the second is 0. -/
theorem C40_storage_reused :
    ∃ st' h' st'' h'',
      wrap (demoEnv true) demo none (some 1) 35 demoSto [.val .int [7, 0, 0, 0]] (demoHeap fun _ => false) = .ok (true, st', h') ∧
      views st'.items = [.bytes ⟨10, false, false⟩ [7, 0, 0, 0]] ∧
      wrap (demoEnv true) demo none (some 1) 35 st' [.val .int [8, 0, 0, 0]] h' = .ok (true, st'', h'') ∧
      views st''.items = [.bytes ⟨10, false, false⟩ [8, 0, 0, 0], .bytes ⟨10, false, false⟩ [0, 0, 0, 0]] := by
  have key : ∀ st b h, wrap (demoEnv true) demo none (some 1) 35 st [.val .int b] h =
      match h.alloc with
      | (none, _) => .ub
      | (some iter, h) => do
        let (done, st, h) ← (do
          match ← stored ⟨10, false, false⟩ 0 4 st [.val .int b] h (fetchVal (demoEnv true) 0 .int .whole [.val .int b]) with
          | (none, st, h) => return (false, st, h)
          | (some _, st, h) => return (true, st, h))
        if done then do
          let h ← h.free iter
          return (true, st, h)
        else do
          let h ← h.free 1
          let h ← h.free iter
          return (false, st, h) := by
    intro st b h
    unfold wrap
    simp only [demo_func (r := 35) rfl, Outcome.ofLoop_some, Outcome.bind_ok]
    simp only [show paramsOf (demo 35).info = [10] from rfl, params, doParam, plan_int (demoEnv true) none rfl]
    rfl
  simp only [key]
  exact ⟨_, _, _, _, rfl, rfl, rfl, rfl⟩

end Verif.WrapCall
