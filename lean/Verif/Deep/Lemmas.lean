import Verif.Deep.Spec
import Verif.ValueString.Lemmas
/-
Helper lemmas for `Verif.Deep.Props`: the first visit of a value.
-/
namespace Verif.Deep
open Verif Verif.Entry Verif.Entry.Spec Verif.Value Verif.Value.Spec Verif.Handlers Verif.ValueString Verif.ValueString.Spec Spec

theorem size_lt {db : Db} (hs : Sane db) {r : Ref} {n : Nat} (h : Size db r n) : n < 2 ^ 64 := by
  induction h with
  | @stored r n h => cases h <;> first | exact UInt64.toNat_lt _ | decide
  | through _ _ ih => exact ih
  | dots _ _ ih => exact ih
  | @array r t n count hi hc hsz ih =>
    have := hs.sizes r t count n hi hsz
    exact_mod_cast this

theorem sizeOfValue_ok {db : Db} (hs : Sane db) {v : Value} {n : Nat} (h : Size db v.entry n) : sizeOfValue db v = .ok (.ok n) := by
  obtain ⟨u, h1, _, h3⟩ := (C17_byte_size db).1 _ _ h
  simp [sizeOfValue, h1, h3 (size_lt hs h)]

theorem sizeOfValue_iff {db : Db} (hs : Sane db) {v : Value} {r : Except Int Nat} (h : sizeOfValue db v = .ok r) :
    (∃ n, r = .ok n ∧ Size db v.entry n) ∨ ∃ e, r = .error e := by
  rcases size_or_nosize (hs.acyclic v.entry) with ⟨n, hn⟩ | hno
  · rw [sizeOfValue_ok hs hn] at h
    cases h
    exact .inl ⟨n, rfl, hn⟩
  · have := (C17_byte_size db).2.1 _ hno
    simp [sizeOfValue, this] at h
    exact .inr ⟨_, h.symm⟩

theorem size_unique {db : Db} (hs : Sane db) {r : Ref} {n k : Nat} (h : Size db r n) (h' : Size db r k) : n = k := by
  have h1 := sizeOfValue_ok (v := ⟨r, 0⟩) hs h
  rw [sizeOfValue_ok (v := ⟨r, 0⟩) hs h'] at h1
  cases h1
  rfl

/-- The first visit. -/
def first (env : Env) (mode : Mode) (db : Db) (m : Mem) (outer : List Value) (p : Value) : Outcome Next := do
  let c ← finalCase env.vs db p
  start env mode db m c p outer

/-- The result of a first visit that found the shape of the value. -/
def next : Shape → Next
  | .leaf n l => .leaf n l
  | .parts vs n => .parts vs false n
  | .target arr n => .target arr n
  | .args vs => .args vs false

section
variable {env : Env} {mode : Mode} {db : Db} {m : Mem} {outer : List Value} {v : Value} {s : Shape}

theorem first_packed (hs : Sane db) (h : Packed env.vs db v) : first env mode db m outer v = startParams env db v := by
  simp [first, finalCase_packed hs h, start]

theorem first_object (hs : Sane db) {i : Info} (h : Object env.vs db v i) : first env mode db m outer v = start env mode db m (caseOf i) v outer := by
  simp [first, finalCase_object hs h]

/-! ### Leaves -/

theorem startLeaf_iff (hs : Sane db) {n : Next} : startLeaf db v = .ok n → (∃ k, n = .leaf k 0 ∧ Size db v.entry k) ∨ n = .fail := by
  intro h
  unfold startLeaf at h
  rw [bind_ok_iff] at h
  obtain ⟨r, h1, h2⟩ := h
  rcases sizeOfValue_iff hs h1 with ⟨k, rfl, hk⟩ | ⟨e, rfl⟩
  · cases h2; exact .inl ⟨k, rfl, hk⟩
  · cases h2; exact .inr rfl

theorem startLeaf_ok (hs : Sane db) {k : Nat} (h : Size db v.entry k) : startLeaf db v = .ok (.leaf k 0) := by
  simp [startLeaf, sizeOfValue_ok hs h]

/-! ### Structs and unions -/

theorem members_iff (hs : Sane db) {k : StructKind} {n : UInt64} {ms : List Ref} {x : Ref} {qs : List Qual} (ha : v.addr ≠ 0)
    (hx : Final db v.entry (some x) qs) (hi : (db x).info = .struct k n ms) {vs : List Value} :
    collect (fun i => memberValue db (some v) i) ms.length 0 = .ok (vs, false) ↔
      vs.length = ms.length ∧ ∀ (i : Nat) w, vs[i]? = some w → Member db v ms i w := by
  rw [collect_iff]
  constructor
  · rintro ⟨h1, h2⟩
    refine ⟨h1, fun i w hw => ?_⟩
    have := h2 i w hw
    rw [Nat.zero_add] at this
    exact (memberValue_iff hs ha hx hi i w (by rw [← h1]; exact (List.getElem?_eq_some_iff.mp hw).1)).mp this
  · rintro ⟨h1, h2⟩
    refine ⟨h1, fun i w hw => ?_⟩
    rw [Nat.zero_add]
    exact (memberValue_iff hs ha hx hi i w (by rw [← h1]; exact (List.getElem?_eq_some_iff.mp hw).1)).mpr (h2 i w hw)

theorem first_struct (hs : Sane db) {k : UInt64} {ms : List Ref} (ho : Object env.vs db v (.struct .struct k ms)) :
    first env mode db m outer v = .ok (next s) ↔ ∃ vs n, s = .parts vs n ∧ Size db v.entry n ∧ vs.length = ms.length ∧
      ∀ (i : Nat) w, vs[i]? = some w → Member db v ms i w := by
  rw [first_object hs ho]
  obtain ⟨_, ha, x, qs, hx, hi⟩ := ho
  obtain ⟨h1, h2⟩ := hasMembers_of hx hi
  simp only [caseOf, start, startStruct, h1, h2, Outcome.bind_ok, Outcome.assert, if_true, Int.toNat_natCast]
  constructor
  · intro h
    rw [bind_ok_iff] at h
    obtain ⟨r, h3, h4⟩ := h
    rcases sizeOfValue_iff hs h3 with ⟨n, rfl, hn⟩ | ⟨e, rfl⟩
    · simp only at h4
      rw [bind_ok_iff] at h4
      obtain ⟨⟨vs, failed⟩, h5, h6⟩ := h4
      cases s <;> simp [next] at h6
      obtain ⟨rfl, rfl, rfl⟩ := h6
      exact ⟨_, _, rfl, hn, (members_iff hs ha hx hi).mp h5⟩
    · cases s <;> simp [next] at h4
  · rintro ⟨vs, n, rfl, h3, h4⟩
    simp [sizeOfValue_ok hs h3, (members_iff hs ha hx hi).mpr h4, next]

theorem first_union (hs : Sane db) {k : UInt64} {ms : List Ref} (ho : Object env.vs db v (.struct .union k ms)) :
    first env mode db m outer v = .ok (next s) ↔ ∃ n, Size db v.entry n ∧
      ((s = .parts [] n ∧ (ms ≠ [] → Reply env.vs .unionMember v outer none ∧ mode.union ≠ .fail)) ∨
       ∃ w, s = .parts [w] n ∧ ms ≠ [] ∧ Reply env.vs .unionMember v outer (some w)) := by
  rw [first_object hs ho]
  obtain ⟨_, ha, x, qs, hx, hi⟩ := ho
  obtain ⟨h1, h2⟩ := hasMembers_of hx hi
  simp only [caseOf, start, startUnion, h1, h2, Outcome.bind_ok, Outcome.assert, if_true]
  have hiff : ((ms.length : Int) > 0) ↔ ms ≠ [] := by
    rw [← List.length_pos_iff]
    omega
  constructor
  · intro h
    rw [bind_ok_iff] at h
    obtain ⟨r, h3, h4⟩ := h
    rcases sizeOfValue_iff hs h3 with ⟨n, rfl, hn⟩ | ⟨e, rfl⟩
    · simp only at h4
      refine ⟨n, hn, ?_⟩
      by_cases hms : ms = []
      · subst hms
        cases s <;> simp [next] at h4
        obtain ⟨rfl, rfl⟩ := h4
        exact .inl ⟨rfl, fun h => absurd rfl h⟩
      · rw [if_pos (hiff.mpr hms), bind_ok_iff] at h4
        obtain ⟨o, h5, h6⟩ := h4
        cases o with
        | none => cases s <;> simp [next] at h6
        | some o =>
          have hr := request_iff.mp h5
          cases o with
          | none =>
            simp only at h6
            split at h6
            · cases s <;> simp [next] at h6
            · next hm =>
              cases s <;> simp [next] at h6
              obtain ⟨rfl, rfl⟩ := h6
              exact .inl ⟨rfl, fun _ => ⟨hr, hm⟩⟩
          | some w =>
            cases s <;> simp [next] at h6
            obtain ⟨rfl, rfl⟩ := h6
            exact .inr ⟨w, rfl, hms, hr⟩
    · cases s <;> simp [next] at h4
  · rintro ⟨n, hn, ⟨rfl, h3⟩ | ⟨w, rfl, hms, hr⟩⟩
    · simp only [sizeOfValue_ok hs hn, Outcome.bind_ok]
      by_cases hms : ms = []
      · subst hms
        simp [next]
      · rw [if_pos (hiff.mpr hms), request_iff.mpr (h3 hms).1]
        simp [(h3 hms).2, next]
    · simp only [sizeOfValue_ok hs hn, Outcome.bind_ok]
      rw [if_pos (hiff.mpr hms), request_iff.mpr hr]
      simp [next]

/-! ### Arrays -/

theorem startElements_iff (hs : Sane db) {e : Option Ref} {c : Int} {arr : Value} (ha : IsArray db arr e c) :
    startElements db arr = .ok (next s) ↔
      (∃ vs n, s = .parts vs n ∧ vs.length = c.toNat ∧ (∀ (i : Nat) w, vs[i]? = some w → Element db arr e i w) ∧ vs ≠ [] ∧ Size db arr.entry n) ∨
      (s = .parts [] 0 ∧ c ≤ 0) := by
  have hcount : valueElementCount db (some arr) = .ok c := by
    obtain ⟨_, x, qs, hx, hi⟩ := ha
    exact elementCount_of hs hx hi
  have hcol : ∀ vs, collect (fun i => elementValue db (some arr) i) c.toNat 0 = .ok (vs, false) ↔
      vs.length = c.toNat ∧ ∀ (i : Nat) w, vs[i]? = some w → Element db arr e i w := by
    intro vs
    rw [collect_iff]
    constructor
    · rintro ⟨h1, h2⟩
      refine ⟨h1, fun i w hw => ?_⟩
      have := h2 i w hw
      rw [Nat.zero_add] at this
      exact (elementValue_iff hs ha i w (by rw [← h1]; exact (List.getElem?_eq_some_iff.mp hw).1)).mp this
    · rintro ⟨h1, h2⟩
      refine ⟨h1, fun i w hw => ?_⟩
      rw [Nat.zero_add]
      exact (elementValue_iff hs ha i w (by rw [← h1]; exact (List.getElem?_eq_some_iff.mp hw).1)).mpr (h2 i w hw)
  unfold startElements
  simp only [hcount, Outcome.bind_ok]
  constructor
  · intro h
    rw [bind_ok_iff] at h
    obtain ⟨⟨vs, failed⟩, h1, h2⟩ := h
    simp only at h2
    by_cases hvs : vs = []
    · subst hvs
      cases s <;> simp [next] at h2
      obtain ⟨rfl, rfl, rfl⟩ := h2
      have := ((hcol []).mp h1).1
      simp at this
      exact .inr ⟨rfl, by omega⟩
    · rw [if_neg hvs, bind_ok_iff] at h2
      obtain ⟨r, h3, h4⟩ := h2
      rcases sizeOfValue_iff hs h3 with ⟨n, rfl, hn⟩ | ⟨e, rfl⟩
      · cases s <;> simp [next] at h4
        obtain ⟨rfl, rfl, rfl⟩ := h4
        obtain ⟨h5, h6⟩ := (hcol _).mp h1
        exact .inl ⟨_, _, rfl, h5, h6, hvs, hn⟩
      · cases s <;> simp [next] at h4
  · rintro (⟨vs, n, rfl, h1, h2, h3, h4⟩ | ⟨rfl, h1⟩)
    · simp [(hcol vs).mpr ⟨h1, h2⟩, h3, sizeOfValue_ok hs h4, next]
    · have : c.toNat = 0 := by omega
      simp [this, collect, next]

theorem first_array (hs : Sane db) (hin : Interned env.vs db) (hh : Honest env.vs db) {e : Option Ref} {c : Int} (ho : Object env.vs db v (.array e c)) :
    first env mode db m outer v = .ok (next s) ↔ ∃ arr e' c', Counted env mode v outer e c arr ∧ IsArray db arr e' c' ∧
      ((∃ vs n, s = .parts vs n ∧ vs.length = c'.toNat ∧ (∀ (i : Nat) w, vs[i]? = some w → Element db arr e' i w) ∧ vs ≠ [] ∧ Size db arr.entry n) ∨
      (s = .parts [] 0 ∧ c' ≤ 0)) := by
  rw [first_object hs ho]
  obtain ⟨_, ha, x, qs, hx, hi⟩ := ho
  have harr : IsArray db v e c := ⟨ha, x, qs, hx, hi⟩
  obtain ⟨b, hb, hbi⟩ := hasElements_iff hs v
  rw [hbi.mpr ⟨x, qs, e, c, hx, hi⟩] at hb
  simp only [caseOf, start, startArray, hb, Outcome.bind_ok, Outcome.assert, if_true, elementCount_of hs hx hi]
  by_cases hn : c = -1
  · subst hn
    rw [if_pos rfl]
    constructor
    · intro h
      rw [bind_ok_iff] at h
      obtain ⟨o, h1, h2⟩ := h
      cases o with
      | none => cases s <;> simp [next] at h2
      | some o =>
        have hr := request_iff.mp h1
        cases o with
        | some arr =>
          obtain ⟨e', c', harr'⟩ := hh v outer arr hr
          exact ⟨arr, e', c', .reply hr, harr', (startElements_iff hs harr').mp h2⟩
        | none =>
          simp only at h2
          split at h2
          · cases s <;> simp [next] at h2
          · next hf =>
            simp only [countValue_array hx ha hi, Outcome.bind_ok] at h2
            cases e with
            | none => cases s <;> simp [next] at h2
            | some r =>
              simp only [Option.map_some] at h2
              have harr' := interned_array hin (e := some r) (.inr (.inl rfl)) ha
              exact ⟨_, _, _, .empty hr (by simpa using hf) rfl, harr', (startElements_iff hs harr').mp h2⟩
    · rintro ⟨arr, e', c', hc, harr', h2⟩
      cases hc with
      | known h => exact absurd rfl h
      | reply hr =>
        rw [request_iff.mpr hr]
        exact (startElements_iff hs harr').mpr h2
      | empty hr hf he =>
        subst he
        rw [request_iff.mpr hr]
        simp only [Outcome.bind_ok, hf, Bool.false_eq_true, if_false, countValue_array hx ha hi, Option.map_some]
        exact (startElements_iff hs harr').mpr h2
  · rw [if_neg hn, startElements_iff hs harr]
    constructor
    · intro h
      exact ⟨v, e, c, .known hn, harr, h⟩
    · rintro ⟨arr, e', c', hc, harr', h⟩
      cases hc with
      | known _ =>
        obtain ⟨rfl, rfl⟩ := isArray_unique harr harr'
        exact h
      | reply => exact absurd rfl hn
      | empty => exact absurd rfl hn

/-! ### Pointers -/

theorem loopLevels_pos (hs : Sane db) {a : Nat} : ∀ (ws : List Value) (l : Int), 1 ≤ l → ∀ r : Int, 0 < r →
    (loopLevels db m a (ws.map some) l = .ok r ↔
      ∃ (i : Nat) (w : Value), r = l + i ∧ ws[i]? = some w ∧ Pointer db m w a ∧ Fresh db m (ws.take i) a)
  | [], l, hl, r, hr => by
    simp only [List.map_nil, loopLevels, Outcome.ok.injEq]
    constructor
    · intro h; omega
    · rintro ⟨i, w, _, h, _⟩; simp at h
  | w :: ws, l, hl, r, hr => by
    have ih := loopLevels_pos hs (a := a) ws (l + 1) (by omega) r hr
    have hcons : ∀ ws, Fresh db m (w :: ws) a ↔ (∀ x qs t, Final db w.entry (some x) qs → (db x).info = .pointer t → w.addr ≠ 0 → ∃ b, Holds m w.addr 8 b ∧ b ≠ a) ∧ Fresh db m ws a := by
      intro ws
      unfold Fresh
      simp
    -- when the nearest is no pointer to `a`
    have hskip : (∀ x qs t, Final db w.entry (some x) qs → (db x).info = .pointer t → w.addr ≠ 0 → ∃ b, Holds m w.addr 8 b ∧ b ≠ a) →
        ((∃ (i : Nat) (u : Value), r = l + i ∧ (w :: ws)[i]? = some u ∧ Pointer db m u a ∧ Fresh db m ((w :: ws).take i) a) ↔
          ∃ (i : Nat) (u : Value), r = l + 1 + i ∧ ws[i]? = some u ∧ Pointer db m u a ∧ Fresh db m (ws.take i) a) := by
      intro hw
      constructor
      · rintro ⟨i, u, h1, h2, h3, h4⟩
        cases i with
        | zero =>
          simp at h2
          subst h2
          obtain ⟨h5, ⟨x, qs, t, h6, h7⟩, h8⟩ := h3
          obtain ⟨b, h9, h10⟩ := hw x qs t h6 h7 h5
          exact absurd (holds_unique h9 h8) h10
        | succ i =>
          rw [List.take_succ_cons, hcons] at h4
          exact ⟨i, u, by omega, by simpa using h2, h3, h4.2⟩
      · rintro ⟨i, u, h1, h2, h3, h4⟩
        refine ⟨i + 1, u, by omega, by simpa using h2, h3, ?_⟩
        rw [List.take_succ_cons, hcons]
        exact ⟨hw, h4⟩
    rw [List.map_cons, loopLevels]
    obtain ⟨g, qs, hg⟩ := final_exists (hs.acyclic w.entry)
    by_cases hp : ∃ x t, g = some x ∧ (db x).info = .pointer t
    · obtain ⟨x, t, rfl, hi⟩ := hp
      simp only [finalOf_some' hg isPointer (by rw [hi]; rfl), Outcome.ofLoop_some, Outcome.bind_ok]
      by_cases ha : w.addr = 0
      · have : pointer db m (some w) = .ok (.error (-22)) := by
          simp [pointer, finalOf_some' hg isPointer (by rw [hi]; rfl), ha]
        simp only [this, Outcome.bind_ok]
        rw [hskip (fun _ _ _ _ _ h => absurd ha h)]
        exact ih
      · constructor
        · intro h
          rw [bind_ok_iff] at h
          obtain ⟨q, h3, h4⟩ := h
          obtain ⟨b, hb, rfl⟩ := (pointer_iff ha hg hi).mp h3
          simp only at h4
          split at h4
          · next he =>
            cases h4
            subst he
            exact ⟨0, w, by omega, rfl, ⟨ha, ⟨x, qs, t, hg, hi⟩, hb⟩, by simp [Fresh]⟩
          · next hne =>
            rw [hskip (fun _ _ _ _ _ _ => ⟨b, hb, fun h => hne h.symm⟩)]
            exact ih.mp h4
        · intro h
          obtain ⟨i, u, h1, h2, h3, h4⟩ := id h
          cases i with
          | zero =>
            simp at h2
            subst h2
            rw [(pointer_iff ha hg hi).mpr ⟨a, h3.2.2, rfl⟩]
            simp only [Outcome.bind_ok, if_true]
            simp [h1]
          | succ i =>
            rw [List.take_succ_cons, hcons] at h4
            rw [hskip h4.1] at h
            obtain ⟨b, hb, hne⟩ := h4.1 x qs t hg hi ha
            rw [(pointer_iff ha hg hi).mpr ⟨b, hb, rfl⟩]
            simp only [Outcome.bind_ok]
            rw [if_neg (fun h => hne h.symm)]
            exact ih.mpr h
    · have : finalOf db (some w.entry) isPointer = some none := by
        apply finalOf_no hg
        intro x hx
        cases hi : (db x).info with
        | pointer t => exact absurd ⟨x, t, hx, hi⟩ hp
        | _ => rfl
      simp only [this, Outcome.ofLoop_some, Outcome.bind_ok]
      rw [hskip (fun x qs' t hx hi => absurd ⟨x, t, final_unique hg hx, hi⟩ hp)]
      exact ih

theorem introducedLoop_pos (hs : Sane db) {ty : Option Ref} {x : Ref} {qs : List Qual} (ha : v.addr ≠ 0) (hx : Final db v.entry (some x) qs)
    (hi : (db x).info = .pointer ty) {a : Nat} (hh : Holds m v.addr 8 a) {r : Int} (hr : 0 < r) :
    introducedLoop db m ((v :: outer).map some) = .ok r ↔ Looped db m outer a r.toNat := by
  cases outer with
  | nil =>
    simp only [List.map_cons, List.map_nil, introducedLoop, Outcome.ok.injEq]
    constructor
    · intro h; omega
    · rintro ⟨i, w, _, h, _⟩; simp at h
  | cons w ws =>
    have h := loopLevels_pos hs (m := m) (a := a) (w :: ws) 1 (by omega) r hr
    have h' : introducedLoop db m ((v :: w :: ws).map some) = loopLevels db m a ((w :: ws).map some) 1 := by
      simp only [List.map_cons, introducedLoop, finalOf_some' hx isPointer (by rw [hi]; rfl), Outcome.ofLoop_some, Outcome.bind_ok,
        (pointer_iff ha hx hi).mpr ⟨a, hh, rfl⟩]
    rw [h', h]
    constructor
    · rintro ⟨i, u, h1, h2⟩
      exact ⟨i, u, by omega, h2⟩
    · rintro ⟨i, u, h1, h2⟩
      exact ⟨i, u, by omega, h2⟩

theorem unknown_iff {ty : Option Ref} {x : Ref} {qs : List Qual} (hx : Final db v.entry (some x) qs) (hi : (db x).info = .pointer ty) :
    ∃ b, (do return (← isVoidPointer db v) || (← isDeclarationPointer db v)) = Outcome.ok b ∧ (b = true ↔ ¬ Known db ty) := by
  have h2 : ∃ d, isDeclarationPointer db v = .ok d ∧ (ty.isNone || d) = (match ty with | none => true | some t => (db t).declaration) := by
    simp only [isDeclarationPointer, finalOf_some' hx isPointer (by rw [hi]; rfl), Outcome.ofLoop_some, Outcome.bind_ok, hi]
    cases ty with
    | none => exact ⟨false, rfl, rfl⟩
    | some t => exact ⟨_, rfl, rfl⟩
  obtain ⟨d, h2, h3⟩ := h2
  refine ⟨ty.isNone || d, ?_, ?_⟩
  · simp [isVoidPointer_of hx hi, h2]
  · rw [h3]
    cases ty with
    | none => simp [Known]
    | some t => simp [Known]

theorem startTarget_iff (hs : Sane db) {o : Option Value} {n : Nat} : startTarget db n o = .ok (next s) ↔ ∃ arr, o = some arr ∧ ArrayEntry db arr.entry ∧ s = .target arr n := by
  cases o with
  | none =>
    constructor
    · intro h; cases s <;> simp [startTarget, next] at h
    · rintro ⟨_, h, _⟩; cases h
  | some arr =>
    obtain ⟨b, hb, hbi⟩ := hasElements_iff hs arr
    simp only [startTarget, hb, Outcome.bind_ok, Option.some.injEq]
    constructor
    · intro h
      cases b with
      | false => cases s <;> simp [next] at h
      | true =>
        cases s <;> simp [next] at h
        obtain ⟨rfl, rfl⟩ := h
        exact ⟨_, rfl, hbi.mp rfl, rfl⟩
    · rintro ⟨arr', rfl, h1, rfl⟩
      rw [hbi.mpr h1]
      rfl

theorem interned_entry (hin : Interned env.vs db) {e : Option Ref} {c : Int} (hc : c = -1 ∨ c = 0 ∨ c = 1) : ArrayEntry db (env.dyn { info := .array e c }) := by
  have hi : (db (env.dyn { info := .array e c })).info = .array e c := by rw [hin e c hc]
  exact ⟨_, _, _, _, final_self hi, hi⟩

theorem first_pointer (hs : Sane db) (hin : Interned env.vs db) {ty : Option Ref} (ho : Object env.vs db v (.pointer ty)) :
    first env mode db m outer v = .ok (next s) ↔ ∃ n a, Size db v.entry n ∧ Holds m v.addr 8 a ∧
      ((a = 0 ∧ s = .leaf n 0) ∨ (a ≠ 0 ∧
        ((∃ l, Looped db m outer a l ∧ s = .leaf n l) ∨ (Fresh db m outer a ∧
          ((Reply env.vs .pointerArrayCount v outer none ∧ ¬ Known db ty ∧ (mode.uptr = .ignore ∨ mode.uptr = .asValues) ∧ s = .leaf n 0) ∨
            ∃ arr, Target env mode db v outer ty a arr ∧ s = .target arr n))))) := by
  rw [first_object hs ho]
  obtain ⟨_, ha, x, qs, hx, hi⟩ := ho
  simp only [caseOf, start]
  obtain ⟨b, hb, hbi⟩ := unknown_iff hx hi
  rw [bind_ok_iff] at hb
  obtain ⟨b1, hb1, hb⟩ := hb
  rw [bind_ok_iff] at hb
  obtain ⟨b2, hb2, hb⟩ := hb
  have hb : (b1 || b2) = b := by simpa using hb
  have hone : ∀ a, a ≠ 0 → newValue (env.dyn { info := .array (some env.uchar) 1 }) a = some ⟨env.dyn { info := .array (some env.uchar) 1 }, a⟩ := by
    intro a h0
    simp [newValue, h0]
  constructor
  · intro h
    unfold startPointer at h
    rw [bind_ok_iff] at h
    obtain ⟨r, h1, h⟩ := h
    rcases sizeOfValue_iff hs h1 with ⟨n, rfl, hn⟩ | ⟨e, rfl⟩
    rotate_left
    · cases s <;> simp [next] at h
    simp only at h
    rw [bind_ok_iff] at h
    obtain ⟨r, h2, h⟩ := h
    obtain ⟨a, hh, rfl⟩ := (pointer_iff ha hx hi).mp h2
    refine ⟨n, a, hn, hh, ?_⟩
    simp only at h
    split at h
    · next h0 =>
      cases s <;> simp [next] at h
      obtain ⟨rfl, rfl⟩ := h
      exact .inl ⟨h0, rfl⟩
    · next h0 =>
      refine .inr ⟨h0, ?_⟩
      rw [bind_ok_iff] at h
      obtain ⟨l, h3, h⟩ := h
      split at h
      · next hl =>
        cases s <;> simp [next] at h
        obtain ⟨rfl, rfl⟩ := h
        exact .inl ⟨_, (introducedLoop_pos hs ha hx hi hh hl).mp h3, rfl⟩
      · next hl =>
        have hfr : Fresh db m outer a := (introducedLoop_iff hs ha hx hi hh).mp ⟨l, h3, by omega⟩
        refine .inr ⟨hfr, ?_⟩
        rw [bind_ok_iff] at h
        obtain ⟨o, h4, h⟩ := h
        cases o with
        | none => cases s <;> simp [next] at h
        | some o =>
          have hr := request_iff.mp h4
          cases o with
          | some arr =>
            obtain ⟨arr', he, h5, rfl⟩ := (startTarget_iff hs).mp h
            cases he
            exact .inr ⟨arr, .reply hr h5, rfl⟩
          | none =>
            simp only [hb1, hb2, Outcome.bind_ok, hb] at h
            split at h
            · next hk =>
              have hk := hbi.mp hk
              cases hm : mode.uptr <;> simp only [hm] at h
              · cases s <;> simp [next] at h
              · cases s <;> simp [next] at h
                obtain ⟨rfl, rfl⟩ := h
                exact .inl ⟨hr, hk, by simp, rfl⟩
              · cases s <;> simp [next] at h
                obtain ⟨rfl, rfl⟩ := h
                exact .inl ⟨hr, hk, by simp, rfl⟩
              · rw [hone a h0] at h
                obtain ⟨arr', he, h5, rfl⟩ := (startTarget_iff hs).mp h
                cases he
                exact .inr ⟨_, .byte hr hk hm, rfl⟩
            · next hk =>
              have hk : Known db ty := Classical.not_not.mp fun h => hk (hbi.mpr h)
              obtain ⟨e, rfl, hd⟩ := id hk
              simp only [countValue_pointer hx ha hi hh h0, Outcome.bind_ok, Option.map_some] at h
              obtain ⟨arr', he, h5, rfl⟩ := (startTarget_iff hs).mp h
              cases he
              exact .inr ⟨_, .one hr hk rfl, rfl⟩
  · rintro ⟨n, a, hn, hh, h⟩
    unfold startPointer
    simp only [sizeOfValue_ok hs hn, (pointer_iff ha hx hi).mpr ⟨a, hh, rfl⟩, Outcome.bind_ok]
    rcases h with ⟨rfl, rfl⟩ | ⟨h0, ⟨l, hl, rfl⟩ | ⟨hfr, h⟩⟩
    · simp [next]
    · rw [if_neg h0]
      have hpos : 0 < l := by obtain ⟨i, _, h, _⟩ := hl; omega
      have := (introducedLoop_pos hs ha hx hi hh (outer := outer) (r := l) (by omega)).mpr (by simpa using hl)
      simp only [this, Outcome.bind_ok]
      rw [if_pos (by omega)]
      simp [next]
    · rw [if_neg h0]
      obtain ⟨r, hr, hle⟩ := (introducedLoop_iff hs ha hx hi hh).mpr hfr
      simp only [hr, Outcome.bind_ok]
      rw [if_neg (by omega)]
      rcases h with ⟨h1, h2, h3, rfl⟩ | ⟨arr, h1, rfl⟩
      · rw [request_iff.mpr h1]
        simp only [Outcome.bind_ok, hb1, hb2, hb, hbi.mpr h2, if_true]
        rcases h3 with h3 | h3 <;> simp [h3, next]
      · cases h1 with
        | reply h1 h2 =>
          rw [request_iff.mpr h1]
          exact (startTarget_iff hs).mpr ⟨_, rfl, h2, rfl⟩
        | one h1 h2 h3 =>
          subst h3
          rw [request_iff.mpr h1]
          have : b = false := by
            cases hbb : b with
            | false => rfl
            | true => exact absurd h2 (hbi.mp hbb)
          simp only [Outcome.bind_ok, hb1, hb2, hb, this, Bool.false_eq_true, if_false, countValue_pointer hx ha hi hh h0, Option.map_some]
          exact (startTarget_iff hs).mpr ⟨_, rfl, interned_entry hin (.inr (.inr rfl)), rfl⟩
        | byte h1 h2 h3 =>
          rw [request_iff.mpr h1]
          simp only [Outcome.bind_ok, hb1, hb2, hb, hbi.mpr h2, if_true, h3, hone a h0]
          exact (startTarget_iff hs).mpr ⟨_, rfl, interned_entry hin (.inr (.inr rfl)), rfl⟩

/-! ### Calls -/

theorem startParams_iff (hl : hasLoad env.toEnv db v = .ok true) :
    startParams env db v = .ok (next s) ↔ s = .args (env.params v.addr) ∧ ∀ w ∈ env.params v.addr, w.addr ≠ 0 := by
  have hcol : ∀ vs, collect (paramItem env.toEnv v) (env.params v.addr).length 0 = .ok (vs, false) ↔ vs = env.params v.addr ∧ ∀ w ∈ vs, w.addr ≠ 0 := by
    intro vs
    rw [collect_iff]
    constructor
    · rintro ⟨h1, h2⟩
      constructor
      · apply List.ext_getElem?
        intro i
        cases hi : vs[i]? with
        | none =>
          rw [List.getElem?_eq_none_iff] at hi
          rw [List.getElem?_eq_none_iff.mpr (by omega)]
        | some w =>
          have := h2 i w hi
          rw [Nat.zero_add] at this
          exact (paramItem_iff (env := env.vs).mp this).1.symm
      · intro w hw
        obtain ⟨i, hi⟩ := List.mem_iff_getElem?.mp hw
        have := h2 i w hi
        rw [Nat.zero_add] at this
        exact (paramItem_iff (env := env.vs).mp this).2
    · rintro ⟨rfl, h2⟩
      refine ⟨rfl, fun i w hw => ?_⟩
      rw [Nat.zero_add]
      exact (paramItem_iff (env := env.vs)).mpr ⟨hw, h2 w (List.mem_of_getElem? hw)⟩
  unfold startParams
  simp only [hl, Outcome.bind_ok, Outcome.assert, if_true]
  constructor
  · intro h
    rw [bind_ok_iff] at h
    obtain ⟨⟨vs, failed⟩, h1, h2⟩ := h
    cases s <;> simp [next] at h2
    obtain ⟨rfl, rfl⟩ := h2
    obtain ⟨rfl, h3⟩ := (hcol _).mp h1
    exact ⟨rfl, h3⟩
  · rintro ⟨rfl, h⟩
    rw [(hcol _).mpr ⟨rfl, h⟩]
    rfl

/-- The first visit finds what the value is made of, or fails. -/
theorem first_iff (hs : Sane db) (hin : Interned env.vs db) (hh : Honest env.vs db) :
    first env mode db m outer v = .ok (next s) ↔ Consists env mode db m outer v s := by
  constructor
  · intro h
    have hfc : ∃ c, finalCase env.vs db v = .ok c := by
      unfold first at h
      rw [bind_ok_iff] at h
      obtain ⟨c, h, _⟩ := h
      exact ⟨c, h⟩
    obtain ⟨c, hfc⟩ := hfc
    have hother : c = .other → False := by
      rintro rfl
      rw [first, hfc] at h
      cases s <;> simp [start, next] at h
    rcases finalCase_inv hs hfc with ⟨hpk, rfl⟩ | ⟨i, ho, rfl⟩ | ⟨_, rfl⟩
    · rw [first_packed hs hpk] at h
      obtain ⟨rfl, h2⟩ := (startParams_iff (hasLoad_true hs (.inl hpk))).mp h
      exact .arguments hpk rfl h2
    · have hfunc : ∀ ty ps, i = .subprogram ty ps ∨ i = .subroutine ty ps → Consists env mode db m outer v s := by
        intro ty ps hi
        have hst : start env mode db m (caseOf i) v outer = startParams env db v := by
          rcases hi with rfl | rfl <;> rfl
        rw [first_object hs ho, hst] at h
        have hl : hasLoad env.toEnv db v = .ok true := by
          obtain ⟨_, _, x, qs, hx, hxi⟩ := ho
          exact hasLoad_true hs (.inr ⟨x, qs, ty, ps, hx, by rw [hxi]; exact hi⟩)
        obtain ⟨rfl, h2⟩ := (startParams_iff hl).mp h
        have ho' : Object env.vs db v (.subprogram ty ps) ∨ Object env.vs db v (.subroutine ty ps) := by
          rcases hi with rfl | rfl
          · exact .inl ho
          · exact .inr ho
        exact .call ho' rfl h2
      cases i with
      | base n e =>
        rw [first_object hs ho] at h
        rcases startLeaf_iff hs h with ⟨k, h1, h2⟩ | h1
        · cases s <;> simp [next] at h1
          obtain ⟨rfl, rfl⟩ := h1
          exact .base ho h2
        · cases s <;> simp [next] at h1
      | enumeration n e es =>
        rw [first_object hs ho] at h
        rcases startLeaf_iff hs h with ⟨k, h1, h2⟩ | h1
        · cases s <;> simp [next] at h1
          obtain ⟨rfl, rfl⟩ := h1
          exact .enumeration ho h2
        · cases s <;> simp [next] at h1
      | pointer ty =>
        obtain ⟨n, a, h1, h2, ⟨rfl, rfl⟩ | ⟨h0, ⟨l, hl, rfl⟩ | ⟨hfr, ⟨h3, h4, h5, rfl⟩ | ⟨arr, h3, rfl⟩⟩⟩⟩ := (first_pointer hs hin ho).mp h
        · exact .null ho h1 h2
        · exact .loop ho h1 h2 h0 hl
        · exact .unknown ho h1 h2 h0 hfr h3 h4 h5
        · exact .target ho h1 h2 h0 hfr h3
      | struct k n ms =>
        cases k with
        | struct =>
          obtain ⟨vs, n, rfl, h1, h2, h3⟩ := (first_struct hs ho).mp h
          exact .struct ho h1 h2 h3
        | union =>
          obtain ⟨n, h1, ⟨rfl, h2⟩ | ⟨w, rfl, h2, h3⟩⟩ := (first_union hs ho).mp h
          · exact .union ho h1 h2
          · exact .unionMember ho h1 h2 h3
        | «class» => exact absurd rfl hother
      | array e c =>
        obtain ⟨arr, e', c', h1, h2, ⟨vs, n, rfl, h3, h4, h5, h6⟩ | ⟨rfl, h3⟩⟩ := (first_array hs hin hh ho).mp h
        · exact .array ho h1 h2 h3 h4 h5 h6
        · exact .noElements ho h1 h2 h3
      | subprogram ty ps => exact hfunc ty ps (.inl rfl)
      | subroutine ty ps => exact hfunc ty ps (.inr rfl)
      | param u t =>
        exfalso
        rw [first_object hs ho] at h
        obtain ⟨hnp, _, x, qs, hx, hi⟩ := ho
        cases u with
        | false => exact final_not_alias hx t (.param hi)
        | true =>
          simp only [caseOf, start, startParams] at h
          obtain ⟨b, hb, hbi⟩ := hasLoad_iff (env := env.vs) hx
          cases b with
          | true =>
            rcases hbi.mp rfl with h | ⟨y, qs', ty, ps, hy, hyi⟩
            · exact hnp h
            · cases final_unique hx hy
              rw [hi] at hyi
              simp at hyi
          | false =>
            simp [hb, Outcome.assert] at h
      | _ => exact absurd rfl hother
    · exact absurd rfl hother
  · intro h
    cases h with
    | base ho h1 => rw [first_object hs ho]; exact startLeaf_ok hs h1
    | enumeration ho h1 => rw [first_object hs ho]; exact startLeaf_ok hs h1
    | struct ho h1 h2 h3 => exact (first_struct hs ho).mpr ⟨_, _, rfl, h1, h2, h3⟩
    | union ho h1 h2 => exact (first_union hs ho).mpr ⟨_, h1, .inl ⟨rfl, h2⟩⟩
    | unionMember ho h1 h2 h3 => exact (first_union hs ho).mpr ⟨_, h1, .inr ⟨_, rfl, h2, h3⟩⟩
    | array ho h1 h2 h3 h4 h5 h6 => exact (first_array hs hin hh ho).mpr ⟨_, _, _, h1, h2, .inl ⟨_, _, rfl, h3, h4, h5, h6⟩⟩
    | noElements ho h1 h2 h3 => exact (first_array hs hin hh ho).mpr ⟨_, _, _, h1, h2, .inr ⟨rfl, h3⟩⟩
    | null ho h1 h2 => exact (first_pointer hs hin ho).mpr ⟨_, _, h1, h2, .inl ⟨rfl, rfl⟩⟩
    | loop ho h1 h2 h3 h4 => exact (first_pointer hs hin ho).mpr ⟨_, _, h1, h2, .inr ⟨h3, .inl ⟨_, h4, rfl⟩⟩⟩
    | unknown ho h1 h2 h3 h4 h5 h6 h7 => exact (first_pointer hs hin ho).mpr ⟨_, _, h1, h2, .inr ⟨h3, .inr ⟨h4, .inl ⟨h5, h6, h7, rfl⟩⟩⟩⟩
    | target ho h1 h2 h3 h4 h5 => exact (first_pointer hs hin ho).mpr ⟨_, _, h1, h2, .inr ⟨h3, .inr ⟨h4, .inr ⟨_, h5, rfl⟩⟩⟩⟩
    | arguments hpk h1 h2 =>
      subst h1
      rw [first_packed hs hpk]
      exact (startParams_iff (hasLoad_true hs (.inl hpk))).mpr ⟨rfl, h2⟩
    | @call ty ps vs ho h1 h2 =>
      subst h1
      have hst : first env mode db m outer v = startParams env db v := by
        rcases ho with ho | ho <;> rw [first_object hs ho] <;> rfl
      have hl : hasLoad env.toEnv db v = .ok true := by
        rcases ho with ⟨_, _, x, qs, hx, hxi⟩ | ⟨_, _, x, qs, hx, hxi⟩
        · exact hasLoad_true hs (.inr ⟨x, qs, ty, ps, hx, .inl hxi⟩)
        · exact hasLoad_true hs (.inr ⟨x, qs, ty, ps, hx, .inr hxi⟩)
      rw [hst]
      exact (startParams_iff hl).mpr ⟨rfl, h2⟩
end

/-! ### The walk -/

theorem walk_eq (env : Env) (mode : Mode) (db : Db) (m : Mem) (outer : List Value) (p : Value) (st : St) :
    walk env mode db m outer p st = (first env mode db m outer p >>= fun n =>
      visitAll (walk env mode db m (p :: outer)) n.deps st >>= fun r => finish mode p r.2 r.1 n) := by
  rw [walk.eq_def, first, bind_assoc]

/-- A target is put into the hash map (`register`, without the reads). -/
def reg (map : List (Nat × Nat × Nat)) (k : Node) : List (Nat × Nat × Nat) :=
  match lookup k.val.addr map with
  | none => put k.val.addr (k.id, k.size) map
  | some (_, size) => if k.size > size then put k.val.addr (k.id, k.size) map else map

theorem register_ok {k : Node} {st st' : St} (h : register k st = .ok st') : st' = ⟨st.next, reg st.map k, st.dead⟩ := by
  unfold register at h
  unfold reg
  split at h
  · next h1 => cases h; simp only [h1]
  · next prev size h1 =>
    simp only [h1]
    split at h
    · cases h
    · split at h
      · next h2 => cases h; simp only [h2, if_true]
      · next h2 => cases h; simp only [h2, if_false]

theorem register_clean {k : Node} {st : St} (h : st.dead = []) : register k st = .ok ⟨st.next, reg st.map k, st.dead⟩ := by
  cases hr : register k st with
  | ok st' => rw [register_ok hr]
  | _ =>
    exfalso
    unfold register at hr
    split at hr
    · cases hr
    · simp only [h, List.not_mem_nil, if_false] at hr
      split at hr <;> cases hr

/-- What a walk does to the map. -/
structure Made (mode : Mode) (st : St) (ts : List Node) (is : List Nat) (st' : St) : Prop where
  dead : st'.dead = st.dead
  map : st'.map = if mode.dag then ts.foldl reg st.map else st.map
  le : st.next ≤ st'.next
  nodup : is.Nodup
  fresh : ∀ i ∈ is, st.next ≤ i ∧ i < st'.next

theorem Made.nil {mode : Mode} {st : St} : Made mode st [] [] st :=
  ⟨rfl, by simp, Nat.le_refl _, by simp, by simp⟩

theorem Made.trans {mode : Mode} {st st₁ st₂ : St} {ts ts' : List Node} {is is' : List Nat} (h : Made mode st ts is st₁) (h' : Made mode st₁ ts' is' st₂) :
    Made mode st (ts ++ ts') (is ++ is') st₂ := by
  refine ⟨by rw [h'.dead, h.dead], ?_, Nat.le_trans h.le h'.le, ?_, ?_⟩
  · rw [h'.map, h.map]
    cases mode.dag <;> simp
  · rw [List.nodup_append]
    refine ⟨h.nodup, h'.nodup, fun i hi j hj he => ?_⟩
    have := h.fresh i hi
    have := h'.fresh j hj
    omega
  · intro i hi
    have := h.le
    have := h'.le
    rcases List.mem_append.mp hi with hi | hi
    · have := h.fresh i hi; omega
    · have := h'.fresh i hi; omega

/-- One more entry. -/
theorem Made.entry {mode : Mode} {st st' : St} {ts : List Node} {is : List Nat} (h : Made mode st ts is st') :
    Made mode st ts (st'.next :: is) { st' with next := st'.next + 1 } := by
  refine ⟨h.dead, h.map, Nat.le_succ_of_le h.le, ?_, ?_⟩
  · rw [List.nodup_cons]
    refine ⟨fun hi => ?_, h.nodup⟩
    have := h.fresh _ hi
    omega
  · intro i hi
    have := h.le
    rcases List.mem_cons.mp hi with rfl | hi
    · exact ⟨this, Nat.lt_succ_self _⟩
    · have := h.fresh i hi
      exact ⟨this.1, Nat.lt_succ_of_lt this.2⟩

theorem visitAll_made {mode : Mode} {f : Value → St → Outcome (Option Node × St)} {P : Node → Prop}
    (hf : ∀ v st r, f v st = .ok r → ∀ k, r.1 = some k → P k ∧ k.val = v ∧ Made mode st (targets k) (ids k) r.2) :
    ∀ {vs : List Value} {st : St} {r}, visitAll f vs st = .ok r → ∀ ks : List Node, r.1 = ks.map some →
      ks.map Node.val = vs ∧ (∀ k ∈ ks, P k) ∧ Made mode st (targetsAll ks) (idsAll ks) r.2
  | [], st, r, h, ks, hk => by
    cases h
    cases ks with
    | nil => exact ⟨rfl, by simp, by simpa [targetsAll, idsAll] using Made.nil⟩
    | cons k ks => simp at hk
  | v :: vs, st, r, h, ks, hk => by
    simp only [visitAll] at h
    rw [bind_ok_iff] at h
    obtain ⟨⟨o, st₁⟩, h1, h⟩ := h
    rw [bind_ok_iff] at h
    obtain ⟨⟨os, st₂⟩, h2, h⟩ := h
    cases h
    cases ks with
    | nil => simp at hk
    | cons k ks =>
      simp at hk
      obtain ⟨a1, a2, a3⟩ := hf _ _ _ h1 k hk.1
      obtain ⟨b1, b2, b3⟩ := visitAll_made hf h2 ks hk.2
      refine ⟨by simp [a2, b1], by simpa using ⟨a1, b2⟩, ?_⟩
      simp only [targetsAll, idsAll]
      exact a3.trans b3

theorem attach_some {p : Value} : ∀ {ks : List Node} {size : Nat} {r}, attach p (ks.map some) size = .ok r →
    (∀ k ∈ ks, p.addr ≤ k.val.addr) ∧ r = some (extent p.addr size ks)
  | [], size, r, h => by
    cases h
    exact ⟨by simp, rfl⟩
  | k :: ks, size, r, h => by
    simp only [List.map_cons, attach] at h
    rw [bind_ok_iff] at h
    obtain ⟨u, h1, h⟩ := h
    obtain ⟨h2, rfl⟩ := attach_some h
    have : p.addr ≤ k.val.addr := by
      by_cases hh : p.addr ≤ k.val.addr
      · exact hh
      · simp [Outcome.assert, hh] at h1
    exact ⟨by simpa using ⟨this, h2⟩, rfl⟩

theorem attach_of {p : Value} : ∀ {ks : List Node} {size : Nat}, (∀ k ∈ ks, p.addr ≤ k.val.addr) → attach p (ks.map some) size = .ok (some (extent p.addr size ks))
  | [], size, h => rfl
  | k :: ks, size, h => by
    have h1 := h k (by simp)
    have h2 := attach_of (p := p) (ks := ks) (size := max size (k.val.addr - p.addr + k.size)) (fun k hk => h k (by simp [hk]))
    simp only [List.map_cons, attach, Outcome.assert, h1, decide_true, if_true, Outcome.bind_ok, h2]
    rfl

theorem attach_all {p : Value} : ∀ {outs : List (Option Node)} {size n : Nat}, attach p outs size = .ok (some n) → ∃ ks : List Node, outs = ks.map some
  | [], _, _, _ => ⟨[], rfl⟩
  | none :: _, _, _, h => by simp [attach] at h
  | some k :: outs, size, n, h => by
    simp only [attach] at h
    rw [bind_ok_iff] at h
    obtain ⟨u, h1, h⟩ := h
    obtain ⟨ks, rfl⟩ := attach_all h
    exact ⟨k :: ks, rfl⟩

theorem filterMap_some (ks : List Node) : (ks.map some).filterMap _root_.id = ks := by
  induction ks with
  | nil => rfl
  | cons k ks ih => simp

theorem all_some : ∀ {outs : List (Option Node)}, ¬ outs.any Option.isNone = true → ∃ ks : List Node, outs = ks.map some
  | [], _ => ⟨[], rfl⟩
  | none :: _, h => by simp at h
  | some k :: outs, h => by
    simp only [List.any_cons, Option.isNone_some, Bool.false_or] at h
    obtain ⟨ks, rfl⟩ := all_some h
    exact ⟨k :: ks, rfl⟩

section
variable {env : Env} {mode : Mode} {db : Db} {m : Mem}

theorem step_sound (hs : Sane db) (hin : Interned env.vs db) (hh : Honest env.vs db) {g : List Value → Value → St → Outcome (Option Node × St)}
    (hg : ∀ outer v st r, g outer v st = .ok r → ∀ k, r.1 = some k → Tree env mode db m outer k ∧ k.val = v ∧ Made mode st (targets k) (ids k) r.2)
    {outer : List Value} {p : Value} {st : St} {r}
    (h : (first env mode db m outer p >>= fun n => visitAll (g (p :: outer)) n.deps st >>= fun r => finish mode p r.2 r.1 n) = .ok r) {k : Node} (hk : r.1 = some k) :
    Tree env mode db m outer k ∧ k.val = p ∧ Made mode st (targets k) (ids k) r.2 := by
  rw [bind_ok_iff] at h
  obtain ⟨n, h1, h⟩ := h
  rw [bind_ok_iff] at h
  obtain ⟨⟨outs, st₁⟩, h2, h⟩ := h
  have hv := visitAll_made (hg (p :: outer)) h2
  simp only at h hv
  cases n with
  | fail => cases h; cases hk
  | leaf size loop =>
    obtain ⟨_, _, hm⟩ := hv [] (by simp only [Next.deps, visitAll] at h2; cases h2; rfl)
    simp only [finish, newNode] at h
    cases h
    cases hk
    refine ⟨.leaf ((first_iff hs hin hh).mp h1), rfl, ?_⟩
    have := hm.entry
    simpa [targets, ids, targetsAll, idsAll] using this
  | parts vs failed size =>
    simp only [finish] at h
    split at h
    · cases h; cases hk
    · next hf =>
      have hf : failed = false := by simpa using hf
      subst hf
      rw [bind_ok_iff] at h
      obtain ⟨o, h3, h⟩ := h
      cases o with
      | none => cases h; cases hk
      | some n =>
        obtain ⟨ks, rfl⟩ := attach_all h3
        obtain ⟨h4, h5⟩ := attach_some h3
        simp only [Option.some.injEq] at h5
        subst h5
        obtain ⟨b1, b2, b3⟩ := hv ks rfl
        simp only [newNode, filterMap_some] at h
        cases h
        cases hk
        refine ⟨.parts ((first_iff hs hin hh (s := .parts vs size)).mp h1) b1 h4 b2, rfl, ?_⟩
        have := b3.entry
        simpa [targets, ids] using this
  | target arr size =>
    simp only [finish] at h
    split at h
    · next k' =>
      obtain ⟨b1, b2, b3⟩ := hv [k'] rfl
      simp only [Next.deps, List.map_cons, List.map_nil, List.cons.injEq, and_true] at b1
      subst b1
      have h : ∃ st₂, (if mode.dag then register k' st₁ else .ok st₁) = .ok st₂ ∧ newNode st₂ p size 0 true [k'] = r := by
        split at h
        · rw [bind_ok_iff] at h
          obtain ⟨st₂, h4, h⟩ := h
          exact ⟨st₂, by rename_i hd; rw [if_pos hd]; exact h4, by cases h; rfl⟩
        · rename_i hd
          exact ⟨st₁, by rw [if_neg hd], by cases h; rfl⟩
      obtain ⟨st₂, h4, h⟩ := h
      simp only [newNode] at h
      subst h
      cases hk
      refine ⟨.target ((first_iff hs hin hh (s := .target _ _)).mp h1) (b2 k' (by simp)), rfl, ?_⟩
      have hm : Made mode st (targetsAll [k'] ++ [k']) (idsAll [k']) st₂ := by
        cases hd : mode.dag with
        | true =>
          rw [if_pos hd] at h4
          rw [register_ok h4]
          refine ⟨b3.dead, ?_, b3.le, b3.nodup, b3.fresh⟩
          have := b3.map
          simp only [hd, if_true] at this ⊢
          rw [this, List.foldl_append]
          rfl
        | false =>
          rw [if_neg (by simp [hd])] at h4
          cases h4
          refine ⟨b3.dead, ?_, b3.le, b3.nodup, b3.fresh⟩
          have := b3.map
          simp only [hd, Bool.false_eq_true, if_false] at this ⊢
          exact this
      have := hm.entry
      simpa [targets, ids] using this
    · cases h; cases hk
    · cases h
  | args vs failed =>
    simp only [finish] at h
    split at h
    · cases h; cases hk
    · next hf =>
      have hf : failed = false ∧ ¬ outs.any Option.isNone = true := by
        cases failed <;> simp_all
      obtain ⟨rfl, hf'⟩ := hf
      obtain ⟨ks, rfl⟩ := all_some hf'
      obtain ⟨b1, b2, b3⟩ := hv ks rfl
      simp only [newNode, filterMap_some] at h
      cases h
      cases hk
      refine ⟨.args ((first_iff hs hin hh (s := .args vs)).mp h1) b1 b2, rfl, ?_⟩
      have := b3.entry
      simpa [targets, ids] using this

/-- A walk makes the tree of the value. -/
theorem walk_sound (hs : Sane db) (hin : Interned env.vs db) (hh : Honest env.vs db) {outer : List Value} {p : Value} {st st' : St} {k : Node}
    (h : walk env mode db m outer p st = .ok (some k, st')) : Tree env mode db m outer k ∧ k.val = p ∧ Made mode st (targets k) (ids k) st' := by
  have := walk.fixpoint_induct env mode db m (motive := fun g => ∀ outer v st r, g outer v st = .ok r → ∀ k, r.1 = some k →
      Tree env mode db m outer k ∧ k.val = v ∧ Made mode st (targets k) (ids k) r.2)
    (by
      apply Lean.Order.admissible_pi_apply (P := fun outer (g : Value → St → Outcome (Option Node × St)) => ∀ v st r, g v st = .ok r → ∀ k, r.1 = some k →
        Tree env mode db m outer k ∧ k.val = v ∧ Made mode st (targets k) (ids k) r.2)
      intro outer
      apply Lean.Order.admissible_pi_apply (P := fun v (g : St → Outcome (Option Node × St)) => ∀ st r, g st = .ok r → ∀ k, r.1 = some k →
        Tree env mode db m outer k ∧ k.val = v ∧ Made mode st (targets k) (ids k) r.2)
      intro v
      apply Lean.Order.admissible_pi_apply (P := fun st (g : Outcome (Option Node × St)) => ∀ r, g = .ok r → ∀ k, r.1 = some k →
        Tree env mode db m outer k ∧ k.val = v ∧ Made mode st (targets k) (ids k) r.2)
      intro st
      exact Outcome.admissible_ok _)
    (by
      intro g hg outer v st r h k hk
      refine step_sound hs hin hh hg ?_ hk
      rw [first, bind_assoc]
      exact h)
  exact this outer p st _ h k rfl
end

/-! ### Trees up to the numbers of the entries -/

mutual
/-- The tree without the numbers. -/
def strip : Node → Node
  | .mk _ v n l d ks => .mk 0 v n l d (stripAll ks)
def stripAll : List Node → List Node
  | [] => []
  | k :: ks => strip k :: stripAll ks
end

theorem stripAll_map : ∀ ks : List Node, stripAll ks = ks.map strip
  | [] => rfl
  | k :: ks => by simp [stripAll, stripAll_map ks]

theorem strip_val (k : Node) : (strip k).val = k.val := by cases k; rfl
theorem strip_size (k : Node) : (strip k).size = k.size := by cases k; rfl

mutual
theorem targets_strip : ∀ k : Node, targets (strip k) = (targets k).map strip
  | .mk i v n l d ks => by
    simp only [strip, targets, targetsAll_strip ks, List.map_append]
    congr 1
    cases d
    · rfl
    · simp [stripAll_map]
theorem targetsAll_strip : ∀ ks : List Node, targetsAll (stripAll ks) = (targetsAll ks).map strip
  | [] => rfl
  | k :: ks => by simp [stripAll, targetsAll, targets_strip k, targetsAll_strip ks]
end

theorem range_strip {k : Node} {a n : Nat} : Range (strip k) a n ↔ Range k a n := by
  unfold Range
  rw [targets_strip]
  constructor
  · rintro ⟨t, ht, h1, h2⟩
    obtain ⟨u, hu, rfl⟩ := List.mem_map.mp ht
    exact ⟨u, hu, by rw [← strip_val, h1], by rw [← strip_size, h2]⟩
  · rintro ⟨t, ht, h1, h2⟩
    exact ⟨strip t, List.mem_map.mpr ⟨t, ht, rfl⟩, by rw [strip_val, h1], by rw [strip_size, h2]⟩

theorem range_same {k k' : Node} (h : strip k = strip k') {a n : Nat} : Range k a n ↔ Range k' a n := by
  rw [← range_strip, h, range_strip]

mutual
/-- The numbers a walk gives. -/
def number : Node → Nat → Node × Nat
  | .mk _ v n l d ks, i => (.mk (numberAll ks i).2 v n l d (numberAll ks i).1, (numberAll ks i).2 + 1)
def numberAll : List Node → Nat → List Node × Nat
  | [], i => ([], i)
  | k :: ks, i => ((number k i).1 :: (numberAll ks (number k i).2).1, (numberAll ks (number k i).2).2)
end

mutual
theorem number_strip : ∀ (k : Node) (i : Nat), strip (number k i).1 = strip k
  | .mk _ v n l d ks, i => by
    simp only [number, strip, stripAll_map, numberAll_strip ks i]
theorem numberAll_strip : ∀ (ks : List Node) (i : Nat), (numberAll ks i).1.map strip = ks.map strip
  | [], i => rfl
  | k :: ks, i => by simp only [numberAll, List.map_cons, number_strip k i, numberAll_strip ks]
end

theorem extent_strip (a : Nat) : ∀ (ks : List Node) (n : Nat), extent a n (ks.map strip) = extent a n ks
  | [], n => rfl
  | k :: ks, n => by
    have := extent_strip a ks (max n (k.val.addr - a + k.size))
    simpa [extent, strip_val, strip_size] using this

section
variable {env : Env} {mode : Mode} {db : Db} {m : Mem}

theorem visitAll_complete {f : Value → St → Outcome (Option Node × St)} :
    ∀ {ks : List Node} (_ : ∀ k ∈ ks, ∀ st : St, st.dead = [] → ∃ st', f k.val st = .ok (some (number k st.next).1, st') ∧ st'.next = (number k st.next).2 ∧ st'.dead = []) {st : St}, st.dead = [] →
      ∃ st' : St, visitAll f (ks.map Node.val) st = .ok ((numberAll ks st.next).1.map some, st') ∧ st'.next = (numberAll ks st.next).2 ∧ st'.dead = []
  | [], _, st, hd => ⟨st, rfl, rfl, hd⟩
  | k :: ks, hf, st, hd => by
    obtain ⟨st₁, h1, h2, h3⟩ := hf k (by simp) st hd
    obtain ⟨st₂, h4, h5, h6⟩ := visitAll_complete (ks := ks) (fun k hk => hf k (by simp [hk])) h3
    rw [h2] at h4 h5
    exact ⟨st₂, by simp [visitAll, h1, h4, numberAll], by rw [h5]; rfl, h6⟩

theorem vals_of_strip {ks ks' : List Node} (h : ks'.map strip = ks.map strip) (a : Nat) : (∀ k ∈ ks, a ≤ k.val.addr) → ∀ k ∈ ks', a ≤ k.val.addr := by
  intro h1 k hk
  have : strip k ∈ ks.map strip := by
    rw [← h]
    exact List.mem_map.mpr ⟨k, hk, rfl⟩
  obtain ⟨u, hu, he⟩ := List.mem_map.mp this
  rw [← strip_val, ← he, strip_val]
  exact h1 u hu

/-- A value that has a tree is walked. -/
theorem walk_number (hs : Sane db) (hin : Interned env.vs db) (hh : Honest env.vs db) {outer : List Value} {k : Node} (h : Tree env mode db m outer k) :
    ∀ st : St, st.dead = [] → ∃ st', walk env mode db m outer k.val st = .ok (some (number k st.next).1, st') ∧ st'.next = (number k st.next).2 ∧ st'.dead = [] := by
  induction h with
  | @leaf outer id v n l hc =>
    intro st hd
    rw [walk_eq, Node.val, (first_iff hs hin hh).mpr hc]
    exact ⟨_, rfl, rfl, hd⟩
  | @parts outer id v vs n ks hc h1 h2 h3 ih =>
    intro st hd
    subst h1
    rw [walk_eq, Node.val, (first_iff hs hin hh).mpr hc]
    obtain ⟨st', h4, h5, h6⟩ := visitAll_complete ih hd
    have hst := numberAll_strip ks st.next
    simp only [next, Outcome.bind_ok, Next.deps, h4, finish, Bool.false_eq_true, if_false, filterMap_some, newNode, attach_of (vals_of_strip hst _ h2)]
    rw [← extent_strip v.addr (numberAll ks st.next).1 n, hst, extent_strip]
    simp only [number, ← h5]
    exact ⟨_, rfl, rfl, h6⟩
  | @target outer id v n k hc h1 ih =>
    intro st hd
    rw [walk_eq, Node.val, (first_iff hs hin hh).mpr hc]
    obtain ⟨st', h4, h5, h6⟩ := ih st hd
    simp only [next, Outcome.bind_ok, Next.deps, visitAll, h4, finish, newNode, Outcome.pure_eq]
    cases hd : mode.dag with
    | true =>
      simp only [if_true, register_clean h6, Outcome.bind_ok]
      simp only [number, numberAll, ← h5]
      exact ⟨_, rfl, rfl, h6⟩
    | false =>
      simp only [Bool.false_eq_true, if_false, Outcome.bind_ok]
      simp only [number, numberAll, ← h5]
      exact ⟨_, rfl, rfl, h6⟩
  | @args outer id v vs ks hc h1 h2 ih =>
    intro st hd
    subst h1
    rw [walk_eq, Node.val, (first_iff hs hin hh).mpr hc]
    obtain ⟨st', h4, h5, h6⟩ := visitAll_complete ih hd
    have : ¬ (false = true ∨ ((numberAll ks st.next).1.map some).any Option.isNone = true) := by simp
    simp only [next, Outcome.bind_ok, Next.deps, h4, finish, this, if_false, filterMap_some, newNode]
    simp only [number, ← h5]
    exact ⟨_, rfl, rfl, h6⟩

theorem walk_complete (hs : Sane db) (hin : Interned env.vs db) (hh : Honest env.vs db) {outer : List Value} {k : Node} (h : Tree env mode db m outer k)
    (st : St) (hd : st.dead = []) : ∃ k' st', walk env mode db m outer k.val st = .ok (some k', st') ∧ strip k' = strip k ∧ st'.dead = [] := by
  obtain ⟨st', h1, _, h3⟩ := walk_number hs hin hh h st hd
  exact ⟨_, st', h1, number_strip _ _, h3⟩

/-- The tree of a value is unique, up to the numbers. -/
theorem tree_unique (hs : Sane db) (hin : Interned env.vs db) (hh : Honest env.vs db) {outer : List Value} {k k' : Node} (h : Tree env mode db m outer k)
    (h' : Tree env mode db m outer k') (hv : k.val = k'.val) : strip k = strip k' := by
  obtain ⟨k₁, st₁, h1, h2, _⟩ := walk_complete hs hin hh h ⟨0, [], []⟩ rfl
  obtain ⟨k₂, st₂, h3, h4, _⟩ := walk_complete hs hin hh h' ⟨0, [], []⟩ rfl
  rw [hv, h3] at h1
  cases h1
  rw [← h2, ← h4]
end

end Verif.Deep
