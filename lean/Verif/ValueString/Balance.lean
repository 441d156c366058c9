import Verif.ValueString.Lemmas
/-
Brackets in printed values.
-/
namespace Verif.ValueString
open Verif Verif.Entry Verif.Entry.Spec Verif.Value Verif.Value.Spec Verif.Handlers Verif.PrintString Verif.PrintString.Spec Verif.ValueString.Spec

/-- Reading a text. -/
def scan (t : Text) (s : Mode × List UInt8) : Option (Mode × List UInt8) := t.foldlM read s

/-- Brackets and literals are complete. -/
def Neutral (t : Text) : Prop := ∀ o, scan t (.code, o) = some (.code, o)

/-- No quotes. -/
def Unquoted (t : Text) : Prop := ∀ c ∈ t, c ≠ 34 ∧ c ≠ 39

theorem scan_cons {c : UInt8} {t : Text} {s} : scan (c :: t) s = (read s c).bind (scan t) := by
  simp only [scan, List.foldlM_cons]
  rfl

theorem scan_append {a b : Text} {s} : scan (a ++ b) s = (scan a s).bind (scan b) := by
  simp only [scan, List.foldlM_append]
  rfl

theorem scan_one {c : UInt8} {s} : scan [c] s = read s c := by
  rw [scan_cons]
  cases read s c <;> rfl

theorem neutral_nil : Neutral [] := fun _ => rfl

theorem neutral_append {a b : Text} (ha : Neutral a) (hb : Neutral b) : Neutral (a ++ b) := by
  intro o
  rw [scan_append, ha o]
  exact hb o

theorem read_clean {c : UInt8} (h : c ≠ 34 ∧ c ≠ 39 ∧ c ≠ 40 ∧ c ≠ 41 ∧ c ≠ 91 ∧ c ≠ 93 ∧ c ≠ 123 ∧ c ≠ 125) (o) :
    read (.code, o) c = some (.code, o) := by
  simp [Spec.read, h]

theorem neutral_clean {t : Text} (h : Clean t) : Neutral t := by
  induction t with
  | nil => exact neutral_nil
  | cons c t ih =>
    intro o
    rw [scan_cons, read_clean (h c List.mem_cons_self)]
    exact ih (fun x hx => h x (List.mem_cons_of_mem _ hx)) o

theorem neutral_round {t : Text} (h : Neutral t) : Neutral ([40] ++ t ++ [41]) := by
  intro o
  rw [scan_append, scan_append, scan_one, show read (.code, o) 40 = some (.code, 41 :: o) from rfl, Option.bind_some, h, Option.bind_some, scan_one]
  rfl

theorem neutral_square {t : Text} (h : Neutral t) : Neutral ([91] ++ t ++ [93]) := by
  intro o
  rw [scan_append, scan_append, scan_one, show read (.code, o) 91 = some (.code, 93 :: o) from rfl, Option.bind_some, h, Option.bind_some, scan_one]
  rfl

theorem neutral_brace {t : Text} (h : Neutral t) : Neutral ([123] ++ t ++ [125]) := by
  intro o
  rw [scan_append, scan_append, scan_one, show read (.code, o) 123 = some (.code, 125 :: o) from rfl, Option.bind_some, h, Option.bind_some, scan_one]
  rfl

theorem unquoted_append {a b : Text} : Unquoted (a ++ b) ↔ Unquoted a ∧ Unquoted b := by
  simp only [Unquoted, List.mem_append]
  constructor
  · exact fun h => ⟨fun c hc => h c (.inl hc), fun c hc => h c (.inr hc)⟩
  · rintro ⟨h, g⟩ c (hc | hc)
    · exact h c hc
    · exact g c hc

theorem clean_unquoted {t : Text} (h : Clean t) : Unquoted t := fun c hc => ⟨(h c hc).1, (h c hc).2.1⟩

theorem clean_append {a b : Text} : Clean (a ++ b) ↔ Clean a ∧ Clean b := by
  simp only [Clean, List.mem_append]
  constructor
  · exact fun h => ⟨fun c hc => h c (.inl hc), fun c hc => h c (.inr hc)⟩
  · rintro ⟨h, g⟩ c (hc | hc)
    · exact h c hc
    · exact g c hc

/-- Without quotes one stays outside literals. -/
theorem read_unquoted {c : UInt8} (h : c ≠ 34 ∧ c ≠ 39) (o) : read (.code, o) c = none ∨ ∃ o', read (.code, o) c = some (.code, o') := by
  simp only [Spec.read, h.1, h.2, if_false]
  split
  · exact .inr ⟨_, rfl⟩
  split
  · exact .inr ⟨_, rfl⟩
  split
  · exact .inr ⟨_, rfl⟩
  split
  · cases o with
    | nil => exact .inl rfl
    | cons d o =>
      simp only
      split
      · exact .inr ⟨_, rfl⟩
      · exact .inl rfl
  · exact .inr ⟨_, rfl⟩

theorem scan_unquoted {t : Text} : ∀ {o}, Unquoted t → scan t (.code, o) = none ∨ ∃ o', scan t (.code, o) = some (.code, o') := by
  induction t with
  | nil => exact fun _ => .inr ⟨_, rfl⟩
  | cons c t ih =>
    intro o h
    rw [scan_cons]
    rcases read_unquoted (h c List.mem_cons_self) o with e | ⟨o', e⟩
    · rw [e]; exact .inl rfl
    · rw [e]; exact ih (fun x hx => h x (List.mem_cons_of_mem _ hx))

/-! ### Declarations -/

/-- Complete brackets and no quotes. -/
structure Nice (t : Text) : Prop where
  neutral : Neutral t
  unquoted : Unquoted t

theorem nice_nil : Nice [] := ⟨neutral_nil, by simp [Unquoted]⟩
theorem nice_clean {t : Text} (h : Clean t) : Nice t := ⟨neutral_clean h, clean_unquoted h⟩
theorem nice_append {a b : Text} (ha : Nice a) (hb : Nice b) : Nice (a ++ b) :=
  ⟨neutral_append ha.1 hb.1, unquoted_append.2 ⟨ha.2, hb.2⟩⟩
theorem nice_round {t : Text} (h : Nice t) : Nice ([40] ++ t ++ [41]) :=
  ⟨neutral_round h.1, unquoted_append.2 ⟨unquoted_append.2 ⟨by simp [Unquoted], h.2⟩, by simp [Unquoted]⟩⟩
theorem nice_square {t : Text} (h : Nice t) : Nice ([91] ++ t ++ [93]) :=
  ⟨neutral_square h.1, unquoted_append.2 ⟨unquoted_append.2 ⟨by simp [Unquoted], h.2⟩, by simp [Unquoted]⟩⟩
theorem nice_brace {t : Text} (h : Nice t) : Nice ([123] ++ t ++ [125]) :=
  ⟨neutral_brace h.1, unquoted_append.2 ⟨unquoted_append.2 ⟨by simp [Unquoted], h.2⟩, by simp [Unquoted]⟩⟩

/-- Filling holes of a text does not disturb its brackets. -/
theorem fmt_scan {pat : Text} {args : List Text} {r : Text} (hp : Unquoted pat) (ha : ∀ a ∈ args, Nice a) (h : CDecl.fmt pat args = .ok r) :
    Unquoted r ∧ ∀ o, scan r (.code, o) = scan pat (.code, o) := by
  fun_induction CDecl.fmt pat args generalizing r with
  | case1 => cases h; exact ⟨hp, fun _ => rfl⟩
  | case2 c s args hc ih =>
    simp only [bind_ok_iff] at h
    obtain ⟨u, hu, h⟩ := h
    cases h
    obtain ⟨i1, i2⟩ := ih (fun x hx => hp x (List.mem_cons_of_mem _ hx)) ha hu
    refine ⟨?_, ?_⟩
    · intro x hx
      rcases List.mem_cons.1 hx with rfl | hx
      · exact hp _ List.mem_cons_self
      · exact i1 _ hx
    · intro o
      rw [scan_cons, scan_cons]
      rcases read_unquoted (hp c List.mem_cons_self) o with e | ⟨o', e⟩
      · rw [e]; rfl
      · rw [e]; exact i2 o'
  | case3 => cases h
  | case4 c args hc s ih =>
    have hc : c = 37 := by simpa using hc
    subst hc
    simp only [bind_ok_iff] at h
    obtain ⟨u, hu, h⟩ := h
    cases h
    obtain ⟨i1, i2⟩ := ih (fun x hx => hp x (List.mem_cons_of_mem _ (List.mem_cons_of_mem _ hx))) ha hu
    refine ⟨?_, ?_⟩
    · intro x hx
      rcases List.mem_cons.1 hx with rfl | hx
      · decide
      · exact i1 _ hx
    · intro o
      rw [scan_cons, read_clean (by decide), Option.bind_some, scan_cons, read_clean (by decide), Option.bind_some, scan_cons, read_clean (by decide), Option.bind_some]
      exact i2 o
  | case5 => cases h
  | case6 c hc s a args hd ih =>
    have hc : c = 37 := by simpa using hc
    subst hc
    simp only [bind_ok_iff] at h
    obtain ⟨u, hu, h⟩ := h
    cases h
    obtain ⟨i1, i2⟩ := ih (fun x hx => hp x (List.mem_cons_of_mem _ (List.mem_cons_of_mem _ hx))) (fun x hx => ha x (List.mem_cons_of_mem _ hx)) hu
    have hn := ha a List.mem_cons_self
    refine ⟨unquoted_append.2 ⟨hn.2, i1⟩, ?_⟩
    intro o
    rw [scan_append, hn.1 o, Option.bind_some, i2, scan_cons, read_clean (by decide), Option.bind_some, scan_cons, read_clean (by decide), Option.bind_some]
  | case7 => cases h

theorem fmt_nice {pat : Text} {args : List Text} {r : Text} (hp : Nice pat) (ha : ∀ a ∈ args, Nice a) (h : CDecl.fmt pat args = .ok r) : Nice r := by
  obtain ⟨h1, h2⟩ := fmt_scan hp.2 ha h
  exact ⟨fun o => by rw [h2]; exact hp.1 o, h1⟩

theorem clean_spaces (k : Nat) : Clean (List.replicate k 32) := by
  intro c hc
  rw [(List.mem_replicate.1 hc).2]
  decide

theorem trim_nice {t : Text} (h : Nice t) : Nice (CDecl.trim t) := by
  obtain ⟨⟨k, e⟩, -⟩ := CDecl.trim_cut t
  generalize CDecl.trim t = u at e
  subst e
  have hu := (unquoted_append.1 h.2).1
  refine ⟨fun o => ?_, hu⟩
  have := h.1 o
  rw [scan_append] at this
  rcases scan_unquoted hu (o := o) with e | ⟨o', e⟩
  · rw [e] at this; cases this
  · rw [e, Option.bind_some, neutral_clean (clean_spaces k)] at this
    rw [e]
    exact this

theorem clean_decimal (n : Nat) : Clean (decimal n) := by
  have key : ∀ k < 10, Clean [UInt8.ofNat (48 + k)] := by
    intro k hk c hc
    simp only [List.mem_singleton] at hc
    subst hc
    revert hk
    revert k
    decide
  fun_induction decimal n with
  | case1 n h => exact key n h
  | case2 n h ih => exact clean_append.2 ⟨ih, key _ (Nat.mod_lt _ (by omega))⟩

theorem clean_decimalInt (v : Int) : Clean (decimalInt v) := by
  unfold decimalInt
  split
  · have := clean_decimal v.natAbs
    intro c hc
    rcases List.mem_cons.1 hc with rfl | hc
    · decide
    · exact this c hc
  · exact clean_decimal _

theorem enumText_clean : ∀ {es : List (Name × Int)} {val : Option Text}, (∀ x ∈ es, Clean x.1) → Clean (val.getD []) → Clean ((CDecl.enumText es val).getD [])
  | [], val, _, h => h
  | (n, v) :: es, val, h, hv => by
    rw [CDecl.enumText]
    apply enumText_clean (fun x hx => h x (by simp [hx]))
    have h1 := h (n, v) (by simp)
    have h2 := clean_decimalInt v
    simp only [Option.getD_some, clean_append]
    refine ⟨⟨⟨⟨⟨hv, ?_⟩, h1⟩, by simp [Clean]⟩, h2⟩, by simp [Clean]⟩
    split <;> simp [Clean]

theorem clean_fieldName {e : Entry} (h : ∀ n, e.name = some n → Clean n) : Clean (CDecl.fieldName e) := by
  unfold CDecl.fieldName
  split
  · simp [Clean]
  · next n hn =>
    split
    · split
      · exact clean_append.2 ⟨clean_append.2 ⟨h n hn, by simp [Clean]⟩, clean_decimal _⟩
      · exact h n hn
    · exact h n hn

/-- Every text there is, is nice. -/
def AllNice (outs : List (Option Text)) : Prop := ∀ t, some t ∈ outs → Nice t

theorem dequeue_nice {outs : List (Option Text)} (h : AllNice outs) : (∀ t, (CDecl.dequeue outs).1 = some t → Nice t) ∧ AllNice (CDecl.dequeue outs).2 := by
  cases outs with
  | nil => exact ⟨fun t e => by simp [CDecl.dequeue] at e, h⟩
  | cons o outs => exact ⟨fun t e => h t (by simp [CDecl.dequeue] at e; simp [e]), fun t ht => h t (by simp [CDecl.dequeue] at ht; simp [ht])⟩

theorem typePattern_nice {ty : Option Ref} {outs : List (Option Text)} (h : AllNice outs) :
    (∀ t, (CDecl.typePattern ty outs).1 = some t → Nice t) ∧ AllNice (CDecl.typePattern ty outs).2 := by
  cases ty with
  | none =>
    refine ⟨fun t e => ?_, h⟩
    rw [CDecl.typePattern, Option.some.injEq] at e
    subst e
    exact nice_clean (by unfold Clean CDecl.voidPat; decide)
  | some r => exact dequeue_nice h

theorem nice_hole : Nice CDecl.hole := nice_clean (by unfold Clean CDecl.hole; decide)

theorem fieldsText_nice {db : Db} (hn : CleanNames db) : ∀ {rs : List Ref} {outs : List (Option Text)} {res : Option Text} {r : Option Text},
    AllNice outs → Nice (res.getD []) → CDecl.fieldsText db rs outs res = .ok (some r) → Nice (r.getD [])
  | [], outs, res, r, _, hr, h => by
    cases h
    exact hr
  | x :: rs, outs, res, r, ho, hr, h => by
    rw [CDecl.fieldsText] at h
    obtain ⟨t1, t2⟩ := typePattern_nice (ty := CDecl.memberType db x) ho
    generalize CDecl.typePattern (CDecl.memberType db x) outs = p at h t1 t2
    obtain ⟨o, outs'⟩ := p
    cases o with
    | none => cases h
    | some pat =>
      simp only [bind_ok_iff] at h
      obtain ⟨u, hu, h⟩ := h
      refine fieldsText_nice hn t2 ?_ h
      refine nice_append (nice_append hr (trim_nice (fmt_nice (t1 _ rfl) ?_ hu))) (nice_clean (by simp [Clean]))
      intro a ha
      simp only [List.mem_singleton] at ha
      subst ha
      exact nice_clean (clean_fieldName (hn.names x))

theorem addParam_nice {params : Option Text} {p : Text} (h : Nice (params.getD [])) (hp : Nice p) : Nice ((CDecl.addParam params p).getD []) := by
  refine nice_append (nice_append h ?_) hp
  split <;> exact nice_clean (by simp [Clean])

theorem paramsText_nice {db : Db} (hn : CleanNames db) {fn : Bool} : ∀ {rs : List Ref} {outs : List (Option Text)} {res : Option Text} {r : Option Text},
    AllNice outs → Nice (res.getD []) → CDecl.paramsText db fn rs outs res = .ok (some r) → Nice (r.getD [])
  | [], outs, res, r, _, hr, h => by
    cases h
    exact hr
  | x :: rs, outs, res, r, ho, hr, h => by
    rw [CDecl.paramsText] at h
    split at h
    · exact paramsText_nice hn ho (addParam_nice hr (nice_clean (by simp [Clean, CDecl.dots]))) h
    · cases h
    · obtain ⟨t1, t2⟩ := dequeue_nice ho
      generalize CDecl.dequeue outs = p at h t1 t2
      obtain ⟨o, outs'⟩ := p
      cases o with
      | none => cases h
      | some pat =>
        simp only [bind_ok_iff] at h
        obtain ⟨u, hu, h⟩ := h
        refine paramsText_nice hn t2 (addParam_nice hr (trim_nice (fmt_nice (t1 _ rfl) ?_ hu))) h
        intro a ha
        simp only [List.mem_singleton] at ha
        subst ha
        split
        · exact nice_nil
        · cases e : (db x).name with
          | none => exact nice_nil
          | some n => exact nice_clean (hn.names x n e)
    · split at h
      · cases h
      · exact paramsText_nice hn ho hr h

theorem qualPat_clean (q : Qual) : Clean (CDecl.qualPat q) := by
  unfold Clean
  cases q <;> decide

theorem combine_nice {db : Db} (hn : CleanNames db) {r : Ref} {outs : List (Option Text)} (ho : AllNice outs) {t : Text}
    (h : CDecl.combine db (db r) outs = .ok (some t)) : Nice t := by
  have name : ∀ n, (db r).name = some n → Nice n := fun n e => nice_clean (hn.names r n e)
  have one : ∀ {a : Text}, Nice a → ∀ b ∈ [a], Nice b := by
    intro a ha b hb
    simp only [List.mem_singleton] at hb
    subst hb
    exact ha
  have two : ∀ {a c : Text}, Nice a → Nice c → ∀ b ∈ [a, c], Nice b := by
    intro a c ha hc b hb
    simp only [List.mem_cons, List.not_mem_nil, or_false] at hb
    rcases hb with rfl | rfl
    · exact ha
    · exact hc
  have named : ∀ n, (db r).name = some n → Nice (n ++ [32] ++ CDecl.hole) :=
    fun n e => nice_append (nice_append (name n e) (nice_clean (by simp [Clean]))) nice_hole
  rw [CDecl.combine.eq_def] at h
  split at h
  · -- var
    next ty _ =>
    obtain ⟨t1, -⟩ := typePattern_nice (ty := ty) ho
    generalize CDecl.typePattern ty outs = p at h t1
    obtain ⟨o, outs'⟩ := p
    cases o with
    | none => cases h
    | some pat =>
      cases e : (db r).name with
      | none => rw [e] at h; cases h
      | some n =>
        rw [e] at h
        simp only [bind_ok_iff] at h
        obtain ⟨u, hu, h⟩ := h
        cases h
        exact fmt_nice (t1 _ rfl) (one (name n e)) hu
  · cases e : (db r).name with
    | none => rw [e] at h; cases h
    | some n => rw [e] at h; cases h; exact named n e
  · cases e : (db r).name with
    | none => rw [e] at h; cases h
    | some n => rw [e] at h; cases h; exact named n e
  · next s en es hi =>
    cases e : (db r).name with
    | none =>
      rw [e] at h
      cases h
      have hc : Clean ((CDecl.enumText es none).getD []) := enumText_clean (hn.enumerators r _ _ _ hi) (by simp [Clean])
      have h1 := nice_append (nice_append (nice_append (nice_clean (t := [101, 110, 117, 109, 32]) (by simp [Clean])) (nice_brace (nice_clean hc))) (nice_clean (t := [32]) (by simp [Clean]))) nice_hole
      simpa using h1
    | some n =>
      rw [e] at h
      cases h
      have h1 := nice_append (nice_clean (t := [101, 110, 117, 109, 32]) (by simp [Clean])) (named n e)
      simpa using h1
  · next ty count _ =>
    obtain ⟨t1, -⟩ := typePattern_nice (ty := ty) ho
    generalize CDecl.typePattern ty outs = p at h t1
    obtain ⟨o, outs'⟩ := p
    cases o with
    | none => cases h
    | some pat =>
      simp only [bind_ok_iff] at h
      obtain ⟨u, hu, h⟩ := h
      cases h
      refine fmt_nice (t1 _ rfl) (one ?_) hu
      split
      · have := nice_append nice_hole (nice_square (nice_clean (clean_decimalInt count)))
        simpa using this
      · have := nice_append nice_hole (nice_square nice_nil)
        simpa using this
  · next q ty _ =>
    obtain ⟨t1, -⟩ := typePattern_nice (ty := ty) ho
    generalize CDecl.typePattern ty outs = p at h t1
    obtain ⟨o, outs'⟩ := p
    cases o with
    | none => cases h
    | some pat =>
      have hq := nice_clean (qualPat_clean q)
      cases ty with
      | none =>
        simp only [bind_ok_iff] at h
        obtain ⟨u, hu, h⟩ := h
        cases h
        exact fmt_nice hq (one (t1 _ rfl)) hu
      | some x =>
        simp only at h
        split at h <;>
        · simp only [bind_ok_iff] at h
          obtain ⟨u, hu, h⟩ := h
          cases h
          first
          | exact fmt_nice hq (one (t1 _ rfl)) hu
          | exact fmt_nice (t1 _ rfl) (one hq) hu
  · next ty _ =>
    obtain ⟨t1, -⟩ := typePattern_nice (ty := ty) ho
    generalize CDecl.typePattern ty outs = p at h t1
    obtain ⟨o, outs'⟩ := p
    cases o with
    | none => cases h
    | some pat =>
      simp only [bind_ok_iff] at h
      obtain ⟨u, hu, h⟩ := h
      cases h
      exact fmt_nice (t1 _ rfl) (one (nice_clean (by simp [Clean]))) hu
  · cases h
  · next k s ms _ _ =>
    have hw : Nice (CDecl.structWord k) := nice_clean (by unfold Clean; cases k <;> decide)
    have hsp : Nice [32] := nice_clean (by simp [Clean])
    cases e : (db r).name with
    | some n =>
      rw [e] at h
      cases h
      have := nice_append (nice_append hw hsp) (named n e)
      simpa using this
    | none =>
      rw [e] at h
      simp only [bind_ok_iff] at h
      obtain ⟨u, hu, h⟩ := h
      cases u with
      | none => cases h
      | some res =>
        cases h
        have hr := fieldsText_nice hn (res := none) ho nice_nil hu
        have := nice_append (nice_append (nice_append (nice_append hw hsp) (nice_brace hr)) hsp) nice_hole
        simpa using this
  · next ty ps _ =>
    obtain ⟨t1, t2⟩ := typePattern_nice (ty := ty) ho
    generalize CDecl.typePattern ty outs = p at h t1 t2
    obtain ⟨o, outs'⟩ := p
    cases o with
    | none => cases h
    | some pat =>
      simp only [bind_ok_iff] at h
      obtain ⟨u, hu, h⟩ := h
      cases u with
      | none => cases h
      | some params =>
        have hr := paramsText_nice hn (res := none) t2 nice_nil hu
        cases e : (db r).name with
        | none => rw [e] at h; cases h
        | some n =>
          rw [e] at h
          simp only [bind_ok_iff] at h
          obtain ⟨w, hw, h⟩ := h
          cases h
          have := nice_append (t1 _ rfl) (nice_round nice_hole)
          exact fmt_nice (by simpa using this) (two (name n e) hr) hw
  · next ty ps _ =>
    obtain ⟨t1, t2⟩ := typePattern_nice (ty := ty) ho
    generalize CDecl.typePattern ty outs = p at h t1 t2
    obtain ⟨o, outs'⟩ := p
    cases o with
    | none => cases h
    | some pat =>
      simp only [bind_ok_iff] at h
      obtain ⟨u, hu, h⟩ := h
      cases u with
      | none => cases h
      | some params =>
        have hr := paramsText_nice hn (res := none) t2 nice_nil hu
        simp only [bind_ok_iff] at h
        obtain ⟨w, hw, h⟩ := h
        cases h
        have := nice_append (t1 _ rfl) (nice_round nice_hole)
        exact fmt_nice (by simpa using this) (two (nice_round nice_hole) hr) hw
  · cases h

theorem cdecl_nice {db : Db} (hn : CleanNames db) (r : Ref) (t : Text) (h : CDecl.cdecl db r = .ok (some t)) : Nice t := by
  have := CDecl.cdecl.fixpoint_induct db (motive := fun g => ∀ r o, g r = .ok o → ∀ t, o = some t → Nice t)
    (by
      apply Lean.Order.admissible_pi_apply (P := fun _ (g : Outcome (Option Text)) => ∀ o, g = .ok o → ∀ t, o = some t → Nice t)
      intro r
      exact Outcome.admissible_ok _)
    (by
      intro g hg r o h t ho
      subst ho
      simp only [bind_ok_iff] at h
      obtain ⟨outs, h1, h2⟩ := h
      refine combine_nice hn ?_ h2
      intro u hu
      rw [Outcome.mapM_ok] at h1
      obtain ⟨i, hi, e⟩ := List.getElem_of_mem hu
      have hi' : i < (CDecl.deps db (db r)).length := by rw [← h1.1]; exact hi
      exact hg _ _ (h1.2 i _ _ (List.getElem?_eq_getElem hi') (List.getElem?_eq_getElem hi)) u e)
  exact this r _ h t rfl

theorem typeText_nice {db : Db} (hn : CleanNames db) {r : Ref} {t : Text} (h : TypeText db r t) : Nice t := by
  obtain ⟨pat, h1, h2⟩ := h
  refine fmt_nice (cdecl_nice hn r pat h1) ?_ h2
  intro a ha
  simp only [List.mem_singleton] at ha
  subst ha
  exact nice_nil

/-! ### Values -/

theorem tyText_neutral {env : Env} (hf : ∀ t n, Clean (env.flt t n)) {t : Ty} {n : Nat} {x : Text} (h : tyText env t n = .ok x) : Neutral x := by
  rw [tyText.eq_def] at h
  split at h
  · split at h
    · have h := Outcome.ok.inj h
      subst h
      generalize UInt8.ofNat n = c
      intro o
      rw [scan_cons, show Spec.read (.code, o) 39 = some (.char, o) from rfl, Option.bind_some, scan_cons]
      rfl
    · have h := Outcome.ok.inj h
      subst h
      exact neutral_clean (clean_decimalInt _)
  · split at h
    · cases h
      split <;> exact neutral_clean (by simp [Clean])
    · cases h
  · split at h
    · cases h
      exact neutral_clean (hf _ _)
    · cases h
      exact neutral_clean (clean_decimalInt _)

theorem stringLoop_text {env : Env} {db : Db} {m : Mem} {v : Value} {x : Text} : ∀ {ts : List Ty}, stringLoop env db m v ts = .ok (some x) → ∃ t n, tyText env t n = .ok x
  | [], h => by cases h
  | t :: ts, h => by
    rw [stringLoop] at h
    simp only [bind_ok_iff] at h
    obtain ⟨b, -, h⟩ := h
    cases b with
    | false => exact stringLoop_text h
    | true =>
      simp only [if_true, bind_ok_iff] at h
      obtain ⟨g, -, h⟩ := h
      cases g with
      | error e => cases h
      | ok n =>
        simp only [bind_ok_iff] at h
        obtain ⟨y, hy, h⟩ := h
        cases h
        exact ⟨t, n, hy⟩

theorem enumLoop_mem {n : Int} {name : Name} : ∀ {es : List (Name × Int)}, enumLoop es n = some name → ∃ e ∈ es, e.1 = name
  | [], h => by cases h
  | (a, k) :: es, h => by
    rw [enumLoop] at h
    split at h
    · cases h
      exact ⟨(name, k), by simp, rfl⟩
    · obtain ⟨e, he, h⟩ := enumLoop_mem h
      exact ⟨e, by simp [he], h⟩

theorem enumerationString_clean {db : Db} (hn : CleanNames db) {m : Mem} {v : Value} {x : Text} (h : enumerationString db m (some v) = .ok (some x)) : Clean x := by
  rw [enumerationString] at h
  simp only [bind_ok_iff] at h
  obtain ⟨f, -, h⟩ := h
  cases f with
  | none => cases h
  | some f =>
    simp only [bind_ok_iff] at h
    obtain ⟨g, -, h⟩ := h
    cases g with
    | error e => cases h
    | ok n =>
      simp only [bind_ok_iff] at h
      obtain ⟨o, ho, h⟩ := h
      cases o with
      | none => cases h; exact clean_decimalInt _
      | some name =>
        cases h
        have ho : enumerationToName db (some v.entry) n = some (some x) := by
          cases e : enumerationToName db (some v.entry) n with
          | none => rw [e] at ho; cases ho
          | some y => rw [e] at ho; cases ho; rfl
        rw [enumerationToName] at ho
        cases e : finalOf db (some v.entry) isEnum with
        | none => rw [e] at ho; cases ho
        | some y =>
          rw [e] at ho
          cases y with
          | none => cases ho
          | some f =>
            have ho : enumLoop (enumerators (db f).info) n = some x := by
              simpa using ho
            obtain ⟨z, hz, rfl⟩ := enumLoop_mem ho
            cases hi : (db f).info <;> rw [hi] at hz <;> simp only [enumerators, List.not_mem_nil] at hz
            exact hn.enumerators f _ _ _ hi z hz

theorem neutral_intercalate {sep : Text} (hs : Neutral sep) : ∀ {l : List Text}, (∀ t ∈ l, Neutral t) → Neutral (sep.intercalate l)
  | [], _ => neutral_nil
  | [a], h => by simpa [List.intercalate] using h a (by simp)
  | a :: b :: l, h => by
    have ih := neutral_intercalate hs (l := b :: l) (fun t ht => h t (List.mem_cons_of_mem _ ht))
    have : sep.intercalate (a :: b :: l) = a ++ sep ++ sep.intercalate (b :: l) := by
      simp [List.intercalate, List.intersperse]
    rw [this]
    exact neutral_append (neutral_append (h a (by simp)) hs) ih

theorem membersText_neutral {db : Db} (hn : CleanNames db) {ws : List (Value × Text)} (h : ∀ w u, (w, u) ∈ ws → Neutral u) : Neutral (membersText db ws) := by
  refine neutral_intercalate (neutral_clean (by simp [Clean])) ?_
  intro t ht
  obtain ⟨⟨w, u⟩, hw, ht⟩ := List.mem_flatMap.1 ht
  have hu := h w u hw
  simp only [memberText] at ht
  split at ht
  · simp at ht
  · cases e : (db w.entry).name with
    | none =>
      rw [e] at ht
      simp only [List.mem_singleton] at ht
      subst ht
      exact hu
    | some n =>
      rw [e] at ht
      simp only [List.mem_singleton] at ht
      subst ht
      refine neutral_append (neutral_append (neutral_append (neutral_append ?_ ?_) ?_) hu) ?_
      · exact neutral_clean (by simp [Clean])
      · exact neutral_clean (hn.names _ _ e)
      · exact neutral_clean (by simp [Clean])
      · exact neutral_clean (by simp [Clean])

theorem wrapped_neutral {db : Db} {v : Value} {t u : Text} (h : Neutral t) (hw : Wrapped db v t u) : Neutral u := by
  cases hw with
  | bare => exact h
  | notMember => exact neutral_brace h
  | named => exact neutral_brace h

theorem escaped_scan {cs : List UInt8} {s : Text} (h : Escaped cs s) (o) : scan s (.string, o) = some (.string, o) := by
  induction h with
  | nil => rfl
  | @plain c cs s hc _ ih =>
    have h1 : c ≠ 34 := by
      rintro rfl
      exact hc _ .dquote
    have h2 : c ≠ 92 := by
      rintro rfl
      exact hc _ .backslash
    rw [scan_cons]
    simp only [Spec.read, h1, h2, if_false, Option.bind_some, ih]
  | escape _ _ ih =>
    rw [scan_cons]
    exact ih

theorem literal_neutral {pr : UInt8 → Bool} {db : Db} {m : Mem} {v : Value} {t : Text} (h : Literal pr db m v t) : Neutral t := by
  obtain ⟨cs, s, -, -, -, -, he, rfl⟩ := h
  intro o
  rw [scan_append, scan_append, scan_one, show Spec.read (.code, o) 34 = some (.string, o) from rfl, Option.bind_some, escaped_scan he, Option.bind_some, scan_one]
  rfl

theorem argument_neutral {db : Db} (hn : CleanNames db) {w : Value} {t u : Text} (ht : Neutral t) (h : Argument db w t u) : Neutral u := by
  cases h with
  | literal => exact ht
  | typed h1 h2 _ =>
    have e := cut_unique h2 (CDecl.trim_cut _)
    rw [e]
    exact neutral_append (neutral_round (trim_nice (typeText_nice hn h1)).1) ht

theorem arguments_neutral {db : Db} (hn : CleanNames db) {ws : List (Value × Text)} {us : List Text} (hw : ∀ w u, (w, u) ∈ ws → Neutral u) (hl : us.length = ws.length)
    (h : ∀ (i : Nat) w u x, ws[i]? = some (w, u) → us[i]? = some x → Argument db w u x) : Neutral ([44, 32].intercalate us) := by
  refine neutral_intercalate (neutral_clean (by simp [Clean])) ?_
  intro t ht
  obtain ⟨i, hi, e⟩ := List.getElem_of_mem ht
  have hi' : i < ws.length := by omega
  exact argument_neutral hn (hw ws[i].1 ws[i].2 (List.getElem_mem hi')) (h i ws[i].1 ws[i].2 t (List.getElem?_eq_getElem hi') (by rw [List.getElem?_eq_getElem hi, e]))

theorem calls_neutral {ws : List (Value × Text)} (hw : ∀ w u, (w, u) ∈ ws → Neutral u) : Neutral ([44, 32].intercalate (ws.map (·.2))) := by
  refine neutral_intercalate (neutral_clean (by simp [Clean])) ?_
  intro t ht
  obtain ⟨⟨w, u⟩, h, rfl⟩ := List.mem_map.1 ht
  exact hw w u h

theorem shown_neutral {env : Env} {deep : Bool} {db : Db} {m : Mem} (hn : CleanNames db) (hf : ∀ t n, Clean (env.flt t n)) (hp : ∀ a, Clean (env.ptr a))
    {outer : List Value} {v : Value} {t : Text} (h : Shown env deep db m outer v t) : Neutral t := by
  induction h with
  | base _ h =>
    obtain ⟨t, n, h⟩ := stringLoop_text h
    exact tyText_neutral hf h
  | enumeration _ h => exact neutral_clean (enumerationString_clean hn h)
  | null => exact neutral_clean (by simp [Clean])
  | address => exact neutral_clean (hp _)
  | void => exact neutral_clean (hp _)
  | target _ _ _ _ _ _ _ _ ht _ ih => exact neutral_append (neutral_round (typeText_nice hn ht).1) ih
  | string _ _ _ _ _ _ _ _ _ _ ih => exact ih
  | struct _ _ _ _ hw ih => exact wrapped_neutral (membersText_neutral hn ih) hw
  | union _ _ hw => exact wrapped_neutral neutral_nil hw
  | unionMember _ _ _ _ hw ih =>
    refine wrapped_neutral (membersText_neutral hn ?_) hw
    intro w u h
    simp only [List.mem_singleton, Prod.mk.injEq] at h
    rw [h.2]
    exact ih
  | skipped => exact neutral_nil
  | literal _ _ h => exact literal_neutral h
  | array _ _ _ _ _ _ _ ih =>
    refine neutral_brace (neutral_intercalate (neutral_clean (by simp [Clean])) ?_)
    intro t ht
    obtain ⟨⟨w, u⟩, h, rfl⟩ := List.mem_map.1 ht
    exact neutral_append (ih w u h) (neutral_clean (by simp [Clean]))
  | arguments _ _ _ _ _ hl ha _ ih => exact arguments_neutral hn ih hl ha
  | vaList _ _ _ _ _ hl ha _ ih =>
    have := neutral_append (neutral_clean (t := [86, 65, 95, 76, 73, 83, 84]) (by simp [Clean])) (neutral_round (arguments_neutral hn ih hl ha))
    simpa using this
  | call _ _ _ _ hname ih =>
    have := neutral_append (neutral_clean (hn.names _ _ hname)) (neutral_round (calls_neutral ih))
    simpa using this
  | callPointer _ _ _ _ hname ih =>
    have := neutral_append (neutral_round (neutral_clean (hn.names _ _ hname))) (neutral_round (calls_neutral ih))
    simpa using this

end Verif.ValueString
