import Verif.Tell.Same
/-
Property: the text of a value tells the data it holds (C112).
-/
namespace Verif.Tell
open Verif Verif.Entry Verif.Entry.Spec Verif.Value Verif.Value.Spec Verif.PrintString.Spec Verif.ValueString Verif.ValueString.Spec Verif.Tell.Spec

/-- C112 (partial: for the types of data `DataTypes` describes, on platforms that write numbers as
`Formats` says): if two values of one type are printed as the same text, they hold the same data. -/
theorem C112_tells_partial (env : Env) (deep : Bool) (db : Db) (hs : Sane db) (hin : Interned env db) (hh : Honest env db) (hp : Locale env.pr) (hn : CleanNames db)
    (hf : Formats env) (S : Ref → Prop) (hd : DataTypes env db S) (m m' : Mem) (v v' : Value) (hS : S v.entry) (he : v.entry = v'.entry) (t : Text)
    (h : valueString env deep db m (some v) = .ok (some t)) (h' : valueString env deep db m' (some v') = .ok (some t)) : Alike env deep db m m' [] [] v v' :=
  (shown_tells hs hn hf hd ((C43_shown env deep db hs hin hh hp m v t).1 h) hS (he ▸ hS) (.inl he) ((C43_shown env deep db hs hin hh hp m' v' t).1 h') [] [] trivial trivial rfl).2

/-- C112: ... and the text of one is no beginning of the text of the other, so that texts put into a
line with commas can be told apart. -/
theorem C112_prefix_partial (env : Env) (deep : Bool) (db : Db) (hs : Sane db) (hin : Interned env db) (hh : Honest env db) (hp : Locale env.pr) (hn : CleanNames db)
    (hf : Formats env) (S : Ref → Prop) (hd : DataTypes env db S) (m m' : Mem) (v v' : Value) (hS : S v.entry) (he : v.entry = v'.entry) (t t' : Text)
    (h : valueString env deep db m (some v) = .ok (some t)) (h' : valueString env deep db m' (some v') = .ok (some t'))
    (s s' : Text) (hc : Follows s) (hc' : Follows s') (e : t ++ s = t' ++ s') : t = t' ∧ s = s' := by
  have := (shown_tells hs hn hf hd ((C43_shown env deep db hs hin hh hp m v t).1 h) hS (he ▸ hS) (.inl he) ((C43_shown env deep db hs hin hh hp m' v' t').1 h') s s' hc hc' e).1
  subst this
  exact ⟨rfl, by simpa using e⟩

/-- What `Alike` means for an integer: the bytes hold the same number. -/
theorem C112_integers {env : Env} {deep : Bool} {db : Db} (hn : Named db) {m m' : Mem} {o o' : List Value} {v v' : Value} {t : Ty} {n n' : Nat}
    (h : Alike env deep db m m' o o' v v') (ho : Value.Object db m v t n) (ho' : Value.Object db m' v' t n') (hi : Integral t) : n = n' := by
  obtain ⟨⟨x, qs, hf, hd⟩, hb, h0, hh, -⟩ := ho
  obtain ⟨⟨x', qs', hf', hd'⟩, hb', h0', hh', -⟩ := ho'
  have ty : ∀ {k} {t' : Ty}, getTy env.cfg db m (some v) t' = .ok (.ok k) → t' = t := by
    intro k t' h
    refine Classical.byContradiction fun hne => ?_
    obtain ⟨c, hc⟩ := ((C24_typed_access_partial env.cfg db hn m v (some x) qs hf h0 t').1 (by rintro ⟨y, hy, hy'⟩; cases hy; exact hne (describes_unique hy' hd))).1
    rw [hc] at h
    cases h
  have cl : ∀ {i : Info}, ValueString.Spec.Object env db v i → i = (db x).info := by
    rintro i ⟨-, -, y, q, hy, hi⟩
    cases final_unique hy hf
    exact hi.symm
  have g1 := (getTy_plain (cfg := env.cfg) hn hf h0 hd hb).1 n hh
  have g2 := (getTy_plain (cfg := env.cfg) hn hf' h0' hd' hb').1 n' hh'
  obtain ⟨sz, enc, hx, -⟩ := hd
  cases h with
  | number _ _ h1 h2 h3 =>
    cases ty h2
    rw [g1] at h2
    rw [g2] at h3
    exact (Except.ok.inj (Outcome.ok.inj h2)).trans (Except.ok.inj (Outcome.ok.inj h3)).symm
  | floating _ _ h1 h2 => cases ty h2; exact absurd hi h1
  | enumeration h1 | null h1 | address _ h1 | target _ h1 | struct h1 | union h1 | unionMember h1 | array h1 | characters h1 =>
    have := (cl h1).trans hx
    cases this

/-- ... for an enumeration: the same number. -/
theorem C112_enumerations {env : Env} {deep : Bool} {db : Db} {m m' : Mem} {o o' : List Value} {v v' : Value} {s : UInt64} {e : Nat} {es : List (Name × Int)} {n n' : Nat}
    (h : Alike env deep db m m' o o' v v') (ho : ValueString.Spec.Object env db v (.enumeration s e es)) (hs : s.toNat = 1 ∨ s.toNat = 2 ∨ s.toNat = 4 ∨ s.toNat = 8)
    (hh : Holds m v.addr s.toNat n) (ho' : ValueString.Spec.Object env db v' (.enumeration s e es)) (hh' : Holds m' v'.addr s.toNat n') : n = n' := by
  obtain ⟨-, h0, x, qs, hf, hi⟩ := ho
  obtain ⟨-, h0', x', qs', hf', hi'⟩ := ho'
  have cl : ∀ {i : Info}, ValueString.Spec.Object env db v i → i = .enumeration s e es := by
    rintro i ⟨-, -, y, q, hy, hy'⟩
    cases final_unique hy hf
    exact hy'.symm.trans hi
  have g1 := (((C25_round_trip_partial db m v _ _ hf h0).1 x s e es rfl hi).1 hs).1 n hh
  have g2 := (((C25_round_trip_partial db m' v' _ _ hf' h0').1 x' s e es rfl hi').1 hs).1 n' hh'
  cases h with
  | enumeration _ _ h2 h3 =>
    rw [g1] at h2
    rw [g2] at h3
    exact twos_inj hh.1 hh'.1 ((Except.ok.inj (Outcome.ok.inj h2)).trans (Except.ok.inj (Outcome.ok.inj h3)).symm)
  | number h1 | floating h1 | null h1 | address _ h1 | target _ h1 | struct h1 | union h1 | unionMember h1 | array h1 | characters h1 => cases cl h1

/-- ... for a pointer that is not followed: the same address. -/
theorem C112_pointers {env : Env} {db : Db} {m m' : Mem} {o o' : List Value} {v v' : Value} {ty : Option Ref} {a a' : Nat}
    (h : Alike env false db m m' o o' v v') (ho : ValueString.Spec.Object env db v (.pointer ty)) (hh : Holds m v.addr 8 a)
    (hh' : Holds m' v'.addr 8 a') : a = a' := by
  obtain ⟨-, h0, x, qs, hf, hi⟩ := ho
  have cl : ∀ {i : Info}, ValueString.Spec.Object env db v i → i = .pointer ty := by
    rintro i ⟨-, -, y, q, hy, hy'⟩
    cases final_unique hy hf
    exact hy'.symm.trans hi
  have un : ∀ {m : Mem} {b n n' : Nat}, Holds m b 8 n → Holds m b 8 n' → n = n' := fun h1 h2 => holds_unique h1 h2
  cases h with
  | null _ _ h1 h2 => exact (un hh h1).trans (un hh' h2).symm
  | address _ _ _ h1 h2 => exact (un hh h1).trans (un hh' h2).symm
  | target h => cases h
  | enumeration h1 | number h1 | floating h1 | struct h1 | union h1 | unionMember h1 | array h1 | characters h1 => cases cl h1

/-- ... for a struct: each member of one and the same member of the other are alike. -/
theorem C112_structs {env : Env} {deep : Bool} {db : Db} {m m' : Mem} {o o' : List Value} {v v' : Value} {s : UInt64} {ms : List Ref}
    (h : Alike env deep db m m' o o' v v') (ho : ValueString.Spec.Object env db v (.struct .struct s ms)) (i : Nat) (w w' : Value)
    (hw : Member db v ms i w) (hw' : Member db v' ms i w') : Alike env deep db m m' (v :: o) (v' :: o') w w' := by
  obtain ⟨-, h0, x, qs, hf, hi⟩ := ho
  have cl : ∀ {i : Info}, ValueString.Spec.Object env db v i → i = .struct .struct s ms := by
    rintro i ⟨-, -, y, q, hy, hy'⟩
    cases final_unique hy hf
    exact hy'.symm.trans hi
  cases h with
  | struct h1 _ h => cases cl h1; exact h i w w' hw hw'
  | null h1 | address _ h1 | target _ h1 | enumeration h1 | number h1 | floating h1 | union h1 | unionMember h1 | array h1 | characters h1 => cases cl h1

/-! ### An instance -/

theorem demo_formats : Formats demoEnv where
  address := by
    intro a
    refine ⟨48, 120 :: List.replicate a 49, rfl, by unfold Digit; decide, ?_⟩
    intro x hx
    rcases List.mem_cons.mp hx with rfl | hx
    · left; unfold Letter; decide
    · rw [List.eq_of_mem_replicate hx]; right; unfold Digit; decide
  distinct := by
    intro a b h
    have h : 48 :: 120 :: List.replicate a (49 : UInt8) = 48 :: 120 :: List.replicate b 49 := h
    have := congrArg List.length h
    simpa using this
  number := fun t n => ⟨46, [], rfl, by unfold Follows; decide⟩
  ends := fun _ _ _ _ _ _ _ _ => rfl

theorem demo_reply {ev : Handlers.Event} {v : Value} {o : List Value} {w : Value} : ¬ Reply demoEnv ev v o (some w) := by
  intro h
  cases h with
  | reply h => cases h

/-- The types of `demo`, and the arrays printed for its pointers. -/
def types : Ref → Prop := fun r => r < 10 ∨ ∃ t c, (t = none ∨ t = some 7) ∧ (c = -1 ∨ c = 0 ∨ c = 1) ∧ r = demoDyn { info := .array t c }

theorem demo_infos (r : Ref) : (∀ u t, (demo r).info ≠ .param u t) ∧ (∀ t ps, (demo r).info ≠ .subprogram t ps ∧ (demo r).info ≠ .subroutine t ps) ∧
    (∀ s ms, (demo r).info ≠ .struct .union s ms) ∧ (∀ k s ms, (demo r).info = .struct k s ms → r = 7 ∧ ms = [2, 4, 6]) ∧ (∀ s e es, (demo r).info ≠ .enumeration s e es) ∧
    (∀ ty, (demo r).info = .pointer ty → r < 10 ∧ (ty = none ∨ ty = some 7)) ∧ (∀ mi, (demo r).info = .member mi → r < 10 ∧ (mi.type = some 0 ∨ mi.type = some 3 ∨ mi.type = some 5)) ∧
    (∀ e n, r < 10 → (demo r).info = .array e n → e = some 0 ∨ e = some 1) := by
  unfold demo
  split
  all_goals try simp
  all_goals (try omega)
  intro h; exact absurd (show 10 ≤ _ from Nat.le_add_left 10 _) (Nat.not_le.mpr h)

theorem types_final {r x : Ref} {qs : List Qual} (h : types r) (hx : Final demo r (some x) qs) : types x := by
  generalize hf : some x = f at hx
  induction hx with
  | here => cases hf; exact h
  | void => cases hf
  | @step r t f qs ha hx ih =>
    refine ih ?_ hf
    generalize ht : some t = u at ha
    have := demo_down r t
    cases ha with
    | member hm =>
      have h1 := ((demo_infos r).2.2.2.2.2.2.1 _ hm).2
      rw [← ht] at h1
      left
      rcases h1 with h1 | h1 | h1 <;> cases h1 <;> decide
    | typedef hm | var hm | param hm | qual hm => unfold demo at hm; split at hm <;> cases hm

theorem demo_member7 (mi : MemberInfo) : (demo 7).info ≠ .member mi := by intro h; cases h

theorem types_array {r : Ref} {e : Ref} {n : Int} (h : types r) (hi : (demo r).info = .array (some e) n) : e = 0 ∨ e = 1 ∨ e = 7 := by
  rcases h with h | ⟨t, c, ht, hc, rfl⟩
  · have := (demo_infos r).2.2.2.2.2.2.2 _ _ h hi
    rcases this with h | h <;> cases h
    · exact .inl rfl
    · exact .inr (.inl rfl)
  · have : demo (demoDyn { info := .array t c }) = { info := .array t c } := demo_interned t c hc
    rw [this] at hi
    cases hi
    rcases ht with h | h
    · cases h
    · cases h; exact .inr (.inr rfl)

theorem demo_dyn {t e : Option Ref} {c n : Int} {a : Nat} (hc : c = -1 ∨ c = 0 ∨ c = 1) (h : IsArray demo ⟨demoDyn { info := .array t c }, a⟩ e n) : e = t := by
  obtain ⟨-, x, qs, hx, hi⟩ := h
  cases final_unique hx (demo_array_final hc)
  have : demo (demoDyn { info := .array t c }) = { info := .array t c } := demo_interned t c hc
  rw [this] at hi
  cases hi
  rfl

theorem demo_types : DataTypes demoEnv demo types where
  data := fun r _ => (demo_infos r).1
  objects := fun _ x _ _ _ => (demo_infos x).2.1
  members := by
    intro r x qs k s ms _ _ h y hy
    obtain ⟨-, rfl⟩ := (demo_infos x).2.2.2.1 _ _ _ h
    left
    simp only [List.mem_cons, List.not_mem_nil, or_false] at hy
    rcases hy with rfl | rfl | rfl <;> decide
  elements := by
    intro r x qs e n h hx hi
    have := types_array (types_final h hx) hi
    refine ⟨.inl (by rcases this with rfl | rfl | rfl <;> decide), ?_⟩
    intro mi
    rcases this with rfl | rfl | rfl <;> intro h <;> cases h
  enumerators := fun _ x _ _ _ _ _ _ h => absurd h ((demo_infos x).2.2.2.2.1 _ _ _)
  unions := fun _ x _ _ _ _ _ h => absurd h ((demo_infos x).2.2.1 _ _)
  chosen := by
    rintro v o s ms w - ⟨-, -, x, -, -, h⟩
    exact absurd h ((demo_infos x).2.2.1 _ _)
  targets := by
    rintro v o ty a arr - ⟨-, -, x, -, -, h⟩ ht
    cases ht with
    | reply h => exact absurd h demo_reply
    | one _ hty =>
      subst hty
      exact .inr ⟨_, 1, ((demo_infos x).2.2.2.2.2.1 _ h).2, by decide, rfl⟩
  written := by
    rintro v v' o o' ty a a' arr arr' e e' n n' type - - - ht ht' ha ha' - -
    cases ht with
    | reply h => exact absurd h demo_reply
    | one _ hty =>
      cases ht' with
      | reply h => exact absurd h demo_reply
      | one _ hty' =>
        have := (demo_dyn (c := 1) (t := some _) (by decide) ha).trans (hty.symm.trans (hty'.trans (demo_dyn (c := 1) (t := some _) (by decide) ha').symm))
        exact Option.some.inj this
  counted := by
    rintro v o e arr - - hc e' n ha
    generalize hn : (-1 : Int) = k at hc
    cases hc with
    | known h => exact absurd hn.symm h
    | empty => exact demo_dyn (by decide) ha
    | reply _ h => exact absurd h demo_reply
  arrays := fun _ _ _ _ _ h => absurd rfl h
  answered := by
    rintro v o s ms - ⟨-, -, x, -, -, h⟩
    exact absurd h ((demo_infos x).2.2.1 _ _)

/-- `demoMem` with 2 for 1 at the address 100. -/
def otherMem : Mem := fun a => if a = 100 then some 2 else demoMem a

/-- The hypotheses of `C112_tells_partial` hold for pointers followed in deep mode ... -/
example (m : Mem) (h : valueString demoEnv true demo m (some ⟨8, 116⟩) = .ok (some demoPointerText)) :
    Alike demoEnv true demo demoMem m [] [] ⟨8, 116⟩ ⟨8, 116⟩ :=
  C112_tells_partial demoEnv true demo demo_sane demo_interned demo_honest demo_locale demo_clean demo_formats types demo_types demoMem m
    ⟨8, 116⟩ ⟨8, 116⟩ (.inl (by decide)) rfl demoPointerText
    ((C43_shown demoEnv true demo demo_sane demo_interned demo_honest demo_locale demoMem ⟨8, 116⟩ demoPointerText).2 demo_pointer) h

/-- ... and two structs that differ in one member are printed as different texts. -/
example : valueString demoEnv false demo demoMem (some ⟨7, 100⟩) = .ok (some demoText) ∧
    valueString demoEnv false demo otherMem (some ⟨7, 100⟩) ≠ .ok (some demoText) := by
  have h := (C43_shown demoEnv false demo demo_sane demo_interned demo_honest demo_locale demoMem ⟨7, 100⟩ demoText).2 (demo_shown false [])
  refine ⟨h, fun h' => ?_⟩
  have al := C112_tells_partial demoEnv false demo demo_sane demo_interned demo_honest demo_locale demo_clean demo_formats types demo_types demoMem otherMem
    ⟨7, 100⟩ ⟨7, 100⟩ (.inl (by decide)) rfl demoText h h'
  have ho : ValueString.Spec.Object demoEnv demo ⟨7, 100⟩ (.struct .struct 16 [2, 4, 6]) := ⟨demo_unpacked _ (by decide), by decide, 7, [], .here (demo_not 7 (by decide)), rfl⟩
  have hm : Member demo ⟨7, 100⟩ [2, 4, 6] 0 ⟨2, 100⟩ := ⟨2, _, rfl, rfl, rfl⟩
  have al2 := C112_structs al ho 0 _ _ hm hm
  have h1 : Value.Object demo demoMem ⟨2, 100⟩ .int 1 := demo_int (.inr rfl) (by decide) (demo_holds (by decide) (by decide))
  have h2 : Value.Object demo otherMem ⟨2, 100⟩ .int 2 := ⟨h1.type, h1.plain, h1.nonNull, ⟨by decide, by decide⟩, fun h => by cases h⟩
  have := C112_integers demo_sane.named al2 h1 h2 trivial
  cases this

end Verif.Tell
