import Verif.Lifecycle.Print
import Verif.Lifecycle.Props
import Verif.DeepCopy.Witness
/-
C104: a deep copy is printed as its source is.
-/
namespace Verif.Lifecycle
open Verif Verif.Entry Verif.Entry.Spec Verif.Value Verif.Value.Spec Verif.Handlers Verif.ValueString.Spec Verif.Deep.Spec Verif.DeepCopy.Spec Verif.Lifecycle.Spec
open Verif.Deep (Node Map Table)
open Verif.DeepCopy (State Setup Blocks copyEx place answers_untagged image memoryMap_tree)
open Verif.PrintString.Spec (Locale)

section
variable {env : DeepCopy.Env} {order : Table → Table} {mode : Deep.Mode} {db : Db}

/-- C104: if a copy of shared data succeeds, and the source was printed as a text, the copy is
printed as the same text.  `env'` are the handlers as they are after the copy: they say the same
of the copy as they said of the source.
Partial: as `C30_copy_partial` (see `Made`); and pointers that are not followed are kept (see
`Showable`). -/
theorem C104_print_partial (src dst : Value) (M : Map) (st st' : State) (h : Made env order mode db src dst M st st') (hsh : Showable env mode db st.m M)
    (hent : dst.entry = src.entry) (hl : Locale env.pr) :
    ∃ W, Copied env mode db st M dst st' W ∧ ∀ env', Answers env.deep env' W M.top dst → Honest env'.vs db → Printing env.vs env'.vs →
      ∀ t, ValueString.valueString env.vs true db st.m (some src) = .ok (some t) → ValueString.valueString env'.vs true db st'.m (some dst) = .ok (some t) := by
  obtain ⟨st₁, B, m', hv, S, g2, C, rfl⟩ := made_setup h
  refine ⟨place B, C, fun env' h4 h5 h6 t ht => ?_⟩
  have hin : Interned env'.vs db := fun t c hc => by
    show db (env'.dyn _) = _
    rw [h4.dyn]
    exact h.interned t c hc
  have hl' : Locale env'.vs.pr := by rw [h6.pr]; exact hl
  rw [ValueString.C43_shown _ _ _ h.sane h.interned h.honest hl] at ht
  rw [ValueString.C43_shown _ _ _ h.sane hin h5 hl']
  exact shown_copy S g2 C (.of g2 C) (.of h4) h.plain h.kept h6 hsh (by rw [hv]; exact hent) ht [] M.top dst rfl hv.symm .top

/-- C104: and it is printed so as long as the bytes in the destination and in the new blocks (and
what handlers say of the copy) are the same: whatever happens to the source or to other memory.
Partial: as `C104_print_partial`. -/
theorem C104_later_partial (src dst : Value) (M : Map) (st st' : State) (h : Made env order mode db src dst M st st') (hsh : Showable env mode db st.m M)
    (hent : dst.entry = src.entry) (hl : Locale env.pr) :
    ∃ W, Copied env mode db st M dst st' W ∧ ∀ env', Answers env.deep env' W M.top dst → ∀ env'' m, Still env' env'' W M.top dst → Honest env''.vs db → Printing env.vs env''.vs →
      SameCopy M dst W st'.m m →
      ∀ t, ValueString.valueString env.vs true db st.m (some src) = .ok (some t) → ValueString.valueString env''.vs true db m (some dst) = .ok (some t) := by
  obtain ⟨st₁, B, m', hv, S, g2, C, rfl⟩ := made_setup h
  refine ⟨place B, C, fun env' h4 env'' m h7 h5 h6 h8 t ht => ?_⟩
  have hin : Interned env''.vs db := fun t c hc => by
    show db (env''.dyn _) = _
    rw [h7.dyn, h4.dyn]
    exact h.interned t c hc
  have hl' : Locale env''.vs.pr := by rw [h6.pr]; exact hl
  rw [ValueString.C43_shown _ _ _ h.sane h.interned h.honest hl] at ht
  rw [ValueString.C43_shown _ _ _ h.sane hin h5 hl']
  exact shown_copy S g2 C (has_same S (.of g2 C) h8) (.still h4 h7) h.plain h.kept h6 hsh (by rw [hv]; exact hent) ht [] M.top dst rfl hv.symm .top

/-- C104: without a tag map: nothing is to be assumed of handlers.  Partial: as
`C104_print_partial`. -/
theorem C104_untagged_partial (ht : env.tags = none) (src dst : Value) (M : Map) (st st' : State) (h : Made env order mode db src dst M st st') (hsh : Showable env mode db st.m M)
    (hent : dst.entry = src.entry) (hl : Locale env.pr) (t : ValueString.Text) (hp : ValueString.valueString env.vs true db st.m (some src) = .ok (some t)) :
    ValueString.valueString env.vs true db st'.m (some dst) = .ok (some t) := by
  obtain ⟨W, _, h2⟩ := C104_print_partial src dst M st st' h hsh hent hl
  exact h2 env.deep (answers_untagged ht) h.honest ⟨rfl, rfl, rfl, rfl, Iff.rfl⟩ t hp

/-- C104: without a tag map, whatever happens to other memory.  Partial: as `C104_print_partial`. -/
theorem C104_later_untagged_partial (ht : env.tags = none) (src dst : Value) (M : Map) (st st' : State) (h : Made env order mode db src dst M st st') (hsh : Showable env mode db st.m M)
    (hent : dst.entry = src.entry) (hl : Locale env.pr) (t : ValueString.Text) (hp : ValueString.valueString env.vs true db st.m (some src) = .ok (some t)) :
    ∃ W, Copied env mode db st M dst st' W ∧ ∀ m, SameCopy M dst W st'.m m → ValueString.valueString env.vs true db m (some dst) = .ok (some t) := by
  obtain ⟨W, h1, h2⟩ := C104_later_partial src dst M st st' h hsh hent hl
  exact ⟨W, h1, fun m hm => h2 env.deep (answers_untagged ht) env.deep m ⟨rfl, rfl, rfl, fun _ _ _ _ _ _ h => h⟩ h.honest ⟨rfl, rfl, rfl, rfl, Iff.rfl⟩ hm t hp⟩
end

open Deep.World DeepCopy.World DeepCopy.Example
open Verif.Deep.Example (forms forms_ok mapOf)
open Verif.DeepCopy (comparableB comparable_of)

theorem showable {e : Ref} {m : Mem} {M : Map} (limit : Nat) (hM : mapOf strict m ⟨e, 100⟩ = some M) (h : comparableB e strict m = true) :
    Showable (copier forms limit) strict (world forms) m M where
  readable := (comparable_of limit hM h).readable
  reals := fun _ _ _ => rfl
  unknown := .inl rfl
  elements := by
    rintro r e c hr ⟨mi, h1, h2⟩
    rcases Nat.lt_or_ge e forms.length with hlt | hge
    · have key : ∀ e < forms.length, (match (world forms e).info with | .member mi => mi.bitOffset.isNone && mi.bitSize.isNone && mi.dataBitOffset.isNone | _ => true) = true := by decide
      have := key e hlt
      rw [h1] at this
      simp only [Bool.and_eq_true, Option.isNone_iff_eq_none, and_assoc] at this
      rcases h2 with h2 | h2 | h2
      · exact h2 this.1
      · exact h2 this.2.1
      · exact h2 this.2.2
    · unfold world at h1
      rw [List.getElem?_eq_none hge] at h1
      cases h1

theorem forms_unpacked (v : Value) : ¬ Packed (Deep.World.env forms).vs (world forms) v := by
  rintro ⟨u, t, h, _⟩
  rcases Nat.lt_or_ge v.entry forms.length with hlt | hge
  · have key : ∀ e < forms.length, (match (world forms e).info with | .param .. => false | _ => true) = true := by decide
    have := key _ hlt
    rw [h] at this
    cases this
  · unfold world at h
    rw [List.getElem?_eq_none hge] at h
    cases h

theorem forms_object {r f : Ref} {a : Nat} (h : fin (world forms) 100 r = some f) (ha : a ≠ 0) : Object (Deep.World.env forms).vs (world forms) ⟨r, a⟩ (world forms f).info := by
  obtain ⟨qs, hq⟩ := fin_sound h
  exact ⟨forms_unpacked _, ha, f, qs, hq, rfl⟩

theorem forms_int {m : Mem} {outer : List Value} {r : Ref} {a n : Nat} (h : fin (world forms) 100 r = some 1) (ha : a ≠ 0) (hb : ¬ IsBitfield (world forms) r) (hn : Holds m a 4 n) :
    Shown (Deep.World.env forms).vs true (world forms) m outer ⟨r, a⟩ (decimalInt (Mem.signed 4 n)) := by
  obtain ⟨qs, hq⟩ := fin_sound h
  have ho : Value.Object (world forms) m ⟨r, a⟩ .int n := ⟨⟨1, qs, hq, 4, 6, rfl, rfl, fun _ => rfl, fun _ => rfl⟩, hb, ha, hn, by simp⟩
  exact .base (s := 4) (e := 6) (forms_object h ha) (by rw [ValueString.object_text (world_sane forms_ok).named ho]; rfl)

/-- `{.n = NULL, .d = (int []){7,}, .x = 7, .e = 0,}`. -/
def ownText : ValueString.Text :=
  [123, 46, 110, 32, 61, 32, 78, 85, 76, 76, 44, 32, 46, 100, 32, 61, 32, 40, 105, 110, 116, 32, 91, 93, 41, 123, 55, 44, 125, 44, 32, 46, 120, 32, 61, 32, 55, 44, 32, 46, 101, 32, 61, 32, 48, 44, 125]

theorem node_shown {m : Mem} (hm0 : Holds m 100 8 0) (hm1 : Holds m 108 8 116) (hx : Holds m 116 4 7) (hm3 : Holds m 120 4 0) :
    Shown (Deep.World.env forms).vs true (world forms) m [] ⟨12, 100⟩ ownText := by
  have d7 : decimalInt (Mem.signed 4 7) = [55] := by
    rw [show Mem.signed 4 7 = 7 from rfl, decimalInt, if_neg (by decide), show Int.natAbs 7 = 7 from rfl, decimal]; rfl
  have d0 : decimalInt (Mem.signed 4 0) = [48] := by
    rw [show Mem.signed 4 0 = 0 from rfl, decimalInt, if_neg (by decide), show Int.natAbs 0 = 0 from rfl, decimal]; rfl
  have nobit : ∀ {r : Ref}, (match (world forms r).info with | .member mi => mi.bitOffset.isNone && mi.bitSize.isNone && mi.dataBitOffset.isNone | _ => true) = true → ¬ IsBitfield (world forms) r := by
    rintro r hr ⟨mi, h1, h2⟩
    rw [h1] at hr
    simp only [Bool.and_eq_true, Option.isNone_iff_eq_none, and_assoc] at hr
    rcases h2 with h2 | h2 | h2
    · exact h2 hr.1
    · exact h2 hr.2.1
    · exact h2 hr.2.2
  have ds : Shown (Deep.World.env forms).vs true (world forms) m [⟨12, 100⟩] ⟨9, 108⟩ [40, 105, 110, 116, 32, 91, 93, 41, 123, 55, 44, 125] := by
    have e (c : Int) (hc : c = -1 ∨ c = 0 ∨ c = 1) : world forms (dyn forms { info := .array (some 1) c }) = { info := .array (some 1) c } := world_interned forms (some 1) c hc
    have hfa : Final (world forms) (dyn forms { info := .array (some 1) 1 }) (some (dyn forms { info := .array (some 1) 1 })) [] := by
      refine .here fun u h => ?_
      cases h <;> rename_i h <;> rw [e 1 (by decide)] at h <;> cases h
    have ha : IsArray (world forms) ⟨dyn forms { info := .array (some 1) 1 }, 116⟩ (some 1) 1 := ⟨by decide, _, _, hfa, by rw [e 1 (by decide)]⟩
    have hs := Shown.array (env := (Deep.World.env forms).vs) (deep := true) (db := world forms) (m := m) (outer := [⟨9, 108⟩, ⟨12, 100⟩]) (v := ⟨dyn forms { info := .array (some 1) 1 }, 116⟩)
      (ws := [(⟨1, 116⟩, [55])]) (n' := 1) (e' := some 1) (n := 1) (e := some 1) ⟨forms_unpacked _, ha.1, ha.2⟩ (.known (by decide)) (.short ha (by decide)) ha rfl
      (by
        intro i w u h
        match i, h with
        | 0, h => cases h; exact ⟨1, 4, rfl, .stored (.base (n := 4) rfl), rfl⟩)
      (by
        intro w u h
        simp only [List.mem_cons, List.not_mem_nil, or_false, Prod.mk.injEq] at h
        obtain ⟨rfl, rfl⟩ := h
        rw [← d7]
        exact forms_int rfl (by decide) (nobit rfl) hx)
    have ht : TypeText (world forms) ((Deep.World.env forms).vs.dyn { info := .array (some 1) (-1) }) [105, 110, 116, 32, 91, 93] := by
      have h1 : CDecl.cdecl (world forms) 1 = .ok (some [105, 110, 116, 32, 37, 115]) := CDecl.no_dep rfl
      refine ⟨[105, 110, 116, 32, 37, 115, 91, 93], ?_, rfl⟩
      rw [CDecl.cdecl.eq_def]
      show Outcome.bind _ _ = _
      rw [show world forms ((Deep.World.env forms).vs.dyn { info := .array (some 1) (-1) }) = _ from e (-1) (by decide)]
      simp only [CDecl.deps, CDecl.dep, List.mapM_cons, h1, Outcome.bind_ok, Outcome.mapM_nil]
      rfl
    have hfr : Fresh (world forms) m [⟨12, 100⟩] 116 := by
      intro w hw x qs t hf hi
      simp only [List.mem_cons, List.not_mem_nil, or_false] at hw
      subst hw
      obtain ⟨qs', hq⟩ := fin_sound (show fin (world forms) 100 12 = some 12 from rfl)
      cases final_unique hf hq
      cases hi
    exact Shown.target (a := 116) (ty := some 1) rfl (forms_object (r := 9) (f := 5) (a := 108) rfl (by decide)) hm1 (by decide) hfr (.one (.noMap rfl) rfl) hs ha ht (by decide)
  refine .struct (ws := [(⟨8, 100⟩, [78, 85, 76, 76]), (⟨9, 108⟩, [40, 105, 110, 116, 32, 91, 93, 41, 123, 55, 44, 125]), (⟨10, 116⟩, [55]), (⟨11, 120⟩, [48])]) (s := 24) (ms := [8, 9, 10, 11]) (forms_object (r := 12) (f := 12) (a := 100) rfl (by decide)) rfl ?_ ?_ (.named rfl)
  · intro i w u h
    match i, h with
    | 0, h => cases h; exact ⟨8, _, rfl, rfl, rfl⟩
    | 1, h => cases h; exact ⟨9, _, rfl, rfl, rfl⟩
    | 2, h => cases h; exact ⟨10, _, rfl, rfl, rfl⟩
    | 3, h => cases h; exact ⟨11, _, rfl, rfl, rfl⟩
  · intro w u h
    simp only [List.mem_cons, List.not_mem_nil, or_false, Prod.mk.injEq] at h
    rcases h with ⟨rfl, rfl⟩ | ⟨rfl, rfl⟩ | ⟨rfl, rfl⟩ | ⟨rfl, rfl⟩
    · exact .null (ty := some 12) (forms_object (r := 8) (f := 7) (a := 100) rfl (by decide)) hm0
    · exact ds
    · rw [← d7]; exact forms_int rfl (by decide) (nobit rfl) hx
    · obtain ⟨qs, hq⟩ := fin_sound (show fin (world forms) 100 11 = some 6 from rfl)
      refine .enumeration (forms_object (r := 11) (f := 6) (a := 120) rfl (by decide)) ?_
      have hg := enum_get (m := m) (v := ⟨11, 120⟩) (n := 0) hq rfl (by decide) (by decide) hm3
      obtain ⟨_, h2, _⟩ := C19_enumerators (world forms) 11 6 qs 4 8 [] hq rfl
      rw [← d0]
      simp only [enumerationString, finalOf_some hq isEnum, show isEnum (world forms 6).info = true from rfl, if_true, Outcome.ofLoop_some, Outcome.bind_ok, hg, h2 _ (by simp)]
      rfl

theorem own_shown : Shown (Deep.World.env forms).vs true (world forms) own [] ⟨12, 100⟩ ownText :=
  node_shown ⟨by decide, by decide +kernel⟩ ⟨by decide, by decide +kernel⟩ ⟨by decide, by decide +kernel⟩ ⟨by decide, by decide +kernel⟩

/-- A double and a pointer to something unknown: `{.d = ., .p = 0x1,}`, and with `NULL`. -/
theorem mix_shown {m : Mem} {a n p : Nat} {t : ValueString.Text} (h0 : a ≠ 0) (hn : Holds m a 8 n) (hp : Holds m (a + 8) 8 p) (ht : p = 0 ∧ t = [78, 85, 76, 76] ∨ p ≠ 0 ∧ t = [48, 120, 49]) :
    Shown (Deep.World.env forms).vs true (world forms) m [] ⟨18, a⟩ ([123, 46, 100, 32, 61, 32, 46, 44, 32, 46, 112, 32, 61, 32] ++ t ++ [44, 125]) := by
  have := Shown.struct (env := (Deep.World.env forms).vs) (deep := true) (m := m) (outer := []) (ws := [(⟨16, a⟩, [46]), (⟨17, a + 8⟩, t)]) (s := 16) (ms := [16, 17])
    (forms_object (r := 18) (f := 18) (a := a) rfl h0) rfl ?_ ?_ (.named (n := [109]) rfl)
  · rcases ht with ⟨_, rfl⟩ | ⟨_, rfl⟩ <;> exact this
  · intro i w u h
    match i, h with
    | 0, h => cases h; exact ⟨16, _, rfl, rfl, rfl⟩
    | 1, h => cases h; exact ⟨17, _, rfl, rfl, rfl⟩
  · intro w u h
    simp only [List.mem_cons, List.not_mem_nil, or_false, Prod.mk.injEq] at h
    rcases h with ⟨rfl, rfl⟩ | ⟨rfl, rfl⟩
    · obtain ⟨qs, hq⟩ := fin_sound (show fin (world forms) 100 16 = some 2 from rfl)
      have ho : Value.Object (world forms) m ⟨16, a⟩ .double n := ⟨⟨2, qs, hq, 8, 5, rfl, rfl, fun _ => rfl, fun _ => rfl⟩, by
        rintro ⟨mi, h1, h2⟩
        cases h1
        simp at h2, h0, hn, by simp⟩
      exact .base (s := 8) (e := 5) (forms_object (r := 16) (f := 2) rfl h0) (by rw [ValueString.object_text (world_sane forms_ok).named ho]; rfl)
    · have hpo : Object (Deep.World.env forms).vs (world forms) ⟨17, a + 8⟩ (.pointer none) := forms_object (r := 17) (f := 4) rfl (by omega)
      rcases ht with ⟨rfl, rfl⟩ | ⟨h1, rfl⟩
      · exact .null hpo hp
      · refine .void rfl hpo hp h1 ?_ (.noMap rfl)
        intro w hw x qs t hf hi
        simp only [List.mem_cons, List.not_mem_nil, or_false] at hw
        subst hw
        obtain ⟨qs', hq⟩ := fin_sound (show fin (world forms) 100 18 = some 18 from rfl)
        cases final_unique hf hq
        cases hi

theorem ascii : Locale (copier forms 9).pr := by
  intro c h
  have h : 32 ≤ c ∧ c < 127 := of_decide_eq_true h
  rintro (h' | h')
  · exact absurd h' (by simpa using h.1)
  · subst h'; exact absurd h.2 (by decide)

/-- C104: pointers to something unknown must be kept: if the copy drops them, the source and the
copy are printed, and not as the same text. -/
theorem C104_unknown_false : ∃ M st' t t', Made (copier forms 9) id drop (world forms) ⟨18, 100⟩ ⟨18, 600⟩ M ⟨DeepCopy.mix, []⟩ st' ∧
    ValueString.valueString (copier forms 9).vs true (world forms) DeepCopy.mix (some ⟨18, 100⟩) = .ok (some t) ∧
    ValueString.valueString (copier forms 9).vs true (world forms) st'.m (some ⟨18, 600⟩) = .ok (some t') ∧ t ≠ t' := by
  obtain ⟨M, st', hM, h⟩ := made (e := 18) (mode := drop) (m := DeepCopy.mix) (L := []) (CDecl.no_dep rfl) rfl (by decide +kernel)
  obtain ⟨st₁, B, m', hv, S, g2, C, rfl⟩ := made_setup h
  have hx : (match mapOf drop DeepCopy.mix ⟨18, 100⟩ with | none => false | some M => DeepCopy.Example.same M.top (.mk 2 ⟨18, 100⟩ 16 0 false [.mk 0 ⟨16, 100⟩ 8 0 false [], .mk 1 ⟨17, 108⟩ 8 0 false []])) = true := by
    decide +kernel
  rw [hM] at hx
  have hx := DeepCopy.Example.same_eq hx
  have c1 := Copy.part (y := .mk 0 ⟨16, 100⟩ 8 0 false []) (Copy.top (W := place B) (k := M.top) (dst := ⟨18, 600⟩)) (by rw [hx]; rfl) (by rw [hx]; simp [Node.kids])
  have c2 := Copy.part (y := .mk 1 ⟨17, 108⟩ 8 0 false []) (Copy.top (W := place B) (k := M.top) (dst := ⟨18, 600⟩)) (by rw [hx]; rfl) (by rw [hx]; simp [Node.kids])
  have hd : Holds DeepCopy.mix 100 8 (2 ^ 62 + 5) := ⟨by decide, by decide +kernel⟩
  have hp : Holds DeepCopy.mix 108 8 400 := ⟨by decide, by decide +kernel⟩
  obtain ⟨qs, hq⟩ := fin_sound (show fin (world forms) 100 16 = some 2 from rfl)
  obtain ⟨qs', hq'⟩ := fin_sound (show fin (world forms) 100 17 = some 4 from rfl)
  have ho : Value.Object (world forms) DeepCopy.mix ⟨16, 100⟩ .double (2 ^ 62 + 5) := ⟨⟨2, qs, hq, 8, 5, rfl, rfl, fun _ => rfl, fun _ => rfl⟩, by
        rintro ⟨mi, h1, h2⟩
        cases h1
        simp at h2, by decide, hd, by simp⟩
  have v1 := C.values _ _ _ _ _ c1 (.number ho rfl)
  have v2 := C.values _ _ _ _ _ c2 (.dropped (t := none) (p := 400) ⟨4, qs', hq', rfl⟩ hp (by decide) rfl rfl rfl)
  rw [hx] at v1 v2
  have k1 := DeepCopy.holds_of_field (n := 8) (a := 600) v1
  have k2 := DeepCopy.holds_of_field (n := 8) (a := 608) v2
  refine ⟨M, _, _, _, h, (ValueString.C43_shown _ true _ h.sane h.interned h.honest ascii _ _ _).2 (mix_shown (by decide) hd hp (.inr ⟨by decide, rfl⟩)),
    (ValueString.C43_shown _ true _ h.sane h.interned h.honest ascii _ _ _).2 (mix_shown (by decide) k1 k2 (.inl ⟨rfl, rfl⟩)), by decide⟩

/-- C104: a node whose data is its own number is copied, and the copy is printed as it is. -/
example : ∃ M st', Made (copier forms 9) id strict (world forms) ⟨12, 100⟩ ⟨12, 600⟩ M ⟨own, []⟩ st' ∧
    ValueString.valueString (copier forms 9).vs true (world forms) own (some ⟨12, 100⟩) = .ok (some ownText) ∧
    ValueString.valueString (copier forms 9).vs true (world forms) st'.m (some ⟨12, 600⟩) = .ok (some ownText) := by
  obtain ⟨M, st', hM, h⟩ := made (e := 12) (mode := strict) (m := own) (L := []) node_cdecl rfl (by decide +kernel)
  have hp := (ValueString.C43_shown _ true _ h.sane h.interned h.honest ascii own ⟨12, 100⟩ ownText).2 own_shown
  exact ⟨M, st', h, hp, C104_untagged_partial rfl _ _ M _ st' h (showable 9 hM (by decide +kernel)) rfl ascii _ hp⟩

/-- C104: ... and is still printed so when all bytes of the node are overwritten. -/
example : ∃ M st', Made (copier forms 9) id strict (world forms) ⟨12, 100⟩ ⟨12, 600⟩ M ⟨own, []⟩ st' ∧
    ValueString.valueString (copier forms 9).vs true (world forms) (fun a => if a < 600 ∧ own a ≠ none then some 255 else st'.m a) (some ⟨12, 600⟩) = .ok (some ownText) := by
  obtain ⟨M, st', hM, h⟩ := made (e := 12) (mode := strict) (m := own) (L := []) node_cdecl rfl (by decide +kernel)
  have hp := (ValueString.C43_shown _ true _ h.sane h.interned h.honest ascii own ⟨12, 100⟩ ownText).2 own_shown
  obtain ⟨W, C, h2⟩ := C104_later_untagged_partial rfl _ _ M _ st' h (showable 9 hM (by decide +kernel)) rfl ascii _ hp
  exact ⟨M, st', h, h2 _ ⟨fun i _ => if_neg fun hc => Nat.not_lt.mpr (Nat.le_add_right 600 i) hc.1, fun a n hl i hi => if_neg fun hc => hc.2 ((C.fresh a n hl).1 i (by omega))⟩⟩
end Verif.Lifecycle
