import Verif.SameText.Main
import Verif.Lifecycle.PropsPrint
/-
C113: values that are found equal are printed as the same text.
-/
namespace Verif.SameText
open Verif Verif.Entry Verif.Entry.Spec Verif.Value Verif.Value.Spec Verif.Handlers Verif.ValueString.Spec Verif.PrintString.Spec Verif.Deep.Spec Verif.SameText.Spec
open Verif.Deep (Node Map Table memoryMap equalEx)
open Verif.ValueString (valueString)

section
variable {env : Deep.Env} {order : Table → Table} {mode : Deep.Mode} {db : Db} {m : Mem}

/-- C113: if two values of one type are found equal, and the first is printed (with what it points
to) as a text, then the second is printed as the same text.
Partial: of data as described (`Data`; else it is false: `C113_ignored_false`, `C113_zero_false`),
if handlers say the same of both. -/
theorem C113_equal_partial (hs : Sane db) (hin : Interned env.vs db) (hh : Honest env.vs db) (hva : VaLists env db) (ho : Order order) (hl : Locale env.pr)
    (v₁ v₂ : Value) (he : v₁.entry = v₂.entry) (M₁ M₂ : Map) (h₁ : memoryMap env order mode db m (some v₁) = .ok (some M₁)) (h₂ : memoryMap env order mode db m (some v₂) = .ok (some M₂))
    (hr₁ : Readable env.cfg mode db m M₁.top) (hr₂ : Readable env.cfg mode db m M₂.top) (D : Data env mode db M₁ M₂) (R : AlikeReplies env mode db m M₁ M₂)
    (heq : equalEx env order mode db m (some v₁) (some v₂) = .ok 1) (t : ValueString.Text) (ht : valueString env.vs true db m (some v₁) = .ok (some t)) :
    valueString env.vs true db m (some v₂) = .ok (some t) := by
  obtain ⟨r, hr, _, h1, _⟩ := Deep.C31_equal_partial hs hin hh hva ho v₁ v₂ M₁ M₂ h₁ h₂ hr₁ hr₂
  rw [hr] at heq
  have A := h1.mp (Outcome.ok.inj heq)
  obtain ⟨t₁, e₁, _⟩ := Deep.map_facts hs hin hh ho h₁
  obtain ⟨t₂, e₂, _⟩ := Deep.map_facts hs hin hh ho h₂
  rw [ValueString.C43_shown _ _ _ hs hin hh hl] at ht ⊢
  rw [← e₂]
  exact shown_alike hs hh A D R ht _ _ _ e₁.symm ⟨.top, t₁, t₂, .inl (by rw [e₁, e₂, he])⟩

theorem alike_untagged (ht : env.tags = none) (M₁ M₂ : Map) : AlikeReplies env mode db m M₁ M₂ := by
  have key : ∀ {ev v o r}, Reply env.vs ev v o r → r = none := fun h => Lifecycle.reply_unique h (.noMap ht)
  exact ⟨fun _ _ _ _ _ _ _ _ _ h h' => .inl ⟨key h, key h'⟩, fun _ _ _ _ _ _ _ _ _ h h' => .inl ⟨key h, key h'⟩, fun _ _ _ _ _ _ _ _ _ h h' => .inl ⟨key h, key h'⟩,
    fun _ _ _ _ _ _ _ _ _ _ => ⟨none, .noMap ht⟩⟩

/-- C113: without a tag map nothing is to be assumed of handlers.  Partial: as `C113_equal_partial`. -/
theorem C113_untagged_partial (htags : env.tags = none) (hs : Sane db) (hin : Interned env.vs db) (hh : Honest env.vs db) (hva : VaLists env db) (ho : Order order) (hl : Locale env.pr)
    (v₁ v₂ : Value) (he : v₁.entry = v₂.entry) (M₁ M₂ : Map) (h₁ : memoryMap env order mode db m (some v₁) = .ok (some M₁)) (h₂ : memoryMap env order mode db m (some v₂) = .ok (some M₂))
    (hr₁ : Readable env.cfg mode db m M₁.top) (hr₂ : Readable env.cfg mode db m M₂.top) (D : Data env mode db M₁ M₂)
    (heq : equalEx env order mode db m (some v₁) (some v₂) = .ok 1) (t : ValueString.Text) (ht : valueString env.vs true db m (some v₁) = .ok (some t)) :
    valueString env.vs true db m (some v₂) = .ok (some t) :=
  C113_equal_partial hs hin hh hva ho hl v₁ v₂ he M₁ M₂ h₁ h₂ hr₁ hr₂ D (alike_untagged htags M₁ M₂) heq t ht

/-- C113: so values that are printed as different texts are not found equal.  Partial: as
`C113_equal_partial`. -/
theorem C113_different_partial (hs : Sane db) (hin : Interned env.vs db) (hh : Honest env.vs db) (hva : VaLists env db) (ho : Order order) (hl : Locale env.pr)
    (v₁ v₂ : Value) (he : v₁.entry = v₂.entry) (M₁ M₂ : Map) (h₁ : memoryMap env order mode db m (some v₁) = .ok (some M₁)) (h₂ : memoryMap env order mode db m (some v₂) = .ok (some M₂))
    (hr₁ : Readable env.cfg mode db m M₁.top) (hr₂ : Readable env.cfg mode db m M₂.top) (D : Data env mode db M₁ M₂) (R : AlikeReplies env mode db m M₁ M₂)
    (t t' : ValueString.Text) (ht : valueString env.vs true db m (some v₁) = .ok (some t)) (ht' : valueString env.vs true db m (some v₂) = .ok (some t')) (hne : t ≠ t') :
    ∃ r : Int, equalEx env order mode db m (some v₁) (some v₂) = .ok r ∧ r ≠ 1 := by
  obtain ⟨r, hr, _⟩ := Deep.C31_equal_partial hs hin hh hva ho v₁ v₂ M₁ M₂ h₁ h₂ hr₁ hr₂
  refine ⟨r, hr, fun h1 => hne ?_⟩
  subst h1
  have := C113_equal_partial hs hin hh hva ho hl v₁ v₂ he M₁ M₂ h₁ h₂ hr₁ hr₂ D R hr t ht
  rw [ht'] at this
  simpa using this.symm
end

/-! ### Concrete data -/

open Deep.World
open Verif.Deep.Example (forms forms_ok mapOf read_map equal_of valued mixed)

theorem ascii : Locale (Deep.World.env forms).pr := by
  intro c h
  have h : 32 ≤ c ∧ c < 127 := of_decide_eq_true h
  rintro (h' | h')
  · exact absurd h' (by simpa using h.1)
  · subst h'; exact absurd h.2 (by decide)

theorem forms_data (M₁ M₂ : Map) : Data (Deep.World.env forms) valued (world forms) M₁ M₂ where
  calls x _ := by
    have key : ∀ e < forms.length, (match (world forms e).info with | .subprogram .. => false | .subroutine .. => false | _ => true) = true := by decide
    have key' : ∀ e, (match (world forms e).info with | .subprogram .. => false | .subroutine .. => false | _ => true) = true := by
      intro e
      rcases Nat.lt_or_ge e forms.length with hlt | hge
      · exact key e hlt
      · unfold world
        rw [List.getElem?_eq_none hge]
    refine ⟨Lifecycle.forms_unpacked _, ?_, ?_⟩
    · rintro t ps ⟨f, qs, _, h⟩
      have := key' f
      rw [h] at this
      cases this
    · rintro t ps ⟨f, qs, _, h⟩
      have := key' f
      rw [h] at this
      cases this
  asValues := rfl
  complete x e _ _ := by
    rcases Nat.lt_or_ge e forms.length with hlt | hge
    · have key : ∀ e < forms.length, (world forms e).declaration = false := by decide
      exact key e hlt
    · unfold world
      rw [List.getElem?_eq_none hge]
  reals _ _ _ _ := rfl
  elements := by
    rintro r e c hr ⟨mi, h1, h2⟩
    rcases Nat.lt_or_ge e forms.length with hlt | hge
    · have key : ∀ e < forms.length, (match (world forms e).info with | .member mi => mi.bitOffset.isNone && mi.bitSize.isNone && mi.dataBitOffset.isNone | _ => true) = true := by decide
      have := key e hlt
      rw [h1] at this
      simp only [Bool.and_eq_true, Option.isNone_iff_eq_none, and_assoc] at this
      rcases h2 with h2 | h2 | h2
      · exact h2 this.1
      · exact h2 this.2.1
      · exact h2 this.2.2
    · unfold world at h1
      rw [List.getElem?_eq_none hge] at h1
      cases h1
  chars r s e h1 h2 := by
    rcases Nat.lt_or_ge r forms.length with hlt | hge
    · have key : ∀ e < forms.length, (world forms e).name ≠ some [99, 104, 97, 114] := by decide
      exact absurd h2 (key r hlt)
    · unfold world at h1
      rw [List.getElem?_eq_none hge] at h1
      cases h1

/-- Nodes at 100 and 200 whose data is their own number. -/
def two : Mem := words [(100, 0), (108, 116), (116, 7), (200, 0), (208, 216), (216, 7)]

/-- C113: the nodes are found equal, and printed as the same text. -/
example : equalEx (Deep.World.env forms) id valued (world forms) two (some ⟨12, 100⟩) (some ⟨12, 200⟩) = .ok 1 ∧
    valueString (Deep.World.env forms).vs true (world forms) two (some ⟨12, 100⟩) = .ok (some Lifecycle.ownText) ∧
    valueString (Deep.World.env forms).vs true (world forms) two (some ⟨12, 200⟩) = .ok (some Lifecycle.ownText) := by
  have e := equal_of (mode := valued) (m := two) (v := ⟨12, 100⟩) (w := ⟨12, 200⟩) (by decide +kernel) (by decide +kernel) (by decide +kernel)
  obtain ⟨M₁, _, h₁, r₁⟩ := read_map (mode := valued) (m := two) (v := ⟨12, 100⟩) (by decide +kernel)
  obtain ⟨M₂, _, h₂, r₂⟩ := read_map (mode := valued) (m := two) (v := ⟨12, 200⟩) (by decide +kernel)
  have t : valueString (Deep.World.env forms).vs true (world forms) two (some ⟨12, 100⟩) = .ok (some Lifecycle.ownText) :=
    (ValueString.C43_shown _ true _ (world_sane forms_ok) (world_interned _) (world_honest _) ascii _ _ _).2
      (Lifecycle.node_shown ⟨by decide, by decide +kernel⟩ ⟨by decide, by decide +kernel⟩ ⟨by decide, by decide +kernel⟩ ⟨by decide, by decide +kernel⟩)
  exact ⟨e, t, C113_untagged_partial rfl (world_sane forms_ok) (world_interned _) (world_honest _) (world_vaLists _) Deep.Example.id_order ascii ⟨12, 100⟩ ⟨12, 200⟩ rfl M₁ M₂ h₁ h₂ r₁ r₂ (forms_data M₁ M₂) e _ t⟩

/-- C113 is false if pointers that are not followed are ignored: `NULL` and an address are found
equal and printed differently. -/
theorem C113_ignored_false : ∃ t t', equalEx (Deep.World.env forms) id Deep.Example.mode (world forms) mixed (some ⟨18, 100⟩) (some ⟨18, 116⟩) = .ok 1 ∧
    valueString (Deep.World.env forms).vs true (world forms) mixed (some ⟨18, 100⟩) = .ok (some t) ∧
    valueString (Deep.World.env forms).vs true (world forms) mixed (some ⟨18, 116⟩) = .ok (some t') ∧ t ≠ t' :=
  ⟨_, _, Deep.C31_null_false.1,
    (ValueString.C43_shown _ true _ (world_sane forms_ok) (world_interned _) (world_honest _) ascii _ _ _).2
      (Lifecycle.mix_shown (n := 0) (by decide) ⟨by decide, by decide +kernel⟩ Deep.C31_null_false.2.1 (.inl ⟨rfl, rfl⟩)),
    (ValueString.C43_shown _ true _ (world_sane forms_ok) (world_interned _) (world_honest _) ascii _ _ _).2
      (Lifecycle.mix_shown (n := 2 ^ 63) (by decide) ⟨by decide, by decide +kernel⟩ Deep.C31_null_false.2.2 (.inr ⟨by decide, rfl⟩)), by decide⟩

/-- Numbers are printed with their sign. -/
def signs : Deep.Env := { Deep.World.env forms with flt := fun _ n => if n < 2 ^ 63 then [48] else [45, 48] }

theorem signs_honest : Honest signs.vs (world forms) := by
  intro v o w h
  have : some w = none := Lifecycle.reply_unique h (.noMap rfl)
  cases this

/-- Zero at 100 and minus zero at 200. -/
def zeros : Mem := words [(100, 0), (200, 2 ^ 63)]

theorem zeros_map {a n : Nat} (ha : a ≠ 0) (hn : Holds zeros a 8 n) (h1 : n ≠ 2 ^ 64) : ∃ M,
    memoryMap signs id valued (world forms) zeros (some ⟨2, a⟩) = .ok (some M) ∧ M.top = .mk 0 ⟨2, a⟩ 8 0 false [] ∧ M.offset 0 = 0 ∧
    Readable signs.cfg valued (world forms) zeros M.top ∧ Content signs.cfg (world forms) zeros ⟨2, a⟩ (.real .double n) ∧
    valueString signs.vs true (world forms) zeros (some ⟨2, a⟩) = .ok (some (if n < 2 ^ 63 then [48] else [45, 48])) := by
  obtain ⟨qs, hq⟩ := fin_sound (show fin (world forms) 100 2 = some 2 from rfl)
  have hob : Value.Object (world forms) zeros ⟨2, a⟩ .double n := ⟨⟨2, qs, hq, 8, 5, rfl, rfl, fun _ => rfl, fun _ => rfl⟩, by
    (rintro ⟨mi, h1, _⟩; cases h1), ha, hn, by simp⟩
  have hc : Content signs.cfg (world forms) zeros ⟨2, a⟩ (.real .double n) := .real hob (by intro h; cases h)
  have ho : Object signs.vs (world forms) ⟨2, a⟩ (.base 8 5) := ⟨Lifecycle.forms_unpacked ⟨2, a⟩, ha, 2, qs, hq, rfl⟩
  have ht : Tree signs valued (world forms) zeros [] (.mk 0 ⟨2, a⟩ 8 0 false []) := .leaf (.base ho (.stored (.base (n := 8) rfl)))
  obtain ⟨offs, g1, g2⟩ := DeepCopy.memoryMap_tree (env := signs) (order := id) (world_sane forms_ok) (world_interned forms) signs_honest Deep.Example.id_order rfl ht
  cases g1
  have hin : ∀ x, Within (Node.mk 0 ⟨2, a⟩ 8 0 false []) x → x = .mk 0 ⟨2, a⟩ 8 0 false [] := by
    intro x h
    generalize hk : Node.mk 0 (⟨2, a⟩ : Value) 8 0 false [] = k at h
    induction h with
    | top => rfl
    | part _ hy ih => rw [ih, ← hk] at hy; cases hy
  refine ⟨_, g2, rfl, rfl, ⟨?_, ?_, ?_, ?_⟩, hc, ?_⟩
  · intro x hx
    rw [hin x hx]
    exact ha
  · intro x hx _
    rw [hin x hx]
    exact ⟨_, hc⟩
  · rintro _ x hx _ ⟨t, ht⟩
    rw [hin x hx] at ht
    cases Deep.typed_unique ht ho.2.2
  · rintro _ x hx _ ⟨s, ms, ht⟩
    rw [hin x hx] at ht
    cases Deep.typed_unique ht ho.2.2
  · rw [ValueString.C43_shown signs.vs true _ (world_sane forms_ok) (world_interned forms) signs_honest ascii]
    exact .base ho (by rw [ValueString.object_text (world_sane forms_ok).named hob]; rfl)

/-- C113 is false of floating-point numbers: zero and minus zero are found equal, and printed with
their signs. -/
theorem C113_zero_false : ∃ t t', equalEx signs id valued (world forms) zeros (some ⟨2, 100⟩) (some ⟨2, 200⟩) = .ok 1 ∧
    valueString signs.vs true (world forms) zeros (some ⟨2, 100⟩) = .ok (some t) ∧
    valueString signs.vs true (world forms) zeros (some ⟨2, 200⟩) = .ok (some t') ∧ t ≠ t' := by
  obtain ⟨M₁, a1, a2, a3, a4, a5, a6⟩ := zeros_map (a := 100) (n := 0) (by decide) ⟨by decide, by decide +kernel⟩ (by decide)
  obtain ⟨M₂, b1, b2, b3, b4, b5, b6⟩ := zeros_map (a := 200) (n := 2 ^ 63) (by decide) ⟨by decide, by decide +kernel⟩ (by decide)
  obtain ⟨r, hr, _, h1, _⟩ := Deep.C31_equal_partial (env := signs) (order := id) (world_sane forms_ok) (world_interned forms) signs_honest (fun _ h => by cases h) Deep.Example.id_order _ _ M₁ M₂ a1 b1 a4 b4
  have : r = 1 := h1.mpr (by
    intro x y hp
    have hxy : x = .mk 0 ⟨2, 100⟩ 8 0 false [] ∧ y = .mk 0 ⟨2, 200⟩ 8 0 false [] := by
      rw [a2, b2] at hp
      generalize hk : Node.mk 0 (⟨2, 100⟩ : Value) 8 0 false [] = k at hp
      generalize hk' : Node.mk 0 (⟨2, 200⟩ : Value) 8 0 false [] = k' at hp
      induction hp with
      | top => exact ⟨rfl, rfl⟩
      | part _ hy _ ih => rw [ih.1, ← hk] at hy; cases hy
    obtain ⟨rfl, rfl⟩ := hxy
    obtain ⟨qs, hq⟩ := fin_sound (show fin (world forms) 100 2 = some 2 from rfl)
    refine ⟨rfl, rfl, rfl, a3.trans b3.symm, .same hq hq trivial, fun _ => ⟨_, _, a5, b5, rfl, by decide +kernel⟩, ?_, ?_⟩
    · rintro _ _ ⟨t, f, q, h, hi⟩
      cases final_unique h hq
      cases hi
    · rintro _ _ ⟨s, ms, f, q, h, hi⟩
      cases final_unique h hq
      cases hi)
  subst this
  exact ⟨_, _, hr, a6, b6, by decide⟩

end Verif.SameText
