import Verif.Trace.Spec
import Verif.WrapCall.Props
import Verif.Handles.Values
/-
Lemmas for traced calls.
-/
namespace Verif.Trace
open Verif Verif.Entry Verif.ParamStorage Verif.ParamStorage.Spec Verif.Handles Verif.Heap Verif.Trace.Spec
open Verif.WrapCall.Spec (text Slot AllFilled Declares Handled Call)

variable {W R : Type}

theorem alloc_next {h h' : Heap} {b : Option Nat} (e : h.alloc = (b, h')) : h'.next = h.next + 1 ∧ h'.fails = h.fails := by
  unfold Heap.alloc at e
  split at e <;> (simp only [Prod.mk.injEq] at e; obtain ⟨-, rfl⟩ := e; exact ⟨rfl, rfl⟩)

/-- A handle with an entry of the database is one block. -/
theorem static_new (db : Db) (e : Option Ref) (addr : Nat) {base : Nat → Bool} {h : Heap} {rest : List Nat} (o : Owns base h rest) :
    ∃ v h', newHandle db (e.map .static) addr h = .ok (v, h') ∧ h'.fails = h.fails ∧ (addr ≠ 0 → h'.next = h.next + 1) ∧ (v = none → Owns base h' rest) ∧
      (∀ x, v = some x → addr ≠ 0 ∧ x.entry = e.map .static ∧ Owns base h' (x.block :: rest)) ∧ (addr ≠ 0 → (∀ k, h.fails k = false) → v ≠ none) := by
  unfold newHandle
  by_cases ha : addr = 0
  · simp only [ha, if_true]
    exact ⟨none, h, rfl, rfl, by simp, fun _ => o, by simp, by simp⟩
  · simp only [ha, if_false]
    match ea : h.alloc with
    | (none, h1) =>
      obtain ⟨o1, f1, k, hk⟩ := o.alloc_none ea
      exact ⟨none, h1, rfl, f1, fun _ => (alloc_next ea).1, fun _ => o1, by simp, fun _ hf => by rw [hf] at hk; cases hk⟩
    | (some b, h1) =>
      obtain ⟨o1, f1⟩ := o.alloc_some ea
      refine ⟨some ⟨b, e.map .static, addr⟩, h1, ?_, f1, fun _ => (alloc_next ea).1, by simp, ?_, by simp⟩
      · cases e <;> simp [initValue, isDynamic]
      · rintro x ⟨⟩
        exact ⟨by simpa using ha, rfl, o1⟩

theorem static_delete {v : Handle} {e : Option Ref} (he : v.entry = e.map .static) {base : Nat → Bool} {h : Heap} {rest : List Nat} (o : Owns base h (v.block :: rest)) :
    ∃ h', deleteHandle (some v) h = .ok h' ∧ Owns base h' rest ∧ h'.fails = h.fails := by
  have hl : h.live v.block = true := by rw [o.live]; simp
  obtain ⟨h', e1, o1, f1⟩ := o.free
  refine ⟨h', ?_, o1, f1⟩
  simp only [deleteHandle, hl, Bool.not_true, if_false, Bool.false_eq_true, he]
  cases e <;> simp [isDynamic, e1]

/-- The blocks of a text. -/
def textBlocks (s : Option (Text × Nat)) : List Nat := s.toList.map (·.2)

theorem string_ok {t : Outcome (Option Text)} {o : Option Text} (ht : t = .ok o) {base : Nat → Bool} {h : Heap} {rest : List Nat} (ow : Owns base h rest) :
    ∃ s h', string t h = .ok (s, h') ∧ h'.fails = h.fails ∧ Owns base h' (textBlocks s ++ rest) ∧ (s.map (·.1) = o ∨ s = none ∧ ∃ k, h.fails k = true) := by
  subst ht
  cases o with
  | none => exact ⟨none, h, rfl, rfl, ow, .inl rfl⟩
  | some t =>
    simp only [string, Outcome.bind_ok]
    match ea : h.alloc with
    | (none, h1) =>
      obtain ⟨o1, f1, k, hk⟩ := ow.alloc_none ea
      exact ⟨none, h1, rfl, f1, o1, .inr ⟨rfl, k, hk⟩⟩
    | (some b, h1) =>
      obtain ⟨o1, f1⟩ := ow.alloc_some ea
      exact ⟨some (t, b), h1, rfl, f1, o1, .inl rfl⟩

theorem freeText_ok (s : Option (Text × Nat)) {base : Nat → Bool} {h : Heap} {rest : List Nat} (o : Owns base h (textBlocks s ++ rest)) :
    ∃ h', freeText s h = .ok h' ∧ Owns base h' rest ∧ h'.fails = h.fails := by
  cases s with
  | none => exact ⟨h, rfl, o, rfl⟩
  | some s => exact Owns.free o

/-- The blocks of a storage. -/
def storageBlocks : Option Sto → List Nat
  | none => []
  | some s => s.block :: ownedL s.items

/-- What `start` leaves: perhaps a handle, perhaps a storage. -/
structure Started (e : Option Ref) (v : Option Handle) (st : Option Sto) (base : Nat → Bool) (h : Heap) : Prop where
  empty : st = none → v = none
  entry : ∀ x, v = some x → x.entry = e.map .static
  good : ∀ s, st = some s → GoodL s.items ∧ s.size = s.items.length ∧ s.last = (s.items.getLast?).map Item.node
  owns : Owns base h (v.toList.map (·.block) ++ storageBlocks st)

theorem Started.same {e : Option Ref} {v : Option Handle} {st : Option Sto} {base : Nat → Bool} {h h' : Heap} (s : Started e v st base h)
    (o : Owns base h' (v.toList.map (·.block) ++ storageBlocks st)) : Started e v st base h' :=
  ⟨s.empty, s.entry, s.good, o⟩

theorem start_ok {p : Prog W R} {F : Ref → List WrapCall.Arg → List View → Prop} (hh : Handled F p.env p.db p.tags) {entry : Ref} {ps : List Ref} (he : p.entry = some entry) (hd : Declares p.db entry ps)
    {w w1 : W} {as : List WrapCall.Arg} (ha : p.args w = .ok (as, w1)) {slots : List Slot} {complete : Bool} (hcall : Call p.env p.db p.tags ps as slots complete) {h : Heap} (ho : h.Ok)
    (hs : h.fails h.next = false) (hiter : h.fails (h.next + 2) = false) :
    ∃ v st h', start p w h = .ok (v, some st, w1, h') ∧ Started p.entry v (some st) h.live h' ∧ h'.fails = h.fails ∧
      (v ≠ none → complete = true ∧ AllFilled F slots (views st.items)) ∧
      (complete = true → (∀ b, p.addrOf b ≠ 0) → (∀ k, h.fails k = false) → v ≠ none) := by
  have ow : Owns h.live h [] := .init ho
  unfold start
  match ea : h.alloc with
  | (none, h1) => simp [Heap.alloc, hs] at ea
  | (some b, h1) =>
    obtain ⟨o1, f1⟩ := ow.alloc_some ea
    have n1 := (alloc_next ea).1
    have e1 : newStorage h = (some ⟨b, [], 0, none⟩, h1) := by simp [newStorage, ea]
    simp only [e1]
    obtain ⟨v, h2, e2, f2, n2, on, os, hf⟩ := static_new p.db p.entry (p.addrOf b) o1
    simp only [e2, Outcome.bind_ok, ha]
    have hg : ∀ s, some (⟨b, [], 0, none⟩ : Sto) = some s → GoodL s.items ∧ s.size = s.items.length ∧ s.last = (s.items.getLast?).map Item.node := by
      rintro s ⟨⟩
      exact ⟨by simp [GoodL], rfl, rfl⟩
    cases v with
    | none =>
      refine ⟨none, ⟨b, [], 0, none⟩, h2, ?_, ⟨fun _ => rfl, (by simp), hg, by simpa [ownedL, storageBlocks] using on rfl⟩, f2.trans f1, by simp, ?_⟩
      · simp only [record, he, Option.map_none, WrapCall.wrap, Outcome.bind_ok]
        rfl
      · intro _ h3 h4
        exact absurd rfl (hf (h3 b) (by rw [f1]; exact h4))
    | some v =>
      obtain ⟨h0, h3, h4⟩ := os v rfl
      have hc : Consistent ⟨b, [], 0, none⟩ h2 := by
        refine ⟨h4.ok, by simp [ownedL], ?_, by simp [GoodL], rfl, rfl⟩
        intro x hx
        simp only [ownedL, List.mem_singleton] at hx
        subst hx
        rw [h4.live]
        simp
      have hne : v.block ≠ b := by
        have := h4.nodup
        simp only [List.nodup_cons, List.mem_singleton] at this
        exact this.1
      obtain ⟨ret, st', h5, e5, hc5, hb, hdone, hok, hlive, hdead, f5⟩ := WrapCall.wrap_spec F p.env p.db p.tags hh entry ps hd as slots complete hcall ⟨b, [], 0, none⟩ h2 hc rfl v.block
        (by rw [h4.live]; simp) hne (by rw [n2 h0, n1, f2, f1]; exact hiter)
      simp only [record, he, Option.map_some, e5, Outcome.bind_ok]
      refine ⟨if ret then some v else none, st', h5, rfl, ⟨by simp, ?_, ?_, ?_⟩, ?_, ?_, ?_⟩
      · intro x hx
        cases ret <;> simp at hx
        subst hx
        rw [← he]
        exact h3
      · rintro s ⟨⟩
        exact hc5.2.2.2
      · have hnod := hc5.2.1
        rw [hb] at hnod
        have hbl : h.live b = false ∧ h.live v.block = false := ⟨h4.apart b (by simp), h4.apart v.block (by simp)⟩
        have hvo : v.block ∉ ownedL st'.items := fun hm => by
          have := hdead _ hm
          rw [h4.live] at this
          simp at this
        have hlive2 : ∀ x, h2.live x = true ↔ h.live x = true ∨ x = v.block ∨ x = b := by
          intro x
          rw [h4.live]
          simp
        have key : ∀ x, h5.live x = true ↔ h.live x = true ∨ (ret = true ∧ x = v.block) ∨ x = b ∨ x ∈ ownedL st'.items := by
          intro x
          rw [hlive, hlive2]
          constructor
          · rintro (⟨h1 | h1 | h1, h2⟩ | h1)
            · exact .inl h1
            · exact .inr (.inl ⟨by rcases h2 with h2 | h2; exact h2; exact absurd h1 h2, h1⟩)
            · exact .inr (.inr (.inl h1))
            · exact .inr (.inr (.inr h1))
          · rintro (h1 | ⟨h1, h2⟩ | h1 | h1)
            · exact .inl ⟨.inl h1, .inr fun hx => by rw [hx, hbl.2] at h1; cases h1⟩
            · exact .inl ⟨.inr (.inl h2), .inl h1⟩
            · exact .inl ⟨.inr (.inr h1), .inr fun hx => hne (hx.symm.trans h1)⟩
            · exact .inr h1
        have apart : ∀ x ∈ ownedL st'.items, h.live x = false := by
          intro x hx
          cases hl : h.live x with
          | false => rfl
          | true =>
            have := (hlive2 x).2 (.inl hl)
            rw [hdead x hx] at this
            cases this
        refine ⟨hc5.1, fun x => ?_, ?_, ?_⟩
        · rw [Bool.eq_iff_iff, key]
          cases ret <;> simp [hb, storageBlocks]
        · cases ret
          · simpa [hb, storageBlocks] using hnod
          · simp only [if_true, Option.toList_some, List.map_cons, List.map_nil, List.cons_append, List.nil_append, storageBlocks, hb]
            exact List.nodup_cons.2 ⟨by simp [hne, hvo], hnod⟩
        · intro x hx
          cases ret
          · simp [hb, storageBlocks] at hx
            rcases hx with rfl | hx
            · exact hbl.1
            · exact apart x hx
          · simp [hb, storageBlocks] at hx
            rcases hx with rfl | rfl | hx
            · exact hbl.2
            · exact hbl.1
            · exact apart x hx
      · exact f5.trans (f2.trans f1)
      · intro hv
        cases ret
        · simp at hv
        · exact hdone rfl
      · intro h6 _ h7
        rw [hok h6 (by rw [f2, f1]; exact h7)]
        simp

theorem announce_ok (f : Text → Text) {p : Prog W R} {e : Option Ref} {v : Option Handle} {st : Option Sto} {base : Nat → Bool} {h : Heap} (s : Started e v st base h) (w : W)
    (ht : ∀ x, st = some x → v ≠ none → ∃ o, p.text w x = .ok o) :
    ∃ l h', announce f p v st w h = .ok (l, h') ∧ Started e v st base h' ∧ h'.fails = h.fails ∧ (v = none → l = []) ∧
      ∀ x o, st = some x → v ≠ none → p.text w x = .ok o → Says (∀ k, h.fails k = false) (o.map f) l := by
  unfold announce
  match v, st with
  | none, _ => exact ⟨[], h, rfl, s, rfl, fun _ => rfl, by simp⟩
  | some v, none => exact absurd (s.empty rfl) (by simp)
  | some v, some st =>
    obtain ⟨o, ho⟩ := ht st rfl (by simp)
    obtain ⟨t, h1, e1, f1, o1, hs⟩ := string_ok ho s.owns
    simp only [e1, Outcome.bind_ok]
    cases t with
    | none =>
      refine ⟨[], h1, rfl, s.same o1, f1, by simp, ?_⟩
      rintro x o' ⟨⟩ - ho'
      rw [ho] at ho'
      cases ho'
      rcases hs with hs | ⟨-, k, hk⟩
      · cases hs
        exact .printed
      · exact .missing fun hm => by rw [hm k] at hk; cases hk
    | some t =>
      obtain ⟨h2, e2, o2, f2⟩ := Owns.free o1
      simp only [e2, Outcome.bind_ok]
      refine ⟨_, h2, rfl, s.same o2, f2.trans f1, by simp, ?_⟩
      rintro x o' ⟨⟩ - ho'
      rw [ho] at ho'
      cases ho'
      rcases hs with hs | ⟨hs, -⟩
      · subst hs
        exact .printed
      · cases hs

theorem resultHandle_ok (p : Prog W R) {base : Nat → Bool} {h : Heap} {rest : List Nat} (o : Owns base h rest) :
    ∃ v h', resultHandle p h = .ok (v, h') ∧ h'.fails = h.fails ∧ Owns base h' (v.toList.map (·.block) ++ rest) ∧ (∀ x, v = some x → x.entry = p.resEntry.map .static ∧ p.resEntry ≠ none ∧ p.resAddr ≠ 0) ∧
      (p.resEntry ≠ none → p.resAddr ≠ 0 → (∀ k, h.fails k = false) → v ≠ none) := by
  unfold resultHandle
  cases he : p.resEntry with
  | none => exact ⟨none, h, rfl, rfl, o, by simp, by simp⟩
  | some e =>
    obtain ⟨v, h1, e1, f1, -, on, os, hf⟩ := static_new p.db (some e) p.resAddr o
    simp only [Option.map_some] at e1 os ⊢
    refine ⟨v, h1, e1, f1, ?_, ?_, fun _ h2 h3 => hf h2 h3⟩
    · cases v with
      | none => exact on rfl
      | some v => exact (os v rfl).2.2
    · rintro x rfl
      exact ⟨(os x rfl).2.1, by simp, (os x rfl).1⟩

theorem report_ok {p : Prog W R} {e : Option Ref} {v : Option Handle} {st : Option Sto} {base : Nat → Bool} {h : Heap} (s : Started e v st base h) (w : W) (r : R)
    (ht : ∀ x, st = some x → v ≠ none → ∃ o, p.text w x = .ok o) (hr : ∃ o, p.resText w r = .ok o) :
    ∃ l h', report p v st r w h = .ok (l, h') ∧ Started e v st base h' ∧ h'.fails = h.fails ∧ (v = none → l = []) ∧
      ∀ x o, st = some x → v ≠ none → p.text w x = .ok o → ∃ u, ResultText p w r u ∧ Says (∀ k, h.fails k = false) (after u o) l := by
  unfold report
  match v, st with
  | none, _ => exact ⟨[], h, rfl, s, rfl, fun _ => rfl, by simp⟩
  | some v, none => exact absurd (s.empty rfl) (by simp)
  | some v, some st =>
    obtain ⟨o, ho⟩ := ht st rfl (by simp)
    obtain ⟨u, hu⟩ := hr
    obtain ⟨rv, h1, e1, f1, o1, hv1, hv2⟩ := resultHandle_ok p s.owns
    simp only [e1, Outcome.bind_ok]
    obtain ⟨t, h2, e2, f2, o2, hs2⟩ := string_ok ho o1
    simp only [e2, Outcome.bind_ok]
    have step : ∃ sr h3, resultText p rv r w h2 = .ok (sr, h3) ∧ h3.fails = h2.fails ∧ Owns base h3 (textBlocks sr ++ (textBlocks t ++ (some v).toList.map (·.block) ++ storageBlocks (some st))) ∧
        ((rv = none ∧ sr = none) ∨ (rv ≠ none ∧ (sr.map (·.1) = u ∨ sr = none ∧ ∃ k, h2.fails k = true))) := by
      unfold resultText
      cases rv with
      | none => exact ⟨none, h2, rfl, rfl, by simpa [textBlocks] using o2, .inl ⟨rfl, rfl⟩⟩
      | some rv =>
        obtain ⟨sr, h3, e3, f3, o3, hs3⟩ := string_ok hu o2
        simp only [e3, Outcome.bind_ok]
        obtain ⟨h4, e4, o4, f4⟩ := static_delete (hv1 rv rfl).1 (o3.perm (b := rv.block :: (textBlocks sr ++ (textBlocks t ++ (some v).toList.map (·.block) ++ storageBlocks (some st)))) (by
          simp only [Option.toList_some, List.map_cons, List.map_nil]
          perm))
        simp only [e4, Outcome.bind_ok]
        exact ⟨sr, h4, rfl, f4.trans f3, o4, .inr ⟨by simp, hs3⟩⟩
    obtain ⟨sr, h3, e3, f3, o3, hs3⟩ := step
    obtain ⟨h4, e4, o4, f4⟩ := freeText_ok sr o3
    rw [List.append_assoc] at o4
    obtain ⟨h5, e5, o5, f5⟩ := freeText_ok t o4
    simp only [e3, e4, e5, Outcome.bind_ok]
    refine ⟨_, h5, rfl, s.same o5, f5.trans (f4.trans (f3.trans (f2.trans f1))), by simp, ?_⟩
    rintro x o' ⟨⟩ - ho'
    rw [ho] at ho'
    cases ho'
    have lost : ∀ hh : Heap, hh.fails = h.fails → (∃ k, hh.fails k = true) → ¬ ∀ k, h.fails k = false := fun hh he ⟨k, hk⟩ hm => by
      rw [he, hm] at hk
      cases hk
    have none_l : ∀ u' : Option Text, after u' none = none := by intro u'; cases u' <;> rfl
    -- the result has no text
    have unk : p.resEntry = none ∨ p.resAddr = 0 → sr = none := by
      intro hx
      rcases hs3 with ⟨-, h⟩ | ⟨h, -⟩
      · exact h
      · obtain ⟨x, rfl⟩ := Option.ne_none_iff_exists'.1 h
        obtain ⟨-, h1, h2⟩ := hv1 x rfl
        rcases hx with hx | hx
        · exact absurd hx h1
        · exact absurd hx h2
    by_cases hx : p.resEntry = none ∨ p.resAddr = 0
    · refine ⟨none, .unknown hx, ?_⟩
      rw [unk hx]
      cases t <;> exact .printed
    · simp only [not_or] at hx
      obtain ⟨e', he'⟩ := Option.ne_none_iff_exists'.1 hx.1
      refine ⟨u, .known he' hx.2 hu, ?_⟩
      rcases hs2 with rfl | ⟨rfl, hk⟩
      · rcases hs3 with ⟨h6, rfl⟩ | ⟨-, rfl | ⟨rfl, hk⟩⟩
        · cases t <;> exact .missing fun hm => hv2 hx.1 hx.2 hm h6
        · cases t with
          | none =>
            show Says _ (after _ none) []
            rw [none_l]
            exact .printed
          | some t =>
            cases sr with
            | none => exact .printed
            | some sr => exact .printed
        · cases t <;> exact .missing (lost h2 (f2.trans f1) hk)
      · exact .missing (lost h1 f1 hk)

theorem finish_ok {e : Option Ref} {v : Option Handle} {st : Option Sto} {base : Nat → Bool} {h : Heap} (s : Started e v st base h) :
    ∃ h', finish v st h = .ok h' ∧ h'.fails = h.fails ∧ ∀ x, h'.live x = base x := by
  have step : ∃ h1, release v h = Outcome.ok h1 ∧ h1.fails = h.fails ∧ Owns base h1 (storageBlocks st) := by
    cases v with
    | none => exact ⟨h, rfl, rfl, s.owns⟩
    | some v =>
      obtain ⟨h1, e1, o1, f1⟩ := static_delete (s.entry v rfl) s.owns
      exact ⟨h1, e1, f1, o1⟩
  obtain ⟨h1, e1, f1, o1⟩ := step
  unfold finish
  rw [e1]
  simp only [Outcome.bind_ok]
  cases st with
  | none => exact ⟨h1, rfl, f1, fun x => by rw [o1.live]; simp [storageBlocks]⟩
  | some st =>
    obtain ⟨h2, e2, -, f2, hl⟩ := delete_ok st h1 ⟨o1.ok, o1.nodup, fun b hb => by rw [o1.live]; simp [storageBlocks, hb], s.good st rfl⟩
    refine ⟨h2, e2, f2.trans f1, fun x => ?_⟩
    rw [hl, o1.live]
    by_cases hx : x ∈ st.block :: ownedL st.items
    · simp [hx, storageBlocks, o1.apart x hx]
    · simp [hx, storageBlocks]

end Verif.Trace
