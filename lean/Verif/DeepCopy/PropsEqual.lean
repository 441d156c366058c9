import Verif.DeepCopy.ImageEqual
import Verif.DeepCopy.Props
/-
C30: a deep copy is equal to its source.
-/
namespace Verif.DeepCopy
open Verif Verif.Entry Verif.Entry.Spec Verif.Value Verif.Value.Spec Verif.Handlers Verif.ValueString.Spec Verif.Deep.Spec Verif.DeepCopy.Spec
open Verif.Deep (Node Map Table)

section
variable {env : Env} {order : Table → Table} {mode : Deep.Mode} {db : Db}

/-- C30: if a copy of shared data succeeds, the destination is deep-equal to the source, as
`metac_value_equal_ex` tells with the same mode, and for all orders in which maps are gone
through; `env'` are the handlers as they are then: they say the same of source and copy as they
said of the source before.
Partial: as `C30_copy_partial`; and the data must be comparable with itself (`Comparable`). -/
theorem C30_equal_partial (hs : Sane db) (hin : Interned env.vs db) (hh : Honest env.vs db) (hva : VaLists env.deep db) (ho : Order order) (ha : Allocator env.calloc) (he : Each env.each)
    (hd : mode.dag = true) (hput : env.custom = true → ∀ t, env.put t = true) (src dst : Value) (M : Map) (st st' : State)
    (hm : Deep.memoryMap env.deep order mode db st.m (some src) = .ok (some M)) (hc : Copyable env mode db st.m M) (hr : Room env mode db st.m M dst)
    (hp : ¬ Packed env.vs db dst) (hcmp : Comparable env mode db st.m M) (h : copyEx env order mode db st (some src) (some dst) = .ok (true, st')) :
    ∃ W, Copied env mode db st M dst st' W ∧
      ∀ env', Answers env.deep env' W M.top dst → Honest env'.vs db → Deep.equalEx env' order mode db st'.m (some src) (some dst) = .ok 1 := by
  have hv := (Deep.map_facts hs hin hh ho hm).2.1
  obtain ⟨f, qs, qs', s, f1, f2, f3⟩ := hr.type
  rw [hv] at f1
  have ht : sameType db src dst = .ok true := by
    simp [sameType, (Entry.final_entry f1), (Entry.final_entry f2), Outcome.ofLoop, f3]
  have hpre := preallocate_spec ha M (order M.map) [] st (New.nil st)
  simp only [List.nil_append] at hpre
  have et : Blocks.table [] = [] := rfl
  rw [et] at hpre
  rcases hpre with ⟨B, st₁, h1, h2, h3⟩ | ⟨B, st₁, h1, h2, h3⟩ | ⟨h1, h2, t, h3⟩
  · have S : Setup env order mode db st M dst st₁ B := ⟨hs, hin, hh, ho, hd, by rw [hv]; exact hm, hc, hr, h2, h3⟩
    obtain ⟨m', g1, g2, g3⟩ := S.run
    simp [copyEx, ht, hm, hd, h1, g1] at h
    subst h
    refine ⟨place B, S.result g2 g3, fun env' h4 h5 => ?_⟩
    have := S.equal g2 (S.result g2 g3) h4 hp hcmp hva h5
    rw [hv] at this
    exact this
  · simp [copyEx, ht, hm, hd, h1, h2.undo he] at h
  · rw [hput h2 t] at h3
    cases h3

/-- Without handlers nothing is to be assumed of them. -/
theorem answers_untagged (ht : env.tags = none) {W : Nat → Nat} {k : Node} {dst : Value} : Answers env.deep env.deep W k dst := by
  refine ⟨rfl, rfl, rfl, rfl, fun _ _ _ _ _ _ h => h, ?_⟩
  intro outs x w ev r _ h
  cases h with
  | noMap => exact .noMap ht
  | noHandler h => rw [show env.deep.vs.tags = none from ht] at h; cases h
  | reply h => rw [show env.deep.vs.tags = none from ht] at h; cases h

/-- C30: if a copy of shared data succeeds, made without a tag map, the destination is
deep-equal to the source.  Partial: as `C30_equal_partial`. -/
theorem C30_equal_untagged_partial (hs : Sane db) (hin : Interned env.vs db) (hh : Honest env.vs db) (hva : VaLists env.deep db) (ho : Order order) (ha : Allocator env.calloc) (he : Each env.each)
    (hd : mode.dag = true) (hput : env.custom = true → ∀ t, env.put t = true) (ht : env.tags = none) (src dst : Value) (M : Map) (st st' : State)
    (hm : Deep.memoryMap env.deep order mode db st.m (some src) = .ok (some M)) (hc : Copyable env mode db st.m M) (hr : Room env mode db st.m M dst)
    (hp : ¬ Packed env.vs db dst) (hcmp : Comparable env mode db st.m M) (h : copyEx env order mode db st (some src) (some dst) = .ok (true, st')) :
    Deep.equalEx env.deep order mode db st'.m (some src) (some dst) = .ok 1 := by
  obtain ⟨W, _, h2⟩ := C30_equal_partial hs hin hh hva ho ha he hd hput src dst M st st' hm hc hr hp hcmp h
  exact h2 _ (answers_untagged ht) hh
end

open Deep.World World Example
open Verif.Deep.Example (forms forms_ok mapOf mapOf_sound)

/-- The data is comparable. -/
def comparableB (e : Ref) (mode : Deep.Mode) (m : Mem) : Bool :=
  match mapOf mode m ⟨e, 100⟩ with
  | none => false
  | some M =>
    readTree mode (world forms) m M.top &&
    (nodes M.top).all (fun x =>
      (match leafOf (world forms) m x.val with
        | some (.real t n) => cfg.feq t n (cfg.passed t n % 256 ^ Value.Spec.sizeOf t)
        | _ => true) &&
      (decide (mode.uptr ≠ .asValues) || (decide (x.loop = 0) &&
        match fin (world forms) 100 x.val.entry with
        | none => false
        | some f => match (world forms f).info, Mem.loadN m x.val.addr 8 with
          | .pointer _, .ok p => decide (p = 0) || (m p).isSome
          | _, _ => true)))

theorem comparable_of {e : Ref} {mode : Deep.Mode} {m : Mem} {M : Map} (limit : Nat) (hM : mapOf mode m ⟨e, 100⟩ = some M) (h : comparableB e mode m = true) :
    Comparable (copier forms limit) mode (world forms) m M := by
  simp only [comparableB, hM, Bool.and_eq_true, List.all_eq_true] at h
  obtain ⟨h1, h2⟩ := h
  refine ⟨read_sound h1, ?_, ?_, ?_⟩
  · intro x t n hx ho hn
    have hc : Content cfg (world forms) m x.val (.real t n) := .real ho hn
    obtain ⟨c, hl⟩ := read_leaf h1 hx (Deep.content_scalar hc)
    have := Deep.content_unique (world_sane forms_ok).named (leafOf_sound hl) hc
    subst this
    have := (h2 x (nodes_within hx)).1
    rw [hl] at this
    exact this
  · intro hm x hx
    have := (h2 x (nodes_within hx)).2
    simp only [hm, ne_eq, not_true_eq_false, decide_false, Bool.false_or, Bool.and_eq_true, decide_eq_true_eq] at this
    exact this.1
  · intro hm x t p hx ht _ hp h0
    have := (h2 x (nodes_within hx)).2
    simp only [hm, ne_eq, not_true_eq_false, decide_false, Bool.false_or, Bool.and_eq_true, decide_eq_true_eq] at this
    have := this.2
    split at this
    · cases this
    · next f hf =>
      rw [fin_info hf ht, holds_loadN.mp hp] at this
      intro hn
      simp [h0, hn] at this

/-- What is copied is equal to its source. -/
theorem equals {e : Ref} {mode : Deep.Mode} (hd : mode.dag = true) {m : Mem} {t : List UInt8} (hc : CDecl.cdecl (world forms) e = .ok (some t)) (he : fin (world forms) 100 e = some e)
    (h : ready e mode m = true) (h' : served e 3 mode m = true) (hcmp : comparableB e mode m = true) :
    ∃ st', copyEx (copier forms 3) id mode (world forms) ⟨m, []⟩ (some ⟨e, 100⟩) (some ⟨e, 600⟩) = .ok (true, st') ∧
      Deep.equalEx (Deep.World.env forms) id mode (world forms) st'.m (some ⟨e, 100⟩) (some ⟨e, 600⟩) = .ok 1 := by
  obtain ⟨M, h1, hv, h2, h3, h4⟩ := ready_spec 3 h hc he
  obtain ⟨_, st', _, _, h5, _, _⟩ := copies hd hc he h h'
  refine ⟨st', h5, ?_⟩
  refine C30_equal_untagged_partial (env := copier forms 3) (world_sane forms_ok) (world_interned _) (world_honest _) (world_vaLists _) Deep.Example.id_order (bump_allocator 3) id_each hd
    (fun h => by cases h) rfl _ _ M ⟨m, []⟩ st' h2 h3 h4 ?_ (comparable_of 3 h1 hcmp) h5
  exact fun hp => (h3.calls _ .top).1 (by rw [hv]; exact hp)

/-- The ring, the row, and a struct with a number and a pointer to something unknown, kept. -/
example : ∃ st', copyEx (copier forms 3) id drop (world forms) ⟨ring, []⟩ (some ⟨15, 100⟩) (some ⟨15, 600⟩) = .ok (true, st') ∧
    Deep.equalEx (Deep.World.env forms) id drop (world forms) st'.m (some ⟨15, 100⟩) (some ⟨15, 600⟩) = .ok 1 :=
  equals rfl root_cdecl rfl ring_ready (by decide +kernel) (by decide +kernel)

example : ∃ st', copyEx (copier forms 3) id strict (world forms) ⟨row, []⟩ (some ⟨15, 100⟩) (some ⟨15, 600⟩) = .ok (true, st') ∧
    Deep.equalEx (Deep.World.env forms) id strict (world forms) st'.m (some ⟨15, 100⟩) (some ⟨15, 600⟩) = .ok 1 :=
  equals rfl root_cdecl rfl row_ready (by decide +kernel) (by decide +kernel)

def mix : Mem := words [(100, 2 ^ 62 + 5), (108, 400), (400, 1), (600, 0), (608, 0)]

example : ∃ st', copyEx (copier forms 3) id Deep.Example.valued (world forms) ⟨mix, []⟩ (some ⟨18, 100⟩) (some ⟨18, 600⟩) = .ok (true, st') ∧
    Deep.equalEx (Deep.World.env forms) id Deep.Example.valued (world forms) st'.m (some ⟨18, 100⟩) (some ⟨18, 600⟩) = .ok 1 :=
  equals rfl (CDecl.no_dep rfl) rfl (by decide +kernel) (by decide +kernel) (by decide +kernel)

end Verif.DeepCopy
