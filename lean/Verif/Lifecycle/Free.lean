import Verif.Lifecycle.Spec
import Verif.DeepCopy.PropsEqual
/-
Freeing a deep copy.
-/
namespace Verif.Lifecycle
open Verif Verif.Entry Verif.Entry.Spec Verif.Value Verif.Value.Spec Verif.Handlers Verif.ValueString.Spec Verif.Deep.Spec Verif.DeepCopy Verif.DeepCopy.Spec Verif.Lifecycle.Spec
open Verif.Deep (Node Map Table freeEx)

theorem freed_of : ∀ {L : List (Nat × Nat)} {st st' : State}, releaseAll L st = .ok st' → Freed st (L.map (·.2)) st'
  | [], st, st', h => by cases h; exact .none
  | (a, t) :: L, st, st', h => by
    simp only [releaseAll] at h
    rw [ValueString.bind_ok_iff] at h
    obtain ⟨st₁, h1, h2⟩ := h
    simp only [release] at h1
    split at h1
    · cases h1
    · next n hn =>
      cases h1
      exact .block (Deep.lookup_mem hn) (freed_of h2)

section
variable {env : DeepCopy.Env} {order : Table → Table} {mode : Deep.Mode} {db : Db} {st₀ st₁ : State} {M : Map} {dst : Value} {B : Blocks}

/-- What freeing the copy frees, in any memory in which the copy is what it was made to be. -/
theorem image_free (h : Setup env order mode db st₀ M dst st₁ B) {env' env'' : Deep.Env} (hdyn' : env''.dyn = env'.dyn) (hdyn : env'.dyn = env.deep.dyn) {m' : Mem}
    (ht : Tree env'' mode db m' [] (image (place B) M.top dst)) (hh : Honest env''.vs db) {order' : Table → Table} (ho : Order order') :
    ∃ freed, freeEx env'' order' mode db m' (some dst) = .ok (some freed) ∧ freed.Nodup ∧ ∀ a, a ∈ freed ↔ a ∈ B.map (·.2.1) := by
  have hin : Interned env''.vs db := by
    intro t c hc
    rw [hdyn', hdyn]
    exact h.interned t c hc
  obtain ⟨e1, e2, e3⟩ := h.of_tree
  obtain ⟨offs, a1, a2⟩ := memoryMap_tree h.sane hin hh ho h.dag ht
  rw [number_image, e1, image_val, h.table_image] at a2
  obtain ⟨_, _, _, _, _, hk₂, hi₂, S₂, hb₂⟩ := Deep.map_facts h.sane hin hh ho a2
  have hoff := h.offsets (M₂ := ⟨image (place B) M.top dst, M.map.map (shift (place B)), offs⟩) rfl hk₂ hi₂ hb₂
  obtain ⟨M', freed, f1, _, f3, f4, f5⟩ := Deep.freeEx_located (order := order') h.sane hin hh ho ht
  rw [image_val] at f1 f3
  have hmode : { mode with dag := true } = mode := by rw [← h.dag]
  rw [hmode, a2] at f1
  cases f1
  refine ⟨freed, f3, f4, fun a => ?_⟩
  rw [f5]
  have start : ∀ b ∈ B, place B b.1 = b.2.1 := by
    intro b hb
    rw [h.place_in hb (Nat.le_refl _) (by omega)]
    omega
  constructor
  · rintro ⟨n, id, g1, g2⟩
    rw [hoff] at g2
    obtain ⟨⟨c, e⟩, g3, g4⟩ := List.mem_map.mp g1
    simp only [shift, Prod.mk.injEq] at g4
    obtain ⟨rfl, rfl⟩ := g4
    obtain ⟨t, g5⟩ := h.located_block ⟨id, g3, g2⟩
    rw [start _ g5]
    exact List.mem_map.mpr ⟨_, g5, rfl⟩
  · intro hm
    obtain ⟨b, hb, rfl⟩ := List.mem_map.mp hm
    obtain ⟨id, g1, g2⟩ := h.block_located hb
    refine ⟨b.2.2, id, List.mem_map.mpr ⟨_, g1, ?_⟩, by rw [hoff]; exact g2⟩
    simp only [shift, start _ hb]

/-- Freeing the copy: the new blocks are released, each once, and all is as before but for the
destination. -/
theorem copy_free (h : Setup env order mode db st₀ M dst st₁ B) {m' : Mem} (hi : Inv env mode db st₀ M dst B m')
    (C : Copied env mode db st₀ M dst ⟨m', st₁.live⟩ (place B)) {env' : Deep.Env} (ha : Answers env.deep env' (place B) M.top dst) (hp : ¬ Packed env.vs db dst)
    (hkept : Kept mode db st₀.m M) (hh : Honest env'.vs db) {order' : Table → Table} (ho : Order order') :
    ∃ freed st'', freeEx env' order' mode db m' (some dst) = .ok (some freed) ∧ Freed ⟨m', st₁.live⟩ freed st'' ∧ freed.Perm (B.map (·.2.1)) ∧
      st''.live = st₀.live ∧ ∀ a, a < dst.addr ∨ dst.addr + M.top.size ≤ a → st''.m a = st₀.m a := by
  obtain ⟨_, t2⟩ := h.trees (st' := ⟨m', st₁.live⟩) hi C ha hp hkept h.tree [] dst rfl .top
  obtain ⟨freed, f1, f2, f3⟩ := image_free h rfl ha.dyn t2 hh ho
  have hperm : freed.Perm (B.map (·.2.1)) := (List.perm_ext_iff_of_nodup f2 h.new.distinct).mpr f3
  have hr := releaseAll_spec (freed.map fun a => (0, a)) ⟨m', st₁.live⟩ (by simpa [List.map_map, Function.comp_def] using f2) (by
    intro e he
    obtain ⟨a, ha', rfl⟩ := List.mem_map.mp he
    obtain ⟨b, hb, rfl⟩ := List.mem_map.mp ((f3 a).mp ha')
    exact ⟨_, h.new.lookup hb⟩)
  obtain ⟨st'', r1, r2, r3, r4⟩ := hr
  have hf := freed_of r1
  simp only [List.map_map, Function.comp_def, List.map_id'] at hf r2
  refine ⟨freed, st'', f1, hf, hperm, ?_, ?_⟩
  · rw [r2, h.new.live, List.filter_append]
    have e1 : ((B.map fun b => (b.2.1, b.2.2)).reverse.filter fun b => b.1 ∉ freed) = [] := by
      rw [List.filter_eq_nil_iff]
      intro c hc
      simp only [List.mem_reverse, List.mem_map] at hc
      obtain ⟨b, hb, rfl⟩ := hc
      simp only [decide_not, Bool.not_eq_true', decide_eq_false_iff_not, Classical.not_not]
      exact (f3 _).mpr (List.mem_map.mpr ⟨b, hb, rfl⟩)
    have e2 : (st₀.live.filter fun b => b.1 ∉ freed) = st₀.live := by
      rw [List.filter_eq_self]
      rintro ⟨c, n⟩ hc
      simp only [decide_not, Bool.not_eq_true', decide_eq_false_iff_not]
      intro hm
      obtain ⟨b, hb, hbc⟩ := List.mem_map.mp ((f3 _).mp hm)
      have := h.new.apartLive b hb _ _ hc
      omega
    rw [e1, e2]
    rfl
  · intro a haout
    by_cases hin : ∃ b ∈ B, b.2.1 ≤ a ∧ a < b.2.1 + b.2.2
    · obtain ⟨b, hb, h1, h2⟩ := hin
      rw [r3 a ⟨(0, b.2.1), List.mem_map.mpr ⟨_, (f3 _).mpr (List.mem_map.mpr ⟨b, hb, rfl⟩), rfl⟩, b.2.2, h.new.lookup hb, h1, h2⟩]
      have := h.new.fresh b hb (a - b.2.1) (by omega)
      rw [show b.2.1 + (a - b.2.1) = a by omega] at this
      exact this.symm
    · have out : ∀ b ∈ B, a < b.2.1 ∨ b.2.1 + b.2.2 ≤ a := fun b hb => by
        by_cases hc : a < b.2.1 ∨ b.2.1 + b.2.2 ≤ a
        · exact hc
        · exact absurd ⟨b, hb, by omega, by omega⟩ hin
      rw [r4 a ?_]
      · refine C.others a haout fun b n hl => ?_
        obtain ⟨t, ht⟩ := h.located_block hl
        have := h.place_in ht (Nat.le_refl _) (by omega)
        rw [this]
        simpa using out _ ht
      · intro e he n hn
        obtain ⟨a', ha', rfl⟩ := List.mem_map.mp he
        obtain ⟨b, hb, rfl⟩ := List.mem_map.mp ((f3 a').mp ha')
        have := h.new.lookup hb
        simp only at hn
        rw [this] at hn
        cases hn
        exact out b hb
end
end Verif.Lifecycle
