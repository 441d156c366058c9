import Verif.DeepCopy.Fails
import Verif.DeepCopy.Props
import Verif.DeepCopy.Witness
/-
C30: what is not so of deep copies.
-/
namespace Verif.DeepCopy
open Verif Verif.Entry Verif.Entry.Spec Verif.Value Verif.Value.Spec Verif.Handlers Verif.ValueString.Spec Verif.Deep.Spec Verif.DeepCopy.Spec
open Verif.Bitfield.Spec (Field)
open Verif.Deep (Node Map Table Keys Ids)

section
variable {env : Env} {order : Table → Table} {mode : Deep.Mode} {db : Db}

/-- C30 is false: data in which an object inside another block is reached by two pointers is
never copied, although there is no lack of memory. -/
theorem C30_inner_false (hs : Sane db) (hin : Interned env.vs db) (hh : Honest env.vs db) (ho : Order order) (ha : Allocator env.calloc)
    (hd : mode.dag = true) (src dst : Value) (M : Map) (st : State)
    (hm : Deep.memoryMap env.deep order mode db st.m (some src) = .ok (some M)) (t u : Node) (ht : t ∈ targets M.top) (hu : u ∈ targets M.top)
    (he : t.val.addr = u.val.addr) (hne : t.id ≠ u.id) (hin' : ∀ n, ¬ Located M t.val.addr n 0) (st' : State) :
    copyEx env order mode db st (some src) (some dst) ≠ .ok (true, st') := by
  intro h
  obtain ⟨tbl, st₁, h1, h2⟩ := copyEx_true hm h
  have h1 := h1 hd
  obtain ⟨htree, _, hnd, hof, _, hks, hi, S, hbl⟩ := Deep.map_facts hs hin hh ho hm
  have hof := hof hd
  have hp := preallocate_spec ha M (order M.map) [] st (New.nil st)
  simp only [List.nil_append] at hp
  have et : Blocks.table [] = [] := rfl
  rw [et, h1] at hp
  have htbl : List.lookup t.val.addr tbl = none := by
    rcases hp with ⟨B, st₂, h3, _, h4⟩ | ⟨B, st₂, h3, _⟩ | ⟨h3, _⟩
    · cases h3
      cases hl : List.lookup t.val.addr B.table with
      | none => rfl
      | some a =>
        exfalso
        obtain ⟨b, hb, hbe⟩ := List.mem_map.mp (Deep.lookup_mem hl)
        simp only [Prod.mk.injEq] at hbe
        have : (b.1, b.2.2) ∈ B.map fun b => (b.1, b.2.2) := List.mem_map.mpr ⟨b, hb, rfl⟩
        rw [h4] at this
        obtain ⟨⟨a', id, n⟩, hm', he'⟩ := List.mem_map.mp this
        obtain ⟨hm', ho'⟩ := List.mem_filter.mp hm'
        simp only [Prod.mk.injEq] at he'
        simp only [decide_eq_true_eq] at ho'
        refine hin' n ⟨id, ?_, ho'⟩
        rw [← hbe.1, ← he'.1]
        exact (ho M.map).mem_iff.mp hm'
    · cases h3
    · cases h3
  suffices ∀ k ∈ targets M.top, k.val.addr = t.val.addr → (∀ n, (k.val.addr, k.id, n) ∉ M.map) → False by
    obtain ⟨id, n, hmt, _⟩ := hof.complete t ht
    by_cases hid : id = t.id
    · refine this u hu he.symm ?_
      intro n' hc
      rw [← he] at hc
      have := Deep.keys_unique hks hmt hc
      simp only [Prod.mk.injEq] at this
      exact hne (hid ▸ this.1)
    · refine this t ht rfl ?_
      intro n' hc
      have := Deep.keys_unique hks hmt hc
      simp only [Prod.mk.injEq] at this
      exact hid this.1
  intro k hk hka hno
  have hne' : ∀ a n, (a, k.id, n) ∉ M.map := by
    intro a n hc
    obtain ⟨u, hu, h4, h5, _⟩ := hof.sound _ _ _ hc
    have := Deep.nodup_map_inj (Deep.targets_nodup hnd) hu hk h5
    subst this
    rw [← h4] at hc
    exact hno _ hc
  have hoff : M.offset k.id = 0 := by
    unfold Map.offset
    cases hl : List.lookup k.id M.offsets with
    | none => rfl
    | some o =>
      have := Deep.lookup_mem hl
      rw [hbl.offs] at this
      obtain ⟨a, n, _, _, _, hc, _⟩ := this
      exact absurd hc (hne' a n)
  obtain ⟨x, hx, hxd, hxk⟩ := targets_parent hk
  obtain ⟨outer, d, st₂, st₃, h3⟩ := copyNode_within h2 hx
  obtain ⟨hd', st₄, _, h4, h5, _⟩ := copyNode_step h3
  obtain ⟨outer', htx⟩ := Deep.within_tree htree hx
  have hplace : ∀ st, targetPlace env mode db M tbl k st = .ok (none, st) ∨ targetPlace env mode db M tbl k st = .abort := by
    intro st
    unfold targetPlace
    simp only [hd, if_true, Outcome.assert]
    split
    · simp only [Outcome.bind_ok, hoff, ne_eq, not_true, if_false]
      rw [hka, htbl]
      exact .inl rfl
    · exact .inr rfl
  have hkid : x.kids = [k] ∧ Deep.isA db isPointer x.val = .ok true := by
    cases htx with
    | leaf => cases hxd
    | parts => cases hxd
    | args => cases hxd
    | @target _ _ v n k' hc _ =>
      simp only [Node.kids, List.mem_singleton] at hxk
      subst hxk
      refine ⟨rfl, ?_⟩
      cases hc with
      | target ho' =>
        obtain ⟨f, qs, hf, hfi⟩ := ho'.2.2
        show Deep.isA db isPointer v = _
        rw [Deep.isA_final hf, hfi]
        rfl
  obtain ⟨hkids, hip⟩ := hkid
  rcases hplace st₂ with hpl | hpl
  · rw [head_target hip hkids hpl] at h4
    cases h4
    exact h5 rfl
  · simp only [head, hip, Outcome.bind_ok, if_true, hkids, copyTarget, hpl] at h4
    cases h4

/-- C30 is false: data with a number declared `const` (below the top) is never copied. -/
theorem C30_const_false (hs : Sane db) (src dst : Value) (M : Map) (st : State)
    (hm : Deep.memoryMap env.deep order mode db st.m (some src) = .ok (some M)) (x y : Node) (hx : Within M.top x) (hy : y ∈ x.kids)
    (hcall : ¬ Packed env.vs db x.val ∧ (∀ t ps, ¬ Typed db x.val (.subprogram t ps)) ∧ ∀ t ps, ¬ Typed db x.val (.subroutine t ps))
    (f : Ref) (qs : List Qual) (hf : Final db y.val.entry (some f) qs) (hq : Qual.const ∈ qs) (s : UInt64) (e : Nat) (hb : (db f).info = .base s e) (st' : State) :
    copyEx env order mode db st (some src) (some dst) ≠ .ok (true, st') := by
  intro h
  obtain ⟨tbl, st₁, _, h2⟩ := copyEx_true hm h
  rcases copyNode_part h2 hx hy with ⟨outer, d, st₂, vs, st₃, h3⟩ | ⟨outer, d, st₂, st₃, h3, h4, h5⟩
  · have hl := head_args h3
    obtain ⟨g, qs', hg⟩ := Entry.final_exists (hs.acyclic x.val.entry)
    obtain ⟨b, h4, h5⟩ := ValueString.hasLoad_iff (env := env.vs) hg
    rw [hl] at h4
    rcases h5.mp (Outcome.ok.inj h4).symm with h6 | ⟨z, qs, t, ps, hz, h6 | h6⟩
    · exact hcall.1 h6
    · exact hcall.2.1 t ps ⟨z, qs, hz, h6⟩
    · exact hcall.2.2 t ps ⟨z, qs, hz, h6⟩
  · obtain ⟨hd, st₄, _, h6, h7, _⟩ := copyNode_step h3
    have hfd := h4 ▸ hf
    simp only [head, Deep.isA_final hf, hb, isPointer, isEnum, isBase, Outcome.bind_ok, Bool.false_eq_true, if_false, if_true] at h6
    rw [ValueString.bind_ok_iff] at h6
    obtain ⟨r, h8, h6⟩ := h6
    have := copy_const hs.named hfd hb h5 hq (by simpa [copyBaseType] using h8)
    simp only [copied, this, Bool.false_eq_true, if_false] at h6
    cases h6
    exact h7 rfl

/-- C30 is false: if pointers to something unknown are to fail or to be bytes, a `NULL` pointer
is not copied, and yet the copy succeeds: the destination holds what it held. -/
theorem C30_null_false (hs : Sane db) (hin : Interned env.vs db) (hh : Honest env.vs db) (ho : Order order) (hu : mode.uptr = .fail ∨ mode.uptr = .oneByte)
    (src dst : Value) (st : State) (t : Option Ref) (n : Nat) (hsrc : Object env.vs db src (.pointer t)) (hn : Size db src.entry n) (h0 : Holds st.m src.addr 8 0)
    (hty : sameType db src dst = .ok true) : copyEx env order mode db st (some src) (some dst) = .ok (true, st) := by
  obtain ⟨M, hm', hst⟩ := Deep.map_exists hs hin hh ho (env := env.deep) (mode := mode) (m := st.m) (k := .mk 0 src n 0 false []) (.leaf (.null hsrc hn h0))
  have hm : Deep.memoryMap env.deep order mode db st.m (some src) = .ok (some M) := hm'
  clear hm'
  obtain ⟨_, hv, hnd, hof, _, hks, hi, S, hbl⟩ := Deep.map_facts hs hin hh ho hm
  obtain ⟨top, map, offs⟩ := M
  obtain ⟨i, v, n', l, d, ks⟩ := top
  simp only [Deep.strip, Node.mk.injEq] at hst
  obtain ⟨_, rfl, rfl, rfl, rfl, hks'⟩ := hst
  have hk0 : ks = [] := by
    cases ks with
    | nil => rfl
    | cons => simp [Deep.stripAll] at hks'
  subst hk0
  obtain ⟨f, qs, hf, hfi⟩ := hsrc.2.2
  have hp : Deep.isA db isPointer v = .ok true := by rw [Deep.isA_final hf, hfi]; rfl
  have hnode : ∀ tbl, copyNode env mode db ⟨.mk i v n' 0 false [], map, offs⟩ tbl [] (.mk i v n' 0 false []) dst st = .ok (true, st) := by
    intro tbl
    have : head env mode db ⟨.mk i v n' 0 false [], map, offs⟩ tbl [] (.mk i v n' 0 false []) dst st = .ok (.parts, st) := by
      show (Deep.isA db isPointer v >>= _) = _
      rw [hp]
      rcases hu with hu | hu <;> simp only [Outcome.bind_ok, if_true, copyUnfollowed, hu] <;> rfl
    unfold copyNode
    rw [this]
    rfl
  simp only [copyEx, hty, hm, Outcome.bind_ok, Bool.true_eq_false, if_false]
  cases hd : mode.dag with
  | false => simp only [Bool.false_eq_true, if_false, hnode]
  | true =>
    have hmap : map = [] := by
      cases map with
      | nil => rfl
      | cons e l =>
        obtain ⟨a, id, n⟩ := e
        obtain ⟨u, hu, _⟩ := (hof hd).sound a id n (by simp)
        simp [targets, targetsAll] at hu
    subst hmap
    have hop : order [] = [] := List.perm_nil.mp (ho [])
    simp only [if_true, hop, preallocate, Outcome.bind_ok, Bool.true_eq_false, if_false, hnode]
    rfl

/-- C30 is false: if a block comes from an allocator other than `calloc` and the table of blocks
cannot be extended, the block is given to `free`, which is undefined. -/
theorem C30_put_false (hd : mode.dag = true) (hc : env.custom = true) (src dst : Value) (M : Map) (st : State) (hty : sameType db src dst = .ok true)
    (hm : Deep.memoryMap env.deep order mode db st.m (some src) = .ok (some M)) (n : Nat) (l : List Nat) (hb : blockSizes order M = n :: l) (a : Nat)
    (ha : env.calloc st 1 n = some a) (hp : env.put [] = false) : copyEx env order mode db st (some src) (some dst) = .ub := by
  have key : ∀ m : List (Nat × Nat × Nat), ((m.filter fun e => M.offset e.2.1 = 0).map fun e => e.2.2) = n :: l → preallocate env M m [] st = .ub := by
    intro m
    induction m with
    | nil => intro h; cases h
    | cons e m ih =>
      intro h
      obtain ⟨b, id, s⟩ := e
      unfold preallocate
      by_cases ho : M.offset id = 0
      · simp only [List.filter_cons, ho, decide_true, if_true, List.map_cons, List.cons.injEq] at h
        obtain ⟨rfl, _⟩ := h
        simp only [ho, if_true, alloc, ha, Option.map_some, hp, Bool.false_eq_true, if_false, plainFree, hc]
        rfl
      · simp only [List.filter_cons, ho, decide_false, Bool.false_eq_true, if_false] at h
        simp only [ho, if_false]
        exact ih h
  simp only [copyEx, hty, hm, Outcome.bind_ok, Bool.true_eq_false, if_false, hd, if_true]
  rw [key _ hb]
  rfl

/-- C30 is false: what points into the source itself is not made to point into the destination:
it points to a second copy. -/
theorem C30_root_false (st st' : State) (M : Map) (dst : Value) (W : Nat → Nat) (hr : Room env mode db st.m M dst) (h : Copied env mode db st M dst st' W)
    (x : Node) (w : Value) (p : Nat) (hx : Followed db st.m M x p) (hw : Copy W M.top dst x w) :
    ∃ q, Holds st'.m w.addr 8 q ∧ ¬ (dst.addr ≤ q ∧ q < dst.addr + M.top.size) := by
  obtain ⟨h1, h2, _⟩ := h.separate x w p hx hw
  refine ⟨_, h1, ?_⟩
  rintro ⟨h3, h4⟩
  have := hr.mapped (W p - dst.addr) (by omega)
  rw [show dst.addr + (W p - dst.addr) = W p by omega] at this
  exact this h2

open Deep.World World Example in
/-- C30 is false of tree mode: if memory runs out, blocks allocated before are not released. -/
theorem C30_tree_leak_false : ∃ (env : Env) (order : Table → Table) (mode : Deep.Mode) (db : Db) (st st' : State) (src dst : Value), Sane db ∧ Interned env.vs db ∧ Honest env.vs db ∧
    Order order ∧ Allocator env.calloc ∧ mode.dag = false ∧ copyEx env order mode db st (some src) (some dst) = .ok (false, st') ∧ st.live = [] ∧ st'.live ≠ [] := by
  obtain ⟨st', h1, h2⟩ := leak
  exact ⟨_, _, _, _, _, st', _, _, world_sane handles_ok, world_interned _, world_honest _, Deep.Example.id_order, bump_allocator 1, rfl, h1, rfl, by rw [h2]; simp⟩

open Deep.World World Example in
/-- C30 is false of tree mode: blocks from an allocator other than `calloc` are given to `free`
if memory runs out. -/
theorem C30_tree_free_false : ∃ (env : Env) (order : Table → Table) (mode : Deep.Mode) (db : Db) (st : State) (src dst : Value), Sane db ∧ Interned env.vs db ∧ Honest env.vs db ∧
    Order order ∧ Allocator env.calloc ∧ mode.dag = false ∧ env.custom = true ∧ copyEx env order mode db st (some src) (some dst) = .ub :=
  ⟨_, _, _, _, _, _, _, world_sane handles_ok, world_interned _, world_honest _, Deep.Example.id_order, bump_allocator 1, rfl, rfl, wrong_free⟩
end

/-! ### Data for which these hold -/

open Deep.World World Example
open Verif.Deep.Example (forms forms_ok mapOf mapOf_sound)

/-- A root at 100 with nodes at 200 and 300; the data of both is the number of the first. -/
def twice : Mem := words [(100, 200), (108, 300), (200, 0), (208, 216), (216, 7), (300, 0), (308, 216), (316, 8), (600, 0), (608, 0)]

/-- Two pointers to the same object, which is inside a block. -/
def innerB (M : Map) : Bool :=
  (targets M.top).any fun t => (targets M.top).any fun u => decide (t.val.addr = u.val.addr ∧ t.id ≠ u.id) && M.map.all fun e => decide (e.1 = t.val.addr → M.offset e.2.1 ≠ 0)

example : ∀ st', copyEx (copier forms 9) id drop (world forms) ⟨twice, []⟩ (some ⟨15, 100⟩) (some ⟨15, 600⟩) ≠ .ok (true, st') := by
  have h : (match mapOf drop twice ⟨15, 100⟩ with | none => false | some M => innerB M) = true := by decide +kernel
  split at h
  · cases h
  next M hM =>
  simp only [innerB, List.any_eq_true, Bool.and_eq_true, decide_eq_true_eq, List.all_eq_true] at h
  obtain ⟨t, ht, u, hu, ⟨h1, h2⟩, h3⟩ := h
  exact C30_inner_false (env := copier forms 9) (world_sane forms_ok) (world_interned _) (world_honest _) Deep.Example.id_order (bump_allocator 9) rfl _ _ M ⟨twice, []⟩ (mapOf_sound hM) t u ht hu h1 h2
    (fun n ⟨id, h4, h5⟩ => h3 _ h4 rfl h5)

/-- `unsigned char` (0), `int` (1), `const int` (2), `struct c { const int x; }` (4). -/
def consts : List Entry := [
  { info := .base 1 9, name := some (typeName .uchar) },
  { info := .base 4 6, name := some (typeName .int) },
  { info := .qual .const (some 1) },
  { info := .member { type := some 2, byteOffset := 0 }, name := some [120] },
  { info := .struct .struct 4 [3], name := some [99] }]

theorem consts_ok : worldOk consts [1, 4, 4, 4, 4] = true := by decide

def constant : Mem := words [(100, 7), (600, 0)]

def constTree : Node := (build consts drop constant 30 [] ⟨4, 100⟩).get (by decide +kernel)

theorem const_build : build consts drop constant 30 [] ⟨4, 100⟩ = some constTree := (Option.some_get _).symm

example : ∀ st', copyEx (copier consts 9) id drop (world consts) ⟨constant, []⟩ (some ⟨4, 100⟩) (some ⟨4, 600⟩) ≠ .ok (true, st') := by
  have hm := map_of consts_ok const_build (offs := []) (by decide +kernel)
  have hn : (Deep.number constTree 0).1 = .mk 1 ⟨4, 100⟩ 4 0 false [.mk 0 ⟨3, 100⟩ 4 0 false []] := same_eq (by decide +kernel)
  rw [hn] at hm
  have h1 : Final (world consts) 1 (some 1) [] := .here (fun t ht => by cases ht <;> contradiction)
  have h2 : Final (world consts) 2 (some 1) (Entry.Spec.own (world consts) 2 ++ []) := .step (.qual rfl) h1
  have hf : Final (world consts) 3 (some 1) (Entry.Spec.own (world consts) 3 ++ (Entry.Spec.own (world consts) 2 ++ [])) :=
    .step (Alias.member (m := { type := some 2, byteOffset := 0 }) rfl) h2
  have h4 : Final (world consts) 4 (some 4) [] := .here (fun t ht => by cases ht <;> contradiction)
  refine C30_const_false (env := copier consts 9) (world_sane consts_ok) _ _ _ ⟨constant, []⟩ hm _ (.mk 0 ⟨3, 100⟩ 4 0 false []) .top (by simp [Node.kids]) ⟨?_, ?_, ?_⟩ 1 _ hf (by decide) 4 6 rfl
  · rintro ⟨u, t, h, _⟩
    cases h
  · rintro t ps ⟨x, qs, h1, h2⟩
    cases Value.final_unique h4 h1
    cases h2
  · rintro t ps ⟨x, qs, h1, h2⟩
    cases Value.final_unique h4 h1
    cases h2

/-- A `NULL` pointer (in a struct `mix`, its only pointer) at 108; and 5 where it is to be copied to. -/
example : ∃ st, copyEx (copier forms 9) id strict (world forms) st (some ⟨4, 108⟩) (some ⟨4, 608⟩) = .ok (true, st) ∧ Holds st.m 108 8 0 ∧ Holds st.m 608 8 5 := by
  refine ⟨⟨words [(108, 0), (608, 5)], []⟩, ?_, holds_loadN.mpr (by decide +kernel), holds_loadN.mpr (by decide +kernel)⟩
  have h4 : Final (world forms) 4 (some 4) [] := .here (fun t ht => by cases ht <;> contradiction)
  refine C30_null_false (env := copier forms 9) (world_sane forms_ok) (world_interned _) (world_honest _) Deep.Example.id_order (.inl rfl) _ _ _ none 8 ⟨?_, by decide, 4, [], h4, rfl⟩
    (.stored (.pointer rfl)) (holds_loadN.mpr (by decide +kernel)) (same_types (f := 4) rfl rfl (CDecl.no_dep rfl))
  · rintro ⟨u, t, h, _⟩
    cases h

/-- The ring, with another allocator, and no memory for the table. -/
example : copyEx { copier forms 9 with custom := true, put := fun _ => false } id drop (world forms) ⟨ring, []⟩ (some ⟨15, 100⟩) (some ⟨15, 600⟩) = .ub := by
  obtain ⟨M, h1, _, h2, _, _⟩ := ready_spec 9 ring_ready root_cdecl rfl
  have h3 : (match mapOf drop ring ⟨15, 100⟩ with | none => false | some M => decide (blockSizes id M = [4, 24, 24])) = true := by decide +kernel
  rw [h1] at h3
  exact C30_put_false rfl rfl _ _ M ⟨ring, []⟩ (same_types (f := 15) rfl rfl root_cdecl) h2 4 [24, 24] (of_decide_eq_true h3) 1000 (by decide +kernel) rfl

/-- The data of the node at 100 is its own number, at 116; the data of the copy at 600 is not at
616. -/
example : ∃ st' q, copyEx (copier forms 3) id drop (world forms) ⟨own, []⟩ (some ⟨12, 100⟩) (some ⟨12, 600⟩) = .ok (true, st') ∧ Holds own 108 8 116 ∧ Holds st'.m 608 8 q ∧
    ¬ (600 ≤ q ∧ q < 624) := by
  obtain ⟨M, st', W, h1, h2, h3, h4⟩ := copies rfl node_cdecl rfl own_ready (by decide +kernel)
  have h5 : (match mapOf drop own ⟨12, 100⟩ with
    | none => false
    | some M => decide (M.top.size = 24 ∧ M.top.deref = false ∧ M.top.val.addr = 100) && M.top.kids.any fun x => decide (x.val = ⟨9, 108⟩ ∧ x.kids.length ≠ 0)) = true := by decide +kernel
  simp only [h1, Bool.and_eq_true, decide_eq_true_eq, List.any_eq_true] at h5
  obtain ⟨⟨h6, h7, h8⟩, x, h9, h10, h11⟩ := h5
  have hh : Holds own 108 8 116 := holds_loadN.mpr (by decide +kernel)
  have h5 : Final (world forms) 5 (some 5) [] := .here (fun t ht => by cases ht <;> contradiction)
  have hf : Final (world forms) 9 (some 5) (Entry.Spec.own (world forms) 9 ++ []) := .step (Alias.member (m := { type := some 5, byteOffset := 8 }) rfl) h5
  obtain ⟨q, h12, h13⟩ := C30_root_false ⟨own, []⟩ st' M ⟨12, 600⟩ W h3 h4 x ⟨9, 608⟩ 116
    ⟨.part .top h9, ⟨some 1, 5, _, by rw [h10]; exact hf, rfl⟩, by rw [h10]; exact hh, by decide, .inl (fun h => h11 (by rw [h]; rfl))⟩
    (by have := Copy.part (W := W) (k := M.top) (dst := ⟨12, 600⟩) .top h7 h9; rw [h10, h8] at this; exact this)
  rw [h6] at h13
  exact ⟨st', q, h2, hh, h12, h13⟩

end Verif.DeepCopy
