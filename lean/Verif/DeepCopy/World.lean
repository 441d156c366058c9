import Verif.DeepCopy.Head
import Verif.Deep.PropsEqual
/-
Concrete data to be copied, for examples.
-/
namespace Verif.DeepCopy.World
open Verif Verif.Entry Verif.Entry.Spec Verif.Value Verif.Value.Spec Verif.Handlers Verif.ValueString.Spec Verif.Deep.Spec Verif.DeepCopy.Spec Verif.Deep.World
open Verif.Bitfield.Spec (Field)
open Verif.Deep (Node Map Table)

/-- An allocator: the addresses 1000, 1100, ..., in this order, if there is room; at most
`limit` blocks. -/
def bump (limit : Nat) (st : State) (n s : Nat) : Option Nat :=
  let a := 1000 + 100 * st.live.length
  if st.live.length < limit ∧ a + n * s < 2 ^ 64 ∧ (∀ i < max (n * s) 1, st.m (a + i) = none) ∧ (∀ b ∈ st.live, a + max (n * s) 1 ≤ b.1 ∨ b.1 + max b.2 1 ≤ a) then some a else none

theorem bump_allocator (limit : Nat) : Allocator (bump limit) := by
  have key : ∀ {st n s a}, bump limit st n s = some a → a = 1000 + 100 * st.live.length ∧ a + n * s < 2 ^ 64 ∧ (∀ i < max (n * s) 1, st.m (a + i) = none) ∧
      (∀ b ∈ st.live, a + max (n * s) 1 ≤ b.1 ∨ b.1 + max b.2 1 ≤ a) := by
    intro st n s a h
    simp only [bump] at h
    split at h
    · next hc => cases h; exact ⟨rfl, hc.2⟩
    · cases h
  refine ⟨?_, ?_, ?_, ?_⟩
  · intro st n s a h
    have := (key h).1
    omega
  · intro st n s a h
    exact (key h).2.1
  · intro st n s a h
    exact (key h).2.2.1
  · intro st n s a h b k hb
    exact (key h).2.2.2 (b, k) hb

/-- Entries by `bump`; insertions into the table succeed. -/
def copier (es : List Entry) (limit : Nat) (custom : Bool := false) : DeepCopy.Env where
  deep := Deep.World.env es
  calloc := bump limit
  custom := custom
  put := fun _ => true
  each := id
  copyParams := fun m _ _ => .ok (none, m)

theorem id_each : Each id := fun l => .refl l

mutual
/-- All nodes of a tree. -/
def nodes : Node → List Node
  | .mk i v s l d ks => .mk i v s l d ks :: nodesAll ks
def nodesAll : List Node → List Node
  | [] => []
  | k :: ks => nodes k ++ nodesAll ks
end

theorem nodes_self (k : Node) : k ∈ nodes k := by cases k; simp [nodes]

mutual
theorem nodes_kid : ∀ {k x y : Node}, x ∈ nodes k → y ∈ x.kids → y ∈ nodes k
  | .mk i v s l d ks, x, y, hx, hy => by
    simp only [nodes, List.mem_cons] at hx ⊢
    rcases hx with rfl | hx
    · exact .inr (nodesAll_mem hy)
    · exact .inr (nodesAll_kid hx hy)
theorem nodesAll_mem : ∀ {ks : List Node} {y : Node}, y ∈ ks → y ∈ nodesAll ks
  | k :: ks, y, hy => by
    simp only [nodesAll, List.mem_append]
    rcases List.mem_cons.mp hy with rfl | hy
    · exact .inl (nodes_self y)
    · exact .inr (nodesAll_mem hy)
theorem nodesAll_kid : ∀ {ks : List Node} {x y : Node}, x ∈ nodesAll ks → y ∈ x.kids → y ∈ nodesAll ks
  | k :: ks, x, y, hx, hy => by
    simp only [nodesAll, List.mem_append] at hx ⊢
    rcases hx with hx | hx
    · exact .inl (nodes_kid hx hy)
    · exact .inr (nodesAll_kid hx hy)
end

theorem nodes_within {k x : Node} (h : Within k x) : x ∈ nodes k := by
  induction h with
  | top => exact nodes_self _
  | part _ hy ih => exact nodes_kid ih hy

/-- What the copy of a node is to hold; `none`: not known, `some none`: nothing. -/
def wantOf (cfg : Plat) (mode : Deep.Mode) (db : Db) (m : Mem) (x : Node) : Option (Option (Nat × Nat × Want)) :=
  match fin db 100 x.val.entry with
  | none => none
  | some f =>
    match (db f).info with
    | .struct .struct _ _ => some none
    | .array _ _ => some none
    | .pointer _ =>
      match m.loadN x.val.addr 8 with
      | .ok p =>
        if p = 0 then some (some (0, 64, .num 0))
        else if x.kids.length ≠ 0 ∨ x.loop ≠ 0 then some (some (0, 64, .copyOf p))
        else match mode.uptr with
          | .ignore => some (some (0, 64, .num 0))
          | .asValues => some (some (0, 64, .num p))
          | _ => none
      | _ => none
    | .enumeration s _ _ =>
      if s = 4 ∧ x.val.addr ≠ 0 ∧ x.size = 4 then
        match m.loadN x.val.addr 4 with
        | .ok n => some (some (0, 8 * x.size, .num n))
        | _ => none
      else none
    | _ =>
      match tyOf (db f) with
      | none => none
      | some t =>
        if plainEntry (db x.val.entry) ∧ x.val.addr ≠ 0 ∧ x.size = Value.Spec.sizeOf t then
          match m.loadN x.val.addr (Value.Spec.sizeOf t) with
          | .ok n => some (some (0, 8 * x.size, .num (cfg.passed t n % 256 ^ Value.Spec.sizeOf t)))
          | _ => none
        else none

theorem wantOf_some {cfg : Plat} {mode : Deep.Mode} {db : Db} {m : Mem} {x : Node} {o l : Nat} {u : Want} (h : wantOf cfg mode db m x = some (some (o, l, u))) :
    Wants cfg mode db m x o l u := by
  unfold wantOf at h
  split at h
  · cases h
  next f hf =>
  obtain ⟨qs, hf⟩ := fin_sound hf
  split at h
  · cases h
  · cases h
  · next t hi =>
    have ht : Typed db x.val (.pointer t) := ⟨f, qs, hf, hi⟩
    split at h
    · next p hp =>
      have hh := holds_loadN.mpr hp
      split at h
      · next h0 => cases h; subst h0; exact .null ht hh
      next h0 =>
      split at h
      · next hk => cases h; exact .followed ht hh h0 (hk.imp (fun h h' => h (by rw [h']; rfl)) (fun h => h))
      next hk =>
      have hk1 : x.kids = [] := by
        by_cases h : x.kids.length = 0
        · exact List.length_eq_zero_iff.mp h
        · exact absurd (.inl h) hk
      have hk2 : x.loop = 0 := by
        by_cases h : x.loop = 0
        · exact h
        · exact absurd (.inr h) hk
      split at h
      · next hm => cases h; exact .dropped ht hh h0 hk1 hk2 hm
      · next hm => cases h; exact .kept ht hh h0 hk1 hk2 hm
      · cases h
    · cases h
  · next s e es hi =>
    split at h
    · next hc =>
      obtain ⟨rfl, h0, hs⟩ := hc
      split at h
      · next n hn =>
        cases h
        exact .enumeration ⟨f, qs, hf, hi⟩ h0 hs (.inr (.inr (.inl rfl))) (holds_loadN.mpr hn)
      · cases h
    · cases h
  · split at h
    · cases h
    next t ht =>
    obtain ⟨hd, htt⟩ := tyOf_sound ht
    split at h
    · next hc =>
      obtain ⟨hp, h0, hs⟩ := hc
      split at h
      · next n hn =>
        cases h
        exact .number ⟨⟨f, qs, hf, hd⟩, plainEntry_sound hp, h0, holds_loadN.mpr hn, by rcases htt with rfl | rfl | rfl <;> simp⟩ hs
      · cases h
    · cases h

theorem wantOf_none {cfg : Plat} {mode : Deep.Mode} {db : Db} {m : Mem} {x : Node} (h : wantOf cfg mode db m x = some none) (o l : Nat) (u : Want) :
    ¬ Wants cfg mode db m x o l u := by
  unfold wantOf at h
  split at h
  · cases h
  next f hf =>
  obtain ⟨qs, hf⟩ := fin_sound hf
  split at h
  · next hi => exact no_wants ⟨f, qs, hf, hi⟩ (by simp) (by simp) (by simp) (by simp) o l u
  · next hi => exact no_wants ⟨f, qs, hf, hi⟩ (by simp) (by simp) (by simp) (by simp) o l u
  · split at h
    · split at h
      · cases h
      · split at h
        · cases h
        · split at h <;> cases h
    · cases h
  · split at h
    · split at h <;> cases h
    · cases h
  · split at h
    · cases h
    · split at h
      · split at h <;> cases h
      · cases h

/-- No object is `const`. -/
theorem writable_of {es : List Entry} (h : (es.all fun e => match e.info with | .qual .const _ => false | _ => true) = true) (r : Ref) : Writable (world es) r := by
  have no : ∀ r t, (world es r).info ≠ .qual .const t := by
    intro r t hi
    unfold world at hi
    split at hi
    · next e he =>
      have := List.all_eq_true.mp h e (List.mem_of_getElem? he)
      rw [hi] at this
      cases this
    · cases hi
  intro x qs hf
  suffices ∀ {o : Option Ref} {r : Ref} {qs : List Qual}, Final (world es) r o qs → Qual.const ∉ qs from this hf
  have hown : ∀ r, Qual.const ∉ own (world es) r := by
    intro r hc
    unfold own at hc
    split at hc
    · next q t hi =>
      simp only [List.mem_singleton] at hc
      subst hc
      exact no _ _ hi
    · cases hc
  intro o r qs hf
  induction hf with
  | here => simp
  | void => exact hown _
  | step _ _ ih => simp only [List.mem_append, not_or]; exact ⟨hown _, ih⟩

/-- Entries that are no calls or unions, and no bit-fields. -/
def tame (db : Db) (r : Ref) : Bool :=
  plainEntry (db r) &&
  (match (db r).info with | .param .. => false | _ => true) &&
  match fin db 100 r with
  | none => false
  | some f => match (db f).info with | .subprogram .. | .subroutine .. | .struct .union _ _ => false | _ => true

def overlapOk (x y : Node) (c d : Nat × Nat × Want) : Bool :=
  decide (8 * x.val.addr + c.1 + c.2.1 ≤ 8 * y.val.addr + d.1) || decide (8 * y.val.addr + d.1 + d.2.1 ≤ 8 * x.val.addr + c.1) ||
    decide (8 * x.val.addr + c.1 = 8 * y.val.addr + d.1 ∧ c.2.1 = d.2.1 ∧ c.2.2 = d.2.2)

def isScalar (db : Db) (v : Value) : Bool :=
  match fin db 100 v.entry with
  | none => false
  | some f => scalar (db f).info

/-- The cells of a tree: the nodes whose copies are to hold something. -/
def cells (cfg : Plat) (mode : Deep.Mode) (db : Db) (m : Mem) (k : Node) : List (Node × Nat × Nat × Want) :=
  (nodes k).filterMap fun x => match wantOf cfg mode db m x with | some (some c) => some (x, c) | _ => none

def copyableB (cfg : Plat) (mode : Deep.Mode) (db : Db) (m : Mem) (M : Map) : Bool :=
  (nodes M.top).all (fun x => tame db x.val.entry &&
    (match wantOf cfg mode db m x with | none => false | some none => !isScalar db x.val | some (some _) => true) &&
    (!x.deref || match m.loadN x.val.addr 8 with
      | .ok p => x.kids.all fun k => decide (k.val.addr ≠ 0 ∧ k.val.addr ≤ p ∧ p < k.val.addr + max k.size 1)
      | _ => false)) &&
  ((cells cfg mode db m M.top).all fun c => (cells cfg mode db m M.top).all fun d => overlapOk c.1 d.1 c.2 d.2) &&
  (M.map.all fun e => M.map.any fun b => decide (b.1 = e.1 - M.offset e.2.1 ∧ M.offset b.2.1 = 0 ∧ M.offset e.2.1 + e.2.2 ≤ b.2.2)) &&
  (M.map.all fun e => decide (0 < e.2.2)) &&
  ((targets M.top).all fun t => (targets M.top).all fun u => decide (t.val.addr = u.val.addr → t.id = u.id) || M.map.any fun b => decide (b.1 = t.val.addr ∧ M.offset b.2.1 = 0))

theorem fin_info {db : Db} {v : Value} {f : Ref} (h : fin db 100 v.entry = some f) {i : Info} (ht : Typed db v i) : (db f).info = i := by
  obtain ⟨qs, hf⟩ := fin_sound h
  exact Deep.typed_unique ⟨f, qs, hf, rfl⟩ ht

section
variable {es : List Entry} {limit : Nat} {mode : Deep.Mode} {m : Mem} {M : Map}

theorem copyable_want (h : copyableB (copier es limit).cfg mode (world es) m M = true) {x : Node} (hx : Within M.top x) {o l : Nat} {u : Want}
    (hw : Wants (copier es limit).cfg mode (world es) m x o l u) : (x, o, l, u) ∈ cells (copier es limit).cfg mode (world es) m M.top := by
  simp only [copyableB, Bool.and_eq_true, List.all_eq_true] at h
  obtain ⟨⟨⟨⟨h1, _⟩, _⟩, _⟩, _⟩ := h
  have h1 := (h1 x (nodes_within hx)).1.2
  simp only [cells, List.mem_filterMap]
  refine ⟨x, nodes_within hx, ?_⟩
  split at h1
  · cases h1
  · next hn => exact absurd hw (wantOf_none hn o l u)
  · next c hc =>
    obtain ⟨o', l', u'⟩ := c
    obtain ⟨rfl, rfl, rfl⟩ := wants_unique hw (wantOf_some hc)
    rw [hc]

theorem copyable_of (hc : (es.all fun e => match e.info with | .qual .const _ => false | _ => true) = true)
    (h : copyableB (copier es limit).cfg mode (world es) m M = true) : Copyable (copier es limit) mode (world es) m M := by
  have hcell := fun x hx o l u hw => copyable_want h (x := x) hx (o := o) (l := l) (u := u) hw
  simp only [copyableB, Bool.and_eq_true, List.all_eq_true] at h
  obtain ⟨⟨⟨⟨h1, h2⟩, h3⟩, h4⟩, h5⟩ := h
  have tam : ∀ x, Within M.top x → plainEntry (world es x.val.entry) = true ∧ (∀ u t, (world es x.val.entry).info ≠ .param u t) ∧
      ∀ i, Typed (world es) x.val i → (∀ t ps, i ≠ .subprogram t ps) ∧ (∀ t ps, i ≠ .subroutine t ps) ∧ ∀ s ms, i ≠ .struct .union s ms := by
    intro x hx
    have := (h1 x (nodes_within hx)).1.1
    simp only [tame, Bool.and_eq_true] at this
    obtain ⟨⟨a1, a2⟩, a3⟩ := this
    refine ⟨a1, ?_, ?_⟩
    · intro u t hp
      rw [hp] at a2
      cases a2
    · intro i hi
      split at a3
      · cases a3
      next f hf =>
      rw [fin_info hf hi] at a3
      refine ⟨?_, ?_, ?_⟩ <;> rintro _ _ rfl <;> cases a3
  refine ⟨?_, ?_, ?_, fun _ y _ _ => writable_of hc _, ?_, ?_, ?_, ?_, ?_, ?_, ?_⟩
  · intro x hx
    obtain ⟨_, a2, a3⟩ := tam x hx
    exact ⟨fun ⟨u, t, hp, _⟩ => a2 u t hp, fun t ps ht => (a3 _ ht).1 t ps rfl, fun t ps ht => (a3 _ ht).2.1 t ps rfl⟩
  · intro x hx hs
    have := (h1 x (nodes_within hx)).1.2
    split at this
    · cases this
    · next hn =>
      simp only [isScalar] at this
      split at this
      · next hf =>
        unfold wantOf at hn
        rw [hf] at hn
        cases hn
      · next f hf =>
        obtain ⟨qs, hf⟩ := fin_sound hf
        rw [scalar_iff hf hs] at this
        cases this
    · next c hc => exact ⟨_, _, _, wantOf_some hc⟩
  · rintro _ x hx _ ⟨s, ms, ht⟩
    exact absurd rfl (((tam x hx).2.2 _ ht).2.2 s ms)
  · intro x y o l u o' l' w hx hy hu hw
    have := h2 _ (hcell x hx o l u hu) _ (hcell y hy o' l' w hw)
    simpa [overlapOk, or_assoc] using this
  · intro y x mi hy hx hmi hb
    exact absurd hb (plainEntry_sound (tam x (.part hy hx)).1)
  · exact plainEntry_sound (tam M.top .top).1
  · rintro a n o ⟨id, he, rfl⟩
    have := h3 _ he
    simp only [List.any_eq_true, decide_eq_true_eq] at this
    obtain ⟨⟨b, id', s⟩, hb, h6, h7, h8⟩ := this
    simp only at h6 h7 h8
    subst h6
    exact ⟨s, ⟨id', hb, h7⟩, h8⟩
  · rintro b a n ⟨id, he, _⟩
    have := of_decide_eq_true (h4 _ he)
    simp only at this
    omega
  · intro t u ht hu he
    have := h5 t ht u hu
    rw [Bool.or_eq_true] at this
    rcases this with h | h
    · exact .inl (of_decide_eq_true h he)
    · simp only [List.any_eq_true, decide_eq_true_eq] at h
      obtain ⟨⟨b, id, n⟩, hb, h6, h7⟩ := h
      simp only at h6
      subst h6
      exact .inr ⟨n, id, hb, h7⟩
  · intro x k p hx hd hk hp
    have := (h1 x (nodes_within hx)).2
    rw [hd] at this
    simp only [Bool.not_true, Bool.false_or] at this
    rw [holds_loadN.mp hp] at this
    simpa using List.all_eq_true.mp this k hk

def roomB (cfg : Plat) (mode : Deep.Mode) (db : Db) (m : Mem) (M : Map) (dst : Value) : Bool :=
  plainEntry (db dst.entry) && decide (dst.addr ≠ 0) && ((List.range M.top.size).all fun i => decide (m (dst.addr + i) = some 0)) &&
  ((cells cfg mode db m M.top).all fun c => decide (8 * c.1.val.addr + c.2.1 + c.2.2.1 ≤ 8 * dst.addr) || decide (8 * (dst.addr + M.top.size) ≤ 8 * c.1.val.addr + c.2.1))

theorem room_of (hc : (es.all fun e => match e.info with | .qual .const _ => false | _ => true) = true)
    (h : copyableB (copier es limit).cfg mode (world es) m M = true) {dst : Value} (hr : roomB (copier es limit).cfg mode (world es) m M dst = true)
    {f : Ref} {s : List UInt8} (h1 : fin (world es) 100 M.top.val.entry = some f) (h2 : fin (world es) 100 dst.entry = some f) (h3 : CDecl.cdecl (world es) f = .ok (some s)) :
    Room (copier es limit) mode (world es) m M dst := by
  have hcell := fun x hx o l u hw => copyable_want h (x := x) hx (o := o) (l := l) (u := u) hw
  simp only [roomB, Bool.and_eq_true, List.all_eq_true, List.mem_range, decide_eq_true_eq, Bool.or_eq_true] at hr
  obtain ⟨⟨⟨r1, r2⟩, r3⟩, r4⟩ := hr
  obtain ⟨qs, f1⟩ := fin_sound h1
  obtain ⟨qs', f2⟩ := fin_sound h2
  exact ⟨⟨f, qs, qs', s, f1, f2, h3⟩, writable_of hc _, plainEntry_sound r1, r2, fun i hi => by rw [r3 i hi]; simp,
    fun x o l w hx hw => r4 _ (hcell x hx o l w hw), fun _ => r3⟩
end

end Verif.DeepCopy.World
