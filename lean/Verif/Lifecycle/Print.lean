import Verif.Lifecycle.Independent
import Verif.DeepCopy.PropsEqual
import Verif.ValueString.Props
/-
The copy is printed as the source is.
-/
namespace Verif.Lifecycle
open Verif Verif.Entry Verif.Entry.Spec Verif.Value Verif.Value.Spec Verif.Handlers Verif.ValueString.Spec Verif.PrintString.Spec Verif.Deep.Spec Verif.DeepCopy Verif.DeepCopy.Spec Verif.Lifecycle.Spec
open Verif.Deep (Node Map Table typed_unique)
open Verif.ValueString (tyText baseTypeString stringLoop_hit string_order stringOrder request_iff)

theorem reply_unique {env : ValueString.Env} {ev : Event} {v : Value} {outer : List Value} {r r' : Option Value} (h : Reply env ev v outer r) (h' : Reply env ev v outer r') : r = r' := by
  have h1 := request_iff.mpr h
  rw [request_iff.mpr h'] at h1
  simpa using h1.symm

theorem site_tree {env : Deep.Env} {mode : Deep.Mode} {db : Db} {m : Mem} {W : Nat → Nat} {k : Node} {dst : Value} {outs : List (Node × Value)} {x : Node} {w : Value}
    (ht : Tree env mode db m [] k) (hs : Site W k dst outs x w) : Tree env mode db m (outs.map (·.1.val)) x := by
  induction hs with
  | top => exact ht
  | part _ hd hy ih =>
    cases ih with
    | leaf => cases hy
    | parts _ _ _ hks => exact hks _ hy
    | target => cases hd
    | args _ _ hks => exact hks _ hy
  | target _ hd hy ih =>
    cases ih with
    | leaf => cases hd
    | parts => cases hd
    | target _ hk =>
      simp only [Node.kids, List.mem_singleton] at hy
      subst hy
      exact hk
    | args => cases hd

theorem site_entry {W : Nat → Nat} {k : Node} {dst : Value} {outs : List (Node × Value)} {x : Node} {w : Value} (he : dst.entry = k.val.entry)
    (hs : Site W k dst outs x w) : w.entry = x.val.entry := by
  cases hs with
  | top => exact he
  | part => rfl
  | target => rfl

theorem tyText_same {env env' : ValueString.Env} (h : Printing env env') (t : Ty) (n : Nat) : tyText env' t n = tyText env t n := by
  unfold tyText
  rw [h.pr, h.flt]

theorem tyText_real {env : ValueString.Env} {t : Ty} (h : ¬ Integral t) (n : Nat) : tyText env t n = .ok (env.flt t n) := by
  cases t <;> first | exact absurd trivial h | rfl

section
variable {env : DeepCopy.Env} {order : Table → Table} {mode : Deep.Mode} {db : Db} {st₀ st₁ : State} {M : Map} {dst : Value} {B : Blocks}

theorem base_copy (h : Setup env order mode db st₀ M dst st₁ B) {st' : State} (hi : Inv env mode db st₀ M dst B st'.m)
    {m : Mem} (H : Has env mode db st₀ M dst B m) {env' : Deep.Env} (hcfg : env'.cfg = env.cfg) (hpr : Printing env.vs env'.vs) (hsh : Showable env mode db st₀.m M)
    {x : Node} {w : Value} (hc : Copy (place B) M.top dst x w) {s : UInt64} {e : Nat} (ho : Typed db x.val (.base s e)) {t : ValueString.Text}
    (hb : baseTypeString env.vs db st₀.m x.val = .ok (some t)) : baseTypeString env'.vs db m w = .ok (some t) := by
  obtain ⟨c, hcon⟩ := hsh.readable.leaf x (copy_within hc) (.inl ⟨_, _, ho⟩)
  obtain ⟨_, d, hd, hcd⟩ := h.content_same hi H hc hcon
  have key : ∃ ty, c.type = some ty := by
    cases hct : c.type with
    | some ty => exact ⟨ty, rfl⟩
    | none =>
      obtain ⟨_, _, _, h2⟩ := (Deep.content_type hcon).2 hct
      have := typed_unique ho h2
      cases this
  obtain ⟨ty, hty⟩ := key
  have hty' : d.type = some ty := by
    rcases hcd with ⟨rfl, _⟩ | ⟨_, _, rfl, _, _, rfl⟩
    · exact hty
    · exact hty
  obtain ⟨f, qs, n, hf, hdf, hg, hu, hgot⟩ := Deep.content_get h.sane.named hcon hty
  obtain ⟨f', qs', n', hf', hdf', hg', hu', hgot'⟩ := Deep.content_get h.sane.named hd hty'
  rw [baseTypeString, stringLoop_hit h.sane.named hf hdf hg stringOrder (string_order ty)] at hb
  rw [baseTypeString, stringLoop_hit h.sane.named hf' hdf' (by rw [hcfg]; exact hg') stringOrder (string_order ty), tyText_same hpr]
  rcases hcd with ⟨rfl, hne⟩ | ⟨ty', n0, rfl, _, hnt, rfl⟩
  · have : n' = n := by
      cases hgot with
      | num hint hlt =>
        generalize hgen : Leaf.num ty (intOf ty n) = l at hgot'
        cases hgot' with
        | num _ hlt' =>
          simp only [Leaf.num.injEq, true_and] at hgen
          exact (Deep.intOf_inj hlt hlt' hgen).symm
        | real => cases hgen
      | real => exact absurd rfl (hne _ _)
    rw [this]
    exact hb
  · cases hgot with
    | real _ =>
      cases hgot' with
      | real _ =>
        rw [tyText_real hnt] at hb ⊢
        rw [show env.flt ty (env.cfg.passed ty n % 256 ^ Value.Spec.sizeOf ty) = env.flt ty n from hsh.reals ty n hnt]
        exact hb

theorem enum_copy (h : Setup env order mode db st₀ M dst st₁ B) {st' : State} (hi : Inv env mode db st₀ M dst B st'.m)
    {m : Mem} (H : Has env mode db st₀ M dst B m) (hsh : Showable env mode db st₀.m M)
    {x : Node} {w : Value} (hc : Copy (place B) M.top dst x w) (he : w.entry = x.val.entry) {s : UInt64} {e : Nat} {es} (ho : Typed db x.val (.enumeration s e es)) {t : ValueString.Text}
    (hb : enumerationString db st₀.m (some x.val) = .ok (some t)) : enumerationString db m (some w) = .ok (some t) := by
  obtain ⟨c, hcon⟩ := hsh.readable.leaf x (copy_within hc) (.inr ⟨_, _, _, ho⟩)
  obtain ⟨_, d, hd, hcd⟩ := h.content_same hi H hc hcon
  have key : c.type = none := by
    cases hct : c.type with
    | none => rfl
    | some ty =>
      obtain ⟨_, _, h2⟩ := (Deep.content_type hcon).1 ty hct
      have := typed_unique ho h2
      cases this
  rcases hcd with ⟨rfl, _⟩ | ⟨_, _, rfl, _⟩
  · cases d with
    | num => cases key
    | real => cases key
    | enumeration i =>
      simp only [enumerationString, Deep.content_enum hcon, Deep.content_enum hd, he] at hb ⊢
      exact hb
  · cases key

/-- What a node that is no call is made of. -/
theorem node_cases {env : Deep.Env} {m : Mem} {outer : List Value} {x : Node} (ht : Tree env mode db m outer x)
    (hc : ¬ Packed env.vs db x.val ∧ (∀ t ps, ¬ Typed db x.val (.subprogram t ps)) ∧ ∀ t ps, ¬ Typed db x.val (.subroutine t ps)) :
    (∃ n, x.kids = [] ∧ x.deref = false ∧ n = x.size ∧ Consists env mode db m outer x.val (.leaf n x.loop)) ∨
    (∃ n, x.deref = false ∧ (∀ k ∈ x.kids, x.val.addr ≤ k.val.addr) ∧ Consists env mode db m outer x.val (.parts (x.kids.map Node.val) n)) ∨
    (∃ n k, x.kids = [k] ∧ x.deref = true ∧ Consists env mode db m outer x.val (.target k.val n)) := by
  cases ht with
  | leaf h => exact .inl ⟨_, rfl, rfl, rfl, h⟩
  | parts h hv hle => subst hv; exact .inr (.inl ⟨_, rfl, hle, h⟩)
  | target h => exact .inr (.inr ⟨_, _, rfl, rfl, h⟩)
  | args h =>
    exfalso
    cases h with
    | arguments h => exact hc.1 h
    | call h =>
      rcases h with h | h
      · exact hc.2.1 _ _ h.2.2
      · exact hc.2.2 _ _ h.2.2

/-- The parts of a struct. -/
theorem struct_kids {env : Deep.Env} {m : Mem} {outer : List Value} {x : Node} (ht : Tree env mode db m outer x)
    (hc : ¬ Packed env.vs db x.val ∧ (∀ t ps, ¬ Typed db x.val (.subprogram t ps)) ∧ ∀ t ps, ¬ Typed db x.val (.subroutine t ps)) {s : UInt64} {ms : List Ref}
    (ho : Typed db x.val (.struct .struct s ms)) : x.deref = false ∧ x.kids.length = ms.length ∧ ∀ (i : Nat) k, x.kids[i]? = some k → Member db x.val ms i k.val := by
  have no : ∀ {i : Info} {P : Prop}, ValueString.Spec.Object env.vs db x.val i → i ≠ .struct .struct s ms → P := fun h1 h2 => absurd (typed_unique h1.2.2 ho) h2
  rcases node_cases ht hc with ⟨n, _, _, _, h⟩ | ⟨n, hd, hle, h⟩ | ⟨n, k, _, _, h⟩
  · generalize x.loop = l at h
    cases h with
    | base h => exact no h (by simp)
    | enumeration h => exact no h (by simp)
    | null h => exact no h (by simp)
    | loop h => exact no h (by simp)
    | unknown h => exact no h (by simp)
  · generalize hvs : x.kids.map Node.val = vs at h
    cases h with
    | struct h1 h2 h3 h4 =>
      have := typed_unique h1.2.2 ho
      cases this
      refine ⟨hd, by rw [← h3, ← hvs, List.length_map], fun i k hk => h4 i k.val ?_⟩
      rw [← hvs, List.getElem?_map, hk]
      rfl
    | union h => exact no h (by simp)
    | unionMember h => exact no h (by simp)
    | array h => exact no h (by simp)
    | noElements h => exact no h (by simp)
  · cases h with
    | target h => exact no h (by simp)

/-- The part of a union. -/
theorem union_kids {env : Deep.Env} {m : Mem} {outer : List Value} {x : Node} (ht : Tree env mode db m outer x)
    (hc : ¬ Packed env.vs db x.val ∧ (∀ t ps, ¬ Typed db x.val (.subprogram t ps)) ∧ ∀ t ps, ¬ Typed db x.val (.subroutine t ps)) {s : UInt64} {ms : List Ref}
    (ho : Typed db x.val (.struct .union s ms)) {w : Value} (hne : ms ≠ []) (hr : Reply env.vs .unionMember x.val outer (some w)) :
    x.deref = false ∧ ∃ k, x.kids = [k] ∧ k.val = w := by
  have no : ∀ {i : Info} {P : Prop}, ValueString.Spec.Object env.vs db x.val i → i ≠ .struct .union s ms → P := fun h1 h2 => absurd (typed_unique h1.2.2 ho) h2
  rcases node_cases ht hc with ⟨n, _, _, _, h⟩ | ⟨n, hd, hle, h⟩ | ⟨n, k, _, _, h⟩
  · generalize x.loop = l at h
    cases h with
    | base h => exact no h (by simp)
    | enumeration h => exact no h (by simp)
    | null h => exact no h (by simp)
    | loop h => exact no h (by simp)
    | unknown h => exact no h (by simp)
  · generalize hvs : x.kids.map Node.val = vs at h
    cases h with
    | struct h => exact no h (by simp)
    | union h1 h2 h3 =>
      have := typed_unique h1.2.2 ho
      cases this
      have := reply_unique (h3 hne).1 hr
      cases this
    | unionMember h1 h2 h3 h4 =>
      have := reply_unique h4 hr
      cases this
      refine ⟨hd, ?_⟩
      cases hk : x.kids with
      | nil => rw [hk] at hvs; cases hvs
      | cons k ks =>
        rw [hk] at hvs
        cases ks with
        | nil => simp only [List.map_cons, List.map_nil, List.cons.injEq, and_true] at hvs; exact ⟨k, rfl, hvs⟩
        | cons => cases hvs
    | array h => exact no h (by simp)
    | noElements h => exact no h (by simp)
  · cases h with
    | target h => exact no h (by simp)

/-- What is around an array of unknown length is the same for printing and for copying. -/
theorem counted_same {env : Deep.Env} {outer : List Value} {v : Value} {e : Option Ref} {n : Int} {arr arr' : Value} (h : ValueString.Spec.Counted env.vs v outer e n arr)
    (h' : Deep.Spec.Counted env mode v outer e n arr') : arr = arr' := by
  cases h with
  | known h =>
    cases h' with
    | known => rfl
    | reply => exact absurd rfl h
    | empty => exact absurd rfl h
  | empty ht he =>
    cases h' with
    | known h => exact absurd rfl h
    | reply hr =>
      have := reply_unique hr (.noMap ht)
      cases this
    | empty => rfl
  | reply _ hr =>
    cases h' with
    | known h => exact absurd rfl h
    | reply hr' =>
      have := reply_unique hr hr'
      cases this
      rfl
    | empty hr' =>
      have := reply_unique hr hr'
      cases this

/-- The parts of an array. -/
theorem array_kids {env : Deep.Env} {m : Mem} {outer : List Value} {x : Node} (ht : Tree env mode db m outer x)
    (hc : ¬ Packed env.vs db x.val ∧ (∀ t ps, ¬ Typed db x.val (.subprogram t ps)) ∧ ∀ t ps, ¬ Typed db x.val (.subroutine t ps)) {e : Option Ref} {n : Int}
    (ho : Typed db x.val (.array e n)) {arr : Value} (hcn : ValueString.Spec.Counted env.vs x.val outer e n arr) {e' : Option Ref} {n' : Int} (ha : IsArray db arr e' n') :
    x.deref = false ∧ x.kids.length = n'.toNat ∧ (∀ k ∈ x.kids, x.val.addr ≤ k.val.addr) ∧ ∀ (i : Nat) k, x.kids[i]? = some k → Element db arr e' i k.val := by
  have no : ∀ {i : Info} {P : Prop}, ValueString.Spec.Object env.vs db x.val i → i ≠ .array e n → P := fun h1 h2 => absurd (typed_unique h1.2.2 ho) h2
  rcases node_cases ht hc with ⟨_, _, _, _, h⟩ | ⟨_, hd, hle, h⟩ | ⟨_, k, _, _, h⟩
  · generalize x.loop = l at h
    cases h with
    | base h => exact no h (by simp)
    | enumeration h => exact no h (by simp)
    | null h => exact no h (by simp)
    | loop h => exact no h (by simp)
    | unknown h => exact no h (by simp)
  · generalize hvs : x.kids.map Node.val = vs at h
    cases h with
    | struct h => exact no h (by simp)
    | union h => exact no h (by simp)
    | unionMember h => exact no h (by simp)
    | array h1 h2 h3 h4 h5 =>
      have := typed_unique h1.2.2 ho
      cases this
      have := counted_same hcn h2
      subst this
      obtain ⟨rfl, rfl⟩ := ValueString.isArray_unique ha h3
      refine ⟨hd, by rw [← h4, ← hvs, List.length_map], hle, fun i k hk => h5 i k.val ?_⟩
      rw [← hvs, List.getElem?_map, hk]
      rfl
    | noElements h1 h2 h3 h4 =>
      have := typed_unique h1.2.2 ho
      cases this
      have := counted_same hcn h2
      subst this
      obtain ⟨rfl, rfl⟩ := ValueString.isArray_unique ha h3
      have hk : x.kids = [] := List.map_eq_nil_iff.mp hvs
      refine ⟨hd, by rw [hk, List.length_nil]; omega, hle, fun i k hki => ?_⟩
      rw [hk] at hki
      cases hki
  · cases h with
    | target h => exact no h (by simp)

/-- What a pointer that is not NULL and closes no loop is made of. -/
theorem pointer_node {env : Deep.Env} {m : Mem} {outer : List Value} {x : Node} (ht : Tree env mode db m outer x)
    (hc : ¬ Packed env.vs db x.val ∧ (∀ t ps, ¬ Typed db x.val (.subprogram t ps)) ∧ ∀ t ps, ¬ Typed db x.val (.subroutine t ps)) {ty : Option Ref} {a : Nat}
    (ho : Typed db x.val (.pointer ty)) (hh : Holds m x.val.addr 8 a) (h0 : a ≠ 0) (hf : Fresh db m outer a) :
    (x.kids = [] ∧ x.loop = 0 ∧ Reply env.vs .pointerArrayCount x.val outer none ∧ ¬ Known db ty ∧ (mode.uptr = .ignore ∨ mode.uptr = .asValues)) ∨
    ∃ k, x.kids = [k] ∧ x.deref = true ∧ Deep.Spec.Target env mode db x.val outer ty a k.val := by
  have no : ∀ {i : Info} {P : Prop}, ValueString.Spec.Object env.vs db x.val i → i ≠ .pointer ty → P := fun h1 h2 => absurd (typed_unique h1.2.2 ho) h2
  rcases node_cases ht hc with ⟨_, hk, _, _, h⟩ | ⟨_, hd, hle, h⟩ | ⟨_, k, hk, hd, h⟩
  · generalize hl : x.loop = l at h
    cases h with
    | base h => exact no h (by simp)
    | enumeration h => exact no h (by simp)
    | null _ _ h => exact absurd (holds_unique hh h) h0
    | loop _ _ h1 h2 h3 =>
      exfalso
      have := holds_unique hh h1
      subst this
      obtain ⟨i, w, _, g1, ⟨g2, ⟨f, qs, t, g3, g4⟩, g5⟩, _⟩ := h3
      obtain ⟨b, hb, hne⟩ := hf w (List.mem_of_getElem? g1) f qs t g3 g4 g2
      exact hne (holds_unique hb g5)
    | unknown h1 h2 h3 h4 h5 h6 h7 h8 =>
      have := typed_unique h1.2.2 ho
      cases this
      exact .inl ⟨hk, rfl, h6, h7, h8⟩
  · generalize hvs : x.kids.map Node.val = vs at h
    cases h with
    | struct h => exact no h (by simp)
    | union h => exact no h (by simp)
    | unionMember h => exact no h (by simp)
    | array h => exact no h (by simp)
    | noElements h => exact no h (by simp)
  · generalize hkv : k.val = kv at h
    cases h with
    | target h1 h2 h3 h4 h5 h6 =>
      have := typed_unique h1.2.2 ho
      cases this
      have := holds_unique hh h3
      subst this
      exact .inr ⟨k, hk, hd, by rw [hkv]; exact h6⟩

/-- What is printed of a target is what was copied of it. -/
theorem target_same {env : Deep.Env} {outer : List Value} {v : Value} {ty : Option Ref} {a : Nat} {arr arr' : Value} (h : ValueString.Spec.Target env.vs db v outer ty a arr)
    (h' : Deep.Spec.Target env mode db v outer ty a arr') (hm : mode.uptr ≠ .oneByte) : arr' = arr := by
  cases h with
  | reply hr =>
    cases h' with
    | reply hr' => have := reply_unique hr hr'; cases this; rfl
    | one hr' => have := reply_unique hr hr'; cases this
    | byte hr' => have := reply_unique hr hr'; cases this
  | one hr he =>
    cases h' with
    | reply hr' => have := reply_unique hr hr'; cases this
    | one _ _ he' => rw [he] at he'; cases he'; rfl
    | byte _ _ h => exact absurd h hm

/-- What handlers say of the copy. -/
structure Says (env env' : Deep.Env) (W : Nat → Nat) (k : Node) (dst : Value) : Prop where
  dyn : env'.dyn = env.dyn
  vaList : env'.vaList = env.vaList
  copy : ∀ outs x w ev r, Site W k dst outs x w → Reply env.vs ev x.val (outs.map (·.1.val)) r → Reply env'.vs ev w (outs.map (·.2)) (r.map (moved W ev x.val w))

theorem Says.of {env env' : Deep.Env} {W : Nat → Nat} {k : Node} {dst : Value} (h : Answers env env' W k dst) : Says env env' W k dst := ⟨h.dyn, h.vaList, h.copy⟩

theorem Says.still {env env' env'' : Deep.Env} {W : Nat → Nat} {k : Node} {dst : Value} (h : Answers env env' W k dst) (hs : Still env' env'' W k dst) : Says env env'' W k dst :=
  ⟨hs.dyn.trans h.dyn, hs.vaList.trans h.vaList, fun outs x w ev r h1 h2 => hs.reply x w (site_copy h1).1 _ _ _ (h.copy outs x w ev r h1 h2)⟩

/-- The copy has what it is to hold as long as its memory is the same. -/
theorem has_same (h : Setup env order mode db st₀ M dst st₁ B) {m m' : Mem} (H : Has env mode db st₀ M dst B m) (hs : SameCopy M dst (place B) m m') : Has env mode db st₀ M dst B m' :=
  ⟨fun x w o l u hc hw => copy_values h hs hc hw (H.values x w o l u hc hw), fun r hr a ha => by rw [region_bytes h hs hr ha]; exact H.mapped r hr a ha⟩

/-- The array printed in place of the copy. -/
theorem counted_copy {env' : Deep.Env} (ha : Says env.deep env' (place B) M.top dst) (hpr : Printing env.vs env'.vs)
    {outs : List (Node × Value)} {x : Node} {w : Value} (hs : Site (place B) M.top dst outs x w) (hent : w.entry = x.val.entry) (hw0 : w.addr ≠ 0)
    {e : Option Ref} {n : Int} {arr : Value} (hc : ValueString.Spec.Counted env.vs x.val (outs.map (·.1.val)) e n arr) :
    ∃ arr', ValueString.Spec.Counted env'.vs w (outs.map (·.2)) e n arr' ∧ arr'.entry = arr.entry ∧ arr'.addr = w.addr + (arr.addr - x.val.addr) := by
  cases hc with
  | known h => exact ⟨w, .known h, hent, by simp⟩
  | empty h1 h2 => exact ⟨_, .empty (hpr.tags.mpr h1) h2, by rw [← ha.dyn], by simp⟩
  | reply h1 h2 => exact ⟨_, .reply (fun h => h1 (hpr.tags.mp h)) (ha.copy _ _ _ _ _ hs h2), rfl, rfl⟩

/-- The bytes of an array of characters are copied. -/
theorem chars_copy (h : Setup env order mode db st₀ M dst st₁ B) {st' : State} (hi : Inv env mode db st₀ M dst B st'.m)
    {m : Mem} (H : Has env mode db st₀ M dst B m) (hsh : Showable env mode db st₀.m M) {outs : List (Node × Value)} {x : Node} {w : Value} (hs : Site (place B) M.top dst outs x w)
    {e : Option Ref} {n : Int} (ho : Typed db x.val (.array e n)) {arr arr' : Value} (hcn : ValueString.Spec.Counted env.vs x.val (outs.map (·.1.val)) e n arr)
    (haddr : arr'.addr = w.addr + (arr.addr - x.val.addr)) {k : Nat} (hch : Chars db arr k) : ∀ i < k, m (arr'.addr + i) = st₀.m (arr.addr + i) ∧ st₀.m (arr.addr + i) ≠ none := by
  obtain ⟨c1, _⟩ := site_copy hs
  obtain ⟨h0, y, qs, t, f, qs', bs, be, g1, g2, g3, g4, g5⟩ := hch
  obtain ⟨k1, k2, k3, k4⟩ := array_kids (site_tree h.tree hs) (h.copyable.calls _ (copy_within c1)) ho hcn (e' := some t) (n' := k) ⟨h0, y, qs, g1, g2⟩
  intro i hik
  have hlt : i < x.kids.length := by rw [k2]; omega
  have hk : x.kids[i]? = some x.kids[i] := List.getElem?_eq_getElem hlt
  obtain ⟨r, sz, hr, hsz, hval⟩ := k4 i _ hk
  cases hr
  have hmem : x.kids[i] ∈ x.kids := List.getElem_mem hlt
  have hle := k3 _ hmem
  have hk0 : x.kids[0]? = some x.kids[0] := List.getElem?_eq_getElem (by omega)
  obtain ⟨r, sz', hr, hsz', hval0⟩ := k4 0 _ hk0
  cases hr
  have hle0 := k3 _ (List.getElem_mem (by omega : 0 < x.kids.length))
  rw [hval0] at hle0
  simp only [Nat.zero_mul, Nat.add_zero] at hle0
  have hc : Copy (place B) M.top dst x.kids[i] _ := .part c1 k1 hmem
  have hty : Typed db x.kids[i].val (.base bs be) := by rw [hval]; exact ⟨f, qs', g3, g4⟩
  have hnb : ¬ IsBitfield db x.kids[i].val.entry := by rw [hval]; exact hsh.elements _ _ _ g2
  obtain ⟨o, l, u, hwant⟩ := h.copyable.numbers _ (copy_within hc) (.inl ⟨_, _, hty⟩)
  have no : ∀ {i' : Info} {P : Prop}, Typed db x.kids[i].val i' → i' ≠ .base bs be → P := fun h1 h2 => absurd (typed_unique h1 hty) h2
  cases hwant with
  | @number ty v hob hsize =>
    obtain ⟨f', qs'', e1, bs', be', e2, e3, _⟩ := hob.type
    have : f' = f := by
      rw [hval] at e1
      have := final_unique e1 g3
      cases this
      rfl
    subst this
    have hch : ty = .char := by
      rw [g5] at e3
      cases ty <;> first | rfl | simp [typeName] at e3
    subst hch
    have hone : sz = 1 := by
      have hkt : Tree env.deep mode db st₀.m _ x.kids[i] := site_tree h.tree (.part hs k1 hmem)
      have nok : ∀ {i' : Info} {P : Prop}, ValueString.Spec.Object env.vs db x.kids[i].val i' → i' ≠ .base bs be → P := fun h1 h2 => no h1.2.2 h2
      rcases node_cases hkt (h.copyable.calls _ (copy_within hc)) with ⟨n, _, _, hn, hl⟩ | ⟨n, _, _, hl⟩ | ⟨n, k, _, _, hl⟩
      · generalize x.kids[i].loop = l at hl
        have hkey : Size db x.kids[i].val.entry n := by
          cases hl with
          | base _ h => exact h
          | enumeration h => exact nok h (by simp)
          | null h => exact nok h (by simp)
          | loop h => exact nok h (by simp)
          | unknown h => exact nok h (by simp)
        rw [hn, hsize, hval] at hkey
        exact Deep.size_unique h.sane hsz hkey
      · generalize x.kids[i].kids.map Node.val = vs at hl
        cases hl with
        | struct h => exact nok h (by simp)
        | union h => exact nok h (by simp)
        | unionMember h => exact nok h (by simp)
        | array h => exact nok h (by simp)
        | noElements h => exact nok h (by simp)
      · cases hl with
        | target h => exact nok h (by simp)
    subst hone
    have hobj := (h.content_number hi H hc hob).2 (.inr (by simp))
    rw [passed_integral (t := .char) trivial, Nat.mod_eq_of_lt hob.content.1] at hobj
    have a1 := hob.content.2 0 (by decide)
    have a2 := hobj.content.2 0 (by decide)
    simp only [Nat.add_zero, hval, Nat.mul_one] at a1 a2
    rw [haddr, a1, show w.addr + (arr.addr - x.val.addr) + i = w.addr + (arr.addr + i - x.val.addr) by omega, a2]
    simp
  | bits hbo => exact absurd (bit_plain hbo) hnb
  | enumeration ht => exact no ht (by simp)
  | null ht => exact no ht (by simp)
  | followed ht => exact no ht (by simp)
  | dropped ht => exact no ht (by simp)
  | kept ht => exact no ht (by simp)
  | bytes ht => exact no ht (by simp)
  | zero ht => exact no ht (by simp)

theorem chars_entry {arr arr' : Value} (he : arr'.entry = arr.entry) (h0 : arr'.addr ≠ 0) {n : Nat} (h : Chars db arr n) : Chars db arr' n := by
  obtain ⟨_, h⟩ := h
  exact ⟨h0, by rw [he]; exact h⟩

theorem literal_copy (h : Setup env order mode db st₀ M dst st₁ B) {st' : State} (hi : Inv env mode db st₀ M dst B st'.m)
    {m : Mem} (H : Has env mode db st₀ M dst B m) (hsh : Showable env mode db st₀.m M) {outs : List (Node × Value)} {x : Node} {w : Value} (hs : Site (place B) M.top dst outs x w)
    {e : Option Ref} {n : Int} (ho : Typed db x.val (.array e n)) {arr arr' : Value} (hcn : ValueString.Spec.Counted env.vs x.val (outs.map (·.1.val)) e n arr)
    (he : arr'.entry = arr.entry) (haddr : arr'.addr = w.addr + (arr.addr - x.val.addr)) {pr : UInt8 → Bool} {t : ValueString.Text} (hl : Literal pr db st₀.m arr t) :
    Literal pr db m arr' t := by
  obtain ⟨cs, u, h1, h2, h3, h4⟩ := hl
  have h0 : arr'.addr ≠ 0 := by have := h.nonNull (site_copy hs).1; omega
  have hb := chars_copy h hi H hsh hs ho hcn haddr h1
  refine ⟨cs, u, chars_entry he h0 h1, h2, fun k c hk => ?_, h4⟩
  have hlt : k < (cs ++ [0]).length := by
    rcases Nat.lt_or_ge k (cs ++ [0]).length with h | h
    · exact h
    · rw [List.getElem?_eq_none h] at hk; cases hk
  rw [(hb k (by simpa using hlt)).1]
  exact h3 k c hk

theorem noLiteral_copy (h : Setup env order mode db st₀ M dst st₁ B) {st' : State} (hi : Inv env mode db st₀ M dst B st'.m)
    {m : Mem} (H : Has env mode db st₀ M dst B m) (hsh : Showable env mode db st₀.m M) {outs : List (Node × Value)} {x : Node} {w : Value} (hs : Site (place B) M.top dst outs x w)
    {e : Option Ref} {n : Int} (ho : Typed db x.val (.array e n)) {arr arr' : Value} (hcn : ValueString.Spec.Counted env.vs x.val (outs.map (·.1.val)) e n arr)
    (hne : arr.addr ≠ 0) (he : arr'.entry = arr.entry) (haddr : arr'.addr = w.addr + (arr.addr - x.val.addr)) {pr : UInt8 → Bool} (hl : NoLiteral pr db st₀.m arr) :
    NoLiteral pr db m arr' := by
  have h0 : arr'.addr ≠ 0 := by have := h.nonNull (site_copy hs).1; omega
  cases hl with
  | other h1 => exact .other fun n hn => h1 n (chars_entry he.symm hne hn)
  | short h1 h2 => exact .short ⟨h0, by rw [he]; exact h1.2⟩ h2
  | @unterminated n c h1 h2 h3 h4 =>
    have hb := chars_copy h hi H hsh hs ho hcn haddr h1
    exact .unterminated (chars_entry he h0 h1) h2 (by rw [(hb (n - 1) (by omega)).1]; exact h3) h4
  | @unprintable n cs c h1 h2 h3 h4 h5 h6 =>
    have hb := chars_copy h hi H hsh hs ho hcn haddr h1
    refine .unprintable (chars_entry he h0 h1) h2 (by rw [(hb (n - 1) (by omega)).1]; exact h3) (fun k d hk => ?_) h5 h6
    have hlt : k < (cs ++ [c]).length := by
      rcases Nat.lt_or_ge k (cs ++ [c]).length with h | h
      · exact h
      · rw [List.getElem?_eq_none h] at hk; cases hk
    rw [(hb k (by simp at hlt; omega)).1]
    exact h4 k d hk

theorem membersText_spot (W : Nat → Nat) (v w : Value) (d : Bool) (ws : List (Value × ValueString.Text)) :
    membersText db (ws.map fun p => (spot W v w d p.1, p.2)) = membersText db ws := by
  unfold membersText
  rw [List.flatMap_map]
  rfl

theorem elementsText_spot (W : Nat → Nat) (v w : Value) (d : Bool) (ws : List (Value × ValueString.Text)) :
    elementsText (ws.map fun p => (spot W v w d p.1, p.2)) = elementsText ws := by
  unfold elementsText
  rw [List.map_map]
  rfl

theorem wrapped_copy {v w : Value} (he : w.entry = v.entry) {t u : ValueString.Text} (h : Wrapped db v t u) : Wrapped db w t u := by
  cases h with
  | bare h1 h2 => exact .bare (by rw [he]; exact h1) (by rw [he]; exact h2)
  | notMember h => exact .notMember (by rw [he]; exact h)
  | named h => exact .named (by rw [he]; exact h)

/-- The copy is printed as the source is. -/
theorem shown_copy (h : Setup env order mode db st₀ M dst st₁ B) {st' : State} (hi : Inv env mode db st₀ M dst B st'.m)
    (C : Copied env mode db st₀ M dst st' (place B)) {m : Mem} (H : Has env mode db st₀ M dst B m) {env' : Deep.Env} (ha : Says env.deep env' (place B) M.top dst) (hp : ¬ Packed env.vs db dst)
    (hkept : Kept mode db st₀.m M) (hpr : Printing env.vs env'.vs) (hsh : Showable env mode db st₀.m M) (hent : dst.entry = M.top.val.entry)
    {outer : List Value} {v : Value} {t : ValueString.Text} (hshown : Shown env.vs true db st₀.m outer v t) :
    ∀ (outs : List (Node × Value)) (x : Node) (w : Value), outer = outs.map (·.1.val) → v = x.val → Site (place B) M.top dst outs x w →
      Shown env'.vs true db m (outs.map (·.2)) w t := by
  have hob : ∀ {mode : Deep.Mode}, mode.uptr = .fail ∨ mode.uptr = .asValues → mode.uptr ≠ .oneByte := by
    rintro mode (h | h) <;> rw [h] <;> simp
  have hm : mode.uptr ≠ .oneByte := hob (hsh.unknown.imp id (·.1))
  -- what pointers that are not NULL need
  have point : ∀ {outs : List (Node × Value)} {x : Node} {w : Value} {ty : Option Ref} {a : Nat} {arr : Value}, Site (place B) M.top dst outs x w →
      Typed db x.val (.pointer ty) → Holds st₀.m x.val.addr 8 a → a ≠ 0 → Fresh db st₀.m (outs.map (·.1.val)) a →
      ValueString.Spec.Target env.vs db x.val (outs.map (·.1.val)) ty a arr →
      ∃ k, k.val = arr ∧ Site (place B) M.top dst ((x, w) :: outs) k ⟨arr.entry, place B arr.addr⟩ ∧ Holds m w.addr 8 (place B a) ∧ place B a ≠ 0 ∧
        Fresh db m (outs.map (·.2)) (place B a) ∧ ValueString.Spec.Target env'.vs db w (outs.map (·.2)) ty (place B a) ⟨arr.entry, place B arr.addr⟩ ∧
        ∀ e n, IsArray db arr e n → IsArray db ⟨arr.entry, place B arr.addr⟩ e n := by
    intro outs x w ty a arr hs hty hh h0 hf htg
    obtain ⟨c1, c2⟩ := site_copy hs
    have hx := copy_within c1
    rcases pointer_node (site_tree h.tree hs) (h.copyable.calls _ hx) hty hh h0 hf with ⟨_, _, hr, hkn, _⟩ | ⟨k, hk, hd, htg'⟩
    · exfalso
      cases htg with
      | reply hr' => have := reply_unique hr hr'; cases this
      | one _ he =>
        subst he
        rcases hsh.unknown with hu | ⟨_, hu⟩
        · simp_all
        · exact hkn ⟨_, rfl, hu x _ hx hty⟩
    · have hkv := target_same htg htg' hm
      have hkm : k ∈ x.kids := by rw [hk]; exact List.mem_cons_self ..
      have hfo : Followed db st₀.m M x a := ⟨hx, ⟨ty, hty⟩, hh, h0, .inl (by simp [hk])⟩
      obtain ⟨_, s2, s3⟩ := C.separate _ _ _ hfo c1
      have hsite : Site (place B) M.top dst ((x, w) :: outs) k ⟨arr.entry, place B arr.addr⟩ := by rw [← hkv]; exact .target hs hd hkm
      have hn0 := h.nonNull (site_copy hsite).1
      refine ⟨k, hkv, hsite, H.followed hfo c1, s3, h.fresh_copy H c2 hf fun y b hb hne he => hne (C.sharing _ _ _ _ hb hfo he), ?_, fun e n hia => ⟨hn0, hia.2⟩⟩
      cases htg with
      | reply hr hae hia => exact .reply (ha.copy _ _ _ _ _ hs hr) (by simp only; rw [hae]) (⟨hn0, hia.2⟩ : IsArray db _ _ _)
      | one hr he => rw [← ha.dyn]; exact .one (ha.copy _ _ _ _ _ hs hr) he
  have typeText : ∀ {e type}, TypeText db (env.dyn { info := .array (some e) (-1) }) type → TypeText db (env'.dyn { info := .array (some e) (-1) }) type := by
    intro e type h
    rw [ha.dyn]
    exact h
  have calls : ∀ {P : Prop} {outs : List (Node × Value)} {x : Node} {w : Value}, Site (place B) M.top dst outs x w → Packed env.vs db x.val → P := fun hs hpk =>
    absurd hpk (h.copyable.calls _ (copy_within (site_copy hs).1)).1
  induction hshown with
  | base ho hb =>
    rintro outs x w rfl rfl hs
    exact .base (h.object ha.vaList hp (site_copy hs).1 ho).2.1 (base_copy h hi H hpr.cfg hpr hsh (site_copy hs).1 ho.2.2 hb)
  | enumeration ho hb =>
    rintro outs x w rfl rfl hs
    exact .enumeration (h.object ha.vaList hp (site_copy hs).1 ho).2.1 (enum_copy h hi H hsh (site_copy hs).1 (site_entry hent hs) ho.2.2 hb)
  | null ho hh =>
    rintro outs x w rfl rfl hs
    have hw : Wants env.cfg mode db st₀.m x 0 64 (.num 0) := .null ho.2.2 hh
    exact .null (h.object ha.vaList hp (site_copy hs).1 ho).2.1 (holds_of_field8 (by simpa [Want.value] using H.values _ _ _ _ _ (site_copy hs).1 hw))
  | address hd => cases hd
  | @void outer v a _ ho hh h0 hf hr =>
    rintro outs x w rfl rfl hs
    obtain ⟨c1, c2⟩ := site_copy hs
    have hx := copy_within c1
    rcases pointer_node (site_tree h.tree hs) (h.copyable.calls _ hx) ho.2.2 hh h0 hf with ⟨hk, hl, _, _, hu⟩ | ⟨k, hk, hd, htg'⟩
    · have hu : mode.uptr = .asValues := by
        rcases hsh.unknown with hu' | ⟨hu', _⟩
        · simp_all
        · exact hu'
      have hw : Wants env.cfg mode db st₀.m x 0 64 (.num a) := .kept ho.2.2 hh h0 hk hl hu
      have e : env.vs.ptr a = env'.vs.ptr a := by rw [hpr.ptr]
      rw [e]
      refine .void rfl (h.object ha.vaList hp c1 ho).2.1 (holds_of_field8 (by simpa [Want.value] using H.values _ _ _ _ _ c1 hw)) h0 (h.fresh_copy H c2 hf ?_) (ha.copy _ _ _ _ _ hs hr)
      intro y b hb _ he
      have g1 := hkept hu x none a hx ho.2.2 hk hh h0
      obtain ⟨z, n, hz, z1, z2⟩ := C.pointers _ _ hb
      have := (C.fresh _ _ hz).1 (b - z) (by omega)
      rw [← C.inside _ _ _ hz z1 z2, he] at this
      exact g1 this
    · exfalso
      generalize k.val = kv at htg'
      cases htg' with
      | reply hr' => have := reply_unique hr hr'; cases this
      | one _ _ he => cases he
      | byte _ _ h => exact hm h
  | target hd ho hh h0 hf htg hst hia htt hq ih =>
    rintro outs x w rfl rfl hs
    obtain ⟨k, hkv, g1, g2, g3, g4, g5, g6⟩ := point hs ho.2.2 hh h0 hf htg
    exact .target rfl (h.object ha.vaList hp (site_copy hs).1 ho).2.1 g2 g3 g4 g5 (ih ((x, w) :: outs) k _ rfl hkv.symm g1) (g6 _ _ hia) (typeText htt) hq
  | string hd ho hh h0 hf htg hst hia htt hq ih =>
    rintro outs x w rfl rfl hs
    obtain ⟨k, hkv, g1, g2, g3, g4, g5, g6⟩ := point hs ho.2.2 hh h0 hf htg
    exact .string rfl (h.object ha.vaList hp (site_copy hs).1 ho).2.1 g2 g3 g4 g5 (ih ((x, w) :: outs) k _ rfl hkv.symm g1) (g6 _ _ hia) (typeText htt) hq
  | @struct outer v s ms ws t ho hlen hmem hsub hwr ih =>
    rintro outs x w rfl rfl hs
    obtain ⟨k1, k2, k3⟩ := struct_kids (site_tree h.tree hs) (h.copyable.calls _ (copy_within (site_copy hs).1)) ho.2.2
    have key : ∀ (i : Nat) u r, ws[i]? = some (u, r) → ∃ k, k ∈ x.kids ∧ k.val = u := by
      intro i u r hi
      have hlt : i < ws.length := by
        rcases Nat.lt_or_ge i ws.length with h | h
        · exact h
        · rw [List.getElem?_eq_none h] at hi; cases hi
      have hk : x.kids[i]? = some (x.kids[i]'(by omega)) := List.getElem?_eq_getElem (by omega)
      obtain ⟨r1, m1, a1, a2, a3⟩ := k3 i _ hk
      obtain ⟨r2, m2, b1, b2, b3⟩ := hmem i u r hi
      rw [a1] at b1
      cases b1
      rw [a2] at b2
      cases b2
      exact ⟨_, List.getElem_mem _, by rw [a3, b3]⟩
    refine .struct (h.object ha.vaList hp (site_copy hs).1 ho).2.1 (ws := ws.map fun p => (spot (place B) x.val w false p.1, p.2)) (by simpa using hlen) ?_ ?_ ?_
    · intro i u r hi
      rw [List.getElem?_map] at hi
      cases hw : ws[i]? with
      | none => rw [hw] at hi; cases hi
      | some p =>
        rw [hw] at hi
        cases hi
        obtain ⟨r1, m1, a1, a2, a3⟩ := hmem i p.1 p.2 hw
        exact ⟨r1, m1, a1, a2, by rw [a3]; simp [spot]⟩
    · intro u r hu
      obtain ⟨p, hpm, he⟩ := List.mem_map.mp hu
      cases he
      obtain ⟨i, hlt, hpi⟩ := List.getElem_of_mem hpm
      obtain ⟨k, hk, hkv⟩ := key i p.1 p.2 (by rw [List.getElem?_eq_getElem hlt, hpi])
      have := ih p.1 p.2 hpm ((x, w) :: outs) k _ rfl hkv.symm (.part hs k1 hk)
      simpa [spot, hkv] using this
    · rw [membersText_spot]
      exact wrapped_copy (site_entry hent hs) hwr
  | union ho hr hwr =>
    rintro outs x w rfl rfl hs
    exact .union (h.object ha.vaList hp (site_copy hs).1 ho).2.1 (fun hne => ha.copy _ _ _ _ _ hs (hr hne)) (wrapped_copy (site_entry hent hs) hwr)
  | @unionMember outer v s ms u t' t ho hne hr hsub hwr ih =>
    rintro outs x w rfl rfl hs
    obtain ⟨k1, k, hk, hkv⟩ := union_kids (site_tree h.tree hs) (h.copyable.calls _ (copy_within (site_copy hs).1)) ho.2.2 hne hr
    have hkm : k ∈ x.kids := by rw [hk]; exact List.mem_cons_self ..
    have := ih ((x, w) :: outs) k _ rfl hkv.symm (.part hs k1 hkm)
    rw [hkv] at this
    refine .unionMember (h.object ha.vaList hp (site_copy hs).1 ho).2.1 hne (ha.copy _ _ _ _ _ hs hr) this (wrapped_copy (site_entry hent hs) ?_)
    exact hwr
  | skipped ho ht hr =>
    rintro outs x w rfl rfl hs
    exact .skipped (h.object ha.vaList hp (site_copy hs).1 ho).2.1 (fun h => ht (hpr.tags.mp h)) (ha.copy _ _ _ _ _ hs hr)
  | literal ho hcn hl =>
    rintro outs x w rfl rfl hs
    obtain ⟨arr', g1, g2, g3⟩ := counted_copy ha hpr hs (site_entry hent hs) (h.nonNull (site_copy hs).1) hcn
    refine .literal (h.object ha.vaList hp (site_copy hs).1 ho).2.1 g1 ?_
    rw [hpr.pr]
    exact literal_copy h hi H hsh hs ho.2.2 hcn g2 g3 hl
  | @array outer v e n arr e' n' ws ho hcn hnl hia hlen hel hsub ih =>
    rintro outs x w rfl rfl hs
    obtain ⟨arr', g1, g2, g3⟩ := counted_copy ha hpr hs (site_entry hent hs) (h.nonNull (site_copy hs).1) hcn
    obtain ⟨k1, k2, k3, k4⟩ := array_kids (site_tree h.tree hs) (h.copyable.calls _ (copy_within (site_copy hs).1)) ho.2.2 hcn hia
    have key : ∀ (i : Nat) u r, ws[i]? = some (u, r) → x.val.addr ≤ arr.addr ∧ ∃ k, k ∈ x.kids ∧ k.val = u := by
      intro i u r hi
      have hlt : i < ws.length := by
        rcases Nat.lt_or_ge i ws.length with h | h
        · exact h
        · rw [List.getElem?_eq_none h] at hi; cases hi
      have hk : x.kids[i]? = some (x.kids[i]'(by omega)) := List.getElem?_eq_getElem (by omega)
      obtain ⟨r1, m1, a1, a2, a3⟩ := k4 i _ hk
      obtain ⟨r2, m2, b1, b2, b3⟩ := hel i u r hi
      rw [a1] at b1
      cases b1
      have := Deep.size_unique h.sane a2 b2
      subst this
      refine ⟨?_, _, List.getElem_mem _, by rw [a3, b3]⟩
      obtain ⟨r3, m3, _, _, c3⟩ := k4 0 _ (List.getElem?_eq_getElem (by omega : 0 < x.kids.length))
      have := k3 _ (List.getElem_mem (by omega : 0 < x.kids.length))
      rw [c3] at this
      simpa using this
    rw [← elementsText_spot (place B) x.val w false]
    have h0 : arr'.addr ≠ 0 := by have := h.nonNull (site_copy hs).1; omega
    refine .array (h.object ha.vaList hp (site_copy hs).1 ho).2.1 g1 ?_ (e' := e') (n' := n') ⟨h0, by rw [g2]; exact hia.2⟩ (by simpa using hlen) ?_ ?_
    · rw [hpr.pr]
      exact noLiteral_copy h hi H hsh hs ho.2.2 hcn hia.1 g2 g3 hnl
    · intro i u r hi
      rw [List.getElem?_map] at hi
      cases hw : ws[i]? with
      | none => rw [hw] at hi; cases hi
      | some p =>
        rw [hw] at hi
        cases hi
        obtain ⟨r1, m1, a1, a2, a3⟩ := hel i p.1 p.2 hw
        have := (key i p.1 p.2 hw).1
        exact ⟨r1, m1, a1, a2, by rw [a3, g3]; simp [spot]; omega⟩
    · intro u r hu
      obtain ⟨p, hpm, he⟩ := List.mem_map.mp hu
      cases he
      obtain ⟨i, hlt, hpi⟩ := List.getElem_of_mem hpm
      obtain ⟨_, k, hk, hkv⟩ := key i p.1 p.2 (by rw [List.getElem?_eq_getElem hlt, hpi])
      have := ih p.1 p.2 hpm ((x, w) :: outs) k _ rfl hkv.symm (.part hs k1 hk)
      simpa [spot, hkv] using this
  | arguments hpk =>
    rintro outs x w rfl rfl hs
    exact calls hs hpk
  | vaList hpk =>
    rintro outs x w rfl rfl hs
    exact calls hs hpk
  | call ho =>
    rintro outs x w rfl rfl hs
    exact absurd ho.2.2 ((h.copyable.calls _ (copy_within (site_copy hs).1)).2.1 _ _)
  | callPointer ho =>
    rintro outs x w rfl rfl hs
    exact absurd ho.2.2 ((h.copyable.calls _ (copy_within (site_copy hs).1)).2.2 _ _)
end
end Verif.Lifecycle
