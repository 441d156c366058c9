import Verif.Ffi.Spec
import Verif.HeapOwn
import Verif.Value.PropsObject
import Verif.Value.PropsBase
/-
Type descriptions: what is made, and its release.
-/
namespace Verif.Ffi
open Verif Verif.Entry Verif.Entry.Spec Verif.Value Verif.Value.Spec Verif.Handlers Verif.Ffi.Spec Verif.Heap

mutual
/-- The blocks a description is made of. -/
def blocks : FType → List Nat
  | .prim b _ => [b]
  | .struct b e _ _ slots => b :: e :: blocksSlots slots
def blocksSlots : List (Option FType) → List Nat
  | [] => []
  | none :: _ => []
  | some t :: ts => blocks t ++ blocksSlots ts
end

/-- The elements, then NULLs. -/
def filled (ts : List FType) (n : Nat) : List (Option FType) := ts.map some ++ List.replicate n none

theorem blocks_filled (ts : List FType) (n : Nat) : blocksSlots (filled ts n) = ts.flatMap blocks := by
  induction ts with
  | nil => cases n <;> simp [filled, List.replicate_succ, blocksSlots]
  | cons t ts ih =>
    simp only [filled, List.map_cons, List.cons_append, blocksSlots, List.flatMap_cons]
    rw [show List.map some ts ++ List.replicate n none = filled ts n from rfl, ih]

theorem see_filled {ts : List FType} {ss : List Shape} (h : Each (fun t s => see t = .ok s) ts ss) (n : Nat) : seeSlots (filled ts (n + 1)) = .ok ss := by
  induction h with
  | nil => rfl
  | @cons t s ts ss h _ ih =>
    simp only [filled, List.map_cons, List.cons_append, seeSlots, h, Outcome.bind_ok]
    rw [show List.map some ts ++ List.replicate (n + 1) none = filled ts (n + 1) from rfl, ih]
    rfl

theorem put_filled (ts : List FType) (n : Nat) (t : FType) : put (filled ts (n + 1)) ts.length (some t) = .ok (filled (ts ++ [t]) n) := by
  unfold put
  rw [if_pos (by simp [filled])]
  congr 1
  simp [filled, List.replicate_succ]

theorem put_none (ts : List FType) (n : Nat) : put (filled ts (n + 1)) ts.length none = .ok (filled ts (n + 1)) := by
  unfold put
  rw [if_pos (by simp [filled])]
  congr 1
  simp [filled, List.replicate_succ]

theorem Each.snoc {α β : Type} {R : α → β → Prop} {as : List α} {bs : List β} (h : Each R as bs) {a : α} {b : β} (hr : R a b) : Each R (as ++ [a]) (bs ++ [b]) := by
  induction h with
  | nil => exact .cons hr .nil
  | cons h _ ih => exact .cons h ih

theorem Each.length {α β : Type} {R : α → β → Prop} {as : List α} {bs : List β} (h : Each R as bs) : as.length = bs.length := by
  induction h with
  | nil => rfl
  | cons _ _ ih => simp [ih]

/-! ### Release -/

mutual
theorem cleanup_ok {base : Nat → Bool} (t : FType) : ∀ {s : Shape}, see t = .ok s → ∀ {h : Heap} {bs : List Nat}, Owns base h (blocks t ++ bs) →
    ∃ h', cleanup t h = .ok h' ∧ Owns base h' bs ∧ h'.fails = h.fails := by
  cases t with
  | prim b p =>
    intro s hs h bs o
    simp only [cleanup]
    simp only [blocks, List.cons_append, List.nil_append] at o
    exact o.free
  | struct b e n a slots =>
    intro s hs h bs o
    simp only [see] at hs
    cases hss : seeSlots slots with
    | ok ss =>
      simp only [blocks] at o
      have o' : Owns base h (blocksSlots slots ++ (e :: b :: bs)) := o.perm (by perm)
      obtain ⟨h1, e1, o1, f1⟩ := cleanupSlots_ok slots hss o'
      obtain ⟨h2, e2, o2, f2⟩ := o1.free
      obtain ⟨h3, e3, o3, f3⟩ := o2.free
      exact ⟨h3, by simp [cleanup, e1, e2, e3], o3, by rw [f3, f2, f1]⟩
    | abort => rw [hss] at hs; cases hs
    | ub => rw [hss] at hs; cases hs
    | hang => rw [hss] at hs; cases hs
theorem cleanupSlots_ok {base : Nat → Bool} (l : List (Option FType)) : ∀ {ss : List Shape}, seeSlots l = .ok ss → ∀ {h : Heap} {bs : List Nat},
    Owns base h (blocksSlots l ++ bs) → ∃ h', cleanupSlots l h = .ok h' ∧ Owns base h' bs ∧ h'.fails = h.fails := by
  cases l with
  | nil => intro ss hs; cases hs
  | cons o l =>
    cases o with
    | none =>
      intro ss hs h bs o
      exact ⟨h, by simp [cleanupSlots], o, rfl⟩
    | some t =>
      intro ss hs h bs o
      simp only [seeSlots] at hs
      cases ht : see t with
      | ok s =>
        rw [ht] at hs
        simp only [Outcome.bind_ok] at hs
        cases hl : seeSlots l with
        | ok ss' =>
          simp only [blocksSlots, List.append_assoc] at o
          obtain ⟨h1, e1, o1, f1⟩ := cleanup_ok t ht o
          obtain ⟨h2, e2, o2, f2⟩ := cleanupSlots_ok l hl o1
          exact ⟨h2, by simp [cleanupSlots, e1, e2], o2, by rw [f2, f1]⟩
        | abort => rw [hl] at hs; cases hs
        | ub => rw [hl] at hs; cases hs
        | hang => rw [hl] at hs; cases hs
      | abort => rw [ht] at hs; cases hs
      | ub => rw [ht] at hs; cases hs
      | hang => rw [ht] at hs; cases hs
end

/-! ### What is made -/

/-- The run gives a description that libffi sees as `s`, or a code if memory ran out; nothing else stays
allocated. -/
def Makes (base : Nat → Bool) (bs : List Nat) (fails : Nat → Bool) (s : Shape) (x : Outcome Made) : Prop :=
  ∃ c o h, x = .ok (c, o, h) ∧ h.fails = fails ∧
    ((c = 0 ∧ ∃ t, o = some t ∧ see t = .ok s ∧ Owns base h (blocks t ++ bs)) ∨ (c ≠ 0 ∧ o = none ∧ Owns base h bs ∧ ∃ k, fails k = true))

theorem newPrim_makes {base : Nat → Bool} {bs : List Nat} {h : Heap} (o : Owns base h bs) (p : Prim) : Makes base bs h.fails (.prim p) (.ok (newPrim p h)) := by
  unfold newPrim
  cases e : h.alloc with
  | mk x h1 =>
    cases x with
    | none =>
      obtain ⟨o1, f1, hk⟩ := o.alloc_none e
      exact ⟨-12, none, h1, rfl, f1, .inr ⟨by decide, rfl, o1, hk⟩⟩
    | some b =>
      obtain ⟨o1, f1⟩ := o.alloc_some e
      exact ⟨0, some (.prim b p), h1, rfl, f1, .inl ⟨rfl, _, rfl, by simp [see], by simpa [blocks] using o1⟩⟩

theorem vaType_makes {base : Nat → Bool} {bs : List Nat} {h : Heap} (o : Owns base h bs) :
    Makes base bs h.fails (.struct 8 8 [.prim .pointer]) (vaType h) := by
  unfold vaType
  cases e1 : h.alloc with
  | mk x h1 =>
    cases x with
    | none =>
      obtain ⟨o1, f1, hk⟩ := o.alloc_none e1
      exact ⟨-12, none, h1, rfl, f1, .inr ⟨by decide, rfl, o1, hk⟩⟩
    | some b =>
      obtain ⟨o1, f1⟩ := o.alloc_some e1
      dsimp only
      cases e2 : h1.alloc with
      | mk x h2 =>
        cases x with
        | none =>
          obtain ⟨o2, f2, k, hk⟩ := o1.alloc_none e2
          obtain ⟨h3, e3, o3, f3⟩ := o2.free
          exact ⟨-12, none, h3, by simp [e3], by rw [f3, f2, f1], .inr ⟨by decide, rfl, o3, k, by rw [← f1]; exact hk⟩⟩
        | some e =>
          obtain ⟨o2, f2⟩ := o1.alloc_some e2
          dsimp only
          cases e3 : h2.alloc with
          | mk x h3 =>
            cases x with
            | none =>
              obtain ⟨o3, f3, k, hk⟩ := o2.alloc_none e3
              obtain ⟨h4, e4, o4, f4⟩ := o3.free
              obtain ⟨h5, e5, o5, f5⟩ := o4.free
              exact ⟨-12, none, h5, by simp [e4, e5], by rw [f5, f4, f3, f2, f1], .inr ⟨by decide, rfl, o5, k, by rw [← f1, ← f2]; exact hk⟩⟩
            | some p =>
              obtain ⟨o3, f3⟩ := o2.alloc_some e3
              refine ⟨0, _, h3, rfl, by rw [f3, f2, f1], .inl ⟨rfl, _, rfl, by simp [see, seeSlots], ?_⟩⟩
              exact o3.perm (by simp only [blocks, blocksSlots]; perm)

theorem isTy_order {t : Ty} {db : Db} (hn : Named db) {r x : Ref} {qs : List Qual} (hf : Final db r (some x) qs) (hd : Describes db x t) (h : Heap) :
    baseLoop db r h baseOrder = .ok (newPrim (primOf t) h) := by
  have step : ∀ t' p l, baseLoop db r h ((t', p) :: l) = if t' = t then .ok (newPrim p h) else baseLoop db r h l := by
    intro t' p l
    rw [baseLoop, isTy_iff hn hf hd t']
    by_cases e : t' = t <;> simp [e]
  unfold baseOrder
  simp only [step]
  cases t <;> rfl

theorem size_of_final {db : Db} {r : Ref} {o : Option Ref} {qs : List Qual} (hf : Final db r o qs) {f : Ref} (ho : o = some f) {n : Nat} (h : Size db f n) : Size db r n := by
  induction hf with
  | here _ => cases ho; exact h
  | void _ => cases ho
  | step ha _ ih => exact .through ha (ih ho)

theorem byteSize_of {db : Db} {r : Ref} {n : Nat} (h : Size db r n) (hn : n < 2 ^ 64) : ∃ v, byteSize db (some r) true = some (.ok v) ∧ v.toNat = n := by
  obtain ⟨v, e, _, hv⟩ := (C17_byte_size db).1 r n h
  exact ⟨v, e, hv hn⟩

theorem stored_size {db : Db} {r x : Ref} {qs : List Qual} {n : UInt64} (hf : Final db r (some x) qs) (h : Stored db x n.toNat) :
    byteSize db (some r) true = some (.ok n) := by
  obtain ⟨v, e, hv⟩ := byteSize_of (size_of_final hf rfl (.stored h)) n.toNat_lt
  rw [e, UInt64.toNat_inj.1 hv]

theorem enumType_makes {base : Nat → Bool} {bs : List Nat} {h : Heap} (o : Owns base h bs) {db : Db} {r x : Ref} {qs : List Qual} {n : UInt64} {e : Nat}
    {es : List (Name × Int)} {p : Prim} (hf : Final db r (some x) qs) (hi : (db x).info = .enumeration n e es) (hp : intOfSize n.toNat = some p) :
    Makes base bs h.fails (.prim p) (enumType db r h) := by
  have hm := newPrim_makes o p
  unfold enumType
  rw [stored_size hf (.enumeration hi)]
  have hne : ∀ k : Nat, k < 2 ^ 64 → (n = UInt64.ofNat k ↔ n.toNat = k) := by
    intro k hk
    rw [← UInt64.toNat_inj, UInt64.toNat_ofNat_of_lt' hk]
  have e1 := hne 1 (by decide)
  have e2 := hne 2 (by decide)
  have e4 := hne 4 (by decide)
  have e8 := hne 8 (by decide)
  simp only [UInt64.reduceOfNat] at e1 e2 e4 e8
  simp only [Outcome.ofLoop_some, Outcome.bind_ok, e1, e2, e4, e8, Outcome.pure_eq]
  unfold intOfSize at hp
  split at hp <;> rename_i hs
  · cases hp; simpa [hs] using hm
  · cases hp; simpa [hs] using hm
  · cases hp; simpa [hs] using hm
  · cases hp; simpa [hs] using hm
  · cases hp

/-- Which way `_val_to_ffi_type` takes. -/
theorem ffiType_final {env : Env} {db : Db} {r x : Ref} {qs : List Qual} (hf : Final db r (some x) qs) (variadic : Bool) (h : Heap) :
    ffiType env db variadic r h =
      if isBase (db x).info then baseLoop db r h baseOrder
      else if isEnum (db x).info then enumType db r h
      else if env.vaList r then vaType h
      else if isPointer (db x).info then .ok (newPrim .pointer h)
      else if variadic && (isStruct (db x).info || isArray (db x).info) then .ok (newPrim .pointer h)
      else if isStruct (db x).info then structType env db variadic r x h
      else if isArray (db x).info then arrayType env db variadic r h
      else .ok (-95, none, h) := by
  have key : ∀ want, finalOf db (some r) want = some (if want (db x).info then some x else none) := finalOf_some hf
  rw [ffiType]
  simp only [key, Outcome.ofLoop_some, Outcome.bind_ok]
  cases (db x).info <;> simp [isBase, isEnum, isPointer, isStruct, isArray]

theorem scalar_makes {env : Env} {db : Db} (hn : Named db) {r : Ref} {p : Prim} (hs : Scalar env db r p) (variadic : Bool) {base : Nat → Bool} {bs : List Nat} {h : Heap}
    (o : Owns base h bs) : Makes base bs h.fails (.prim p) (ffiType env db variadic r h) := by
  cases hs with
  | @base x qs t hf hd =>
    have hb : isBase (db x).info = true := by
      obtain ⟨b, e, hi, _⟩ := hd
      simp [hi, isBase]
    rw [ffiType_final hf, if_pos hb, isTy_order hn hf hd]
    exact newPrim_makes o _
  | enumeration hf hi hp =>
    rw [ffiType_final hf]
    simp only [hi, isBase, isEnum, if_true]
    exact enumType_makes o hf hi hp
  | pointer hf hi hv =>
    rw [ffiType_final hf]
    simp only [hi, isBase, isEnum, isPointer, hv, if_true]
    exact newPrim_makes o _

/-! ### Structures -/

/-- After a loop over elements: `n` places are NULL. -/
structure Filled (base : Nat → Bool) (bs : List Nat) (ts : List FType) (ss : List Shape) (h : Heap) : Prop where
  sees : Each (fun t s => see t = .ok s) ts ss
  owns : Owns base h (ts.flatMap blocks ++ bs)

theorem Filled.snoc {base : Nat → Bool} {bs : List Nat} {ts : List FType} {ss : List Shape} {h h' : Heap} (f : Filled base bs ts ss h) {t : FType} {s : Shape}
    (hs : see t = .ok s) (o : Owns base h' (blocks t ++ (ts.flatMap blocks ++ bs))) : Filled base bs (ts ++ [t]) (ss ++ [s]) h' := by
  refine ⟨Each.snoc f.sees hs, o.perm ?_⟩
  simp only [List.flatMap_append, List.flatMap_cons, List.flatMap_nil, List.append_nil]
  perm

/-- Release after an error. -/
theorem Filled.cleanup {base : Nat → Bool} {bs : List Nat} {ts : List FType} {ss : List Shape} {h : Heap} {b e : Nat} (f : Filled base (e :: b :: bs) ts ss h)
    (size : Nat) (n : Nat) : ∃ h', Ffi.cleanup (.struct b e size 0 (filled ts (n + 1))) h = .ok h' ∧ Owns base h' bs ∧ h'.fails = h.fails := by
  refine cleanup_ok _ (s := .struct size 0 ss) ?_ ?_
  · simp [see, see_filled f.sees]
  · refine f.owns.perm ?_
    simp only [blocks, blocks_filled]
    perm

theorem take_succ_get {α : Type} {l : List α} {i : Nat} {a : α} (h : l[i]? = some a) : l.take (i + 1) = l.take i ++ [a] := by
  rw [List.take_add_one, h]; rfl

theorem fillMembers_makes {env : Env} {db : Db} {r x : Ref} {qs : List Qual} {k : StructKind} {size : UInt64} {ms : List Ref} (hf : Final db r (some x) qs)
    (hi : (db x).info = .struct k size ms) (hm : ∀ m ∈ ms, ∃ mi, (db m).info = .member mi) (hb : ∀ m ∈ ms, ¬ IsBitfield db m) {ss : List Shape}
    (hl : ss.length = ms.length) {base : Nat → Bool} {bs : List Nat}
    (ih : ∀ (i : Nat) m s, ms[i]? = some m → ss[i]? = some s → ∀ bs (h : Heap), Owns base h bs → Makes base bs h.fails s (ffiType env db false m h)) :
    ∀ (n : Nat) (ts : List FType) (h : Heap), ts.length + n = ms.length → Filled base bs ts (ss.take ts.length) h →
      ∃ c ts' h', fillMembers env db false r ms.length ts.length { slots := filled ts (n + 1), id := ts.length, start := none, heap := h } =
          .ok (c, { slots := filled ts' (ms.length - ts'.length + 1), id := ts'.length, start := none, heap := h' }) ∧
        h'.fails = h.fails ∧ ts'.length ≤ ms.length ∧ Filled base bs ts' (ss.take ts'.length) h' ∧
        ((c = 0 ∧ ts'.length = ms.length) ∨ (c ≠ 0 ∧ ∃ k, h.fails k = true)) := by
  intro n
  induction n with
  | zero =>
    intro ts h hn hfl
    refine ⟨0, ts, h, ?_, rfl, by omega, hfl, .inl ⟨rfl, by omega⟩⟩
    rw [fillMembers, if_neg (by omega)]
    rw [show ms.length - ts.length = 0 by omega]
    rfl
  | succ n ihn =>
    intro ts h hn hfl
    have hlt : ts.length < ms.length := by omega
    rw [fillMembers, if_pos hlt, ((C19_members db r _ qs hf).1 x k size ms rfl hi).2.2.2.1 _ hlt]
    have hmi : ms[ts.length]? = some ms[ts.length] := List.getElem?_eq_getElem hlt
    have hsi : ss[ts.length]? = some (ss[ts.length]'(by omega)) := List.getElem?_eq_getElem (by omega)
    have hmem : ms[ts.length] ∈ ms := List.getElem_mem hlt
    obtain ⟨mi, hmi'⟩ := hm _ hmem
    have hnb : isBits mi = false := by
      have := hb _ hmem
      simp only [IsBitfield, hmi', not_exists, not_and, not_or, Decidable.not_not] at this
      obtain ⟨h1, h2, h3⟩ := this mi rfl
      simp [isBits, h1, h2, h3]
    simp only [Outcome.ofLoop_some, Outcome.bind_ok, hmi, hmi', hnb, endBits]
    obtain ⟨c, o, h1, e1, f1, hc⟩ := ih ts.length _ _ hmi hsi _ h hfl.owns
    simp only [Bool.false_eq_true, if_false, ne_eq, not_true, e1, Outcome.bind_ok]
    rcases hc with ⟨rfl, t, rfl, hsee, o1⟩ | ⟨hc, rfl, o1, hk⟩
    · simp only [not_true, if_false, put_filled, Outcome.bind_ok]
      have hfl' := hfl.snoc hsee o1
      rw [← take_succ_get hsi] at hfl'
      have hlen : (ts ++ [t]).length = ts.length + 1 := by simp
      rw [← hlen] at hfl'
      obtain ⟨c, ts', h2, e2, f2, hle, hfl2, hc⟩ := ihn (ts ++ [t]) h1 (by omega) hfl'
      rw [hlen] at e2
      refine ⟨c, ts', h2, e2, by rw [f2, f1], hle, hfl2, ?_⟩
      rw [f1] at hc
      exact hc
    · simp only [hc, not_false_eq_true, if_true, Outcome.pure_eq]
      refine ⟨-14, ts, h1, ?_, f1, by omega, ⟨hfl.sees, o1⟩, .inr ⟨by decide, hk⟩⟩
      rw [show ms.length - ts.length + 1 = n + 1 + 1 by omega]

theorem kind_union {k : StructKind} {n : UInt64} {ms : List Ref} (h : kindOf (.struct k n ms) = kindOf (.struct .union 0 [])) : k = .union := by
  revert h
  cases k <;> simp [kindOf]

theorem structType_makes {env : Env} {db : Db} {r x : Ref} {qs : List Qual} {k : StructKind} {size : UInt64} {ms : List Ref} (hf : Final db r (some x) qs)
    (hi : (db x).info = .struct k size ms) (hu : k = .union → ms = []) (hm : ∀ m ∈ ms, ∃ mi, (db m).info = .member mi) (hb : ∀ m ∈ ms, ¬ IsBitfield db m) {ss : List Shape}
    (hl : ss.length = ms.length) {base : Nat → Bool} {bs : List Nat} {h : Heap} (o : Owns base h bs)
    (ih : ∀ (i : Nat) m s, ms[i]? = some m → ss[i]? = some s → ∀ bs (h : Heap), Owns base h bs → Makes base bs h.fails s (ffiType env db false m h)) :
    Makes base bs h.fails (.struct size.toNat 0 ss) (structType env db false r x h) := by
  rw [structType, ((C19_members db r _ qs hf).1 x k size ms rfl hi).1]
  simp only [Outcome.ofLoop_some, Outcome.bind_ok]
  rw [if_neg (by
    rintro ⟨h1, h2⟩
    rw [kind, hi] at h1
    have := hu (kind_union h1)
    subst this
    simp at h2)]
  rw [stored_size hf (.struct hi)]
  simp only [Outcome.ofLoop_some, Outcome.bind_ok]
  cases e1 : h.alloc with
  | mk y h1 =>
    cases y with
    | none =>
      obtain ⟨o1, f1, hk⟩ := o.alloc_none e1
      exact ⟨-12, none, h1, rfl, f1, .inr ⟨by decide, rfl, o1, hk⟩⟩
    | some b =>
      obtain ⟨o1, f1⟩ := o.alloc_some e1
      dsimp only
      cases e2 : h1.alloc with
      | mk y h2 =>
        cases y with
        | none =>
          obtain ⟨o2, f2, j, hj⟩ := o1.alloc_none e2
          obtain ⟨h3, e3, o3, f3⟩ := o2.free
          exact ⟨-12, none, h3, by simp [e3], by rw [f3, f2, f1], .inr ⟨by decide, rfl, o3, j, by rw [← f1]; exact hj⟩⟩
        | some e =>
          obtain ⟨o2, f2⟩ := o1.alloc_some e2
          dsimp only
          obtain ⟨c, ts, h3, e3, f3, hle, hfl, hc⟩ := fillMembers_makes hf hi hm hb hl (bs := e :: b :: bs) ih ms.length [] h2 (by simp) ⟨.nil, o2⟩
          simp only [filled, List.map_nil, List.nil_append, List.length_nil] at e3
          simp only [Int.toNat_natCast, e3, Outcome.bind_ok]
          have hfails : h3.fails = h.fails := by rw [f3, f2, f1]
          rcases hc with ⟨rfl, hlen⟩ | ⟨hc, hk⟩
          · simp only [ne_eq, not_true, if_false, endBits, Outcome.bind_ok]
            have hp := put_none ts (ms.length - ts.length)
            unfold filled at hp
            rw [hp]
            refine ⟨0, _, h3, rfl, hfails, .inl ⟨rfl, _, rfl, ?_, ?_⟩⟩
            · have hs := see_filled hfl.sees (ms.length - ts.length)
              rw [List.take_of_length_le (by omega)] at hs
              unfold filled at hs
              simp [see, hs]
            · have hb := blocks_filled ts (ms.length - ts.length + 1)
              unfold filled at hb
              refine hfl.owns.perm ?_
              simp only [blocks, hb]
              perm
          · obtain ⟨h4, e4, o4, f4⟩ := hfl.cleanup size.toNat (ms.length - ts.length)
            unfold filled at e4
            simp only [ne_eq, hc, not_false_eq_true, if_true, e4, Outcome.bind_ok]
            refine ⟨c, none, h4, rfl, by rw [f4, hfails], .inr ⟨hc, rfl, o4, ?_⟩⟩
            rw [← f1, ← f2]; exact hk

/-! ### Unions -/

theorem alias_info {db : Db} {r : Ref} {o : Option Ref} (h : Alias db r o) :
    (db r).info = .typedef o ∨ (db r).info = .var o ∨ (db r).info = .param false o ∨ (∃ m, (db r).info = .member m ∧ m.type = o) ∨ ∃ q, (db r).info = .qual q o := by
  cases h with
  | typedef h => exact .inl h
  | var h => exact .inr (.inl h)
  | param h => exact .inr (.inr (.inl h))
  | member h => exact .inr (.inr (.inr (.inl ⟨_, h, rfl⟩)))
  | qual h => exact .inr (.inr (.inr (.inr ⟨_, h⟩)))

theorem alias_unique {db : Db} {r : Ref} {o o' : Option Ref} (h : Alias db r o) (h' : Alias db r o') : o = o' := by
  cases h <;> cases h' <;> simp_all

theorem stored_alias {db : Db} {r : Ref} {o : Option Ref} {n : Nat} (h : Stored db r n) (h' : Alias db r o) : False := by
  cases h <;> cases h' <;> simp_all

theorem sizeU {db : Db} {r : Ref} {n k : Nat} (h : Size db r n) (h' : Size db r k) : n = k := by
  induction h generalizing k with
  | stored hs =>
    cases h' with
    | stored hs' => cases hs <;> cases hs' <;> simp_all
    | through ha _ => exact (stored_alias hs ha).elim
    | dots hi _ => cases hs <;> simp_all
    | array hi _ _ => cases hs <;> simp_all
  | through ha _ ih =>
    cases h' with
    | stored hs' => exact (stored_alias hs' ha).elim
    | through ha' hs' =>
      have := Option.some.inj (alias_unique ha ha')
      subst this
      exact ih hs'
    | dots hi _ => rcases alias_info ha with e | e | e | ⟨_, e, _⟩ | ⟨_, e⟩ <;> simp_all
    | array hi _ _ => rcases alias_info ha with e | e | e | ⟨_, e, _⟩ | ⟨_, e⟩ <;> simp_all
  | dots hi _ ih =>
    cases h' with
    | stored hs' => cases hs' <;> simp_all
    | through ha _ => rcases alias_info ha with e | e | e | ⟨_, e, _⟩ | ⟨_, e⟩ <;> simp_all
    | dots hi' hs' =>
      rw [hi] at hi'
      cases hi'
      exact ih hs'
    | array hi' _ _ => simp_all
  | array hi _ _ ih =>
    cases h' with
    | stored hs' => cases hs' <;> simp_all
    | through ha _ => rcases alias_info ha with e | e | e | ⟨_, e, _⟩ | ⟨_, e⟩ <;> simp_all
    | dots hi' hs' => simp_all
    | array hi' _ hs' =>
      rw [hi] at hi'
      simp only [Info.array.injEq, Option.some.injEq] at hi'
      obtain ⟨rfl, hc⟩ := hi'
      have := Int.ofNat_inj.1 hc
      subst this
      rw [ih hs']

theorem largest_first {db : Db} {r x : Ref} {qs : List Qual} {size : UInt64} {ms : List Ref} (hf : Final db r (some x) qs)
    (hi : (db x).info = .struct .union size ms) (hs : ∀ (j : Nat) m, ms[j]? = some m → ∃ w, Size db m w ∧ w < 2 ^ 64) :
    ∀ (n i : Nat) (best : Option (Ref × UInt64)), i + n = ms.length → (best = none → i = 0) →
      (∀ b sz, best = some (b, sz) → ∃ j, j < i ∧ ms[j]? = some b ∧ Size db b sz.toNat ∧
        ∀ (j' : Nat) m w, ms[j']? = some m → Size db m w → j' < i → w ≤ sz.toNat ∧ (j' < j → w < sz.toNat)) →
      (n = 0 → best ≠ none) →
      ∃ m, largest db r n i best = .ok (.ok (some m)) ∧ ∃ (j : Nat) (w : Nat), ms[j]? = some m ∧ Size db m w ∧
        ∀ (j' : Nat) m' w', ms[j']? = some m' → Size db m' w' → w' ≤ w ∧ (j' < j → w' < w) := by
  intro n
  induction n with
  | zero =>
    intro i best hn _ hb h0
    cases best with
    | none => exact absurd rfl (h0 rfl)
    | some p =>
      obtain ⟨b, sz⟩ := p
      obtain ⟨j, hj, hm, hsz, hall⟩ := hb b sz rfl
      refine ⟨b, rfl, j, sz.toNat, hm, hsz, fun j' m' w' hm' hs' => hall j' m' w' hm' hs' ?_⟩
      have := (List.getElem?_eq_some_iff.1 hm').1
      omega
  | succ n ihn =>
    intro i best hn h0 hb _
    have hlt : i < ms.length := by omega
    have hmi : ms[i]? = some ms[i] := List.getElem?_eq_getElem hlt
    obtain ⟨w, hw, hw64⟩ := hs i _ hmi
    obtain ⟨sz, esz, hsz⟩ := byteSize_of hw hw64
    rw [largest, ((C19_members db r _ qs hf).1 x .union size ms rfl hi).2.2.2.1 _ hlt]
    simp only [Outcome.ofLoop_some, Outcome.bind_ok, hmi, esz]
    cases best with
    | none =>
      have hi0 := h0 rfl
      dsimp only
      refine ihn (i + 1) _ (by omega) (by simp) ?_ (by simp)
      intro b sz' e
      obtain ⟨rfl, rfl⟩ := Prod.mk.inj (Option.some.inj e)
      refine ⟨i, by omega, hmi, by rw [hsz]; exact hw, ?_⟩
      intro j' m w' hm' hs' hj'
      have : j' = i := by omega
      subst this
      rw [hmi] at hm'
      cases hm'
      have := sizeU hw hs'
      omega
    | some p =>
      obtain ⟨b, bsz⟩ := p
      obtain ⟨j, hj, hm, hbs, hall⟩ := hb b bsz rfl
      dsimp only
      have hcmp : sz > bsz ↔ bsz.toNat < w := by rw [← hsz]; exact UInt64.lt_iff_toNat_lt
      refine ihn (i + 1) _ (by omega) (by split <;> simp) ?_ (by split <;> simp)
      intro b' sz' e
      by_cases hgt : sz > bsz
      · rw [if_pos hgt] at e
        obtain ⟨rfl, rfl⟩ := Prod.mk.inj (Option.some.inj e)
        refine ⟨i, by omega, hmi, by rw [hsz]; exact hw, ?_⟩
        intro j' m w' hm' hs' hj'
        by_cases hji : j' = i
        · subst hji
          rw [hmi] at hm'
          cases hm'
          have := sizeU hw hs'
          omega
        · have := (hall j' m w' hm' hs' (by omega)).1
          have := hcmp.1 hgt
          omega
      · rw [if_neg hgt] at e
        obtain ⟨rfl, rfl⟩ := Prod.mk.inj (Option.some.inj e)
        refine ⟨j, by omega, hm, hbs, ?_⟩
        intro j' m w' hm' hs' hj'
        by_cases hji : j' = i
        · subst hji
          rw [hmi] at hm'
          cases hm'
          have := sizeU hw hs'
          have : ¬ bsz.toNat < w := fun h => hgt (hcmp.2 h)
          omega
        · exact hall j' m w' hm' hs' (by omega)

/-! ### Arrays -/

theorem fillElements_makes {env : Env} {db : Db} {el : Ref} {s : Shape} {base : Nat → Bool} {bs : List Nat}
    (ih : ∀ bs (h : Heap), Owns base h bs → Makes base bs h.fails s (ffiType env db false el h)) (count : Nat) :
    ∀ (n : Nat) (ts : List FType) (h : Heap), ts.length + n = count → Filled base bs ts (List.replicate ts.length s) h →
      ∃ c ts' h', fillElements env db false el count ts.length (filled ts (n + 1)) h = .ok (c, filled ts' (count - ts'.length + 1), h') ∧
        h'.fails = h.fails ∧ ts'.length ≤ count ∧ Filled base bs ts' (List.replicate ts'.length s) h' ∧
        ((c = 0 ∧ ts'.length = count) ∨ (c ≠ 0 ∧ ∃ k, h.fails k = true)) := by
  intro n
  induction n with
  | zero =>
    intro ts h hn hfl
    refine ⟨0, ts, h, ?_, rfl, by omega, hfl, .inl ⟨rfl, by omega⟩⟩
    rw [fillElements, if_neg (by omega), show count - ts.length = 0 by omega]
    rfl
  | succ n ihn =>
    intro ts h hn hfl
    rw [fillElements, if_pos (by omega)]
    obtain ⟨c, o, h1, e1, f1, hc⟩ := ih _ h hfl.owns
    simp only [e1, Outcome.bind_ok]
    rcases hc with ⟨rfl, t, rfl, hsee, o1⟩ | ⟨hc, rfl, o1, hk⟩
    · simp only [ne_eq, not_true, if_false, put_filled, Outcome.bind_ok]
      have hfl' := hfl.snoc hsee o1
      have hlen : (ts ++ [t]).length = ts.length + 1 := by simp
      rw [show List.replicate ts.length s ++ [s] = List.replicate (ts ++ [t]).length s by rw [hlen, List.replicate_succ']] at hfl'
      obtain ⟨c, ts', h2, e2, f2, hle, hfl2, hc⟩ := ihn (ts ++ [t]) h1 (by omega) hfl'
      rw [hlen] at e2
      refine ⟨c, ts', h2, e2, by rw [f2, f1], hle, hfl2, ?_⟩
      rw [f1] at hc
      exact hc
    · simp only [ne_eq, hc, not_false_eq_true, if_true, Outcome.pure_eq]
      refine ⟨-14, ts, h1, ?_, f1, by omega, ⟨hfl.sees, o1⟩, .inr ⟨by decide, hk⟩⟩
      rw [show count - ts.length + 1 = n + 1 + 1 by omega]

theorem arrayType_makes {env : Env} {db : Db} {r x el : Ref} {qs : List Qual} {c : Int} {n : Nat} {s : Shape} (hf : Final db r (some x) qs)
    (hi : (db x).info = .array (some el) c) (h1 : -2 ^ 31 ≤ c) (h2 : c < 2 ^ 31) (hn : 0 < c → Size db r n ∧ n < 2 ^ 64) (h0 : c ≤ 0 → n = 0)
    {base : Nat → Bool} {bs : List Nat} {h : Heap} (o : Owns base h bs)
    (ih : ∀ bs (h : Heap), Owns base h bs → Makes base bs h.fails s (ffiType env db false el h)) :
    Makes base bs h.fails (.struct n 0 (List.replicate c.toNat s)) (arrayType env db false r h) := by
  obtain ⟨_, he, hcount⟩ := (C52_accessors_partial db r _ qs hf).2.1 x (some el) c rfl hi
  rw [arrayType, he, hcount (by omega) (by omega)]
  simp only [Outcome.ofLoop_some, Outcome.bind_ok]
  have hsize : ∃ v : UInt64, (if c.toNat ≠ 0 then Outcome.ofLoop (byteSize db (some r) true) else .ok (.ok 0)) = .ok (.ok v) ∧ v.toNat = n := by
    by_cases hc : 0 < c
    · obtain ⟨hs, hlt⟩ := hn hc
      obtain ⟨v, ev, hv⟩ := byteSize_of hs hlt
      exact ⟨v, by rw [if_pos (by omega), ev]; rfl, hv⟩
    · exact ⟨0, by rw [if_neg (by omega)], by rw [h0 (by omega)]; rfl⟩
  obtain ⟨v, ev, hv⟩ := hsize
  rw [ev]
  simp only [Outcome.bind_ok]
  cases e1 : h.alloc with
  | mk y h1 =>
    cases y with
    | none =>
      obtain ⟨o1, f1, hk⟩ := o.alloc_none e1
      exact ⟨-12, none, h1, rfl, f1, .inr ⟨by decide, rfl, o1, hk⟩⟩
    | some b =>
      obtain ⟨o1, f1⟩ := o.alloc_some e1
      dsimp only
      cases e2 : h1.alloc with
      | mk y h2 =>
        cases y with
        | none =>
          obtain ⟨o2, f2, j, hj⟩ := o1.alloc_none e2
          obtain ⟨h3, e3, o3, f3⟩ := o2.free
          exact ⟨-12, none, h3, by simp [e3], by rw [f3, f2, f1], .inr ⟨by decide, rfl, o3, j, by rw [← f1]; exact hj⟩⟩
        | some e =>
          obtain ⟨o2, f2⟩ := o1.alloc_some e2
          dsimp only
          obtain ⟨k, ts, h3, e3, f3, hle, hfl, hc⟩ := fillElements_makes (bs := e :: b :: bs) ih c.toNat c.toNat [] h2 (by simp) ⟨.nil, o2⟩
          simp only [filled, List.map_nil, List.nil_append, List.length_nil] at e3
          simp only [e3, Outcome.bind_ok]
          have hfails : h3.fails = h.fails := by rw [f3, f2, f1]
          rcases hc with ⟨rfl, hlen⟩ | ⟨hc, hk⟩
          · simp only [ne_eq, not_true, if_false]
            have hp := put_none ts (c.toNat - ts.length)
            rw [hlen] at hp
            unfold filled at hp
            rw [hlen, hp]
            refine ⟨0, _, h3, rfl, hfails, .inl ⟨rfl, _, rfl, ?_, ?_⟩⟩
            · have hs := see_filled hfl.sees (c.toNat - c.toNat)
              rw [hlen] at hs
              unfold filled at hs
              simp only [see, hs, hv]
              rfl
            · have hb := blocks_filled ts (c.toNat - c.toNat + 1)
              unfold filled at hb
              refine hfl.owns.perm ?_
              simp only [blocks, hb]
              perm
          · obtain ⟨h4, e4, o4, f4⟩ := hfl.cleanup v.toNat (c.toNat - ts.length)
            unfold filled at e4
            simp only [ne_eq, hc, not_false_eq_true, if_true, e4, Outcome.bind_ok]
            refine ⟨-14, none, h4, rfl, by rw [f4, hfails], .inr ⟨by decide, rfl, o4, ?_⟩⟩
            rw [← f1, ← f2]; exact hk

/-- Every type that has a description gets it. -/
theorem looks_makes {env : Env} {db : Db} (hn : Named db) {r : Ref} {s : Shape} (hl : Looks env db r s) {base : Nat → Bool} :
    ∀ bs (h : Heap), Owns base h bs → Makes base bs h.fails s (ffiType env db false r h) := by
  induction hl with
  | scalar hs => exact fun bs h o => scalar_makes hn hs false o
  | struct hf hi hv hu hm hb hl _ ih =>
    intro bs h o
    rw [ffiType_final hf]
    simp only [hi, isBase, isEnum, isPointer, isStruct, hv, if_true]
    exact structType_makes hf hi hu hm hb hl o ih
  | @union r x qs n ms i m w s hf hi hv hmi hw hall _ ih =>
    intro bs h o
    rw [ffiType_final hf]
    simp only [hi, isBase, isEnum, isPointer, isStruct, hv, if_true, Bool.false_eq_true, if_false, Bool.false_and]
    have hlen : i < ms.length := (List.getElem?_eq_some_iff.1 hmi).1
    rw [structType, ((C19_members db r _ qs hf).1 x .union n ms rfl hi).1]
    simp only [Outcome.ofLoop_some, Outcome.bind_ok]
    rw [if_pos ⟨by rw [kind, hi]; rfl, by omega⟩]
    obtain ⟨m', e, j, w', hj, hw', hmax⟩ := largest_first hf hi (fun j m' hj => by
      obtain ⟨w', h1, h2, _⟩ := hall j m' hj
      exact ⟨w', h1, h2⟩) ms.length 0 none (by simp) (by simp) (by simp) (fun e => by omega)
    simp only [Int.toNat_natCast, e, Outcome.bind_ok]
    have hm' : m' = m := by
      obtain ⟨w1, h1, _, hle, hlt⟩ := hall j m' hj
      have e1 := sizeU h1 hw'
      subst e1
      have h2 := hmax i m w hmi hw
      have hij : j = i := by
        rcases Nat.lt_trichotomy j i with h | h | h
        · have := hlt h
          omega
        · exact h
        · have := h2.2 h
          omega
      subst hij
      rw [hmi] at hj
      exact (Option.some.inj hj).symm
    subst hm'
    exact ih bs h o
  | array hf hi hv h1 h2 hn h0 _ ih =>
    intro bs h o
    rw [ffiType_final hf]
    simp only [hi, isBase, isEnum, isPointer, isStruct, isArray, hv, if_true]
    exact arrayType_makes hf hi h1 h2 hn h0 o ih

end Verif.Ffi
