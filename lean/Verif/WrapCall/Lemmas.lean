import Verif.WrapCall.Spec
import Verif.ParamStorage.Copy
import Verif.Entry.Lemmas
namespace Verif.WrapCall
open Verif Verif.Entry Verif.Entry.Spec Verif.ParamStorage Verif.ParamStorage.Spec Verif.WrapCall.Spec Verif.Value

/-! ### Which parameters are collected -/

theorem rows_known : ∀ r ∈ rows, (r.name, r.size) ∈ small ∨ (r.name, r.size, r.arg) ∈ wide ∨
    (r.name, r.size) = (text "_Bool", 1) ∨ (r.name, r.size) = (text "float", 4) := by
  decide

theorem find_small {n : Name} {k : Nat} (h : (n, k) ∈ small) :
    (rows.find? fun r => r.name == n && r.size == k).map (fun r => (r.size, r.arg, r.conv)) = some (k, .int, .low k) := by
  simp only [small, List.mem_cons, Prod.mk.injEq, List.not_mem_nil, or_false] at h
  rcases h with ⟨rfl, rfl⟩ | ⟨rfl, rfl⟩ | ⟨rfl, rfl⟩ | ⟨rfl, rfl⟩ <;> rfl

theorem find_wide {n : Name} {k : Nat} {ty : ArgTy} (h : (n, k, ty) ∈ wide) :
    (rows.find? fun r => r.name == n && r.size == k).map (fun r => (r.size, r.arg, r.conv)) = some (k, ty, .whole) ∧
      argSize ty = some k := by
  simp only [wide, List.mem_cons, Prod.mk.injEq, List.not_mem_nil, or_false] at h
  rcases h with ⟨rfl, rfl, rfl⟩ | ⟨rfl, rfl, rfl⟩ | ⟨rfl, rfl, rfl⟩ | ⟨rfl, rfl, rfl⟩ | ⟨rfl, rfl, rfl⟩ | ⟨rfl, rfl, rfl⟩ |
    ⟨rfl, rfl, rfl⟩ | ⟨rfl, rfl, rfl⟩ | ⟨rfl, rfl, rfl⟩ | ⟨rfl, rfl, rfl⟩ | ⟨rfl, rfl, rfl⟩ <;> exact ⟨rfl, rfl⟩

theorem planBase_find {n : Name} {size : UInt64} {k : Nat} {ty : ArgTy} {c : Conv}
    (h : (rows.find? fun r => r.name == n && r.size == size.toNat).map (fun r => (r.size, r.arg, r.conv)) = some (k, ty, c)) :
    planBase (some n) size = .ok (.take k ty c) := by
  unfold planBase
  simp only []
  cases hf : rows.find? fun r => r.name == n && r.size == size.toNat with
  | none => rw [hf] at h; simp at h
  | some r =>
    rw [hf] at h
    simp only [Option.map_some, Option.some.injEq, Prod.mk.injEq] at h
    obtain ⟨h1, h2, h3⟩ := h
    simp only [h1, h2, h3]

theorem planBase_unknown {n : Name} {size : UInt64} (h1 : (n, size.toNat) ∉ small) (h2 : ∀ ty, (n, size.toNat, ty) ∉ wide)
    (h3 : (n, size.toNat) ≠ (text "_Bool", 1)) (h4 : (n, size.toNat) ≠ (text "float", 4)) :
    planBase (some n) size = .ok .refuse := by
  unfold planBase
  simp only []
  have : (rows.find? fun r => r.name == n && r.size == size.toNat) = none := by
    rw [List.find?_eq_none]
    intro r hr hm
    simp only [Bool.and_eq_true, beq_iff_eq] at hm
    obtain ⟨rfl, hs⟩ := hm
    rcases rows_known r hr with h | h | h | h
    · rw [hs] at h; exact h1 h
    · rw [hs] at h; exact h2 _ h
    · rw [hs] at h; exact h3 h
    · rw [hs] at h; exact h4 h
  rw [this]

theorem final_size {db : Db} {t f : Ref} {qs : List Qual} {n : Nat} (h : Final db t (some f) qs) (hs : Stored db f n) :
    Size db t n := by
  generalize hf : some f = o at h
  induction h with
  | here => simp at hf; subst hf; exact .stored hs
  | void => simp at hf
  | step ha _ ih => exact .through ha (ih hf)

theorem byteSize_stored {db : Db} {t f : Ref} {qs : List Qual} {n : UInt64} (h : Final db t (some f) qs)
    (hs : Stored db f n.toNat) : byteSize db (some t) true = some (.ok n) := by
  unfold byteSize
  rw [if_pos rfl, loop_size (final_size h hs)]
  simp

theorem planType_base {env : Env} {db : Db} {t f : Ref} {qs : List Qual} {size : UInt64} {enc : Nat}
    (h : Final db t (some f) qs) (hi : (db f).info = .base size enc) :
    planType env db t = planBase (db f).name size := by
  unfold planType
  rw [byteSize_stored h (.base hi)]
  simp [finalOf_final h, keep, hi, isBase]

theorem planType_pointer {env : Env} {db : Db} {t f : Ref} {qs : List Qual} {u : Option Ref}
    (h : Final db t (some f) qs) (hi : (db f).info = .pointer u) : planType env db t = .ok (.take 8 .ptr .whole) := by
  unfold planType
  rw [byteSize_stored (n := 8) h (.pointer hi)]
  simp [finalOf_final h, keep, hi, isBase, isPointer]

theorem planType_enum {env : Env} {db : Db} {t f : Ref} {qs : List Qual} {size : UInt64} {enc : Nat} {es : List (Name × Int)}
    (h : Final db t (some f) qs) (hi : (db f).info = .enumeration size enc es) : planType env db t = .ok (planEnum size) := by
  unfold planType
  rw [byteSize_stored h (.enumeration hi)]
  simp [finalOf_final h, keep, hi, isBase, isPointer, isEnum]

theorem planType_struct {env : Env} {db : Db} {t f : Ref} {qs : List Qual} {k : StructKind} {size : UInt64} {ms : List Ref}
    (h : Final db t (some f) qs) (hi : (db f).info = .struct k size ms) :
    planType env db t = .ok (.agg size (env.structFn f)) := by
  unfold planType
  rw [byteSize_stored h (.struct hi)]
  simp [finalOf_final h, keep, hi, isBase, isPointer, isEnum, isStruct]

/-- A plan that ends with a refusal. -/
def Hopeless (pl : Plan) : Prop := pl = .refuse ∨ ∃ fn, pl = .agg 0 fn

theorem planType_unknown {env : Env} {db : Db} {t : Ref} (h : Unknown db t) : ∃ pl, planType env db t = .ok pl ∧ Hopeless pl := by
  cases h with
  | noSize h =>
    refine ⟨.refuse, ?_, .inl rfl⟩
    unfold planType byteSize
    rw [if_pos rfl, loop_nosize h]
    rfl
  | base hf hi hn h1 h2 h3 h4 =>
    refine ⟨.refuse, ?_, .inl rfl⟩
    rw [planType_base hf hi, hn]
    exact planBase_unknown h1 h2 h3 h4
  | @enum f qs size enc es hf hi hs =>
    refine ⟨.refuse, ?_, .inl rfl⟩
    rw [planType_enum hf hi]
    unfold planEnum
    simp only [List.mem_cons, List.not_mem_nil, or_false, not_or] at hs
    obtain ⟨h1, h2, h3, h4⟩ := hs
    rw [if_neg (by rintro rfl; exact h1 rfl), if_neg (by rintro rfl; exact h2 rfl), if_neg (by rintro rfl; exact h3 rfl),
      if_neg (by rintro rfl; exact h4 rfl)]
  | empty hf hi => exact ⟨_, planType_struct hf hi, .inr ⟨_, rfl⟩⟩
  | @array f qs n e c hf hi hs =>
    refine ⟨.refuse, ?_, .inl rfl⟩
    unfold planType byteSize
    rw [if_pos rfl, loop_size hs]
    simp [finalOf_final hf, keep, hi, isBase, isPointer, isEnum, isStruct]
  | @dots f qs n u hf hi hs =>
    refine ⟨.refuse, ?_, .inl rfl⟩
    unfold planType byteSize
    rw [if_pos rfl, loop_size hs]
    simp [finalOf_final hf, keep, hi, isBase, isPointer, isEnum, isStruct]
  | reference hf hi =>
    refine ⟨.refuse, ?_, .inl rfl⟩
    unfold planType
    rw [byteSize_stored hf (.reference hi)]
    simp [finalOf_final hf, keep, hi, isBase, isPointer, isEnum, isStruct]

/-- What the plan for a class has to be. -/
inductive PlanFor : Class → Plan → Prop where
  | small {n} : n = 1 ∨ n = 2 → PlanFor (.small n) (.take n .int (.low n))
  | wide {ty n} : 0 < n → argSize ty = some n → PlanFor (.wide ty n) (.take n ty .whole)
  | bool : PlanFor .bool (.take 1 .int .bool)
  | float : PlanFor .float (.take 4 .double .narrow)
  | agg {size : UInt64} : 0 < size.toNat → size.toNat < 2 ^ 31 → PlanFor (.agg size.toNat) (.agg size true)

theorem planType_takes {env : Env} {db : Db} {t : Ref} {c : Class} (h : Takes env db t c) :
    ∃ pl, planType env db t = .ok pl ∧ PlanFor c pl := by
  cases h with
  | small hf hi hn hm =>
    refine ⟨_, by rw [planType_base hf hi, hn]; exact planBase_find (find_small hm), .small ?_⟩
    simp only [WrapCall.Spec.small, List.mem_cons, Prod.mk.injEq, List.not_mem_nil, or_false] at hm
    omega
  | wide hf hi hn hm =>
    refine ⟨_, by rw [planType_base hf hi, hn]; exact planBase_find (find_wide hm).1, .wide ?_ (find_wide hm).2⟩
    simp only [WrapCall.Spec.wide, List.mem_cons, Prod.mk.injEq, List.not_mem_nil, or_false] at hm
    omega
  | bool hf hi hn => exact ⟨_, by rw [planType_base hf hi, hn]; rfl, .bool⟩
  | float hf hi hn => exact ⟨_, by rw [planType_base hf hi, hn]; rfl, .float⟩
  | pointer hf hi => exact ⟨_, planType_pointer hf hi, .wide (by decide) rfl⟩
  | enum1 hf hi => exact ⟨_, planType_enum hf hi, .small (.inl rfl)⟩
  | enum2 hf hi => exact ⟨_, planType_enum hf hi, .small (.inr rfl)⟩
  | enum4 hf hi => exact ⟨_, planType_enum hf hi, .wide (by decide) rfl⟩
  | enum8 hf hi => exact ⟨_, planType_enum hf hi, .wide (by decide) rfl⟩
  | agg hf hi h0 h1 hfn => exact ⟨_, by rw [planType_struct hf hi, hfn], .agg h0 h1⟩

/-! ### One parameter -/

theorem Grows.adds {h h' : Heap} {l : List Nat} (g : Grows h h' l) : Adds h h' l := ⟨g.next, g.fails, g.live, g.fresh, g.nodup⟩
theorem Spec.Adds.grows {h h' : Heap} {l : List Nat} (g : Adds h h' l) : Grows h h' l := ⟨g.next, g.fails, g.live, g.fresh, g.nodup⟩

/-- How one parameter may end: with items added at the end of the storage and no other
change; on success one item that is right for `slot`. -/
def StepOk (R : Ref → List Arg → List View → Prop) (st : Sto) (h : Heap) (slot : Slot) (left : Option (List Arg))
    (res : Outcome Step) : Prop :=
  ∃ o new h', res = .ok (o, extend st new, h') ∧ GoodL new ∧ Grows h h' (ownedL new) ∧
    (∀ a, o = some a → (∃ x, new = [x] ∧ Filled R slot (view x)) ∧ ∀ l, left = some l → a = l) ∧
    ((∀ k, h.fails k = false) → o ≠ none)

/-- How a refused parameter ends. -/
def StepNo (st : Sto) (h : Heap) (res : Outcome Step) : Prop :=
  ∃ h', res = .ok (none, st, h') ∧ Grows h h' []

theorem extend_one (st : Sto) (x : Item) :
    ({ st with items := st.items ++ [x], size := st.size + 1, last := some x.node } : Sto) = extend st [x] := by
  simp [extend]

theorem newItem_spec (st : Sto) (i : Nat) (h : Heap) {e : EntryArg} {addr : Nat} (hp : newParamValue st i = some (e, addr))
    (ho : h.Ok) :
    (∃ h', newItem st i h = (none, h') ∧ Grows h h' [] ∧ ∃ k, h.fails k = true) ∨
    (∃ b h', newItem st i h = (some (b, addr), h') ∧ Grows h h' [b]) := by
  unfold newItem
  rw [hp]
  simp only []
  cases ha : h.alloc with
  | mk o h1 =>
    have g := alloc_grows ha
    cases o with
    | none => exact .inl ⟨h1, rfl, by simpa using g, alloc_fail ha⟩
    | some b => exact .inr ⟨b, h1, rfl, by simpa using g⟩

/-- Storing a parameter: failure, or `fetch` is called on the extended storage. -/
theorem stored_spec (e : EntryArg) (i : Nat) (size : Int) (st : Sto) (args : List Arg) (h : Heap)
    (fetch : Nat → Sto → Heap → Outcome Step) (hc : Consistent st h) (hi : st.items.length = i) :
    (∃ new h', stored e i size st args h fetch = .ok (none, extend st new, h') ∧ GoodL new ∧ Grows h h' (ownedL new) ∧
      ((∃ k, h.fails k = true) ∨ size ≤ 0) ∧ (size ≤ 0 → new = [])) ∨
    (∃ node d addr h', 0 < size ∧
      stored e i size st args h fetch = fetch addr (extend st [.buf node e d addr (List.replicate size.toNat 0)]) h' ∧
      Grows h h' (owned (.buf node e d addr (List.replicate size.toNat 0)))) := by
  unfold stored
  rcases appendBuffer_spec st (some e) size h hc with ⟨r, h', e1, hr, g, hf⟩ | ⟨e0, node, d, addr, h', he, hn, e1, g⟩
  · left
    refine ⟨[], h', ?_, trivial, by simpa [ownedL] using g, ?_, fun _ => rfl⟩
    · rw [e1]; simp [hr, extend_nil hc]
    · rcases hf with hf | hf | hf
      · exact .inl hf
      · cases hf
      · exact .inr hf
  · cases he
    rw [e1]
    simp only [Outcome.bind_ok, ne_eq, not_true_eq_false, if_false]
    have hx := extend_one st (.buf node e d addr (List.replicate size.toNat 0))
    simp only [Item.node] at hx
    rw [hx]
    have hbs : List.replicate size.toNat (0 : UInt8) ≠ [] := by simp; omega
    have hc1 := Consistent_append hc _ g hbs
    have hp : newParamValue (extend st [.buf node e d addr (List.replicate size.toNat 0)]) i = some (e, addr) := by
      unfold newParamValue
      rw [if_neg (by omega)]
      simp [extend, ← hi]
    rcases newItem_spec _ i h' hp (g.ok hc.1) with ⟨h2, e2, g2, hk⟩ | ⟨b, h2, e2, g2⟩
    · left
      refine ⟨[.buf node e d addr (List.replicate size.toNat 0)], h2, by rw [e2]; rfl, ⟨hbs, trivial⟩, ?_, .inl ?_, fun hs => absurd hn (by omega)⟩
      · have := g.trans g2
        simpa [ownedL] using this
      · obtain ⟨k, hk⟩ := hk
        exact ⟨k, by rw [← g.fails]; exact hk⟩
    · right
      obtain ⟨h3, e3, g3⟩ := free_new (g.ok hc.1) g2
      refine ⟨node, d, addr, h3, hn, ?_, ?_⟩
      · rw [e2]; simp only [e3, Outcome.bind_ok]
      · simpa using g.trans g3

theorem write_last (st : Sto) (i : Nat) (hi : st.items.length = i) (n : Nat) (e : EntryArg) (d : Option Nat) (b : Nat)
    (old bytes : List UInt8) (hl : bytes.length = old.length) :
    write (extend st [.buf n e d b old]) i bytes = .ok (extend st [.buf n e d b bytes]) := by
  unfold write
  have h1 : (extend st [.buf n e d b old]).items[i]? = some (.buf n e d b old) := by simp [extend, ← hi]
  rw [h1]
  simp only []
  rw [if_pos (by omega)]
  congr 1
  simp [extend, ← hi, hl, Item.node]

/-- A parameter passed as bytes. -/
theorem doTake {R : Ref → List Arg → List View → Prop} (p : Ref) (e : EntryArg) (he : e.id = p) (i : Nat)
    (st : Sto) (h : Heap) (hc : Consistent st h) (hi : st.items.length = i) (size : Int) (bs : List UInt8)
    (hn : size = bs.length) (hpos : 0 < bs.length) (args left : List Arg)
    (fetch : Nat → Sto → Heap → Outcome Step)
    (hf : ∀ addr st' h', fetch addr st' h' = (do
      let st' ← write st' i bs
      return (some left, st', h'))) :
    StepOk R st h (.bytes p bs) (some left) (stored e i size st args h fetch) := by
  rcases stored_spec e i size st args h fetch hc hi with ⟨new, h', e1, hg, g, hk, _⟩ | ⟨node, d, addr, h', hp, e1, g⟩
  · refine ⟨none, new, h', e1, hg, g, by simp, ?_⟩
    intro hnf
    rcases hk with ⟨k, hk⟩ | hk
    · rw [hnf k] at hk; cases hk
    · omega
  · rw [e1, hf, write_last st i hi _ _ _ _ _ _ (by simp [hn])]
    refine ⟨some left, [.buf node e d addr bs], h', rfl, ⟨?_, trivial⟩, ?_, ?_, by simp⟩
    · intro hb; simp [hb] at hpos
    · simpa [ownedL, owned] using g
    · intro a ha
      cases ha
      exact ⟨⟨_, rfl, .bytes he⟩, fun l hl => by cases hl; rfl⟩

theorem promote_take {n : Nat} {bs : List UInt8} (s : Bool) (h : bs.length = n) : (promote s bs).take n = bs := by
  unfold promote; rw [← h]; simp

theorem promote_length {bs : List UInt8} (s : Bool) (h : bs.length ≤ 4) : (promote s bs).length = 4 := by
  unfold promote; simp; omega

theorem toInt32_small {n : Nat} (h : n < 2 ^ 31) : toInt32 (n : Int) = n := by
  unfold toInt32
  rw [Int.bmod_eq_of_le] <;> omega

theorem doParam_plain {R : Ref → List Arg → List View → Prop} {env : Env} {db : Db} {tags : Option (Ref → Option Handler)}
    {p t : Ref} {c : Class} {bs : List UInt8} {a : Arg} (hp : Plain env db p (some t)) (ht : Takes env db t c)
    (hcar : Carries env c bs a) (i : Nat) (st : Sto) (h : Heap) (hc : Consistent st h) (hi : st.items.length = i) (args : List Arg) :
    StepOk R st h (.bytes p bs) (some args) (doParam env db tags i p st (a :: args) h) := by
  obtain ⟨pl, hpl, hfor⟩ := planType_takes ht
  have hplan : plan env db tags p = .ok pl := by
    unfold plan
    rw [hp.1]
    simp [hp.2, hpl]
  unfold doParam
  rw [hplan, Outcome.bind_ok]
  cases hfor with
  | small hn =>
    cases hcar with
    | small s hl =>
      refine doTake p _ rfl i st h hc hi _ bs (by rw [hl]) (by omega) _ args _ ?_
      intro addr st' h'
      simp only [fetchVal, vaArg]
      rw [if_pos ⟨trivial, by rw [promote_length s (by omega)]; rfl⟩]
      simp only [Outcome.bind_ok, convert, promote_take s hl]
  | wide h0 hs =>
    cases hcar with
    | wide hl =>
      refine doTake p _ rfl i st h hc hi _ bs (by rw [hl]) (by omega) _ args _ ?_
      intro addr st' h'
      simp only [fetchVal, vaArg]
      rw [if_pos ⟨trivial, by rw [hs, hl]⟩]
      simp only [Outcome.bind_ok, convert]
  | bool =>
    cases hcar with
    | boolFalse =>
      exact doTake p _ rfl i st h hc hi _ _ rfl (by decide) _ args _ fun addr st' h' => rfl
    | boolTrue =>
      exact doTake p _ rfl i st h hc hi _ _ rfl (by decide) _ args _ fun addr st' h' => rfl
  | float =>
    cases hcar with
    | float hl hd hnar =>
      refine doTake p _ rfl i st h hc hi _ bs (by rw [hl]) (by omega) _ args _ ?_
      intro addr st' h'
      simp only [fetchVal, vaArg]
      rw [if_pos ⟨trivial, by rw [hd]; rfl⟩]
      simp only [Outcome.bind_ok, convert, hnar]
  | agg h0 h1 =>
    cases hcar with
    | agg hl =>
      refine doTake p _ rfl i st h hc hi _ bs (by rw [toInt32_small h1, hl]) (by omega) _ args _ ?_
      intro addr st' h'
      simp only [fetchAgg]
      rw [if_pos trivial, if_pos hl]

theorem doParam_refused {env : Env} {db : Db} {tags : Option (Ref → Option Handler)}
    {p : Ref} (hr : Refused env db tags p) (i : Nat) (st : Sto) (h : Heap) (hc : Consistent st h) (hi : st.items.length = i)
    (args : List Arg) : StepNo st h (doParam env db tags i p st args h) := by
  have main : ∀ pl, plan env db tags p = .ok pl → Hopeless pl → StepNo st h (doParam env db tags i p st args h) := by
    intro pl hpl hh
    unfold doParam
    rw [hpl, Outcome.bind_ok]
    rcases hh with rfl | ⟨fn, rfl⟩
    · exact ⟨h, rfl, Grows.refl h⟩
    · simp only []
      rcases stored_spec (entryArg env db p) i (toInt32 ((0 : UInt64).toNat : Int)) st args h (fetchAgg i 0 fn args) hc hi with
        ⟨new, h', e1, hg, g, hk, hz⟩ | ⟨node, d, addr, h', hp, e1, g⟩
      · have := hz (by decide)
        subst this
        rw [e1, extend_nil hc]
        exact ⟨h', rfl, by simpa [ownedL] using g⟩
      · exact absurd hp (by decide)
  cases hr with
  | notParam hn =>
    refine main .refuse ?_ (.inl rfl)
    unfold plan
    cases hi : (db p).info with
    | param u t => exact absurd hi (hn u t)
    | _ => rfl
  | void hp =>
    refine main .refuse ?_ (.inl rfl)
    unfold plan
    rw [hp.1]
    simp [hp.2]
  | unknown hp hu =>
    obtain ⟨pl, h1, h2⟩ := planType_unknown (env := env) hu
    refine main pl ?_ h2
    unfold plan
    rw [hp.1]
    simp [hp.2, h1]
  | noTags hp ht =>
    refine main .refuse ?_ (.inl rfl)
    unfold plan
    rcases hp with ⟨t, hp⟩ | ⟨⟨t, hp⟩, hv⟩
    · rw [hp, ht]; simp
    · rw [hp, ht, hv]; simp

/-! ### Variable arguments -/

theorem inner_last (st : Sto) (i : Nat) (hi : st.items.length = i) (n : Nat) (e : EntryArg) (d : Option Nat) (b : Nat) :
    innerOf (extend st [.nested n e d (some b) [] 0 none]) i = some ⟨b, [], 0, none⟩ := by
  unfold innerOf
  have : (extend st [.nested n e d (some b) [] 0 none]).items[i]? = some (.nested n e d (some b) [] 0 none) := by
    simp [extend, ← hi]
  rw [this]

theorem setInner_last (st : Sto) (i : Nat) (hi : st.items.length = i) (n : Nat) (e : EntryArg) (d : Option Nat) (b : Nat)
    (inner : Sto) :
    setInner (extend st [.nested n e d (some b) [] 0 none]) i inner =
      extend st [.nested n e d (some inner.block) inner.items inner.size inner.last] := by
  unfold setInner
  have : (extend st [.nested n e d (some b) [] 0 none]).items[i]? = some (.nested n e d (some b) [] 0 none) := by
    simp [extend, ← hi]
  rw [this]
  simp [extend, ← hi, Item.node]

/-- Blocks taken since `h` contain `b :: l`; freeing `b` leaves `l`. -/
theorem free_mid {h h' : Heap} {l r : List Nat} {b : Nat} (ho : h.Ok) (g : Grows h h' (l ++ b :: r)) :
    ∃ h'', h'.free b = .ok h'' ∧ Grows h h'' (l ++ r) := by
  refine free_new ho (g.perm ?_ ?_)
  · intro x; simp only [List.mem_append, List.mem_cons]; grind
  · have := g.nodup
    exact (List.perm_middle.nodup_iff).1 this

theorem doRest_spec {R : Ref → List Arg → List View → Prop} (p : Ref) (e : EntryArg) (he : e.id = p) (hva : e.va = true)
    (i : Nat) (hd : Handler) (hb : Behaves (R p) hd) (isVaList : Bool) (st : Sto) (h : Heap) (hc : Consistent st h)
    (hi : st.items.length = i) (args given : List Arg) (left : Option (List Arg))
    (hv : if isVaList then ∃ ptr rest, args = .vaList ptr given :: rest ∧ left = some rest else given = args ∧ left = none) :
    StepOk R st h (.rest p given) left (doRest e i (some hd) isVaList st args h) := by
  unfold doRest
  rcases appendNested_spec st e hva h hc with ⟨r, h', e1, hr, g, hk⟩ | ⟨node, d, inner, h1, e1, hin, g⟩
  · refine ⟨none, [], h', ?_, trivial, by simpa [ownedL] using g, by simp, ?_⟩
    · rw [e1]; simp [hr, extend_nil hc]
    · intro hnf; obtain ⟨k, hk⟩ := hk; rw [hnf k] at hk; cases hk
  · rw [e1]
    simp only [Outcome.bind_ok, ne_eq, not_true_eq_false, if_false]
    have hx := extend_one st (.nested node e d inner [] 0 none)
    simp only [Item.node] at hx
    rw [hx]
    have hgood : Good (.nested node e d inner [] 0 none) := ⟨hva, fun _ => rfl, trivial, rfl, rfl⟩
    have ho1 := g.ok hc.1
    have fail : ∀ h2, newItem (extend st [.nested node e d inner [] 0 none]) i h1 = (none, h2) → Grows h1 h2 [] →
        (∃ k, h.fails k = true) → StepOk R st h (.rest p given) left
          (match newItem (extend st [.nested node e d inner [] 0 none]) i h1 with
            | (none, h) => pure (none, extend st [.nested node e d inner [] 0 none], h)
            | (some (handle, _), h) => callHandler hd isVaList i handle (extend st [.nested node e d inner [] 0 none]) args h) := by
      intro h2 e2 g2 hk
      rw [e2]
      refine ⟨none, [_], h2, rfl, ⟨hgood, trivial⟩, ?_, by simp, ?_⟩
      · have := g.trans g2
        simpa [ownedL] using this
      · intro hnf; obtain ⟨k, hk⟩ := hk; rw [hnf k] at hk; cases hk
    cases inner with
    | none =>
      refine fail h1 ?_ (Grows.refl h1) (hin rfl)
      unfold newItem newParamValue
      rw [if_neg (by omega)]
      simp [extend, ← hi]
    | some b =>
      have hp : newParamValue (extend st [.nested node e d (some b) [] 0 none]) i = some (e, b) := by
        unfold newParamValue
        rw [if_neg (by omega)]
        simp [extend, ← hi]
      rcases newItem_spec _ i h1 hp ho1 with ⟨h2, e2, g2, k, hk⟩ | ⟨hb', h2, e2, g2⟩
      · exact fail h2 e2 g2 ⟨k, by rw [← g.fails]; exact hk⟩
      · rw [e2]
        simp only []
        have hcin : Consistent ⟨b, [], 0, none⟩ h2 := by
          refine ⟨g2.ok ho1, by simp [ownedL], ?_, trivial, rfl, rfl⟩
          intro x hx
          simp only [ownedL, List.mem_singleton] at hx
          subst hx
          rw [g2.live, g.live]
          simp [owned, ownedL]
        -- the handler runs on `given`
        obtain ⟨r, inner', left', h3, e3, hblk, hcon, hadd, hR, hok⟩ :=
          hb i (extend st [.nested node e d (some b) [] 0 none]) b given h2 hcin
        have g3 := (g.trans g2).trans hadd.grows
        obtain ⟨h4, e4, g4⟩ := free_mid hc.1 (l := owned (.nested node e d (some b) [] 0 none)) (r := ownedL inner'.items)
          (b := hb') (h := h) (h' := h3) (by simpa using g3)
        obtain ⟨_, _, _, hgl, hsz, hla⟩ := hcon
        have hgood' : GoodL [.nested node e d (some inner'.block) inner'.items inner'.size inner'.last] :=
          ⟨⟨hva, by simp, hgl, hsz, hla⟩, trivial⟩
        have hgr : Grows h h4 (ownedL [.nested node e d (some inner'.block) inner'.items inner'.size inner'.last]) := by
          refine g4.perm ?_ ?_
          · intro x
            simp only [owned, ownedL, hblk, List.mem_append, List.nil_append, List.append_nil]
            grind
          · have := g4.nodup
            simp only [owned, ownedL, hblk, List.nil_append, List.append_nil] at this ⊢
            exact nodup_rot this
        have hnf : (∀ k, h.fails k = false) → r = 0 := by
          intro hnf
          apply hok
          intro k
          rw [g2.fails, g.fails]
          exact hnf k
        have hview : r = 0 → Filled R (.rest p given) (view (.nested node e d (some inner'.block) inner'.items inner'.size inner'.last)) := by
          intro h0
          exact .rest he (hR h0)
        unfold callHandler
        rw [inner_last st i hi]
        simp only []
        have hset := setInner_last st i hi node e d b inner'
        cases isVaList with
        | true =>
          simp only [if_true] at hv ⊢
          obtain ⟨ptr, rest, rfl, rfl⟩ := hv
          simp only [e3, Outcome.bind_ok, e4, hset]
          by_cases h0 : r = 0
          · rw [if_neg (by simpa using h0)]
            exact ⟨some rest, _, h4, rfl, hgood', hgr, fun a ha => by
              cases ha; exact ⟨⟨_, rfl, hview h0⟩, fun l hl => by cases hl; rfl⟩, by simp⟩
          · rw [if_pos h0]
            exact ⟨none, _, h4, rfl, hgood', hgr, by simp, fun hn => absurd (hnf hn) h0⟩
        | false =>
          simp only [Bool.false_eq_true, if_false] at hv ⊢
          obtain ⟨rfl, rfl⟩ := hv
          simp only [e3, Outcome.bind_ok, e4, hset]
          by_cases h0 : r = 0
          · rw [if_neg (by simpa using h0)]
            exact ⟨some left', _, h4, rfl, hgood', hgr, fun a ha => by
              cases ha; exact ⟨⟨_, rfl, hview h0⟩, fun l hl => by cases hl⟩, by simp⟩
          · rw [if_pos h0]
            exact ⟨none, _, h4, rfl, hgood', hgr, by simp, fun hn => absurd (hnf hn) h0⟩

theorem doParam_vaList {R : Ref → List Arg → List View → Prop} {env : Env} {db : Db} {tags : Option (Ref → Option Handler)}
    (hh : Handled R env db tags) {p : Ref} (hp : VaList env db p) (ht : tags ≠ none) (ptr : List UInt8) (inner : List Arg)
    (i : Nat) (st : Sto) (h : Heap) (hc : Consistent st h) (hi : st.items.length = i) (args : List Arg) :
    StepOk R st h (.rest p inner) (some args) (doParam env db tags i p st (.vaList ptr inner :: args) h) := by
  cases tags with
  | none => exact absurd rfl ht
  | some tag =>
    obtain ⟨hd, htag, hb⟩ := hh tag rfl p (.inr hp)
    obtain ⟨⟨t, hpi⟩, hv⟩ := hp
    have hplan : plan env db (some tag) p = .ok (.rest (some hd) true) := by
      unfold plan
      rw [hpi]
      simp [hv, htag]
    unfold doParam
    rw [hplan, Outcome.bind_ok]
    refine doRest_spec p _ rfl ?_ i hd hb true st h hc hi _ inner _ ?_
    · simp [entryArg, hpi, hv]
    · simp

theorem doParam_dots {R : Ref → List Arg → List View → Prop} {env : Env} {db : Db} {tags : Option (Ref → Option Handler)}
    (hh : Handled R env db tags) {p : Ref} (hp : Spec.Dots db p) (ht : tags ≠ none)
    (i : Nat) (st : Sto) (h : Heap) (hc : Consistent st h) (hi : st.items.length = i) (args : List Arg) :
    StepOk R st h (.rest p args) none (doParam env db tags i p st args h) := by
  cases tags with
  | none => exact absurd rfl ht
  | some tag =>
    obtain ⟨hd, htag, hb⟩ := hh tag rfl p (.inl hp)
    obtain ⟨t, hpi⟩ := hp
    have hplan : plan env db (some tag) p = .ok (.rest (some hd) false) := by
      unfold plan
      rw [hpi]
      simp [htag]
    unfold doParam
    rw [hplan, Outcome.bind_ok]
    refine doRest_spec p _ rfl ?_ i hd hb false st h hc hi _ args _ ?_
    · simp [entryArg, hpi]
    · simp

/-! ### All parameters -/

theorem AllFilled_append {R : Ref → List Arg → List View → Prop} {a b : List Slot} {c d : List View} (h : AllFilled R a c)
    (h' : AllFilled R b d) : AllFilled R (a ++ b) (c ++ d) := by
  induction h with
  | nil => exact h'
  | cons hf _ ih => exact .cons hf ih

theorem params_spec {R : Ref → List Arg → List View → Prop} {env : Env} {db : Db} {tags : Option (Ref → Option Handler)}
    (hh : Handled R env db tags) {ps : List Ref} {args : List Arg} {slots : List Slot} {k : Bool}
    (hcall : Call env db tags ps args slots k) :
    ∀ (i : Nat) (st : Sto) (h : Heap), Consistent st h → st.items.length = i →
    ∃ done new h', params env db tags i ps st args h = .ok (done, extend st new, h') ∧ GoodL new ∧ Grows h h' (ownedL new) ∧
      (done = true → k = true ∧ AllFilled R slots (views new)) ∧
      (k = true → (∀ k, h.fails k = false) → done = true) := by
  -- continuing after a parameter that succeeded or not
  have go : ∀ {p : Ref} {ps : List Ref} {args left : List Arg} {slot : Slot} {slots : List Slot} {k : Bool} (i : Nat) (st : Sto)
      (h : Heap), Consistent st h → st.items.length = i →
      StepOk R st h slot (some left) (doParam env db tags i p st args h) →
      (∀ (i : Nat) (st : Sto) (h : Heap), Consistent st h → st.items.length = i →
        ∃ done new h', params env db tags i ps st left h = .ok (done, extend st new, h') ∧ GoodL new ∧ Grows h h' (ownedL new) ∧
          (done = true → k = true ∧ AllFilled R slots (views new)) ∧
          (k = true → (∀ k, h.fails k = false) → done = true)) →
      ∃ done new h', params env db tags i (p :: ps) st args h = .ok (done, extend st new, h') ∧ GoodL new ∧ Grows h h' (ownedL new) ∧
        (done = true → k = true ∧ AllFilled R (slot :: slots) (views new)) ∧
        (k = true → (∀ k, h.fails k = false) → done = true) := by
    intro p ps args left slot slots k i st h hc hi hstep ih
    obtain ⟨o, new, h1, e1, hg, g, hs, hnf⟩ := hstep
    simp only [params, e1, Outcome.bind_ok]
    cases o with
    | none => exact ⟨false, new, h1, rfl, hg, g, by simp, fun _ hn => absurd rfl (hnf hn)⟩
    | some a =>
      obtain ⟨⟨x, rfl, hx⟩, hl⟩ := hs a rfl
      have := hl left rfl
      subst this
      have hc1 : Consistent (extend st [x]) h1 := Consistent_appendL hc [x] g hg
      obtain ⟨done, new2, h2, e2, hg2, g2, hd, hn⟩ := ih (i + 1) (extend st [x]) h1 hc1 (by simp [extend, hi])
      refine ⟨done, [x] ++ new2, h2, by simp only [e2, extend_extend], ?_, ?_, ?_, ?_⟩
      · rw [GoodL_append]; exact ⟨hg, hg2⟩
      · rw [ownedL_append]; exact g.trans g2
      · intro hdone
        obtain ⟨hk, hf⟩ := hd hdone
        exact ⟨hk, .cons hx hf⟩
      · intro hk hnf
        exact hn hk (by rw [g.fails]; exact hnf)
  induction hcall with
  | nil =>
    intro i st h hc hi
    refine ⟨true, [], h, by simp [params, extend_nil hc], trivial, by simpa [ownedL] using Grows.refl h, ?_, by simp⟩
    intro _; exact ⟨rfl, .nil⟩
  | plain hp ht hcar _ ih =>
    intro i st h hc hi
    exact go i st h hc hi (doParam_plain hp ht hcar i st h hc hi _) ih
  | vaList hp ht _ ih =>
    intro i st h hc hi
    exact go i st h hc hi (doParam_vaList hh hp ht _ _ i st h hc hi _) ih
  | @dots p args hp ht =>
    intro i st h hc hi
    obtain ⟨o, new, h1, e1, hg, g, hs, hnf⟩ := doParam_dots hh hp ht i st h hc hi args
    simp only [params, e1, Outcome.bind_ok]
    cases o with
    | none => exact ⟨false, new, h1, rfl, hg, g, by simp, fun _ hn => absurd rfl (hnf hn)⟩
    | some a =>
      obtain ⟨⟨x, rfl, hx⟩, _⟩ := hs a rfl
      exact ⟨true, [x], h1, rfl, hg, g, fun _ => ⟨trivial, .cons hx .nil⟩, fun _ _ => rfl⟩
  | @refused p ps args hr =>
    intro i st h hc hi
    obtain ⟨h1, e1, g⟩ := doParam_refused hr i st h hc hi args
    refine ⟨false, [], h1, ?_, trivial, by simpa [ownedL] using g, by simp, by simp⟩
    simp only [params, e1, Outcome.bind_ok, extend_nil hc, Outcome.pure_eq]

end Verif.WrapCall
