import Verif.Alt.Spec
import Verif.Trace.Lemmas
import Verif.Value.PropsBase
/-
Lemmas for the other way to trace a call.
-/
namespace Verif.Alt
open Verif Verif.Entry Verif.Entry.Spec Verif.Value Verif.Value.Spec Verif.ParamStorage Verif.ParamStorage.Spec Verif.Handles Verif.Heap Verif.Alt.Spec
open Verif.WrapCall (Arg Handler entryArg newItem write innerOf setInner)
open Verif.WrapCall.Spec (Slot AllFilled Filled Declares Handled Plain VaList Behaves)

/-! ### An ordinary parameter -/

theorem rows_ty (ty : Ty) : (rows.find? fun r => r.1 == typeName ty && r.2.1 == Value.Spec.sizeOf ty).map (fun r => (r.2.1, r.2.2)) = some (Value.Spec.sizeOf ty, ty) := by
  cases ty <;> rfl

theorem sizeOf_pos (ty : Ty) : 0 < Value.Spec.sizeOf ty ∧ Value.Spec.sizeOf ty ≤ 32 := by cases ty <;> decide

theorem step_final {env : WrapCall.Env} {db : Db} {p t : Ref} (hp : Plain env db p (some t)) {f : Option Ref} {qs : List Qual} (h : Final db t f qs) : Final db p f qs := by
  have : own db p = [] := by simp [own, hp.1]
  have h2 := Final.step (.param hp.1) h
  rwa [this] at h2

theorem base_size {db : Db} {f : Ref} {ty : Ty} (hd : Describes db f ty) {bs : UInt64} {be : Nat} (hi : (db f).info = .base bs be) (h0 : bs ≠ 0) :
    bs.toNat = Value.Spec.sizeOf ty ∧ (db f).name = some (typeName ty) := by
  obtain ⟨bs', be', hi', hn, -, hs⟩ := hd
  rw [hi] at hi'
  cases hi'
  exact ⟨hs h0, hn⟩

theorem setBase_ok {env : WrapCall.Env} {db : Db} (hn : Named db) {p t f : Ref} {qs : List Qual} {ty : Ty} (hp : Plain env db p (some t)) (hf : Final db t (some f) qs) (hq : Qual.const ∉ qs) (hd : Describes db f ty)
    (i : Nat) (bs : List UInt8) (st : Sto) : setBase db i p ty bs st = write st i bs := by
  have hfp := step_final hp hf
  obtain ⟨w, hw, h1, h2⟩ := const_flag hfp
  have hc : (w.getD {}).const = false := by
    by_cases hx : Entry.Spec.Dots db f
    · exact h2 hx
    · cases hc : (w.getD {}).const with
      | false => rfl
      | true => exact absurd ((h1 hx).1 hc) hq
  unfold setBase
  simp only [hw, Outcome.ofLoop_some, Outcome.bind_ok, hc]
  rw [isTy_iff hn hfp hd ty]
  simp

theorem fillBase_ok {env : WrapCall.Env} {db : Db} (hn : Named db) {p t f : Ref} {qs : List Qual} {ty : Ty} {bs : UInt64} {be : Nat} (hp : Plain env db p (some t)) (hf : Final db t (some f) qs) (hq : Qual.const ∉ qs) (hd : Describes db f ty)
    (hi : (db f).info = .base bs be) (h0 : bs ≠ 0) (i : Nat) (x : Expr) (hx : Value.Spec.sizeOf ty ≤ x.own.length) (st st' : Sto) (hw : write st i (x.own.take (Value.Spec.sizeOf ty)) = .ok st') :
    fillBase db i p (db f).name bs x st = .ok st' := by
  obtain ⟨hs, hnm⟩ := base_size hd hi h0
  unfold fillBase
  rw [hnm, hs]
  simp only []
  have := rows_ty ty
  cases hr : rows.find? fun r => r.1 == typeName ty && r.2.1 == Value.Spec.sizeOf ty with
  | none => rw [hr] at this; simp at this
  | some r =>
    obtain ⟨n, k, ty'⟩ := r
    rw [hr] at this
    simp only [Option.map_some, Option.some.injEq, Prod.mk.injEq] at this
    obtain ⟨rfl, rfl⟩ := this
    simp only [first]
    rw [if_neg (by omega)]
    simp only [Outcome.bind_ok]
    rw [setBase_ok hn hp hf hq hd, hw]

theorem fill_base {env : WrapCall.Env} {db : Db} (hn : Named db) {p t : Ref} {ty : Ty} (hp : Plain env db p (some t)) (hb : IsBase db t ty) (x : Expr) (hx : Value.Spec.sizeOf ty ≤ x.own.length) :
    ∃ size : UInt64, byteSize db (some p) true = some (.ok size) ∧ size.toNat = Value.Spec.sizeOf ty ∧
      ∀ i st st', write st i (x.own.take (Value.Spec.sizeOf ty)) = .ok st' → fill db i p t size x st = .ok (true, st') := by
  obtain ⟨f, qs, bs, be, hf, hq, hd, hi, h0⟩ := hb
  refine ⟨bs, WrapCall.byteSize_stored (step_final hp hf) (.base hi), (base_size hd hi h0).1, ?_⟩
  intro i st st' hw
  unfold fill
  simp only [finalOf_final hf, keep, hi, isBase, Outcome.ofLoop_some, Outcome.bind_ok, if_true]
  rw [fillBase_ok hn hp hf hq hd hi h0 i x hx st st' hw]
  rfl

theorem fill_enum {env : WrapCall.Env} {db : Db} {p t f : Ref} {qs : List Qual} {size : UInt64} {enc : Nat} {es : List (Name × Int)} (hp : Plain env db p (some t)) (hf : Final db t (some f) qs)
    (hi : (db f).info = .enumeration size enc es) (hs : size.toNat ∈ [1, 2, 4, 8]) (x : Expr) (hx : size.toNat ≤ x.own.length) :
    byteSize db (some p) true = some (.ok size) ∧
      ∀ i st st', write st i (x.own.take size.toNat) = .ok st' → fill db i p t size x st = .ok (true, st') := by
  refine ⟨WrapCall.byteSize_stored (step_final hp hf) (.enumeration hi), ?_⟩
  intro i st st' hw
  unfold fill
  simp only [finalOf_final hf, keep, hi, isBase, isEnum, Outcome.ofLoop_some, Outcome.bind_ok, if_true, if_false, Bool.false_eq_true]
  have h4 : size = 1 ∨ size = 2 ∨ size = 4 ∨ size = 8 := by
    simp only [List.mem_cons, List.not_mem_nil, or_false] at hs
    rcases hs with h | h | h | h
    · exact .inl (UInt64.toNat_inj.1 h)
    · exact .inr (.inl (UInt64.toNat_inj.1 h))
    · exact .inr (.inr (.inl (UInt64.toNat_inj.1 h)))
    · exact .inr (.inr (.inr (UInt64.toNat_inj.1 h)))
  simp only [fillEnum, first]
  rw [if_pos h4, if_neg (by omega)]
  simp only [Outcome.bind_ok, hw]
  rfl

theorem fill_given {env : WrapCall.Env} {db : Db} (hn : Named db) {p t : Ref} {x : Expr} {bs : List UInt8} (hp : Plain env db p (some t)) (hg : Given db t x bs) :
    ∃ size : UInt64, byteSize db (some p) true = some (.ok size) ∧ size.toNat = bs.length ∧ 0 < bs.length ∧ bs.length < 2 ^ 31 ∧
      ∀ i st st', write st i bs = .ok st' → fill db i p t size x st = .ok (true, st') := by
  cases hg with
  | @same ty hb _ hl =>
    obtain ⟨size, h1, h2, h3⟩ := fill_base hn hp hb x (by omega)
    have hz := sizeOf_pos ty
    exact ⟨size, h1, by omega, by omega, by omega, fun i st st' hw => h3 i st st' (by rw [List.take_of_length_le (by omega)]; exact hw)⟩
  | @converted ty ty' hb _ _ hi hle =>
    have hl := hi.2.2
    obtain ⟨size, h1, h2, h3⟩ := fill_base hn hp hb x (by omega)
    have hz := sizeOf_pos ty
    have he : (x.own.take (Value.Spec.sizeOf ty)).length = Value.Spec.sizeOf ty := by rw [List.length_take]; omega
    exact ⟨size, h1, by omega, by omega, by omega, h3⟩
  | enumeration hf hi hs _ hl =>
    obtain ⟨h1, h2⟩ := fill_enum hp hf hi hs x (by omega)
    refine ⟨_, h1, hl.symm, ?_, ?_, fun i st st' hw => h2 i st st' (by rw [List.take_of_length_le (by omega)]; exact hw)⟩ <;>
      (simp only [List.mem_cons, List.not_mem_nil, or_false] at hs; omega)
  | @enumerator f qs size enc es ty' hf hi hs hx hle =>
    have hl := hx.2.2
    obtain ⟨h1, h2⟩ := fill_enum hp hf hi hs x (by omega)
    have he : (x.own.take size.toNat).length = size.toNat := by rw [List.length_take]; omega
    refine ⟨_, h1, he.symm, ?_, ?_, h2⟩ <;> (simp only [List.mem_cons, List.not_mem_nil, or_false] at hs; omega)
  | pointer hf hi ht hl =>
    refine ⟨8, WrapCall.byteSize_stored (step_final hp hf) (.pointer hi), by rw [hl]; rfl, by omega, by omega, ?_⟩
    intro i st st' hw
    unfold fill
    simp only [finalOf_final hf, keep, hi, isBase, isEnum, isPointer, Outcome.ofLoop_some, Outcome.bind_ok, if_true, if_false, Bool.false_eq_true]
    simp only [fillPointer, ht, first]
    rw [if_neg (by rw [hl]; decide), List.take_of_length_le (by rw [hl]; decide)]
    simp only [Outcome.bind_ok, hw]
    rfl
  | literal hf hi ht hl =>
    refine ⟨8, WrapCall.byteSize_stored (step_final hp hf) (.pointer hi), by rw [hl]; rfl, by omega, by omega, ?_⟩
    intro i st st' hw
    unfold fill
    simp only [finalOf_final hf, keep, hi, isBase, isEnum, isPointer, Outcome.ofLoop_some, Outcome.bind_ok, if_true, if_false, Bool.false_eq_true]
    simp only [fillPointer, ht]
    rw [List.take_of_length_le (by rw [hl]; decide)]
    simp only [Outcome.bind_ok, hw]
    rfl
  | agg hf hi h0 h1 ht hl =>
    refine ⟨_, WrapCall.byteSize_stored (step_final hp hf) (.struct hi), hl.symm, by omega, by omega, ?_⟩
    intro i st st' hw
    unfold fill
    simp only [finalOf_final hf, keep, hi, isBase, isEnum, isPointer, isStruct, Outcome.ofLoop_some, Outcome.bind_ok, if_true, if_false, Bool.false_eq_true]
    simp only [first]
    rw [if_neg (by omega), List.take_of_length_le (by omega)]
    simp only [Outcome.bind_ok, hw]
    rfl

/-- An argument has been appended. -/
def Done (F : Ref → List Arg → List View → Prop) (st : Sto) (h : Heap) (slot : Slot) (res : Outcome Step) : Prop :=
  ∃ x h', res = .ok (0, extend st [x], h') ∧ Good x ∧ Grows h h' (owned x) ∧ Filled F slot (view x)

theorem sized_ok (size : UInt64) (st : Sto) (h : Heap) (k : UInt64 → Outcome Step) : sized (.ok size) st h k = k size := rfl

theorem ordinary_size {env : WrapCall.Env} {db : Db} {i : Nat} {p t : Ref} {x : Expr} {st : Sto} {h : Heap} {size : UInt64} (h1 : byteSize db (some p) true = some (.ok size)) :
    ordinary env db i p (some t) x st h = store env db i p t size x st h := by
  unfold ordinary
  simp only []
  rw [h1, Outcome.ofLoop_some, Outcome.bind_ok, sized_ok]

theorem ordinary_ok {F : Ref → List Arg → List View → Prop} {env : WrapCall.Env} {db : Db} (hn : Named db) {p t : Ref} {x : Expr} {bs : List UInt8} (hp : Plain env db p (some t)) (hg : Given db t x bs)
    (i : Nat) (st : Sto) (h : Heap) (hc : Consistent st h) (hi : st.items.length = i) (hm : ∀ k, h.fails k = false) :
    Done F st h (.bytes p bs) (ordinary env db i p (some t) x st h) := by
  obtain ⟨size, h1, h2, h3, h4, h5⟩ := fill_given hn hp hg
  rw [ordinary_size h1]
  unfold store
  have hsz : toInt32 (size.toNat : Int) = (bs.length : Int) := by rw [WrapCall.toInt32_small (h2 ▸ h4), h2]
  clear h4
  rw [hsz]
  rcases appendBuffer_spec st (some (entryArg env db p)) bs.length h hc with ⟨r, h', e1, hr, g, hf⟩ | ⟨e0, node, d, addr, ha, he, hpos, e1, g⟩
  · rcases hf with ⟨k, hk⟩ | hf | hf
    · rw [hm k] at hk; cases hk
    · cases hf
    · omega
  · cases he
    rw [e1]
    simp only [Outcome.bind_ok, ne_eq, not_true_eq_false, if_false]
    have hx := WrapCall.extend_one st (.buf node (entryArg env db p) d addr (List.replicate (bs.length : Int).toNat 0))
    simp only [Item.node] at hx
    rw [hx]
    have hp' : newParamValue (extend st [.buf node (entryArg env db p) d addr (List.replicate (bs.length : Int).toNat 0)]) i = some (entryArg env db p, addr) := by
      unfold newParamValue
      rw [if_neg (by omega)]
      simp [extend, ← hi]
    rcases WrapCall.newItem_spec _ i ha hp' (g.ok hc.1) with ⟨h2', e2, g2, k, hk⟩ | ⟨b, h2', e2, g2⟩
    · rw [g.fails, hm k] at hk; cases hk
    · rw [e2]
      simp only []
      rw [h5 i _ _ (WrapCall.write_last st i hi _ _ _ _ _ bs (by simp))]
      obtain ⟨h3', e3, g3⟩ := free_new (g.ok hc.1) g2
      simp only [Outcome.bind_ok, e3, if_true]
      refine ⟨_, h3', rfl, ?_, by simpa [owned] using g.trans g3, .bytes rfl⟩
      intro hb
      simp [hb] at h3

/-! ### Variable arguments -/

theorem variable_ok {F : Ref → List Arg → List View → Prop} {env : WrapCall.Env} {db : Db} {tags : Option (Ref → Option Handler)} (hh : Handled F env db tags) {p : Ref}
    (hp : WrapCall.Spec.Dots db p ∨ VaList env db p) (ht : tags ≠ none) (args : List Arg)
    (i : Nat) (st : Sto) (h : Heap) (hc : Consistent st h) (hi : st.items.length = i) (hm : ∀ k, h.fails k = false) :
    Done F st h (.rest p args) (variable_ env db tags i p args st h) := by
  cases tags with
  | none => exact absurd rfl ht
  | some tag =>
  obtain ⟨hd, htag, hb⟩ := hh tag rfl p hp
  have hva : (entryArg env db p).va = true := by
    rcases hp with ⟨t, hp⟩ | ⟨⟨t, hp⟩, hv⟩
    · simp [entryArg, hp]
    · simp [entryArg, hp, hv]
  unfold variable_
  rcases appendNested_spec st (entryArg env db p) hva h hc with ⟨r, h', e1, hr, g, k, hk⟩ | ⟨node, d, inner, h1, e1, hin, g⟩
  · rw [hm k] at hk; cases hk
  · rw [e1]
    simp only [Outcome.bind_ok, ne_eq, not_true_eq_false, if_false]
    have hx := WrapCall.extend_one st (.nested node (entryArg env db p) d inner [] 0 none)
    simp only [Item.node] at hx
    rw [hx]
    cases inner with
    | none => obtain ⟨k, hk⟩ := hin rfl; rw [hm k] at hk; cases hk
    | some b =>
      match ha : h1.alloc with
      | (none, h2) => obtain ⟨k, hk⟩ := alloc_fail ha; rw [g.fails, hm k] at hk; cases hk
      | (some iter, h2) =>
        have ga := alloc_grows ha
        simp only [Option.toList_some] at ga
        have ho1 := g.ok hc.1
        have ho2 := ga.ok ho1
        have hpv : newParamValue (extend st [.nested node (entryArg env db p) d (some b) [] 0 none]) i = some (entryArg env db p, b) := by
          unfold newParamValue
          rw [if_neg (by omega)]
          simp [extend, ← hi]
        simp only [Option.bind_some, htag, handle]
        rcases WrapCall.newItem_spec _ i h2 hpv ho2 with ⟨h3, e3, g3, k, hk⟩ | ⟨hb', h3, e3, g3⟩
        · rw [ga.fails, g.fails, hm k] at hk; cases hk
        · rw [e3]
          simp only [WrapCall.inner_last st i hi]
          have hcin : Consistent ⟨b, [], 0, none⟩ h3 := by
            refine ⟨g3.ok ho2, by simp [ownedL], ?_, trivial, rfl, rfl⟩
            intro x hx
            simp only [ownedL, List.mem_singleton] at hx
            subst hx
            rw [g3.live, ga.live, g.live]
            simp [owned, ownedL]
          obtain ⟨r, inner', left', h4, e4, hblk, hcon, hadd, hR, hok⟩ := hb i (extend st [.nested node (entryArg env db p) d (some b) [] 0 none]) b args h3 hcin
          have h0 : r = 0 := hok fun k => by rw [g3.fails, ga.fails, g.fails]; exact hm k
          simp only [e4, Outcome.bind_ok]
          have g4 := ((g.trans ga).trans g3).trans (WrapCall.Spec.Adds.grows hadd)
          obtain ⟨h5, e5, g5⟩ := WrapCall.free_mid hc.1 (l := owned (.nested node (entryArg env db p) d (some b) [] 0 none) ++ [iter]) (r := ownedL inner'.items) (b := hb') (h := h) (h' := h4) (by simpa using g4)
          obtain ⟨h6, e6, g6⟩ := WrapCall.free_mid hc.1 (l := owned (.nested node (entryArg env db p) d (some b) [] 0 none)) (r := ownedL inner'.items) (b := iter) (h := h) (h' := h5) (by simpa using g5)
          simp only [e5, e6, Outcome.bind_ok, Outcome.pure_eq, WrapCall.setInner_last st i hi node _ d b inner']
          obtain ⟨_, _, _, hgl, hsz, hla⟩ := hcon
          refine ⟨.nested node (entryArg env db p) d (some inner'.block) inner'.items inner'.size inner'.last, h6, rfl, ⟨hva, by simp, hgl, hsz, hla⟩, ?_, .rest rfl (hR h0)⟩
          refine g6.perm ?_ ?_
          · intro x
            simp only [owned, ownedL, hblk, List.mem_append, List.nil_append, List.append_nil]
            grind
          · have := g6.nodup
            simp only [owned, ownedL, hblk, List.nil_append, List.append_nil] at this ⊢
            exact nodup_rot this

/-! ### All arguments -/

theorem append_ok {F : Ref → List Arg → List View → Prop} {env : WrapCall.Env} {generic : Bool} {db : Db} {tags : Option (Ref → Option Handler)} (hn : Named db) (hh : Handled F env db tags)
    (ps : List Ref) {ps' : List Ref} {xs : List Expr} {slots : List Slot} (hfit : Fits env generic db tags ps' xs slots) :
    ∀ (i : Nat) (st : Sto) (h : Heap), ps.drop i = ps' → Consistent st h → st.items.length = i → (∀ k, h.fails k = false) →
    ∃ new h', append env generic db tags ps i xs st h = .ok (0, extend st new, h') ∧ GoodL new ∧ Grows h h' (ownedL new) ∧ AllFilled F slots (views new) := by
  have head : ∀ {i p ps''}, ps.drop i = p :: ps'' → ps[i]? = some p ∧ ps.drop (i + 1) = ps'' := by
    intro i p ps'' h
    constructor
    · rw [← List.head?_drop, h]; rfl
    · rw [← List.tail_drop, h]; rfl
  have go : ∀ {i : Nat} {st : Sto} {h : Heap} {slot : Slot} {slots : List Slot} {ps'' : List Ref} {xs : List Expr} {res : Outcome Step}, Consistent st h → st.items.length = i → (∀ k, h.fails k = false) →
      Done F st h slot res → ps.drop (i + 1) = ps'' →
      (∀ (i : Nat) (st : Sto) (h : Heap), ps.drop i = ps'' → Consistent st h → st.items.length = i → (∀ k, h.fails k = false) →
        ∃ new h', append env generic db tags ps i xs st h = .ok (0, extend st new, h') ∧ GoodL new ∧ Grows h h' (ownedL new) ∧ AllFilled F slots (views new)) →
      ∃ new h', (res >>= fun r => if r.1 ≠ 0 then pure (r.1, r.2.1, r.2.2) else append env generic db tags ps (i + 1) xs r.2.1 r.2.2) = .ok (0, extend st new, h') ∧ GoodL new ∧ Grows h h' (ownedL new) ∧ AllFilled F (slot :: slots) (views new) := by
    intro i st h slot slots ps'' xs res hc hi hm ⟨x, h1, e1, hg, g, hf⟩ hd ih
    have hgl : GoodL [x] := ⟨hg, trivial⟩
    have gl : Grows h h1 (ownedL [x]) := by simpa [ownedL] using g
    obtain ⟨new, h2, e2, hg2, g2, ha⟩ := ih (i + 1) (extend st [x]) h1 hd (Consistent_appendL hc [x] gl hgl) (by simp [extend, hi]) (by rw [g.fails]; exact hm)
    refine ⟨[x] ++ new, h2, ?_, ?_, ?_, .cons hf ha⟩
    · rw [e1]
      simp only [Outcome.bind_ok, ne_eq, not_true_eq_false, if_false, e2, extend_extend]
    · rw [GoodL_append]; exact ⟨hgl, hg2⟩
    · rw [ownedL_append]; exact gl.trans g2
  induction hfit with
  | nil =>
    intro i st h _ hc _ _
    exact ⟨[], h, by simp [append, extend_nil hc], trivial, by simpa [ownedL] using Grows.refl h, .nil⟩
  | noDots _ =>
    intro i st h _ hc _ _
    exact ⟨[], h, by simp [append, extend_nil hc], trivial, by simpa [ownedL] using Grows.refl h, .nil⟩
  | @plain p t x bs ps'' xs slots hp hg _ ih =>
    intro i st h hd hc hi hm
    obtain ⟨h1, h2⟩ := head hd
    have := go hc hi hm (ordinary_ok hn hp hg i st h hc hi hm) h2 ih
    simp only [append, h1, hp.1, hp.2, Bool.not_false, Bool.and_self, if_true]
    exact this
  | @vaList p x ptr inner ps'' xs slots hp ht hgen hx _ ih =>
    intro i st h hd hc hi hm
    obtain ⟨h1, h2⟩ := head hd
    have := go hc hi hm (variable_ok hh (.inr hp) ht inner i st h hc hi hm) h2 ih
    obtain ⟨⟨t, hp1⟩, hp2⟩ := hp
    subst hgen
    simp only [append, h1, hp1, hp2, hx, Bool.not_false, Bool.not_true, Bool.and_false, Bool.false_eq_true, if_true, if_false]
    exact this
  | @dots p x xs hp ht =>
    intro i st h hd hc hi hm
    obtain ⟨h1, -⟩ := head hd
    obtain ⟨y, h2, e2, hg, g, hf⟩ := variable_ok hh (.inl hp) ht ((x :: xs).map (·.arg)) i st h hc hi hm
    obtain ⟨t, hp1⟩ := hp
    refine ⟨[y], h2, ?_, ⟨hg, trivial⟩, by simpa [ownedL] using g, .cons hf .nil⟩
    simp only [append, h1, hp1, Bool.not_true, Bool.false_and, Bool.false_eq_true, if_false]
    exact e2

variable {W R : Type}

theorem start_ok {p : Trace.Prog W R} {generic : Bool} {F : Ref → List Arg → List View → Prop} (hn : Named p.db) (hh : Handled F p.env p.db p.tags) {entry : Ref} {ps : List Ref} (he : p.entry = some entry) (hd : Declares p.db entry ps)
    {xs : List Expr} {slots : List Slot} (hfit : Fits p.env generic p.db p.tags ps xs slots) (hadr : ∀ b, p.addrOf b ≠ 0) {h : Heap} (ho : h.Ok) (hm : ∀ k, h.fails k = false) :
    ∃ v st h', start p generic xs h = .ok (some v, some st, [], h') ∧ Trace.Started p.entry (some v) (some st) h.live h' ∧ h'.fails = h.fails ∧ AllFilled F slots (views st.items) := by
  have ow : Owns h.live h [] := .init ho
  unfold start
  match ea : h.alloc with
  | (none, h1) => simp [Heap.alloc, hm] at ea
  | (some b, h1) =>
    obtain ⟨o1, f1⟩ := ow.alloc_some ea
    have e1 : newStorage h = (some ⟨b, [], 0, none⟩, h1) := by simp [newStorage, ea]
    simp only [e1]
    obtain ⟨v, h2, e2, f2, n2, on, os, hf⟩ := Trace.static_new p.db p.entry (p.addrOf b) o1
    simp only [e2, Outcome.bind_ok]
    cases v with
    | none => exact absurd rfl (hf (hadr b) (by rw [f1]; exact hm))
    | some v =>
      obtain ⟨h0, h3, h4⟩ := os v rfl
      have hc : Consistent ⟨b, [], 0, none⟩ h2 := by
        refine ⟨h4.ok, by simp [ownedL], ?_, by simp [GoodL], rfl, rfl⟩
        intro x hx
        simp only [ownedL, List.mem_singleton] at hx
        subst hx
        rw [h4.live]
        simp
      obtain ⟨f, hff, hps⟩ := WrapCall.finalOf_func hd
      obtain ⟨new, h5, e5, hg, g, hall⟩ := append_ok (generic := generic) hn hh ps hfit 0 ⟨b, [], 0, none⟩ h2 rfl hc rfl (by rw [f2, f1]; exact hm)
      simp only [appendAll, he, hff, hps, Outcome.ofLoop_some, Outcome.bind_ok, e5]
      have hc5 := Consistent_appendL hc new g hg
      have hitems : (extend (⟨b, [], 0, none⟩ : Sto) new).items = new := by simp [extend]
      refine ⟨v, _, h5, rfl, ⟨by simp, ?_, ?_, ?_⟩, g.fails.trans (f2.trans f1), by rw [hitems]; exact hall⟩
      · rintro x ⟨⟩
        rw [← he]
        exact h3
      · rintro s ⟨⟩
        exact hc5.2.2.2
      · have fresh : ∀ x ∈ ownedL new, h2.live x = false := by
          intro x hx
          cases hl : h2.live x with
          | false => rfl
          | true => have := h4.ok x hl; have := (g.fresh x hx).1; omega
        have hsb : Trace.storageBlocks (some (extend (⟨b, [], 0, none⟩ : Sto) new)) = b :: ownedL new := by simp [Trace.storageBlocks, extend]
        rw [hsb]
        refine ⟨g.ok h4.ok, ?_, ?_, ?_⟩
        · intro x
          rw [g.live, h4.live]
          simp [Bool.or_assoc]
        · have h6 := h4.nodup
          show (v.block :: b :: ownedL new).Nodup
          refine (List.nodup_append (l₁ := [v.block, b])).2 ⟨h6, g.nodup, ?_⟩
          rintro x hx y hy rfl
          have := fresh x hy
          rw [h4.live] at this
          simp at this hx
          rcases hx with rfl | rfl <;> simp at this
        · intro x hx
          simp only [Option.toList_some, List.map_cons, List.map_nil, List.cons_append, List.nil_append, List.mem_cons] at hx
          rcases hx with rfl | rfl | hx
          · exact h4.apart _ (by simp)
          · exact h4.apart _ (by simp)
          · cases hl : h.live x with
            | false => rfl
            | true =>
              have := fresh x hx
              rw [h4.live, hl] at this
              simp at this

end Verif.Alt
