import Verif.PrintfCall.Props
import Verif.WrapCall.Props
/-
C75: a call of a printf-like function, collected with `metac_handle_printf_format`.
-/
namespace Verif.PrintfCall
open Verif Verif.PrintfCall.Spec Verif.Entry Verif.ParamStorage Verif.ParamStorage.Spec
open Verif.Entry.Spec (Final Alias)
open Verif.Printf.Spec (Conv Piece convs render WFPiece Separated WF Fits)
open Verif.WrapCall (Arg ArgTy Handler StepOk doParam doParam_plain doRest callHandler params wrap plan entryArg newItem newItem_spec
  innerOf setInner inner_last setInner_last free_mid extend_one finalOf_func AllFilled_append)
open Verif.WrapCall.Spec (Adds Slot Filled AllFilled Plain Takes Carries Dots Declares Class)

/-- Ordinary parameters `ps`, the arguments passed for them and what they are. -/
inductive Spec.Plains (env : WrapCall.Env) (db : Db) : List Ref → List Arg → List Slot → Prop where
  | nil : Plains env db [] [] []
  | cons {p t c bs a ps args slots} : Plain env db p (some t) → Takes env db t c → Carries env c bs a →
      Plains env db ps args slots → Plains env db (p :: ps) (a :: args) (.bytes p bs :: slots)

/-- What a handler did in one call. -/
def Did (b : Nat) (vs : List View) (h : Heap) (res : Outcome (Int × Sto × List Arg × Heap)) : Prop :=
  ∃ r inner left leak h', res = .ok (r, inner, left, h') ∧ inner.block = b ∧ Consistent inner h' ∧
    Grows h h' (ownedL inner.items ++ leak) ∧ leak.length ≤ 1 ∧ (r = 0 → leak = [] ∧ views inner.items = vs) ∧
    ((∀ k, h.fails k = false) → r = 0)

/-- How the last parameters may end. -/
def LastOk (R : Ref → List Arg → List View → Prop) (slots : List Slot) (st : Sto) (h : Heap) (res : Outcome (Bool × Sto × Heap)) : Prop :=
  ∃ done new leak h', res = .ok (done, extend st new, h') ∧ GoodL new ∧ Grows h h' (ownedL new ++ leak) ∧ leak.length ≤ 1 ∧
    (done = true → leak = [] ∧ AllFilled R slots (views new)) ∧ ((∀ k, h.fails k = false) → done = true)

/-- After an ordinary parameter. -/
theorem LastOk.cons {R : Ref → List Arg → List View → Prop} {env : WrapCall.Env} {db : Db} {tags : Option (Ref → Option Handler)}
    {p : Ref} {ps : List Ref} {args left : List Arg} {slot : Slot} {slots : List Slot} {i : Nat} {st : Sto} {h : Heap}
    (hc : Consistent st h) (hstep : StepOk R st h slot (some left) (doParam env db tags i p st args h))
    (ih : ∀ x h', Consistent (extend st [x]) h' → Filled R slot (view x) →
      LastOk R slots (extend st [x]) h' (params env db tags (i + 1) ps (extend st [x]) left h')) :
    LastOk R (slot :: slots) st h (params env db tags i (p :: ps) st args h) := by
  obtain ⟨o, new, h1, e1, hg, g, hs, hnf⟩ := hstep
  simp only [params, e1, Outcome.bind_ok]
  cases o with
  | none => exact ⟨false, new, [], h1, rfl, hg, by simpa using g, by simp, by simp, fun hn => absurd rfl (hnf hn)⟩
  | some a =>
    obtain ⟨⟨x, rfl, hx⟩, hl⟩ := hs a rfl
    have := hl left rfl
    subst this
    have hc1 : Consistent (extend st [x]) h1 := Consistent_appendL hc [x] g hg
    obtain ⟨done, new2, leak, h2, e2, hg2, g2, hlk, hd, hn⟩ := ih x h1 hc1 hx
    refine ⟨done, [x] ++ new2, leak, h2, by simp only [e2, extend_extend], ?_, ?_, hlk, ?_, ?_⟩
    · rw [GoodL_append]; exact ⟨hg, hg2⟩
    · rw [ownedL_append, List.append_assoc]; exact g.trans g2
    · intro hdone
      obtain ⟨hk, hf⟩ := hd hdone
      exact ⟨hk, .cons hx hf⟩
    · intro hnf
      exact hn (by rw [g.fails]; exact hnf)

/-- The variable arguments, with a handler that does its work in this call. -/
theorem dots_spec {env : WrapCall.Env} {db : Db} {tag : Ref → Option Handler} {p : Ref} (hp : Dots db p) {hd : Handler} (ht : tag p = some hd)
    (i : Nat) (st : Sto) (h : Heap) (hc : Consistent st h) (hi : st.items.length = i) (args : List Arg) (vs : List View)
    (hb : ∀ outer b h', (∃ x, outer.items = st.items ++ [x]) → Consistent outer h' → Consistent ⟨b, [], 0, none⟩ h' →
      Did b vs h' (hd i outer ⟨b, [], 0, none⟩ args h')) :
    LastOk (fun _ _ x => x = vs) [.rest p args] st h (params env db (some tag) i [p] st args h) := by
  obtain ⟨t, hpi⟩ := hp
  have hplan : plan env db (some tag) p = .ok (.rest (some hd) false) := by
    unfold plan
    rw [hpi]
    simp [ht]
  have hva : (entryArg env db p).va = true := by simp [entryArg, hpi]
  have hid : (entryArg env db p).id = p := rfl
  have fin : ∀ (o : Option (List Arg)) (new : List Item) (leak : List Nat) (h' : Heap) (res : Outcome WrapCall.Step),
      res = .ok (o, extend st new, h') → GoodL new → Grows h h' (ownedL new ++ leak) → leak.length ≤ 1 →
      (o ≠ none → leak = [] ∧ AllFilled (fun _ _ x => x = vs) [.rest p args] (views new)) →
      ((∀ k, h.fails k = false) → o ≠ none) →
      LastOk (fun _ _ x => x = vs) [.rest p args] st h (do
        match ← res with
        | (none, st, h) => return (false, st, h)
        | (some args, st, h) => params env db (some tag) (i + 1) [] st args h) := by
    intro o new leak h' res e1 hg g hl ho hn
    rw [e1]
    cases o with
    | none => exact ⟨false, new, leak, h', rfl, hg, g, hl, by simp, fun h0 => absurd rfl (hn h0)⟩
    | some a => exact ⟨true, new, leak, h', rfl, hg, g, hl, fun _ => ho (by simp), fun _ => rfl⟩
  simp only [params]
  suffices hs : ∃ o new leak h', doParam env db (some tag) i p st args h = .ok (o, extend st new, h') ∧ GoodL new ∧
      Grows h h' (ownedL new ++ leak) ∧ leak.length ≤ 1 ∧
      (o ≠ none → leak = [] ∧ AllFilled (fun _ _ x => x = vs) [.rest p args] (views new)) ∧
      ((∀ k, h.fails k = false) → o ≠ none) by
    obtain ⟨o, new, leak, h', e1, hg, g, hl, ho, hn⟩ := hs
    exact fin o new leak h' _ e1 hg g hl ho hn
  unfold doParam
  rw [hplan, Outcome.bind_ok]
  simp only []
  generalize entryArg env db p = e at hva hid
  unfold doRest
  have nf : ∀ {h' : Heap}, h'.fails = h.fails → (∃ k, h'.fails k = true) → (∀ k, h.fails k = false) → (none : Option (List Arg)) ≠ none := by
    rintro h' e ⟨k, hk⟩ hn; rw [e, hn k] at hk; cases hk
  rcases appendNested_spec st e hva h hc with ⟨r, h', e1, hr, g, hk⟩ | ⟨node, d, inner, h1, e1, hin, g⟩
  · refine ⟨none, [], [], h', ?_, trivial, by simpa [ownedL] using g, by simp, by simp, nf rfl hk⟩
    rw [e1]; simp [hr, extend_nil hc]
  · rw [e1]
    simp only [Outcome.bind_ok, ne_eq, not_true_eq_false, if_false]
    have hx := extend_one st (.nested node e d inner [] 0 none)
    simp only [Item.node] at hx
    rw [hx]
    have hgood : Good (.nested node e d inner [] 0 none) := ⟨hva, fun _ => rfl, trivial, rfl, rfl⟩
    have ho1 := g.ok hc.1
    cases inner with
    | none =>
      have : newItem (extend st [.nested node e d none [] 0 none]) i h1 = (none, h1) := by
        unfold newItem newParamValue
        rw [if_neg (by omega)]
        simp [extend, ← hi]
      rw [this]
      exact ⟨none, [_], [], h1, rfl, ⟨hgood, trivial⟩, by simpa [ownedL] using g, by simp, by simp, nf rfl (hin rfl)⟩
    | some b =>
      have hp : newParamValue (extend st [.nested node e d (some b) [] 0 none]) i = some (e, b) := by
        unfold newParamValue
        rw [if_neg (by omega)]
        simp [extend, ← hi]
      rcases newItem_spec _ i h1 hp ho1 with ⟨h2, e2, g2, hk⟩ | ⟨hb', h2, e2, g2⟩
      · rw [e2]
        exact ⟨none, [_], [], h2, rfl, ⟨hgood, trivial⟩, by simpa [ownedL] using g.trans g2, by simp, by simp, nf g.fails hk⟩
      · rw [e2]
        simp only []
        have hcin : Consistent ⟨b, [], 0, none⟩ h2 := by
          refine ⟨g2.ok ho1, by simp [ownedL], ?_, trivial, rfl, rfl⟩
          intro x hx
          simp only [ownedL, List.mem_singleton] at hx
          subst hx
          rw [g2.live, g.live]
          simp [owned, ownedL]
        have hcout : Consistent (extend st [.nested node e d (some b) [] 0 none]) h2 :=
          Consistent_grows (Consistent_extend hc _ g hgood) g2
        obtain ⟨r, inner', left', leak, h3, e3, hblk, hcon, g3, hlk, hR, hok⟩ := hb _ b h2 ⟨_, rfl⟩ hcout hcin
        obtain ⟨h4, e4, g4⟩ := free_mid hc.1 (l := owned (.nested node e d (some b) [] 0 none)) (r := ownedL inner'.items ++ leak)
          (b := hb') (h := h) (h' := h3) (by simpa using (g.trans g2).trans g3)
        obtain ⟨_, _, _, hgl, hsz, hla⟩ := hcon
        have hgood' : GoodL [.nested node e d (some inner'.block) inner'.items inner'.size inner'.last] :=
          ⟨⟨hva, by simp, hgl, hsz, hla⟩, trivial⟩
        have hgr : Grows h h4 (ownedL [.nested node e d (some inner'.block) inner'.items inner'.size inner'.last] ++ leak) := by
          refine Grows.reorder g4 ?_
          simp only [owned, ownedL, hblk, List.nil_append, List.append_nil]
          perm
        unfold callHandler
        rw [inner_last st i hi]
        simp only [Bool.false_eq_true, if_false, e3, Outcome.bind_ok, e4, setInner_last st i hi node e d b inner']
        by_cases h0 : r = 0
        · rw [if_neg (by simpa using h0)]
          obtain ⟨hl0, hv⟩ := hR h0
          refine ⟨some left', _, leak, h4, rfl, hgood', hgr, hlk, fun _ => ⟨hl0, ?_⟩, by simp⟩
          exact .cons (.rest hid hv) .nil
        · rw [if_pos h0]
          refine ⟨none, _, leak, h4, rfl, hgood', hgr, hlk, by simp, fun hn => absurd (hok ?_) h0⟩
          intro k
          rw [g2.fails, g.fails]
          exact hn k

theorem load_prefix {m : Mem} {s : List UInt8} {a : Nat} (h : StringAt m a s) : m.load a s.length = .ok s := by
  obtain ⟨h1, h2⟩ := h
  clear h2
  induction s generalizing a with
  | nil => rfl
  | cons b s ih =>
    have hb := (h1 0 b rfl).2
    have ih := ih (a := a + 1) (fun k x hx => by
      have := h1 (k + 1) x (by simpa using hx)
      rw [show a + (k + 1) = a + 1 + k by omega] at this
      exact this)
    rw [Nat.add_zero] at hb
    simp only [List.length_cons]
    unfold Mem.load
    rw [hb]
    simp only [ih, Outcome.bind_ok]
    rfl

/-- The handler in a call whose previous parameter is a pointer to the format. -/
theorem printfHandler_did (env : Env) (db : Db) (f : Ref) (i : Nat) (hpos : 0 < i) (outer : Sto) (b : Nat) (h : Heap)
    (hco : Consistent outer h) (hci : Consistent ⟨b, [], 0, none⟩ h) {q : Ref} (hq : byParameterId db (some f) i = some (some q))
    {n : Nat} {e : EntryArg} {d : Option Nat} {blk : Nat} {w : List UInt8}
    (hit : outer.items[i - 1]? = some (.buf n e d blk w)) {g : Ref} (hfin : finalOf db (some e.id) isPointer = some (some g))
    (hw : w.length = 8) (h0 : Mem.le w ≠ 0) (ps : List Piece) (hstr : StringAt env.mem (Mem.le w) (render ps))
    (hwf : ∀ p ∈ ps, WFPiece p) (hs : Separated ps) (hn : Piece.pct ∉ ps) (hf : ∀ c ∈ convs ps, Fits 10 c)
    (args extra : List Arg) (vs : List View) (ha : AllPass env (convs ps) args vs) :
    Did b vs h (printfHandler env db f i outer ⟨b, [], 0, none⟩ (args ++ extra) h) := by
  have hcast : (i : Int) - 1 = ((i - 1 : Nat) : Int) := by omega
  have hpv : newParamValue outer ((i : Int) - 1) = some (e, blk) := by
    unfold newParamValue
    rw [if_neg (by omega), hcast]
    simp [hit]
  unfold printfHandler
  simp only [hq, Outcome.ofLoop_some, Outcome.bind_ok, hpv]
  rw [hcast]
  have hdl : ∀ x, d = some x → h.live x = true := by
    intro x hx
    refine hco.2.2.1 x (List.mem_cons_of_mem _ (owned_mem_ownedL (List.mem_of_getElem? hit) ?_))
    simp [owned, hx]
  rcases newVal_spec hit hci.1 hdl with ⟨h1, e1, g1, k, hk⟩ | ⟨v, h1, e1, g1⟩
  · rw [e1]
    refine ⟨EINVAL, ⟨b, [], 0, none⟩, _, [], h1, rfl, rfl, Consistent_grows hci g1, by simpa [ownedL] using g1, by simp,
      fun h => absurd h (by decide), fun hn => ?_⟩
    rw [hn k] at hk; cases hk
  · rw [e1]
    simp only [Outcome.bind_ok]
    obtain ⟨h2, e2, g2⟩ := deleteVal_spec (l := []) v hci.1 (by simpa using g1)
    unfold withFormat
    simp only [hfin, Outcome.ofLoop_some, Outcome.bind_ok]
    have hpt : pointerAt outer (i - 1) = .ok (Mem.le w) := by
      unfold pointerAt
      rw [hit]
      simp only []
      rw [if_pos (by omega), List.take_of_length_le (by omega)]
    rw [hpt]
    simp only [Outcome.bind_ok, e2]
    rw [if_neg h0]
    have hcs : cstr env.mem (Mem.le w) = .ok (render ps) := by
      unfold cstr
      rw [strlen_string hstr]
      simp only [Outcome.bind_ok]
      exact load_prefix hstr
    rw [hcs]
    simp only [Outcome.bind_ok]
    obtain ⟨r, st', leak, h3, e3, hc3, hb3, ga, hlk, hz, hnf⟩ := C74_collect_partial env ps hwf hs hn hf args extra vs ha ⟨b, [], 0, none⟩ h2
      (Consistent_grows hci g2) rfl
    rw [e3]
    refine ⟨r, st', args ++ extra, leak, h3, rfl, hb3, hc3, by simpa using g2.trans ga.grows, hlk, hz, fun hn => hnf ?_⟩
    intro k
    rw [g2.fails]
    exact hn k

/-- All parameters of a printf-like function. -/
theorem params_printf {wenv : WrapCall.Env} {env : Env} {db : Db} {tag : Ref → Option Handler} {entry fmt dots t f : Ref} {qs : List Qual}
    {u : Option Ref} (hfmt : Plain wenv db fmt (some t)) (ht : Final db t (some f) qs) (hptr : (db f).info = .pointer u)
    (hdots : Dots db dots) (htag : tag dots = some (printfHandler env db entry))
    {w : List UInt8} (hw : w.length = 8) (h0 : Mem.le w ≠ 0) {pieces : List Piece} (hstr : StringAt env.mem (Mem.le w) (render pieces))
    (hwf : ∀ p ∈ pieces, WFPiece p) (hs : Separated pieces) (hn : Piece.pct ∉ pieces) (hf : ∀ c ∈ convs pieces, Fits 10 c)
    {args extra : List Arg} {vs : List View} (ha : AllPass env (convs pieces) args vs)
    {ps : List Ref} {pre : List Arg} {slots : List Slot} (hpl : Plains wenv db ps pre slots) :
    ∀ (i : Nat) (st : Sto) (h : Heap), Consistent st h → st.items.length = i →
      byParameterId db (some entry) ((i + ps.length + 1 : Nat) : Int) = some (some dots) →
      LastOk (fun _ _ x => x = vs) (slots ++ [.bytes fmt w, .rest dots (args ++ extra)]) st h
        (params wenv db (some tag) i (ps ++ [fmt, dots]) st (pre ++ .val .ptr w :: (args ++ extra)) h) := by
  induction hpl with
  | nil =>
    intro i st h hc hi hby
    refine LastOk.cons hc (doParam_plain hfmt (.pointer ht hptr) (.wide hw) i st h hc hi _) ?_
    intro x h1 hc1 hx
    refine dots_spec hdots htag (i + 1) _ h1 hc1 (by simp [extend, hi]) _ vs ?_
    rintro outer b h2 ⟨y, hy⟩ hco hci
    have hit : outer.items[i + 1 - 1]? = some x := by
      rw [hy]
      simp [extend, ← hi]
    generalize hvx : view x = v at hx
    cases hx with
    | bytes hid =>
      cases x with
      | nested => simp only [view] at hvx; split at hvx <;> cases hvx
      | buf n e d blk bs =>
        simp only [view, View.bytes.injEq] at hvx
        obtain ⟨rfl, rfl⟩ := hvx
        refine printfHandler_did env db entry (i + 1) (by omega) outer b h2 hco hci hby hit (g := f) ?_ hw h0 pieces hstr hwf hs hn hf
          args extra vs ha
        rw [hid, finalOf_final (.step (.param hfmt.1) ht)]
        simp [keep, hptr, isPointer]
  | cons hp ht' hcar _ ih =>
    intro i st h hc hi hby
    refine LastOk.cons hc (doParam_plain hp ht' hcar i st h hc hi _) ?_
    intro x h1 hc1 _
    refine ih (i + 1) _ h1 hc1 (by simp [extend, hi]) ?_
    rw [← hby]
    simp only [List.length_cons]
    congr 2
    omega

/-- C75.  A call of a function with ordinary parameters `ps`, a parameter `fmt` of a pointer
type and `...` for which `metac_handle_printf_format` is the handler, collected into an empty
storage: if a value is returned, the storage holds one item per declared parameter; the item
of `...` holds one parameter per conversion specification of the string `fmt` points to, with
the right type and bytes.  It is returned unless an allocation can fail; then deleting the
storage releases everything but at most one block.
Missing from the full property: what is missing in `C74_collect_partial`, and the iterator
must be allocated (C40). -/
theorem C75_call_partial (wenv : WrapCall.Env) (env : Env) (db : Db) (tag : Ref → Option Handler) (entry fmt dots t f : Ref) (qs : List Qual)
    (u : Option Ref) (ps : List Ref) (hd : Declares db entry (ps ++ [fmt, dots]))
    (hfmt : Plain wenv db fmt (some t)) (ht : Final db t (some f) qs) (hptr : (db f).info = .pointer u)
    (hdots : Dots db dots) (htag : tag dots = some (printfHandler env db entry))
    (w : List UInt8) (hw : w.length = 8) (h0 : Mem.le w ≠ 0) (pieces : List Piece) (hstr : StringAt env.mem (Mem.le w) (render pieces))
    (hwf : ∀ p ∈ pieces, WFPiece p) (hs : Separated pieces) (hn : Piece.pct ∉ pieces) (hf : ∀ c ∈ convs pieces, Fits 10 c)
    (args extra : List Arg) (vs : List View) (ha : AllPass env (convs pieces) args vs)
    (pre : List Arg) (slots : List Slot) (hpl : Plains wenv db ps pre slots)
    (st : Sto) (h : Heap) (hc : Consistent st h) (hempty : st.items = []) (handle : Nat) (hl : h.live handle = true)
    (hne : handle ≠ st.block) (hiter : h.fails h.next = false) :
    ∃ ret st' leak h' h'', wrap wenv db (some tag) (some handle) entry st (pre ++ .val .ptr w :: (args ++ extra)) h = .ok (ret, st', h') ∧
      Consistent st' h' ∧ st'.block = st.block ∧ leak.length ≤ 1 ∧
      (ret = true → leak = [] ∧
        AllFilled (fun _ _ x => x = vs) (slots ++ [.bytes fmt w, .rest dots (args ++ extra)]) (views st'.items)) ∧
      ((∀ k, h.fails k = false) → ret = true) ∧
      delete (some st') h' = .ok h'' ∧
      ∀ x, h''.live x = true ↔ (h.live x = true ∧ x ≠ st.block ∧ (ret = true ∨ x ≠ handle)) ∨ x ∈ leak := by
  obtain ⟨fn, hfn, hps⟩ := finalOf_func hd
  have hby : byParameterId db (some entry) ((0 + ps.length + 1 : Nat) : Int) = some (some dots) := by
    unfold byParameterId
    rw [hfn]
    simp only [Option.bind_eq_bind, Option.bind_some, hps, item]
    rw [if_neg (by simp; omega)]
    simp
  unfold wrap
  simp only [hfn, Outcome.ofLoop_some, Outcome.bind_ok, hps]
  have haf : h.alloc = (some h.next, { h with next := h.next + 1, live := fun x => x == h.next || h.live x }) := by
    simp [Heap.alloc, hiter]
  have ga := alloc_grows haf
  simp only [haf]
  simp only [Option.toList_some] at ga
  generalize hh1 : ({ h with next := h.next + 1, live := fun x => x == h.next || h.live x } : Heap) = h1 at ga
  obtain ⟨done, new, leak, h2, e2, hg, g2, hlk, hdone, hnf⟩ := params_printf (wenv := wenv) (extra := extra) hfmt ht hptr hdots htag hw h0 hstr hwf hs hn hf ha hpl
    0 st h1 (Consistent_grows hc ga) (by simp [hempty]) hby
  rw [e2]
  simp only [Outcome.bind_ok]
  have gall := ga.trans g2
  obtain ⟨h3, e3, g3⟩ := free_new hc.1 gall
  have hitems : (extend st new).items = new := by simp [extend, hempty]
  have hc3 : Consistent (extend st new) h3 := extend_consistent hc hg g3
  have hold : ∀ x, h.live x = true → x ∉ ownedL new ++ leak ∧ x ≠ h.next := by
    intro x hx
    have hlt := hc.1 x hx
    refine ⟨fun hm => ?_, by omega⟩
    have := (g3.fresh x hm).1
    omega
  have hsep : ∀ x ∈ leak, x ∉ ownedL new := by
    intro x hx hm
    have := g3.nodup
    simp only [List.append_eq, List.nil_append] at this
    rw [List.nodup_append] at this
    exact this.2.2 x hm x hx rfl
  have hblk : h.live st.block = true := hc.2.2.1 _ (by simp)
  -- deleting afterwards, from a heap with the blocks of `h` (with or without the handle)
  have del : ∀ (h4 : Heap) (ret : Bool), Consistent (extend st new) h4 →
      (∀ x, h4.live x = true ↔ (h.live x = true ∧ (ret = true ∨ x ≠ handle)) ∨ x ∈ ownedL new ++ leak) →
      ∃ h5, delete (some (extend st new)) h4 = .ok h5 ∧
        ∀ x, h5.live x = true ↔ (h.live x = true ∧ x ≠ st.block ∧ (ret = true ∨ x ≠ handle)) ∨ x ∈ leak := by
    intro h4 ret hc4 hl4
    obtain ⟨h5, e5, _, _, hl5⟩ := delete_ok _ h4 hc4
    refine ⟨h5, e5, fun x => ?_⟩
    rw [hl5]
    simp only [hitems, Bool.and_eq_true, Bool.not_eq_true', decide_eq_false_iff_not, hl4, List.mem_cons, not_or, List.mem_append]
    have hbx : (extend st new).block = st.block := rfl
    rw [hbx]
    constructor
    · rintro ⟨⟨h1, h2⟩ | h1 | h1, h3, h4⟩
      · exact .inl ⟨h1, h3, h2⟩
      · exact absurd h1 h4
      · exact .inr h1
    · rintro (⟨h1, h2, h3⟩ | h1)
      · exact ⟨.inl ⟨h1, h3⟩, h2, fun hm => (hold x h1).1 (by simp [hm])⟩
      · refine ⟨.inr (.inr h1), ?_, hsep x h1⟩
        rintro rfl
        exact (hold _ hblk).1 (by simp [h1])
  cases done with
  | true =>
    simp only [if_true]
    rw [e3]
    obtain ⟨h5, e5, hl5⟩ := del h3 true hc3 (fun x => by rw [g3.live]; simp)
    exact ⟨true, extend st new, leak, h3, h5, rfl, hc3, rfl, hlk, fun _ => by rw [hitems]; exact hdone rfl, fun _ => rfl, e5, hl5⟩
  | false =>
    simp only [Bool.false_eq_true, if_false]
    have hl2 : h2.live handle = true := by rw [gall.live, hl]; rfl
    have hlt := hc.1 _ hl
    have hf4 : h2.free handle = .ok { h2 with live := fun x => x != handle && h2.live x } := by simp [Heap.free, hl2]
    rw [hf4]
    simp only [Outcome.bind_ok]
    have hiter2 : h2.live h.next = true := by rw [gall.live]; simp
    have hf5 : Heap.free h.next { h2 with live := fun x => x != handle && h2.live x } =
        .ok { h2 with live := fun x => x != h.next && (x != handle && h2.live x) } := by
      have : (h.next != handle && h2.live h.next) = true := by
        rw [hiter2]; simp; omega
      simp [Heap.free, this]
    rw [hf5]
    have hlive : ∀ x, (x != h.next && (x != handle && h2.live x)) = true ↔
        (h.live x = true ∧ x ≠ handle) ∨ x ∈ ownedL new ++ leak := by
      intro x
      have hn := (List.nodup_cons.1 gall.nodup).1
      simp only [List.append_eq, List.nil_append] at hn
      rw [gall.live]
      by_cases h1 : x = h.next
      · subst h1
        have : ¬ h.live h.next = true := fun hx => Nat.lt_irrefl _ (hc.1 _ hx)
        simp only [List.mem_append] at hn
        simp [this, hn]
      · by_cases h2 : x = handle
        · subst h2
          have := (hold x hl).1
          simp only [List.mem_append] at this
          simp [this]
        · simp [h1, h2]
    obtain ⟨c1, c2, c3, c4, c5, c6⟩ := hc3
    have hc4 : Consistent (extend st new) { h2 with live := fun x => x != h.next && (x != handle && h2.live x) } := by
      refine ⟨?_, c2, ?_, c4, c5, c6⟩
      · intro x hx
        simp only [] at hx ⊢
        rw [hlive] at hx
        rcases hx with ⟨hx, _⟩ | hx
        · exact Nat.lt_of_lt_of_le (hc.1 _ hx) gall.next
        · exact (gall.fresh x (by simpa using .inr (List.mem_append.1 hx))).2
      · intro b hb
        simp only []
        rw [hlive]
        rw [hitems] at hb
        rcases List.mem_cons.1 hb with rfl | hb
        · exact .inl ⟨hblk, by simpa [extend] using hne.symm⟩
        · exact .inr (by simp [hb])
    obtain ⟨h5, e5, hl5⟩ := del _ false hc4 (fun x => by simpa using hlive x)
    refine ⟨false, extend st new, leak, _, h5, rfl, hc4, rfl, hlk, by simp, fun hn => ?_, e5, hl5⟩
    exact hnf (by rw [ga.fails]; exact hn)

/-! ### Witness -/

/-- `int log(my_int level, char *fmt, ...)`. -/
def callDb : Db := fun r =>
  match r with
  | 1 => ⟨.base 4 5, some (WrapCall.Spec.text "int"), false, 0, []⟩
  | 2 => ⟨.base 1 6, some (WrapCall.Spec.text "char"), false, 0, []⟩
  | 3 => ⟨.pointer (some 2), none, false, 0, []⟩
  | 5 => ⟨.typedef (some 1), some (WrapCall.Spec.text "my_int"), false, 0, []⟩
  | 10 => ⟨.param false (some 5), some (WrapCall.Spec.text "level"), false, 0, []⟩
  | 11 => ⟨.param false (some 3), some (WrapCall.Spec.text "fmt"), false, 0, []⟩
  | 12 => ⟨.param true none, none, false, 0, []⟩
  | 30 => ⟨.subprogram (some 1) [10, 11, 12], some (WrapCall.Spec.text "log"), false, 0, []⟩
  | _ => ⟨.unspecifiedType, none, false, 0, []⟩

def callWenv : WrapCall.Env where
  vaList := fun _ => false
  structFn := fun _ => false
  narrow := fun d => d.take 4

/-- As `exEnv`, with the string `a%d` at address 2000. -/
def callEnv : Env := ⟨fun x => if x = 2000 then some 97 else if x = 2001 then some 37 else if x = 2002 then some 100
  else if x = 2003 then some 0 else exEnv.mem x, Printf.sizeOf⟩

def callFmt : List Piece := [.lit 97, .conv ⟨[], [], none, .no, 100⟩]

theorem callString : StringAt callEnv.mem (Mem.le [208, 7, 0, 0, 0, 0, 0, 0]) (render callFmt) := by
  have : render callFmt = [97, 37, 100] := by decide
  rw [this]
  refine ⟨?_, rfl⟩
  intro k b hb
  match k with
  | 0 => cases hb; decide
  | 1 => cases hb; decide
  | 2 => cases hb; decide
  | k + 3 => simp at hb

theorem call_here {r : Ref} (h : match (callDb r).info with
    | .typedef _ | .var _ | .param false _ | .member _ | .qual .. => False
    | _ => True) : Final callDb r (some r) [] := by
  refine .here fun t ha => ?_
  cases ha with
  | typedef h' => rw [h'] at h; exact h
  | var h' => rw [h'] at h; exact h
  | param h' => rw [h'] at h; exact h
  | member h' => rw [h'] at h; exact h
  | qual h' => rw [h'] at h; exact h

/-- The hypotheses of `C75_call_partial` are met by `log(7, "a%d", 9)`, whatever allocations
fail but that of the iterator. -/
example (fails : Nat → Bool) (hi : fails 2 = false) := C75_call_partial callWenv callEnv callDb
  (fun _ => some (printfHandler callEnv callDb 30)) 30 11 12 3 3 [] (some 2) [10]
  ⟨30, [], some 1, call_here trivial, .inl rfl⟩ ⟨rfl, rfl⟩ (call_here trivial) rfl ⟨_, rfl⟩ rfl
  [208, 7, 0, 0, 0, 0, 0, 0] rfl (by decide) callFmt callString
  (by
    have w1 : WF ⟨[], [], none, .no, 100⟩ := ⟨by decide, by decide, by decide, by simp, by decide, by decide, by decide, by decide⟩
    simp only [callFmt, List.mem_cons, List.not_mem_nil, or_false]
    rintro p (rfl | rfl)
    · show (97 : UInt8) ≠ 37; decide
    · exact w1)
  trivial (by decide)
  (by
    simp only [callFmt, convs, List.mem_cons, List.not_mem_nil, or_false]
    rintro c rfl
    exact ⟨by decide, by simp⟩)
  [.val .int [9, 0, 0, 0]] [] [.bytes ⟨4, false, false⟩ [9, 0, 0, 0]] (.cons (.plain (ty := .int) rfl rfl) .nil)
  [.val .int [7, 0, 0, 0]] [.bytes 10 [7, 0, 0, 0]]
  (.cons (t := 5) ⟨rfl, rfl⟩ (.wide (ty := .int) (.step (.typedef rfl) (call_here trivial)) rfl rfl (by decide)) (.wide rfl) .nil)
  WrapCall.demoSto (WrapCall.demoHeap fails) (WrapCall.demo_consistent fails) rfl 1 rfl (by decide) hi

end Verif.PrintfCall
