import Verif.PrintfCall.Lemmas
/-
C74: the stored arguments of a printf-like call, down to bytes and allocations.
-/
namespace Verif.PrintfCall
open Verif Verif.PrintfCall.Spec Verif.ParamStorage Verif.ParamStorage.Spec
open Verif.Printf (Ty Specifier parse count FitsActual parse_conv_ok head_lit head_text fitsActual_of_fits)
open Verif.Printf.Spec (Conv Piece convs promised render text WFPiece Separated WF Fits chars)
open Verif.WrapCall (Arg ArgTy vaArg write)
open Verif.WrapCall.Spec (Adds)

theorem store_spec (env : Env) (st : Sto) (h : Heap) (hc : Consistent st h) (c : Conv) (a : Arg) (v : View) (hp : Passes env c a v)
    (left : List Arg) : StoreOk st h left v (store env st st.items.length (Printf.actual c) (a :: left) h) := by
  have hs : c.conv = 115 → pick (Printf.actual c) = .str := by
    intro h1
    have ht : (Printf.actual c).t = c.conv := rfl
    unfold pick
    rw [ht, h1, if_pos rfl]
  unfold store
  cases hp with
  | plain h1 h2 => rw [pick_promised h1]; exact process_spec env st h hc _ (promised_chars h1) _ h2 left
  | null h1 => rw [hs h1]; exact processNull_spec env st h hc left
  | str h1 h2 h3 h4 h5 => rw [hs h1]; exact processStr_spec env st h hc _ _ h2 h3 h4 h5 left

theorem collectLoop_end (env : Env) (fmt : List UInt8) (pos id : Nat) (st : Sto) (args : List Arg) (h : Heap) (hl : fmt.length ≤ pos) :
    collectLoop env fmt pos id st args h = .ok (0, st, h) := by
  unfold collectLoop; rw [if_neg (by omega)]

theorem lt_of_char {fmt : List UInt8} {pos : Nat} {x : UInt8} (hx : fmt[pos]? = some x) : pos < fmt.length := by
  rcases Nat.lt_or_ge pos fmt.length with h | h
  · exact h
  · rw [List.getElem?_eq_none h] at hx; cases hx

theorem collectLoop_lit (env : Env) (fmt : List UInt8) (pos id : Nat) (st : Sto) (args : List Arg) (h : Heap) (x : UInt8)
    (hx : fmt[pos]? = some x) (hn : x ≠ 37) :
    collectLoop env fmt pos id st args h = collectLoop env fmt (pos + 1) id st args h := by
  conv => lhs; unfold collectLoop
  rw [if_pos (lt_of_char hx), if_neg (by rw [hx]; simpa using hn)]

/-- Go on with the rest after success. -/
def andThen (res : Res) (f : Sto → List Arg → Heap → Outcome (Int × Sto × Heap)) : Outcome (Int × Sto × Heap) :=
  match res with
  | .ok (r, st', args', h') => if r ≠ 0 then .ok (r, st', h') else f st' args' h'
  | .abort => .abort
  | .ub => .ub
  | .hang => .hang

theorem collectLoop_some (env : Env) (fmt : List UInt8) (pos id : Nat) (st : Sto) (args : List Arg) (h : Heap) (sp : Specifier) (pos' : Nat)
    (hx : fmt[pos]? = some 37) (hp : parse fmt pos = .ok (some sp, pos')) :
    collectLoop env fmt pos id st args h = andThen (store env st id sp args h) (collectLoop env fmt (pos' + 1) (id + 1)) := by
  conv => lhs; unfold collectLoop
  rw [if_pos (lt_of_char hx), if_pos hx]
  split
  · rename_i hq
    rw [hp] at hq
    simp only [Outcome.ok.injEq, Prod.mk.injEq, Option.some.injEq] at hq
    obtain ⟨rfl, rfl⟩ := hq
    rfl
  all_goals (rename_i hq; rw [hp] at hq; simp at hq)

/-- What the loop may do. -/
def LoopOk (st : Sto) (h : Heap) (vs : List View) (res : Outcome (Int × Sto × Heap)) : Prop :=
  ∃ r new leak h', res = .ok (r, extend st new, h') ∧ GoodL new ∧ Grows h h' (ownedL new ++ leak) ∧ leak.length ≤ 1 ∧
    (r = 0 → leak = [] ∧ views new = vs) ∧ ((∀ k, h.fails k = false) → r = 0)

theorem LoopOk.nil {st : Sto} {h : Heap} (hc : Consistent st h) {res : Outcome (Int × Sto × Heap)} (e : res = .ok (0, st, h)) :
    LoopOk st h [] res :=
  ⟨0, [], [], h, by rw [e, extend_nil hc], trivial, by simpa [ownedL] using Grows.refl h, by simp, fun _ => ⟨rfl, rfl⟩, fun _ => rfl⟩

theorem Consistent_extend {st : Sto} {h h' : Heap} (hc : Consistent st h) (x : Item) (hg : Grows h h' (owned x)) (hx : Good x) :
    Consistent (extend st [x]) h' := by
  have := Consistent_append hc x hg hx
  rw [WrapCall.extend_one] at this
  exact this

/-- One specification, then the rest. -/
theorem LoopOk.cons {st : Sto} {h : Heap} (hc : Consistent st h) {left : List Arg} {v : View} {vs : List View} {res : Res}
    {f : Sto → List Arg → Heap → Outcome (Int × Sto × Heap)} (hs : StoreOk st h left v res)
    (hf : ∀ st' h', Consistent st' h' → st'.items.length = st.items.length + 1 → LoopOk st' h' vs (f st' left h')) :
    LoopOk st h (v :: vs) (andThen res f) := by
  obtain ⟨r, new, leak, rest, h1, e1, hg, g, hl, h0, hn⟩ := hs
  rw [e1]
  simp only [andThen]
  by_cases hr : r = 0
  · rw [if_neg (by simpa using hr)]
    obtain ⟨rfl, rfl, x, rfl, hv⟩ := h0 hr
    rw [List.append_nil] at g
    have g' : Grows h h1 (owned x) := by simpa [ownedL] using g
    have hc1 := Consistent_extend hc x g' hg.1
    obtain ⟨r2, new2, leak2, h2, e2, hg2, g2, hl2, h02, hn2⟩ := hf _ h1 hc1 (by simp [extend])
    refine ⟨r2, x :: new2, leak2, h2, by rw [e2, extend_extend]; rfl, ⟨hg.1, hg2⟩, ?_, hl2, ?_, ?_⟩
    · have := g'.trans g2
      simpa [ownedL] using this
    · intro hz
      obtain ⟨ha, hb⟩ := h02 hz
      exact ⟨ha, by rw [views, hv, hb]⟩
    · intro hnf
      exact hn2 (fun k => by rw [g.fails]; exact hnf k)
  · rw [if_pos hr]
    exact ⟨r, new, leak, h1, rfl, hg, g, hl, fun h => absurd h hr, hn⟩

theorem collectLoop_render (env : Env) (P : List UInt8) (ps : List Piece) (st : Sto) (h : Heap) (hc : Consistent st h)
    (args extra : List Arg) (vs : List View)
    (hw : ∀ p ∈ ps, WFPiece p) (hs : Separated ps) (hn : Piece.pct ∉ ps) (hf : ∀ c ∈ convs ps, FitsActual c)
    (ha : AllPass env (convs ps) args vs) :
    LoopOk st h vs (collectLoop env (P ++ render ps) P.length st.items.length st (args ++ extra) h) := by
  match ps with
  | [] =>
    simp only [convs] at ha
    cases ha
    exact LoopOk.nil hc (collectLoop_end _ _ _ _ _ _ _ (by simp [render]))
  | .lit x :: ps =>
    have hx : x ≠ 37 := hw (.lit x) (by simp)
    simp only [render, convs, Separated] at *
    rw [collectLoop_lit _ _ _ _ _ _ _ x (head_lit P x _) hx]
    have e : P ++ x :: render ps = (P ++ [x]) ++ render ps := by simp
    have l : P.length + 1 = (P ++ [x]).length := by simp
    rw [e, l]
    exact collectLoop_render env (P ++ [x]) ps st h hc args extra vs (fun p hp => hw p (by simp [hp])) hs
      (fun h => hn (by simp [h])) hf ha
  | .pct :: ps => exact absurd (by simp : Piece.pct ∈ Piece.pct :: ps) hn
  | [.conv c] =>
    have hcw : WF c := hw (.conv c) (by simp)
    simp only [render, convs] at *
    cases ha with
    | @cons _ a v _ as vs h1 h2 =>
      cases h2
      rw [collectLoop_some _ _ _ _ _ _ _ _ _ (head_text P c _) (parse_conv_ok P c [] hcw (hf c (by simp)))]
      refine LoopOk.cons hc (left := extra) (store_spec env st h hc c a v h1 extra) ?_
      intro st' h' hc' _
      exact LoopOk.nil hc' (collectLoop_end _ _ _ _ _ _ _ (by simp))
  | .conv c :: .lit x :: ps =>
    have hcw : WF c := hw (.conv c) (by simp)
    simp only [render, convs, Separated] at *
    cases ha with
    | @cons _ a v _ as vs h1 h2 =>
      rw [collectLoop_some _ _ _ _ _ _ _ _ _ (head_text P c _) (parse_conv_ok P c _ hcw (hf c (by simp)))]
      refine LoopOk.cons hc (left := as ++ extra) (store_spec env st h hc c a v h1 (as ++ extra)) ?_
      intro st' h' hc' hlen
      have e : P ++ (text c ++ x :: render ps) = (P ++ (text c ++ [x])) ++ render ps := by simp
      have l : P.length + (text c).length + 1 = (P ++ (text c ++ [x])).length := by simp; omega
      rw [← hlen]
      rw [e, l]
      exact collectLoop_render env (P ++ (text c ++ [x])) ps st' h' hc' as extra vs (fun p hp => hw p (by simp [hp])) hs
        (fun h => hn (by simp [h])) (fun c hc => hf c (by simp [hc])) h2
termination_by ps.length

theorem extend_consistent {st : Sto} {h h' : Heap} {new : List Item} {leak : List Nat} (hc : Consistent st h) (hg : GoodL new)
    (g : Grows h h' (ownedL new ++ leak)) : Consistent (extend st new) h' := by
  have hlt := owned_lt hc
  obtain ⟨h1, h2, h3, h4, h5, h6⟩ := hc
  have hd := g.nodup
  rw [List.nodup_append] at hd
  refine ⟨g.ok h1, ?_, ?_, ?_, ?_, rfl⟩
  · simp only [extend, ownedL_append]
    rw [← List.cons_append, List.nodup_append]
    refine ⟨h2, hd.1, ?_⟩
    rintro x hx _ hy rfl
    have := (g.fresh x (by simp [hy])).1
    have := hlt x hx
    omega
  · intro b hb
    simp only [extend, ownedL_append] at hb
    rw [← List.cons_append, List.mem_append] at hb
    rw [g.live]
    rcases hb with hb | hb
    · rw [h3 b hb]; rfl
    · simp [hb]
  · simp only [extend, GoodL_append]; exact ⟨h4, hg⟩
  · simp [extend, h5]

/-- C74.  Storing the arguments of a printf-like call into an empty storage, for formats as in
C16 and strings of at most 7 characters: the call answers, the storage is consistent, and if
the answer is 0 there is one parameter per conversion specification with the right type and
bytes, and nothing else is allocated.  It only fails if an allocation can fail.
Missing from the full property: what is missing in C16 (`C16_long_string_overflows`,
`C16_percent_breaks_collection`, `C16_adjacent_lost`, `C16_lf_refused`); and on failure one
block may be lost (`leak`), see `C74_leak_false`. -/
theorem C74_collect_partial (env : Env) (ps : List Piece) (hw : ∀ p ∈ ps, WFPiece p) (hs : Separated ps) (hn : Piece.pct ∉ ps)
    (hf : ∀ c ∈ convs ps, Fits 10 c) (args extra : List Arg) (vs : List View) (ha : AllPass env (convs ps) args vs)
    (st : Sto) (h : Heap) (hc : Consistent st h) (hempty : st.items = []) :
    ∃ r st' leak h', collect env (render ps) (some st) (args ++ extra) h = .ok (r, some st', h') ∧
      Consistent st' h' ∧ st'.block = st.block ∧ Adds h h' (ownedL st'.items ++ leak) ∧ leak.length ≤ 1 ∧
      (r = 0 → leak = [] ∧ views st'.items = vs) ∧ ((∀ k, h.fails k = false) → r = 0) := by
  obtain ⟨r, new, leak, h', e, hg, g, hl, h0, hnf⟩ := collectLoop_render env [] ps st h hc args extra vs hw hs hn
    (fun c hc => fitsActual_of_fits (hf c hc)) ha
  rw [hempty] at e
  refine ⟨r, extend st new, leak, h', ?_, extend_consistent hc hg g, rfl, ?_, hl, ?_, hnf⟩
  · unfold collect
    simp only [Printf.C15_count_partial ps hw hs hf, Outcome.bind_ok]
    simp only [List.nil_append, List.length_nil] at e
    rw [e]
    rfl
  · simp only [extend, hempty, List.nil_append]
    exact WrapCall.Grows.adds g
  · simp only [extend, hempty, List.nil_append]
    exact h0

/-- C74: without a storage nothing is done. -/
theorem C74_no_storage (env : Env) (fmt : List UInt8) (args : List Arg) (h : Heap) :
    collect env fmt none args h = .ok (-22, none, h) := rfl

/-- A call with the format `%s` is what happens to its argument. -/
theorem collect_s (env : Env) (st : Sto) (args : List Arg) (h : Heap) (hempty : st.items = []) (w : List UInt8) (hw : w.length = 8)
    (h0 : Mem.le w ≠ 0) : collect env (chars ['%', 's']) (some st) (.val .ptr w :: args) h =
      (do
        let (r, st, h) ← andThen (processChars env st st.items.length (Mem.le w) args h) fun st _ h => .ok (0, st, h)
        return (r, some st, h)) := by
  have h1 : parse (chars ['%', 's']) 0 = .ok _ := Printf.parse_lit _ Printf.ps_wf ⟨by decide, by simp⟩ []
  obtain ⟨n, hc⟩ := Printf.C15_count_safe (chars ['%', 's']) (Printf.shortRuns_of_length _ (by decide))
  unfold collect
  simp only [hc, Outcome.bind_ok]
  rw [collectLoop_some _ _ _ _ _ _ _ _ _ (by decide) h1]
  have hst : store env st 0 (Printf.actual ⟨[], [], none, .no, 115⟩) (.val .ptr w :: args) h =
      processChars env st st.items.length (Mem.le w) args h := by
    show processStr env st 0 (.val .ptr w :: args) h = _
    unfold processStr
    have hva : vaArg .ptr (.val .ptr w :: args) = .ok (w, args) := by simp [vaArg, WrapCall.argSize, hw]
    rw [hva]
    simp only [Outcome.bind_ok]
    rw [if_neg h0, hempty]
    rfl
  rw [hst]
  have : ∀ pos, 2 ≤ pos → collectLoop env (chars ['%', 's']) pos (0 + 1) = fun st _ h => .ok (0, st, h) := by
    intro pos hp
    funext st args h
    exact collectLoop_end _ _ _ _ _ _ _ hp
  rw [this _ (by decide)]

/-- C74 is false for strings of 8 and more characters: whatever the string, when no
allocation fails the characters are written beyond the buffer of 8 bytes. -/
theorem C74_long_string_false (env : Env) (st : Sto) (h : Heap) (hc : Consistent st h) (hempty : st.items = [])
    (hnf : ∀ k, h.fails k = false) (w : List UInt8) (hw : w.length = 8) (h0 : Mem.le w ≠ 0) (s : List UInt8)
    (hs : StringAt env.mem (Mem.le w) s) (hl : 8 ≤ s.length) (rest : List Arg) :
    collect env (chars ['%', 's']) (some st) (.val .ptr w :: rest) h = .ub := by
  rw [collect_s env st rest h hempty w hw h0]
  have : processChars env st st.items.length (Mem.le w) rest h = .ub := by
    unfold processChars
    rw [strlen_string hs]
    simp only [Outcome.bind_ok]
    have absurd' : ∀ {h' : Heap}, h'.fails = h.fails → ¬ ∃ k, h'.fails k = true := by
      rintro h' e ⟨k, hk⟩; rw [e, hnf k] at hk; cases hk
    cases ha : h.alloc with
    | mk o h1 =>
      have g1 := alloc_grows ha
      cases o with
      | none => exact absurd (alloc_fail ha) (absurd' rfl)
      | some made =>
        have hc1 := Consistent_grows hc g1
        simp only []
        rcases appendBuffer_spec st (some ⟨env.entry (.chars (s.length + 1)), true, false⟩) 8 h1 hc1 with
          ⟨r, h2, e2, hr, g2, hf⟩ | ⟨e0, node, d, addr, h2, he, hn, e2, g2⟩
        · rcases hf with hf | hf | hf
          · exact absurd hf (absurd' g1.fails)
          · cases hf
          · omega
        · cases he
          rw [e2]
          simp only [Outcome.bind_ok, ne_eq, not_true_eq_false, if_false]
          have hx := WrapCall.extend_one st (.buf node ⟨env.entry (.chars (s.length + 1)), true, false⟩ d addr (List.replicate (8 : Int).toNat 0))
          simp only [Item.node] at hx
          rw [hx]
          rcases newVal_spec (d := d) (last_item st _) (g2.ok hc1.1) (fun x hx => by rw [g2.live]; simp [owned, hx]) with
            ⟨h3, e3, g3, hk⟩ | ⟨v, h3, e3, g3⟩
          · exact absurd hk (absurd' (g2.fails.trans g1.fails))
          · obtain ⟨h4, e4, g4⟩ := free_new (b := made) hc.1 (by simpa using (g1.trans g2).trans g3)
            obtain ⟨h5, e5, g5⟩ := deleteVal_spec v hc.1 g4
            rw [e3]
            simp only [Outcome.bind_ok, e4, e5, load_string hs]
            unfold write
            rw [last_item]
            simp only []
            rw [if_neg (by simp; omega)]
            rfl
  rw [this]
  rfl

/-- C74 is false when memory is short: the description made for a string is lost if the
parameter cannot be appended.  The call answers -EFAULT, the storage is empty as before, and
one more block is allocated. -/
theorem C74_leak_false (env : Env) (st : Sto) (h : Heap) (hempty : st.items = [])
    (h1 : h.fails h.next = false) (h2 : h.fails (h.next + 1) = true) (w : List UInt8) (hw : w.length = 8) (h0 : Mem.le w ≠ 0)
    (s : List UInt8) (hs : StringAt env.mem (Mem.le w) s) (rest : List Arg) :
    ∃ h', collect env (chars ['%', 's']) (some st) (.val .ptr w :: rest) h = .ok (-14, some st, h') ∧
      ∀ x, h'.live x = (x == h.next || h.live x) := by
  rw [collect_s env st rest h hempty w hw h0]
  refine ⟨{ next := h.next + 1 + 1, live := fun x => x == h.next || h.live x, fails := h.fails }, ?_, fun x => rfl⟩
  unfold processChars
  rw [strlen_string hs]
  simp [appendBuffer, Heap.alloc, h1, h2, andThen, EFAULT, ENOMEM]

/-! ### Witnesses -/

/-- A string "ab" at address 1000; entries are numbered by their size. -/
def exEnv : Env := ⟨fun x => if x = 1000 then some 97 else if x = 1001 then some 98 else if x = 1002 then some 0 else none, Printf.sizeOf⟩

/-- `n=%hhd s=%s p=%p`. -/
def exFmt : List Piece := [.lit 110, .lit 61, .conv ⟨[], [], none, .hh, 100⟩, .lit 32, .conv ⟨[45], [53], none, .no, 115⟩, .lit 32,
  .conv ⟨[], [], none, .no, 112⟩]

theorem exString : StringAt exEnv.mem (Mem.le [232, 3, 0, 0, 0, 0, 0, 0]) [97, 98] := by
  refine ⟨?_, rfl⟩
  intro k b hb
  match k with
  | 0 => cases hb; decide
  | 1 => cases hb; decide
  | k + 2 => simp at hb

/-- The arguments 300, "ab" and a pointer; stored are the character 44 (300 modulo 256), the
characters, the pointer. -/
theorem exPass : AllPass exEnv (convs exFmt)
    [.val .int [44, 1, 0, 0], .val .ptr [232, 3, 0, 0, 0, 0, 0, 0], .val .ptr [1, 2, 3, 4, 5, 6, 7, 8]]
    [.bytes ⟨1, false, false⟩ [44], .bytes ⟨3, true, false⟩ [97, 98, 0, 0, 0, 0, 0, 0], .bytes ⟨8, false, false⟩ [1, 2, 3, 4, 5, 6, 7, 8]] := by
  refine .cons (.plain (ty := .char) rfl rfl) (.cons (.str (s := [97, 98]) rfl rfl (by decide) exString (by decide))
    (.cons (.plain (ty := .voidp) rfl rfl) .nil))

def exSto : Sto := ⟨0, [], 0, none⟩
def exHeap (fails : Nat → Bool) : Heap := ⟨1, fun x => x == 0, fails⟩
theorem exConsistent (fails : Nat → Bool) : Consistent exSto (exHeap fails) := by
  refine ⟨?_, by simp [exSto, ownedL], by simp [exSto, ownedL, exHeap], trivial, rfl, rfl⟩
  intro x hx
  simp [exHeap] at hx ⊢
  omega

example (fails : Nat → Bool) := C74_collect_partial exEnv exFmt
  (by
    have w1 : WF ⟨[], [], none, .hh, 100⟩ := ⟨by decide, by decide, by decide, by simp, by decide, by decide, by decide, by decide⟩
    have w2 : WF ⟨[45], [53], none, .no, 115⟩ := ⟨by decide, by decide, by decide, by simp, by decide, by decide, by decide, by decide⟩
    have w3 : WF ⟨[], [], none, .no, 112⟩ := ⟨by decide, by decide, by decide, by simp, by decide, by decide, by decide, by decide⟩
    simp only [exFmt, List.mem_cons, List.not_mem_nil, or_false]
    rintro p (rfl | rfl | rfl | rfl | rfl | rfl | rfl)
    · show (110 : UInt8) ≠ 37; decide
    · show (61 : UInt8) ≠ 37; decide
    · exact w1
    · show (32 : UInt8) ≠ 37; decide
    · exact w2
    · show (32 : UInt8) ≠ 37; decide
    · exact w3)
  trivial (by decide)
  (by
    simp only [exFmt, convs, List.mem_cons, List.not_mem_nil, or_false]
    rintro c (rfl | rfl | rfl) <;> exact ⟨by decide, by simp⟩)
  _ [] _ exPass exSto (exHeap fails) (exConsistent fails) rfl

example := C74_leak_false exEnv exSto (exHeap fun k => k == 2) rfl rfl rfl [232, 3, 0, 0, 0, 0, 0, 0] rfl (by decide) [97, 98] exString []

end Verif.PrintfCall
