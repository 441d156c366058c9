import Verif.Alt.Lemmas
import Verif.Trace.Witness
/-
C108: the other way to trace a call.
-/
namespace Verif.Alt
open Verif Verif.Entry Verif.Entry.Spec Verif.Value Verif.Value.Spec Verif.ParamStorage Verif.ParamStorage.Spec Verif.Handles Verif.Heap Verif.Alt.Spec
open Verif.WrapCall (Arg Handler entryArg newItem write)
open Verif.WrapCall.Spec (text Slot AllFilled Filled Declares Handled Plain VaList)
open Verif.Trace (Prog Event Text announce report finish calling)
open Verif.Trace.Spec (Lines ResultText after before)

variable {W R : Type}

/-- The hypotheses about a traced call: the function is declared with the parameters `ps`; `xs` are the argument expressions of such a call;
recorded calls and results can be printed (which need not yield a text). -/
structure Traceable (p : Prog W R) (generic : Bool) (F : Ref → List Arg → List View → Prop) (xs : List Expr) (slots : List Slot) : Prop where
  named : Named p.db
  handled : Handled F p.env p.db p.tags
  function : ∃ entry ps, p.entry = some entry ∧ Declares p.db entry ps ∧ Fits p.env generic p.db p.tags ps xs slots
  addr : ∀ b, p.addrOf b ≠ 0
  text : ∀ w st, AllFilled F slots (views st.items) → ∃ o, p.text w st = .ok o
  result : ∀ w r, ∃ o, p.resText w r = .ok o

/-- **C108**, partial: METAC_WRAP_FN_RES of the alternative example does what the plain call does and prints the call, if the expressions have no effects and
fit the parameters (`Fits`) and memory suffices: the function is called once, with the arguments `as`, where the caller is; if it returns, the result and all that it has
changed are those of the plain call; nothing stays allocated; before and after it the call is printed, as recorded from the expressions, and no failure is.

Missing: expressions of another type than the parameter (`C108_narrow_false`, `C108_reinterpreted_false`), `const` parameters (`C108_const_false`), `va_list` where it is an
array (`C108_va_list_false`), failing allocations (`C108_memory_false`), expressions with effects. -/
theorem C108_alt_partial (p : Prog W R) (generic : Bool) (F : Ref → List Arg → List View → Prop) (exprs : W → Outcome (List Expr)) (w : W) (xs : List Expr) (hx : exprs w = .ok xs)
    (as : List Arg) (hargs : p.args w = .ok (as, w)) (slots : List Slot) (ht : Traceable p generic F xs slots) (h : Heap) (ho : h.Ok) (hm : ∀ k, h.fails k = false) :
    ∃ k, traced p generic exprs w h = (p.fn as w >>= k) ∧ ∀ r w', ∃ l l' h', k (r, w') = .ok (r, w', l ++ [.call as] ++ l', h') ∧ (∀ b, h'.live b = h.live b) ∧
      Lines p F slots true True (fun w t o => ∃ u, ResultText p w r u ∧ o = after u t) w w' l l' := by
  obtain ⟨entry, ps, he, hd, hfit⟩ := ht.function
  obtain ⟨v, st, h1, e1, s1, f1, hall⟩ := start_ok ht.named ht.handled he hd hfit ht.addr ho hm
  have htext : ∀ w x, some st = some x → some v ≠ none → ∃ o, p.text w x = .ok o := by
    rintro w x ⟨⟩ _
    exact ht.text w st hall
  obtain ⟨l, h2, e2, s2, f2, -, hl⟩ := Trace.announce_ok calling s1 w (htext w)
  refine ⟨(fun x => report p (some v) (some st) x.1 x.2 h2 >>= fun y => finish (some v) (some st) y.2 >>= fun h => .ok (x.1, x.2, [] ++ l ++ [.call as] ++ y.1, h)), ?_, ?_⟩
  · unfold traced
    simp only [hx, e1, e2, Outcome.bind_ok, hargs]
    rfl
  · intro r w'
    obtain ⟨l', h3, e3, s3, f3, -, hl'⟩ := Trace.report_ok s2 w' r (htext w') (ht.result w' r)
    obtain ⟨h4, e4, f4, hlive⟩ := Trace.finish_ok s3
    refine ⟨l, l', h4, ?_, hlive, ?_⟩
    · simp only [e3, e4, Outcome.bind_ok, List.nil_append]
    · obtain ⟨t, ht0⟩ := ht.text w st hall
      obtain ⟨t', ht1⟩ := ht.text w' st hall
      obtain ⟨u, hu, hsay⟩ := hl' st t' rfl (by simp) ht1
      have hsay0 := hl st t rfl (by simp) ht0
      have said : ∀ {hh : Heap} {o l}, hh.fails = h.fails → Trace.Spec.Says (∀ k, hh.fails k = false) o l → Trace.Spec.Says True o l := by
        intro hh o l hf hs
        cases hs with
        | printed => exact .printed
        | missing hn => exact absurd (by rw [hf]; exact hm) hn
      exact .recorded hall ht0 ht1 ⟨u, hu, rfl⟩ (by rw [Trace.before_eq]; exact said f1 hsay0) (said (f2.trans f1) hsay)

/-! ### Where it fails -/

/-- A function with the parameters `ps` that is traced, with memory for the storage and the handle: the arguments are appended to an empty storage. -/
theorem start_append {p : Prog W R} {generic : Bool} {entry : Ref} {ps : List Ref} (he : p.entry = some entry) (hd : Declares p.db entry ps) (hadr : ∀ b, p.addrOf b ≠ 0)
    {h : Heap} (ho : h.Ok) (h0 : h.fails h.next = false) (h1 : h.fails (h.next + 1) = false) (xs : List Expr) :
    ∃ v b h2, start p generic xs h = (append p.env generic p.db p.tags ps 0 xs ⟨b, [], 0, none⟩ h2 >>= fun r => .ok (some v, some r.2.1, failureLine r.1, r.2.2)) ∧
      Consistent ⟨b, [], 0, none⟩ h2 ∧ h2.next = h.next + 2 ∧ h2.fails = h.fails := by
  have ow : Owns h.live h [] := .init ho
  unfold start
  match ea : h.alloc with
  | (none, h1) => simp [Heap.alloc, h0] at ea
  | (some b, h1') =>
    obtain ⟨o1, f1⟩ := ow.alloc_some ea
    have n1 := (Trace.alloc_next ea).1
    have e1 : newStorage h = (some ⟨b, [], 0, none⟩, h1') := by simp [newStorage, ea]
    simp only [e1]
    match eb : h1'.alloc with
    | (none, h2) => simp [Heap.alloc, f1, n1, h1] at eb
    | (some b2, h2) =>
      obtain ⟨o2, f2⟩ := o1.alloc_some eb
      have n2 := (Trace.alloc_next eb).1
      have e2 : newHandle p.db (p.entry.map .static) (p.addrOf b) h1' = .ok (some ⟨b2, p.entry.map .static, p.addrOf b⟩, h2) := by
        simp [newHandle, hadr, eb, initValue, isDynamic, he]
      simp only [e2, Outcome.bind_ok]
      obtain ⟨f, hff, hps⟩ := WrapCall.finalOf_func hd
      refine ⟨⟨b2, p.entry.map .static, p.addrOf b⟩, b, h2, ?_, ⟨o2.ok, by simp [ownedL], ?_, by simp [GoodL], rfl, rfl⟩, by omega, f2.trans f1⟩
      · simp only [appendAll, he, hff, hps, Outcome.ofLoop_some, Outcome.bind_ok]
        rfl
      · intro x hx
        simp only [ownedL, List.mem_singleton] at hx
        subst hx
        rw [o2.live]
        simp

/-- Appending a buffer to an empty storage when memory suffices. -/
theorem store_ok {env : WrapCall.Env} {db : Db} {p t : Ref} {size : UInt64} {x : Expr} {n : Nat} (hs : size.toNat = n) (h0 : 0 < n) (h1 : n < 2 ^ 31)
    {b : Nat} {h : Heap} (hc : Consistent ⟨b, [], 0, none⟩ h) (hm : ∀ k, h.fails k = false) :
    ∃ node d addr, (∀ g st', fill db 0 p t size x (extend ⟨b, [], 0, none⟩ [.buf node (entryArg env db p) d addr (List.replicate n 0)]) = .ok (g, st') →
        ∃ h', store env db 0 p t size x ⟨b, [], 0, none⟩ h = .ok (if g then 0 else 3, st', h')) ∧
      (fill db 0 p t size x (extend ⟨b, [], 0, none⟩ [.buf node (entryArg env db p) d addr (List.replicate n 0)]) = .ub → store env db 0 p t size x ⟨b, [], 0, none⟩ h = .ub) := by
  have hsz : toInt32 (size.toNat : Int) = (n : Int) := by rw [WrapCall.toInt32_small (hs ▸ h1), hs]
  clear h1
  unfold store
  rw [hsz]
  rcases appendBuffer_spec ⟨b, [], 0, none⟩ (some (entryArg env db p)) n h hc with ⟨r, h', e1, hr, g, hf⟩ | ⟨e0, node, d, addr, ha, he, hpos, e1, g⟩
  · rcases hf with ⟨k, hk⟩ | hf | hf
    · rw [hm k] at hk; cases hk
    · cases hf
    · omega
  · cases he
    rw [e1]
    simp only [Outcome.bind_ok, ne_eq, not_true_eq_false, if_false]
    have hx := WrapCall.extend_one ⟨b, [], 0, none⟩ (.buf node (entryArg env db p) d addr (List.replicate (n : Int).toNat 0))
    simp only [Item.node] at hx
    rw [hx]
    refine ⟨node, d, addr, ?_⟩
    have hp' : newParamValue (extend (⟨b, [], 0, none⟩ : Sto) [.buf node (entryArg env db p) d addr (List.replicate (n : Int).toNat 0)]) (0 : Nat) = some (entryArg env db p, addr) := by
      simp [newParamValue, extend]
    rcases WrapCall.newItem_spec _ 0 ha hp' (g.ok hc.1) with ⟨h2', e2, g2, k, hk⟩ | ⟨b', h2', e2, g2⟩
    · rw [g.fails, hm k] at hk; cases hk
    · obtain ⟨h3', e3, g3⟩ := free_new (g.ok hc.1) g2
      rw [e2]
      simp only [Int.toNat_natCast]
      constructor
      · intro g st' e4
        exact ⟨h3', by rw [e4]; simp only [Outcome.bind_ok, e3]; rfl⟩
      · intro e4
        rw [e4]
        rfl

/-- The first parameter is an ordinary one. -/
theorem append_plain {env : WrapCall.Env} {generic : Bool} {db : Db} {tags : Option (Ref → Option Handler)} {p t : Ref} (hp : Plain env db p (some t)) {size : UInt64} (hs : byteSize db (some p) true = some (.ok size))
    (ps : List Ref) (x : Expr) (xs : List Expr) (st : Sto) (h : Heap) :
    append env generic db tags (p :: ps) 0 (x :: xs) st h = (store env db 0 p t size x st h >>= fun r => if r.1 ≠ 0 then pure (r.1, r.2.1, r.2.2) else append env generic db tags (p :: ps) 1 xs r.2.1 r.2.2) := by
  rw [← ordinary_size hs]
  simp only [append, List.getElem?_cons_zero, hp.1, hp.2, Bool.not_false, Bool.and_self, if_true]

theorem base_store {env : WrapCall.Env} {db : Db} {p t f : Ref} {qs : List Qual} {ty : Ty} {bs : UInt64} {be : Nat} (hp : Plain env db p (some t)) (hf : Final db t (some f) qs) (hd : Describes db f ty)
    (hi : (db f).info = .base bs be) (h0 : bs ≠ 0) : byteSize db (some p) true = some (.ok bs) ∧ bs.toNat = Value.Spec.sizeOf ty :=
  ⟨WrapCall.byteSize_stored (step_final hp hf) (.base hi), (base_size hd hi h0).1⟩

theorem fill_is_base {db : Db} {t f : Ref} {qs : List Qual} {ty : Ty} {bs : UInt64} {be : Nat} (hf : Final db t (some f) qs) (hd : Describes db f ty)
    (hi : (db f).info = .base bs be) (h0 : bs ≠ 0) (i : Nat) (p : Ref) (x : Expr) (st : Sto) :
    fill db i p t bs x st = (first x (Value.Spec.sizeOf ty) >>= fun bytes => setBase db i p ty bytes st >>= fun st => .ok (true, st)) := by
  obtain ⟨hs, hnm⟩ := base_size hd hi h0
  unfold fill
  simp only [finalOf_final hf, keep, hi, isBase, Outcome.ofLoop_some, Outcome.bind_ok, if_true]
  unfold fillBase
  rw [hnm, hs]
  simp only []
  have := rows_ty ty
  cases hr : rows.find? fun r => r.1 == typeName ty && r.2.1 == Value.Spec.sizeOf ty with
  | none => rw [hr] at this; simp at this
  | some r =>
    obtain ⟨n, k, ty'⟩ := r
    rw [hr] at this
    simp only [Option.map_some, Option.some.injEq, Prod.mk.injEq] at this
    obtain ⟨rfl, rfl⟩ := this
    simp only []
    cases first x (Value.Spec.sizeOf ty') <;> rfl

/-- **C108** is FALSE if an argument's own type is smaller than the parameter's (C converts it), as in `f(7)` for a parameter of type `long`: the bytes after the object are read,
which is undefined. -/
theorem C108_narrow_false (p : Prog W R) (generic : Bool) (exprs : W → Outcome (List Expr)) (w : W) (x : Expr) (xs : List Expr) (hx : exprs w = .ok (x :: xs)) (entry p0 t f : Ref) (ps : List Ref) (he : p.entry = some entry)
    (hd : Declares p.db entry (p0 :: ps)) (hadr : ∀ b, p.addrOf b ≠ 0) (hp : Plain p.env p.db p0 (some t)) (ty : Ty) (qs : List Qual) (hf : Final p.db t (some f) qs) (hty : Describes p.db f ty)
    (bs : UInt64) (be : Nat) (hi : (p.db f).info = .base bs be) (h0 : bs ≠ 0) (hshort : x.own.length < Value.Spec.sizeOf ty) (h : Heap) (ho : h.Ok) (hm : ∀ k, h.fails k = false) :
    traced p generic exprs w h = .ub := by
  obtain ⟨v, b, h2, e1, hc, -, hf2⟩ := start_append (generic := generic) he hd hadr ho (hm _) (hm _) (x :: xs)
  obtain ⟨hs, hsz⟩ := base_store hp hf hty hi h0
  have hz := sizeOf_pos ty
  obtain ⟨node, d, addr, -, hub⟩ := store_ok (env := p.env) (db := p.db) (p := p0) (t := t) (x := x) hsz hz.1 (by omega) hc (by rw [hf2]; exact hm)
  have : start p generic (x :: xs) h = .ub := by
    rw [e1, append_plain hp hs, hub]
    · rfl
    · rw [fill_is_base hf hty hi h0]
      simp only [first, if_pos hshort]
      rfl
  unfold traced
  rw [hx]
  simp only [Outcome.bind_ok, this]
  rfl

/-- **C108** is FALSE if the argument has another type of at least that size, like an integer for a parameter of type `float`: recorded are the first bytes of the argument as they are, not the converted value. -/
theorem C108_reinterpreted_false (p : Prog W R) (generic : Bool) (x : Expr) (entry p0 t : Ref) (he : p.entry = some entry)
    (hd : Declares p.db entry [p0]) (hadr : ∀ b, p.addrOf b ≠ 0) (hn : Named p.db) (hp : Plain p.env p.db p0 (some t)) (ty : Ty) (hb : IsBase p.db t ty) (hlong : Value.Spec.sizeOf ty ≤ x.own.length)
    (h : Heap) (ho : h.Ok) (hm : ∀ k, h.fails k = false) :
    ∃ v st h', start p generic [x] h = .ok (some v, some st, [], h') ∧ views st.items = [.bytes (entryArg p.env p.db p0) (x.own.take (Value.Spec.sizeOf ty))] := by
  obtain ⟨v, b, h2, e1, hc, -, hf2⟩ := start_append (generic := generic) he hd hadr ho (hm _) (hm _) [x]
  obtain ⟨size, hs, hsz, hfill⟩ := fill_base hn hp hb x hlong
  have hz := sizeOf_pos ty
  obtain ⟨node, d, addr, hok, -⟩ := store_ok (env := p.env) (db := p.db) (p := p0) (t := t) (x := x) hsz hz.1 (by omega) hc (by rw [hf2]; exact hm)
  obtain ⟨h', e2⟩ := hok _ _ (hfill 0 _ _ (WrapCall.write_last ⟨b, [], 0, none⟩ 0 rfl _ _ _ _ _ _ (by simp; omega)))
  refine ⟨v, extend ⟨b, [], 0, none⟩ [.buf node (entryArg p.env p.db p0) d addr (x.own.take (Value.Spec.sizeOf ty))], h', ?_, ?_⟩
  · rw [e1, append_plain hp hs, e2]
    simp only [if_true, Outcome.bind_ok, ne_eq, not_true_eq_false, if_false, append]
    rfl
  · simp [extend, views, view]

/-- **C108** is FALSE for a parameter that is `const` and of a base type, as in `int f(const int a)`: whatever the argument, zero is recorded and printed (the value's type is
`const`, so setting it fails, which is not noticed). -/
theorem C108_const_false (p : Prog W R) (generic : Bool) (x : Expr) (entry p0 t f : Ref) (he : p.entry = some entry)
    (hd : Declares p.db entry [p0]) (hadr : ∀ b, p.addrOf b ≠ 0) (hp : Plain p.env p.db p0 (some t)) (ty : Ty) (qs : List Qual) (hf : Final p.db t (some f) qs) (hconst : Qual.const ∈ qs) (hty : Describes p.db f ty)
    (bs : UInt64) (be : Nat) (hi : (p.db f).info = .base bs be) (h0 : bs ≠ 0) (hlen : x.own.length = Value.Spec.sizeOf ty)
    (h : Heap) (ho : h.Ok) (hm : ∀ k, h.fails k = false) :
    ∃ v st h', start p generic [x] h = .ok (some v, some st, [], h') ∧ views st.items = [.bytes (entryArg p.env p.db p0) (List.replicate (Value.Spec.sizeOf ty) 0)] := by
  obtain ⟨v, b, h2, e1, hc, -, hf2⟩ := start_append (generic := generic) he hd hadr ho (hm _) (hm _) [x]
  obtain ⟨hs, hsz⟩ := base_store hp hf hty hi h0
  have hz := sizeOf_pos ty
  obtain ⟨node, d, addr, hok, -⟩ := store_ok (env := p.env) (db := p.db) (p := p0) (t := t) (x := x) hsz hz.1 (by omega) hc (by rw [hf2]; exact hm)
  have hset : ∀ bytes st, setBase p.db 0 p0 ty bytes st = .ok st := by
    intro bytes st
    obtain ⟨w, hw, h1, -⟩ := const_flag (step_final hp hf)
    have hnd : ¬ Entry.Spec.Dots p.db f := by rintro ⟨u, hu⟩; rw [hi] at hu; cases hu
    unfold setBase
    simp only [hw, Outcome.ofLoop_some, Outcome.bind_ok, (h1 hnd).2 hconst, if_true]
    rfl
  obtain ⟨h', e2⟩ := hok true (extend ⟨b, [], 0, none⟩ [.buf node (entryArg p.env p.db p0) d addr (List.replicate (Value.Spec.sizeOf ty) 0)]) (by
    rw [fill_is_base hf hty hi h0]
    simp only [first]
    rw [if_neg (by omega)]
    simp only [Outcome.bind_ok, hset])
  refine ⟨v, extend ⟨b, [], 0, none⟩ [.buf node (entryArg p.env p.db p0) d addr (List.replicate (Value.Spec.sizeOf ty) 0)], h', ?_, ?_⟩
  · rw [e1, append_plain hp hs, e2]
    simp only [if_true, Outcome.bind_ok, ne_eq, not_true_eq_false, if_false, append]
    rfl
  · simp [extend, views, view]

/-- **C108** is FALSE for an argument for a `va_list` parameter where `va_list` is an array type (x86-64 Linux): `_Generic` sees a pointer, and an uninitialised `va_list` is used. -/
theorem C108_va_list_false (p : Prog W R) (exprs : W → Outcome (List Expr)) (w : W) (x : Expr) (xs : List Expr) (hx : exprs w = .ok (x :: xs)) (entry p0 : Ref) (ps : List Ref) (he : p.entry = some entry)
    (hd : Declares p.db entry (p0 :: ps)) (hadr : ∀ b, p.addrOf b ≠ 0) (hp : VaList p.env p.db p0) (h : Heap) (ho : h.Ok) (hm : ∀ k, h.fails k = false) :
    traced p false exprs w h = .ub := by
  obtain ⟨v, b, h2, e1, -⟩ := start_append (generic := false) he hd hadr ho (hm _) (hm _) (x :: xs)
  obtain ⟨⟨t, hp1⟩, hp2⟩ := hp
  have : start p false (x :: xs) h = .ub := by
    rw [e1]
    simp only [append, List.getElem?_cons_zero, hp1, hp2, Bool.not_true, Bool.not_false, Bool.and_false, Bool.false_eq_true, if_true, if_false]
    rfl
  unfold traced
  rw [hx]
  simp only [Outcome.bind_ok, this]
  rfl

/-- **C108** is FALSE if the memory for an argument cannot be allocated: that is no failure, and the call is recorded (and printed) without the argument. -/
theorem C108_memory_false (p : Prog W R) (generic : Bool) (x : Expr) (entry p0 t : Ref) (he : p.entry = some entry)
    (hd : Declares p.db entry [p0]) (hadr : ∀ b, p.addrOf b ≠ 0) (hp : Plain p.env p.db p0 (some t)) (size : UInt64) (hs : byteSize p.db (some p0) true = some (.ok size))
    (h : Heap) (ho : h.Ok) (hm : ∀ k, h.fails k = decide (k = h.next + 2)) :
    ∃ v st h', start p generic [x] h = .ok (some v, some st, [], h') ∧ st.items = [] := by
  obtain ⟨v, b, h2, e1, hc, hn2, hf2⟩ := start_append (generic := generic) he hd hadr ho (by rw [hm]; simp) (by rw [hm]; simp) [x]
  have e2 : ∃ h', store p.env p.db 0 p0 t size x ⟨b, [], 0, none⟩ h2 = .ok (0, ⟨b, [], 0, none⟩, h') := by
    unfold store
    have : ∃ r h', appendBuffer (some ⟨b, [], 0, none⟩) (some (entryArg p.env p.db p0)) (toInt32 size.toNat) h2 = .ok (r, some ⟨b, [], 0, none⟩, h') ∧ r ≠ 0 := by
      generalize toInt32 size.toNat = n
      unfold appendBuffer
      simp only []
      by_cases h0 : n ≤ 0
      · rw [if_pos h0]
        exact ⟨_, _, rfl, by decide⟩
      · rw [if_neg h0]
        have : h2.alloc = (none, { h2 with next := h2.next + 1 }) := by simp [Heap.alloc, hf2, hm, hn2]
        rw [this]
        exact ⟨_, _, rfl, by decide⟩
    obtain ⟨r, h', e, hr⟩ := this
    generalize toInt32 size.toNat = n at e ⊢
    rw [e]
    simp only [Outcome.bind_ok]
    rw [if_pos hr]
    exact ⟨h', rfl⟩
  obtain ⟨h', e2⟩ := e2
  refine ⟨v, ⟨b, [], 0, none⟩, h', ?_, rfl⟩
  rw [e1, append_plain hp hs, e2]
  simp only [Outcome.bind_ok, ne_eq, not_true_eq_false, if_false, append]
  rfl

end Verif.Alt
