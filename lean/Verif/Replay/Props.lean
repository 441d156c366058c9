import Verif.Replay.Lemmas
import Verif.PrintfCall.Call
/-
C105: a recorded call, when it is made, is the call that was recorded.
-/
namespace Verif.Replay
open Verif Verif.Entry Verif.Entry.Spec Verif.Value Verif.Value.Spec Verif.ParamStorage Verif.ParamStorage.Spec Verif.Ffi Verif.Ffi.Spec Verif.Replay.Spec Verif.Heap
open Verif.WrapCall.Spec (Class Takes Carries Plain VaList Slot AllFilled Filled Call Handled Declares)
open Verif.PrintfCall.Spec (StringAt AllPass Passes Plains)
open Verif.PrintfCall (printfHandler)
open Verif.Printf.Spec (Piece convs render WFPiece Separated Fits)

/-- What happens when the call stored at `v` is made and the function `fn` has the result type of `w`: it gets what the caller passed; everything that
happens is what the function does; if it returns, the code is 0, its result is in `w`, other memory is as the function left it, and
nothing stays allocated. -/
def Made (lib : Lib) (wenv : WrapCall.Env) (env : Handlers.Env) (db : Db) (src m : Mem) (ps : List Ref) (args : List WrapCall.Arg) (v : Value) (fn : Nat) (w : Value) (s : Shape) (n : Nat) (h : Heap) : Prop :=
  ∃ l fixed, Same wenv env db src m ps args l fixed ∧
    (Accepts lib s l fixed → ∃ k, ffiCall lib env db (some v) fn (some w) m h = (lib.run fn fixed s l m >>= k) ∧
      ∀ out m1, out.length = n → Room m1 w.addr n → ∃ m2 h', k (out, m1) = .ok (0, m2, h') ∧ Written m1 w.addr out m2 ∧ ∀ b, h'.live b = h.live b)

theorem declares {db : Db} {entry t : Ref} {ps : List Ref} (h : Ffi.Spec.Function db entry (some t) ps) : Declares db entry ps := by
  obtain ⟨f, qs, hf, hi⟩ := h
  exact ⟨f, qs, some t, hf, hi⟩

theorem made {lib : Lib} {wenv : WrapCall.Env} {env : Handlers.Env} {db : Db} {src m : Mem} {tags : Option (Ref → Option WrapCall.Handler)} {ps : List Ref} {args : List WrapCall.Arg} {slots : List Slot}
    (hn : Named db) (hcall : Call wenv db tags ps args slots true) (hcb : Callable wenv env db ps) {xs : List View} (hf : AllFilled (fun _ a x => Each (Keeps env db src) a x) slots xs)
    {v w : Value} {t : Ref} (hfun : Ffi.Spec.Function db v.entry (some t) ps) (hh : Each (Held env m) xs (env.params v.addr)) {fn : Nat} (hfn : fn ≠ 0) {s : Shape} {n : Nat}
    (hl : Looks env db w.entry s) (hs : Size db w.entry n) (hlt : n < 2 ^ 64) (hw : w.addr ≠ 0) {h : Heap} (ho : h.Ok) (he : ∀ k, h.fails k = false) :
    Made lib wenv env db src m ps args v fn w s n h := by
  obtain ⟨l, fixed, hsame, hr⟩ := ready hcall rfl hcb hf hh
  refine ⟨l, fixed, hsame, fun hp => ?_⟩
  obtain ⟨k, e, hk⟩ := ffiCall_ok hn hfun (by simp) (fun _ _ => raw_dots) hr.arguments hl hs hlt hw hfn hp he (Owns.init ho)
  refine ⟨k, e, fun out m1 h1 h2 => ?_⟩
  obtain ⟨m2, h', e', hwr, o', _⟩ := hk out m1 h1 h2
  exact ⟨m2, h', e', hwr, fun b => by rw [o'.live]; simp⟩

theorem filled_mono {R R' : Ref → List WrapCall.Arg → List View → Prop} {slots : List Slot} {xs : List View} (h : AllFilled R slots xs) :
    (∀ p as x, Slot.rest p as ∈ slots → R p as x → R' p as x) → AllFilled R' slots xs := by
  induction h with
  | nil => intro _; exact .nil
  | cons h1 _ ih =>
    intro hm
    refine .cons ?_ (ih fun p as x hp => hm p as x (by simp [hp]))
    cases h1 with
    | bytes h => exact .bytes h
    | rest h hr => exact .rest h (hm _ _ _ (by simp) hr)

/-- **C105**, partial: `metac_value_parameter_wrap` records a call of the function `entry` into an empty storage; it answers, and records it if memory
does not run out.  Once it is recorded, `metac_value_ffi_call` with the storage in memory (`Held`) makes just this call (`Made`): the function gets the arguments the caller passed (`Same`).
The handlers of `...` and `va_list` parameters are to keep each argument (`Keeps`) of the calls they are made for (`Fit`).

Missing: what is missing in C40 and C94 (in particular `C105_char_false`), and padded unions (`Callable.plain`). -/
theorem C105_recorded_partial (lib : Lib) (wenv : WrapCall.Env) (env : Handlers.Env) (db : Db) (hn : Named db) (src : Mem) (tags : Option (Ref → Option WrapCall.Handler))
    (Fit : Ref → List WrapCall.Arg → Prop) (hh : Handled (fun p a x => Fit p a → Each (Keeps env db src) a x) wenv db tags) (entry t : Ref) (ps : List Ref) (hfun : Ffi.Spec.Function db entry (some t) ps) (hcb : Callable wenv env db ps)
    (args : List WrapCall.Arg) (slots : List Slot) (hcall : Call wenv db tags ps args slots true)
    (hfit : ∀ p a, Slot.rest p a ∈ slots → Fit p a) (st : Sto) (h : Heap) (hc : Consistent st h) (hempty : st.items = []) (handle : Nat) (hlive : h.live handle = true) (hne : handle ≠ st.block) (hiter : h.fails h.next = false) :
    ∃ ret st' h', WrapCall.wrap wenv db tags (some handle) entry st args h = .ok (ret, st', h') ∧
      ((∀ k, h.fails k = false) → ret = true) ∧
      (ret = true → ∀ (m : Mem) (v w : Value) (fn : Nat) (s : Shape) (n : Nat) (h1 : Heap), v.entry = entry → Each (Held env m) (views st'.items) (env.params v.addr) → fn ≠ 0 →
        Looks env db w.entry s → Size db w.entry n → n < 2 ^ 64 → w.addr ≠ 0 → h1.Ok → (∀ k, h1.fails k = false) → Made lib wenv env db src m ps args v fn w s n h1) := by
  obtain ⟨ret, st', h', e, _, _, h1, h2, _⟩ := WrapCall.C40_wrap_partial _ wenv db tags hh entry ps (declares hfun) args slots true hcall st h hc hempty handle hlive hne hiter
  refine ⟨ret, st', h', e, h2 rfl, fun hr m v w fn s n h3 hv hheld hfn hl hs hlt hw ho he => ?_⟩
  subst hv
  exact made hn hcall hcb (filled_mono (h1 hr).2 fun p a x hp hx => hx (hfit p a hp)) hfun hheld hfn hl hs hlt hw ho he

/-! ### printf-like functions -/

theorem keeps_pass {penv : PrintfCall.Env} {env : Handlers.Env} {db : Db} (ht : Types penv env db) {c : Printf.Spec.Conv} {a : WrapCall.Arg} {x : View} (hc : AsIs c) (hp : Passes penv c a x) :
    Keeps env db penv.mem a x := by
  cases hp with
  | @plain ty w h1 h2 =>
    have take : ∀ k, w.length = k → w.take k = w := fun k hk => by rw [← hk, List.take_length]
    cases ty with
    | chars n => exact absurd rfl (PrintfCall.promised_chars h1 n)
    | _ =>
      first
      | exact absurd (hc _ _ h1 rfl) (fun h => h)
      | (simp only [PrintfCall.Spec.passed, PrintfCall.Spec.width] at h2 ⊢
         rw [take _ h2]
         exact .scalar (ht.scalar _ _ rfl) trivial (by simp [travels]) h2)
  | null h1 => exact .scalar (p := .pointer) (ht.scalar .charp _ rfl) trivial (by simp [travels]) rfl
  | str h1 h2 h3 h4 h5 =>
    obtain ⟨y, qs, t, hf, hi, hv⟩ := ht.chars _
    exact .string h4 hf hi hv

theorem keeps_pass_all {penv : PrintfCall.Env} {env : Handlers.Env} {db : Db} (ht : Types penv env db) {cs : List Printf.Spec.Conv} {as : List WrapCall.Arg} {xs : List View} (hp : AllPass penv cs as xs) :
    (∀ c ∈ cs, AsIs c) → Each (Keeps env db penv.mem) as xs := by
  induction hp with
  | nil => intro _; exact .nil
  | cons h1 _ ih => intro hc; exact .cons (keeps_pass ht (hc _ (by simp)) h1) (ih fun c h => hc c (by simp [h]))

theorem plains_call {wenv : WrapCall.Env} {db : Db} {tags : Option (Ref → Option WrapCall.Handler)} {ps qs : List Ref} {as bs : List WrapCall.Arg} {slots more : List Slot} {k : Bool}
    (h : Plains wenv db ps as slots) (hc : Call wenv db tags qs bs more k) : Call wenv db tags (ps ++ qs) (as ++ bs) (slots ++ more) k := by
  induction h with
  | nil => exact hc
  | cons h1 h2 h3 _ ih => exact .plain h1 h2 h3 ih

theorem plains_bytes {wenv : WrapCall.Env} {db : Db} {ps : List Ref} {as : List WrapCall.Arg} {slots : List Slot} (h : Plains wenv db ps as slots) : ∀ p l, Slot.rest p l ∉ slots := by
  induction h with
  | nil => simp
  | cons _ _ _ _ ih => simpa using ih

/-- **C105**, partial, for functions like printf: ordinary parameters `ps`, a format, and `...` with `metac_handle_printf_format`: the call is recorded unless memory runs out, and
once it is recorded, `metac_value_ffi_call` makes it: the function gets the ordinary arguments, the same format (pointer), numbers and pointers unchanged,
and for `%s` pointers to equal strings.

Missing: conversions of small integers (`AsIs`, see `C105_char_false`), what is missing in C75 and C94. -/
theorem C105_printf_partial (lib : Lib) (wenv : WrapCall.Env) (penv : PrintfCall.Env) (env : Handlers.Env) (db : Db) (hn : Named db) (tag : Ref → Option WrapCall.Handler)
    (entry r fmt dots t f : Ref) (qs : List Qual) (u : Option Ref) (ps : List Ref) (hfun : Ffi.Spec.Function db entry (some r) (ps ++ [fmt, dots])) (hcb : Callable wenv env db (ps ++ [fmt, dots]))
    (hty : Types penv env db) (hfmt : Plain wenv db fmt (some t)) (ht : Final db t (some f) qs) (hptr : (db f).info = .pointer u)
    (hdots : WrapCall.Spec.Dots db dots) (htag : tag dots = some (printfHandler penv db entry))
    (w : List UInt8) (hw : w.length = 8) (h0 : Mem.le w ≠ 0) (pieces : List Piece) (hstr : StringAt penv.mem (Mem.le w) (render pieces))
    (hwf : ∀ p ∈ pieces, WFPiece p) (hs : Separated pieces) (hnp : Piece.pct ∉ pieces) (hf : ∀ c ∈ convs pieces, Fits 10 c) (has : ∀ c ∈ convs pieces, AsIs c)
    (args : List WrapCall.Arg) (vs : List View) (ha : AllPass penv (convs pieces) args vs)
    (pre : List WrapCall.Arg) (slots : List Slot) (hpl : Plains wenv db ps pre slots)
    (st : Sto) (h : Heap) (hc : Consistent st h) (hempty : st.items = []) (handle : Nat) (hlive : h.live handle = true) (hne : handle ≠ st.block) (hiter : h.fails h.next = false) :
    ∃ ret st' h', WrapCall.wrap wenv db (some tag) (some handle) entry st (pre ++ .val .ptr w :: args) h = .ok (ret, st', h') ∧
      ((∀ k, h.fails k = false) → ret = true) ∧
      (ret = true → ∀ (m : Mem) (v z : Value) (fn : Nat) (s : Shape) (n : Nat) (h1 : Heap), v.entry = entry → Each (Held env m) (views st'.items) (env.params v.addr) → fn ≠ 0 →
        Looks env db z.entry s → Size db z.entry n → n < 2 ^ 64 → z.addr ≠ 0 → h1.Ok → (∀ k, h1.fails k = false) →
        Made lib wenv env db penv.mem m (ps ++ [fmt, dots]) (pre ++ .val .ptr w :: args) v fn z s n h1) := by
  obtain ⟨ret, st', leak, h', h'', e, _, _, _, h1, h2, _⟩ := PrintfCall.C75_call_partial wenv penv db tag entry fmt dots t f qs u ps (declares hfun) hfmt ht hptr hdots htag w hw h0 pieces hstr hwf hs hnp hf
    args [] vs ha pre slots hpl st h hc hempty handle hlive hne hiter
  rw [List.append_nil] at e h1
  refine ⟨ret, st', h', e, h2, fun hr m v z fn s n h3 hv hheld hfn hl hsz hlt hz ho he => ?_⟩
  subst hv
  have hcall : Call wenv db (some tag) (ps ++ [fmt, dots]) (pre ++ .val .ptr w :: args) (slots ++ [.bytes fmt w, .rest dots args]) true :=
    plains_call hpl (.plain hfmt (.pointer ht hptr) (.wide hw) (.dots hdots (by simp)))
  refine made hn hcall hcb (filled_mono (h1 hr).2 ?_) hfun hheld hfn hl hsz hlt hz ho he
  intro p as x hp hx
  simp only [List.mem_append, List.mem_cons, List.not_mem_nil, or_false, Slot.rest.injEq, reduceCtorEq, false_or] at hp
  rcases hp with hp | ⟨rfl, rfl⟩
  · exact absurd hp (plains_bytes hpl p as)
  · subst hx
    exact keeps_pass_all hty ha has

end Verif.Replay
