import Verif.PrintfText.Args
import Verif.PrintfCall.Call
/-
C109: the text of a recorded call of a printf-like function.
-/
namespace Verif.PrintfText
open Verif Verif.Entry Verif.Entry.Spec Verif.Value Verif.Value.Spec Verif.ParamStorage Verif.ParamStorage.Spec Verif.PrintfText.Spec
open Verif.ValueString (Text valueString)
open Verif.ValueString.Spec (BaseText Escaped Shown Packed Sane Interned Honest)
open Verif.PrintString.Spec (Expressible Locale)
open Verif.Printf.Spec (Conv Piece convs render WFPiece Separated Fits)
open Verif.PrintfCall (printfHandler)
open Verif.PrintfCall.Spec (StringAt AllPass Plains)
open Verif.WrapCall (Arg Handler wrap)
open Verif.WrapCall.Spec (text Slot AllFilled Filled Plain Declares)
open Verif.Ffi.Spec (Each Bytes)
open Verif.Replay.Spec (Held)
open Verif.Trace.Spec (callText Number)

theorem filled_append {F : Ref → List Arg → List View → Prop} {s1 s2 : List Slot} {xs : List View} (h : AllFilled F (s1 ++ s2) xs) :
    ∃ x1 x2, xs = x1 ++ x2 ∧ AllFilled F s1 x1 ∧ AllFilled F s2 x2 := by
  induction s1 generalizing xs with
  | nil => exact ⟨[], xs, rfl, .nil, h⟩
  | cons s s1 ih =>
    cases h with
    | cons h1 h2 =>
      obtain ⟨x1, x2, rfl, h3, h4⟩ := ih h2
      exact ⟨_ :: x1, x2, rfl, .cons h1 h3, h4⟩

theorem each_append {α β : Type} {R : α → β → Prop} {s1 s2 : List α} {xs : List β} (h : Each R (s1 ++ s2) xs) :
    ∃ x1 x2, xs = x1 ++ x2 ∧ Each R s1 x1 ∧ Each R s2 x2 := by
  induction s1 generalizing xs with
  | nil => exact ⟨[], xs, rfl, .nil, h⟩
  | cons s s1 ih =>
    cases h with
    | cons h1 h2 =>
      obtain ⟨x1, x2, rfl, h3, h4⟩ := ih h2
      exact ⟨_ :: x1, x2, rfl, .cons h1 h3, h4⟩

theorem append_each {α β : Type} {R : α → β → Prop} {s1 s2 : List α} {x1 x2 : List β} (h1 : Each R s1 x1) (h2 : Each R s2 x2) : Each R (s1 ++ s2) (x1 ++ x2) := by
  induction h1 with
  | nil => exact h2
  | cons h _ ih => exact .cons h ih

/-- A list of texts in one. -/
theorem intercalate_flat (s : Text) (xs us : List Text) (h : us ≠ []) : s.intercalate (xs ++ [s.intercalate us]) = s.intercalate (xs ++ us) := by
  induction xs with
  | nil => simp
  | cons x xs ih =>
    have e : ∀ l : List Text, l ≠ [] → s.intercalate (x :: l) = x ++ s ++ s.intercalate l := by
      intro l hl
      cases l with
      | nil => exact absurd rfl hl
      | cons y l => simp [List.intercalate, List.intersperse]
    rw [List.cons_append, List.cons_append, e _ (by simp), e _ (by simp [h]), ih]

/-- The fixed arguments before the format. -/
theorem numbers_shown {wenv : WrapCall.Env} {env : ValueString.Env} {db : Db} (hs : Sane db) (hp : Locale env.pr) (hva : ∀ r, env.vaList r = wenv.vaList r) {m : Mem} {F : Ref → List Arg → List View → Prop}
    {slots : List Slot} {xs : List View} (hfill : AllFilled F slots xs) {nums : List (Ty × Nat)} (hnum : Each (fun s z => Number wenv db s z.1 z.2) slots nums) (hq : ∀ z ∈ nums, z.1 = .char → z.2 ≠ 39 ∧ z.2 ≠ 92)
    {ws : List Value} (hheld : Each (Held env.toEnv m) xs ws) (outer : List Value) :
    ∃ us, Each (fun z u => BaseText env z.1 z.2 u) nums us ∧ Each (Shown env true db m outer) ws us := by
  induction hfill generalizing nums ws with
  | nil =>
    cases hheld
    cases hnum
    exact ⟨[], .nil, .nil⟩
  | cons h1 _ ih =>
    cases hheld with
    | cons h2 h3 =>
      cases hnum with
      | cons h4 h5 =>
        obtain ⟨us, k1, k2⟩ := ih h5 (fun z hz => hq z (by simp [hz])) h3
        obtain ⟨u, k3, k4⟩ := Trace.number_shown (env := env) (deep := true) hs hp hva h1 h2 h4 (hq _ (by simp)) outer
        exact ⟨u :: us, .cons k3 k1, .cons k4 k2⟩

theorem passed_some {penv : PrintfCall.Env} {cs : List Conv} {as : List Arg} {vs : List View} (h : AllPass penv cs as vs) (hc : cs ≠ []) : vs ≠ [] := by
  cases h with
  | nil => exact absurd rfl hc
  | cons => simp

theorem outer_plain {db : Db} {v w : Value} {r : Option Ref} {ps : List Ref} {t : Option Ref} (hf : (db v.entry).info = .subprogram r ps) (hw : (db w.entry).info = .param true t) : NoPointer db [w, v] := by
  intro u hu x qs t' hx hi
  simp only [List.mem_cons, List.not_mem_nil, or_false] at hu
  rcases hu with rfl | rfl
  · have : Final db u.entry (some u.entry) [] := .here fun t h => by cases h <;> rename_i h <;> (rw [hw] at h; cases h)
    cases final_unique this hx
    rw [hw] at hi
    cases hi
  · have : Final db u.entry (some u.entry) [] := .here fun t h => by cases h <;> rename_i h <;> (rw [hf] at h; cases h)
    cases final_unique this hx
    rw [hf] at hi
    cases hi

/-- **C109**.  A recorded call (`AllFilled`, which C75 establishes) of a printf-like function whose parameters before the format are numbers: its text, with METAC_WMODE_deep, is
`name(numbers, "format", arguments)`: the format as a string literal, and for each conversion specification of it, in order, the argument as `ArgText` says.
Missing from the full property: the format has at least one specification (`C107_no_dots_false`); characters that cannot be in a literal (`Legible`); `%n`; strings of 8 and more characters (`C74_long_string_false`). -/
theorem C109_text_partial (wenv : WrapCall.Env) (penv : PrintfCall.Env) (env : ValueString.Env) (db : Db) (hs : Sane db) (hin : Interned env db) (hh : Honest env db) (hp : Locale env.pr) (hva : ∀ r, env.vaList r = wenv.vaList r)
    (ht : Types penv env db) (m : Mem) (v : Value) (r : Option Ref) (ps : List Ref) (hf : (db v.entry).info = .subprogram r ps) (hv : v.addr ≠ 0) (n : Name) (hn : (db v.entry).name = some n)
    (fmt dots : Ref) (hd : WrapCall.Spec.Dots db dots) (hdl : env.vaList dots = false)
    (w : List UInt8) (hw : w.length = 8) (h0 : Mem.le w ≠ 0) (pieces : List Piece) (hstr : StringAt m (Mem.le w) (render pieces)) (hlen : (render pieces).length + 1 < 2 ^ 31)
    (hx : ∀ x ∈ render pieces, Expressible env.pr x) (hfmt : Format env db m fmt (render pieces)) (hsome : convs pieces ≠ [])
    (args extra : List Arg) (vs : List View) (ha : AllPass penv (convs pieces) args vs) (hl : ∀ c a, (c, a) ∈ (convs pieces).zip args → Legible penv env c a)
    (slots : List Slot) (nums : List (Ty × Nat)) (hnum : Each (fun s z => Number wenv db s z.1 z.2) slots nums) (hq : ∀ z ∈ nums, z.1 = .char → z.2 ≠ 39 ∧ z.2 ≠ 92)
    (xs : List View) (hfill : AllFilled (fun _ _ x => x = vs) (slots ++ [.bytes fmt w, .rest dots (args ++ extra)]) xs) (hheld : Each (Held env.toEnv m) xs (env.params v.addr)) :
    ∃ us e us', Each (fun z u => BaseText env z.1 z.2 u) nums us ∧ Escaped (render pieces) e ∧ AllText penv env (convs pieces) args us' ∧
      valueString env true db m (some v) = .ok (some (callText n (us ++ quoted e :: us'))) := by
  obtain ⟨x1, x2, rfl, f1, f2⟩ := filled_append hfill
  obtain ⟨w1, w2, hw12, g1, g2⟩ := each_append hheld
  obtain ⟨us, j1, j2⟩ := numbers_shown hs hp hva f1 hnum hq g1 [v]
  cases f2 with
  | cons f3 f4 =>
  cases f4 with
  | cons f5 f6 =>
  cases f6
  cases g2 with
  | @cons _ wf _ _ g3 g4 =>
  cases g4 with
  | @cons _ wd _ _ g5 g6 =>
  cases g6
  cases f3 with
  | bytes id1 =>
  cases f5 with
  | rest id2 hvs =>
  subst hvs
  cases g3 with
  | bytes he hadd _ hb =>
  cases g5 with
  | list he' hadd' hll =>
  obtain ⟨e, hesc⟩ := escaped_exists (render pieces)
  obtain ⟨dt, hd⟩ := hd
  have hwd : wd.entry = dots := he'.trans id2
  rw [← hwd] at hd hdl
  have hne : render pieces ≠ [] := by
    intro hnil
    apply hsome
    cases pieces with
    | nil => rfl
    | cons p l =>
      exfalso
      cases p <;> simp [render, Printf.Spec.text] at hnil
  have hof : NoPointer db [v] := fun u hu => outer_plain hf hd u (List.mem_cons_of_mem _ hu)
  have hsf := format_shown hfmt (he.trans id1) hadd hw hb h0 hstr hne hx hlen hof hesc
  obtain ⟨prs, us', p1, p2, p3, p4, p5, p6⟩ := args_shown ht hs.named hp (outer_plain hf hd) ha hl hll
  have hprs : prs ≠ [] := by
    rintro rfl
    have hvs := passed_some ha hsome
    rw [← p1] at hll
    cases hll
    exact hvs rfl
  have hus : us' ≠ [] := by
    rintro rfl
    cases prs with
    | nil => exact hprs rfl
    | cons => simp at p4
  have hsd : Shown env true db m [v] wd ([44, 32].intercalate us') := .arguments ⟨_, _, hd, .inl rfl⟩ hdl p1 p2 p3 p4 p5 hprs
  refine ⟨us, e, us', j1, hesc, p6, ?_⟩
  rw [Trace.C107_call env true db hs hin hh hp m v r ps hf hv _ hheld]
  refine ⟨n, us ++ [quoted e, [44, 32].intercalate us'], hn, ?_, ?_⟩
  · rw [hw12]
    exact append_each j2 (.cons hsf (.cons hsd .nil))
  · have : text ", " = [44, 32] := by decide
    simp only [callText, this]
    rw [show us ++ [quoted e, [44, 32].intercalate us'] = (us ++ [quoted e]) ++ [[44, 32].intercalate us'] by simp, intercalate_flat _ _ _ hus]
    simp

/-- **C109** for a call as it is made: METAC_NEW_VALUE_WITH_CALL_PARAMS for a function with parameters of arithmetic types, a format and `...` (C75), then metac_value_string with METAC_WMODE_deep,
with the stored parameters in memory.  `after` is the memory then: the format and the storage are in it; the strings of the arguments need not be there any more. -/
theorem C109_recorded_partial (wenv : WrapCall.Env) (penv : PrintfCall.Env) (env : ValueString.Env) (db : Db) (hs : Sane db) (hin : Interned env db) (hh : Honest env db) (hp : Locale env.pr) (hva : ∀ r, env.vaList r = wenv.vaList r)
    (ht : Types penv env db) (tag : Ref → Option Handler) (entry fmt dots t f : Ref) (qs : List Qual) (u : Option Ref) (ps : List Ref) (r : Option Ref) (hf : (db entry).info = .subprogram r (ps ++ [fmt, dots])) (n : Name) (hn : (db entry).name = some n)
    (hfp : Plain wenv db fmt (some t)) (hft : Final db t (some f) qs) (hptr : (db f).info = .pointer u)
    (hd : WrapCall.Spec.Dots db dots) (hdl : env.vaList dots = false) (htag : tag dots = some (printfHandler penv db entry))
    (w : List UInt8) (hw : w.length = 8) (h0 : Mem.le w ≠ 0) (pieces : List Piece) (hstr : StringAt penv.mem (Mem.le w) (render pieces)) (hlen : (render pieces).length + 1 < 2 ^ 31)
    (hx : ∀ x ∈ render pieces, Expressible env.pr x) (hwf : ∀ p ∈ pieces, WFPiece p) (hsep : Separated pieces) (hpct : Piece.pct ∉ pieces) (hfit : ∀ c ∈ convs pieces, Fits 10 c) (hsome : convs pieces ≠ [])
    (args extra : List Arg) (vs : List View) (ha : AllPass penv (convs pieces) args vs) (hl : ∀ c a, (c, a) ∈ (convs pieces).zip args → Legible penv env c a)
    (pre : List Arg) (slots : List Slot) (hpl : Plains wenv db ps pre slots) (nums : List (Ty × Nat)) (hnum : Each (fun s z => Number wenv db s z.1 z.2) slots nums) (hq : ∀ z ∈ nums, z.1 = .char → z.2 ≠ 39 ∧ z.2 ≠ 92)
    (st : Sto) (h : Heap) (hc : Consistent st h) (hempty : st.items = []) (handle : Nat) (hlive : h.live handle = true) (hneq : handle ≠ st.block) (hmem : ∀ k, h.fails k = false) :
    ∃ st' h', wrap wenv db (some tag) (some handle) entry st (pre ++ .val .ptr w :: (args ++ extra)) h = .ok (true, st', h') ∧
      AllFilled (fun _ _ x => x = vs) (slots ++ [.bytes fmt w, .rest dots (args ++ extra)]) (views st'.items) ∧
      ∀ (after : Mem) (v : Value), v.entry = entry → v.addr ≠ 0 → StringAt after (Mem.le w) (render pieces) → Format env db after fmt (render pieces) → Each (Held env.toEnv after) (views st'.items) (env.params v.addr) →
      ∃ us e us', Each (fun z u => BaseText env z.1 z.2 u) nums us ∧ Escaped (render pieces) e ∧ AllText penv env (convs pieces) args us' ∧
        valueString env true db after (some v) = .ok (some (callText n (us ++ quoted e :: us'))) := by
  have hdec : Declares db entry (ps ++ [fmt, dots]) := ⟨entry, [], r, .here fun t h => by cases h <;> rename_i h <;> (rw [hf] at h; cases h), .inl hf⟩
  obtain ⟨ret, st', leak, h', h'', e1, -, -, -, e2, e3, -⟩ := PrintfCall.C75_call_partial wenv penv db tag entry fmt dots t f qs u ps hdec hfp hft hptr hd htag w hw h0 pieces hstr hwf hsep hpct hfit args extra vs ha pre slots hpl
    st h hc hempty handle hlive hneq (hmem _)
  cases e3 hmem
  refine ⟨st', h', e1, (e2 rfl).2, ?_⟩
  intro after v hve hv hstr' hfmt hheld
  subst hve
  exact C109_text_partial wenv penv env db hs hin hh hp hva ht after v r _ hf hv n hn fmt dots hd hdl w hw h0 pieces hstr' hlen hx hfmt hsome args extra vs ha hl slots nums hnum hq _ (e2 rfl).2 hheld

end Verif.PrintfText
