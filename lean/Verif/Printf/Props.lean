import Verif.Printf.Walk
/-
Property theorems of the printf format handling (C14, C15, C16).
-/
namespace Verif.Printf
open Verif Verif.Printf.Spec

theorem numAcc_mono (a a' : Nat) (ds : Str) (h : a ≤ a') : numAcc 8 a ds ≤ numAcc 10 a' ds := by
  induction ds generalizing a a' with
  | nil => exact h
  | cons d ds ih =>
    simp only [numAcc, List.foldl_cons] at *
    exact ih _ _ (by omega)

theorem fitsActual_of_fits {c : Conv} (h : Fits 10 c) : FitsActual c := by
  unfold FitsActual
  cases octal c with
  | false => exact h
  | true =>
    refine ⟨Nat.le_trans (numAcc_mono 0 0 c.width (Nat.le_refl _)) h.1, ?_⟩
    intro ds hds
    exact Nat.le_trans (numAcc_mono 0 0 ds (Nat.le_refl _)) (h.2 ds hds)

theorem actual_eq (c : Conv) (h : WF c) : actual c =
    { flags := { plus := decide (43 ∈ c.flags), minus := decide (45 ∈ c.flags), pound := decide (35 ∈ c.flags), oct := octal c, space := false },
      formatLen := number (baseOf (octal c)) c.width,
      precision := match c.prec with | none => -1 | some ds => number (baseOf (octal c)) ds,
      argLen := c.len, t := c.conv } := by
  have ho := toFrame_oct c [] h
  have hfl : frameFlags (toFrame c []) = ⟨decide (43 ∈ c.flags), decide (45 ∈ c.flags), decide (35 ∈ c.flags), octal c, false⟩ := by
    simp only [frameFlags, toFrame, foldl_setFlag _ _ h.flags, octal]
    simp
  unfold actual frameSpec
  rw [hfl]
  cases hp : c.prec <;> simp [toFrame, hp]

/-- C14, first part: a conversion specification without the flags `0` and space, whose width
and precision fit an `int`, is parsed wherever it stands in the format, with the values
printf gives it, and exactly its text is consumed.  Missing from the full property: the
flags `0` and space (`C14_zero_flag_is_octal`, `C14_space_flag_is_zero_flag`), `*`
(`C14_star_refused`), the length modifiers j, z, t (`C14_z_taken_as_conversion`) and numbers
beyond `int` (`C14_huge_width_undefined`). -/
theorem C14_parse_partial (pre post : Str) (c : Conv) (h : WF c) (h0 : 48 ∉ c.flags) (h1 : 32 ∉ c.flags) (hf : Fits 10 c) :
    parse (pre ++ (text c ++ post)) pre.length = .ok (some (meaning c), pre.length + (text c).length) := by
  rw [parse_conv_ok pre c post h (fitsActual_of_fits hf), actual_eq c h]
  have ho : octal c = false := by simp [octal, h0, h1]
  cases hp : c.prec <;> simp [ho, baseOf, meaning, h0, h1, hp]

/-- The witness for the hypotheses: `%-+12.3lld`. -/
def exConv : Conv := ⟨[45, 43], [49, 50], some [51], .ll, 100⟩
theorem exConv_wf : WF exConv := by
  refine ⟨by decide, by decide, by decide, ?_, by decide, by decide, by decide, by decide⟩
  intro ds hds; simp [exConv] at hds; subst hds; decide
theorem exConv_fits : Fits 10 exConv := by
  refine ⟨by decide, ?_⟩
  intro ds hds; simp [exConv] at hds; subst hds; decide
example : text exConv = (chars ['%', '-', '+', '1', '2', '.', '3', 'l', 'l', 'd']) := by decide
example : parse ([120] ++ (text exConv ++ [121])) 1 =
    .ok (some ⟨⟨true, true, false, false, false⟩, 12, 3, .ll, 100⟩, 11) :=
  C14_parse_partial [120] [121] exConv exConv_wf (by decide) (by decide) exConv_fits

/-- C14, all flags: whatever the flags, the specification is recognised and exactly its text
consumed, and the flags `+`, `-`, `#`, the length modifier and the conversion letter are
those in the text. -/
theorem C14_recognised (pre post : Str) (c : Conv) (h : WF c) (hf : Fits 10 c) :
    ∃ sp, parse (pre ++ (text c ++ post)) pre.length = .ok (some sp, pre.length + (text c).length) ∧
      sp.t = c.conv ∧ sp.argLen = c.len ∧
      sp.flags.plus = decide (43 ∈ c.flags) ∧ sp.flags.minus = decide (45 ∈ c.flags) ∧ sp.flags.pound = decide (35 ∈ c.flags) ∧
      (sp.formatLen = 0 ∨ c.width ≠ []) ∧ (sp.precision = -1 ↔ c.prec = none) := by
  refine ⟨actual c, parse_conv_ok pre c post h (fitsActual_of_fits hf), ?_⟩
  rw [actual_eq c h]
  refine ⟨rfl, rfl, rfl, rfl, rfl, ?_, ?_⟩
  · cases hw : c.width with
    | nil => left; rfl
    | cons => right; simp
  · cases c.prec with
    | none => simp
    | some ds => simp

example : ∃ sp, parse ([120] ++ (text exConv ++ [121])) 1 = .ok (some sp, 11) ∧ sp.t = 100 :=
  let ⟨sp, h⟩ := C14_recognised [120] [121] exConv exConv_wf exConv_fits
  ⟨sp, h.1, h.2.1⟩

/-- C14, failure: where the format has no conversion specification (and no ten digits in a
row) the function returns 0; away from a `%` it does not move either. -/
theorem C14_rejects (fmt : Str) (pos : Nat) (hpos : pos ≤ fmt.length) (hr : ShortRuns fmt)
    (hno : ∀ c post, WF c → fmt.drop pos ≠ text c ++ post) :
    ∃ pos', parse fmt pos = .ok (none, pos') ∧ pos ≤ pos' ∧ pos' ≤ fmt.length ∧ (fmt[pos]? ≠ some 37 → pos' = pos) := by
  by_cases hx : fmt[pos]? = some 37
  · obtain ⟨P, s, e, hl⟩ := charAt_pct fmt pos hx
    subst hl
    rcases parse_cases P s with ⟨c, post, hw, ht, _⟩ | ⟨_, f, hf, hs, hp⟩
    · exfalso
      refine hno c post hw ?_
      rw [e, List.drop_left, ht]
    · have hfit : f.fits := frame_fits_short P f hf (by rw [← hs, ← e]; exact hr)
      rw [← e, if_pos hfit] at hp
      refine ⟨_, hp, by omega, ?_, fun h => absurd hx h⟩
      rw [e, hs]
      simp [Frame.size, Frame.str]
      omega
  · refine ⟨pos, ?_, Nat.le_refl _, hpos, fun _ => rfl⟩
    unfold parse charAt
    cases hc : fmt[pos]? with
    | none =>
      have : pos = fmt.length := by
        rw [List.getElem?_eq_none_iff] at hc; omega
      simp only [this, if_true, Outcome.bind_ok]
      rfl
    | some c =>
      have : c ≠ 37 := by intro e; rw [hc, e] at hx; exact hx rfl
      simp only [Outcome.bind_ok, this, if_false]
      rfl

/-- Conversely a success always stands for a well-formed specification at that place. -/
theorem C14_success_is_specification (fmt : Str) (pos pos' : Nat) (sp : Specifier) (h : parse fmt pos = .ok (some sp, pos')) :
    ∃ c post, WF c ∧ fmt.drop pos = text c ++ post ∧ pos' = pos + (text c).length ∧ sp.t = c.conv ∧ sp.argLen = c.len := by
  by_cases hx : fmt[pos]? = some 37
  · obtain ⟨P, s, e, hl⟩ := charAt_pct fmt pos hx
    subst hl
    rcases parse_cases P s with ⟨c, post, hw, ht, hp⟩ | ⟨_, f, hf, hs, hp⟩
    · rw [← e, h] at hp
      split at hp
      · simp only [Outcome.ok.injEq, Prod.mk.injEq, Option.some.injEq] at hp
        refine ⟨c, post, hw, ?_, hp.2, by rw [hp.1]; rfl, by rw [hp.1]; rfl⟩
        rw [e, List.drop_left, ht]
      · simp at hp
    · rw [← e, h] at hp
      split at hp <;> simp at hp
  · exfalso
    unfold parse charAt at h
    cases hc : fmt[pos]? with
    | none =>
      rw [hc] at h
      simp only at h
      split at h
      · simp only [Outcome.bind_ok] at h
        rw [if_neg (by decide)] at h
        simp at h
      · simp at h
    | some c =>
      have : c ≠ 37 := by intro e; rw [hc, e] at hx; exact hx rfl
      rw [hc] at h
      simp only [Outcome.bind_ok, this, if_false] at h
      simp at h

/-- A digit run fits in its string: a checkable form of `ShortRuns`. -/
theorem shortRuns_of_length (fmt : Str) (h : fmt.length ≤ 9) : ShortRuns fmt := by
  intro P ds R e _
  rw [e] at h
  simp at h
  omega

example : ShortRuns (chars ['%', '-', '5', '.', '3', 'q', '%', '%']) := shortRuns_of_length _ (by decide)
/-- `%-5.` is refused, after four characters. -/
example : ∃ pos', parse [37, 45, 53, 46] 0 = .ok (none, pos') ∧ 0 ≤ pos' ∧ pos' ≤ 4 ∧ (([37, 45, 53, 46] : Str)[0]? ≠ some 37 → pos' = 0) :=
  C14_rejects _ 0 (by decide) (shortRuns_of_length _ (by decide)) (by
    intro c post h e
    have h1 : (37 :: (c.flags ++ (c.width ++ (precText c.prec ++ (lenText c.len ++ ([c.conv] ++ post))))) : Str) = [37, 45, 53, 46] := by
      rw [List.drop_zero] at e
      rw [e]; simp [text]
    have hm : c.conv ∈ ([37, 45, 53, 46] : Str) := by rw [← h1]; simp
    have := h.conv
    simp at hm
    rcases hm with e | e | e | e <;> rw [e] at this <;> revert this <;> decide)

/-- Evaluate a parse of a literal specification. -/
theorem parse_lit (c : Conv) (h : WF c) (hf : Fits 10 c) (post : Str) :
    parse (text c ++ post) 0 = .ok (some (actual c), (text c).length) := by
  have := parse_conv_ok [] c post h (fitsActual_of_fits hf)
  simpa using this

/-- C14 is false for the flag `0`: the width is then read as an octal number.  `%010d` asks
for width 10, the code reports 8. -/
theorem C14_zero_flag_is_octal :
    text ⟨[48], [49, 48], none, .no, 100⟩ = (chars ['%', '0', '1', '0', 'd']) ∧
    parse (chars ['%', '0', '1', '0', 'd']) 0 = .ok (some ⟨⟨false, false, false, true, false⟩, 8, -1, .no, 100⟩, 5) ∧
    (meaning ⟨[48], [49, 48], none, .no, 100⟩).formatLen = 10 := by
  refine ⟨by decide, ?_, by decide⟩
  have h : WF ⟨[48], [49, 48], none, .no, 100⟩ := ⟨by decide, by decide, by decide, by simp, by decide, by decide, by decide, by decide⟩
  have := parse_lit _ h ⟨by decide, by simp⟩ []
  exact this

/-- C14 is false for the flag space: it is reported as the flag `0`. -/
theorem C14_space_flag_is_zero_flag :
    parse (chars ['%', ' ', 'd']) 0 = .ok (some ⟨⟨false, false, false, true, false⟩, 0, -1, .no, 100⟩, 3) ∧
    (meaning ⟨[32], [], none, .no, 100⟩).flags = ⟨false, false, false, false, true⟩ := by
  refine ⟨?_, by decide⟩
  have h : WF ⟨[32], [], none, .no, 100⟩ := ⟨by decide, by decide, by decide, by simp, by decide, by decide, by decide, by decide⟩
  have := parse_lit _ h ⟨by decide, by simp⟩ []
  exact this

/-- C14 is false for the length modifier z: `%zu` is taken for a conversion `z` of two
characters. -/
theorem C14_z_taken_as_conversion :
    parse (chars ['%', 'z', 'u']) 0 = .ok (some ⟨⟨false, false, false, false, false⟩, 0, -1, .no, 122⟩, 2) := by
  have h : WF ⟨[], [], none, .no, 122⟩ := ⟨by decide, by decide, by decide, by simp, by decide, by decide, by decide, by decide⟩
  have := parse_lit _ h ⟨by decide, by simp⟩ [117]
  exact this

/-- C14 is false for `*`: `%*d` is refused. -/
theorem C14_star_refused : parse (chars ['%', '*', 'd']) 0 = .ok (none, 1) := by
  have hf : (Frame.mk [] [] none .no [42, 100]).Ok := by
    refine ⟨by simp, ?_, by simp, ?_, ?_, by simp, ?_, by simp, by simp⟩
    · intro x hx; simp [precText, lenText] at hx; subst hx; decide
    · intro x hx; simp [precText, lenText] at hx; subst hx; decide
    · intro _; decide
    · intro _; decide
  exact parse_frame [] _ hf

/-- C14 is false for a width beyond `int`: undefined behaviour (signed overflow). -/
theorem C14_huge_width_undefined : parse (chars ['%', '9', '9', '9', '9', '9', '9', '9', '9', '9', '9', 'd']) 0 = .ub := by
  have h : WF ⟨[], [57, 57, 57, 57, 57, 57, 57, 57, 57, 57], none, .no, 100⟩ :=
    ⟨by decide, by decide, by decide, by simp, by decide, by decide, by decide, by decide⟩
  exact parse_conv [] _ [] h

/-- C15, for formats in which every conversion specification is followed by an ordinary
character or the end: the count is the number of specifications, `%%` counts zero.
Missing: a specification directly followed by `%` (`C15_adjacent_false`,
`C15_percent_after_false`), numbers beyond `int`. -/
theorem C15_count_partial (ps : List Piece) (hw : ∀ p ∈ ps, WFPiece p) (hs : Separated ps) (hf : ∀ c ∈ convs ps, Fits 10 c) :
    count (render ps) = .ok (convs ps).length := by
  have := countLoop_render [] ps 0 hw hs (fun c hc => fitsActual_of_fits (hf c hc))
  simpa [count] using this

/-- C15, memory safety: on every string without ten digits in a row the function terminates
with a result (in the model every read past the terminating NUL is undefined). -/
theorem C15_count_safe (fmt : Str) (hr : ShortRuns fmt) : ∃ n, count fmt = .ok n :=
  countLoop_short fmt hr 0 0

def exPieces : List Piece := [.lit 97, .pct, .conv exConv, .lit 32, .pct, .conv ⟨[], [], none, .no, 115⟩]
theorem exPieces_wf : ∀ p ∈ exPieces, WFPiece p := by
  intro p hp
  simp [exPieces] at hp
  rcases hp with rfl | rfl | rfl | rfl | rfl | rfl
  · show (97 : UInt8) ≠ 37; decide
  · trivial
  · exact exConv_wf
  · show (32 : UInt8) ≠ 37; decide
  · trivial
  · exact ⟨by decide, by decide, by decide, by simp, by decide, by decide, by decide, by decide⟩
theorem exPieces_fits : ∀ c ∈ convs exPieces, Fits 10 c := by
  intro c hc
  simp [exPieces, convs] at hc
  rcases hc with rfl | rfl
  · exact exConv_fits
  · exact ⟨by decide, by simp⟩
example : render exPieces = (chars ['a', '%', '%', '%', '-', '+', '1', '2', '.', '3', 'l', 'l', 'd', ' ', '%', '%', '%', 's']) := by decide
example : count (render exPieces) = .ok 2 := C15_count_partial exPieces exPieces_wf (by simp [exPieces, Separated]) exPieces_fits
example : ∃ n, count (chars ['%', 'd', '%', 'q', '%']) = .ok n := C15_count_safe _ (shortRuns_of_length _ (by decide))

theorem pd_wf : WF ⟨[], [], none, .no, 100⟩ := ⟨by decide, by decide, by decide, by simp, by decide, by decide, by decide, by decide⟩
theorem pd_fits : Fits 10 ⟨[], [], none, .no, 100⟩ := ⟨by decide, by simp⟩

/-- C15 is false for adjacent specifications: `%d%d` counts one. -/
theorem C15_adjacent_false :
    render [.conv ⟨[], [], none, .no, 100⟩, .conv ⟨[], [], none, .no, 100⟩] = (chars ['%', 'd', '%', 'd']) ∧
    count (chars ['%', 'd', '%', 'd']) = .ok 1 := by
  refine ⟨by decide, ?_⟩
  have h1 : parse (chars ['%', 'd', '%', 'd']) 0 = .ok _ := parse_lit _ pd_wf pd_fits [37, 100]
  unfold count
  rw [countLoop_some _ _ _ _ _ (by decide) h1]
  rw [countLoop_lit _ _ _ 100 (by decide) (by decide)]
  exact countLoop_end _ _ _ (by decide)

/-- C15 is false the other way, too: `%d%%d` has one specification, counted are two... the
second `%` is skipped and the third one starts a specification. -/
theorem C15_percent_after_false :
    render [.conv ⟨[], [], none, .no, 100⟩, .pct, .lit 100] = (chars ['%', 'd', '%', '%', 'd']) ∧
    count (chars ['%', 'd', '%', '%', 'd']) = .ok 2 := by
  refine ⟨by decide, ?_⟩
  have h1 : parse (chars ['%', 'd', '%', '%', 'd']) 0 = .ok _ := parse_lit _ pd_wf pd_fits [37, 37, 100]
  have h2 : parse (chars ['%', 'd', '%', '%', 'd']) 3 = .ok _ := parse_conv_ok [37, 100, 37] _ [] pd_wf (fitsActual_of_fits pd_fits)
  unfold count
  rw [countLoop_some _ _ _ _ _ (by decide) h1]
  refine (countLoop_some _ 3 _ _ _ (by decide) h2).trans ?_
  exact countLoop_end _ _ _ (by decide)

/-- C16, for formats without `%%` in which every specification is followed by an ordinary
character or the end, with supported conversions, arguments of the promised types and
strings of at most seven characters: one parameter per specification is stored, in order,
with the promised type and the argument's value, and each object fits its buffer; extra
arguments are left alone.  Missing: `%%` (`C16_percent_breaks_collection`), adjacent
specifications (`C16_adjacent_lost`), longer strings (`C16_long_string_overflows`), further
conversions (`C16_lf_refused`). -/
theorem C16_collect_partial (ps : List Piece) (args extra : List Arg) (stored : List (Ty × Arg))
    (hw : ∀ p ∈ ps, WFPiece p) (hs : Separated ps) (hn : Piece.pct ∉ ps) (hf : ∀ c ∈ convs ps, Fits 10 c)
    (ha : AllStored (convs ps) args stored) (hshort : ∀ s, Arg.str (some s) ∈ args → s.length ≤ 7) :
    ∃ params, collect (render ps) [] (args ++ extra) = .ok (0, params) ∧
      params.map (fun p => (p.ty, p.data)) = stored.map (fun x => (x.1, some x.2)) ∧
      ∀ p ∈ params, Spec.bytes p.ty ≤ p.size := by
  refine ⟨stored.map (fun x => ⟨x.1, bufSize x.1, some x.2⟩), ?_, ?_, ?_⟩
  · unfold collect
    rw [C15_count_partial ps hw hs hf]
    simp only [Outcome.bind_ok]
    have := collectLoop_render [] ps [] args extra stored hw hs hn (fun c hc => fitsActual_of_fits (hf c hc)) ha (by
      intro a ha
      cases a with
      | str s => cases s with
        | none => trivial
        | some s => exact hshort s ha
      | _ => trivial)
    simpa using this
  · simp [List.map_map, Function.comp_def]
  · intro p hp
    simp only [List.mem_map] at hp
    obtain ⟨x, hx, rfl⟩ := hp
    have : ∀ cs as st, AllStored cs as st → (∀ s, Arg.str (some s) ∈ as → s.length ≤ 7) → ∀ x ∈ st, Spec.bytes x.1 ≤ bufSize x.1 := by
      intro cs as st h
      induction h with
      | nil => intro _ x hx; simp at hx
      | @cons c a ty cs as ps h1 _ ih =>
        intro hsh x hx
        rcases List.mem_cons.1 hx with rfl | hx
        · cases h1 with
          | plain hp hf =>
            cases ty <;> first | exact Nat.le_refl _ | (cases hf; done)
          | strNull => decide
          | @str s _ =>
            have := hsh s (by simp)
            simp only [Spec.bytes, bufSize]
            omega
        · exact ih (fun s hs => hsh s (by simp [hs])) x hx
    exact this _ _ _ ha hshort x hx

/-- The witness: `a%-+12.3lld %s,%f` with three arguments and a surplus one. -/
def exPieces2 : List Piece := [.lit 97, .conv exConv, .lit 32, .conv ⟨[], [], none, .no, 115⟩, .lit 44, .conv ⟨[], [], none, .no, 102⟩]
example : ∃ params, collect (render exPieces2) [] ([.llong (-5), .str (some [104, 105]), .double 7] ++ [.int 9]) = .ok (0, params) ∧
      params.map (fun p => (p.ty, p.data)) =
        [(.llong, some (.llong (-5))), (.chars 3, some (.str (some [104, 105]))), (.double, some (.double 7))] ∧
      ∀ p ∈ params, Spec.bytes p.ty ≤ p.size := by
  refine C16_collect_partial exPieces2 [.llong (-5), .str (some [104, 105]), .double 7] [.int 9]
    [(.llong, .llong (-5)), (.chars 3, .str (some [104, 105])), (.double, .double 7)] ?_ ?_ ?_ ?_ ?_ ?_
  · intro p hp
    simp [exPieces2] at hp
    rcases hp with rfl | rfl | rfl | rfl | rfl | rfl
    · show (97 : UInt8) ≠ 37; decide
    · exact exConv_wf
    · show (32 : UInt8) ≠ 37; decide
    · exact ⟨by decide, by decide, by decide, by simp, by decide, by decide, by decide, by decide⟩
    · show (44 : UInt8) ≠ 37; decide
    · exact ⟨by decide, by decide, by decide, by simp, by decide, by decide, by decide, by decide⟩
  · simp [exPieces2, Separated]
  · decide
  · intro c hc
    simp [exPieces2, convs] at hc
    rcases hc with rfl | rfl | rfl
    · exact exConv_fits
    · exact ⟨by decide, by simp⟩
    · exact ⟨by decide, by simp⟩
  · exact .cons (.plain (by decide) (by constructor)) (.cons (.str rfl) (.cons (.plain (by decide) (by constructor)) .nil))
  · intro s hs
    simp at hs
    subst hs
    decide

theorem ps_wf : WF ⟨[], [], none, .no, 115⟩ := ⟨by decide, by decide, by decide, by simp, by decide, by decide, by decide, by decide⟩

/-- One step with an undefined store. -/
theorem collectLoop_ub (fmt : Str) (pos id : Nat) (st : List Param) (args : List Arg) (sp : Specifier) (pos' : Nat)
    (hx : fmt[pos]? = some 37) (h : parse fmt pos = .ok (some sp, pos')) (hst : store st id sp args = .ub) :
    collectLoop fmt pos id st args = .ub := by
  have hlt : pos < fmt.length := by
    rcases Nat.lt_or_ge pos fmt.length with h' | h'
    · exact h'
    · rw [List.getElem?_eq_none h'] at hx; simp at hx
  unfold collectLoop
  rw [if_pos hlt, if_pos hx]
  split
  · rename_i hp
    rw [h] at hp
    simp only [Outcome.ok.injEq, Prod.mk.injEq, Option.some.injEq] at hp
    obtain ⟨rfl, rfl⟩ := hp
    rw [hst]
  all_goals first | rfl | (rename_i hp; rw [h] at hp; simp at hp; done)

theorem collectLoop_err (fmt : Str) (pos id : Nat) (st st' : List Param) (args args' : List Arg) (sp : Specifier) (pos' : Nat) (r : Int)
    (hx : fmt[pos]? = some 37) (h : parse fmt pos = .ok (some sp, pos')) (hst : store st id sp args = .ok (r, st', args')) (hr : r ≠ 0) :
    collectLoop fmt pos id st args = .ok (r, st') := by
  have hlt : pos < fmt.length := by
    rcases Nat.lt_or_ge pos fmt.length with h' | h'
    · exact h'
    · rw [List.getElem?_eq_none h'] at hx; simp at hx
  unfold collectLoop
  rw [if_pos hlt, if_pos hx]
  split
  · rename_i hp
    rw [h] at hp
    simp only [Outcome.ok.injEq, Prod.mk.injEq, Option.some.injEq] at hp
    obtain ⟨rfl, rfl⟩ := hp
    rw [hst]
    simp [hr]
  all_goals (rename_i hp; rw [h] at hp; simp at hp)

theorem collectLoop_none (fmt : Str) (pos id : Nat) (st : List Param) (args : List Arg) (pos' : Nat)
    (hx : fmt[pos]? = some 37) (h : parse fmt pos = .ok (none, pos')) :
    collectLoop fmt pos id st args = collectLoop fmt (pos' + 1) (id + 1) st args := by
  have hlt : pos < fmt.length := by
    rcases Nat.lt_or_ge pos fmt.length with h' | h'
    · exact h'
    · rw [List.getElem?_eq_none h'] at hx; simp at hx
  conv => lhs; unfold collectLoop
  rw [if_pos hlt, if_pos hx]
  split
  · rename_i hp; rw [h] at hp; simp at hp
  · rename_i hp
    rw [h] at hp
    simp only [Outcome.ok.injEq, Prod.mk.injEq, true_and] at hp
    obtain rfl := hp
    rfl
  all_goals (rename_i hp; rw [h] at hp; simp at hp)

/-- C16 is false for long strings: every `%s` argument of eight characters or more is
copied beyond the end of its eight-byte buffer. -/
theorem C16_long_string_overflows (s : Str) (h : 8 ≤ s.length) (rest : List Arg) :
    collect (chars ['%', 's']) [] (.str (some s) :: rest) = .ub := by
  have h1 : parse (chars ['%', 's']) 0 = .ok _ := parse_lit _ ps_wf ⟨by decide, by simp⟩ []
  obtain ⟨n, hc⟩ := C15_count_safe (chars ['%', 's']) (shortRuns_of_length _ (by decide))
  unfold collect
  rw [hc]
  simp only [Outcome.bind_ok]
  refine collectLoop_ub _ _ _ _ _ _ _ (by decide) h1 ?_
  show processStr [] 0 (.str (some s) :: rest) = .ub
  simp only [processStr, put, List.nil_append, List.getElem?_cons_zero]
  rw [if_neg (by omega)]

/-- C16 is false after `%%`: the collection fails with -EFAULT. -/
theorem C16_percent_breaks_collection (v : Int) :
    ∃ st, collect (chars ['%', '%', ' ', '%', 'd']) [] [.int v] = .ok (-14, st) := by
  have h0 : parse (chars ['%', '%', ' ', '%', 'd']) 0 = .ok (none, 1) := parse_pct [] [32, 37, 100]
  have h1 : parse (chars ['%', '%', ' ', '%', 'd']) 3 = .ok _ := parse_conv_ok [37, 37, 32] _ [] pd_wf (fitsActual_of_fits pd_fits)
  obtain ⟨n, hc⟩ := C15_count_safe (chars ['%', '%', ' ', '%', 'd']) (shortRuns_of_length _ (by decide))
  unfold collect
  rw [hc]
  simp only [Outcome.bind_ok]
  rw [collectLoop_none _ _ _ _ _ _ (by decide) h0, collectLoop_lit _ _ _ _ _ 32 (by decide) (by decide)]
  exact ⟨_, collectLoop_err _ _ _ _ _ _ _ _ _ _ (by decide) h1 (show process [] 1 .int [.int v] = _ from rfl) (by decide)⟩

/-- C16 is false after `%%` for strings too, of any length: the collection fails with -EFAULT. -/
theorem C16_percent_breaks_strings (s : Option Str) :
    ∃ st, collect (chars ['%', '%', ' ', '%', 's']) [] [.str s] = .ok (-14, st) := by
  have h0 : parse (chars ['%', '%', ' ', '%', 's']) 0 = .ok (none, 1) := parse_pct [] [32, 37, 115]
  have h1 : parse (chars ['%', '%', ' ', '%', 's']) 3 = .ok _ :=
    parse_conv_ok [37, 37, 32] _ [] ps_wf (fitsActual_of_fits ⟨by decide, by simp⟩)
  obtain ⟨n, hc⟩ := C15_count_safe (chars ['%', '%', ' ', '%', 's']) (shortRuns_of_length _ (by decide))
  unfold collect
  rw [hc]
  simp only [Outcome.bind_ok]
  rw [collectLoop_none _ _ _ _ _ _ (by decide) h0, collectLoop_lit _ _ _ _ _ 32 (by decide) (by decide)]
  cases s with
  | none => exact ⟨_, collectLoop_err _ _ _ _ _ _ _ _ _ _ (by decide) h1 (show processStr [] 1 [.str none] = _ from rfl) (by decide)⟩
  | some s => exact ⟨_, collectLoop_err _ _ _ _ _ _ _ _ _ _ (by decide) h1 (show processStr [] 1 [.str (some s)] = _ from rfl) (by decide)⟩

/-- C16 is false for adjacent specifications: of two arguments only the first is stored. -/
theorem C16_adjacent_lost (v w : Int) :
    collect (chars ['%', 'd', '%', 'd']) [] [.int v, .int w] = .ok (0, [⟨.int, 4, some (.int v)⟩]) := by
  have h1 : parse (chars ['%', 'd', '%', 'd']) 0 = .ok _ := parse_lit _ pd_wf pd_fits [37, 100]
  unfold collect
  rw [C15_adjacent_false.2]
  simp only [Outcome.bind_ok]
  rw [collectLoop_some _ _ _ [] [⟨.int, 4, some (.int v)⟩] [.int v, .int w] [.int w] _ _ (by decide) h1 rfl]
  rw [collectLoop_lit _ _ _ _ _ 100 (by decide) (by decide)]
  exact collectLoop_end _ _ _ _ _ (by decide)

/-- C16 is false for `%lf`, a synonym of `%f`: the collection fails with -EFAULT. -/
theorem C16_lf_refused (b : Nat) : ∃ st, collect (chars ['%', 'l', 'f']) [] [.double b] = .ok (-14, st) := by
  have hw : WF ⟨[], [], none, .l, 102⟩ := ⟨by decide, by decide, by decide, by simp, by decide, by decide, by decide, by decide⟩
  have h1 : parse (chars ['%', 'l', 'f']) 0 = .ok _ := parse_lit _ hw ⟨by decide, by simp⟩ []
  obtain ⟨n, hc⟩ := C15_count_safe (chars ['%', 'l', 'f']) (shortRuns_of_length _ (by decide))
  unfold collect
  rw [hc]
  simp only [Outcome.bind_ok]
  exact ⟨_, collectLoop_err _ _ _ _ _ _ _ _ _ _ (by decide) h1 (show store [] 0 _ [.double b] = .ok (-14, [], [.double b]) from rfl) (by decide)⟩

end Verif.Printf
