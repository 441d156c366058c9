import Verif.Printf.Lemmas
namespace Verif.Printf
open Verif Verif.Printf.Spec

def FitsActual (c : Conv) : Prop := Fits (baseOf (octal c)) c

theorem parse_conv_ok (P : Str) (c : Conv) (post : Str) (h : WF c) (hf : FitsActual c) :
    parse (P ++ (text c ++ post)) P.length = .ok (some (actual c), P.length + (text c).length) := by
  rw [parse_conv P c post h, if_pos ((toFrame_fits c [] h).2 hf)]

theorem parse_pct (P s : Str) : parse (P ++ 37 :: 37 :: s) P.length = .ok (none, P.length + 1) := by
  have hf : (Frame.mk [] [] none .no (37 :: s)).Ok := by
    refine ⟨by simp, ?_, by simp, ?_, ?_, by simp, ?_, by simp, by simp⟩
    · intro x hx; simp [precText, lenText] at hx; subst hx; decide
    · intro x hx; simp [precText, lenText] at hx; subst hx; decide
    · intro _; simp [lenText]
    · intro _; simp
  have := parse_frame P _ hf
  have hfit : (Frame.mk [] [] none .no (37 :: s)).fits := ⟨by show number _ [] ≤ _; simp [number], by simp⟩
  have ha : isAlpha (37 : UInt8) = false := by decide
  simpa [Frame.str, precText, lenText, Frame.size, hfit, ha] using this

theorem head_lit (P : Str) (x : UInt8) (s : Str) : (P ++ x :: s)[P.length]? = some x := by
  rw [getElem?_app]; rfl

theorem head_text (P : Str) (c : Conv) (s : Str) : (P ++ (text c ++ s))[P.length]? = some 37 := by
  rw [getElem?_app]; rfl

theorem countLoop_end (fmt : Str) (pos n : Nat) (h : fmt.length ≤ pos) : countLoop fmt pos n = .ok n := by
  unfold countLoop; rw [if_neg (by omega)]

theorem countLoop_lit (fmt : Str) (pos n : Nat) (x : UInt8) (hx : fmt[pos]? = some x) (h : x ≠ 37) :
    countLoop fmt pos n = countLoop fmt (pos + 1) n := by
  have hlt : pos < fmt.length := by
    rcases Nat.lt_or_ge pos fmt.length with h' | h'
    · exact h'
    · rw [List.getElem?_eq_none h'] at hx; simp at hx
  conv => lhs; unfold countLoop
  rw [if_pos hlt, if_neg (by rw [hx]; simpa using h)]

theorem countLoop_some (fmt : Str) (pos n : Nat) (sp : Specifier) (pos' : Nat) (hx : fmt[pos]? = some 37)
    (h : parse fmt pos = .ok (some sp, pos')) : countLoop fmt pos n = countLoop fmt (pos' + 1) (n + 1) := by
  have hlt : pos < fmt.length := by
    rcases Nat.lt_or_ge pos fmt.length with h' | h'
    · exact h'
    · rw [List.getElem?_eq_none h'] at hx; simp at hx
  conv => lhs; unfold countLoop
  rw [if_pos hlt, if_pos hx]
  split <;> simp_all

theorem countLoop_none (fmt : Str) (pos n : Nat) (pos' : Nat) (hx : fmt[pos]? = some 37)
    (h : parse fmt pos = .ok (none, pos')) : countLoop fmt pos n = countLoop fmt (pos' + 1) n := by
  have hlt : pos < fmt.length := by
    rcases Nat.lt_or_ge pos fmt.length with h' | h'
    · exact h'
    · rw [List.getElem?_eq_none h'] at hx; simp at hx
  conv => lhs; unfold countLoop
  rw [if_pos hlt, if_pos hx]
  split <;> simp_all

theorem countLoop_render (P : Str) (ps : List Piece) (n : Nat) (hw : ∀ p ∈ ps, WFPiece p) (hs : Separated ps)
    (hf : ∀ c ∈ convs ps, FitsActual c) : countLoop (P ++ render ps) P.length n = .ok (n + (convs ps).length) := by
  match ps with
  | [] => rw [countLoop_end _ _ _ (by simp [render])]; rfl
  | .lit x :: ps =>
    have hx : x ≠ 37 := hw (.lit x) (by simp)
    simp only [render]
    rw [countLoop_lit _ _ _ x (head_lit P x _) hx]
    have e : P ++ x :: render ps = (P ++ [x]) ++ render ps := by simp
    have l : P.length + 1 = (P ++ [x]).length := by simp
    rw [e, l]
    exact countLoop_render (P ++ [x]) ps n (fun p hp => hw p (by simp [hp])) hs hf
  | .pct :: ps =>
    simp only [render]
    rw [countLoop_none _ _ _ _ (head_lit P 37 _) (parse_pct P _)]
    have e : P ++ 37 :: 37 :: render ps = (P ++ [37, 37]) ++ render ps := by simp
    have l : P.length + 1 + 1 = (P ++ [37, 37]).length := by simp
    rw [e, l]
    exact countLoop_render (P ++ [37, 37]) ps n (fun p hp => hw p (by simp [hp])) hs hf
  | [.conv c] =>
    have hc : WF c := hw (.conv c) (by simp)
    simp only [render]
    rw [countLoop_some _ _ _ _ _ (head_text P c _) (parse_conv_ok P c [] hc (hf c (by simp [convs])))]
    rw [countLoop_end _ _ _ (by simp)]
    rfl
  | .conv c :: .lit x :: ps =>
    have hc : WF c := hw (.conv c) (by simp)
    have hx : x ≠ 37 := hw (.lit x) (by simp)
    simp only [render]
    rw [countLoop_some _ _ _ _ _ (head_text P c _) (parse_conv_ok P c _ hc (hf c (by simp [convs])))]
    have e : P ++ (text c ++ x :: render ps) = (P ++ (text c ++ [x])) ++ render ps := by simp
    have l : P.length + (text c).length + 1 = (P ++ (text c ++ [x])).length := by simp; omega
    rw [e, l]
    rw [countLoop_render (P ++ (text c ++ [x])) ps (n + 1) (fun p hp => hw p (by simp [hp])) hs
      (fun c hc => hf c (by simp [convs, hc]))]
    simp only [convs, List.length_cons]
    congr 1; omega
termination_by ps.length

/-! ### No undefined behaviour with short digit runs -/


theorem number_lt (b : Nat) (hb : b ≤ 10) (ds : Str) (h : ∀ x ∈ ds, isDigit x = true) (a : Nat) :
    numAcc b a ds < (a + 1) * 10 ^ ds.length := by
  induction ds generalizing a with
  | nil => simp [numAcc]
  | cons d ds ih =>
    have hd := h d (by simp)
    have hd' : d.toNat - 48 ≤ 9 := by
      simp only [isDigit, Bool.and_eq_true, decide_eq_true_eq, UInt8.le_iff_toNat_le] at hd
      have e1 : (57 : UInt8).toNat = 57 := rfl
      omega
    have h1 := ih (fun x hx => h x (by simp [hx])) (a * b + (d.toNat - 48))
    have h2 : a * b + (d.toNat - 48) + 1 ≤ (a + 1) * 10 := by
      have : a * b ≤ a * 10 := Nat.mul_le_mul_left a hb
      omega
    have h3 : (a * b + (d.toNat - 48) + 1) * 10 ^ ds.length ≤ (a + 1) * 10 * 10 ^ ds.length := Nat.mul_le_mul_right _ h2
    simp only [numAcc, List.foldl_cons, List.length_cons] at *
    rw [Nat.pow_succ, Nat.mul_comm (10 ^ ds.length) 10, ← Nat.mul_assoc]
    omega

theorem short_fits (oct : Bool) (ds : Str) (h : ∀ x ∈ ds, isDigit x = true) (hl : ds.length ≤ 9) :
    number (baseOf oct) ds ≤ 2147483647 := by
  have h1 := number_lt (baseOf oct) (by cases oct <;> decide) ds h 0
  have h2 : 10 ^ ds.length ≤ 10 ^ 9 := Nat.pow_le_pow_right (by decide) hl
  rw [number_eq] at h1
  omega

theorem frame_fits_short (P : Str) (f : Frame) (hf : f.Ok) (h : ShortRuns (P ++ 37 :: f.str)) : f.fits := by
  refine ⟨short_fits _ _ hf.ds ?_, ?_⟩
  · exact h (P ++ 37 :: f.fs) f.ds (precText f.prec ++ (lenText f.len ++ f.R)) (by simp [Frame.str]) (isDigit_eq ▸ hf.ds)
  · intro p hp
    refine short_fits _ _ (hf.prec p hp).1 ?_
    exact h (P ++ 37 :: (f.fs ++ (f.ds ++ [46]))) p (lenText f.len ++ f.R) (by simp [Frame.str, precText, hp]) (isDigit_eq ▸ (hf.prec p hp).1)

theorem charAt_pct (fmt : Str) (pos : Nat) (h : fmt[pos]? = some 37) : ∃ P s, fmt = P ++ 37 :: s ∧ P.length = pos := by
  have hlt : pos < fmt.length := by
    rcases Nat.lt_or_ge pos fmt.length with h' | h'
    · exact h'
    · rw [List.getElem?_eq_none h'] at h; simp at h
  refine ⟨fmt.take pos, fmt.drop (pos + 1), ?_, by simp; omega⟩
  rw [List.getElem?_eq_getElem hlt] at h
  simp at h
  rw [← h, List.getElem_cons_drop, List.take_append_drop]

theorem parse_short (fmt : Str) (pos : Nat) (h : fmt[pos]? = some 37) (hr : ShortRuns fmt) :
    ∃ r pos', parse fmt pos = .ok (r, pos') := by
  obtain ⟨P, s, e, hl⟩ := charAt_pct fmt pos h
  obtain ⟨f, hf, es⟩ := frame_exists s
  rw [es] at e
  have hfit := frame_fits_short P f hf (e ▸ hr)
  have := parse_frame P f hf
  rw [← e, hl, if_pos hfit] at this
  split at this
  · exact ⟨_, _, this⟩
  · exact ⟨_, _, this⟩

theorem countLoop_short (fmt : Str) (hr : ShortRuns fmt) (pos n : Nat) : ∃ k, countLoop fmt pos n = .ok k := by
  rcases Nat.lt_or_ge pos fmt.length with hlt | hge
  · by_cases hx : fmt[pos]? = some 37
    · obtain ⟨r, pos', hp⟩ := parse_short fmt pos hx hr
      have hle := parse_le _ _ _ hp
      simp only at hle
      cases r with
      | none =>
        rw [countLoop_none _ _ _ _ hx hp]
        exact countLoop_short fmt hr (pos' + 1) n
      | some sp =>
        rw [countLoop_some _ _ _ _ _ hx hp]
        exact countLoop_short fmt hr (pos' + 1) (n + 1)
    · rw [countLoop_lit _ _ _ fmt[pos] (List.getElem?_eq_getElem hlt) (by
        intro e; rw [List.getElem?_eq_getElem hlt, e] at hx; simp at hx)]
      exact countLoop_short fmt hr (pos + 1) n
  · exact ⟨n, countLoop_end _ _ _ hge⟩
termination_by fmt.length - pos
decreasing_by all_goals omega

/-! ### Collecting -/

theorem collectLoop_end (fmt : Str) (pos id : Nat) (st : List Param) (args : List Arg) (h : fmt.length ≤ pos) :
    collectLoop fmt pos id st args = .ok (0, st) := by
  unfold collectLoop; rw [if_neg (by omega)]

theorem collectLoop_lit (fmt : Str) (pos id : Nat) (st : List Param) (args : List Arg) (x : UInt8) (hx : fmt[pos]? = some x) (h : x ≠ 37) :
    collectLoop fmt pos id st args = collectLoop fmt (pos + 1) id st args := by
  have hlt : pos < fmt.length := by
    rcases Nat.lt_or_ge pos fmt.length with h' | h'
    · exact h'
    · rw [List.getElem?_eq_none h'] at hx; simp at hx
  conv => lhs; unfold collectLoop
  rw [if_pos hlt, if_neg (by rw [hx]; simpa using h)]

theorem collectLoop_some (fmt : Str) (pos id : Nat) (st st' : List Param) (args args' : List Arg) (sp : Specifier) (pos' : Nat)
    (hx : fmt[pos]? = some 37) (h : parse fmt pos = .ok (some sp, pos')) (hst : store st id sp args = .ok (0, st', args')) :
    collectLoop fmt pos id st args = collectLoop fmt (pos' + 1) (id + 1) st' args' := by
  have hlt : pos < fmt.length := by
    rcases Nat.lt_or_ge pos fmt.length with h' | h'
    · exact h'
    · rw [List.getElem?_eq_none h'] at hx; simp at hx
  conv => lhs; unfold collectLoop
  rw [if_pos hlt, if_pos hx]
  split
  · rename_i hp
    rw [h] at hp
    simp only [Outcome.ok.injEq, Prod.mk.injEq, Option.some.injEq] at hp
    obtain ⟨rfl, rfl⟩ := hp
    rw [hst]
    simp
  all_goals (rename_i hp; rw [h] at hp; simp at hp)

theorem put_end (st : List Param) (ty : Ty) (size n : Nat) (a : Arg) (rest : List Arg) (h : n ≤ size) :
    put st st.length ty size n a rest = .ok (0, st ++ [⟨ty, size, some a⟩], rest) := by
  simp [put, h]

theorem process_end (st : List Param) (ty : Ty) (a : Arg) (rest : List Arg) (h : fetches ty a = true) :
    process st st.length ty (a :: rest) = .ok (0, st ++ [⟨ty, sizeOf ty, some a⟩], rest) := by
  unfold process
  rw [if_neg (by omega)]
  simp only [h, if_true]
  exact put_end _ _ _ _ _ _ (Nat.le_refl _)

/-- Buffer size the code uses. -/
def bufSize : Ty → Nat
  | .chars _ => 8
  | ty => sizeOf ty

def ShortStr : Arg → Prop
  | .str (some s) => s.length ≤ 7
  | _ => True

theorem promised_ne_s {c : Conv} {ty : Ty} (h : promised c = some ty) : c.conv ≠ 115 := by
  intro e
  unfold promised at h
  rw [e] at h
  revert h
  simp

theorem store_promised (st : List Param) (c : Conv) (a : Arg) (rest : List Arg) (ty : Ty) (h : promised c = some ty)
    (hf : fetches ty a = true) :
    store st st.length (actual c) (a :: rest) = .ok (0, st ++ [⟨ty, sizeOf ty, some a⟩], rest) := by
  have ht : (actual c).t = c.conv := rfl
  have hl : (actual c).argLen = c.len := rfl
  unfold store
  rw [ht, hl]
  unfold promised at h
  by_cases h1 : c.conv = 100 ∨ c.conv = 105
  · simp only [h1, if_true] at h
    have n1 : c.conv ≠ 115 := by rcases h1 with e | e <;> rw [e] <;> decide
    have n2 : c.conv ≠ 112 := by rcases h1 with e | e <;> rw [e] <;> decide
    have n3 : c.conv ≠ 110 := by rcases h1 with e | e <;> rw [e] <;> decide
    have n4 : c.conv ≠ 99 := by rcases h1 with e | e <;> rw [e] <;> decide
    have h1' : c.conv = 105 ∨ c.conv = 100 := by rcases h1 with e | e <;> simp [e]
    simp only [n1, n2, n3, if_false, h1', if_true, n4, false_or]
    cases hc : c.len <;> rw [hc] at h <;> simp at h <;> subst h <;> simp <;> exact process_end _ _ _ _ hf
  · simp only [h1, if_false] at h
    by_cases h2 : c.conv = 117 ∨ c.conv = 111 ∨ c.conv = 120 ∨ c.conv = 88
    · simp only [h2, if_true] at h
      have n1 : c.conv ≠ 115 := by rcases h2 with e | e | e | e <;> rw [e] <;> decide
      have n2 : c.conv ≠ 112 := by rcases h2 with e | e | e | e <;> rw [e] <;> decide
      have n3 : c.conv ≠ 110 := by rcases h2 with e | e | e | e <;> rw [e] <;> decide
      have n4 : ¬ (c.conv = 99 ∨ c.conv = 105 ∨ c.conv = 100) := by rcases h2 with e | e | e | e <;> rw [e] <;> decide
      have h2' : c.conv = 111 ∨ c.conv = 117 ∨ c.conv = 120 ∨ c.conv = 88 := by rcases h2 with e | e | e | e <;> simp [e]
      simp only [n1, n2, n3, if_false, n4, h2', if_true]
      cases hc : c.len <;> rw [hc] at h <;> simp at h <;> subst h <;> simp <;> exact process_end _ _ _ _ hf
    · simp only [h2, if_false] at h
      by_cases h3 : c.conv = 101 ∨ c.conv = 102 ∨ c.conv = 103
      · simp only [h3, if_true] at h
        have n1 : c.conv ≠ 115 := by rcases h3 with e | e | e <;> rw [e] <;> decide
        have n2 : c.conv ≠ 112 := by rcases h3 with e | e | e <;> rw [e] <;> decide
        have n3 : c.conv ≠ 110 := by rcases h3 with e | e | e <;> rw [e] <;> decide
        have n4 : ¬ (c.conv = 99 ∨ c.conv = 105 ∨ c.conv = 100) := by rcases h3 with e | e | e <;> rw [e] <;> decide
        have n5 : ¬ (c.conv = 111 ∨ c.conv = 117 ∨ c.conv = 120 ∨ c.conv = 88) := by rcases h3 with e | e | e <;> rw [e] <;> decide
        have h3' : c.conv = 102 ∨ c.conv = 103 ∨ c.conv = 101 := by rcases h3 with e | e | e <;> simp [e]
        simp only [n1, n2, n3, if_false, n4, n5, h3', if_true]
        cases hc : c.len <;> rw [hc] at h <;> simp at h <;> subst h <;> simp <;> exact process_end _ _ _ _ hf
      · simp only [h3, if_false] at h
        by_cases h4 : c.conv = 99
        · simp only [h4, if_true] at h ⊢
          split at h
          · simp at h; subst h; simp; exact process_end _ _ _ _ hf
          · simp at h
        · simp only [h4, if_false] at h
          by_cases h5 : c.conv = 112
          · simp only [h5, if_true] at h ⊢
            split at h
            · simp at h; subst h; simp; exact process_end _ _ _ _ hf
            · simp at h
          · simp only [h5, if_false] at h
            by_cases h6 : c.conv = 110
            · simp only [h6, if_true] at h ⊢
              cases hc : c.len <;> rw [hc] at h <;> simp at h <;> subst h <;> simp <;> exact process_end _ _ _ _ hf
            · simp only [h6, if_false] at h; simp at h

theorem fetches_iff (ty : Ty) (a : Arg) : fetches ty a = true ↔ HoldsArg ty a := by
  constructor
  · intro h
    cases ty <;> cases a <;> first | (simp [fetches] at h; done) | constructor
  · intro h
    cases h <;> rfl

theorem store_stores (st : List Param) (c : Conv) (a : Arg) (rest : List Arg) (ty : Ty) (h : Stores c a ty) (hs : ShortStr a) :
    store st st.length (actual c) (a :: rest) = .ok (0, st ++ [⟨ty, bufSize ty, some a⟩], rest) := by
  have ht : (actual c).t = c.conv := rfl
  cases h with
  | plain h1 h2 =>
    rw [store_promised st c a rest ty h1 ((fetches_iff ty a).2 h2)]
    cases ty <;> first | rfl | (cases h2; done)
  | strNull h1 =>
    unfold store
    rw [ht, h1]
    simp only [if_true, processStr]
    exact put_end _ _ _ _ _ _ (by omega)
  | @str s h1 =>
    unfold store
    rw [ht, h1]
    simp only [if_true, processStr]
    exact put_end _ _ _ _ _ _ (by simp only [ShortStr] at hs; omega)

def NoPct (ps : List Piece) : Prop := Piece.pct ∉ ps

theorem collectLoop_render (P : Str) (ps : List Piece) (st : List Param) (args extra : List Arg) (stored : List (Ty × Arg))
    (hw : ∀ p ∈ ps, WFPiece p) (hs : Separated ps) (hn : NoPct ps) (hf : ∀ c ∈ convs ps, FitsActual c)
    (ha : AllStored (convs ps) args stored) (hsh : ∀ a ∈ args, ShortStr a) :
    collectLoop (P ++ render ps) P.length st.length st (args ++ extra) =
      .ok (0, st ++ stored.map (fun x => ⟨x.1, bufSize x.1, some x.2⟩)) := by
  match ps with
  | [] =>
    simp only [convs] at ha
    cases ha
    rw [collectLoop_end _ _ _ _ _ (by simp [render])]
    simp
  | .lit x :: ps =>
    have hx : x ≠ 37 := hw (.lit x) (by simp)
    simp only [render]
    rw [collectLoop_lit _ _ _ _ _ x (head_lit P x _) hx]
    have e : P ++ x :: render ps = (P ++ [x]) ++ render ps := by simp
    have l : P.length + 1 = (P ++ [x]).length := by simp
    rw [e, l]
    exact collectLoop_render (P ++ [x]) ps st args extra stored (fun p hp => hw p (by simp [hp])) hs
      (fun h => hn (by simp [h])) hf ha hsh
  | .pct :: ps => exact absurd (by simp : Piece.pct ∈ Piece.pct :: ps) hn
  | [.conv c] =>
    have hc : WF c := hw (.conv c) (by simp)
    simp only [convs] at ha
    cases ha with
    | @cons _ a ty _ as ps' h1 h2 =>
      cases h2
      simp only [render, List.cons_append, List.nil_append]
      rw [collectLoop_some _ _ _ _ _ _ _ _ _ (head_text P c _) (parse_conv_ok P c [] hc (hf c (by simp [convs])))
        (store_stores st c a extra ty h1 (hsh a (by simp)))]
      rw [collectLoop_end _ _ _ _ _ (by simp)]
      rfl
  | .conv c :: .lit x :: ps =>
    have hc : WF c := hw (.conv c) (by simp)
    have hx : x ≠ 37 := hw (.lit x) (by simp)
    simp only [convs] at ha
    cases ha with
    | @cons _ a ty _ as ps' h1 h2 =>
      simp only [render, List.cons_append]
      rw [collectLoop_some _ _ _ _ _ _ _ _ _ (head_text P c _) (parse_conv_ok P c _ hc (hf c (by simp [convs])))
        (store_stores st c a (as ++ extra) ty h1 (hsh a (by simp)))]
      have e : P ++ (text c ++ x :: render ps) = (P ++ (text c ++ [x])) ++ render ps := by simp
      have l : P.length + (text c).length + 1 = (P ++ (text c ++ [x])).length := by simp; omega
      have l2 : st.length + 1 = (st ++ [(⟨ty, bufSize ty, some a⟩ : Param)]).length := by simp
      rw [e, l, l2]
      rw [collectLoop_render (P ++ (text c ++ [x])) ps _ as extra ps' (fun p hp => hw p (by simp [hp])) hs
        (fun h => hn (by simp [h])) (fun c hc => hf c (by simp [convs, hc])) h2 (fun b hb => hsh b (by simp [hb]))]
      simp
termination_by ps.length

end Verif.Printf
