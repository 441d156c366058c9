import Verif.CDecl.Props
/-
Lemmas: how the declaration text of each kind of type begins and ends.
-/
namespace Verif.CDecl
open Verif Verif.Entry Spec

/-- What is before and after the placeholder, for each kind of type. -/
inductive Form (db : Db) (r : Ref) : Text → Text → Prop where
  | named {n} : (∃ t, (db r).info = .typedef t) ∨ (∃ s e, (db r).info = .base s e) → (db r).name = some n → Form db r (n ++ [32]) []
  | enum {x} : Form db r (101 :: x) []
  | tail {a b} : b ≠ [] → Form db r a b
  | pointer {t a b} : (db r).info = .pointer t → patOf db t = .ok (some (a ++ [37, 115] ++ b)) → Plain a → Plain b → Form db r (a ++ [42, 32]) b
  | qual {q a b} : Form db r (word q ++ [32] ++ a) b
  | qualPointer {q a b} : Form db r (a ++ [42, 32] ++ word q ++ [32]) b
  | struct {k s ms n} : (db r).info = .struct k s ms → (db r).name = some n → Form db r (structWord k ++ [32] ++ n ++ [32]) []
  | structList {k x} : Form db r (structWord k ++ [32, 123] ++ x) []

theorem one_hole_unique {a b a' b' : Text} (h : a ++ [37, 115] ++ b = a' ++ [37, 115] ++ b') (ha : Plain a) (ha' : Plain a') : a = a' ∧ b = b' := by
  induction a generalizing a' with
  | nil =>
    cases a' with
    | nil => simpa using h
    | cons x a' =>
      simp at h
      exact absurd (by rw [← h.1]; simp) ha'
  | cons x a ih =>
    cases a' with
    | nil =>
      simp at h
      exact absurd (by rw [h.1]; simp) ha
    | cons y a' =>
      simp only [List.cons_append, List.cons.injEq] at h
      obtain ⟨rfl, h⟩ := h
      obtain ⟨rfl, rfl⟩ := ih (a' := a') (by simpa using h) (fun hh => ha (.tail _ hh)) (fun hh => ha' (.tail _ hh))
      exact ⟨rfl, rfl⟩

theorem link_pat {db : Db} {r : Ref} (ih : ∀ d, Uses db r d → Result db d) {t : Option Ref} (hu : ∀ d, t = some d → Uses db r d) :
    patOf db t = .ok (outOf (out db) t) := by
  cases t with
  | none => rfl
  | some d =>
    rcases ih d (hu d rfl) with ⟨_, h⟩ | ⟨_, x, h, _⟩
    · simp [patOf, outOf, out, h]
    · simp [patOf, outOf, out, h]

theorem form {db : Db} {r : Ref} (hf : Finite db r) (hs : ∀ d, Mentions db r d → Sound db d) (ht : IsType db r) {s : Text}
    (hc : cdecl db r = .ok (some s)) : ∃ a b, s = a ++ [37, 115] ++ b ∧ Plain a ∧ Plain b ∧ Form db r a b := by
  have hone : OneHole s := by
    rcases result hf hs with ⟨_, h⟩ | ⟨_, t, h, h1, _⟩
    · rw [hc] at h; cases h
    · rw [hc] at h; cases h; exact h1 ht
  have hr := hs r .self
  have ih : ∀ d, Uses db r d → Result db d := fun d u => result (hf.inv u) fun e he => hs e (Mentions.trans (.step .self u) he)
  have h0 : cdecl db r = combine db (db r) ((deps db (db r)).map (out db)) := by
    apply cdecl_out
    intro d hd
    rcases ih d (deps_uses hd) with ⟨_, h⟩ | ⟨_, x, h, _⟩
    · exact ⟨_, h⟩
    · exact ⟨_, h⟩
  -- It is enough to find the text before the placeholder.
  have fin : ∀ a b, s = a ++ [37, 115] ++ b → Plain a → Form db r a b → ∃ a b, s = a ++ [37, 115] ++ b ∧ Plain a ∧ Plain b ∧ Form db r a b := by
    rintro a b rfl ha h
    obtain ⟨a', b', e, ha', hb'⟩ := hone
    obtain ⟨rfl, rfl⟩ := one_hole_unique e ha ha'
    exact ⟨_, _, rfl, ha, hb', h⟩
  rw [hc] at h0
  cases hi : (db r).info with
  | typedef t =>
    obtain ⟨n, hn⟩ := Option.ne_none_iff_exists'.mp (hr.named t (.inr hi))
    rw [deps, hi, combine, hi, hn] at h0
    cases h0
    exact fin (n ++ [32]) [] (by simp [hole]) (by rw [plain_append]; exact ⟨hr.plain n hn, by simp [Plain]⟩) (.named (.inl ⟨t, hi⟩) hn)
  | base z e =>
    obtain ⟨n, hn⟩ := Option.ne_none_iff_exists'.mp (hr.base z e hi)
    rw [deps, hi, combine, hi, hn] at h0
    cases h0
    exact fin (n ++ [32]) [] (by simp [hole]) (by rw [plain_append]; exact ⟨hr.plain n hn, by simp [Plain]⟩) (.named (.inr ⟨z, e, hi⟩) hn)
  | enumeration z e es =>
    rw [deps, hi, combine, hi] at h0
    cases hn : (db r).name with
    | none =>
      rw [hn] at h0
      cases h0
      refine fin ([101, 110, 117, 109, 32, 123] ++ (enumText es none).getD [] ++ [125, 32]) [] (by simp [hole]) ?_ .enum
      rw [plain_append, plain_append]
      exact ⟨⟨by simp [Plain], enumText_plain (val := none) (hr.enumerators z e es hi) plain_nil⟩, by simp [Plain]⟩
    | some n =>
      rw [hn] at h0
      cases h0
      refine fin ([101, 110, 117, 109, 32] ++ n ++ [32]) [] (by simp [hole]) ?_ .enum
      rw [plain_append, plain_append]
      exact ⟨⟨by simp [Plain], hr.plain n hn⟩, by simp [Plain]⟩
  | array t c =>
    have hu : ∀ d, t = some d → Uses db r d := fun d h => .array (by rw [hi, h])
    rw [deps, hi, combine, hi] at h0
    simp only at h0
    rw [show (dep t).map (out db) = (dep t).map (out db) ++ [] by simp, typePattern_map] at h0
    rcases link ih hr hu with ⟨h1, _⟩ | ⟨x, h1, ⟨a, b, rfl, ha, hb⟩, _⟩
    · rw [h1] at h0; cases h0
    · rw [h1] at h0
      simp only at h0
      rw [fmt_one ha hb] at h0
      cases h0
      by_cases h0c : c ≥ 0
      · exact fin a ([91] ++ Value.decimalInt c ++ [93] ++ b) (by rw [if_pos h0c]; simp [hole]) ha (.tail (by simp))
      · exact fin a ([91, 93] ++ b) (by rw [if_neg h0c]; simp [hole]) ha (.tail (by simp))
  | pointer t =>
    have hu : ∀ d, t = some d → Uses db r d := fun d h => .pointer (by rw [hi, h])
    have hp := link_pat ih hu
    rw [deps, hi, combine, hi] at h0
    simp only at h0
    rw [show (dep t).map (out db) = (dep t).map (out db) ++ [] by simp, typePattern_map] at h0
    rcases link ih hr hu with ⟨h1, _⟩ | ⟨x, h1, ⟨a, b, rfl, ha, hb⟩, _⟩
    · rw [h1] at h0; cases h0
    · rw [h1] at h0 hp
      simp only at h0
      rw [fmt_one ha hb] at h0
      cases h0
      refine fin (a ++ [42, 32]) b (by simp) ?_ (.pointer hi hp ha hb)
      rw [plain_append]; exact ⟨ha, by simp [Plain]⟩
  | qual q t =>
    have hu : ∀ d, t = some d → Uses db r d := fun d h => .qual (by rw [hi, h])
    rw [deps, hi, combine, hi] at h0
    simp only at h0
    rw [show (dep t).map (out db) = (dep t).map (out db) ++ [] by simp, typePattern_map] at h0
    obtain ⟨hw, pw⟩ := qual_word q
    rcases link ih hr hu with ⟨h1, _⟩ | ⟨x, h1, ⟨a, b, rfl, ha, hb⟩, _⟩
    · rw [h1] at h0; cases h0
    · rw [h1] at h0
      simp only at h0
      rw [hw, fmt_one ha hb, fmt_one pw plain_nil] at h0
      have h4 : s = word q ++ [32] ++ (a ++ [37, 115] ++ b) ++ [] → ∃ a b, s = a ++ [37, 115] ++ b ∧ Plain a ∧ Plain b ∧ Form db r a b := by
        intro e
        refine fin (word q ++ [32] ++ a) b (by rw [e]; simp) ?_ .qual
        rw [plain_append]; exact ⟨pw, ha⟩
      cases t with
      | none => cases h0; exact h4 rfl
      | some d =>
        simp only at h0
        split at h0
        · rename_i t' hd
          cases h0
          -- the type is a pointer: its own text ends in a star
          have hu' : ∀ e, t' = some e → Uses db d e := fun e h => .pointer (by rw [hd, h])
          have hud := hu d rfl
          have hsd : ∀ e, Mentions db d e → Sound db e := fun e he => hs e (Mentions.trans (.step .self hud) he)
          have hfd : Finite db d := hf.inv hud
          have ihd : ∀ e, Uses db d e → Result db e := fun e u => result (hfd.inv u) fun x hx => hsd x (Mentions.trans (.step .self u) hx)
          have h0d : cdecl db d = combine db (db d) ((deps db (db d)).map (out db)) := by
            apply cdecl_out
            intro e he
            rcases ihd e (deps_uses he) with ⟨_, h⟩ | ⟨_, x, h, _⟩
            · exact ⟨_, h⟩
            · exact ⟨_, h⟩
          rw [deps, hd, combine, hd] at h0d
          simp only at h0d
          rw [show (dep t').map (out db) = (dep t').map (out db) ++ [] by simp, typePattern_map] at h0d
          have hod : out db d = some (a ++ [37, 115] ++ b) := h1
          rcases link ihd (hsd d .self) hu' with ⟨h1', _⟩ | ⟨x, h1', ⟨a', b', rfl, ha', hb'⟩, _⟩
          · rw [h1'] at h0d
            simp only at h0d
            rw [out, h0d] at hod; cases hod
          · rw [h1'] at h0d
            simp only at h0d
            rw [fmt_one ha' hb'] at h0d
            rw [out, h0d] at hod
            have e : a' ++ [42, 32] ++ [37, 115] ++ b' = a ++ [37, 115] ++ b := by simpa using hod
            obtain ⟨rfl, rfl⟩ := one_hole_unique e (by rw [plain_append]; exact ⟨ha', by simp [Plain]⟩) ha
            refine fin (a' ++ [42, 32] ++ word q ++ [32]) b' (by simp) ?_ .qualPointer
            rw [List.append_assoc (a' ++ [42, 32]), plain_append]
            exact ⟨ha, pw⟩
        · cases h0; exact h4 rfl
  | struct k z ms =>
    by_cases hk : k = .class
    · subst hk
      rw [deps, hi, combine, hi] at h0
      cases h0
    · have hw : Plain (structWord k) := by cases k <;> simp [structWord, Plain]
      have hc1 : Outcome.ok (some s) = match (db r).name with
          | some n => .ok (some (structWord k ++ [32] ++ n ++ [32] ++ hole))
          | none => do
            match ← fieldsText db ms ((ms.flatMap fun r => dep (memberType db r)).map (out db)) none with
            | none => return none
            | some res => return some (structWord k ++ [32, 123] ++ res.getD [] ++ [125, 32] ++ hole) := by
        rw [h0, deps, hi, combine, hi]
        cases k
        · cases hn : (db r).name <;> rfl
        · cases hn : (db r).name <;> rfl
        · exact absurd rfl hk
      cases hn : (db r).name with
      | some n =>
        rw [hn] at hc1
        cases hc1
        refine fin (structWord k ++ [32] ++ n ++ [32]) [] (by simp [hole]) ?_ (.struct hi hn)
        simp only [plain_append]
        exact ⟨⟨⟨hw, by simp [Plain]⟩, hr.plain n hn⟩, by simp [Plain]⟩
      | none =>
        rw [hn] at hc1
        simp only at hc1
        have hmt : ∀ m ∈ ms, ∀ t, memberType db m = some t → Uses db r t := by
          intro m hm t ht
          unfold memberType at ht
          split at ht
          · next i h => exact .field hi hn hm h ht
          · cases ht
        rcases fieldsText_ok (db := db) (o := out db) (ms := ms) (res := none) (fun m hm => (hr.fields k z ms hi m hm).2)
          (fun m hm t ht => out_good (ih t (hmt m hm t ht)) (hr.links t (hmt m hm t ht))) plain_nil with
          ⟨_, h3⟩ | ⟨h1, x, h2, h3⟩
        · rw [h3] at hc1
          cases hc1
        · rw [h2] at hc1
          cases hc1
          refine fin (structWord k ++ [32, 123] ++ (x.getD [] ++ [125, 32])) [] (by simp [hole]) ?_ .structList
          simp only [plain_append]
          exact ⟨⟨hw, by simp [Plain]⟩, h3, by simp [Plain]⟩
  | subroutine t ps =>
    have hu : ∀ d, t = some d → Uses db r d := fun d h => .result (.inr (by rw [hi, h]))
    have hpt : ∀ p ∈ ps, ∀ t, paramType db p = some t → Uses db r t := by
      intro p hp t' ht
      unfold paramType at ht
      split at ht
      · next i h => exact .param (.inr hi) hp (by rw [h, ht])
      · cases ht
    rw [deps, hi, combine, hi] at h0
    simp only at h0
    rw [List.map_append, typePattern_map] at h0
    rcases link ih hr hu with ⟨h1, _⟩ | ⟨x, h1, ⟨a, b, rfl, ha, hb⟩, _⟩
    · rw [h1] at h0; cases h0
    · rw [h1] at h0
      simp only at h0
      rcases paramsText_ok (db := db) (o := out db) (fn := true) (acc := none) (hr.params t ps (.inr hi))
          (fun m hm t ht => out_good (ih t (hpt m hm t ht)) (hr.links t (hpt m hm t ht))) plain_nil with
          ⟨_, h4⟩ | ⟨h3, h4, x, h5, h6⟩
      · rw [h4] at h0
        cases h0
      · rw [h5] at h0
        simp only [Outcome.bind_ok, hole] at h0
        rw [show a ++ [37, 115] ++ b ++ [40] ++ [37, 115] ++ [41] = a ++ [37, 115] ++ (b ++ [40]) ++ [37, 115] ++ [41] by simp,
          fmt_two ha (by rw [plain_append]; exact ⟨hb, by simp [Plain]⟩) (by simp [Plain])] at h0
        cases h0
        refine fin (a ++ [40]) ([41] ++ b ++ [40] ++ x.getD [] ++ [41]) (by simp) ?_ (.tail (by simp))
        rw [plain_append]; exact ⟨ha, by simp [Plain]⟩
  | reference v s t => rw [combine, hi] at h0; cases h0
  | unspecifiedType => rw [combine, hi] at h0; cases h0
  | _ => simp [IsType, hi] at ht

/-- `va_list `. -/
def vaName : Text := [118, 97, 95, 108, 105, 115, 116, 32]
/-- `struct __va_list_tag `. -/
def vaTag : Text := [115, 116, 114, 117, 99, 116, 32, 95, 95, 118, 97, 95, 108, 105, 115, 116, 95, 116, 97, 103, 32]

theorem form_name {db : Db} {r : Ref} {b : Text} (h : Form db r vaName b) (hb : b = []) :
    ((∃ t, (db r).info = .typedef t) ∨ ∃ s e, (db r).info = .base s e) ∧ (db r).name = some vaName.dropLast := by
  generalize hA : vaName = A at h
  have star : (42 : UInt8) ∉ A := by rw [← hA]; decide
  cases h with
  | named hi hn =>
    refine ⟨hi, ?_⟩
    rw [hn, List.dropLast_concat]
  | enum => simp [vaName] at hA
  | tail h => exact absurd hb h
  | pointer => simp at star
  | @qual q => cases q <;> simp [word, vaName] at hA
  | qualPointer => simp at star
  | @struct k => cases k <;> simp [structWord, vaName] at hA
  | @structList k => cases k <;> simp [structWord, vaName] at hA

theorem form_tag {db : Db} {r : Ref} {b : Text} (h : Form db r vaTag b) (hb : b = []) :
    (((∃ t, (db r).info = .typedef t) ∨ ∃ s e, (db r).info = .base s e) ∧ (db r).name = some vaTag.dropLast) ∨
      ∃ s ms, (db r).info = .struct .struct s ms ∧ (db r).name = some (vaTag.dropLast.drop 7) := by
  generalize hA : vaTag = A at h
  have star : (42 : UInt8) ∉ A := by rw [← hA]; decide
  cases h with
  | named hi hn => exact .inl ⟨hi, by rw [hn, List.dropLast_concat]⟩
  | enum => simp [vaTag] at hA
  | tail h => exact absurd hb h
  | pointer => simp at star
  | @qual q => cases q <;> simp [word, vaTag] at hA
  | qualPointer => simp at star
  | @struct k _ _ n hi hn =>
    right
    cases k with
    | struct =>
      refine ⟨_, _, hi, ?_⟩
      rw [hn, List.dropLast_concat]
      rfl
    | union => simp [structWord, vaTag] at hA
    | «class» => simp [structWord, vaTag] at hA
  | @structList k => cases k <;> simp [structWord, vaTag] at hA

theorem form_pointer {db : Db} {r : Ref} {b : Text} (h : Form db r (vaTag ++ [42, 32]) b) (hb : b = [])
    (hn : ∀ n, (db r).name = some n → (42 : UInt8) ∉ n) :
    ∃ d, (db r).info = .pointer (some d) ∧ cdecl db d = .ok (some (vaTag ++ [37, 115])) := by
  generalize hA : vaTag ++ [42, 32] = A at h
  cases h with
  | @named n hi h =>
    have : (42 : UInt8) ∈ n ++ [32] := by rw [← hA]; decide
    simp at this
    exact absurd this (hn n h)
  | enum => simp [vaTag] at hA
  | tail h => exact absurd hb h
  | @pointer t a _ hi hp _ _ =>
    have : vaTag = a := List.append_cancel_right hA
    subst this hb
    cases t with
    | none =>
      simp only [patOf, voidPat] at hp
      cases hp
    | some d => exact ⟨d, hi, by simpa [patOf] using hp⟩
  | @qual q => cases q <;> simp [word, vaTag] at hA
  | @qualPointer q a =>
    have := congrArg (fun l => l.reverse.take 3) hA
    cases q <;> simp [word, vaTag] at this
  | @struct k _ _ n hi h =>
    have : (42 : UInt8) ∈ structWord k ++ [32] ++ n ++ [32] := by rw [← hA]; decide
    have h42 : (42 : UInt8) ∉ structWord k := by cases k <;> decide
    simp [h42] at this
    exact absurd this (hn n h)
  | @structList k => cases k <;> simp [structWord, vaTag] at hA

end Verif.CDecl
