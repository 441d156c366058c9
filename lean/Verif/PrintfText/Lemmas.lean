import Verif.PrintfText.Spec
import Verif.Trace.Text
import Verif.CDecl.Props
import Verif.Handlers.Props
import Verif.PrintfCall.Call
/-
Lemmas for C109.
-/
namespace Verif.PrintfText
open Verif Verif.Entry Verif.Entry.Spec Verif.Value Verif.Value.Spec Verif.ParamStorage Verif.ParamStorage.Spec Verif.PrintfText.Spec
open Verif.ValueString (Text valueString)
open Verif.ValueString.Spec (BaseText Escaped TypeText Shown Object Packed Sane Interned Honest Literal Counted Argument IsArray Target Reply Fresh)
open Verif.PrintString.Spec (Expressible Locale Simple Chars)
open Verif.Printf.Spec (Conv promised)
open Verif.PrintfCall.Spec (passed StringAt width Passes AllPass)
open Verif.WrapCall (Arg)
open Verif.WrapCall.Spec (text Slot AllFilled Filled)
open Verif.Ffi.Spec (Each Bytes)
open Verif.Replay.Spec (Held)
open Verif.Trace.Spec (callText Number)

theorem here_of {db : Db} {r : Ref} (h : nextOf (db r).info = none) (hd : ∀ t, (db r).info ≠ .typedef t ∧ (db r).info ≠ .var t ∧ (db r).info ≠ .param false t) (hm : ∀ m, (db r).info ≠ .member m)
    (hq : ∀ q t, (db r).info ≠ .qual q t) : Final db r (some r) [] := by
  refine .here fun t ha => ?_
  cases ha <;> rename_i h' <;> first | exact absurd h' (hd _).1 | exact absurd h' (hd _).2.1 | exact absurd h' (hd _).2.2 | exact absurd h' (hm _) | exact absurd h' (hq _ _)

/-! ### Types as text -/

theorem typeName_plain (t : Ty) : CDecl.Spec.Plain (typeName t) := by cases t <;> simp [CDecl.Spec.Plain, typeName]

theorem typeName_last (t : Ty) : (typeName t).getLast? ≠ some 32 := by cases t <;> simp [typeName]

theorem cdecl_base {db : Db} {r : Ref} {ty : Ty} (h : Describes db r ty) : CDecl.cdecl db r = .ok (some (typeName ty ++ [32] ++ [37, 115])) := by
  obtain ⟨bs, be, hi, hn, -⟩ := h
  rw [CDecl.no_dep (by rw [CDecl.deps, hi]), CDecl.combine, hi, hn]
  rfl

theorem base_text {db : Db} {r : Ref} {ty : Ty} (h : Describes db r ty) : TypeText db r (typeName ty ++ [32]) := by
  refine ⟨_, cdecl_base h, ?_⟩
  have := CDecl.fmt_one (a := typeName ty ++ [32]) (b := []) (x := []) (args := []) (CDecl.plain_append.2 ⟨typeName_plain ty, by simp [CDecl.Spec.Plain]⟩) CDecl.plain_nil
  simpa using this

theorem cdecl_array {db : Db} {r c : Ref} {ty : Ty} {n : Nat} (hi : (db r).info = .array (some c) n) (h : Describes db c ty) :
    CDecl.cdecl db r = .ok (some (typeName ty ++ [32] ++ [37, 115] ++ ([91] ++ Value.decimalInt n ++ [93]))) := by
  rw [CDecl.one_dep (d := c) (by rw [CDecl.deps, hi]; rfl) (cdecl_base h), CDecl.combine, hi]
  have := CDecl.fmt_one (a := typeName ty ++ [32]) (b := []) (x := [37, 115] ++ ([91] ++ Value.decimalInt n ++ [93])) (args := []) (CDecl.plain_append.2 ⟨typeName_plain ty, by simp [CDecl.Spec.Plain]⟩) CDecl.plain_nil
  simp only [CDecl.typePattern, CDecl.dequeue, CDecl.hole, ge_iff_le, Int.natCast_nonneg, if_true]
  simp only [List.append_nil, List.append_assoc] at this ⊢
  rw [this]
  rfl

theorem array_text {db : Db} {r c : Ref} {ty : Ty} {n : Nat} (hi : (db r).info = .array (some c) n) (h : Describes db c ty) :
    TypeText db r (typeName ty ++ [32] ++ ([91] ++ Value.decimalInt n ++ [93])) := by
  refine ⟨_, cdecl_array hi h, ?_⟩
  have := CDecl.fmt_one (a := typeName ty ++ [32]) (b := [91] ++ Value.decimalInt n ++ [93]) (x := []) (args := []) (CDecl.plain_append.2 ⟨typeName_plain ty, by simp [CDecl.Spec.Plain]⟩)
    (CDecl.plain_append.2 ⟨CDecl.plain_append.2 ⟨by simp [CDecl.Spec.Plain], CDecl.decimalInt_plain _⟩, by simp [CDecl.Spec.Plain]⟩)
  rw [this, List.append_nil]

theorem pointer_text {db : Db} {r c : Ref} {ty : Ty} (hi : (db r).info = .pointer (some c)) (h : Describes db c ty) : TypeText db r (typeName ty ++ [32, 42, 32]) := by
  have e : CDecl.cdecl db r = .ok (some (typeName ty ++ [32, 42, 32] ++ [37, 115])) := by
    rw [CDecl.one_dep (d := c) (by rw [CDecl.deps, hi]; rfl) (cdecl_base h), CDecl.combine, hi]
    have := CDecl.fmt_one (a := typeName ty ++ [32]) (b := []) (x := [42, 32, 37, 115]) (args := []) (CDecl.plain_append.2 ⟨typeName_plain ty, by simp [CDecl.Spec.Plain]⟩) CDecl.plain_nil
    simp only [CDecl.typePattern, CDecl.dequeue]
    simp only [List.append_nil, List.append_assoc] at this ⊢
    rw [this]
    rfl
  refine ⟨_, e, ?_⟩
  have := CDecl.fmt_one (a := typeName ty ++ [32, 42, 32]) (b := []) (x := []) (args := []) (CDecl.plain_append.2 ⟨typeName_plain ty, by simp [CDecl.Spec.Plain]⟩) CDecl.plain_nil
  simpa using this

theorem void_text {db : Db} {r : Ref} (hi : (db r).info = .pointer none) : TypeText db r [118, 111, 105, 100, 32, 42, 32] := by
  have e : CDecl.cdecl db r = .ok (some ([118, 111, 105, 100, 32, 42, 32] ++ [37, 115] ++ [])) := by
    rw [CDecl.no_dep (by rw [CDecl.deps, hi]; rfl), CDecl.combine, hi]
    have := CDecl.fmt_one (a := [118, 111, 105, 100, 32]) (b := []) (x := [42, 32, 37, 115]) (args := []) (by simp [CDecl.Spec.Plain]) CDecl.plain_nil
    simp only [CDecl.typePattern, CDecl.voidPat]
    simp only [List.cons_append, List.nil_append, List.append_nil] at this ⊢
    rw [this]
    rfl
  refine ⟨_, e, ?_⟩
  rw [CDecl.fmt_one (by simp [CDecl.Spec.Plain]) CDecl.plain_nil]
  simp

theorem cut_of {u : Text} (k : Nat) (h : u.getLast? ≠ some 32) : CDecl.Spec.Cut (u ++ List.replicate k 32) u := ⟨⟨k, rfl⟩, h⟩

theorem cut_base (ty : Ty) : CDecl.Spec.Cut (typeName ty ++ [32]) (typeName ty) := cut_of 1 (typeName_last ty)

/-! ### Beginnings -/

theorem digit_head {n : Nat} {s : Text} (h : Decimal n s) : ∃ d : Nat, d < 10 ∧ s.head? = some (UInt8.ofNat (48 + d)) := by
  induction h with
  | @digit d hd => exact ⟨d, hd, rfl⟩
  | more _ _ _ ih =>
    obtain ⟨d, hd, h⟩ := ih
    refine ⟨d, hd, ?_⟩
    rw [List.head?_append, h]
    rfl

theorem digit_ne {d : Nat} (h : d < 10) : UInt8.ofNat (48 + d) ≠ 34 := by
  have : ∀ d : Fin 10, UInt8.ofNat (48 + d.val) ≠ 34 := by decide
  exact this ⟨d, h⟩

theorem int_head {z : Int} {s : Text} (h : ValueString.Spec.IntText z s) : s.head? ≠ some 34 := by
  cases h with
  | nonneg h =>
    obtain ⟨d, hd, e⟩ := digit_head h
    rw [e]
    intro h
    exact digit_ne hd (Option.some.inj h)
  | neg _ _ => simp

theorem base_head {penv : PrintfCall.Env} {env : ValueString.Env} {db : Db} (ht : Types penv env db) {ty : Ty} {n : Nat} {s : Text} (h : BaseText env ty n s) : s.head? ≠ some 34 := by
  cases h with
  | integer _ _ _ h => exact int_head h
  | false => simp
  | true => simp
  | printable _ h => cases h <;> simp
  | other _ h => exact int_head h
  | floating _ => exact ht.floats _ _

/-! ### Strings -/

theorem escaped_exists (s : List UInt8) : ∃ e, Escaped s e := by
  induction s with
  | nil => exact ⟨[], .nil⟩
  | cons c s ih =>
    obtain ⟨e, he⟩ := ih
    by_cases h : ∃ x, Simple x c
    · obtain ⟨x, hx⟩ := h
      exact ⟨_, .escape hx he⟩
    · exact ⟨_, .plain (fun x hx => h ⟨x, hx⟩) he⟩

theorem string_unique {m : Mem} {a : Nat} {s s' : List UInt8} (h : StringAt m a s) (h' : StringAt m a s') : s = s' := by
  have key : ∀ {s s' : List UInt8}, StringAt m a s → StringAt m a s' → s.length ≤ s'.length := by
    intro s s' h h'
    rcases Nat.lt_or_ge s'.length s.length with hl | hl
    · have := h.1 s'.length _ (List.getElem?_eq_getElem hl)
      rw [h'.2] at this
      exact absurd (Option.some.inj this.2).symm this.1
    · exact hl
  have hlen : s.length = s'.length := Nat.le_antisymm (key h h') (key h' h)
  apply List.ext_getElem? 
  intro k
  rcases Nat.lt_or_ge k s.length with hk | hk
  · have h1 := (h.1 k _ (List.getElem?_eq_getElem hk)).2
    have h2 := (h'.1 k _ (List.getElem?_eq_getElem (hlen ▸ hk))).2
    rw [List.getElem?_eq_getElem hk, List.getElem?_eq_getElem (hlen ▸ hk), ← h1, ← h2]
  · rw [List.getElem?_eq_none hk, List.getElem?_eq_none (hlen ▸ hk)]

theorem quoted_head (e : Text) : (quoted e).head? = some 34 := rfl

theorem not_packed {env : ValueString.Env} {db : Db} {v : Value} (h : ∀ u t, (db v.entry).info ≠ .param u t) : ¬ Packed env db v := by
  rintro ⟨u, t, hi, -⟩
  exact h u t hi

theorem array_final {db : Db} {r : Ref} {t : Option Ref} {n : Int} (h : (db r).info = .array t n) : Final db r (some r) [] := by
  refine .here fun t ha => ?_
  cases ha <;> rename_i h' <;> (rw [h] at h'; cases h')

theorem pointer_final {db : Db} {r : Ref} {t : Option Ref} (h : (db r).info = .pointer t) : Final db r (some r) [] := by
  refine .here fun t ha => ?_
  cases ha <;> rename_i h' <;> (rw [h] at h'; cases h')

theorem base_final {db : Db} {r : Ref} {ty : Ty} (h : Describes db r ty) : Final db r (some r) [] := by
  obtain ⟨bs, be, hi, -⟩ := h
  refine .here fun t ha => ?_
  cases ha <;> rename_i h' <;> (rw [hi] at h'; cases h')

/-- An array of characters that holds a string is shown as a literal. -/
theorem chars_shown {env : ValueString.Env} {deep : Bool} {db : Db} {m : Mem} {outer : List Value} {w : Value} {t c : Ref} {qs : List Qual} {s : List UInt8} {e : Text}
    (hi : (db w.entry).info = .array (some t) ((s.length : Int) + 1)) (hf : Final db t (some c) qs) (hc : Describes db c .char) (ha : w.addr ≠ 0) (hne : s ≠ []) (hx : ∀ x ∈ s, Expressible env.pr x)
    (hb : Bytes m w.addr (s ++ [0])) (he : Escaped s e) : Shown env deep db m outer w (quoted e) := by
  obtain ⟨bs, be, hci, hcn, -⟩ := hc
  refine .literal (e := some t) (n := (s.length : Int) + 1) (arr := w) ⟨not_packed (by rw [hi]; intro u t h; cases h), ha, _, _, array_final hi, hi⟩ (.known (by omega)) ⟨s, e, ?_, hne, hb, hx, he, rfl⟩
  exact ⟨ha, _, _, t, c, qs, bs, be, array_final hi, hi, hf, hci, hcn⟩

end Verif.PrintfText
