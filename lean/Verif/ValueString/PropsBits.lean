import Verif.ValueString.Props
import Verif.Deep.Equal
/-
C60 for all that an object of a base type can hold, bit-fields too.
-/
namespace Verif.ValueString
open Verif Verif.Entry Verif.Entry.Spec Verif.Value Verif.Value.Spec Verif.Handlers Verif.PrintString Verif.PrintString.Spec Verif.ValueString.Spec
open Verif.Deep.Spec (Content Leaf)

/-- **C60**, partial: the text of any number an object holds, also in a bit-field, is that of the number (`BaseText`).
Missing: the characters `'` and `\` (`C60_char_false`), bit-fields that are not read right (C26). -/
theorem C60_content_partial (env : Env) (db : Db) (hn : Named db) (hp : Locale env.pr) (m : Mem) (v : Value) (c : Leaf) (h : Content env.cfg db m v c) (t : Ty) (ht : c.type = some t)
    (hq : c ≠ .num .char 39 ∧ c ≠ .num .char 92) :
    ∃ n s, (c = .num t (intOf t n) ∨ c = .real t n) ∧ baseTypeString env db m v = .ok (some s) ∧ BaseText env t n s := by
  obtain ⟨x, qs, n, hf, hd, hg, hu, hgot⟩ := Deep.content_get hn h ht
  have hlt : Integral t → n < 256 ^ Value.Spec.sizeOf t := fun hi => by
    cases hgot with
    | num _ hlt => exact hlt
    | real hr => exact absurd hi hr
  have hc : c = .num t (intOf t n) ∨ c = .real t n := by cases hgot <;> simp
  have hqn : t = .char → n ≠ 39 ∧ n ≠ 92 := by
    rintro rfl
    constructor
    · rintro rfl
      cases hgot with
      | num => exact hq.1 rfl
      | real hr => exact hr trivial
    · rintro rfl
      cases hgot with
      | num => exact hq.2 rfl
      | real hr => exact hr trivial
  obtain ⟨s, e, hb⟩ := tyText_base hp hlt hu hqn
  exact ⟨n, s, hc, by rw [baseTypeString, stringLoop_hit hn hf hd hg stringOrder (string_order t), e], hb⟩

/-- **C60**, partial: a bit-field of an integer type (not `char` and `_Bool`) is printed as the number its bits mean, in decimal. -/
theorem C60_bitfield_partial (env : Env) (db : Db) (hn : Named db) (hp : Locale env.pr) (m : Mem) (v : Value) (t : Ty) (be base bit size : Nat) (qs : List Qual) (c : Nat)
    (h : BitObject db m v t be base bit size qs) (h30 : size ≤ 30) (hw : bit % 8 + size ≤ 8 * Value.Spec.sizeOf t) (hf : Bitfield.Spec.Field m (8 * base + bit) size c)
    (hiso : env.cfg.iso = true → signedTy t be = true → c < 2 ^ (size - 1)) (h1 : t ≠ .char) (h2 : t ≠ .bool) :
    ∃ s, baseTypeString env db m v = .ok (some s) ∧ IntText (Bitfield.Spec.meaning (signedTy t be) size c) s := by
  obtain ⟨n, s, hc, e, hb⟩ := C60_content_partial env db hn hp m v _ (.bits h h30 hw hf hiso (fun x => absurd x h2) (fun x => absurd x h1)) t rfl
    ⟨fun x => by injection x with x; exact h1 x, fun x => by injection x with x; exact h1 x⟩
  have hi := h.integral
  rcases hc with hc | hc
  · injection hc with _ hc
    refine ⟨s, e, ?_⟩
    rw [hc]
    cases hb with
    | integer _ _ _ h => exact h
    | false => exact absurd rfl h2
    | true => exact absurd rfl h2
    | printable => exact absurd rfl h1
    | other => exact absurd rfl h1
    | floating h => exact absurd hi h
  · cases hc

/-- **C60**, partial: a number is printed as that number, by the recursive printer too, in whichever mode. -/
theorem C60_printed_partial (env : Env) (deep : Bool) (db : Db) (hs : Sane db) (hin : Interned env db) (hh : Honest env db) (hp : Locale env.pr) (m : Mem) (v : Value) (s : UInt64) (e : Nat)
    (ho : Object env db v (.base s e)) (c : Leaf) (h : Content env.cfg db m v c) (t : Ty) (ht : c.type = some t) (hq : c ≠ .num .char 39 ∧ c ≠ .num .char 92) :
    ∃ n u, (c = .num t (intOf t n) ∨ c = .real t n) ∧ valueString env deep db m (some v) = .ok (some u) ∧ BaseText env t n u := by
  obtain ⟨n, u, hc, hb, ht⟩ := C60_content_partial env db hs.named hp m v c h t ht hq
  exact ⟨n, u, hc, (C43_shown env deep db hs hin hh hp m v u).2 (.base ho hb), ht⟩

/-- A field of five bits, all set, of type `int`, is printed as `-1`. -/
example : ∃ s, baseTypeString demoEnv Value.exDb (Value.exMem fun _ => 0xFF) ⟨5, 8⟩ = .ok (some s) ∧ IntText (-1) s := by
  refine C60_bitfield_partial demoEnv Value.exDb Value.exNamed demo_locale _ _ _ _ _ _ _ _ 31 (Value.exBitB _) (by decide) (by decide) ⟨by decide, ?_⟩ (by decide) (by decide) (by decide)
  intro i hi
  obtain rfl | rfl | rfl | rfl | rfl : i = 0 ∨ i = 1 ∨ i = 2 ∨ i = 3 ∨ i = 4 := by omega
  all_goals rfl

end Verif.ValueString
