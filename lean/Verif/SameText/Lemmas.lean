import Verif.SameText.Spec
import Verif.Lifecycle.Print
/-
Values that agree are printed as the same text.
-/
namespace Verif.SameText
open Verif Verif.Entry Verif.Entry.Spec Verif.Value Verif.Value.Spec Verif.Handlers Verif.ValueString.Spec Verif.PrintString.Spec Verif.Deep.Spec Verif.SameText.Spec
open Verif.Deep (Node Map typed_unique)
open Verif.ValueString (tyText baseTypeString stringLoop_hit string_order stringOrder request_iff isArray_unique)
open Verif.Lifecycle (reply_unique node_cases struct_kids union_kids array_kids pointer_node target_same counted_same tyText_real wrapped_copy)

variable {env : Deep.Env} {mode : Deep.Mode} {db : Db} {m : Mem} {M₁ M₂ : Map}

theorem kid_tree {o : List Value} {x k : Node} (h : Tree env mode db m o x) (hk : k ∈ x.kids) : Tree env mode db m (x.val :: o) k := by
  cases h with
  | leaf => cases hk
  | parts _ _ _ hks => exact hks _ hk
  | target _ h => simp only [Node.kids, List.mem_singleton] at hk; subst hk; exact h
  | args _ _ hks => exact hks _ hk

theorem tree_nonnull {o : List Value} {x : Node} (h : Tree env mode db m o x)
    (hc : ¬ Packed env.vs db x.val ∧ (∀ t ps, ¬ Typed db x.val (.subprogram t ps)) ∧ ∀ t ps, ¬ Typed db x.val (.subroutine t ps)) : x.val.addr ≠ 0 := by
  rcases node_cases h hc with ⟨n, _, _, _, h⟩ | ⟨n, _, _, h⟩ | ⟨n, k, _, _, h⟩
  · generalize x.loop = l at h
    cases h with
    | base h => exact h.2.1
    | enumeration h => exact h.2.1
    | null h => exact h.2.1
    | loop h => exact h.2.1
    | unknown h => exact h.2.1
  · generalize x.kids.map Node.val = vs at h
    cases h with
    | struct h => exact h.2.1
    | union h => exact h.2.1
    | unionMember h => exact h.2.1
    | array h => exact h.2.1
    | noElements h => exact h.2.1
  · cases h with
    | target h => exact h.2.1

theorem related_array {v w : Value} (h : Related db v w) {e : Option Ref} {n : Int} (hv : IsArray db v e n) (h0 : w.addr ≠ 0) :
    ∃ n', IsArray db w e n' ∧ (n = n' ∨ n ≠ -1 ∧ n' ≠ -1) := by
  rcases h with h | ⟨e', k, k', h1, h2, h3, h4⟩
  · exact ⟨n, ⟨h0, by rw [← h]; exact hv.2⟩, .inl rfl⟩
  · obtain ⟨rfl, rfl⟩ := isArray_unique hv h1
    exact ⟨k', h2, .inr ⟨h3, h4⟩⟩

theorem related_entry {v w : Value} (h : Related db v w) {i : Info} (hv : Typed db v i) (hn : ∀ e n, i ≠ .array e n) : v.entry = w.entry := by
  rcases h with h | ⟨e', k, k', h1, _⟩
  · exact h
  · exact absurd (typed_unique hv h1.2) (hn _ _)

/-- Numbers that agree have the same text. -/
theorem base_alike (hs : Sane db) (D : Data env mode db M₁ M₂) {v w : Value} {c d : Leaf} {s : UInt64} {e : Nat} (hv : Typed db v (.base s e))
    (hc : Content env.cfg db m v c) (hd : Content env.cfg db m w d) (hcd : SameLeaf env.cfg c d) {t : ValueString.Text}
    (hb : baseTypeString env.vs db m v = .ok (some t)) : baseTypeString env.vs db m w = .ok (some t) := by
  have key : ∃ ty, c.type = some ty := by
    cases hct : c.type with
    | some ty => exact ⟨ty, rfl⟩
    | none =>
      obtain ⟨_, _, _, h2⟩ := (Deep.content_type hc).2 hct
      have := typed_unique hv h2
      cases this
  obtain ⟨ty, hty⟩ := key
  have hty' : d.type = some ty := by
    cases c <;> cases d <;> simp only [SameLeaf] at hcd <;> simp only [Leaf.type] at hty ⊢
    · rw [← hcd.1]; exact hty
    · rw [← hcd.1]; exact hty
    · cases hty
  obtain ⟨f, qs, n, hf, hdf, hg, hu, hgot⟩ := Deep.content_get hs.named hc hty
  obtain ⟨f', qs', n', hf', hdf', hg', hu', hgot'⟩ := Deep.content_get hs.named hd hty'
  rw [baseTypeString, stringLoop_hit hs.named hf hdf hg stringOrder (string_order ty)] at hb
  rw [baseTypeString, stringLoop_hit hs.named hf' hdf' hg' stringOrder (string_order ty)]
  cases hgot with
  | num hint hlt =>
    cases hgot' with
    | num _ hlt' =>
      have : n' = n := (Deep.intOf_inj hlt hlt' hcd.2).symm
      rw [this]
      exact hb
    | real => cases hcd
  | real hr =>
    cases hgot' with
    | num => cases hcd
    | real _ =>
      rw [tyText_real hr] at hb ⊢
      rw [show env.vs.flt ty n' = env.vs.flt ty n from (D.reals _ _ _ hcd.2).symm]
      exact hb

/-- Enumerations that agree have the same text. -/
theorem enum_alike {v w : Value} (he : v.entry = w.entry) {c d : Leaf} {s : UInt64} {e : Nat} {es} (hv : Typed db v (.enumeration s e es))
    (hc : Content env.cfg db m v c) (hd : Content env.cfg db m w d) (hcd : SameLeaf env.cfg c d) {t : ValueString.Text}
    (hb : enumerationString db m (some v) = .ok (some t)) : enumerationString db m (some w) = .ok (some t) := by
  have key : c.type = none := by
    cases hct : c.type with
    | none => rfl
    | some ty =>
      obtain ⟨_, _, h2⟩ := (Deep.content_type hc).1 ty hct
      have := typed_unique hv h2
      cases this
  cases c with
  | num => cases key
  | real => cases key
  | enumeration i =>
    cases d with
    | num => cases hcd
    | real => cases hcd
    | enumeration j =>
      have hij : i = j := hcd
      subst hij
      simp only [enumerationString, Deep.content_enum hc, Deep.content_enum hd, he] at hb ⊢
      exact hb

/-- Characters that agree are the same byte. -/
theorem char_alike (hs : Sane db) {v w : Value} (he : v.entry = w.entry) (hb : ¬ IsBitfield db v.entry) {f : Ref} {qs : List Qual} {bs : UInt64} {be : Nat}
    (h1 : Final db v.entry (some f) qs) (h2 : (db f).info = .base bs be) (h3 : (db f).name = some [99, 104, 97, 114]) {c d : Leaf}
    (hc : Content env.cfg db m v c) (hd : Content env.cfg db m w d) (hcd : SameLeaf env.cfg c d) : m v.addr = m w.addr ∧ m v.addr ≠ none := by
  have obj : ∀ {u : Value} {c : Leaf}, v.entry = u.entry → Content env.cfg db m u c → ∃ n, c = .num .char (intOf .char n) ∧ n < 256 ∧ m u.addr = some (UInt8.ofNat (n % 256)) := by
    intro u c he hu
    have ty : ∀ {t n}, Value.Object db m u t n → t = .char := by
      intro t n ho
      obtain ⟨f', qs', g1, bs', be', g2, g3, _⟩ := ho.type
      rw [← he] at g1
      have := final_unique h1 g1
      cases this
      rw [h3] at g3
      cases t <;> first | rfl | simp [typeName] at g3
    cases hu with
    | integer ho hi =>
      have := ty ho
      subst this
      have hh := ho.content
      refine ⟨_, rfl, by simpa [Value.Spec.sizeOf] using hh.1, ?_⟩
      have := hh.2 0 (by decide)
      simpa using this
    | real ho hi =>
      have := ty ho
      subst this
      exact absurd trivial hi
    | bits ho => exact absurd (he ▸ DeepCopy.bit_plain ho) hb
    | enumeration g1 g2 =>
      rw [← he] at g1
      have := final_unique h1 g1
      cases this
      rw [h2] at g2
      cases g2
  obtain ⟨n, rfl, hn, h4⟩ := obj rfl hc
  obtain ⟨n', rfl, hn', h5⟩ := obj he hd
  have : n = n' := Deep.intOf_inj (t := .char) (by simpa [Value.Spec.sizeOf] using hn) (by simpa [Value.Spec.sizeOf] using hn') hcd.2
  subst this
  rw [h4, h5]
  simp

end Verif.SameText
