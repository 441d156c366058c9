import Verif.Alt.Props
/-
C108: concrete programs.
-/
namespace Verif.Alt
open Verif Verif.Entry Verif.Entry.Spec Verif.Value Verif.Value.Spec Verif.ParamStorage Verif.ParamStorage.Spec Verif.Alt.Spec Verif.Handles
open Verif.WrapCall.Spec (text Slot AllFilled)
open Verif.Trace (Event prog types bytes textOf text_shown int_shown prog_lines final0 int_describes types_sane)

/-- The expression `x` of type `int`. -/
def intExpr (n : Nat) : Expr := ⟨.base .int, bytes n, .val .int (bytes n)⟩

theorem int_base : IsBase types 0 .int := ⟨0, [], 4, 6, final0, by simp, int_describes, rfl, by decide⟩

theorem prog_traceable {n : Nat} (hn : n < 10) : Traceable (prog fun x => (x, x)) false (fun _ _ _ => True) [intExpr n] [.bytes 1 (bytes n)] where
  named := types_sane.named
  handled := fun _ h => by cases h
  function := ⟨2, [1], rfl, ⟨2, [], some 0, .here (fun t h => by cases h <;> rename_i h <;> exact absurd h (by simp [prog, types])), .inl rfl⟩,
    .plain (t := 0) ⟨rfl, rfl⟩ (.same (x := intExpr n) int_base rfl rfl) .nil⟩
  addr := fun b => Nat.succ_ne_zero _
  text := (Trace.prog_traceable (fun x => (x, x)) hn).text
  result := (Trace.prog_traceable (fun x => (x, x)) hn).result

/-- The hypotheses of `C108_alt_partial` are met; `f(x)` with `x = 7`. -/
example : ∃ h', traced (prog fun x => (x, x)) false (fun x => .ok [intExpr x]) 7 (Heap.empty fun _ => false) =
      .ok (7, 7, [.line (text "Calling f(7)\n"), .call [.val .int [7, 0, 0, 0]], .line (text "Returned 7 from f(7)\n")], h') ∧ ∀ b, h'.live b = false := by
  obtain ⟨k, e, hk⟩ := C108_alt_partial (prog fun x => (x, x)) false (fun _ _ _ => True) (fun x => .ok [intExpr x]) 7 _ rfl _ rfl _ (prog_traceable (n := 7) (by decide)) (Heap.empty fun _ => false)
    (fun _ h => by cases h) (fun _ => rfl)
  obtain ⟨l, l', h', e', hl, hlines⟩ := hk 7 7
  have hlines' : Trace.Spec.Lines (prog fun x => (x, x)) (fun _ _ _ => True) [.bytes 1 (bytes 7)] true (∀ k, (Heap.empty fun _ => false).fails k = false) (fun w t o => ∃ u, Trace.Spec.ResultText (prog fun x => (x, x)) w 7 u ∧ o = Trace.Spec.after u t) 7 7 l l' := by
    have hmem : (∀ k, (Heap.empty fun _ => false).fails k = false) = True := eq_true fun _ => rfl
    rw [hmem]
    exact hlines
  obtain ⟨rfl, rfl⟩ := prog_lines (by decide) (by decide) hlines'
  exact ⟨h', e.trans e', hl⟩

/-- An argument too many is failure 1, and the call is recorded without it. -/
example (env : WrapCall.Env) (db : Db) (tags : Option (Ref → Option WrapCall.Handler)) (x : Expr) (st : Sto) (h : Heap) : append env false db tags [] 0 [x] st h = .ok (1, st, h) := rfl

/-! ### The cases in which it fails -/

/-- 1: parameter `a` of type 2; 3: `int f(T a)`. -/
def shape (t : Info) (n : String) : Db
  | 1 => { info := .param false (some 2), name := some (text "a") }
  | 2 => { info := t, name := some (text n) }
  | 3 => { info := .subprogram (some 0) [1], name := some (text "f") }
  | _ => { info := .base 4 6, name := some (text "int") }

/-- A program that calls `f`. -/
def with_ (db : Db) (va : Ref → Bool) : Trace.Prog Nat Nat where
  env := { vaList := va, structFn := fun _ => true, narrow := fun d => d.take 4 }
  db := db
  tags := none
  entry := some 3
  args := fun w => .ok ([.val .int (bytes w)], w)
  fn := fun _ x => .ok (0, x)
  text := fun _ _ => .ok none
  resText := fun _ _ => .ok none
  resEntry := some 0
  addrOf := fun b => b + 1000
  resAddr := 500

theorem shape_declares (t : Info) (n : String) (va : Ref → Bool) : WrapCall.Spec.Declares (with_ (shape t n) va).db 3 [1] :=
  ⟨3, [], some 0, .here (fun t h => by cases h <;> rename_i h <;> exact absurd h (by simp [with_, shape])), .inl rfl⟩

theorem shape_base (s : UInt64) (e : Nat) (n : String) : Final (shape (.base s e) n) 2 (some 2) [] :=
  .here fun t h => by cases h <;> rename_i h <;> exact absurd h (by simp [shape])

theorem shape_named (s : UInt64) (e : Nat) (n : String) : Named (shape (.base s e) n) := by
  intro r bs be h hn
  unfold shape at h hn
  split at h <;> first | (simp at h; done) | (simp at hn; done)

/-- `int f(long a)` called as `f(7)`. -/
example (w : Nat) : traced (with_ (shape (.base 8 6) "long int") fun _ => false) false (fun _ => .ok [intExpr 7]) w (Heap.empty fun _ => false) = .ub :=
  C108_narrow_false _ false _ w (intExpr 7) [] rfl 3 1 2 2 [] rfl (shape_declares _ _ _) (fun b => Nat.succ_ne_zero _) ⟨rfl, rfl⟩ .long [] (shape_base _ _ _)
    ⟨8, 6, rfl, by decide, fun _ => rfl, fun _ => rfl⟩ 8 6 rfl (by decide) (by decide) _ (fun _ h => by cases h) fun _ => rfl

/-- `int f(float a)` called as `f(1)`: recorded is not 1.0, whose bytes are 0, 0, 128, 63. -/
example : ∃ v st h', start (with_ (shape (.base 4 5) "float") fun _ => false) false [intExpr 1] (Heap.empty fun _ => false) = .ok (some v, some st, [], h') ∧ views st.items = [.bytes ⟨1, false, false⟩ [1, 0, 0, 0]] :=
  C108_reinterpreted_false _ false (intExpr 1) 3 1 2 rfl (shape_declares _ _ _) (fun b => Nat.succ_ne_zero _) (shape_named _ _ _) ⟨rfl, rfl⟩ .float
    ⟨2, [], 4, 5, shape_base _ _ _, by simp, ⟨4, 5, rfl, by decide, fun _ => rfl, fun _ => rfl⟩, rfl, by decide⟩ (by decide) _ (fun _ h => by cases h) fun _ => rfl

/-- `int f(const int a)` called as `f(7)`. -/
example : ∃ v st h', start (with_ (shape (.qual .const (some 0)) "") fun _ => false) false [intExpr 7] (Heap.empty fun _ => false) = .ok (some v, some st, [], h') ∧ views st.items = [.bytes ⟨1, false, false⟩ [0, 0, 0, 0]] :=
  C108_const_false _ false (intExpr 7) 3 1 2 0 rfl (shape_declares _ _ _) (fun b => Nat.succ_ne_zero _) ⟨rfl, rfl⟩ .int [.const]
    (.step (t := 0) (qs := []) (.qual rfl) (.here fun t h => by cases h <;> rename_i h <;> exact absurd h (by simp [with_, shape]))) (by simp) ⟨4, 6, rfl, by decide, fun _ => rfl, fun _ => rfl⟩ 4 6 rfl (by decide) rfl _ (fun _ h => by cases h) fun _ => rfl

/-- `int f(va_list a)`. -/
example (w : Nat) (ptr : List UInt8) : traced (with_ (shape (.pointer none) "") fun r => r == 1) false (fun _ => .ok [⟨.vaList, ptr, .vaList ptr [.val .int (bytes 7)]⟩]) w (Heap.empty fun _ => false) = .ub :=
  C108_va_list_false _ _ w _ [] rfl 3 1 [] rfl (shape_declares _ _ _) (fun b => Nat.succ_ne_zero _) ⟨⟨_, rfl⟩, rfl⟩ _ (fun _ h => by cases h) fun _ => rfl

/-- `int f(int a)` called as `f(7)`, the third allocation fails. -/
example : ∃ v st h', start (with_ (shape (.base 4 6) "int") fun _ => false) false [intExpr 7] (Heap.empty fun k => decide (k = 2)) = .ok (some v, some st, [], h') ∧ st.items = [] :=
  C108_memory_false _ false (intExpr 7) 3 1 2 rfl (shape_declares _ _ _) (fun b => Nat.succ_ne_zero _) ⟨rfl, rfl⟩ 4
    (WrapCall.byteSize_stored (f := 2) (step_final (env := (with_ (shape (.base 4 6) "int") fun _ => false).env) ⟨rfl, rfl⟩ (shape_base _ _ _)) (.base rfl)) _ (fun _ h => by cases h) fun _ => rfl

end Verif.Alt
