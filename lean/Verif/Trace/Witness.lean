import Verif.Trace.Props
import Verif.Trace.Text
/-
C106 and C107: traced calls of a concrete program, and the cases in which the properties fail.
-/
namespace Verif.Trace
open Verif Verif.Entry Verif.Entry.Spec Verif.Value Verif.Value.Spec Verif.ParamStorage Verif.ParamStorage.Spec Verif.Trace.Spec Verif.Handles
open Verif.ValueString (valueString)
open Verif.ValueString.Spec (Shown BaseText Sane Interned Honest Packed)
open Verif.PrintString.Spec (Locale)
open Verif.WrapCall.Spec (text Slot AllFilled Filled Call Takes Carries)
open Verif.Ffi.Spec (Each Bytes)
open Verif.Replay.Spec (Held)

/-! ### Variable arguments that are not there -/

/-- **C107** is FALSE for a call of a function with `...` if there are no variable arguments, as in `log("started")`: whatever else is recorded, the call has no text,
so that METAC_WRAP_FN_RES and METAC_WRAP_FN_NORES print nothing for it. -/
theorem C107_no_dots_false (env : ValueString.Env) (deep : Bool) (db : Db) (hs : Sane db) (hin : Interned env db) (hh : Honest env db) (hp : Locale env.pr) (m : Mem) (v : Value) (r : Option Ref) (ps : List Ref)
    (hf : (db v.entry).info = .subprogram r ps) (hv : v.addr ≠ 0) (F : Ref → List WrapCall.Arg → List View → Prop) (slots : List Slot) (xs : List View) (hfill : AllFilled F slots xs)
    (hheld : Each (Held env.toEnv m) xs (env.params v.addr)) (p : Ref) (as : List WrapCall.Arg) (hp1 : Slot.rest p as ∈ slots) (hd : WrapCall.Spec.Dots db p)
    (hF : ∀ vs, F p as vs → vs = []) (t : Text) :
    valueString env deep db m (some v) ≠ .ok (some t) := by
  intro ht
  obtain ⟨n, us, -, he, -⟩ := C107_tells env deep db hs hin hh hp m v r ps hf hv F slots xs hfill hheld t ht
  have key : ∃ u, Tells env deep db m F v (.rest p as) u := by
    clear hfill ht
    induction he with
    | nil => simp at hp1
    | cons h1 _ ih =>
      rcases List.mem_cons.1 hp1 with rfl | hp1
      · exact ⟨_, h1⟩
      · exact ih hp1
  obtain ⟨u, hu⟩ := key
  cases hu with
  | @rest p as vs w u hwe hvs heach hsh =>
    cases hF vs hvs
    obtain ⟨ty, hd⟩ := hd
    have hpk : Packed env db w := ⟨_, _, by rw [hwe]; exact hd, .inl rfl⟩
    generalize hl : env.params w.addr = l at heach
    cases heach
    cases hsh with
    | arguments _ hw => simp_all
    | vaList _ hw => simp_all
    | call ho => exact ho.1 hpk
    | base ho _ => exact ho.1 hpk
    | enumeration ho _ => exact ho.1 hpk
    | null ho _ => exact ho.1 hpk
    | address _ ho _ _ => exact ho.1 hpk
    | void _ ho _ _ _ _ => exact ho.1 hpk
    | target _ ho => exact ho.1 hpk
    | string _ ho => exact ho.1 hpk
    | struct ho => exact ho.1 hpk
    | union ho => exact ho.1 hpk
    | unionMember ho => exact ho.1 hpk
    | skipped ho => exact ho.1 hpk
    | literal ho => exact ho.1 hpk
    | array ho => exact ho.1 hpk
    | callPointer ho => exact ho.1 hpk

/-! ### A program -/

/-- `int f(int a); int g(int a, ...);`, from 10 on the descriptions of new arrays. -/
def types : Db
  | 0 => { info := .base 4 6, name := some (text "int") }
  | 1 => { info := .param false (some 0), name := some (text "a") }
  | 2 => { info := .subprogram (some 0) [1], name := some (text "f") }
  | 3 => { info := .param true none }
  | 4 => { info := .subprogram (some 0) [1, 3], name := some (text "g") }
  | 5 | 6 | 7 | 8 => { info := .pointer none }
  | 9 => { info := .pointer none }
  | n + 10 => { info := .array (if n / 3 = 0 then none else some (n / 3 - 1)) ((n % 3 : Nat) - 1) }

/-- The recorded call is at 100, its arguments at 200 and (as a storage of their own) at 201. -/
def tenv (ps : List Value) : ValueString.Env where
  vaList := fun _ => false
  params := fun a => if a = 100 then ps else []
  cfg := exCfg false
  pr := fun c => decide (32 ≤ c ∧ c < 127)
  flt := fun _ _ => [46]
  ptr := fun _ => [48, 120, 49]
  tags := none
  dyn := ValueString.demoDyn

theorem types_interned (ps : List Value) : Interned (tenv ps) types := by
  intro t c hc
  have e : ∀ k j : Nat, j < 3 → (3 * k + j) / 3 = k ∧ (3 * k + j) % 3 = j := by omega
  cases t with
  | none => rcases hc with rfl | rfl | rfl <;> rfl
  | some r =>
    show types (3 * (r + 1) + (c + 1).toNat + 10) = _
    have h : (c + 1).toNat < 3 := by omega
    rw [show types (3 * (r + 1) + (c + 1).toNat + 10) = { info := .array (if (3 * (r + 1) + (c + 1).toNat) / 3 = 0 then none else some ((3 * (r + 1) + (c + 1).toNat) / 3 - 1)) (((3 * (r + 1) + (c + 1).toNat) % 3 : Nat) - 1) } from rfl]
    rw [(e (r + 1) _ h).1, (e (r + 1) _ h).2, if_neg (Nat.succ_ne_zero _), show (((c + 1).toNat : Nat) : Int) - 1 = c by omega]
    rfl

theorem types_down : ∀ r t, nextOf (types r).info = some t → t < r := by
  intro r t h
  unfold types at h
  split at h <;> simp only [nextOf] at h
  all_goals first | (cases h; done) | (cases h; decide) | skip
  split at h
  · cases h
  · cases h
    show _ < _ + 10
    omega

def typesKind : Info → Prop
  | .base s _ => s = 4
  | .struct .. => False
  | .reference .. => False
  | .enumeration .. => False
  | .array _ c => c = -1 ∨ c = 0 ∨ c = 1
  | _ => True

theorem types_kinds : ∀ r, typesKind (types r).info
  | 0 => rfl
  | 1 => trivial
  | 2 => trivial
  | 3 => trivial
  | 4 => trivial
  | 5 => trivial
  | 6 => trivial
  | 7 => trivial
  | 8 => trivial
  | 9 => trivial
  | n + 10 => by
    show ((n % 3 : Nat) - 1 : Int) = -1 ∨ ((n % 3 : Nat) - 1 : Int) = 0 ∨ ((n % 3 : Nat) - 1 : Int) = 1
    omega

theorem types_size {r : Ref} {n : Nat} (h : Size types r n) : n ≤ 24 := by
  induction h with
  | @stored r n h =>
    have key := types_kinds r
    cases h with
    | base h => rw [h] at key; cases key; decide
    | enumeration h => rw [h] at key; exact key.elim
    | pointer h => decide
    | struct h => rw [h] at key; exact key.elim
    | reference h => rw [h] at key; exact key.elim
  | through h _ ih => exact ih
  | dots h _ ih => exact ih
  | @array r t n count h hc _ ih =>
    have key := types_kinds r
    rw [h] at key
    have key : (count : Int) = -1 ∨ (count : Int) = 0 ∨ (count : Int) = 1 := key
    rcases (by omega : count = 0 ∨ count = 1) with rfl | rfl <;> omega

theorem types_sane : Sane types where
  acyclic := acyclic_of_down types_down
  named := by
    intro r bs be h hn
    unfold types at h hn
    split at h <;> first | (simp at h; done) | (simp at hn; done)
  members := by
    intro r k size ms h
    have key := types_kinds r
    rw [h] at key
    exact key.elim
  counts := by
    intro r t c h
    have key := types_kinds r
    rw [h] at key
    have key : c = -1 ∨ c = 0 ∨ c = 1 := key
    omega
  sizes := by
    intro r t c n h hn
    have h1 := types_size hn
    have key := types_kinds r
    rw [h] at key
    have key : c = -1 ∨ c = 0 ∨ c = 1 := key
    rcases key with rfl | rfl | rfl <;> omega

theorem types_honest (ps : List Value) : Honest (tenv ps) types := by
  intro v outer w h
  cases h with
  | reply h => cases h

theorem types_locale (ps : List Value) : Locale (tenv ps).pr := ValueString.demo_locale

def wenv : WrapCall.Env where
  vaList := fun _ => false
  structFn := fun _ => true
  narrow := fun d => d.take 4

/-- Memory with the bytes `bs` at 200. -/
def memory (bs : List UInt8) : Mem := fun a => if 200 ≤ a then bs[a - 200]? else none

/-- The bytes of a small `int`. -/
def bytes (n : Nat) : List UInt8 := [UInt8.ofNat n, 0, 0, 0]

theorem memory_bytes (bs : List UInt8) : Bytes (memory bs) 200 bs := by
  intro i b h
  simp only [memory]
  rw [if_pos (by omega), show 200 + i - 200 = i by omega, h]

theorem final0 : Final types 0 (some 0) [] := .here fun t h => by cases h <;> rename_i h <;> exact absurd h (by simp [types])

theorem int_describes : Describes types 0 .int := ⟨4, 6, rfl, rfl, fun _ => rfl, fun _ => rfl⟩

/-- The text of the recorded call `f(n)`. -/
def textOf (bs : List UInt8) : Outcome (Option Text) := valueString (tenv [⟨1, 200⟩]) false types (memory bs) (some ⟨2, 100⟩)

theorem digit {n : Nat} {u : Text} (hn : n < 10) (h : Decimal n u) : u = [UInt8.ofNat (48 + n)] := by
  cases h with
  | digit => rfl
  | more h => omega

theorem number_text {env : ValueString.Env} {n : Nat} {u : Text} (hn : n < 10) (h : BaseText env .int n u) : u = [UInt8.ofNat (48 + n)] := by
  cases h with
  | integer _ _ _ h =>
    rw [show intOf .int n = (n : Int) from by simp only [intOf, twos]; rw [if_pos (by simp only [Value.Spec.sizeOf]; omega)]] at h
    generalize hz : (n : Int) = z at h
    cases h with
    | nonneg h => cases Int.ofNat.inj hz; exact digit hn h
    | neg h0 _ => omega
  | floating h => exact absurd trivial h

theorem le_bytes {n : Nat} (hn : n < 10) : Mem.le (bytes n) = n := by
  simp [bytes, Mem.le]
  omega

theorem int_number {n : Nat} (hn : n < 10) : Number wenv types (.bytes 1 (bytes n)) .int n := by
  have := Number.mk (env := wenv) (db := types) (p := 1) (t := 0) (bs := bytes n) ⟨rfl, rfl⟩ final0 int_describes rfl (fun h => by cases h)
  rwa [le_bytes hn] at this

/-- The text of the recorded call is `f(n)`. -/
theorem text_shown {n : Nat} (hn : n < 10) : textOf (bytes n) = .ok (some (callText (text "f") [[UInt8.ofNat (48 + n)]])) := by
  obtain ⟨us, h1, h2⟩ := C107_numbers_partial wenv (tenv [⟨1, 200⟩]) false types types_sane (types_interned _) (types_honest _) (types_locale _) (fun _ => rfl) (memory (bytes n)) ⟨2, 100⟩ (some 0) [1] rfl (by decide)
    (text "f") rfl (fun _ _ _ => True) [.bytes 1 (bytes n)] [.bytes ⟨1, false, false⟩ (bytes n)] (.cons (.bytes rfl) .nil)
    (.cons (.bytes rfl (by decide) (by decide) (memory_bytes _)) .nil) [(.int, n)] (.cons (int_number hn) .nil) (fun z hz => by simp at hz; subst hz; intro h; cases h)
  cases h1 with
  | cons h3 h4 =>
    cases h4
    rw [textOf, h2, number_text hn h3]

/-- The text of an `int` at 200. -/
def intText (n : Nat) : Outcome (Option Text) := valueString (tenv []) false types (memory (bytes n)) (some ⟨0, 200⟩)

theorem int_shown {n : Nat} (hn : n < 10) : intText n = .ok (some [UInt8.ofNat (48 + n)]) := by
  have hb := holds_bytes (memory_bytes (bytes n))
  rw [le_bytes hn] at hb
  have ho : Value.Object types (memory (bytes n)) ⟨0, 200⟩ .int n := ⟨⟨0, [], final0, int_describes⟩, (by rintro ⟨mi, h, -⟩; cases h), by decide, hb, fun h => by cases h⟩
  obtain ⟨u, e, hu⟩ := ValueString.C60_text_partial (tenv []) types types_sane.named (types_locale _) (memory (bytes n)) ⟨0, 200⟩ .int n ho (fun h => by cases h)
  rw [number_text hn hu] at e
  exact (ValueString.C43_shown (tenv []) false types types_sane (types_interned _) (types_honest _) (types_locale _) (memory (bytes n)) ⟨0, 200⟩ _).2
    (.base (s := 4) (e := 6) ⟨(by rintro ⟨_, _, h, -⟩; cases h), by decide, 0, [], final0, rfl⟩ e)

/-- A program that calls `f(arg)`, where `arg` is the expression `e`; `f` returns its argument.  `W`: a variable `x`. -/
def prog (e : Nat → Nat × Nat) : Prog Nat Nat where
  env := wenv
  db := types
  tags := none
  entry := some 2
  args := fun x => .ok ([.val .int (bytes (e x).1)], (e x).2)
  fn := fun as x => .ok (match as with | [.val _ (b :: _)] => b.toNat | _ => 0, x)
  text := fun _ st => match views st.items with | [.bytes _ bs] => textOf bs | _ => .ok none
  resText := fun _ r => if r < 10 then intText r else .ok none
  resEntry := some 0
  addrOf := fun b => b + 1000
  resAddr := 500

theorem prog_traceable (e : Nat → Nat × Nat) {n : Nat} (hn : n < 10) : Traceable (prog e) (fun _ _ _ => True) [.val .int (bytes n)] [.bytes 1 (bytes n)] true where
  handled := fun _ h => by cases h
  function := ⟨2, [1], rfl, ⟨2, [], some 0, .here (fun t h => by cases h <;> rename_i h <;> exact absurd h (by simp [prog, types])), .inl rfl⟩,
    .plain (t := 0) ⟨rfl, rfl⟩ (.wide (ty := .int) final0 rfl rfl (by decide)) (.wide rfl) .nil⟩
  addr := fun b => Nat.succ_ne_zero _
  text := by
    intro w st h
    generalize hv : views st.items = vs at h
    cases h with
    | cons h1 h2 =>
      cases h2
      cases h1
      refine ⟨some (callText (text "f") [[UInt8.ofNat (48 + n)]]), ?_⟩
      simp only [prog, hv]
      exact text_shown hn
  result := by
    intro w r
    show ∃ o, (if r < 10 then intText r else .ok none) = .ok o
    split
    · next h => exact ⟨_, int_shown h⟩
    · exact ⟨_, rfl⟩

/-- The lines of a recorded call of `f` with the argument `n` that returns `r`. -/
theorem prog_lines {e : Nat → Nat × Nat} {n r w w' : Nat} (hn : n < 10) (hr : r < 10) {l l' : List Event}
    (h : Lines (prog e) (fun _ _ _ => True) [.bytes 1 (bytes n)] true (∀ k, (Heap.empty fun _ => false).fails k = false) (fun w t o => ∃ u, ResultText (prog e) w r u ∧ o = after u t) w w' l l') :
    l = [.line (text "Calling f(" ++ [UInt8.ofNat (48 + n)] ++ text ")\n")] ∧
    l' = [.line (text "Returned " ++ [UInt8.ofNat (48 + r)] ++ text " from f(" ++ [UInt8.ofNat (48 + n)] ++ text ")\n")] := by
  have hm : ∀ k, (Heap.empty fun _ => false).fails k = false := fun _ => rfl
  have key : ∀ o l, Says (∀ k, (Heap.empty fun _ => false).fails k = false) o l → l = o.toList.map Event.line := by
    intro o l h
    cases h with
    | printed => rfl
    | missing h => exact absurd hm h
  cases h with
  | not h _ _ =>
    rcases h with h | h
    · cases h
    · exact absurd hm h
  | @recorded st t t' o hfill ht ht' hl h1 h2 =>
    have hall : ∀ w, (prog e).text w st = .ok (some (callText (text "f") [[UInt8.ofNat (48 + n)]])) := by
      intro w
      generalize hv : views st.items = vs at hfill
      cases hfill with
      | cons h1 h2 =>
        cases h2
        cases h1
        simp only [prog, hv]
        exact text_shown hn
    rw [hall] at ht ht'
    cases ht
    cases ht'
    obtain ⟨u, hu, rfl⟩ := hl
    cases key _ _ h1
    cases key _ _ h2
    have hu : u = some [UInt8.ofNat (48 + r)] := by
      cases hu with
      | unknown h =>
        rcases h with h | h
        · cases h
        · exact absurd h (by simp [prog])
      | known _ _ h =>
        rw [show (prog e).resText w' r = intText r from if_pos hr, int_shown hr] at h
        cases h
        rfl
    subst hu
    exact ⟨rfl, rfl⟩

/-- The hypotheses of `C106_traced_partial` are met; for `f(x)` with `x = 7` the macro prints what it should. -/
example : ∃ h', traced (prog fun x => (x, x)) 7 (Heap.empty fun _ => false) =
      .ok (7, 7, [.line (text "Calling f(7)\n"), .call [.val .int [7, 0, 0, 0]], .line (text "Returned 7 from f(7)\n")], h') ∧ ∀ b, h'.live b = false := by
  obtain ⟨k, e, hk⟩ := C106_traced_partial (prog fun x => (x, x)) (fun _ _ _ => True) 7 _ rfl _ true (prog_traceable _ (n := 7) (by decide)) (Heap.empty fun _ => false) (fun _ h => by cases h) rfl
  obtain ⟨l, l', h', e', hl, hlines⟩ := hk 7 7
  obtain ⟨rfl, rfl⟩ := prog_lines (by decide) (by decide) hlines
  exact ⟨h', e.trans e', hl⟩

/-- **C106** is FALSE for arguments with effects: `f(x++)` with `x = 7` calls `f(7)` and leaves 8 in `x`; traced, `f` is called with 8, 9 is left in `x`,
and the lines printed say that `f(7)` has returned 8. -/
theorem C106_twice_false :
    (((prog fun x => (x, x + 1)).args 7 >>= fun a => (prog fun x => (x, x + 1)).fn a.1 a.2) = .ok (7, 8)) ∧
    ∃ h', traced (prog fun x => (x, x + 1)) 7 (Heap.empty fun _ => false) =
      .ok (8, 9, [.line (text "Calling f(7)\n"), .call [.val .int [8, 0, 0, 0]], .line (text "Returned 8 from f(7)\n")], h') := by
  refine ⟨rfl, ?_⟩
  obtain ⟨k, e, hk⟩ := C106_evaluated_twice (prog fun x => (x, x + 1)) (fun _ _ _ => True) 7 8 9 _ _ rfl rfl _ true (prog_traceable _ (n := 7) (by decide)) (Heap.empty fun _ => false) (fun _ h => by cases h) rfl rfl
  obtain ⟨l, l', h', e', -, hlines⟩ := hk 8 9
  obtain ⟨rfl, rfl⟩ := prog_lines (by decide) (by decide) hlines
  exact ⟨h', e.trans e'⟩

/-- **C106** is FALSE for a function without type information (METAC_GSYM_LINK_ENTRY is NULL): every traced call leaves a block allocated that nobody knows. -/
theorem C106_unlinked_false (p : Prog W R) (hp : p.entry = none) (w w1 w2 w3 : W) (as as2 : List WrapCall.Arg) (hargs : p.args w = .ok (as, w1)) (hargs2 : p.args w1 = .ok (as2, w2)) (r : R) (hfn : p.fn as2 w2 = .ok (r, w3))
    (h : Heap) (ho : h.Ok) (hm : ∀ k, h.fails k = false) (ha : ∀ b, p.addrOf b ≠ 0) :
    ∃ h', traced p w h = .ok (r, w3, [.call as2], h') ∧ h.live (h.next + 1) = false ∧ h'.live (h.next + 1) = true := by
  have h0 : ∀ x, h.next ≤ x → h.live x = false := fun x hx => by
    cases hl : h.live x with
    | false => rfl
    | true => exact absurd (ho x hl) (by omega)
  simp [traced, start, newStorage, Heap.alloc, hm, hp, ha, newHandle, initValue, isDynamic, record, announce, report, finish, release, hargs, hargs2, hfn, Outcome.bind_ok, delete, cleanup, cleanupItems, Heap.free]
  exact h0 (h.next + 1) (by omega)

/-- The text of a call of `g` with no variable arguments, that is kept at 200 (the `int` 7) and 204 (an empty list): the hypotheses of `C107_no_dots_false` are met. -/
example (t : Text) : valueString (tenv [⟨1, 200⟩, ⟨3, 204⟩]) false types (memory (bytes 7)) (some ⟨4, 100⟩) ≠ .ok (some t) :=
  C107_no_dots_false (tenv [⟨1, 200⟩, ⟨3, 204⟩]) false types types_sane (types_interned _) (types_honest _) (types_locale _) (memory (bytes 7)) ⟨4, 100⟩ (some 0) [1, 3] rfl (by decide) (fun _ as vs => as = [] → vs = [])
    [.bytes 1 (bytes 7), .rest 3 []] [.bytes ⟨1, false, false⟩ (bytes 7), .list ⟨3, false, false⟩ []] (.cons (.bytes rfl) (.cons (.rest rfl fun _ => rfl) .nil))
    (.cons (.bytes rfl (by decide) (by decide) (memory_bytes _)) (.cons (.list rfl (by decide) .nil) .nil)) 3 [] (by simp) ⟨_, rfl⟩ (fun _ h => h rfl) t

/-- The hypotheses of `C107_data` are met by the recorded call `f(7)`. -/
example : ∃ us, textOf (bytes 7) = .ok (some (callText (text "f") us)) := by
  obtain ⟨us, -, h⟩ := C107_data (tenv [⟨1, 200⟩]) types types_sane (types_interned _) (types_honest _) (types_locale _) (memory (bytes 7)) ⟨2, 100⟩ (some 0) [1] rfl (by decide) (text "f") rfl
    [.bytes ⟨1, false, false⟩ (bytes 7)] (.cons (.bytes rfl (by decide) (by decide) (memory_bytes _)) .nil) (by
      intro w hw
      have hw : w = ⟨1, 200⟩ := by simpa [tenv] using hw
      subst hw
      have hfin : Final types 1 (some 0) [] := .step (t := 0) (qs := []) (.param rfl) final0
      refine .base (s := 4) (e := 6) (x := 0) (qs := []) (t := .int) (n := 7) ⟨?_, by decide, 0, [], hfin, rfl⟩ hfin int_describes (by rintro ⟨mi, h, -⟩; cases h) ?_ (fun h => by cases h)
      · rintro ⟨u, t, h, h2⟩
        cases h
        rcases h2 with h2 | h2 | ⟨x, qs, u, ps, hx, h2⟩
        · cases h2
        · cases h2
        · cases final_unique hx hfin
          rcases h2 with h2 | h2 <;> cases h2
      · have hb := holds_bytes (memory_bytes (bytes 7))
        rwa [le_bytes (by decide)] at hb)
  exact ⟨us, h⟩

end Verif.Trace
