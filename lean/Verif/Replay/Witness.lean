import Verif.Replay.Props
/-
C105 on concrete calls, and what is wrong with `%c`.
-/
namespace Verif.Replay
open Verif Verif.Entry Verif.Entry.Spec Verif.Value Verif.Value.Spec Verif.ParamStorage Verif.ParamStorage.Spec Verif.Ffi Verif.Ffi.Spec Verif.Replay.Spec Verif.Heap
open Verif.WrapCall.Spec (Class Takes Carries Plain VaList Slot AllFilled Filled Call Handled Declares)
open Verif.PrintfCall.Spec (StringAt AllPass Passes Plains)
open Verif.PrintfCall (printfHandler)
open Verif.Printf.Spec (Piece convs render WFPiece WF Separated Fits)

/-- `int log(my_int level, char *fmt, ...)`, `int vlog(my_int level, va_list list, ...)`, and the types of printf arguments; 100 + n is `char [n]`. -/
def demo : Db := fun r =>
  match r with
  | 1 => { info := .base 4 6, name := some (typeName .int) }
  | 2 => { info := .base 1 7, name := some (typeName .char) }
  | 3 => { info := .pointer (some 2) }
  | 4 => { info := .base 8 5, name := some (typeName .double) }
  | 5 => { info := .typedef (some 1), name := some (WrapCall.Spec.text "my_int") }
  | 6 => { info := .base 8 6, name := some (typeName .long) }
  | 7 => { info := .base 4 8, name := some (typeName .uint) }
  | 8 => { info := .base 8 8, name := some (typeName .ulong) }
  | 9 => { info := .base 8 6, name := some (typeName .llong) }
  | 10 => { info := .param false (some 5) }
  | 11 => { info := .param false (some 3) }
  | 12 => { info := .param true none }
  | 13 => { info := .base 8 8, name := some (typeName .ullong) }
  | 14 => { info := .base 16 5, name := some (typeName .ldouble) }
  | 15 => { info := .base 1 9, name := some (typeName .uchar) }
  | 16 => { info := .base 2 6, name := some (typeName .short) }
  | 17 => { info := .base 2 8, name := some (typeName .ushort) }
  | 18 => { info := .param false (some 3) }
  | 30 => { info := .subprogram (some 1) [10, 11, 12], name := some (WrapCall.Spec.text "log") }
  | 31 => { info := .subprogram (some 1) [10, 18, 12], name := some (WrapCall.Spec.text "vlog") }
  | n => if 100 ≤ n then { info := .array (some 2) ((n - 100 : Nat) : Int) } else { info := .unspecifiedType }

def typeRef : Printf.Ty → Ref
  | .char => 2 | .uchar => 15 | .short => 16 | .ushort => 17 | .int => 1 | .uint => 7 | .long => 6 | .ulong => 8 | .llong => 9 | .ullong => 13
  | .double => 4 | .ldouble => 14
  | .charp | .voidp | .shortp | .intp | .longp | .llongp => 3
  | .chars n => n + 100

theorem demo_named : Named demo := by
  intro r bs be hi
  unfold demo at hi ⊢
  split at hi <;> simp_all
  split at hi <;> simp_all

theorem demo_chars (n : Nat) : (demo (n + 100)).info = .array (some 2) (n : Int) := by
  unfold demo
  split <;> first | (exfalso; rename_i h; omega) | skip
  rw [if_pos (Nat.le_add_left _ _)]
  simp

/-- Strings in the program: `a%d %s` at 2000, `ab` at 1000, `%c` at 3000. -/
def callMem : Mem := fun x =>
  if 1000 ≤ x ∧ x < 1003 then [97, 98, 0][x - 1000]?
  else if 2000 ≤ x ∧ x < 2007 then [97, 37, 100, 32, 37, 115, 0][x - 2000]?
  else if 3000 ≤ x ∧ x < 3003 then [37, 99, 0][x - 3000]? else none

def penv : PrintfCall.Env := ⟨callMem, typeRef⟩

def wenv : WrapCall.Env := ⟨fun r => r == 18, fun _ => false, fun d => d.take 4⟩

/-- Where the storages are: the one of `log(7, "a%d %s", 9, "ab")` at 500, its variable arguments at 700; that of `log(7, "%c", 9)` at 501 and
701; that of `vlog(7, list, 0)` at 502, with a list of 0. -/
def env : Handlers.Env := ⟨fun r => r == 18, fun a =>
  if a = 500 then [⟨10, 600⟩, ⟨11, 610⟩, ⟨12, 700⟩] else if a = 700 then [⟨1, 620⟩, ⟨103, 630⟩]
  else if a = 501 then [⟨10, 600⟩, ⟨11, 640⟩, ⟨12, 701⟩] else if a = 701 then [⟨2, 620⟩]
  else if a = 502 then [⟨10, 600⟩, ⟨18, 702⟩, ⟨12, 702⟩] else if a = 702 then [⟨1, 650⟩] else []⟩

/-- The stored bytes, and a place for the result at 900. -/
def mem : Mem := fun x =>
  if 600 ≤ x ∧ x < 604 then [7, 0, 0, 0][x - 600]?
  else if 610 ≤ x ∧ x < 618 then [208, 7, 0, 0, 0, 0, 0, 0][x - 610]?
  else if 620 ≤ x ∧ x < 624 then [9, 0, 0, 0][x - 620]?
  else if 630 ≤ x ∧ x < 638 then [97, 98, 0, 0, 0, 0, 0, 0][x - 630]?
  else if 640 ≤ x ∧ x < 648 then [184, 11, 0, 0, 0, 0, 0, 0][x - 640]?
  else if 650 ≤ x ∧ x < 654 then some 0
  else if 900 ≤ x ∧ x < 904 then some 0 else none

theorem ends {r : Ref} (h : (match (demo r).info with | .typedef _ | .var _ | .param false _ | .member _ | .qual .. => false | _ => true) = true) : Final demo r (some r) [] := here h

theorem demo_types : Types penv env demo := by
  constructor
  · intro ty p hp
    cases ty <;> cases hp <;>
      first
      | exact .pointer (x := 3) (here rfl) rfl rfl
      | exact .base (t := .int) (here rfl) ⟨_, _, rfl, rfl, fun _ => rfl, fun _ => rfl⟩
      | exact .base (t := .uint) (here rfl) ⟨_, _, rfl, rfl, fun _ => rfl, fun _ => rfl⟩
      | exact .base (t := .long) (here rfl) ⟨_, _, rfl, rfl, fun _ => rfl, fun _ => rfl⟩
      | exact .base (t := .llong) (here rfl) ⟨_, _, rfl, rfl, fun _ => rfl, fun _ => rfl⟩
      | exact .base (t := .ulong) (here rfl) ⟨_, _, rfl, rfl, fun _ => rfl, fun _ => rfl⟩
      | exact .base (t := .ullong) (here rfl) ⟨_, _, rfl, rfl, fun _ => rfl, fun _ => rfl⟩
      | exact .base (t := .double) (here rfl) ⟨_, _, rfl, rfl, fun _ => rfl, fun _ => rfl⟩
      | exact .base (t := .ldouble) (here rfl) ⟨_, _, rfl, rfl, fun _ => rfl, fun _ => rfl⟩
      | exact .base (t := .char) (here rfl) ⟨_, _, rfl, rfl, fun _ => .inl rfl, fun _ => rfl⟩
      | exact .base (t := .uchar) (here rfl) ⟨_, _, rfl, rfl, fun _ => rfl, fun _ => rfl⟩
      | exact .base (t := .short) (here rfl) ⟨_, _, rfl, rfl, fun _ => rfl, fun _ => rfl⟩
      | exact .base (t := .ushort) (here rfl) ⟨_, _, rfl, rfl, fun _ => rfl, fun _ => rfl⟩
  · intro n
    refine ⟨n + 100, [], some 2, here ?_, demo_chars n, rfl⟩
    show (match (demo (n + 100)).info with | .typedef _ | .var _ | .param false _ | .member _ | .qual .. => false | _ => true) = true
    rw [demo_chars]

theorem final10 : Final demo 10 (some 1) [] := .step (.param rfl) (.step (.typedef rfl) (here rfl))

theorem int_scalar : Scalar env demo 1 .sint := demo_types.scalar .int _ rfl

theorem level_scalar : Scalar env demo 10 .sint := .base (t := .int) final10 ⟨_, _, rfl, rfl, fun _ => rfl, fun _ => rfl⟩

theorem fmt_scalar : Scalar env demo 11 .pointer := .pointer (x := 3) (.step (.param rfl) (here rfl)) rfl rfl

theorem demo_plain {p t : Ref} (hp : p ∈ [10, 11, 12, 18]) (h : Plain wenv demo p (some t)) : ∃ s, Looks env demo p s ∧ ∀ n, Size demo p n → room s = n := by
  simp only [List.mem_cons, List.not_mem_nil, or_false] at hp
  rcases hp with rfl | rfl | rfl | rfl
  · exact ⟨_, .scalar level_scalar, fun n h => size_fun (size_of_final final10 rfl (.stored (.base (n := 4) rfl))) h⟩
  · exact ⟨_, .scalar fmt_scalar, fun n h => size_fun (size_of_final (f := 3) (.step (.param rfl) (here rfl)) rfl (.stored (.pointer rfl))) h⟩
  · cases h.1
  · cases h.2

theorem final18 : Final demo 18 (some 3) [] := .step (.param rfl) (here rfl)

theorem demo_callable : Callable wenv env demo [10, 11, 12] where
  same _ := rfl
  plain := by
    intro p hp t h
    simp only [List.mem_cons, List.not_mem_nil, or_false] at hp
    exact demo_plain (by rcases hp with rfl | rfl | rfl <;> simp) h
  vaList := by
    rintro p hp ⟨_, h⟩
    simp only [List.mem_cons, List.not_mem_nil, or_false] at hp
    rcases hp with rfl | rfl | rfl <;> cases h
  dots := by
    rintro p hp _
    simp only [List.mem_cons, List.not_mem_nil, or_false] at hp
    rcases hp with rfl | rfl | rfl <;> rfl

theorem demo_callable' : Callable wenv env demo [10, 18, 12] where
  same _ := rfl
  plain := by
    intro p hp t h
    simp only [List.mem_cons, List.not_mem_nil, or_false] at hp
    exact demo_plain (by rcases hp with rfl | rfl | rfl <;> simp) h
  vaList := by
    rintro p hp ⟨_, h⟩
    simp only [List.mem_cons, List.not_mem_nil, or_false] at hp
    rcases hp with rfl | rfl | rfl
    · cases h
    · exact ⟨3, _, _, final18, rfl⟩
    · cases h
  dots := by
    rintro p hp ⟨_, h⟩
    simp only [List.mem_cons, List.not_mem_nil, or_false] at hp
    rcases hp with rfl | rfl | rfl
    · rfl
    · cases h
    · rfl

/-- `a%d %s`. -/
def fmt : List Piece := [.lit 97, .conv ⟨[], [], none, .no, 100⟩, .lit 32, .conv ⟨[], [], none, .no, 115⟩]

theorem fmt_string : StringAt penv.mem (Mem.le [208, 7, 0, 0, 0, 0, 0, 0]) (render fmt) := by
  have : render fmt = [97, 37, 100, 32, 37, 115] := by decide
  rw [this]
  refine ⟨?_, rfl⟩
  intro k b hb
  match k with
  | 0 => cases hb; decide
  | 1 => cases hb; decide
  | 2 => cases hb; decide
  | 3 => cases hb; decide
  | 4 => cases hb; decide
  | 5 => cases hb; decide
  | k + 6 => simp at hb

theorem ab_string : StringAt penv.mem (Mem.le [232, 3, 0, 0, 0, 0, 0, 0]) [97, 98] := by
  refine ⟨?_, rfl⟩
  intro k b hb
  match k with
  | 0 => cases hb; decide
  | 1 => cases hb; decide
  | k + 2 => simp at hb

theorem bytes_at {m : Mem} {a : Nat} {bs : List UInt8} (h : ∀ i < bs.length, m (a + i) = bs[i]?) : Bytes m a bs := bytes_of h

theorem fits {c : Printf.Spec.Conv} (h : c = ⟨[], [], none, .no, 100⟩ ∨ c = ⟨[], [], none, .no, 115⟩ ∨ c = ⟨[], [], none, .no, 99⟩) : WF c ∧ Fits 10 c := by
  rcases h with rfl | rfl | rfl <;>
    exact ⟨⟨by decide, by decide, by decide, by simp, by decide, by decide, by decide, by decide⟩, ⟨by decide, by simp⟩⟩

theorem fmt_wf : ∀ p ∈ fmt, WFPiece p := by
  simp only [fmt, List.mem_cons, List.not_mem_nil, or_false]
  rintro p (rfl | rfl | rfl | rfl)
  · show (97 : UInt8) ≠ 37; decide
  · exact (fits (.inl rfl)).1
  · show (32 : UInt8) ≠ 37; decide
  · exact (fits (.inr (.inl rfl))).1

theorem fmt_fits : ∀ c ∈ convs fmt, Fits 10 c ∧ AsIs c := by
  simp only [fmt, convs, List.mem_cons, List.not_mem_nil, or_false]
  rintro c (rfl | rfl)
  · refine ⟨(fits (.inl rfl)).2, fun ty p h1 h2 => ?_⟩
    cases h1
    cases h2
    trivial
  · refine ⟨(fits (.inr (.inl rfl))).2, fun ty p h1 h2 => ?_⟩
    cases h1

def tags : Ref → Option WrapCall.Handler := fun _ => some (printfHandler penv demo 30)

theorem log_function : Ffi.Spec.Function demo 30 (some 1) [10, 11, 12] := ⟨30, [], here rfl, .inl rfl⟩

theorem level_plains : Plains wenv demo [10] [.val .int [7, 0, 0, 0]] [.bytes 10 [7, 0, 0, 0]] :=
  .cons (t := 5) ⟨rfl, rfl⟩ (.wide (ty := .int) (.step (.typedef rfl) (here rfl)) rfl rfl (by decide)) (.wide rfl) .nil

/-- `log(7, "a%d %s", 9, "ab")` as it is stored. -/
theorem log_held {e1 e2 e3 : EntryArg} (h1 : e1.id = 10) (h2 : e2.id = 11) (h3 : e3.id = 12) :
    Each (Held env mem) [.bytes e1 [7, 0, 0, 0], .bytes e2 [208, 7, 0, 0, 0, 0, 0, 0], .list e3 [.bytes ⟨1, false, false⟩ [9, 0, 0, 0], .bytes ⟨103, true, false⟩ [97, 98, 0, 0, 0, 0, 0, 0]]]
      (env.params 500) := by
  refine .cons (.bytes h1.symm (by decide) (by decide) (bytes_at (by decide +kernel))) (.cons (.bytes h2.symm (by decide) (by decide) (bytes_at (by decide +kernel)))
    (.cons (.list h3.symm (by decide) (.cons (.bytes rfl (by decide) (by decide) (bytes_at (by decide +kernel))) (.cons (.bytes rfl (by decide) (by decide) (bytes_at (by decide +kernel))) .nil))) .nil))

theorem log_pass : AllPass penv (convs fmt) [.val .int [9, 0, 0, 0], .val .ptr [232, 3, 0, 0, 0, 0, 0, 0]]
    [.bytes ⟨1, false, false⟩ [9, 0, 0, 0], .bytes ⟨103, true, false⟩ [97, 98, 0, 0, 0, 0, 0, 0]] :=
  .cons (.plain (ty := .int) rfl rfl) (.cons (.str (s := [97, 98]) rfl rfl (by decide) ab_string (by decide)) .nil)

theorem int_size : Size demo 1 4 := .stored (.base (n := 4) rfl)

theorem no_failure : ∀ k, (WrapCall.demoHeap fun _ => false).fails k = false := fun _ => rfl

/-- The call is recorded, and when it is made with the storage at 500, the function gets 7, the format, 9 and a pointer to an equal string. -/
example (lib : Lib) : ∃ st' h', WrapCall.wrap wenv demo (some tags) (some 1) 30 WrapCall.demoSto
      ([.val .int [7, 0, 0, 0]] ++ .val .ptr [208, 7, 0, 0, 0, 0, 0, 0] :: [.val .int [9, 0, 0, 0], .val .ptr [232, 3, 0, 0, 0, 0, 0, 0]]) (WrapCall.demoHeap fun _ => false) = .ok (true, st', h') ∧
    Made lib wenv env demo penv.mem mem [10, 11, 12] ([.val .int [7, 0, 0, 0]] ++ .val .ptr [208, 7, 0, 0, 0, 0, 0, 0] :: [.val .int [9, 0, 0, 0], .val .ptr [232, 3, 0, 0, 0, 0, 0, 0]])
      ⟨30, 500⟩ 1 ⟨1, 900⟩ (.prim .sint) 4 (Heap.empty fun _ => false) := by
  obtain ⟨ret, st', h', e, hr, hm⟩ := C105_printf_partial lib wenv penv env demo demo_named tags 30 1 11 12 3 3 [] (some 2) [10] log_function demo_callable demo_types ⟨rfl, rfl⟩ (here rfl) rfl ⟨_, rfl⟩ rfl
    [208, 7, 0, 0, 0, 0, 0, 0] rfl (by decide) fmt fmt_string fmt_wf trivial (by decide) (fun c h => (fmt_fits c h).1) (fun c h => (fmt_fits c h).2) _ _ log_pass _ _ level_plains
    WrapCall.demoSto (WrapCall.demoHeap fun _ => false) (WrapCall.demo_consistent _) rfl 1 rfl (by decide) rfl
  obtain ⟨ret2, st2, _, h2, _, e2, _, _, _, hfill, _⟩ := PrintfCall.C75_call_partial wenv penv demo tags 30 11 12 3 3 [] (some 2) [10] (declares log_function) ⟨rfl, rfl⟩ (here rfl) rfl ⟨_, rfl⟩ rfl
    [208, 7, 0, 0, 0, 0, 0, 0] rfl (by decide) fmt fmt_string fmt_wf trivial (by decide) (fun c h => (fmt_fits c h).1) _ [] _ log_pass _ _ level_plains
    WrapCall.demoSto (WrapCall.demoHeap fun _ => false) (WrapCall.demo_consistent _) rfl 1 rfl (by decide) rfl
  rw [List.append_nil, e] at e2
  cases e2
  cases hr no_failure
  refine ⟨st', h', e, hm rfl mem _ _ 1 _ 4 _ rfl ?_ (by decide) (.scalar int_scalar) int_size (by decide) (by decide) (fun _ h => by cases h) (fun _ => rfl)⟩
  have hf := (hfill rfl).2
  generalize views st'.items = xs at hf
  cases hf with
  | cons a hf =>
  cases a with
  | bytes i1 =>
  cases hf with
  | cons a hf =>
  cases a with
  | bytes i2 =>
  cases hf with
  | cons a hf =>
  cases hf
  cases a with
  | rest i3 hx =>
  subst hx
  exact log_held i1 i2 i3

/-- `vlog(7, list, 0)` with a list of 0, and a handler that keeps a 0: recorded, and made with the storage at 502. -/
def vlogArgs : List WrapCall.Arg := [.val .int [7, 0, 0, 0], .vaList [9, 9, 9, 9, 9, 9, 9, 9] [.val .int [0, 0, 0, 0]], .val .int [0, 0, 0, 0]]

theorem vlog_call : Call wenv demo WrapCall.demoTags [10, 18, 12] vlogArgs [.bytes 10 [7, 0, 0, 0], .rest 18 [.val .int [0, 0, 0, 0]], .rest 12 [.val .int [0, 0, 0, 0]]] true :=
  .plain (t := 5) ⟨rfl, rfl⟩ (.wide (ty := .int) (.step (.typedef rfl) (here rfl)) rfl rfl (by decide)) (.wide rfl)
    (.vaList ⟨⟨_, rfl⟩, rfl⟩ (by simp [WrapCall.demoTags]) (.dots ⟨_, rfl⟩ (by simp [WrapCall.demoTags])))

theorem keeps_zero : Each (Keeps env demo penv.mem) [.val .int [0, 0, 0, 0]] [.bytes ⟨1, false, false⟩ [0, 0, 0, 0]] :=
  .cons (.scalar (p := .sint) int_scalar trivial (by simp [travels]) rfl) .nil

theorem zero_handled : Handled (fun _ a x => a = [.val .int [0, 0, 0, 0]] → Each (Keeps env demo penv.mem) a x) wenv demo WrapCall.demoTags := by
  intro tag ht p _
  cases ht
  refine ⟨_, rfl, ?_⟩
  intro i outer b args h hc
  obtain ⟨r, inner, left, h', e, h1, h2, h3, h4, h5⟩ := WrapCall.demoHandler_behaves p i outer b args h hc
  refine ⟨r, inner, left, h', e, h1, h2, h3, fun hr ha => ?_, h5⟩
  rw [ha, show views inner.items = _ from h4 hr]
  exact keeps_zero

/-- The hypotheses of `C105_recorded_partial`. -/
example (lib : Lib) := C105_recorded_partial lib wenv env demo demo_named penv.mem WrapCall.demoTags (fun _ a => a = [.val .int [0, 0, 0, 0]]) zero_handled 31 1 [10, 18, 12] ⟨31, [], here rfl, .inl rfl⟩
  demo_callable' vlogArgs _ vlog_call
  (by
    intro p a h
    simp only [List.mem_cons, List.not_mem_nil, or_false, Slot.rest.injEq, reduceCtorEq, false_or] at h
    rcases h with ⟨_, h⟩ | ⟨_, h⟩ <;> exact h)
  WrapCall.demoSto (WrapCall.demoHeap fun _ => false) (WrapCall.demo_consistent _) rfl 1 rfl (by decide) rfl

/-- The storage of `vlog(7, list, 0)`. -/
example {e1 e2 e3 : EntryArg} (h1 : e1.id = 10) (h2 : e2.id = 18) (h3 : e3.id = 12) :
    Each (Held env mem) [.bytes e1 [7, 0, 0, 0], .list e2 [.bytes ⟨1, false, false⟩ [0, 0, 0, 0]], .list e3 [.bytes ⟨1, false, false⟩ [0, 0, 0, 0]]] (env.params 502) :=
  .cons (.bytes h1.symm (by decide) (by decide) (bytes_at (by decide +kernel)))
    (.cons (.list h2.symm (by decide) (.cons (.bytes rfl (by decide) (by decide) (bytes_at (by decide +kernel))) .nil))
      (.cons (.list h3.symm (by decide) (.cons (.bytes rfl (by decide) (by decide) (bytes_at (by decide +kernel))) .nil)) .nil))

/-! ### What is wrong -/

def charFmt : List Piece := [.conv ⟨[], [], none, .no, 99⟩]

theorem char_string : StringAt penv.mem (Mem.le [184, 11, 0, 0, 0, 0, 0, 0]) (render charFmt) := by
  have : render charFmt = [37, 99] := by decide
  rw [this]
  refine ⟨?_, rfl⟩
  intro k b hb
  match k with
  | 0 => cases hb; decide
  | 1 => cases hb; decide
  | k + 2 => simp at hb

def charArgs : List WrapCall.Arg := [.val .int [7, 0, 0, 0], .val .ptr [184, 11, 0, 0, 0, 0, 0, 0], .val .int [9, 0, 0, 0]]

/-- **C105** is false of `%c` (and `%hhd`, `%hd` ...): `log(7, "%c", 9)` is recorded, and when it is made, the function gets a single byte for the 9, where
the caller passed, and C requires, an `int`. -/
theorem C105_char_false : ∃ st' h', WrapCall.wrap wenv demo (some tags) (some 1) 30 WrapCall.demoSto charArgs (WrapCall.demoHeap fun _ => false) = .ok (true, st', h') ∧
    Each (Held env mem) (views st'.items) (env.params 501) ∧
    (∀ lib : Lib, (∀ f t l, lib.prep f t l = true) → ∃ k, ffiCall lib env demo (some ⟨30, 501⟩) 1 (some ⟨1, 900⟩) mem (Heap.empty fun _ => false) =
      (lib.run 1 (some 2) (.prim .sint) [.object (.prim .sint) [7, 0, 0, 0], .object (.prim .pointer) [184, 11, 0, 0, 0, 0, 0, 0], .object (.prim .schar) [9]] mem >>= k)) ∧
    ¬ Gets penv.mem mem (.val .int [9, 0, 0, 0]) (.object (.prim .schar) [9]) := by
  obtain ⟨ret, st', _, h', _, e, _, _, _, hfill, hr, _⟩ := PrintfCall.C75_call_partial wenv penv demo tags 30 11 12 3 3 [] (some 2) [10] (declares log_function) ⟨rfl, rfl⟩ (here rfl) rfl ⟨_, rfl⟩ rfl
    [184, 11, 0, 0, 0, 0, 0, 0] rfl (by decide) charFmt char_string
    (by
      simp only [charFmt, List.mem_cons, List.not_mem_nil, or_false]
      rintro p rfl
      exact (fits (.inr (.inr rfl))).1)
    trivial (by decide)
    (by
      simp only [charFmt, convs, List.mem_cons, List.not_mem_nil, or_false]
      rintro c rfl
      exact (fits (.inr (.inr rfl))).2)
    [.val .int [9, 0, 0, 0]] [] [.bytes ⟨2, false, false⟩ [9]] (.cons (.plain (ty := .char) rfl rfl) .nil) _ _ level_plains
    WrapCall.demoSto (WrapCall.demoHeap fun _ => false) (WrapCall.demo_consistent _) rfl 1 rfl (by decide) rfl
  rw [List.append_nil] at e
  cases hr no_failure
  refine ⟨st', h', e, ?_, ?_, fun h => by cases h⟩
  · have hf := (hfill rfl).2
    generalize views st'.items = xs at hf
    cases hf with
    | cons a hf =>
    cases a with
    | bytes i1 =>
    cases hf with
    | cons a hf =>
    cases a with
    | bytes i2 =>
    cases hf with
    | cons a hf =>
    cases hf
    cases a with
    | rest i3 hx =>
    subst hx
    exact .cons (.bytes i1.symm (by decide) (by decide) (bytes_at (by decide +kernel))) (.cons (.bytes i2.symm (by decide) (by decide) (bytes_at (by decide +kernel)))
      (.cons (.list i3.symm (by decide) (.cons (.bytes rfl (by decide) (by decide) (bytes_at (by decide +kernel))) .nil)) .nil))
  · intro lib hp
    have ha : Arguments env demo mem (Raw env demo mem) ⟨30, 501⟩ [10, 11, 12]
        [.object (.prim .sint) [7, 0, 0, 0], .object (.prim .pointer) [184, 11, 0, 0, 0, 0, 0, 0], .object (.prim .schar) [9]] (some 2) :=
      .dots (vs := [⟨10, 600⟩, ⟨11, 640⟩]) (d := ⟨12, 701⟩) (q := 12) (as := [_, _]) rfl rfl rfl ⟨none, rfl⟩ (by decide) rfl
        (.cons (.object (s := .prim .sint) (.scalar level_scalar) rfl (by decide) rfl (bytes_at (by decide +kernel)))
          (.cons (.object (s := .prim .pointer) (.scalar fmt_scalar) rfl (by decide) rfl (bytes_at (by decide +kernel))) .nil))
        (.cons (.scalar (demo_types.scalar .char _ rfl) (by decide) rfl (bytes_at (by decide +kernel))) .nil)
    obtain ⟨k, e, _⟩ := ffiCall_ok (lib := lib) (fn := 1) (w := ⟨1, 900⟩) demo_named log_function (by simp) (fun _ _ h => h) ha (.scalar int_scalar) int_size (by decide) (by decide) (by decide)
      ⟨hp _ _ _, fun _ _ => hp _ _ _⟩ (fun _ => rfl) (Owns.init (h := Heap.empty fun _ => false) (fun _ h => by cases h))
    exact ⟨k, e⟩

end Verif.Replay
