import Verif.PrintfText.Props
import Verif.Replay.Witness
import Verif.Trace.Witness
/-
C109 on the call of doc/demo: `my_printf("%d %d\n", 10, 22)`.
-/
namespace Verif.PrintfText
open Verif Verif.Entry Verif.Entry.Spec Verif.Value Verif.Value.Spec Verif.ParamStorage Verif.ParamStorage.Spec Verif.PrintfText.Spec
open Verif.ValueString (Text valueString)
open Verif.ValueString.Spec (BaseText Escaped Shown Packed Sane Interned Honest IsArray TypeText)
open Verif.PrintString.Spec (Expressible Locale)
open Verif.Printf.Spec (Conv Piece convs render WFPiece Separated Fits)
open Verif.PrintfCall (printfHandler)
open Verif.PrintfCall.Spec (StringAt AllPass Plains)
open Verif.WrapCall (Arg Handler wrap)
open Verif.WrapCall.Spec (text Slot AllFilled Filled Plain Declares)
open Verif.Ffi.Spec (Each Bytes)
open Verif.Replay.Spec (Held)
open Verif.Trace.Spec (callText Number)

/-- `int my_printf(const char *format, ...)`, the types of printf arguments (30 to 38: arrays of 0 to 8 `char`), `const char [7]`, and from 40 on the descriptions of other new arrays. -/
def types : Db
  | 0 => { info := .unspecifiedType }
  | 1 => { info := .base 4 6, name := some (typeName .int) }
  | 2 => { info := .base 1 7, name := some (typeName .char) }
  | 3 => { info := .pointer (some 2) }
  | 4 => { info := .base 8 5, name := some (typeName .double) }
  | 5 => { info := .pointer none }
  | 6 => { info := .base 8 6, name := some (typeName .long) }
  | 7 => { info := .base 4 8, name := some (typeName .uint) }
  | 8 => { info := .base 8 8, name := some (typeName .ulong) }
  | 9 => { info := .base 8 6, name := some (typeName .llong) }
  | 10 => { info := .base 8 8, name := some (typeName .ullong) }
  | 11 => { info := .base 16 5, name := some (typeName .ldouble) }
  | 12 => { info := .base 1 9, name := some (typeName .uchar) }
  | 13 => { info := .base 2 6, name := some (typeName .short) }
  | 14 => { info := .base 2 8, name := some (typeName .ushort) }
  | 15 => { info := .qual .const (some 2) }
  | 16 => { info := .pointer (some 15) }
  | 17 => { info := .param false (some 16), name := some (text "format") }
  | 18 => { info := .param true none }
  | 19 => { info := .subprogram (some 1) [17, 18], name := some (text "my_printf") }
  | 20 | 21 | 22 | 23 | 24 | 25 | 26 | 27 | 28 | 29 => { info := .unspecifiedType }
  | 30 => { info := .array (some 2) 0 }
  | 31 => { info := .array (some 2) 1 }
  | 32 => { info := .array (some 2) 2 }
  | 33 => { info := .array (some 2) 3 }
  | 34 => { info := .array (some 2) 4 }
  | 35 => { info := .array (some 2) 5 }
  | 36 => { info := .array (some 2) 6 }
  | 37 => { info := .array (some 2) 7 }
  | 38 => { info := .array (some 2) 8 }
  | 39 => { info := .array (some 15) 7 }
  | n + 40 => { info := .array (if n / 3 = 0 then none else some (n / 3 - 1)) ((n % 3 : Nat) - 1) }

def typeRef : Printf.Ty → Ref
  | .char => 2 | .uchar => 12 | .short => 13 | .ushort => 14 | .int => 1 | .uint => 7 | .long => 6 | .ulong => 8 | .llong => 9 | .ullong => 10
  | .double => 4 | .ldouble => 11
  | .charp => 3
  | .voidp | .shortp | .intp | .longp | .llongp => 5
  | .chars n => n + 30

def slot : Option Ref → Nat
  | none => 0
  | some r => r + 1

/-- Where new arrays are put. -/
def dyn (e : Entry) : Ref :=
  match e.info with
  | .array t c => if t = some 15 ∧ c = 7 then 39 else 3 * slot t + (c + 1).toNat % 3 + 40
  | _ => 0

/-- `%d %d\n` at 2000; the stored pointer at 610, the stored numbers at 620 and 630. -/
def mem : Mem := fun x =>
  if 2000 ≤ x ∧ x < 2007 then [37, 100, 32, 37, 100, 10, 0][x - 2000]?
  else if 610 ≤ x ∧ x < 618 then [208, 7, 0, 0, 0, 0, 0, 0][x - 610]?
  else if 620 ≤ x ∧ x < 624 then [10, 0, 0, 0][x - 620]?
  else if 630 ≤ x ∧ x < 634 then [22, 0, 0, 0][x - 630]? else none

def penv : PrintfCall.Env := ⟨mem, typeRef⟩

def wenv : WrapCall.Env := ⟨fun _ => false, fun _ => false, fun d => d.take 4⟩

/-- METAC_ZERO_ENDED_STRING for the format. -/
def stringHandler (ev : Handlers.Event) (stack : List (Option Value)) : Outcome (Int × Option Value) := do
  let (r, a) ← Handlers.zeroEnded types mem stack (some ev)
  return (r, a.map fun x => ⟨dyn x.1, x.2⟩)

def env : ValueString.Env where
  vaList := fun _ => false
  params := fun a => if a = 500 then [⟨17, 610⟩, ⟨18, 700⟩] else if a = 700 then [⟨1, 620⟩, ⟨1, 630⟩] else []
  cfg := exCfg false
  pr := fun c => decide (32 ≤ c ∧ c < 127)
  flt := fun _ _ => [46]
  ptr := fun _ => [48, 120, 49]
  tags := some fun r => if r = 17 then some stringHandler else none
  dyn := dyn

/-- METAC_FORMAT_BASED_VA_ARG for `...`. -/
def tags : Ref → Option Handler := fun r => if r = 18 then some (printfHandler penv types 19) else none

theorem types_interned : Interned env types := by
  intro t c hc
  have e : ∀ k j : Nat, j < 3 → (3 * k + j) / 3 = k ∧ (3 * k + j) % 3 = j := by omega
  have h7 : ¬ (t = some 15 ∧ c = 7) := by omega
  have h : (c + 1).toNat < 3 := by omega
  have hd : env.dyn { info := .array t c } = 3 * slot t + (c + 1).toNat + 40 := by
    show (if t = some 15 ∧ c = 7 then 39 else _) = _
    rw [if_neg h7, Nat.mod_eq_of_lt h]
  rw [hd]
  cases t with
  | none => rcases hc with rfl | rfl | rfl <;> rfl
  | some r =>
    show types (3 * (r + 1) + (c + 1).toNat + 40) = _
    rw [show types (3 * (r + 1) + (c + 1).toNat + 40) = { info := .array (if (3 * (r + 1) + (c + 1).toNat) / 3 = 0 then none else some ((3 * (r + 1) + (c + 1).toNat) / 3 - 1)) (((3 * (r + 1) + (c + 1).toNat) % 3 : Nat) - 1) } from rfl]
    rw [(e (r + 1) _ h).1, (e (r + 1) _ h).2, if_neg (Nat.succ_ne_zero _), show (((c + 1).toNat : Nat) : Int) - 1 = c by omega]
    rfl

theorem types_down : ∀ r t, nextOf (types r).info = some t → t < r := by
  intro r t h
  unfold types at h
  split at h <;> simp only [nextOf] at h
  all_goals first | (cases h; done) | (cases h; decide) | skip
  split at h
  · cases h
  · cases h
    show _ < _ + 40
    omega

def kindOk : Info → Prop
  | .base s _ => s.toNat ≤ 16
  | .struct .. => False
  | .reference .. => False
  | .enumeration .. => False
  | .array t c => (c = -1 ∨ c = 0 ∨ c = 1) ∨ (t = some 2 ∨ t = some 15) ∧ 0 ≤ c ∧ c ≤ 8
  | _ => True

theorem types_kinds (r : Ref) : kindOk (types r).info := by
  unfold types
  split <;> simp only [kindOk] <;> first | trivial | decide | skip
  next n =>
  left
  omega

theorem char_size : Size types 2 1 := .stored (.base (n := 1) rfl)

theorem const_size : Size types 15 1 := .through (.qual rfl) char_size

theorem types_size {r : Ref} {n : Nat} (h : Size types r n) : n ≤ 16 := by
  induction h with
  | @stored r n h =>
    have key := types_kinds r
    cases h with
    | base h => rw [h] at key; exact key
    | enumeration h => rw [h] at key; exact key.elim
    | pointer h => decide
    | struct h => rw [h] at key; exact key.elim
    | reference h => rw [h] at key; exact key.elim
  | through h _ ih => exact ih
  | dots h _ ih => exact ih
  | @array r t n count h hc hn ih =>
    have key := types_kinds r
    rw [h] at key
    have key : ((count : Int) = -1 ∨ (count : Int) = 0 ∨ (count : Int) = 1) ∨ (some t = some 2 ∨ some t = some 15) ∧ (0 : Int) ≤ count ∧ (count : Int) ≤ 8 := key
    rcases key with key | ⟨ht | ht, key⟩
    · rcases (by omega : count = 0 ∨ count = 1) with rfl | rfl <;> omega
    · cases ht
      cases Replay.size_fun hn char_size
      omega
    · cases ht
      cases Replay.size_fun hn const_size
      omega

theorem types_sane : Sane types where
  acyclic := acyclic_of_down types_down
  named := by
    intro r bs be h hn
    unfold types at h hn
    split at h <;> first | (simp at h; done) | (simp at hn; done)
  members := by
    intro r k size ms h
    have key := types_kinds r
    rw [h] at key
    exact key.elim
  counts := by
    intro r t c h
    have key := types_kinds r
    rw [h] at key
    have key : (c = -1 ∨ c = 0 ∨ c = 1) ∨ (t = some 2 ∨ t = some 15) ∧ 0 ≤ c ∧ c ≤ 8 := key
    omega
  sizes := by
    intro r t c n h hn
    have h1 := types_size hn
    have key := types_kinds r
    rw [h] at key
    have key : (c = -1 ∨ c = 0 ∨ c = 1) ∨ (some t = some 2 ∨ some t = some 15) ∧ 0 ≤ c ∧ c ≤ 8 := key
    have hb : c * n ≤ 8 * n := Int.mul_le_mul_of_nonneg_right (by omega) (by omega)
    omega

theorem count_array {db : Db} {r : Option Ref} {c : Int} {e : Entry} (h : newElementCountEntry db r c = some (some e)) : ∃ t n, e = { info := .array t n } := by
  unfold newElementCountEntry at h
  split at h
  · cases h
  · simp only [Option.bind_eq_bind, Option.bind_eq_some_iff] at h
    obtain ⟨o, -, h⟩ := h
    split at h
    · cases h
    · have key : ∀ t : Option Ref, (match t with | none => pure none | some t => pure (some { info := .array (some t) c }) : Option (Option Entry)) = some (some e) → ∃ t n, e = { info := .array t n } := by
        intro t h
        cases t with
        | none => cases h
        | some t => cases h; exact ⟨_, _, rfl⟩
      split at h <;> (simp only [Option.bind_eq_some_iff] at h; obtain ⟨t, -, h⟩ := h; exact key t h)

theorem element_array {db : Db} {m : Mem} {v : Option Value} {c : Int} {e : Entry} {a : Nat} (h : elementCountValue db m v c = .ok (some (e, a))) : (∃ t n, e = { info := .array t n }) ∧ a ≠ 0 := by
  unfold elementCountValue at h
  split at h
  · cases h
  · next v =>
    split at h
    · cases h
    · next ha =>
      rw [ValueString.bind_ok_iff] at h
      obtain ⟨o, -, h⟩ := h
      split at h
      · cases h
      · have key : ∀ b : Option Nat, (∀ k, b = some k → k ≠ 0) → (match b with
            | none => pure none
            | some addr => do
              match ← Outcome.ofLoop (newElementCountEntry db (some v.entry) c) with
              | none => return none
              | some e => return some (e, addr) : Outcome (Option (Entry × Nat))) = .ok (some (e, a)) → (∃ t n, e = { info := .array t n }) ∧ a ≠ 0 := by
          intro b hb h
          cases b with
          | none => cases h
          | some b =>
            simp only [ValueString.bind_ok_iff] at h
            obtain ⟨o, ho, h⟩ := h
            cases o with
            | none => cases h
            | some e' =>
              cases h
              have hn : newElementCountEntry db (some v.entry) c = some (some e) := by
                generalize newElementCountEntry db (some v.entry) c = q at ho
                cases q with
                | none => cases ho
                | some q => cases ho; rfl
              exact ⟨count_array hn, hb _ rfl⟩
        simp only [] at h
        split at h
        · exact key (some v.addr) (fun k hk => by cases hk; exact ha) h
        · rw [ValueString.bind_ok_iff] at h
          obtain ⟨k, -, h⟩ := h
          refine key _ ?_ h
          intro j hj
          split at hj
          · cases hj
          · next hk => cases hj; exact hk
        · exact key none (fun k hk => by cases hk) h

theorem zero_array {db : Db} {m : Mem} {stack : List (Option Value)} {ev : Option Handlers.Event} {r : Int} {e : Entry} {a : Nat} (h : Handlers.zeroEnded db m stack ev = .ok (r, some (e, a))) :
    (∃ t n, e = { info := .array t n }) ∧ a ≠ 0 := by
  unfold Handlers.zeroEnded at h
  split at h
  · cases h
  · split at h
    · split at h
      · cases h
      · rw [ValueString.bind_ok_iff] at h
        obtain ⟨o, -, h⟩ := h
        split at h
        · cases h
        · rw [ValueString.bind_ok_iff] at h
          obtain ⟨t, -, h⟩ := h
          rw [ValueString.bind_ok_iff] at h
          obtain ⟨f, -, h⟩ := h
          split at h
          · cases h
          · split at h
            · cases h
            · rw [ValueString.bind_ok_iff] at h
              obtain ⟨p, -, h⟩ := h
              split at h
              · cases h
              · split at h
                · cases h
                · rw [ValueString.bind_ok_iff] at h
                  obtain ⟨n, -, h⟩ := h
                  rw [ValueString.bind_ok_iff] at h
                  obtain ⟨q, hq, h⟩ := h
                  cases h
                  exact element_array hq
    · cases h

theorem types_honest : Honest env types := by
  intro v outer w h
  cases h with
  | @reply tags h r ht hh hr =>
    cases ht
    have hh : (if v.entry = 17 then some stringHandler else none) = some h := hh
    split at hh
    · cases hh
      unfold stringHandler at hr
      rw [ValueString.bind_ok_iff] at hr
      obtain ⟨⟨r, a⟩, h1, h2⟩ := hr
      cases a with
      | none => cases h2
      | some a =>
        cases h2
        obtain ⟨⟨t, n, he⟩, h0⟩ := zero_array h1
        have hi : ∃ t n, (types (dyn a.1)).info = .array t n := by
          rw [he]
          show ∃ t' n', (types (if t = some 15 ∧ n = 7 then 39 else _)).info = .array t' n'
          split
          · exact ⟨_, _, rfl⟩
          · exact ⟨_, _, rfl⟩
        obtain ⟨t', n', hi⟩ := hi
        exact ⟨t', n', h0, _, _, array_final hi, hi⟩
    · cases hh

theorem types_locale : Locale env.pr := ValueString.demo_locale

theorem types_types : Types penv env types where
  arithmetic := by
    intro pty ty h
    cases pty <;> cases h <;> exact ⟨_, _, rfl, rfl, fun _ => by first | rfl | exact .inl rfl, fun _ => rfl⟩
  chars := by
    intro n hn
    refine ⟨2, ?_, ⟨_, _, rfl, rfl, fun _ => .inl rfl, fun _ => rfl⟩⟩
    have : n = 0 ∨ n = 1 ∨ n = 2 ∨ n = 3 ∨ n = 4 ∨ n = 5 ∨ n = 6 ∨ n = 7 ∨ n = 8 := by omega
    rcases this with rfl | rfl | rfl | rfl | rfl | rfl | rfl | rfl | rfl <;> rfl
  charp := ⟨2, rfl, ⟨_, _, rfl, rfl, fun _ => .inl rfl, fun _ => rfl⟩⟩
  voidp := rfl
  untagged := by rintro tags ⟨⟩; rfl
  floats := fun _ _ => by simp [env]
  addresses := fun _ => by simp [env]

theorem char_cdecl : CDecl.cdecl types 2 = .ok (some ([99, 104, 97, 114, 32] ++ [37, 115])) := CDecl.no_dep rfl

theorem const_pattern : CDecl.cdecl types 15 = .ok (some [99, 111, 110, 115, 116, 32, 99, 104, 97, 114, 32, 37, 115]) := (CDecl.one_dep rfl char_cdecl).trans (by decide +kernel)

theorem array_type : TypeText types (dyn { info := .array (some 15) (-1) }) [99, 111, 110, 115, 116, 32, 99, 104, 97, 114, 32, 91, 93] := by
  have e : types (dyn { info := .array (some 15) (-1) }) = { info := .array (some 15) (-1) } := types_interned (some 15) (-1) (.inl rfl)
  refine ⟨[99, 111, 110, 115, 116, 32, 99, 104, 97, 114, 32, 37, 115, 91, 93], ?_, by decide +kernel⟩
  rw [CDecl.one_dep (d := 15) (by rw [e]; rfl) const_pattern, e]
  decide +kernel

/-- `%d %d\n`. -/
def fmt : List Piece := [.conv ⟨[], [], none, .no, 100⟩, .lit 32, .conv ⟨[], [], none, .no, 100⟩, .lit 10]

theorem fmt_bytes : render fmt = [37, 100, 32, 37, 100, 10] := by decide

theorem char_describes : Describes types 2 .char := ⟨_, _, rfl, rfl, fun _ => .inl rfl, fun _ => rfl⟩

theorem const_final : Final types 15 (some 2) [.const] := .step (.qual rfl) (base_final char_describes)

theorem fmt_format : Format env types mem 17 (render fmt) where
  noList := rfl
  type := ⟨16, 16, 15, 2, [], [.const], _, rfl, pointer_final rfl, rfl, const_final, char_describes, array_type, by rw [fmt_bytes]; rfl⟩
  tagged := ⟨_, rfl, rfl⟩

theorem fmt_string : StringAt mem (Mem.le [208, 7, 0, 0, 0, 0, 0, 0]) (render fmt) := by
  rw [fmt_bytes]
  refine ⟨?_, rfl⟩
  intro k b hb
  match k with
  | 0 => cases hb; decide
  | 1 => cases hb; decide
  | 2 => cases hb; decide
  | 3 => cases hb; decide
  | 4 => cases hb; decide
  | 5 => cases hb; decide
  | k + 6 => simp at hb

theorem fmt_expressible : ∀ x ∈ render fmt, Expressible env.pr x := by
  rw [fmt_bytes]
  simp only [List.mem_cons, List.not_mem_nil, or_false]
  rintro x (rfl | rfl | rfl | rfl | rfl | rfl)
  · exact .inl rfl
  · exact .inl rfl
  · exact .inl rfl
  · exact .inl rfl
  · exact .inl rfl
  · exact .inr ⟨_, .n⟩

theorem int_pass : AllPass penv (convs fmt) [.val .int [10, 0, 0, 0], .val .int [22, 0, 0, 0]] [.bytes ⟨1, false, false⟩ [10, 0, 0, 0], .bytes ⟨1, false, false⟩ [22, 0, 0, 0]] :=
  .cons (.plain (ty := .int) rfl rfl) (.cons (.plain (ty := .int) rfl rfl) .nil)

theorem int_legible : ∀ c a, (c, a) ∈ (convs fmt).zip [Arg.val .int [10, 0, 0, 0], .val .int [22, 0, 0, 0]] → Legible penv env c a := by
  intro c a h
  have hc : c = ⟨[], [], none, .no, 100⟩ := by
    have := (List.of_mem_zip h).1
    simpa [fmt, convs] using this
  subst hc
  exact ⟨by decide, (fun h => by cases h), (fun h => by cases h)⟩

theorem fmt_wf : ∀ p ∈ fmt, WFPiece p := by
  simp only [fmt, List.mem_cons, List.not_mem_nil, or_false]
  rintro p (rfl | rfl | rfl | rfl)
  · exact (Replay.fits (.inl rfl)).1
  · show (32 : UInt8) ≠ 37; decide
  · exact (Replay.fits (.inl rfl)).1
  · show (10 : UInt8) ≠ 37; decide

theorem fmt_fits : ∀ c ∈ convs fmt, Fits 10 c := by
  simp only [fmt, convs, List.mem_cons, List.not_mem_nil, or_false]
  rintro c (rfl | rfl) <;> exact (Replay.fits (.inl rfl)).2

theorem two_digits {n : Nat} {u : Text} (h1 : 10 ≤ n) (h2 : n < 100) (h : Decimal n u) : u = [UInt8.ofNat (48 + n / 10), UInt8.ofNat (48 + n % 10)] := by
  cases h with
  | digit => omega
  | @more k d s h0 hd h =>
    rw [Trace.digit (by omega) h, show (10 * k + d) / 10 = k by omega, show (10 * k + d) % 10 = d by omega]
    rfl

theorem int_text {n : Nat} {u : Text} (h1 : 10 ≤ n) (h2 : n < 100) (h : BaseText env .int n u) : u = [UInt8.ofNat (48 + n / 10), UInt8.ofNat (48 + n % 10)] := by
  cases h with
  | integer _ _ _ h =>
    rw [show intOf .int n = (n : Int) from by simp only [intOf, twos]; rw [if_pos (by simp only [Value.Spec.sizeOf]; omega)]] at h
    generalize hz : (n : Int) = z at h
    cases h with
    | nonneg h => cases Int.ofNat.inj hz; exact two_digits h1 h2 h
    | neg h0 _ => omega
  | floating h => exact absurd trivial h

theorem int_arg {n : Nat} {w : List UInt8} (hw : Mem.le (w.take 4) = n) (h1 : 10 ≤ n) (h2 : n < 100) {u : Text} (h : ArgText penv env ⟨[], [], none, .no, 100⟩ (.val .int w) u) :
    u = text "(int)" ++ [UInt8.ofNat (48 + n / 10), UInt8.ofNat (48 + n % 10)] := by
  generalize hc : (⟨[], [], none, .no, 100⟩ : Conv) = c at h
  generalize ha : Arg.val .int w = a at h
  cases h with
  | number hp har hb =>
    subst hc
    cases hp
    cases har
    cases ha
    rw [show Value.Spec.sizeOf Ty.int = 4 from rfl, hw] at hb
    rw [int_text h1 h2 hb]
    rfl
  | pointer => cases ha
  | nullPointer => cases ha
  | null => cases ha
  | empty => cases ha
  | string => cases ha

theorem escape_unique {s : List UInt8} {e e' : Text} (h : Escaped s e) (h' : Escaped s e') : e = e' := by
  induction h generalizing e' with
  | nil => cases h'; rfl
  | plain h1 _ ih =>
    cases h' with
    | plain _ h => rw [ih h]
    | escape h2 _ => exact absurd h2 (h1 _)
  | escape h1 _ ih =>
    cases h' with
    | plain h2 _ => exact absurd h1 (h2 _)
    | escape h2 h =>
      rw [ih h]
      congr 2
      cases h1 <;> cases h2 <;> rfl

theorem fmt_escaped : Escaped (render fmt) (text "%d %d\\n") := by
  rw [fmt_bytes]
  have p : ∀ c : UInt8, c = 37 ∨ c = 100 ∨ c = 32 → ∀ e, ¬ PrintString.Spec.Simple e c := by
    intro c hc e h
    cases h <;> simp at hc
  exact .plain (p _ (by decide)) (.plain (p _ (by decide)) (.plain (p _ (by decide)) (.plain (p _ (by decide)) (.plain (p _ (by decide)) (.escape .n .nil)))))

/-- **C109** is FALSE of a format without conversion specifications, as in `my_printf("done\n")`: the call is recorded, but has no text. -/
theorem C109_no_conversions_false (penv : PrintfCall.Env) (env : ValueString.Env) (deep : Bool) (db : Db) (hs : Sane db) (hin : Interned env db) (hh : Honest env db) (hp : Locale env.pr) (m : Mem) (v : Value) (r : Option Ref) (ps : List Ref)
    (hf : (db v.entry).info = .subprogram r ps) (hv : v.addr ≠ 0) (fmt dots : Ref) (hd : WrapCall.Spec.Dots db dots) (w : List UInt8) (pieces : List Piece) (hnone : convs pieces = []) (args extra : List Arg) (vs : List View)
    (ha : AllPass penv (convs pieces) args vs) (slots : List Slot) (xs : List View) (hfill : AllFilled (fun _ _ x => x = vs) (slots ++ [.bytes fmt w, .rest dots (args ++ extra)]) xs)
    (hheld : Each (Held env.toEnv m) xs (env.params v.addr)) (t : Text) : valueString env deep db m (some v) ≠ .ok (some t) := by
  refine Trace.C107_no_dots_false env deep db hs hin hh hp m v r ps hf hv _ _ xs hfill hheld dots (args ++ extra) (by simp) hd ?_ t
  rintro _ rfl
  rw [hnone] at ha
  cases ha
  rfl

/-- The call of doc/demo is recorded, and its text is what the documentation says. -/
theorem C109_demo : ∃ st' h', wrap wenv types (some tags) (some 1) 19 WrapCall.demoSto ([] ++ .val .ptr [208, 7, 0, 0, 0, 0, 0, 0] :: ([.val .int [10, 0, 0, 0], .val .int [22, 0, 0, 0]] ++ [])) (WrapCall.demoHeap fun _ => false) = .ok (true, st', h') ∧
    Each (Held env.toEnv mem) (views st'.items) (env.params 500) ∧
    valueString env true types mem (some ⟨19, 500⟩) = .ok (some (text "my_printf(\"%d %d\\n\", (int)10, (int)22)")) := by
  obtain ⟨st', h', e, hfill, h⟩ := C109_recorded_partial wenv penv env types types_sane types_interned types_honest types_locale (fun _ => rfl) types_types tags 19 17 18 16 16 [] (some 15) [] (some 1) rfl (text "my_printf") rfl
    ⟨rfl, rfl⟩ (pointer_final rfl) rfl ⟨_, rfl⟩ rfl rfl [208, 7, 0, 0, 0, 0, 0, 0] rfl (by decide) fmt fmt_string (by rw [fmt_bytes]; decide) fmt_expressible fmt_wf trivial (by decide) fmt_fits (by simp [fmt, convs])
    _ [] _ int_pass int_legible [] [] .nil [] .nil (by simp) WrapCall.demoSto (WrapCall.demoHeap fun _ => false) (WrapCall.demo_consistent _) rfl 1 rfl (by decide) (fun _ => rfl)
  have hheld : Each (Held env.toEnv mem) (views st'.items) (env.params 500) := by
    generalize views st'.items = xs at hfill
    cases hfill with
    | cons a hf =>
    cases a with
    | bytes i1 =>
    cases hf with
    | cons a hf =>
    cases hf
    cases a with
    | rest i2 hx =>
    subst hx
    exact .cons (.bytes i1.symm (by decide) (by decide) (Replay.bytes_at (by decide +kernel)))
      (.cons (.list i2.symm (by decide) (.cons (.bytes rfl (by decide) (by decide) (Replay.bytes_at (by decide +kernel))) (.cons (.bytes rfl (by decide) (by decide) (Replay.bytes_at (by decide +kernel))) .nil))) .nil)
  refine ⟨st', h', e, hheld, ?_⟩
  obtain ⟨us, e, us', k1, k2, k3, k4⟩ := h mem ⟨19, 500⟩ rfl (by decide) fmt_string fmt_format hheld
  rw [k4]
  cases k1
  rw [escape_unique k2 fmt_escaped]
  generalize hcs : convs fmt = cs at k3
  cases k3 with
  | cons a1 k3 =>
  cases k3 with
  | cons a2 k3 =>
  cases hcs
  cases k3
  rw [int_arg (n := 10) rfl (by decide) (by decide) a1, int_arg (n := 22) rfl (by decide) (by decide) a2]
  rfl

end Verif.PrintfText
