import Verif.PrintfText.Lemmas
/-
Lemmas for C109: one argument, the list of them, the format.
-/
namespace Verif.PrintfText
open Verif Verif.Entry Verif.Entry.Spec Verif.Value Verif.Value.Spec Verif.ParamStorage Verif.ParamStorage.Spec Verif.PrintfText.Spec
open Verif.ValueString (Text valueString)
open Verif.ValueString.Spec (BaseText Escaped TypeText Shown Object Packed Sane Interned Honest Literal Counted Argument IsArray Target Reply Fresh)
open Verif.PrintString.Spec (Expressible Locale Simple Chars)
open Verif.Printf.Spec (Conv promised)
open Verif.PrintfCall.Spec (passed StringAt width Passes AllPass)
open Verif.WrapCall (Arg)
open Verif.WrapCall.Spec (text Slot AllFilled Filled)
open Verif.Ffi.Spec (Each Bytes)
open Verif.Replay.Spec (Held)
open Verif.Trace.Spec (callText Number)

theorem arith_size {pty : Printf.Ty} {ty : Ty} (h : arith pty = some ty) : (passed pty).2 = Value.Spec.sizeOf ty ∧ (passed pty).2 ≤ width (passed pty).1 ∧ ty ≠ .bool ∧ (ty = .char → pty = .char) := by
  cases pty <;> simp [arith] at h <;> subst h <;> simp [passed, Value.Spec.sizeOf, width]

theorem promised_arith {c : Conv} {pty : Printf.Ty} (h : promised c = some pty) (hn : c.conv ≠ 110) : arith pty ≠ none ∨ pty = .voidp := by
  unfold promised at h
  (repeat' split at h) <;> first | (cases h; done) | (cases h; simp [arith]; done) | contradiction

/-- No value of the list is a pointer. -/
def NoPointer (db : Db) (outer : List Value) : Prop := ∀ w ∈ outer, ∀ x qs t, Final db w.entry (some x) qs → (db x).info ≠ .pointer t

theorem fresh_of {db : Db} {m : Mem} {outer : List Value} (h : NoPointer db outer) (a : Nat) : Fresh db m outer a :=
  fun w hw x qs t hf hi _ => absurd hi (h w hw x qs t hf)

theorem reply_none {penv : PrintfCall.Env} {env : ValueString.Env} {db : Db} (ht : Types penv env db) {v : Value} (hv : v.entry = penv.entry .voidp) (ev : Handlers.Event) (outer : List Value) : Reply env ev v outer none := by
  cases h : env.tags with
  | none => exact .noMap h
  | some tags => exact .noHandler h (by rw [hv]; exact ht.untagged tags h)

theorem holds_eight {m : Mem} {a : Nat} {w : List UInt8} (hw : w.length = 8) (hb : Bytes m a w) : Holds m a 8 (Mem.le w) := hw ▸ Trace.holds_bytes hb

theorem le_one {w : List UInt8} (h : 1 ≤ w.length) : ∃ b, w.head? = some b ∧ Mem.le (w.take 1) = b.toNat := by
  match w, h with
  | b :: l, _ => exact ⟨b, rfl, by simp [Mem.le]⟩

/-- An empty string in an array. -/
theorem empty_shown {env : ValueString.Env} {deep : Bool} {db : Db} (hnm : Named db) (hp : Locale env.pr) {m : Mem} {outer : List Value} {w : Value} {k : Ref} (hi : (db w.entry).info = .array (some k) 1) (hk : Describes db k .char)
    (ha : w.addr ≠ 0) (hb : m w.addr = some 0) : Shown env deep db m outer w [123, 48, 44, 125] := by
  have hfin := base_final hk
  have hobj : Value.Object db m ⟨k, w.addr⟩ .char 0 := by
    refine ⟨⟨_, _, hfin, hk⟩, ?_, ha, ⟨by decide, ?_⟩, fun h => by cases h⟩
    · rintro ⟨mi, hm, -⟩
      obtain ⟨_, _, hi, -⟩ := hk
      rw [hm] at hi
      cases hi
    · intro j hj
      have : j = 0 := by simp only [Value.Spec.sizeOf] at hj; omega
      subst this
      rw [Nat.add_zero, hb]
      rfl
  obtain ⟨u, e, hu⟩ := ValueString.C60_text_partial env db hnm hp m ⟨k, w.addr⟩ .char 0 hobj (fun _ => by decide)
  have hu : u = [48] := by
    cases hu with
    | integer _ h => exact absurd rfl h
    | printable h _ => exact absurd (.inl (by decide)) (hp _ h)
    | other _ h =>
      generalize hz : intOf .char 0 = z at h
      have hz : z = 0 := by rw [← hz]; decide
      cases h with
      | @nonneg n _ h =>
        have hn : n = 0 := Int.ofNat.inj hz
        subst hn
        generalize hn : 0 = n at h
        cases h with
        | digit => subst hn; rfl
        | more => omega
      | neg h _ => omega
    | floating h => exact absurd trivial h
  subst hu
  obtain ⟨bs', be, hci, hcn, hrest⟩ := id hk
  have hsz : Size db k bs'.toNat := .stored (.base hci)
  have hc : Shown env deep db m (w :: outer) ⟨k, w.addr⟩ [48] := .base (s := bs') (e := be) ⟨not_packed (by rw [hci]; intro u t h; cases h), ha, _, _, hfin, hci⟩ e
  have hob : Object env db w (.array (some k) 1) := ⟨not_packed (by rw [hi]; intro u t h; cases h), ha, _, _, array_final hi, hi⟩
  have harr : IsArray db w (some k) 1 := ⟨ha, _, _, array_final hi, hi⟩
  exact .array (ws := [(⟨k, w.addr⟩, [48])]) hob (.known (by decide)) (.short harr (by decide)) harr rfl (by
    intro i x u hx
    cases i with
    | zero =>
      cases hx
      exact ⟨k, _, rfl, hsz, by simp⟩
    | succ i => simp at hx) (by
    intro x u hx
    simp only [List.mem_singleton] at hx
    cases hx
    exact hc)

theorem one_text : typeName .char ++ [32] ++ ([91] ++ decimalInt (([] : List UInt8).length + 1 : Nat) ++ [93]) = [99, 104, 97, 114, 32, 91, 49, 93] ++ List.replicate 0 32 := by
  have : decimalInt ((([] : List UInt8).length + 1 : Nat) : Int) = [49] := by
    simp only [decimalInt, List.length_nil]
    unfold decimal
    rfl
  rw [this]
  rfl

/-- One variable argument. -/
theorem arg_shown {penv : PrintfCall.Env} {env : ValueString.Env} {db : Db} (ht : Types penv env db) (hnm : Named db) (hp : Locale env.pr) {m : Mem} {c : Conv} {a : Arg} {x : View} {w : Value}
    (hpass : Passes penv c a x) (hl : Legible penv env c a) (hheld : Held env.toEnv m x w) {outer : List Value} (ho : NoPointer db outer) :
    ∃ u y, Shown env true db m outer w u ∧ Argument db w u y ∧ ArgText penv env c a y ∧ w.addr ≠ 0 := by
  cases hpass with
  | @plain pty bs hpr hlen =>
    cases hheld with
    | bytes he hadd _ hb =>
      have he : w.entry = penv.entry pty := he
      rcases promised_arith hpr hl.noCount with har | rfl
      · obtain ⟨ty, har⟩ := Option.ne_none_iff_exists'.1 har
        obtain ⟨hsz, hle, hbool, hchar⟩ := arith_size har
        have hd := ht.arithmetic _ _ har
        rw [← he] at hd
        have hfin := base_final hd
        have hlen' : (bs.take (passed pty).2).length = Value.Spec.sizeOf ty := by rw [List.length_take, hlen]; omega
        have hobj : Value.Object db m w ty (Mem.le (bs.take (Value.Spec.sizeOf ty))) := by
          refine ⟨⟨_, _, hfin, hd⟩, ?_, hadd, ?_, fun h => absurd h hbool⟩
          · rintro ⟨mi, hm, -⟩
            obtain ⟨_, _, hi, -⟩ := hd
            rw [hm] at hi
            cases hi
          · rw [← hsz]
            have := Trace.holds_bytes hb
            rwa [hlen', ← hsz] at this
        obtain ⟨u, e, hu⟩ := ValueString.C60_text_partial env db hnm hp m w ty _ hobj (by
          intro hty
          have hpc := hchar hty
          subst hty
          subst hpc
          obtain ⟨h1, h2⟩ := hl.char hpr bs rfl
          obtain ⟨b, hb1, hb2⟩ := le_one (w := bs) (by rw [hlen]; decide)
          rw [show Value.Spec.sizeOf Ty.char = 1 from rfl, hb2]
          rw [hb1] at h1 h2
          constructor
          · intro h3
            exact h1 (by rw [show b = 39 from UInt8.toNat_inj.1 h3])
          · intro h3
            exact h2 (by rw [show b = 92 from UInt8.toNat_inj.1 h3]))
        obtain ⟨bs', be, hi, -⟩ := id hd
        refine ⟨u, _, .base (s := bs') (e := be) ⟨not_packed (by rw [hi]; intro u t h; cases h), hadd, _, _, hfin, hi⟩ e, .typed (base_text hd) (cut_base ty) (base_head ht hu), ?_, hadd⟩
        exact .number hpr har hu
      · have hi : (db w.entry).info = .pointer none := by rw [he]; exact ht.voidp
        have hb8 : bs.length = 8 := hlen
        have htk : bs.take (passed .voidp).2 = bs := by rw [List.take_of_length_le]; rw [hb8]; decide
        rw [htk] at hb
        have hh := holds_eight hb8 hb
        have hob : Object env db w (.pointer none) := ⟨not_packed (by rw [hi]; intro u t h; cases h), hadd, _, _, pointer_final hi, hi⟩
        have hcut : CDecl.Spec.Cut [118, 111, 105, 100, 32, 42, 32] [118, 111, 105, 100, 32, 42] := ⟨⟨1, rfl⟩, by simp⟩
        by_cases h0 : Mem.le bs = 0
        · rw [h0] at hh
          exact ⟨_, _, .null hob hh, .typed (void_text hi) hcut (by simp), .nullPointer (c := c) (w := bs) hpr h0, hadd⟩
        · exact ⟨_, _, .void rfl hob hh h0 (fresh_of ho _) (reply_none ht he _ _), .typed (void_text hi) hcut (ht.addresses _), .pointer (c := c) (w := bs) hpr h0, hadd⟩
  | null hc =>
    cases hheld with
    | bytes he hadd _ hb =>
      have he : w.entry = penv.entry .charp := he
      obtain ⟨k, hi, hk⟩ := ht.charp
      rw [← he] at hi
      have hh := holds_eight (by rfl) hb
      have hob : Object env db w (.pointer (some k)) := ⟨not_packed (by rw [hi]; intro u t h; cases h), hadd, _, _, pointer_final hi, hi⟩
      have hcut : CDecl.Spec.Cut (typeName .char ++ [32, 42, 32]) [99, 104, 97, 114, 32, 42] := ⟨⟨1, rfl⟩, by simp⟩
      exact ⟨_, _, .null hob hh, .typed (pointer_text hi hk) hcut (by simp), .null hc rfl, hadd⟩
  | @str bs s hc hlen h0 hstr hs =>
    cases hheld with
    | bytes he hadd _ hb =>
      have he : w.entry = penv.entry (.chars (s.length + 1)) := he
      obtain ⟨k, hi, hk⟩ := ht.chars (s.length + 1) (by omega)
      have hi' : (db w.entry).info = .array (some k) ((s.length + 1 : Nat) : Int) := by rw [he, hi]
      have hx := hl.string hc bs s rfl hstr
      obtain ⟨e, hesc⟩ := escaped_exists s
      have hb' : Bytes m w.addr (s ++ [0]) := by
        intro i b hib
        apply hb i b
        rw [show s ++ 0 :: List.replicate (7 - s.length) 0 = (s ++ [0]) ++ List.replicate (7 - s.length) 0 by simp]
        have hlt : i < (s ++ [(0 : UInt8)]).length := by
          rcases Nat.lt_or_ge i (s ++ [(0 : UInt8)]).length with h | h
          · exact h
          · rw [List.getElem?_eq_none h] at hib; cases hib
        rw [List.getElem?_append_left hlt]
        exact hib
      by_cases hne : s = []
      · subst hne
        exact ⟨_, _, empty_shown hnm hp hi' hk hadd (hb' 0 0 rfl), .typed (cut := [99, 104, 97, 114, 32, 91, 49, 93]) (array_text hi' hk) (by rw [one_text]; exact cut_of 0 (by decide)) (by decide), .empty hc hstr, hadd⟩
      exact ⟨_, _, chars_shown (by rw [hi']; rfl) (base_final hk) hk hadd hne hx hb' hesc, .literal (array_text hi' hk) (quoted_head e), .string hc hstr hne hesc, hadd⟩

/-- All variable arguments. -/
theorem args_shown {penv : PrintfCall.Env} {env : ValueString.Env} {db : Db} (ht : Types penv env db) (hnm : Named db) (hp : Locale env.pr) {m : Mem} {outer : List Value} (ho : NoPointer db outer)
    {cs : List Conv} {as : List Arg} {xs : List View} (hpass : AllPass penv cs as xs) (hl : ∀ c a, (c, a) ∈ cs.zip as → Legible penv env c a) {ws : List Value} (hheld : Each (Held env.toEnv m) xs ws) :
    ∃ (ps : List (Value × Text)) (us : List Text), ps.map (·.1) = ws ∧ (∀ w u, (w, u) ∈ ps → w.addr ≠ 0) ∧ (∀ w u, (w, u) ∈ ps → Shown env true db m outer w u) ∧ us.length = ps.length ∧
      (∀ (i : Nat) w u x, ps[i]? = some (w, u) → us[i]? = some x → Argument db w u x) ∧ AllText penv env cs as us := by
  induction hpass generalizing ws with
  | nil =>
    cases hheld
    exact ⟨[], [], rfl, by simp, by simp, rfl, by simp, .nil⟩
  | cons h1 _ ih =>
    cases hheld with
    | cons h2 h3 =>
      obtain ⟨ps, us, k1, k2, k3, k4, k5, k6⟩ := ih (fun c a h => hl c a (by simp [h])) h3
      obtain ⟨u, y, j1, j2, j3, j4⟩ := arg_shown ht hnm hp h1 (hl _ _ (by simp)) h2 ho
      refine ⟨(_, u) :: ps, y :: us, by rw [List.map_cons, k1], ?_, ?_, by simp [k4], ?_, .cons j3 k6⟩
      · intro w u hm
        rcases List.mem_cons.1 hm with hm | hm
        · cases hm; exact j4
        · exact k2 w u hm
      · intro w u hm
        rcases List.mem_cons.1 hm with hm | hm
        · cases hm; exact j1
        · exact k3 w u hm
      · intro i w u x hi hx
        cases i with
        | zero =>
          simp only [List.getElem?_cons_zero, Option.some.injEq] at hi hx
          cases hi
          subst hx
          exact j2
        | succ i => exact k5 i w u x (by simpa using hi) (by simpa using hx)

theorem string_cstring {m : Mem} {a : Nat} {s : List UInt8} (h : StringAt m a s) : Handlers.Spec.CString m a s.length := by
  refine ⟨fun k hk => ?_, h.2⟩
  have := h.1 k _ (List.getElem?_eq_getElem hk)
  exact ⟨_, this.2, this.1⟩

theorem string_bytes {m : Mem} {a : Nat} {s : List UInt8} (h : StringAt m a s) : Bytes m a (s ++ [0]) := by
  intro i b hib
  rcases Nat.lt_or_ge i s.length with hi | hi
  · rw [List.getElem?_append_left hi] at hib
    exact (h.1 i b hib).2
  · rw [List.getElem?_append_right hi] at hib
    rcases Nat.eq_or_lt_of_le hi with rfl | hi
    · simp only [Nat.sub_self, List.getElem?_cons_zero, Option.some.injEq] at hib
      subst hib
      exact h.2
    · rw [List.getElem?_eq_none (by simp; omega)] at hib
      cases hib

/-- The format. -/
theorem format_shown {env : ValueString.Env} {db : Db} {m : Mem} {p : Ref} {s : List UInt8} (hf : Format env db m p s) {w : Value} {bs : List UInt8} (hw : w.entry = p) (ha : w.addr ≠ 0) (hlen : bs.length = 8)
    (hb : Bytes m w.addr bs) (h0 : Mem.le bs ≠ 0) (hs : StringAt m (Mem.le bs) s) (hne : s ≠ []) (hx : ∀ x ∈ s, Expressible env.pr x) (hl : s.length + 1 < 2 ^ 31) {outer : List Value} (ho : NoPointer db outer)
    {e : Text} (he : Escaped s e) : Shown env true db m outer w (quoted e) := by
  subst hw
  obtain ⟨q, x, t, c, qs, qs', type, hpi, hfq, hxi, hft, hc, htype, hdyn⟩ := hf.type
  obtain ⟨tags, htags, htag⟩ := hf.tagged
  have hfw : Final db w.entry (some x) (own db w.entry ++ qs) := .step (.param hpi) hfq
  have hh := holds_eight hlen hb
  have hob : Object env db w (.pointer (some t)) := by
    refine ⟨?_, ha, _, _, hfw, hxi⟩
    rintro ⟨u, t', hi, h | h | ⟨y, qs2, t2, ps2, hy, h⟩⟩
    · rw [hpi] at hi
      cases hi
      cases h
    · rw [hf.noList] at h
      cases h
    · cases final_unique hfw hy
      rcases h with h | h <;> (rw [hxi] at h; cases h)
  obtain ⟨bs', be, hci, hcn, hrest⟩ := id hc
  have hz := ((Handlers.C57_string_partial db m w (outer.map some) ha .pointerArrayCount (.inl rfl) (some x) _ hfw).1 x t c bs' be qs' rfl hxi hft hci hcn).1 _ _ hh h0 (string_cstring hs) hl
  have hr : Reply env .pointerArrayCount w outer (some ⟨env.dyn { info := .array (some t) ((s.length : Int) + 1) }, Mem.le bs⟩) := by
    refine .reply htags htag ?_
    simp only [hz, Outcome.bind_ok]
    rfl
  have hai : (db (env.dyn { info := .array (some t) ((s.length : Int) + 1) })).info = .array (some t) ((s.length : Int) + 1) := by rw [hdyn]
  have harr : IsArray db ⟨env.dyn { info := .array (some t) ((s.length : Int) + 1) }, Mem.le bs⟩ (some t) ((s.length : Int) + 1) := ⟨h0, _, _, array_final hai, hai⟩
  exact .string rfl hob hh h0 (fresh_of ho _) (.reply hr rfl harr) (chars_shown hai hft hc h0 hne hx (string_bytes hs) he) harr htype (quoted_head e)

end Verif.PrintfText
