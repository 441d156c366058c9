import Verif.ValueString.Balance
import Verif.Entry.Acyclic
/-
Theorems about printed values.
-/
namespace Verif.ValueString
open Verif Verif.Entry Verif.Entry.Spec Verif.Value Verif.Value.Spec Verif.Handlers Verif.PrintString Verif.PrintString.Spec Verif.ValueString.Spec

/-! ### C60: base types -/

theorem stringLoop_hit {env : Env} {db : Db} (hn : Named db) {m : Mem} {v : Value} {x : Ref} {qs : List Qual} (h : Final db v.entry (some x) qs)
    {t : Ty} (hd : Describes db x t) {n : Nat} (hg : getTy env.cfg db m (some v) t = .ok (.ok n)) : ∀ (ts : List Ty), t ∈ ts →
    stringLoop env db m v ts = (tyText env t n >>= fun s => .ok (some s))
  | [], ht => by simp at ht
  | t' :: ts, ht => by
    have hi := isTy_iff hn h hd t'
    by_cases he : t' = t
    · subst he
      simp only [stringLoop, hi, decide_true, Outcome.bind_ok, if_true, hg]
      rfl
    · have ht' : t ∈ ts := by
        simp at ht
        rcases ht with rfl | ht
        · exact absurd rfl he
        · exact ht
      simp only [stringLoop, hi, he, decide_false, Outcome.bind_ok, Bool.false_eq_true, if_false]
      exact stringLoop_hit hn h hd hg ts ht'

theorem stringLoop_miss {env : Env} {db : Db} (hn : Named db) {m : Mem} {v : Value} {f : Option Ref} {qs : List Qual} (h : Final db v.entry f qs)
    (ts : List Ty) (hno : ∀ t, ¬ ∃ x, f = some x ∧ Describes db x t) : stringLoop env db m v ts = .ok none := by
  induction ts with
  | nil => rfl
  | cons t ts ih =>
    simp only [stringLoop, isTy_no hn h (hno t), Outcome.bind_ok, Bool.false_eq_true, if_false]
    exact ih

theorem string_order (t : Ty) : t ∈ stringOrder := by cases t <;> simp [stringOrder]

theorem object_text {env : Env} {db : Db} (hn : Named db) {m : Mem} {v : Value} {t : Ty} {n : Nat} (h : Value.Object db m v t n) :
    baseTypeString env db m v = (tyText env t n >>= fun s => .ok (some s)) := by
  obtain ⟨⟨x, qs, hf, hd⟩, hb, h0, hh, _⟩ := h
  exact stringLoop_hit hn hf hd ((getTy_plain (cfg := env.cfg) hn hf h0 hd hb).1 n hh) stringOrder (string_order t)

theorem intText_decimalInt (z : Int) : IntText z (decimalInt z) := by
  unfold decimalInt
  split
  · have := IntText.neg (n := z.natAbs) (by omega) (decimal_spec z.natAbs)
    rwa [show -(z.natAbs : Int) = z by omega] at this
  · have := IntText.nonneg (decimal_spec z.natAbs)
    rwa [show (z.natAbs : Int) = z by omega] at this

/-- The text of a number of type `t`, except for the characters `'` and `\`. -/
theorem tyText_base {env : Env} (hp : Locale env.pr) {t : Ty} {n : Nat} (hlt : Integral t → n < 256 ^ Value.Spec.sizeOf t) (hu : useOk t n = true)
    (hq : t = .char → n ≠ 39 ∧ n ≠ 92) : ∃ s, (tyText env t n >>= fun s => .ok (some s)) = .ok (some s) ∧ BaseText env t n s := by
  have int : Integral t → t ≠ .char → t ≠ .bool → ∃ s, (tyText env t n >>= fun s => .ok (some s)) = .ok (some s) ∧ BaseText env t n s := by
    intro hi h1 h2
    refine ⟨decimalInt (numVal t n), ?_, .integer hi h1 h2 ?_⟩
    · cases t <;> simp [Integral] at hi <;> first | exact absurd rfl h1 | exact absurd rfl h2 | rfl
    · rw [numVal_int hi (hlt hi)]
      exact intText_decimalInt _
  have flt : ¬ Integral t → ∃ s, (tyText env t n >>= fun s => .ok (some s)) = .ok (some s) ∧ BaseText env t n s := by
    intro hi
    refine ⟨env.flt t n, ?_, .floating hi⟩
    cases t <;> simp [Integral] at hi <;> rfl
  by_cases hi : Integral t
  · by_cases h1 : t = .char
    · subst h1
      have hlt : n < 256 := hlt hi
      obtain ⟨q1, q2⟩ := hq rfl
      have ne : ∀ k < 256, n ≠ k → UInt8.ofNat n ≠ UInt8.ofNat k := by
        intro k hk hne e
        have := congrArg UInt8.toNat e
        simp only [UInt8.toNat_ofNat'] at this
        omega
      cases e : env.pr (UInt8.ofNat n) with
      | true =>
        refine ⟨[39, UInt8.ofNat n, 39], ?_, .printable e (.plain (ne 39 (by decide) q1) (ne 92 (by decide) q2) (hp _ e))⟩
        simp only [tyText, e, if_true]
        rfl
      | false =>
        refine ⟨decimalInt (numVal .char n), ?_, .other e ?_⟩
        · simp only [tyText, e, Bool.false_eq_true, if_false]
          rfl
        · rw [numVal_int hi hlt]
          exact intText_decimalInt _
    · by_cases h2 : t = .bool
      · subst h2
        have hb : useOk .bool n = true := hu
        have hv : n ≤ 1 := by simpa [useOk] using hu
        by_cases h0 : n = 1
        · subst h0
          exact ⟨_, by simp only [tyText, hb, if_true, Outcome.bind_ok], .true⟩
        · have h1 : n = 0 := by omega
          subst h1
          exact ⟨_, by simp only [tyText, hb, if_true, Outcome.bind_ok]; rfl, .false⟩
      · exact int hi h1 h2
  · exact flt hi

/-- C60, except for the characters `'` and `\`: integers are printed in decimal, truth values
as `true` and `false`, printable characters as character constants denoting them, other
characters as numbers. -/
theorem C60_text_partial (env : Env) (db : Db) (hn : Named db) (hp : Locale env.pr) (m : Mem) (v : Value) (t : Ty) (n : Nat) (h : Value.Object db m v t n)
    (hq : t = .char → n ≠ 39 ∧ n ≠ 92) : ∃ s, baseTypeString env db m v = .ok (some s) ∧ BaseText env t n s := by
  rw [object_text hn h]
  exact tyText_base hp (fun _ => h.content.1) (object_use h) hq

/-- C60 fails for the characters `'` and `\`: they are printed as `'''` and `'\'`, which are
no character constants. -/
theorem C60_char_false (env : Env) (db : Db) (hn : Named db) (m : Mem) (v : Value) (n : Nat) (h : Value.Object db m v .char n) (hq : n = 39 ∨ n = 92)
    (hp : env.pr (UInt8.ofNat n) = true) : ∃ s, baseTypeString env db m v = .ok (some s) ∧ ∀ c, ¬ CharConstant c s := by
  refine ⟨[39, UInt8.ofNat n, 39], ?_, ?_⟩
  · rw [object_text hn h]
    simp only [tyText, hp, if_true, Outcome.bind_ok]
  · intro c hc
    rcases hq with rfl | rfl
    · cases hc
      simp_all
    · cases hc
      simp_all

/-- C60: for objects of other types there is no text. -/
theorem C60_other (env : Env) (db : Db) (hn : Named db) (m : Mem) (v : Value) (f : Option Ref) (qs : List Qual) (h : Final db v.entry f qs)
    (hno : ∀ x t, f = some x → ¬ Describes db x t) : baseTypeString env db m v = .ok none :=
  stringLoop_miss hn h _ fun t ⟨x, hx, hd⟩ => hno x t hx hd

/-! ### C43 -/

/-- A list of things with a property each. -/
theorem exists_list {α : Type} {P : Nat → α → Prop} : ∀ n, (∀ i < n, ∃ a, P i a) → ∃ l : List α, l.length = n ∧ ∀ (i : Nat) a, l[i]? = some a → P i a
  | 0, _ => ⟨[], rfl, by simp⟩
  | n + 1, h => by
    obtain ⟨l, hl, hp⟩ := exists_list n fun i hi => h i (by omega)
    obtain ⟨a, ha⟩ := h n (by omega)
    refine ⟨l ++ [a], by simp [hl], ?_⟩
    intro i b hb
    by_cases hi : i < l.length
    · rw [List.getElem?_append_left hi] at hb
      exact hp i b hb
    · rw [List.getElem?_append_right (by omega)] at hb
      have e : i = n := by
        by_cases e : i - l.length = 0
        · omega
        · rw [List.getElem?_eq_none (by simp; omega)] at hb
          cases hb
      subst e
      simp only [hl, Nat.sub_self, List.getElem?_cons_zero, Option.some.injEq] at hb
      rw [← hb]
      exact ha

/-- An array whose bytes are accessible is printed as a literal or not. -/
theorem literal_or_not {pr : UInt8 → Bool} {db : Db} {m : Mem} {v : Value} {r : Ref} {n : Nat} (ha : IsArray db v (some r) n) (hm : ∀ j < n, m (v.addr + j) ≠ none) :
    (∃ t, Literal pr db m v t) ∨ NoLiteral pr db m v := by
  by_cases hc : ∃ k, Chars db v k
  · obtain ⟨k, hc⟩ := hc
    have e : n = k := by
      have := chars_array hc ha
      omega
    subst e
    by_cases hn : n < 2
    · exact .inr (.short ha (by omega))
    · cases h0 : m (v.addr + (n - 1)) with
      | none => exact absurd h0 (hm _ (by omega))
      | some c =>
        by_cases hz : c = 0
        · subst hz
          -- the longest expressible prefix
          have key : ∀ k ≤ n - 1, (∃ cs : List UInt8, cs.length = k ∧ Bytes m v.addr cs ∧ ∀ c ∈ cs, Expressible pr c) ∨ NoLiteral pr db m v := by
            intro k
            induction k with
            | zero => exact fun _ => .inl ⟨[], rfl, by simp [Bytes], by simp⟩
            | succ k ih =>
              intro hk
              rcases ih (by omega) with ⟨cs, hl, hb, he⟩ | h
              · cases hd : m (v.addr + k) with
                | none => exact absurd hd (hm _ (by omega))
                | some d =>
                  have hb' : Bytes m v.addr (cs ++ [d]) := by
                    intro i c hi
                    by_cases h : i < cs.length
                    · rw [List.getElem?_append_left h] at hi
                      exact hb i c hi
                    · rw [List.getElem?_append_right (by omega)] at hi
                      have e : i = k := by
                        by_cases e : i - cs.length = 0
                        · omega
                        · rw [List.getElem?_eq_none (by simp; omega)] at hi
                          cases hi
                      subst e
                      simp only [hl, Nat.sub_self, List.getElem?_cons_zero, Option.some.injEq] at hi
                      rw [← hi]
                      exact hd
                  by_cases hx : Expressible pr d
                  · refine .inl ⟨cs ++ [d], by simp [hl], hb', ?_⟩
                    intro c hc
                    rcases List.mem_append.1 hc with hc | hc
                    · exact he c hc
                    · rw [List.mem_singleton.1 hc]; exact hx
                  · exact .inr (.unprintable hc (by omega) h0 hb' he hx)
              · exact .inr h
          rcases key (n - 1) (Nat.le_refl _) with ⟨cs, hl, hb, he⟩ | h
          · refine .inl ⟨_, cs, encAll cs, ?_, ?_, ?_, he, escaped_iff.2 rfl, rfl⟩
            · rw [hl, show n - 1 + 1 = n by omega]; exact hc
            · intro e
              rw [e] at hl
              simp at hl
              omega
            · intro i c hi
              by_cases h : i < cs.length
              · rw [List.getElem?_append_left h] at hi
                exact hb i c hi
              · rw [List.getElem?_append_right (by omega)] at hi
                have e : i = n - 1 := by
                  by_cases e : i - cs.length = 0
                  · omega
                  · rw [List.getElem?_eq_none (by simp; omega)] at hi
                    cases hi
                rw [e] at hi ⊢
                simp only [hl, Nat.sub_self, List.getElem?_cons_zero, Option.some.injEq] at hi
                rw [← hi]
                exact h0
          · exact .inr h
        · exact .inr (.unterminated hc (by omega) h0 hz)
  · exact .inr (.other fun k hk => hc ⟨k, hk⟩)

theorem data_shown {env : Env} {db : Db} (hs : Sane db) {m : Mem} {v : Value} (h : Data env db m v) :
    ∀ outer, ∃ t, Shown env false db m outer v t := by
  induction h with
  | @base v s e x qs t n ho hf hd hb hh hv =>
    intro outer
    have hobj : Value.Object db m v t n := ⟨⟨x, qs, hf, hd⟩, hb, ho.2.1, hh, hv⟩
    have : ∃ s, tyText env t n = .ok s := by
      rw [tyText.eq_def]
      split
      · split <;> exact ⟨_, rfl⟩
      · rw [if_pos (object_use hobj)]; exact ⟨_, rfl⟩
      · split <;> exact ⟨_, rfl⟩
    obtain ⟨s, h⟩ := this
    exact ⟨s, .base ho (by rw [object_text hs.named hobj, h]; rfl)⟩
  | @enumeration v s e es k ho hsz hh =>
    intro outer
    obtain ⟨_, h0, x, qs, hx, hi⟩ := id ho
    obtain ⟨h1, h2⟩ := C25_string db m v x qs hx h0 s e es hi hsz k hh
    by_cases hno : ∀ e ∈ es, e.2 ≠ twos s.toNat k
    · obtain ⟨d, _, h⟩ := h2 hno
      exact ⟨_, .enumeration ho h⟩
    · have : ∃ a b c, es = a ++ (b, twos s.toNat k) :: c ∧ ∀ e ∈ a, e.2 ≠ twos s.toNat k := by
        clear h1 h2 hi ho
        induction es with
        | nil => exact absurd (by simp) hno
        | cons y ys ih =>
          by_cases hy : y.2 = twos s.toNat k
          · exact ⟨[], y.1, ys, by rw [← hy]; rfl, by simp⟩
          · obtain ⟨a, b, c, h, h'⟩ := ih (by
              intro h
              apply hno
              intro e he
              rcases List.mem_cons.1 he with rfl | he
              · exact hy
              · exact h e he)
            refine ⟨y :: a, b, c, by rw [h]; rfl, ?_⟩
            intro e he
            rcases List.mem_cons.1 he with rfl | he
            · exact hy
            · exact h' e he
      obtain ⟨a, b, c, h, h'⟩ := this
      exact ⟨_, .enumeration ho (h1 a c b h h')⟩
  | @pointer v ty a ho hh =>
    intro outer
    by_cases h0 : a = 0
    · subst h0; exact ⟨_, .null ho hh⟩
    · exact ⟨_, .address rfl ho hh h0⟩
  | @struct v s ms ho _ ih =>
    intro outer
    obtain ⟨_, h0, x, qs, hx, hi⟩ := id ho
    have hm := hs.members x _ _ _ hi
    obtain ⟨ws, hl, hw⟩ := exists_list (P := fun i (p : Value × Text) => Member db v ms i p.1 ∧ Shown env false db m (v :: outer) p.1 p.2) ms.length (by
      intro i hlt
      obtain ⟨mi, hmi⟩ := hm ms[i] (List.getElem_mem hlt)
      have hmem : Member db v ms i ⟨ms[i], v.addr + mi.byteOffset.toNat⟩ := ⟨ms[i], mi, List.getElem?_eq_getElem hlt, hmi, rfl⟩
      obtain ⟨t, ht⟩ := ih i _ hmem (v :: outer)
      exact ⟨(_, t), hmem, ht⟩)
    have hshown : ∀ w u, (w, u) ∈ ws → Shown env false db m (v :: outer) w u := by
      intro w u h
      obtain ⟨i, hlt, e⟩ := List.getElem_of_mem h
      exact (hw i (w, u) (by rw [List.getElem?_eq_getElem hlt, e])).2
    have : ∃ t, Wrapped db v (membersText db ws) t := by
      cases e : (db v.entry).name with
      | some n => exact ⟨_, .named e⟩
      | none =>
        by_cases h : ∃ mi, (db v.entry).info = .member mi
        · obtain ⟨mi, h⟩ := h
          exact ⟨_, .bare h e⟩
        · exact ⟨_, .notMember fun mi h' => h ⟨mi, h'⟩⟩
    obtain ⟨t, ht⟩ := this
    exact ⟨t, .struct ho hl (fun i w u h => (hw i (w, u) h).1) hshown ht⟩
  | @array v r k n ho hsz hk hm _ ih =>
    intro outer
    have ha : IsArray db v (some r) n := ⟨ho.2.1, ho.2.2⟩
    have hc : Counted env v outer (some r) n v := .known (by omega)
    rcases literal_or_not (pr := env.pr) ha (fun j hj => hm j (Nat.lt_of_lt_of_le hj (Nat.le_mul_of_pos_right _ hk))) with ⟨t, h⟩ | h
    · exact ⟨t, .literal ho hc h⟩
    · obtain ⟨ws, hl, hw⟩ := exists_list (P := fun i (p : Value × Text) => Element db v (some r) i p.1 ∧ Shown env false db m (v :: outer) p.1 p.2) n (by
        intro i hlt
        have he : Element db v (some r) i ⟨r, v.addr + i * k⟩ := ⟨r, k, rfl, hsz, rfl⟩
        obtain ⟨t, ht⟩ := ih i _ hlt he (v :: outer)
        exact ⟨(_, t), he, ht⟩)
      refine ⟨_, .array ho hc h ha (by simpa using hl) (fun i w u h => (hw i (w, u) h).1) ?_⟩
      intro w u h
      obtain ⟨i, hlt, e⟩ := List.getElem_of_mem h
      exact (hw i (w, u) (by rw [List.getElem?_eq_getElem hlt, e])).2

/-- C43: printing succeeds for all data made of base types, enumerations, pointers, structs and
arrays. -/
theorem C43_total (env : Env) (db : Db) (hs : Sane db) (hin : Interned env db) (hh : Honest env db) (hp : Locale env.pr) (m : Mem) (v : Value)
    (h : Data env db m v) : ∃ t, valueString env false db m (some v) = .ok (some t) := by
  obtain ⟨t, ht⟩ := data_shown hs h []
  exact ⟨t, shown_walk hs hin hh hp ht⟩

/-- C43: a value is printed as `t` exactly if `t` is composed as `Shown` says: every member and
every element once, in order, in braces. -/
theorem C43_shown (env : Env) (deep : Bool) (db : Db) (hs : Sane db) (hin : Interned env db) (hh : Honest env db) (hp : Locale env.pr) (m : Mem) (v : Value) (t : Text) :
    valueString env deep db m (some v) = .ok (some t) ↔ Shown env deep db m [] v t :=
  ⟨walk_shown hs hin hh hp [] v t, shown_walk hs hin hh hp⟩

/-- C43: in every printed text all literals are complete, and outside of them all brackets are
closed in the right order, provided names and the texts of floating-point numbers and
addresses contain no brackets and quotes. -/
theorem C43_balanced (env : Env) (deep : Bool) (db : Db) (hs : Sane db) (hin : Interned env db) (hh : Honest env db) (hp : Locale env.pr)
    (hn : CleanNames db) (hf : ∀ t n, Clean (env.flt t n)) (ha : ∀ a, Clean (env.ptr a)) (m : Mem) (v : Value) (t : Text)
    (h : valueString env deep db m (some v) = .ok (some t)) : Balanced t :=
  shown_neutral hn hf ha (walk_shown hs hin hh hp [] v t h) []

/-! ### An instance -/

/-- `struct S { int a; int b[2]; char s[3]; }`; from 10 on the descriptions of new arrays. -/
def demo : Db
  | 0 => { info := .base 4 6, name := some [105, 110, 116] }
  | 1 => { info := .base 1 7, name := some [99, 104, 97, 114] }
  | 2 => { info := .member { type := some 0, byteOffset := 0 }, name := some [97] }
  | 3 => { info := .array (some 0) 2 }
  | 4 => { info := .member { type := some 3, byteOffset := 4 }, name := some [98] }
  | 5 => { info := .array (some 1) 3 }
  | 6 => { info := .member { type := some 5, byteOffset := 12 }, name := some [115] }
  | 7 => { info := .struct .struct 16 [2, 4, 6], name := some [83] }
  | 8 => { info := .pointer (some 7) }
  | 9 => { info := .pointer none }
  | n + 10 => { info := .array (if n / 3 = 0 then none else some (n / 3 - 1)) ((n % 3 : Nat) - 1) }

def demoDyn (e : Entry) : Ref :=
  match e.info with
  | .array t c => 3 * (match t with | none => 0 | some r => r + 1) + (c + 1).toNat + 10
  | _ => 9

def demoEnv : Env where
  vaList := fun _ => false
  params := fun _ => []
  cfg := exCfg false
  pr := fun c => decide (32 ≤ c ∧ c < 127)
  flt := fun _ _ => [46]
  ptr := fun a => 48 :: 120 :: List.replicate a 49
  tags := none
  dyn := demoDyn

theorem demo_interned : Interned demoEnv demo := by
  intro t c hc
  have e : ∀ k j : Nat, j < 3 → (3 * k + j) / 3 = k ∧ (3 * k + j) % 3 = j := by omega
  cases t with
  | none => rcases hc with rfl | rfl | rfl <;> rfl
  | some r =>
    show demo (3 * (r + 1) + (c + 1).toNat + 10) = _
    have h : (c + 1).toNat < 3 := by omega
    rw [show demo (3 * (r + 1) + (c + 1).toNat + 10) = { info := .array (if (3 * (r + 1) + (c + 1).toNat) / 3 = 0 then none else some ((3 * (r + 1) + (c + 1).toNat) / 3 - 1)) (((3 * (r + 1) + (c + 1).toNat) % 3 : Nat) - 1) } from rfl]
    rw [(e (r + 1) _ h).1, (e (r + 1) _ h).2, if_neg (Nat.succ_ne_zero _), show (((c + 1).toNat : Nat) : Int) - 1 = c by omega]
    rfl

theorem demo_down : ∀ r t, nextOf (demo r).info = some t → t < r := by
  intro r t h
  unfold demo at h
  split at h <;> simp only [nextOf] at h
  all_goals first | (cases h; done) | (cases h; decide) | skip
  split at h
  · cases h
  · cases h
    show _ < _ + 10
    omega

def demoKind (r : Ref) : Info → Prop
  | .base s _ => s = 4 ∧ r = 0 ∨ s = 1 ∧ r = 1
  | .struct _ s _ => s = 16 ∧ r = 7
  | .pointer _ => r = 8 ∨ r = 9
  | .member _ => True
  | .array .. => True
  | _ => False

theorem demo_kinds : ∀ r, demoKind r (demo r).info
  | 0 => .inl ⟨rfl, rfl⟩
  | 1 => .inr ⟨rfl, rfl⟩
  | 2 => trivial
  | 3 => trivial
  | 4 => trivial
  | 5 => trivial
  | 6 => trivial
  | 7 => ⟨rfl, rfl⟩
  | 8 => .inl rfl
  | 9 => .inr rfl
  | _ + 10 => trivial

theorem demo_size {r : Ref} {n : Nat} (h : Size demo r n) : n ≤ 16 ∧ (r = 0 → n = 4) ∧ (r = 1 → n = 1) := by
  induction h with
  | @stored r n h =>
    have key := demo_kinds r
    cases h with
    | base h => rw [h] at key; rcases key with ⟨rfl, rfl⟩ | ⟨rfl, rfl⟩ <;> decide
    | enumeration h => rw [h] at key; exact key.elim
    | pointer h => rw [h] at key; rcases key with rfl | rfl <;> decide
    | struct h => rw [h] at key; obtain ⟨rfl, rfl⟩ := key; decide
    | reference h => rw [h] at key; exact key.elim
  | @through r t n h _ ih =>
    refine ⟨ih.1, ?_, ?_⟩ <;> rintro rfl <;> generalize some t = t' at h <;> cases h <;> rename_i h <;> simp [demo] at h
  | @dots r t n h _ ih => 
    refine ⟨ih.1, ?_, ?_⟩ <;> rintro rfl <;> simp [demo] at h
  | @array r t n count h hc _ ih =>
    refine ⟨?_, ?_, ?_⟩
    · unfold demo at h
      split at h <;> simp only [reduceCtorEq, Info.array.injEq, Option.some.injEq] at h
      · obtain ⟨rfl, h⟩ := h
        have := ih.2.1 rfl
        have : count = 2 := by omega
        subst this
        omega
      · obtain ⟨rfl, h⟩ := h
        have := ih.2.2 rfl
        have : count = 3 := by omega
        subst this
        omega
      · have : count = 1 := by omega
        subst this
        omega
    · rintro rfl; simp [demo] at h
    · rintro rfl; simp [demo] at h

theorem demo_sane : Sane demo where
  acyclic := acyclic_of_down demo_down
  named := by
    intro r bs be h hn
    unfold demo at h hn
    split at h <;> first | (simp at h; done) | (simp at hn; done)
  members := by
    intro r k size ms h
    unfold demo at h
    split at h <;> simp only [reduceCtorEq, Info.struct.injEq] at h
    obtain ⟨_, _, rfl⟩ := h
    intro x hx
    simp only [List.mem_cons, List.not_mem_nil, or_false] at hx
    rcases hx with rfl | rfl | rfl <;> exact ⟨_, rfl⟩
  counts := by
    intro r t c h
    unfold demo at h
    split at h <;> simp only [reduceCtorEq, Info.array.injEq] at h
    all_goals
      obtain ⟨_, rfl⟩ := h
      omega
  sizes := by
    intro r t c n h hn
    have h1 := (demo_size hn).1
    unfold demo at h
    split at h <;> simp only [reduceCtorEq, Info.array.injEq] at h
    all_goals
      obtain ⟨_, rfl⟩ := h
    · omega
    · omega
    · next k _ =>
      have : ∀ x : Nat, x < 3 → ((x : Int) - 1) * n < 2 ^ 64 := by
        intro x hx
        rcases (by omega : x = 0 ∨ x = 1 ∨ x = 2) with rfl | rfl | rfl <;> omega
      exact this _ (Nat.mod_lt _ (by decide))

theorem demo_honest : Honest demoEnv demo := by
  intro v outer w h
  cases h with
  | reply h => cases h

theorem demo_locale : Locale demoEnv.pr := by
  intro c h
  have h : 32 ≤ c ∧ c < 127 := of_decide_eq_true h
  rintro (h' | h')
  · exact absurd h' (by simpa using h.1)
  · subst h'; exact absurd h.2 (by decide)

/-- 1; -1, 3; "hi"; the address 100; two characters. -/
def demoMem : Mem := fun a => ([1, 0, 0, 0, 255, 255, 255, 255, 3, 0, 0, 0, 104, 105, 0, 0, 100, 0, 0, 0, 0, 0, 0, 0, 39, 97] : List UInt8)[a - 100]?

theorem demo_final {r : Ref} (h : ∀ t, ¬ Alias demo r t) : Final demo r (some r) [] := .here h

theorem demo_not (r : Ref) (h : r = 0 ∨ r = 1 ∨ r = 3 ∨ r = 5 ∨ r = 7 ∨ r = 8) : ∀ t, ¬ Alias demo r t := by
  intro t ha
  rcases h with rfl | rfl | rfl | rfl | rfl | rfl <;> cases ha <;> rename_i ha <;> exact absurd ha (by simp [demo])

theorem demo_member {r x : Ref} {mi : MemberInfo} (h : (demo r).info = .member mi) (hx : mi.type = some x) (hb : ∀ t, ¬ Alias demo x t) :
    Final demo r (some x) [] := by
  have := Final.step (hx ▸ Alias.member h : Alias demo r (some x)) (.here hb)
  simpa [own, h] using this

theorem demo_unpacked (v : Value) (h : v.entry < 10) : ¬ Packed demoEnv demo v := by
  rintro ⟨u, t, h', _⟩
  have key : ∀ r < 10, (match (demo r).info with | .param .. => false | _ => true) = true := by decide
  have := key v.entry h
  rw [h'] at this
  cases this

theorem demo_int {r : Ref} (hr : r = 0 ∨ r = 2) {a : Nat} (ha : a ≠ 0) {n : Nat} (h : Holds demoMem a 4 n) : Value.Object demo demoMem ⟨r, a⟩ .int n where
  type := by
    have hd : Describes demo 0 .int := ⟨4, 6, rfl, rfl, fun _ => rfl, fun _ => rfl⟩
    rcases hr with rfl | rfl
    · exact ⟨0, [], .here (demo_not 0 (by decide)), hd⟩
    · exact ⟨0, [], demo_member rfl rfl (demo_not 0 (by decide)), hd⟩
  plain := by
    rintro ⟨mi, h, h'⟩
    rcases hr with rfl | rfl
    · cases h
    · cases h; simp at h'
  nonNull := ha
  content := h
  valid := by simp

theorem demo_int_shown {r : Ref} (hr : r = 0 ∨ r = 2) {a : Nat} (ha : a ≠ 0) {n : Nat} (h : Holds demoMem a 4 n) {deep : Bool} {outer : List Value} :
    Shown demoEnv deep demo demoMem outer ⟨r, a⟩ (decimalInt (Mem.signed 4 n)) := by
  have ho := demo_int hr ha h
  refine .base (s := 4) (e := 6) ⟨demo_unpacked _ (by show r < 10; rcases hr with rfl | rfl <;> decide), ha, ?_⟩ (by rw [object_text demo_sane.named ho]; rfl)
  rcases hr with rfl | rfl
  · exact ⟨0, [], .here (demo_not 0 (by decide)), rfl⟩
  · exact ⟨0, [], demo_member rfl rfl (demo_not 0 (by decide)), rfl⟩

theorem demo_holds {a n : Nat} (h0 : n < 256 ^ 4) (h : ∀ k < 4, demoMem (a + k) = some (UInt8.ofNat (n / 256 ^ k % 256))) : Holds demoMem a 4 n := ⟨h0, h⟩

/-- `{.a = 1, .b = {-1, 3,}, .s = "hi",}`. -/
def demoText : Text :=
  [123, 46, 97, 32, 61, 32, 49, 44, 32, 46, 98, 32, 61, 32, 123, 45, 49, 44, 32, 51, 44, 125, 44, 32, 46, 115, 32, 61, 32, 34, 104, 105, 34, 44, 125]

theorem demo_shown (deep : Bool) (outer : List Value) : Shown demoEnv deep demo demoMem outer ⟨7, 100⟩ demoText := by
  have d1 : decimalInt (Mem.signed 4 1) = [49] := by
    rw [show Mem.signed 4 1 = 1 from rfl, decimalInt, if_neg (by decide), show Int.natAbs 1 = 1 from rfl, decimal]; rfl
  have d2 : decimalInt (Mem.signed 4 4294967295) = [45, 49] := by
    rw [show Mem.signed 4 4294967295 = -1 from rfl, decimalInt, if_pos (by decide), show Int.natAbs (-1) = 1 from rfl, decimal]; rfl
  have d3 : decimalInt (Mem.signed 4 3) = [51] := by
    rw [show Mem.signed 4 3 = 3 from rfl, decimalInt, if_neg (by decide), show Int.natAbs 3 = 3 from rfl, decimal]; rfl
  have size0 : Size demo 0 4 := .stored (.base (n := 4) rfl)
  have b : Shown demoEnv deep demo demoMem (⟨7, 100⟩ :: outer) ⟨4, 104⟩ [123, 45, 49, 44, 32, 51, 44, 125] := by
    have ho : Object demoEnv demo ⟨4, 104⟩ (.array (some 0) 2) := ⟨demo_unpacked _ (by decide), by decide, 3, [], demo_member rfl rfl (demo_not 3 (by decide)), rfl⟩
    have := Shown.array (env := demoEnv) (deep := deep) (db := demo) (m := demoMem) (outer := ⟨7, 100⟩ :: outer) (v := ⟨4, 104⟩) (arr := ⟨4, 104⟩) (n' := 2) (e' := some 0)
      (ws := [(⟨0, 104⟩, [45, 49]), (⟨0, 108⟩, [51])]) ho (.known (by decide)) (.other ?_) ⟨ho.2.1, ho.2.2⟩ rfl ?_ ?_
    · exact this
    · rintro n ⟨_, x, qs, t, f, qs', bs, be, h1, h2, h3, h4, h5⟩
      have e1 := final_unique h1 (demo_member (r := 4) rfl rfl (demo_not 3 (by decide)))
      cases e1
      have e2 : some 0 = some t := by
        have := congrArg (fun i => match i with | Info.array t _ => t | _ => none) h2
        exact this
      cases e2
      cases final_unique h3 (.here (demo_not 0 (by decide)))
      exact absurd h5 (by decide)
    · intro i w u h
      match i, h with
      | 0, h => cases h; exact ⟨0, 4, rfl, size0, rfl⟩
      | 1, h => cases h; exact ⟨0, 4, rfl, size0, rfl⟩
    · intro w u h
      simp only [List.mem_cons, List.not_mem_nil, or_false, Prod.mk.injEq] at h
      rcases h with ⟨rfl, rfl⟩ | ⟨rfl, rfl⟩
      · rw [← d2]; exact demo_int_shown (by simp) (by decide) (demo_holds (by decide) (by decide))
      · rw [← d3]; exact demo_int_shown (by simp) (by decide) (demo_holds (by decide) (by decide))
  have c : Shown demoEnv deep demo demoMem (⟨7, 100⟩ :: outer) ⟨6, 112⟩ [34, 104, 105, 34] := by
    have hf := demo_member (r := 6) rfl rfl (demo_not 5 (by decide))
    have ho : Object demoEnv demo ⟨6, 112⟩ (.array (some 1) 3) := ⟨demo_unpacked _ (by decide), by decide, 5, [], hf, rfl⟩
    refine .literal ho (.known (by decide)) ⟨[104, 105], [104, 105], ⟨by decide, 5, [], 1, 1, [], 1, 7, hf, rfl, .here (demo_not 1 (by decide)), rfl, rfl⟩, by simp, ?_, ?_, ?_, rfl⟩
    · intro k c h
      match k, h with
      | 0, h => cases h; rfl
      | 1, h => cases h; rfl
      | 2, h => cases h; rfl
    · intro c h
      simp only [List.mem_cons, List.not_mem_nil, or_false] at h
      rcases h with rfl | rfl <;> exact .inl (by decide)
    · refine .plain (fun e h => by cases h) (.plain (fun e h => by cases h) .nil)
  have ho : Object demoEnv demo ⟨7, 100⟩ (.struct .struct 16 [2, 4, 6]) := ⟨demo_unpacked _ (by decide), by decide, 7, [], .here (demo_not 7 (by decide)), rfl⟩
  refine .struct (ws := [(⟨2, 100⟩, [49]), (⟨4, 104⟩, [123, 45, 49, 44, 32, 51, 44, 125]), (⟨6, 112⟩, [34, 104, 105, 34])]) ho rfl ?_ ?_ (.named rfl)
  · intro i w u h
    match i, h with
    | 0, h => cases h; exact ⟨2, _, rfl, rfl, rfl⟩
    | 1, h => cases h; exact ⟨4, _, rfl, rfl, rfl⟩
    | 2, h => cases h; exact ⟨6, _, rfl, rfl, rfl⟩
  · intro w u h
    simp only [List.mem_cons, List.not_mem_nil, or_false, Prod.mk.injEq] at h
    rcases h with ⟨rfl, rfl⟩ | ⟨rfl, rfl⟩ | ⟨rfl, rfl⟩
    · rw [← d1]; exact demo_int_shown (by simp) (by decide) (demo_holds (by decide) (by decide))
    · exact b
    · exact c

/-- The hypotheses of `C43_shown` hold for this struct, and its text is as expected. -/
example : valueString demoEnv false demo demoMem (some ⟨7, 100⟩) = .ok (some demoText) :=
  (C43_shown demoEnv false demo demo_sane demo_interned demo_honest demo_locale demoMem ⟨7, 100⟩ demoText).2 (demo_shown false [])

theorem demo_array_final {t : Option Ref} {c : Int} (hc : c = -1 ∨ c = 0 ∨ c = 1) : Final demo (demoDyn { info := .array t c }) (some (demoDyn { info := .array t c })) [] := by
  refine .here fun u h => ?_
  have e : demo (demoDyn { info := .array t c }) = { info := .array t c } := demo_interned t c hc
  cases h <;> rename_i h <;> rw [e] at h <;> cases h

theorem demo_type : TypeText demo (demoDyn { info := .array (some 7) (-1) }) [115, 116, 114, 117, 99, 116, 32, 83, 32, 91, 93] := by
  have e : demo (demoDyn { info := .array (some 7) (-1) }) = { info := .array (some 7) (-1) } := demo_interned (some 7) (-1) (by decide)
  have h7 : CDecl.cdecl demo 7 = .ok (some [115, 116, 114, 117, 99, 116, 32, 83, 32, 37, 115]) := by
    rw [CDecl.cdecl.eq_def]
    rfl
  refine ⟨[115, 116, 114, 117, 99, 116, 32, 83, 32, 37, 115, 91, 93], ?_, rfl⟩
  rw [CDecl.cdecl.eq_def, e]
  simp only [CDecl.deps, CDecl.dep, List.mapM_cons, h7, Outcome.bind_ok, Outcome.mapM_nil]
  rfl

/-- `(struct S [])` and the array of one struct. -/
def demoPointerText : Text := [40, 115, 116, 114, 117, 99, 116, 32, 83, 32, 91, 93, 41, 123] ++ demoText ++ [44, 125]

/-- ... and for a pointer to it, followed in deep mode. -/
theorem demo_pointer : Shown demoEnv true demo demoMem [] ⟨8, 116⟩ demoPointerText := by
  have hf : Final demo 8 (some 8) [] := .here (demo_not 8 (by decide))
  have e : demo (demoDyn { info := .array (some 7) 1 }) = { info := .array (some 7) 1 } := demo_interned (some 7) 1 (by decide)
  have hfa := demo_array_final (t := some 7) (c := 1) (by decide)
  have hia : (demo (demoDyn { info := .array (some 7) 1 })).info = .array (some 7) 1 := by rw [e]
  have ha : IsArray demo ⟨demoDyn { info := .array (some 7) 1 }, 100⟩ (some 7) 1 := ⟨by decide, _, _, hfa, hia⟩
  have hp : ¬ Packed demoEnv demo ⟨demoDyn { info := .array (some 7) 1 }, 100⟩ := by
    rintro ⟨u, t, h, _⟩
    rw [e] at h
    cases h
  have hs := Shown.array (env := demoEnv) (deep := true) (db := demo) (m := demoMem) (outer := [⟨8, 116⟩]) (v := ⟨demoDyn { info := .array (some 7) 1 }, 100⟩)
      (ws := [(⟨7, 100⟩, demoText)]) (n' := 1) (e' := some 7) (n := 1) (e := some 7) ⟨hp, ha.1, ha.2⟩ (.known (by decide)) (.short ha (by decide)) ha rfl
      (by
        intro i w u h
        match i, h with
        | 0, h => cases h; exact ⟨7, 16, rfl, .stored (.struct (n := 16) rfl), rfl⟩)
      (by
        intro w u h
        simp only [List.mem_cons, List.not_mem_nil, or_false, Prod.mk.injEq] at h
        obtain ⟨rfl, rfl⟩ := h
        exact demo_shown true _)
  have := Shown.target (env := demoEnv) (deep := true) (db := demo) (m := demoMem) (outer := []) (v := ⟨8, 116⟩) (ty := some 7) (a := 100) rfl
    ⟨demo_unpacked _ (by decide), by decide, 8, [], hf, rfl⟩ ⟨by decide, by decide⟩ (by decide) (by simp [Fresh]) (.one (.noMap rfl) rfl) hs ha demo_type (by decide)
  exact this

example : valueString demoEnv true demo demoMem (some ⟨8, 116⟩) = .ok (some demoPointerText) :=
  (C43_shown demoEnv true demo demo_sane demo_interned demo_honest demo_locale demoMem ⟨8, 116⟩ demoPointerText).2 demo_pointer

theorem demo_clean : CleanNames demo where
  names := by
    intro r n h
    unfold demo at h
    split at h <;> simp only [reduceCtorEq, Option.some.injEq] at h
    all_goals
      subst h
      unfold Clean
      decide
  enumerators := by
    intro r s e es h
    unfold demo at h
    split at h <;> simp only [reduceCtorEq] at h

/-- The hypotheses of `C43_balanced` hold there. -/
example : Balanced demoPointerText :=
  C43_balanced demoEnv true demo demo_sane demo_interned demo_honest demo_locale demo_clean (by intro t n; show Clean [46]; unfold Clean; decide)
    (by
      intro a c hc
      rcases List.mem_cons.mp hc with rfl | hc
      · decide
      rcases List.mem_cons.mp hc with rfl | hc
      · decide
      · rw [List.eq_of_mem_replicate hc]; decide) demoMem ⟨8, 116⟩ demoPointerText
    ((C43_shown demoEnv true demo demo_sane demo_interned demo_honest demo_locale demoMem ⟨8, 116⟩ demoPointerText).2 demo_pointer)

/-- `Balanced` is no empty condition. -/
example : ¬ Balanced [123, 40, 125, 41] ∧ ¬ Balanced [123] ∧ ¬ Balanced [34, 123, 125] ∧ Balanced [34, 123, 34, 39, 41, 39] := by
  refine ⟨?_, ?_, ?_, ?_⟩ <;> simp [Balanced, Spec.read]

/-- The hypotheses of `C43_total` hold for an `int` and for the array of two of them. -/
example : Data demoEnv demo demoMem ⟨3, 104⟩ := by
  have size0 : Size demo 0 4 := .stored (.base (n := 4) rfl)
  refine .array (r := 0) (k := 4) (n := 2) ⟨demo_unpacked _ (by decide), by decide, 3, [], .here (demo_not 3 (by decide)), rfl⟩ size0 (by decide) ?_ ?_
  · intro j hj
    have : ∀ j < 2 * 4, demoMem (104 + j) ≠ none := by decide
    exact this j hj
  · rintro i w hi ⟨r, n, h1, h2, rfl⟩
    cases h1
    have := (demo_size h2).2.1 rfl
    subst this
    have base : ∀ {a n : Nat}, a ≠ 0 → Holds demoMem a 4 n → Data demoEnv demo demoMem ⟨0, a⟩ := fun ha h =>
      .base (s := 4) (e := 6) (t := .int) ⟨demo_unpacked _ (by show 0 < 10; decide), ha, 0, [], .here (demo_not 0 (by decide)), rfl⟩
        (demo_int (r := 0) (by simp) ha h).type.choose_spec.choose_spec.1 (demo_int (r := 0) (by simp) ha h).type.choose_spec.choose_spec.2
        (demo_int (r := 0) (by simp) ha h).plain h (by simp)
    rcases (by omega : i = 0 ∨ i = 1) with rfl | rfl
    · exact base (n := 4294967295) (by decide) (demo_holds (by decide) (by decide))
    · exact base (n := 3) (by decide) (demo_holds (by decide) (by decide))

theorem demo_char (a n : Nat) (ha : a ≠ 0) (h : Holds demoMem a 1 n) : Value.Object demo demoMem ⟨1, a⟩ .char n where
  type := ⟨1, [], .here (demo_not 1 (by decide)), 1, 7, rfl, rfl, fun _ => .inl rfl, fun _ => rfl⟩
  plain := by
    rintro ⟨mi, h, _⟩
    cases h
  nonNull := ha
  content := h
  valid := by simp

/-- The hypotheses of `C60_text_partial` hold for the character `a`, those of
`C60_char_false` for a quote. -/
example : ∃ s, baseTypeString demoEnv demo demoMem ⟨1, 125⟩ = .ok (some s) ∧ BaseText demoEnv .char 97 s :=
  C60_text_partial demoEnv demo demo_sane.named demo_locale demoMem ⟨1, 125⟩ .char 97 (demo_char _ _ (by decide) ⟨by decide, by decide⟩) (by decide)
example : ∃ s, baseTypeString demoEnv demo demoMem ⟨1, 124⟩ = .ok (some s) ∧ ∀ c, ¬ CharConstant c s :=
  C60_char_false demoEnv demo demo_sane.named demoMem ⟨1, 124⟩ 39 (demo_char _ _ (by decide) ⟨by decide, by decide⟩) (by decide) (by decide)
/-- The hypotheses of `C60_other` hold for the struct. -/
example : baseTypeString demoEnv demo demoMem ⟨7, 100⟩ = .ok none :=
  C60_other demoEnv demo demo_sane.named demoMem ⟨7, 100⟩ (some 7) [] (.here (demo_not 7 (by decide))) (by
    rintro x t h ⟨bs, be, h', _⟩
    cases h
    cases h')

end Verif.ValueString
