import Verif.Trace.TextSpec
import Verif.ValueString.Props
import Verif.Replay.Lemmas
/-
C107: the text of a recorded call.
-/
namespace Verif.Trace
open Verif Verif.Entry Verif.Entry.Spec Verif.Value Verif.Value.Spec Verif.ParamStorage Verif.ParamStorage.Spec Verif.Trace.Spec
open Verif.ValueString (valueString Text)
open Verif.ValueString.Spec (Shown BaseText Sane Interned Honest)
open Verif.PrintString.Spec (Locale)
open Verif.WrapCall.Spec (text Slot AllFilled Filled)
open Verif.Ffi.Spec (Each Bytes)
open Verif.Replay.Spec (Held)

theorem each_pairs {α β : Type} {Q : α → β → Prop} {l : List α} {us : List β} (h : Each Q l us) :
    ∃ ws : List (α × β), ws.map (·.1) = l ∧ ws.map (·.2) = us ∧ ∀ a b, (a, b) ∈ ws → Q a b := by
  induction h with
  | nil => exact ⟨[], rfl, rfl, by simp⟩
  | @cons a b l us h1 _ ih =>
    obtain ⟨ws, h2, h3, h4⟩ := ih
    refine ⟨(a, b) :: ws, by simp [h2], by simp [h3], ?_⟩
    intro x y hx
    rcases List.mem_cons.1 hx with hx | hx
    · cases hx; exact h1
    · exact h4 x y hx

theorem pairs_each {α β : Type} {Q : α → β → Prop} (ws : List (α × β)) (h : ∀ a b, (a, b) ∈ ws → Q a b) : Each Q (ws.map (·.1)) (ws.map (·.2)) := by
  induction ws with
  | nil => exact .nil
  | cons w ws ih => exact .cons (h _ _ (by simp)) (ih fun a b hm => h a b (by simp [hm]))

theorem callText_eq (n : Name) (us : List Text) : callText n us = n ++ [40] ++ [44, 32].intercalate us ++ [41] := rfl

theorem held_addr {env : Handlers.Env} {m : Mem} {xs : List View} {vs : List Value} (h : Each (Held env m) xs vs) : ∀ w ∈ vs, w.addr ≠ 0 := by
  induction h with
  | nil => simp
  | cons h1 _ ih =>
    intro w hw
    rcases List.mem_cons.1 hw with rfl | hw
    · cases h1 <;> assumption
    · exact ih w hw

theorem fn_final {db : Db} {e : Ref} {r : Option Ref} {ps : List Ref} (hv : (db e).info = .subprogram r ps) : Final db e (some e) [] := by
  refine .here fun t ha => ?_
  cases ha <;> simp_all

theorem object_info {env : ValueString.Env} {db : Db} {v : Value} {i : Info} {r : Option Ref} {ps : List Ref} (hv : (db v.entry).info = .subprogram r ps) (h : ValueString.Spec.Object env db v i) :
    i = .subprogram r ps := by
  obtain ⟨-, -, x, qs, hf, hi⟩ := h
  cases final_unique hf (fn_final hv)
  rw [← hi, hv]

/-- C107: a recorded call (at `v`) is printed as `t` if and only if `t` is the name of the function and in parentheses the texts of the arguments, one for each,
in order. -/
theorem C107_call (env : ValueString.Env) (deep : Bool) (db : Db) (hs : Sane db) (hin : Interned env db) (hh : Honest env db) (hp : Locale env.pr) (m : Mem) (v : Value) (r : Option Ref) (ps : List Ref)
    (hf : (db v.entry).info = .subprogram r ps) (hv : v.addr ≠ 0) (xs : List View) (hheld : Each (Held env.toEnv m) xs (env.params v.addr)) (t : Text) :
    valueString env deep db m (some v) = .ok (some t) ↔ ∃ n us, (db v.entry).name = some n ∧ Each (Shown env deep db m [v]) (env.params v.addr) us ∧ t = callText n us := by
  rw [ValueString.C43_shown env deep db hs hin hh hp]
  have hpk : ¬ ValueString.Spec.Packed env db v := by
    rintro ⟨u, t, h, -⟩
    rw [hf] at h
    cases h
  constructor
  · intro h
    cases h with
    | call ho hw ha hsh hn =>
      refine ⟨_, _, hn, ?_, rfl⟩
      rw [← hw]
      exact pairs_each _ hsh
    | base ho _ => exact absurd (object_info hf ho) (by simp)
    | enumeration ho _ => exact absurd (object_info hf ho) (by simp)
    | null ho _ => exact absurd (object_info hf ho) (by simp)
    | address _ ho _ _ => exact absurd (object_info hf ho) (by simp)
    | void _ ho _ _ _ _ => exact absurd (object_info hf ho) (by simp)
    | target _ ho => exact absurd (object_info hf ho) (by simp)
    | string _ ho => exact absurd (object_info hf ho) (by simp)
    | struct ho => exact absurd (object_info hf ho) (by simp)
    | union ho => exact absurd (object_info hf ho) (by simp)
    | unionMember ho => exact absurd (object_info hf ho) (by simp)
    | skipped ho => exact absurd (object_info hf ho) (by simp)
    | literal ho => exact absurd (object_info hf ho) (by simp)
    | array ho => exact absurd (object_info hf ho) (by simp)
    | arguments hx => exact absurd hx hpk
    | vaList hx => exact absurd hx hpk
    | callPointer ho => exact absurd (object_info hf ho) (by simp)
  · rintro ⟨n, us, hn, he, rfl⟩
    obtain ⟨ws, h1, h2, h3⟩ := each_pairs he
    rw [callText_eq, ← h2]
    refine .call (ty := r) (ps := ps) ⟨hpk, hv, v.entry, [], fn_final hf, hf⟩ h1 ?_ h3 hn
    intro w u hm
    exact held_addr hheld w (by rw [← h1]; exact List.mem_map.2 ⟨_, hm, rfl⟩)

/-- C107: each of the texts is that of an object that is what was passed for the parameter (`Tells`). -/
theorem C107_tells (env : ValueString.Env) (deep : Bool) (db : Db) (hs : Sane db) (hin : Interned env db) (hh : Honest env db) (hp : Locale env.pr) (m : Mem) (v : Value) (r : Option Ref) (ps : List Ref)
    (hf : (db v.entry).info = .subprogram r ps) (hv : v.addr ≠ 0) (F : Ref → List WrapCall.Arg → List View → Prop) (slots : List Slot) (xs : List View) (hfill : AllFilled F slots xs)
    (hheld : Each (Held env.toEnv m) xs (env.params v.addr)) (t : Text) (ht : valueString env deep db m (some v) = .ok (some t)) :
    ∃ n us, (db v.entry).name = some n ∧ Each (Tells env deep db m F v) slots us ∧ t = callText n us := by
  obtain ⟨n, us, hn, he, rfl⟩ := (C107_call env deep db hs hin hh hp m v r ps hf hv xs hheld t).1 ht
  refine ⟨n, us, hn, ?_, rfl⟩
  clear ht
  generalize env.params v.addr = vs at hheld he
  induction hfill generalizing vs us with
  | nil =>
    cases hheld
    cases he
    exact .nil
  | cons h1 _ ih =>
    cases hheld with
    | cons h2 h3 =>
      cases he with
      | cons h4 h5 =>
        refine .cons ?_ (ih _ _ h3 h5)
        cases h1 with
        | bytes hid =>
          cases h2 with
          | bytes he _ _ hb => exact .bytes (he.trans hid) hb h4
        | rest hid hr =>
          cases h2 with
          | list he _ hl => exact .rest (he.trans hid) hr hl h4

theorem holds_bytes {m : Mem} {bs : List UInt8} : ∀ {a : Nat}, Bytes m a bs → Holds m a bs.length (Mem.le bs) := by
  induction bs with
  | nil => intro a _; exact ⟨by simp [Mem.le], by simp⟩
  | cons b bs ih =>
    intro a h
    have h' : Bytes m (a + 1) bs := fun i x hx => by
      have := h (i + 1) x (by simpa using hx)
      rwa [show a + (i + 1) = a + 1 + i by omega] at this
    obtain ⟨h1, h2⟩ := ih h'
    have hb := b.toNat_lt
    refine ⟨?_, ?_⟩
    · simp only [Mem.le, List.length_cons, Nat.pow_succ]
      omega
    · intro k hk
      cases k with
      | zero =>
        have := h 0 b rfl
        rw [this]
        simp only [Mem.le, Nat.pow_zero, Nat.div_one]
        rw [show (b.toNat + 256 * Mem.le bs) % 256 = b.toNat by omega]
        simp
      | succ k =>
        have := h2 k (by simpa using hk)
        rw [show a + (k + 1) = a + 1 + k by omega, this]
        congr 2
        simp only [Mem.le]
        rw [show 256 ^ (k + 1) = 256 * 256 ^ k by rw [Nat.pow_succ]; omega, ← Nat.div_div_eq_div_mul, show (b.toNat + 256 * Mem.le bs) / 256 = Mem.le bs by omega]

theorem number_shown {wenv : WrapCall.Env} {env : ValueString.Env} {deep : Bool} {db : Db} (hs : Sane db) (hp : Locale env.pr) (hva : ∀ r, env.vaList r = wenv.vaList r) {m : Mem} {F : Ref → List WrapCall.Arg → List View → Prop}
    {s : Slot} {x : View} {w : Value} {ty : Ty} {n : Nat} (h1 : Filled F s x) (h2 : Held env.toEnv m x w) (h4 : Number wenv db s ty n) (hq : ty = .char → n ≠ 39 ∧ n ≠ 92) (outer : List Value) :
    ∃ u, BaseText env ty n u ∧ Shown env deep db m outer w u := by
  cases h4 with
  | @mk p t f qs ty bs hpl hfin hdes hlen hbool =>
    cases h1 with
    | bytes hid =>
      cases h2 with
      | bytes he hadd _ hb =>
        have hent := he.trans hid
        have hfw : ∃ q, Final db w.entry (some f) q := by rw [hent]; exact ⟨_, .step (.param hpl.1) hfin⟩
        obtain ⟨q, hfw⟩ := hfw
        have hval : Value.Object db m w ty (Mem.le bs) := by
          refine ⟨⟨f, q, hfw, hdes⟩, ?_, hadd, hlen ▸ holds_bytes hb, hbool⟩
          rintro ⟨mi, hm, -⟩
          rw [hent, hpl.1] at hm
          cases hm
        obtain ⟨u, e, hu⟩ := ValueString.C60_text_partial env db hs.named hp m w ty _ hval hq
        obtain ⟨bs', be, hi, -⟩ := hdes
        refine ⟨u, hu, .base (s := bs') (e := be) ⟨?_, hadd, f, q, hfw, hi⟩ e⟩
        rintro ⟨a, b, h5, h6 | h6 | ⟨y, qs', t', ps', h6, h7⟩⟩
        · rw [hent, hpl.1] at h5
          cases h5
          cases h6
        · rw [hva, hent, hpl.2] at h6
          cases h6
        · cases final_unique hfw h6
          rcases h7 with h7 | h7 <;> (rw [hi] at h7; cases h7)

/-- C107: a call with arguments of arithmetic types (except `'` and `\\` as `char`, see `C60_char_false`) is printed, and its text has the value of each argument in the
order in which they were passed. -/
theorem C107_numbers_partial (wenv : WrapCall.Env) (env : ValueString.Env) (deep : Bool) (db : Db) (hs : Sane db) (hin : Interned env db) (hh : Honest env db) (hp : Locale env.pr) (hva : ∀ r, env.vaList r = wenv.vaList r) (m : Mem)
    (v : Value) (r : Option Ref) (ps : List Ref) (hf : (db v.entry).info = .subprogram r ps) (hv : v.addr ≠ 0) (n : Name) (hn : (db v.entry).name = some n)
    (F : Ref → List WrapCall.Arg → List View → Prop) (slots : List Slot) (xs : List View) (hfill : AllFilled F slots xs) (hheld : Each (Held env.toEnv m) xs (env.params v.addr))
    (nums : List (Ty × Nat)) (hnum : Each (fun s z => Number wenv db s z.1 z.2) slots nums) (hq : ∀ z ∈ nums, z.1 = .char → z.2 ≠ 39 ∧ z.2 ≠ 92) :
    ∃ us, Each (fun z u => BaseText env z.1 z.2 u) nums us ∧ valueString env deep db m (some v) = .ok (some (callText n us)) := by
  have key : ∀ vs, Each (Held env.toEnv m) xs vs → ∃ us, Each (fun z u => BaseText env z.1 z.2 u) nums us ∧ Each (Shown env deep db m [v]) vs us := by
    clear hheld
    induction hfill generalizing nums with
    | nil =>
      intro vs hvs
      cases hvs
      cases hnum
      exact ⟨[], .nil, .nil⟩
    | cons h1 _ ih =>
      intro vs hvs
      cases hvs with
      | cons h2 h3 =>
        cases hnum with
        | cons h4 h5 =>
          obtain ⟨us, k1, k2⟩ := ih _ h5 (fun z hz => hq z (by simp [hz])) _ h3
          obtain ⟨u, k3, k4⟩ := number_shown (env := env) (deep := deep) hs hp hva h1 h2 h4 (hq _ (by simp)) [v]
          exact ⟨u :: us, .cons k3 k1, .cons k4 k2⟩
  obtain ⟨us, k1, k2⟩ := key _ hheld
  exact ⟨us, k1, (C107_call env deep db hs hin hh hp m v r ps hf hv xs hheld _).2 ⟨n, us, hn, k2, rfl⟩⟩

/-- **C107**, printing without following pointers: a recorded call whose stored arguments are data (`Data`: numbers, pointers, characters, arrays, structs and so on, all in
readable memory) has a text, the one that `C107_tells` describes. -/
theorem C107_data (env : ValueString.Env) (db : Db) (hs : Sane db) (hin : Interned env db) (hh : Honest env db) (hp : Locale env.pr) (m : Mem) (v : Value) (r : Option Ref) (ps : List Ref)
    (hf : (db v.entry).info = .subprogram r ps) (hv : v.addr ≠ 0) (n : Name) (hn : (db v.entry).name = some n) (xs : List View) (hheld : Each (Held env.toEnv m) xs (env.params v.addr))
    (hd : ∀ w ∈ env.params v.addr, ValueString.Spec.Data env db m w) :
    ∃ us, Each (Shown env false db m [v]) (env.params v.addr) us ∧ valueString env false db m (some v) = .ok (some (callText n us)) := by
  have key : ∀ l : List Value, (∀ w ∈ l, ValueString.Spec.Data env db m w) → ∃ us, Each (Shown env false db m [v]) l us := by
    intro l
    induction l with
    | nil => intro _; exact ⟨[], .nil⟩
    | cons w l ih =>
      intro h
      obtain ⟨t, ht⟩ := ValueString.data_shown hs (h w (by simp)) [v]
      obtain ⟨us, hus⟩ := ih fun w hw => h w (by simp [hw])
      exact ⟨t :: us, .cons ht hus⟩
  obtain ⟨us, hus⟩ := key _ hd
  exact ⟨us, hus, (C107_call env false db hs hin hh hp m v r ps hf hv xs hheld _).2 ⟨n, us, hn, hus, rfl⟩⟩

end Verif.Trace
