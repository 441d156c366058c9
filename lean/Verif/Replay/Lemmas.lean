import Verif.Replay.Spec
import Verif.WrapCall.Props
import Verif.Ffi.Props
/-
From a recorded call to the one that is made.
-/
namespace Verif.Replay
open Verif Verif.Entry Verif.Entry.Spec Verif.Value Verif.ParamStorage Verif.ParamStorage.Spec Verif.Ffi Verif.Ffi.Spec Verif.Replay.Spec
open Verif.WrapCall.Spec (Class Takes Carries Plain VaList Slot AllFilled Filled Call)
open Verif.PrintfCall.Spec (StringAt)

/-- A type has one size. -/
theorem size_fun {db : Db} {r : Ref} {n : Nat} (h : Size db r n) : ∀ {k : Nat}, Size db r k → n = k := by
  induction h with
  | @stored r n hs =>
    intro k h'
    cases h' with
    | stored hs' => cases hs <;> cases hs' <;> simp_all
    | through ha _ => rcases alias_info ha with e | e | e | ⟨_, e, _⟩ | ⟨_, e⟩ <;> cases hs <;> simp_all
    | dots e _ => cases hs <;> simp_all
    | array e _ _ => cases hs <;> simp_all
  | @through r t n ha _ ih =>
    intro k h'
    cases h' with
    | stored hs => rcases alias_info ha with e | e | e | ⟨_, e, _⟩ | ⟨_, e⟩ <;> cases hs <;> simp_all
    | through ha' h =>
      have : some t = some _ := alias_unique ha ha'
      cases this
      exact ih h
    | dots e' _ => rcases alias_info ha with e | e | e | ⟨_, e, _⟩ | ⟨_, e⟩ <;> simp_all
    | array e' _ _ => rcases alias_info ha with e | e | e | ⟨_, e, _⟩ | ⟨_, e⟩ <;> simp_all
  | @dots r t n e _ ih =>
    intro k h'
    cases h' with
    | stored hs => cases hs <;> simp_all
    | through ha _ => rcases alias_info ha with e | e | e | ⟨_, e, _⟩ | ⟨_, e⟩ <;> simp_all
    | dots e' h => rw [e] at e'; cases e'; exact ih h
    | array e' _ _ => rw [e] at e'; cases e'
  | @array r t n c e _ _ ih =>
    intro k h'
    cases h' with
    | stored hs => cases hs <;> simp_all
    | through ha _ => rcases alias_info ha with e | e | e | ⟨_, e, _⟩ | ⟨_, e⟩ <;> simp_all
    | dots e' h => rw [e] at e'; cases e'
    | array e' _ h =>
      rw [e] at e'
      cases e'
      rw [ih h]

/-- The size of a type is that of its final entry. -/
theorem size_final {db : Db} {r : Ref} {o : Option Ref} {qs : List Qual} (hf : Final db r o qs) : ∀ {f : Ref} {n : Nat}, o = some f → Size db r n → Size db f n := by
  induction hf with
  | here _ => intro f n e h; cases e; exact h
  | void _ => intro f n e; cases e
  | step ha _ ih =>
    intro f n e h
    refine ih e ?_
    cases h with
    | stored hs => exact (stored_alias hs ha).elim
    | through ha' h =>
      have := alias_unique ha ha'
      cases this
      exact h
    | dots e' _ => rcases alias_info ha with e | e | e | ⟨_, e, _⟩ | ⟨_, e⟩ <;> simp_all
    | array e' _ _ => rcases alias_info ha with e | e | e | ⟨_, e, _⟩ | ⟨_, e⟩ <;> simp_all

/-- The description of a type has its size, unless it is a union. -/
theorem sized {env : Handlers.Env} {db : Db} {r : Ref} {s : Shape} (hl : Looks env db r s) (hu : ∀ x qs k ms, Final db r (some x) qs → (db x).info ≠ .struct .union k ms)
    {n : Nat} (hs : Size db r n) (hn : n ≠ 0) : s.bytes = n := by
  cases hl with
  | scalar h =>
    cases h with
    | @base x _ t hf hd =>
      obtain ⟨b, e, hi, _, _, hsz⟩ := hd
      have : b.toNat = n := size_fun (.stored (.base hi)) (size_final hf rfl hs)
      have hb : b ≠ 0 := by rintro rfl; exact hn this.symm
      rw [← this, hsz hb]
      cases t <;> rfl
    | @enumeration x _ k _ _ p hf hi hp =>
      have : k.toNat = n := size_fun (.stored (.enumeration hi)) (size_final hf rfl hs)
      rw [this] at hp
      unfold intOfSize at hp
      split at hp <;> cases hp <;> rfl
    | pointer hf hi _ => exact size_fun (.stored (.pointer hi)) (size_final hf rfl hs)
  | struct hf hi _ _ _ _ _ _ => exact size_fun (.stored (.struct hi)) (size_final hf rfl hs)
  | union hf hi _ _ _ _ _ => exact absurd hi (hu _ _ _ _ hf)
  | @array _ x _ e c k s' hf hi _ _ _ h1 h2 _ =>
    by_cases hc : 0 < c
    · exact size_fun (h1 hc).1 hs
    · have h := size_final hf rfl hs
      cases h with
      | stored h => cases h <;> simp_all
      | through ha _ => rcases alias_info ha with e | e | e | ⟨_, e, _⟩ | ⟨_, e⟩ <;> simp_all
      | dots e _ => simp_all
      | array e h _ =>
        rw [hi] at e
        cases e
        omega

/-- A passed value has the size of its type. -/
theorem takes_size {wenv : WrapCall.Env} {db : Db} {t : Ref} {c : Class} {bs : List UInt8} {a : WrapCall.Arg} (ht : Takes wenv db t c) (hc : Carries wenv c bs a) :
    Size db t bs.length := by
  cases ht with
  | small hf hi _ _ => cases hc; rename_i e; rw [e]; exact size_of_final hf rfl (.stored (.base hi))
  | wide hf hi _ _ => cases hc; rename_i e; rw [e]; exact size_of_final hf rfl (.stored (.base hi))
  | bool hf hi _ => cases hc <;> exact size_of_final hf rfl (.stored (.base (n := 1) hi))
  | float hf hi _ => cases hc with | float e _ _ => rw [e]; exact size_of_final hf rfl (.stored (.base (n := 4) hi))
  | pointer hf hi => cases hc; rename_i e; rw [e]; exact size_of_final hf rfl (.stored (.pointer hi))
  | enum1 hf hi => cases hc; rename_i e; rw [e]; exact size_of_final hf rfl (.stored (.enumeration (n := 1) hi))
  | enum2 hf hi => cases hc; rename_i e; rw [e]; exact size_of_final hf rfl (.stored (.enumeration (n := 2) hi))
  | enum4 hf hi => cases hc; rename_i e; rw [e]; exact size_of_final hf rfl (.stored (.enumeration (n := 4) hi))
  | enum8 hf hi => cases hc; rename_i e; rw [e]; exact size_of_final hf rfl (.stored (.enumeration (n := 8) hi))
  | agg hf hi _ _ _ => cases hc; rename_i e; rw [e]; exact size_of_final hf rfl (.stored (.struct hi))

/-- A kept argument arrives. -/
theorem keeps_gets {env : Handlers.Env} {db : Db} {src m : Mem} {a : WrapCall.Arg} {x : View} {v : Value} (hk : Keeps env db src a x) (hh : Held env m x v) :
    ∃ b, Ffi.Spec.Dots env db m v b ∧ Gets src m a b := by
  cases hk with
  | scalar h1 h2 h3 h4 =>
    cases hh with
    | bytes he h0 _ hb => exact ⟨_, .scalar (he ▸ h1) h2 h0 h4 hb, .scalar h3 h4⟩
  | @string e w s pad _ _ _ _ h1 h2 h3 h4 =>
    cases hh with
    | bytes he h0 hlt hb =>
      have hle : Mem.le (Mem.bytesOf 8 v.addr) = v.addr := by rw [Mem.le_bytesOf]; exact Nat.mod_eq_of_lt hlt
      refine ⟨.object (.prim .pointer) (Mem.bytesOf 8 v.addr), .array (he ▸ h2) h3 (he ▸ h4) h0 ⟨Mem.bytesOf_length _ _, fun i hi => bytesOf_get 8 _ i hi⟩, .string h1 (Mem.bytesOf_length _ _) ?_⟩
      rw [hle]
      refine ⟨fun k b hb' => ⟨(h1.1 k b hb').1, hb k b ?_⟩, hb s.length 0 (by simp)⟩
      rw [List.getElem?_append_left (List.getElem?_eq_some_iff.1 hb').1, hb']

theorem keeps_all {env : Handlers.Env} {db : Db} {src m : Mem} {as : List WrapCall.Arg} {xs : List View} (hk : Each (Keeps env db src) as xs) :
    ∀ {vs : List Value}, Each (Held env m) xs vs → ∃ bs, Each (Ffi.Spec.Dots env db m) vs bs ∧ Each (Gets src m) as bs := by
  induction hk with
  | nil => intro vs h; cases h; exact ⟨[], .nil, .nil⟩
  | cons h1 _ ih =>
    intro vs h
    cases h with
    | cons h2 h3 =>
      obtain ⟨b, hb, hg⟩ := keeps_gets h1 h2
      obtain ⟨bs, hbs, hgs⟩ := ih h3
      exact ⟨b :: bs, .cons hb hbs, .cons hg hgs⟩

/-- The arguments are there, with or without `...`. -/
inductive Ready (env : Handlers.Env) (db : Db) (m : Mem) : List Ref → List Value → List Ffi.Arg → Option Nat → Prop where
  | plain {ps vs as} : (∀ q ∈ ps, ¬ IsDots db q) → vs.length = ps.length → Each (Fixed env db m (Ffi.Spec.Dots env db m)) vs as → Ready env db m ps vs as none
  | dots {qs q vs d as more} : qs.length = vs.length → IsDots db q → d.addr ≠ 0 → env.vaList d.entry = false → Each (Fixed env db m (Ffi.Spec.Dots env db m)) vs as →
      Each (Ffi.Spec.Dots env db m) (env.params d.addr) more → Ready env db m (qs ++ [q]) (vs ++ [d]) (as ++ more) (some vs.length)

theorem Ready.cons {env : Handlers.Env} {db : Db} {m : Mem} {ps : List Ref} {vs : List Value} {as : List Ffi.Arg} {fixed : Option Nat} (h : Ready env db m ps vs as fixed)
    {p : Ref} (hp : ¬ IsDots db p) {v : Value} {a : Ffi.Arg} (ha : Fixed env db m (Ffi.Spec.Dots env db m) v a) : Ready env db m (p :: ps) (v :: vs) (a :: as) (fixed.map (· + 1)) := by
  cases h with
  | plain h1 h2 h3 =>
    refine .plain ?_ (by simp [h2]) (.cons ha h3)
    intro q hq
    rcases List.mem_cons.1 hq with rfl | hq
    · exact hp
    · exact h1 q hq
  | @dots qs q vs d as more h1 h2 h3 h4 h5 h6 => exact .dots (qs := p :: qs) (vs := v :: vs) (as := a :: as) (by simp [h1]) h2 h3 h4 (.cons ha h5) h6

theorem Ready.arguments {env : Handlers.Env} {db : Db} {m : Mem} {ps : List Ref} {as : List Ffi.Arg} {fixed : Option Nat} {v : Value} (h : Ready env db m ps (env.params v.addr) as fixed) :
    Arguments env db m (Ffi.Spec.Dots env db m) v ps as fixed := by
  generalize hvs : env.params v.addr = vs at h
  cases h with
  | plain h1 h2 h3 => exact .plain (by rw [hvs, h2]) (fun q hq => h1 q (List.mem_of_getLast? hq)) (by rw [hvs]; exact h3)
  | dots h1 h2 h3 h4 h5 h6 => exact .dots hvs (by simp [h1]) (by simp) h2 h3 h4 h5 h6

/-- The call that was recorded is there to be made. -/
theorem ready {wenv : WrapCall.Env} {env : Handlers.Env} {db : Db} {src m : Mem} {tags : Option (Ref → Option WrapCall.Handler)} {ps : List Ref} {as : List WrapCall.Arg} {slots : List Slot} {k : Bool}
    (hcall : Call wenv db tags ps as slots k) (hk : k = true) (hcb : Callable wenv env db ps) :
    ∀ {xs : List View} {vs : List Value}, AllFilled (fun _ a x => Each (Keeps env db src) a x) slots xs → Each (Held env m) xs vs →
      ∃ l fixed, Same wenv env db src m ps as l fixed ∧ Ready env db m ps vs l fixed := by
  induction hcall with
  | nil =>
    intro xs vs hf hh
    cases hf
    cases hh
    exact ⟨[], none, .nil, .plain (by simp) rfl .nil⟩
  | @plain p t c bs a ps args slots k hp ht hc _ ih =>
    intro xs vs hf hh
    cases hf with
    | cons h1 h2 =>
      cases hh with
      | cons h3 h4 =>
        obtain ⟨l, fixed, hs, hr⟩ := ih hk ⟨hcb.same, fun q hq => hcb.plain q (by simp [hq]), fun q hq => hcb.vaList q (by simp [hq]), fun q hq => hcb.dots q (by simp [hq])⟩ h2 h4
        obtain ⟨s, hl, hsz⟩ := hcb.plain p (by simp) t hp
        have hlen : bs.length = room s := (hsz _ (.through (.param hp.1) (takes_size ht hc))).symm
        cases h1 with
        | bytes hid =>
          cases h3 with
          | bytes he h0 _ hb =>
            rw [hid] at he
            refine ⟨.object s bs :: l, fixed.map (· + 1), .plain hp ht hc hl hlen hs, hr.cons ?_ (.object (he ▸ hl) (by rw [he, hcb.same]; exact hp.2) h0 hlen hb)⟩
            rintro ⟨u, hu⟩
            rw [hp.1] at hu
            cases hu
  | @vaList p ptr inner ps args slots k hp _ _ ih =>
    intro xs vs hf hh
    cases hf with
    | cons h1 h2 =>
      cases hh with
      | cons h3 h4 =>
        obtain ⟨l, fixed, hs, hr⟩ := ih hk ⟨hcb.same, fun q hq => hcb.plain q (by simp [hq]), fun q hq => hcb.vaList q (by simp [hq]), fun q hq => hcb.dots q (by simp [hq])⟩ h2 h4
        obtain ⟨x, qs, t, hfin, hi⟩ := hcb.vaList p (by simp) hp
        cases h1 with
        | rest hid hkeep =>
          cases h3 with
          | list he h0 hin =>
            rw [hid] at he
            obtain ⟨got, hd, hg⟩ := keeps_all hkeep hin
            refine ⟨.vaList got :: l, fixed.map (· + 1), .vaList hp hg hs, hr.cons ?_ (.vaList (he ▸ hfin) hi (by rw [he, hcb.same]; exact hp.2) h0 hd)⟩
            rintro ⟨u, hu⟩
            obtain ⟨⟨u', hu'⟩, _⟩ := hp
            rw [hu'] at hu
            cases hu
  | @dots p args hp _ =>
    intro xs vs hf hh
    cases hf with
    | cons h1 h2 =>
      cases h2
      cases hh with
      | cons h3 h4 =>
        cases h4
        cases h1 with
        | rest hid hkeep =>
          cases h3 with
          | list he h0 hin =>
            rw [hid] at he
            obtain ⟨got, hd, hg⟩ := keeps_all hkeep hin
            exact ⟨got, some 0, .dots hp hg, .dots (qs := []) (vs := []) (as := []) rfl hp h0 (by rw [he]; exact hcb.dots p (by simp) hp) .nil hd⟩
  | refused _ => cases hk

end Verif.Replay
