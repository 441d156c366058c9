import Verif.CDecl.Lemmas
import Verif.Value.PropsObject
/-
Helper lemmas for `Verif.CDecl.Props`: the texts of regular types follow C's grammar.
-/
namespace Verif.CDecl
open Verif Verif.Entry Spec

/-- The format of a type, `void %s` for none. -/
noncomputable def patOf (db : Db) : Option Ref → Outcome (Option Text)
  | none => .ok (some voidPat)
  | some r => cdecl db r

/-- `a` and `b` around a declarator for the type `t` make a declaration. -/
def Ctx (db : Db) (t : Option Ref) (sh : Shape) (a b : Text) : Prop :=
  ∀ r x n e, Declarator db t r x n e → (sh = .arr → x = true) → (sh = .fn → e ≠ []) → Declaration db r n (a ++ e ++ b)

structure Fits (db : Db) (t : Option Ref) (sh : Shape) (l : Bool) (a b : Text) : Prop where
  text : patOf db t = .ok (some (a ++ [37, 115] ++ b))
  left : Plain a
  right : Plain b
  ctx : Ctx db t sh a b
  last : l = true → b = []
  spec : sh = .spec → b = [] ∧ ∃ s, a = s ++ [32] ∧ Specifier db t s

theorem number_spec (c : Int) (h : 0 ≤ c) : ∃ n : Nat, c = n ∧ Value.Spec.Decimal n (Value.decimalInt c) := by
  refine ⟨c.natAbs, by omega, ?_⟩
  rw [Value.decimalInt, if_neg (by omega)]
  exact Value.decimal_spec _

theorem int_number (v : Int) : Number v (Value.decimalInt v) := by
  unfold Value.decimalInt
  split
  · have := Number.neg (n := v.natAbs) (by omega) (Value.decimal_spec _)
    rwa [show -((v.natAbs : Nat) : Int) = v by omega] at this
  · have := Number.nonneg (Value.decimal_spec v.natAbs)
    rwa [show ((v.natAbs : Nat) : Int) = v by omega] at this

theorem enumText_acc : ∀ {es : List (Name × Int)} {a : Text}, es ≠ [] →
    ∃ s, enumText es (some a) = some (a ++ [32] ++ s) ∧ Enumerators es s
  | [(n, v)], a, _ => ⟨_, by simp [enumText], .one (int_number v)⟩
  | (n, v) :: x :: es, a, _ => by
    obtain ⟨s, h1, h2⟩ := enumText_acc (es := x :: es) (a := a ++ [32] ++ n ++ [32, 61, 32] ++ Value.decimalInt v ++ [44]) (by simp)
    refine ⟨_, ?_, .cons (int_number v) (by simp) h2⟩
    rw [enumText]
    simp only [Option.getD_some, Option.isSome_some, if_true]
    rw [h1]
    simp

theorem enumText_spec : ∀ (es : List (Name × Int)), Enumerators es ((enumText es none).getD [])
  | [] => .nil
  | [(n, v)] => by
    simp only [enumText, Option.getD_none, Option.isSome_none, List.nil_append, Option.getD_some]
    exact .one (int_number v)
  | (n, v) :: x :: es => by
    rw [enumText]
    obtain ⟨s, h1, h2⟩ := enumText_acc (es := x :: es) (a := n ++ [32, 61, 32] ++ Value.decimalInt v ++ [44]) (by simp)
    simp only [Option.getD_none, Option.isSome_none, Bool.false_eq_true, if_false, List.append_nil, List.nil_append]
    rw [h1]
    have := Enumerators.cons (int_number v) (n := n) (List.cons_ne_nil _ _) h2
    simpa using this

theorem spec_fits {db : Db} {r : Ref} {s : Text} (hp : Plain s) (hc : cdecl db r = .ok (some (s ++ [32] ++ [37, 115])))
    (h : Specifier db (some r) s) : Fits db (some r) .spec true (s ++ [32]) [] where
  text := by simp only [patOf, hc]; simp
  left := by rw [plain_append]; exact ⟨hp, by simp [Plain]⟩
  right := plain_nil
  ctx := by
    intro r' x n e he _ _
    rw [List.append_nil]
    exact .mk h he
  last := fun _ => rfl
  spec := fun _ => ⟨rfl, s, rfl, h⟩

/-- What the list of parameters needs of one parameter. -/
def ParamOk (db : Db) (nm : Ref → Text) (p : Ref) : Prop :=
  (∃ t, (db p).info = .param true t) ∨
  ∃ t a b, (db p).info = .param false (some t) ∧ cdecl db t = .ok (some (a ++ [37, 115] ++ b)) ∧ Plain a ∧ Plain b ∧
    Declaration db (some t) (nm p) (a ++ nm p ++ b)

/-- The names printed for parameters. -/
def names (db : Db) (fn : Bool) (p : Ref) : Text := if fn then [] else (db p).name.getD []

theorem paramsText_acc {db : Db} {fn : Bool} : ∀ {ps : List Ref} {acc : Text},
    (∀ p ∈ ps, ParamOk db (names db fn) p) → ps ≠ [] →
    ∃ s, paramsText db fn ps ((ps.flatMap fun r => dep (paramType db r)).map (out db)) (some acc) = .ok (some (some (acc ++ [44, 32] ++ s))) ∧
      Params db (names db fn) ps s
  | p :: ps, acc, h, _ => by
    have h' := fun x (hx : x ∈ ps) => h x (List.mem_cons_of_mem _ hx)
    have next : ∀ y, Param db (names db fn) p y →
        ∃ s, paramsText db fn ps ((ps.flatMap fun r => dep (paramType db r)).map (out db)) (addParam (some acc) y) = .ok (some (some (acc ++ [44, 32] ++ s))) ∧
          Params db (names db fn) (p :: ps) s := by
      intro y hy
      cases ps with
      | nil => exact ⟨y, by simp [paramsText, addParam], .last hy⟩
      | cons q qs =>
        obtain ⟨s, h1, h2⟩ := paramsText_acc (acc := acc ++ [44, 32] ++ y) h' (by simp)
        refine ⟨y ++ [44, 32] ++ s, ?_, .cons hy (by simp) h2⟩
        simp only [addParam, Option.getD_some, Option.isSome_some, if_true]
        rw [h1]
        simp
    rw [List.flatMap_cons, List.map_append]
    rcases h p List.mem_cons_self with ⟨t, hi⟩ | ⟨t, a, b, hi, hc, ha, hb, hd⟩
    · have ht : paramType db p = none := by simp [paramType, hi]
      simp only [ht, dep, List.map_nil, List.nil_append, paramsText, hi]
      exact next dots (.dots hi)
    · have ht : paramType db p = some t := by simp [paramType, hi]
      have ho : out db t = some (a ++ [37, 115] ++ b) := by simp [out, hc]
      simp only [ht, dep, List.map_cons, List.map_nil, List.cons_append, List.nil_append, paramsText, hi, dequeue, ho]
      rw [fmt_one ha hb]
      simp only [Outcome.bind_ok]
      exact next _ (.typed hi hd (trim_cut _))

theorem paramsText_spec {db : Db} {fn : Bool} {ps : List Ref} (h : ∀ p ∈ ps, ParamOk db (names db fn) p) :
    ∃ x, paramsText db fn ps ((ps.flatMap fun r => dep (paramType db r)).map (out db)) none = .ok (some x) ∧
      Params db (names db fn) ps (x.getD []) := by
  cases ps with
  | nil => exact ⟨none, rfl, .nil⟩
  | cons p ps =>
    have h' := fun x (hx : x ∈ ps) => h x (List.mem_cons_of_mem _ hx)
    have next : ∀ y, Param db (names db fn) p y →
        ∃ x, paramsText db fn ps ((ps.flatMap fun r => dep (paramType db r)).map (out db)) (addParam none y) = .ok (some x) ∧
          Params db (names db fn) (p :: ps) (x.getD []) := by
      intro y hy
      cases ps with
      | nil => exact ⟨some y, by simp [paramsText, addParam], .last hy⟩
      | cons q qs =>
        obtain ⟨s, h1, h2⟩ := paramsText_acc (acc := y) h' (by simp)
        refine ⟨some (y ++ [44, 32] ++ s), ?_, .cons hy (by simp) h2⟩
        simp only [addParam, Option.getD_none, Option.isSome_none, Bool.false_eq_true, if_false, List.nil_append]
        rw [h1]
    rw [List.flatMap_cons, List.map_append]
    rcases h p List.mem_cons_self with ⟨t, hi⟩ | ⟨t, a, b, hi, hc, ha, hb, hd⟩
    · have ht : paramType db p = none := by simp [paramType, hi]
      simp only [ht, dep, List.map_nil, List.nil_append, paramsText, hi]
      exact next dots (.dots hi)
    · have ht : paramType db p = some t := by simp [paramType, hi]
      have ho : out db t = some (a ++ [37, 115] ++ b) := by simp [out, hc]
      simp only [ht, dep, List.map_cons, List.map_nil, List.cons_append, List.nil_append, paramsText, hi, dequeue, ho]
      rw [fmt_one ha hb]
      simp only [Outcome.bind_ok]
      exact next _ (.typed hi hd (trim_cut _))

/-- What the list of fields needs of one member. -/
def FieldOk (db : Db) (m : Ref) : Prop :=
  ∃ i a b, (db m).info = .member i ∧ patOf db i.type = .ok (some (a ++ [37, 115] ++ b)) ∧ Plain a ∧ Plain b ∧
    Field db m (trim (a ++ fieldName (db m) ++ b))

theorem fieldsText_acc {db : Db} : ∀ {ms : List Ref} {acc : Option Text}, (∀ m ∈ ms, FieldOk db m) →
    ∃ x s, fieldsText db ms ((ms.flatMap fun r => dep (memberType db r)).map (out db)) acc = .ok (some x) ∧
      x.getD [] = acc.getD [] ++ s ∧ Fields db ms s
  | [], acc, _ => ⟨acc, [], rfl, by simp, .nil⟩
  | m :: ms, acc, h => by
    have h' := fun x (hx : x ∈ ms) => h x (List.mem_cons_of_mem _ hx)
    obtain ⟨i, a, b, hi, hp, ha, hb, hf⟩ := h m List.mem_cons_self
    obtain ⟨x, s, h1, h2, h3⟩ := fieldsText_acc (acc := some (acc.getD [] ++ trim (a ++ fieldName (db m) ++ b) ++ [59, 32])) h'
    refine ⟨x, _, ?_, ?_, .cons hf h3⟩
    · have ht : memberType db m = i.type := by simp [memberType, hi]
      rw [List.flatMap_cons, List.map_append, fieldsText, ht, typePattern_map]
      have hm : outOf (out db) i.type = some (a ++ [37, 115] ++ b) := by
        cases hit : i.type with
        | none => rw [hit] at hp; simpa [patOf, outOf] using hp
        | some d => rw [hit] at hp; simp only [patOf] at hp; simp [outOf, out, hp]
      rw [hm]
      simp only
      rw [fmt_one ha hb]
      exact h1
    · rw [h2]; simp

theorem dep_ends {db : Db} {t : Option Ref} {x : Option Text} (h : patOf db t = .ok x) : ∀ d ∈ dep t, ∃ o, cdecl db d = .ok o := by
  intro d hd
  rw [mem_dep] at hd
  subst hd
  exact ⟨x, h⟩

theorem pat_out {db : Db} {t : Option Ref} {x : Text} (h : patOf db t = .ok (some x)) :
    outOf (out db) t = some x := by
  cases t with
  | none => simpa [patOf, outOf] using h
  | some d => simp only [patOf] at h; simp [outOf, out, h]

/-- Soundness of everything the type mentions. -/
def Sounds (db : Db) (t : Option Ref) : Prop := ∀ r, t = some r → ∀ d, Mentions db r d → Sound db d

theorem sounds_use {db : Db} {r : Ref} (h : Sounds db (some r)) {t : Option Ref} (hu : ∀ d, t = some d → Uses db r d) : Sounds db t := by
  intro d hd e he
  exact h r rfl e (Mentions.trans (.step .self (hu d hd)) he)

theorem qual_word (q : Qual) : qualPat q = word q ++ [32] ++ [37, 115] ++ [] ∧ Plain (word q ++ [32]) := by
  cases q <;> exact ⟨rfl, by simp [Plain, word]⟩

mutual
theorem regular {db : Db} : ∀ {t : Option Ref} {sh : Shape} {l : Bool}, Regular db t sh l → Sounds db t → ∃ a b, Fits db t sh l a b
  | _, _, _, .void, _ => ⟨[118, 111, 105, 100, 32], [], {
      text := rfl, left := by simp [Plain], right := plain_nil, last := fun _ => rfl
      ctx := by
        intro r x n e he _ _
        rw [List.append_nil]
        exact .mk (s := [118, 111, 105, 100]) .void he
      spec := fun _ => ⟨rfl, [118, 111, 105, 100], rfl, .void⟩ }⟩
  | _, _, _, .base (r := r) hi, hs => by
    have hr := hs _ rfl _ .self
    obtain ⟨n, hn⟩ := Option.ne_none_iff_exists'.mp (hr.base _ _ hi)
    refine ⟨_, _, spec_fits (hr.plain n hn) ?_ (.base hi hn)⟩
    rw [cdecl_out (by rw [deps, hi]; simp), combine, hi, hn]
    rfl
  | _, _, _, .typedef (r := r) hi, hs => by
    have hr := hs _ rfl _ .self
    obtain ⟨n, hn⟩ := Option.ne_none_iff_exists'.mp (hr.named _ (.inr hi))
    refine ⟨_, _, spec_fits (hr.plain n hn) ?_ (.typedef hi hn)⟩
    rw [cdecl_out (by rw [deps, hi]; simp), combine, hi, hn]
    rfl
  | _, _, _, .enum (r := r) hi, hs => by
    have hr := hs _ rfl _ .self
    have hc := cdecl_out (db := db) (r := r) (by rw [deps, hi]; simp)
    rw [combine, hi] at hc
    cases hn : (db r).name with
    | none =>
      rw [hn] at hc
      refine ⟨_, _, spec_fits ?_ ?_ (.enumList hi hn (enumText_spec _))⟩
      · simp only [plain_append]
        exact ⟨⟨by simp [Plain], enumText_plain (val := none) (hr.enumerators _ _ _ hi) plain_nil⟩, by simp [Plain]⟩
      · rw [hc]; simp [hole]
    | some n =>
      rw [hn] at hc
      refine ⟨_, _, spec_fits ?_ ?_ (.enum hi hn)⟩
      · simp only [plain_append]
        exact ⟨by simp [Plain], hr.plain n hn⟩
      · rw [hc]; simp [hole]
  | _, _, _, .struct (r := r) (k := k) hi hk hn, hs => by
    have hr := hs _ rfl _ .self
    obtain ⟨n, hn⟩ := Option.ne_none_iff_exists'.mp hn
    have hc := cdecl_out (db := db) (r := r) (by rw [deps, hi]; cases k <;> simp [hn])
    rw [combine, hi, hn] at hc
    cases k with
    | struct =>
      refine ⟨_, _, spec_fits ?_ ?_ (.struct hi .struct hn)⟩
      · simp only [plain_append]
        exact ⟨⟨by simp [Plain], by simp [Plain]⟩, hr.plain n hn⟩
      · rw [hc]; simp [hole, structWord]
    | union =>
      refine ⟨_, _, spec_fits ?_ ?_ (.struct hi .union hn)⟩
      · simp only [plain_append]
        exact ⟨⟨by simp [Plain], by simp [Plain]⟩, hr.plain n hn⟩
      · rw [hc]; simp [hole, structWord]
    | «class» => exact absurd rfl hk
  | _, _, _, .structList (r := r) (k := k) (ms := ms) hi hk hn hm, hs => by
    have hr := hs _ rfl _ .self
    have hf : ∀ m ∈ ms, FieldOk db m := fun m hx => regularField (hm m hx) (by
      intro i him
      exact sounds_use hs fun d hd => .field hi hn hx him hd)
    obtain ⟨x, s, h1, h2, h3⟩ := fieldsText_acc (acc := none) hf
    simp only [Option.getD_none, List.nil_append] at h2
    have hd : ∀ d ∈ ms.flatMap (fun r => dep (memberType db r)), ∃ o, cdecl db d = .ok o := by
      intro d hd
      rw [List.mem_flatMap] at hd
      obtain ⟨m, hm, hd⟩ := hd
      obtain ⟨i, a, b, him, hp, _⟩ := hf m hm
      have ht : memberType db m = i.type := by simp [memberType, him]
      rw [ht] at hd
      exact dep_ends hp d hd
    have hpl : Plain s := by
      have hmt : ∀ m ∈ ms, ∀ t, memberType db m = some t → Uses db r t := by
        intro m hm t ht
        unfold memberType at ht
        split at ht
        · next i h => exact .field hi hn hm h ht
        · cases ht
      have := fieldsText_ok (db := db) (o := out db) (ms := ms) (res := none) (fun m hm => (hr.fields _ _ ms hi m hm).2)
        (fun m hm t ht => by
          obtain ⟨i, a, b, him, hp, ha, hb, _⟩ := hf m hm
          have ht' : memberType db m = i.type := by simp [memberType, him]
          rw [ht'] at ht
          rw [ht] at hp
          exact .inr ⟨_, by simp only [patOf] at hp; simp [out, hp], a, b, rfl, ha, hb⟩) plain_nil
      rw [h1] at this
      simp only [Outcome.ok.injEq, reduceCtorEq, and_false, Option.some.injEq, false_or] at this
      obtain ⟨_, y, rfl, hy⟩ := this
      rwa [h2] at hy
    have hc : cdecl db r = .ok (some (structWord k ++ [32, 123] ++ s ++ [125, 32] ++ hole)) := by
      have e : deps db (db r) = ms.flatMap (fun r => dep (memberType db r)) := by
        rw [deps, hi]
        cases k
        · simp [hn]
        · simp [hn]
        · exact absurd rfl hk
      rw [cdecl_out (by rw [e]; exact hd), e, combine, hi]
      cases k with
      | struct => simp only; rw [hn]; simp only; rw [h1, ← h2]; rfl
      | union => simp only; rw [hn]; simp only; rw [h1, ← h2]; rfl
      | «class» => exact absurd rfl hk
    cases k with
    | struct =>
      refine ⟨_, _, spec_fits ?_ ?_ (.structList hi .struct hn h3)⟩
      · simp only [plain_append]
        exact ⟨⟨⟨by simp [Plain], by simp [Plain]⟩, hpl⟩, by simp [Plain]⟩
      · rw [hc]; simp [hole, structWord]
    | union =>
      refine ⟨_, _, spec_fits ?_ ?_ (.structList hi .union hn h3)⟩
      · simp only [plain_append]
        exact ⟨⟨⟨by simp [Plain], by simp [Plain]⟩, hpl⟩, by simp [Plain]⟩
      · rw [hc]; simp [hole, structWord]
    | «class» => exact absurd rfl hk
  | _, _, _, .qual (r := r) (q := q) (t := t) hi ht, hs => by
    obtain ⟨a, b, hf⟩ := regular ht (sounds_use hs fun d hd => .qual (by rw [hi, hd]))
    obtain ⟨rfl, s, rfl, hsp⟩ := hf.spec rfl
    have hl := hf.left
    obtain ⟨hw, pw⟩ := qual_word q
    refine ⟨_, _, spec_fits ?_ ?_ (.qual hi hsp)⟩
    · rw [plain_append]
      exact ⟨pw, (plain_append.mp hl).1⟩
    · have hd : deps db (db r) = dep t := by rw [deps, hi]
      rw [cdecl_out (by rw [hd]; exact dep_ends hf.text), hd, combine, hi]
      simp only
      rw [show (dep t).map (out db) = (dep t).map (out db) ++ [] by simp, typePattern_map, pat_out hf.text]
      simp only
      have e : fmt (qualPat q) [s ++ [32] ++ [37, 115] ++ []] = .ok (word q ++ [32] ++ s ++ [32] ++ [37, 115]) := by
        rw [hw, fmt_one pw plain_nil]; simp
      rw [e]
      cases t with
      | none => rfl
      | some p =>
        simp only
        have hnp : ∀ u, (db p).info ≠ .pointer u := by
          intro u hu
          cases ht <;> simp_all
        split
        · next u hu => exact absurd hu (hnp u)
        · rfl
  | _, _, _, .pointer (r := r) (t := t) (sh := sh) hi hna ht, hs => by
    obtain ⟨a, b, hf⟩ := regular ht (sounds_use hs fun d hd => .pointer (by rw [hi, hd]))
    have hd : deps db (db r) = dep t := by rw [deps, hi]
    refine ⟨a ++ [42, 32], b, ?_, ?_, hf.right, ?_, hf.last, by simp⟩
    · simp only [patOf]
      rw [cdecl_out (by rw [hd]; exact dep_ends hf.text), hd, combine, hi]
      simp only
      rw [show (dep t).map (out db) = (dep t).map (out db) ++ [] by simp, typePattern_map, pat_out hf.text]
      simp only
      rw [fmt_one hf.left hf.right]
      simp
    · rw [plain_append]
      exact ⟨hf.left, by simp [Plain]⟩
    · intro r' x n e he _ _
      have := hf.ctx r' false n ([42, 32] ++ e) (.pointer hi he) (fun h => absurd h hna) (by simp)
      simpa using this
  | _, _, _, .qualPointer (r := r) (q := q) (p := p) (t := t) (sh := sh) hi hp hna ht, hs => by
    have up : Uses db r p := .qual hi
    obtain ⟨a, b, hf⟩ := regular ht (sounds_use (r := p) (sounds_use hs (t := some p) fun d hd => by cases hd; exact up)
      fun d hd => .pointer (by rw [hp, hd]))
    obtain ⟨hw, pw⟩ := qual_word q
    have hcp : cdecl db p = .ok (some (a ++ [42, 32] ++ [37, 115] ++ b)) := by
      have hd : deps db (db p) = dep t := by rw [deps, hp]
      rw [cdecl_out (by rw [hd]; exact dep_ends hf.text), hd, combine, hp]
      simp only
      rw [show (dep t).map (out db) = (dep t).map (out db) ++ [] by simp, typePattern_map, pat_out hf.text]
      simp only
      rw [fmt_one hf.left hf.right]
      simp
    have ha : Plain (a ++ [42, 32]) := by
      rw [plain_append]
      exact ⟨hf.left, by simp [Plain]⟩
    have hd : deps db (db r) = dep (some p) := by rw [deps, hi]
    refine ⟨a ++ [42, 32] ++ (word q ++ [32]), b, ?_, ?_, hf.right, ?_, hf.last, by simp⟩
    · simp only [patOf]
      rw [cdecl_out (by rw [hd]; exact dep_ends (t := some p) hcp), hd, combine, hi]
      simp only [dep, List.map_cons, List.map_nil, typePattern, dequeue]
      have ho : out db p = some (a ++ [42, 32] ++ [37, 115] ++ b) := by simp [out, hcp]
      rw [ho, hp]
      simp only
      rw [fmt_one ha hf.right, hw]
      simp
    · rw [plain_append]
      exact ⟨ha, pw⟩
    · intro r' x n e he _ _
      have := hf.ctx r' false n ([42, 32] ++ word q ++ [32] ++ e) (.qualPointer hp hi he) (fun h => absurd h hna) (by simp)
      simpa using this
  | _, _, _, .array (r := r) (t := t) (c := c) (sh := sh) hi ht, hs => by
    obtain ⟨a, b, hf⟩ := regular ht (sounds_use hs fun d hd => .array (by rw [hi, hd]))
    have hd : deps db (db r) = dep t := by rw [deps, hi]
    by_cases hc : 0 ≤ c
    · obtain ⟨k, hk, hdec⟩ := number_spec c hc
      refine ⟨a, [91] ++ Value.decimalInt c ++ [93] ++ b, ?_, hf.left, ?_, ?_, by simp, by simp⟩
      · simp only [patOf]
        rw [cdecl_out (by rw [hd]; exact dep_ends hf.text), hd, combine, hi]
        simp only
        rw [show (dep t).map (out db) = (dep t).map (out db) ++ [] by simp, typePattern_map, pat_out hf.text]
        simp only
        rw [fmt_one hf.left hf.right, if_pos hc]
        simp [hole]
      · simp only [plain_append]
        exact ⟨⟨⟨by simp [Plain], decimalInt_plain c⟩, by simp [Plain]⟩, hf.right⟩
      · intro r' x n e he hx _
        cases hx rfl
        have := hf.ctx r' true n (e ++ [91] ++ Value.decimalInt c ++ [93]) (.array (by rw [hi, hk]) hdec he) (fun _ => rfl) (by simp)
        simpa using this
    · refine ⟨a, [91, 93] ++ b, ?_, hf.left, ?_, ?_, by simp, by simp⟩
      · simp only [patOf]
        rw [cdecl_out (by rw [hd]; exact dep_ends hf.text), hd, combine, hi]
        simp only
        rw [show (dep t).map (out db) = (dep t).map (out db) ++ [] by simp, typePattern_map, pat_out hf.text]
        simp only
        rw [fmt_one hf.left hf.right, if_neg hc]
        simp [hole]
      · simp only [plain_append]
        exact ⟨by simp [Plain], hf.right⟩
      · intro r' x n e he hx _
        cases hx rfl
        have := hf.ctx r' true n (e ++ [91, 93]) (.flexible hi (by omega) he) (fun _ => rfl) (by simp)
        simpa using this
  | _, _, _, .function (r := r) (t := t) (ps := ps) (sh := sh) hi ht hps, hs => by
    obtain ⟨a, b, hf⟩ := regular ht (sounds_use hs fun d hd => .result (.inr (by rw [hi, hd])))
    cases hf.last rfl
    have hok : ∀ p ∈ ps, ParamOk db (names db true) p := fun p hp => regularParam (named := false) (hps p hp) true (by simp) (by
      intro t' ht'
      exact sounds_use hs fun d hd => by cases hd; exact .param (.inr hi) hp ht')
    obtain ⟨x, hx, hpar⟩ := paramsText_spec hok
    have hd : deps db (db r) = dep t ++ ps.flatMap fun r => dep (paramType db r) := by rw [deps, hi]
    have hends : ∀ d ∈ deps db (db r), ∃ o, cdecl db d = .ok o := by
      rw [hd]
      intro d hd
      rw [List.mem_append, List.mem_flatMap] at hd
      rcases hd with hd | ⟨p, hp, hd⟩
      · exact dep_ends hf.text d hd
      · rw [mem_dep] at hd
        rcases hok p hp with ⟨t', hi'⟩ | ⟨t', a', b', hi', hc', _⟩
        · simp [paramType, hi'] at hd
        · simp only [paramType, hi', Option.some.injEq] at hd
          subst hd
          exact ⟨_, hc'⟩
    have hpl : Plain (x.getD []) := by
      have hr := hs _ rfl _ .self
      have := paramsText_ok (db := db) (o := out db) (fn := true) (acc := none) (hr.params t ps (.inr hi))
        (fun p hp t' ht' => by
          rcases hok p hp with ⟨u, hi'⟩ | ⟨u, a', b', hi', hc', ha', hb', _⟩
          · simp [paramType, hi'] at ht'
          · simp only [paramType, hi', Option.some.injEq] at ht'
            subst ht'
            exact .inr ⟨_, by simp [out, hc'], a', b', rfl, ha', hb'⟩) plain_nil
      rw [hx] at this
      simp only [Outcome.ok.injEq, reduceCtorEq, and_false, Option.some.injEq, false_or] at this
      obtain ⟨_, _, y, rfl, hy⟩ := this
      exact hy
    refine ⟨a ++ [40], [41] ++ [40] ++ x.getD [] ++ [41], ?_, ?_, ?_, ?_, by simp, by simp⟩
    · simp only [patOf]
      rw [cdecl_out hends, hd, combine, hi]
      simp only
      rw [List.map_append, typePattern_map, pat_out hf.text]
      simp only
      rw [hx]
      simp only [Outcome.bind_ok, hole]
      rw [show a ++ [37, 115] ++ [] ++ [40] ++ [37, 115] ++ [41] = a ++ [37, 115] ++ [40] ++ [37, 115] ++ [41] by simp,
        fmt_two hf.left (by simp [Plain]) (by simp [Plain])]
      simp
    · rw [plain_append]
      exact ⟨hf.left, by simp [Plain]⟩
    · simp only [plain_append]
      exact ⟨⟨⟨by simp [Plain], by simp [Plain]⟩, hpl⟩, by simp [Plain]⟩
    · intro r' y n e he _ hne
      have hpar' : Params db (fun _ => []) ps (x.getD []) := by
        have : names db true = fun _ => [] := by funext p; simp [names]
        rwa [this] at hpar
      have := hf.ctx r' true n ([40] ++ e ++ [41] ++ [40] ++ x.getD [] ++ [41]) (.function hi hpar' (.paren (hne rfl) he)) (fun _ => rfl) (by simp)
      simpa using this

theorem regularParam {db : Db} : ∀ {p : Ref} {named : Bool}, RegularParam db named p → (fn : Bool) → (named = true → fn = false) →
    (∀ t, (db p).info = .param false (some t) → Sounds db (some t)) → ParamOk db (names db fn) p
  | p, _, .dots hi, fn, _, _ => .inl ⟨_, hi⟩
  | p, named, .typed (t := t) (sh := sh) hi ht hfn, fn, hnm, hs => by
    obtain ⟨a, b, hf⟩ := regular ht (hs t hi)
    refine .inr ⟨t, a, b, hi, hf.text, hf.left, hf.right, ?_⟩
    refine hf.ctx (some t) true _ _ .name (fun _ => rfl) ?_
    intro h
    obtain ⟨h1, h2, h3⟩ := hfn h
    rw [names, hnm h1]
    cases hn : (db p).name with
    | none => exact absurd hn h2
    | some n =>
      simp only [Bool.false_eq_true, if_false, Option.getD_some]
      rintro rfl
      exact h3 hn

theorem regularField {db : Db} : ∀ {m : Ref}, RegularField db m → (∀ i, (db m).info = .member i → Sounds db i.type) → FieldOk db m
  | m, .whole (i := i) (sh := sh) hi hb ht hfn, hs => by
    obtain ⟨a, b, hf⟩ := regular ht (hs i hi)
    refine ⟨i, a, b, hi, hf.text, hf.left, hf.right, ?_⟩
    cases hn : (db m).name with
    | none =>
      refine .anonymous hi hb hn (hf.ctx i.type true [] [] .name (fun _ => rfl) fun h => absurd hn (hfn h).1) ?_
      have : fieldName (db m) = [] := by simp [fieldName, hn]
      rw [this]
      exact trim_cut _
    | some n =>
      refine .named hi hb hn (hf.ctx i.type true n n .name (fun _ => rfl) fun h => ?_) ?_
      · rintro rfl
        exact (hfn h).2 hn
      · have : fieldName (db m) = n := by simp [fieldName, hn, hi, hb]
        rw [this]
        exact trim_cut _
  | m, .bits (i := i) (w := w) hi hb ht hn, hs => by
    obtain ⟨a, b, hf⟩ := regular ht (hs i hi)
    refine ⟨i, a, b, hi, hf.text, hf.left, hf.right, ?_⟩
    obtain ⟨n, hn⟩ := Option.ne_none_iff_exists'.mp hn
    cases hf.last rfl
    refine .bits hi hb hn (hf.ctx i.type true n n .name (fun _ => rfl) (by simp)) (Value.decimal_spec w.toNat) ?_
    have : fieldName (db m) = n ++ [58] ++ Value.decimal w.toNat := by simp [fieldName, hn, hi, hb]
    rw [this]
    have := trim_cut (a ++ (n ++ [58] ++ Value.decimal w.toNat) ++ [])
    simpa using this
end

end Verif.CDecl
