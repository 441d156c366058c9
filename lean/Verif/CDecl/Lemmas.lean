import Verif.CDecl.Model
import Verif.CDecl.Spec
/-
Helper lemmas for `Verif.CDecl.Props`.
-/
namespace Verif.CDecl
open Verif Verif.Entry Spec

theorem fmt_plain : ∀ {t : Text} {args}, Plain t → fmt t args = .ok t
  | [], _, _ => rfl
  | c :: t, args, h => by
    have hc : c ≠ 37 := fun e => h (by simp [e])
    have ht : Plain t := fun e => h (by simp [e])
    rw [fmt.eq_def]
    simp only [ne_eq, hc, not_false_eq_true, if_true, fmt_plain ht]
    rfl

theorem fmt_append : ∀ {a s : Text} {args}, Plain a → fmt (a ++ s) args = (fmt s args >>= fun u => .ok (a ++ u))
  | [], s, args, _ => by cases h : fmt s args <;> simp [h]
  | c :: t, s, args, h => by
    have hc : c ≠ 37 := fun e => h (by simp [e])
    have ht : Plain t := fun e => h (by simp [e])
    rw [List.cons_append, fmt.eq_def]
    simp only [ne_eq, hc, not_false_eq_true, if_true, fmt_append ht]
    cases h : fmt s args <;> simp

theorem fmt_hole {s x : Text} {args} : fmt ([37, 115] ++ s) (x :: args) = (fmt s args >>= fun u => .ok (x ++ u)) := by
  rw [List.cons_append, List.cons_append, List.nil_append, fmt]
  simp

theorem fmt_one {a b x : Text} {args} (ha : Plain a) (hb : Plain b) : fmt (a ++ [37, 115] ++ b) (x :: args) = .ok (a ++ x ++ b) := by
  rw [List.append_assoc, fmt_append ha, fmt_hole, fmt_plain hb]
  simp

theorem fmt_two {a b c x y : Text} {args} (ha : Plain a) (hb : Plain b) (hc : Plain c) :
    fmt (a ++ [37, 115] ++ b ++ [37, 115] ++ c) (x :: y :: args) = .ok (a ++ x ++ b ++ y ++ c) := by
  rw [show a ++ [37, 115] ++ b ++ [37, 115] ++ c = a ++ ([37, 115] ++ (b ++ ([37, 115] ++ c))) by simp,
    fmt_append ha, fmt_hole, fmt_append hb, fmt_hole, fmt_plain hc]
  simp

theorem plain_append {a b : Text} : Plain (a ++ b) ↔ Plain a ∧ Plain b := by simp [Plain]

theorem plain_nil : Plain [] := by simp [Plain]

/-- The result of a run that ends. -/
noncomputable def out (db : Db) (d : Ref) : Option Text :=
  match cdecl db d with
  | .ok o => o
  | _ => none

theorem cdecl_out {db : Db} {r : Ref} (h : ∀ d ∈ deps db (db r), ∃ o, cdecl db d = .ok o) :
    cdecl db r = combine db (db r) ((deps db (db r)).map (out db)) := by
  rw [cdecl.eq_def, Outcome.mapM_map_ok (g := out db)]
  · rfl
  · intro d hd
    obtain ⟨o, ho⟩ := h d hd
    simp [out, ho]

theorem mem_dep {o : Option Ref} {d : Ref} : d ∈ dep o ↔ o = some d := by
  cases o <;> simp [dep, eq_comm]

theorem deps_uses {db : Db} {r d : Ref} (h : d ∈ deps db (db r)) : Uses db r d := by
  unfold deps at h
  split at h
  · next t hi => exact .var (by rw [hi, mem_dep.mp h])
  · next t n hi => exact .array (by rw [hi, mem_dep.mp h])
  · next q t hi => exact .qual (by rw [hi, mem_dep.mp h])
  · next t hi => exact .pointer (by rw [hi, mem_dep.mp h])
  · simp at h
  · next k s ms _ hi =>
    split at h
    · simp at h
    · next hn =>
      rw [List.mem_flatMap] at h
      obtain ⟨m, hm, h⟩ := h
      rw [mem_dep] at h
      unfold memberType at h
      split at h
      · next i hmi => exact .field hi (by simpa using hn) hm hmi h
      · simp at h
  · next t ps hi =>
    rw [List.mem_append, mem_dep, List.mem_flatMap] at h
    obtain h | ⟨p, hp, h⟩ := h
    · exact .result (.inl (by rw [hi, h]))
    · rw [mem_dep] at h
      unfold paramType at h
      split at h
      · next t' hpi => exact .param (.inl hi) hp (by rw [hpi, h])
      · simp at h
  · next t ps hi =>
    rw [List.mem_append, mem_dep, List.mem_flatMap] at h
    obtain h | ⟨p, hp, h⟩ := h
    · exact .result (.inr (by rw [hi, h]))
    · rw [mem_dep] at h
      unfold paramType at h
      split at h
      · next t' hpi => exact .param (.inr hi) hp (by rw [hpi, h])
      · simp at h
  · simp at h

/-- Text of a decimal number: digits only. -/
theorem decimal_plain (n : Nat) : Plain (Value.decimal n) := by
  have key : ∀ k < 10, UInt8.ofNat (48 + k) ≠ 37 := by decide
  fun_induction Value.decimal n with
  | case1 n h =>
    simp only [Plain, List.mem_singleton]
    exact fun e => key n h e.symm
  | case2 n h ih =>
    rw [plain_append]
    refine ⟨ih, ?_⟩
    simp only [Plain, List.mem_singleton]
    exact fun e => key (n % 10) (Nat.mod_lt _ (by omega)) e.symm

theorem decimalInt_plain (v : Int) : Plain (Value.decimalInt v) := by
  unfold Value.decimalInt
  split
  · have := decimal_plain v.natAbs
    simp_all [Plain]
  · exact decimal_plain _

theorem enumText_plain : ∀ {es : List (Name × Int)} {val : Option Text}, (∀ x ∈ es, Plain x.1) → Plain (val.getD []) → Plain ((enumText es val).getD [])
  | [], val, _, h => h
  | (n, v) :: es, val, h, hv => by
    rw [enumText]
    apply enumText_plain (fun x hx => h x (by simp [hx]))
    have h1 := h (n, v) (by simp)
    have h2 := decimalInt_plain v
    simp only [Option.getD_some, plain_append]
    refine ⟨⟨⟨⟨⟨hv, ?_⟩, h1⟩, by simp [Plain]⟩, h2⟩, by simp [Plain]⟩
    split <;> simp [Plain]

theorem trim_plain {t : Text} (h : Plain t) : Plain (trim t) := by
  unfold trim Plain
  intro hm
  rw [List.mem_reverse] at hm
  exact h (by simpa using (List.dropWhile_sublist _).subset hm)

theorem trim_cut (t : Text) : Cut t (trim t) := by
  constructor
  · refine ⟨(t.reverse.takeWhile (· = 32)).length, ?_⟩
    have h1 : t.reverse.takeWhile (· = 32) = List.replicate (t.reverse.takeWhile (· = 32)).length 32 := by
      rw [List.eq_replicate_iff]
      exact ⟨rfl, fun b hb => by simpa using List.all_eq_true.mp List.all_takeWhile b hb⟩
    have h2 := congrArg List.reverse (List.takeWhile_append_dropWhile (p := (· = (32 : UInt8))) (l := t.reverse))
    rw [List.reverse_append, List.reverse_reverse] at h2
    rw [trim, ← List.reverse_replicate, ← h1]
    exact h2.symm
  · unfold trim
    rw [List.getLast?_reverse]
    intro h
    have := List.head?_dropWhile_not (fun x : UInt8 => decide (x = 32)) t.reverse
    rw [h] at this
    simp at this

theorem fieldName_plain {e : Entry} (h : ∀ n, e.name = some n → Plain n) : Plain (fieldName e) := by
  unfold fieldName
  split
  · exact plain_nil
  · next n hn =>
    split
    · split
      · rw [plain_append, plain_append]
        exact ⟨⟨h n hn, by simp [Plain]⟩, decimal_plain _⟩
      · exact h n hn
    · exact h n hn

/-- What is known of the results of the types used. -/
def Good (o : Option Text) : Prop := o = none ∨ ∃ t, o = some t ∧ OneHole t

theorem good_void : OneHole voidPat := ⟨[118, 111, 105, 100, 32], [], rfl, by simp [Plain], plain_nil⟩

/-- All types of the members that come from the queue. -/
theorem fieldsText_ok {db : Db} {o : Ref → Option Text} : ∀ {ms : List Ref} {res : Option Text},
    (∀ m ∈ ms, ∀ n, (db m).name = some n → Plain n) →
    (∀ m ∈ ms, ∀ t, memberType db m = some t → Good (o t)) → Plain (res.getD []) →
    (∃ m ∈ ms, ∃ t, memberType db m = some t ∧ o t = none) ∧ fieldsText db ms ((ms.flatMap fun r => dep (memberType db r)).map o) res = .ok none ∨
    (∀ m ∈ ms, ∀ t, memberType db m = some t → o t ≠ none) ∧
      ∃ x, fieldsText db ms ((ms.flatMap fun r => dep (memberType db r)).map o) res = .ok (some x) ∧ Plain (x.getD [])
  | [], res, _, _, hr => .inr ⟨by simp, res, rfl, hr⟩
  | m :: ms, res, hn, hg, hr => by
    have hn' := fun x (hx : x ∈ ms) => hn x (List.mem_cons_of_mem _ hx)
    have hg' := fun x (hx : x ∈ ms) => hg x (List.mem_cons_of_mem _ hx)
    have hf : Plain (fieldName (db m)) := fieldName_plain (hn m List.mem_cons_self)
    rw [List.flatMap_cons, List.map_append, fieldsText]
    have step : ∀ pat, OneHole pat → ∃ y, fmt pat [fieldName (db m)] = .ok y ∧ Plain y := by
      rintro pat ⟨a, b, rfl, ha, hb⟩
      exact ⟨_, fmt_one ha hb, by rw [plain_append, plain_append]; exact ⟨⟨ha, hf⟩, hb⟩⟩
    have acc : ∀ y, Plain y → Plain ((some (res.getD [] ++ trim y ++ [59, 32]) : Option Text).getD []) := by
      intro y hy
      simp only [Option.getD_some, plain_append]
      exact ⟨⟨hr, trim_plain hy⟩, by simp [Plain]⟩
    cases ht : memberType db m with
    | none =>
      simp only [dep, List.map_nil, List.nil_append, typePattern]
      obtain ⟨y, hy, py⟩ := step voidPat good_void
      rw [hy]
      simp only [Outcome.bind_ok]
      rcases fieldsText_ok (o := o) hn' hg' (acc y py) with ⟨⟨x, hx, t, h1, h2⟩, h3⟩ | ⟨h1, x, h2, h3⟩
      · exact .inl ⟨⟨x, List.mem_cons_of_mem _ hx, t, h1, h2⟩, h3⟩
      · refine .inr ⟨?_, x, h2, h3⟩
        intro x hx t htx
        rcases List.mem_cons.mp hx with rfl | hx
        · rw [ht] at htx; cases htx
        · exact h1 x hx t htx
    | some t =>
      simp only [dep, List.map_cons, List.map_nil, typePattern, List.cons_append, List.nil_append, dequeue]
      rcases hg m List.mem_cons_self t ht with h | ⟨pat, hp, hole⟩
      · rw [h]
        exact .inl ⟨⟨m, List.mem_cons_self, t, ht, h⟩, rfl⟩
      · rw [hp]
        obtain ⟨y, hy, py⟩ := step pat hole
        simp only
        rw [hy]
        simp only [Outcome.bind_ok]
        rcases fieldsText_ok (o := o) hn' hg' (acc y py) with ⟨⟨x, hx, t, h1, h2⟩, h3⟩ | ⟨h1, x, h2, h3⟩
        · exact .inl ⟨⟨x, List.mem_cons_of_mem _ hx, t, h1, h2⟩, h3⟩
        · refine .inr ⟨?_, x, h2, h3⟩
          intro x hx t' htx
          rcases List.mem_cons.mp hx with rfl | hx
          · rw [ht] at htx; cases htx; rw [hp]; simp
          · exact h1 x hx t' htx

theorem paramsText_ok {db : Db} {o : Ref → Option Text} {fn : Bool} : ∀ {ps : List Ref} {acc : Option Text},
    (∀ p ∈ ps, (∃ u v, (db p).info = .param u v) ∧ ∀ n, (db p).name = some n → Plain n) →
    (∀ p ∈ ps, ∀ t, paramType db p = some t → Good (o t)) → Plain (acc.getD []) →
    ((∃ p ∈ ps, (db p).info = .param false none ∨ ∃ t, paramType db p = some t ∧ o t = none) ∧
      paramsText db fn ps ((ps.flatMap fun r => dep (paramType db r)).map o) acc = .ok none) ∨
    ((∀ p ∈ ps, (db p).info ≠ .param false none) ∧ (∀ p ∈ ps, ∀ t, paramType db p = some t → o t ≠ none) ∧
      ∃ x, paramsText db fn ps ((ps.flatMap fun r => dep (paramType db r)).map o) acc = .ok (some x) ∧ Plain (x.getD []))
  | [], acc, _, _, hr => .inr ⟨by simp, by simp, acc, rfl, hr⟩
  | p :: ps, acc, hn, hg, hr => by
    have hn' := fun x (hx : x ∈ ps) => hn x (List.mem_cons_of_mem _ hx)
    have hg' := fun x (hx : x ∈ ps) => hg x (List.mem_cons_of_mem _ hx)
    have hadd : ∀ y, Plain y → Plain ((addParam acc y).getD []) := by
      intro y hy
      simp only [addParam, Option.getD_some, plain_append]
      refine ⟨⟨hr, ?_⟩, hy⟩
      split <;> simp [Plain]
    obtain ⟨⟨u, v, hi⟩, hnm⟩ := hn p List.mem_cons_self
    rw [List.flatMap_cons, List.map_append]
    cases u with
    | true =>
      have ht : paramType db p = none := by simp [paramType, hi]
      simp only [ht, dep, List.map_nil, List.nil_append, paramsText, hi]
      rcases paramsText_ok (o := o) (fn := fn) hn' hg' (hadd dots (by simp [Plain, dots])) with ⟨⟨x, hx, h1⟩, h3⟩ | ⟨h0, h1, x, h2, h3⟩
      · exact .inl ⟨⟨x, List.mem_cons_of_mem _ hx, h1⟩, h3⟩
      · refine .inr ⟨?_, ?_, x, h2, h3⟩
        · intro x hx
          rcases List.mem_cons.mp hx with rfl | hx
          · rw [hi]; simp
          · exact h0 x hx
        · intro x hx t htx
          rcases List.mem_cons.mp hx with rfl | hx
          · rw [ht] at htx; cases htx
          · exact h1 x hx t htx
    | false =>
      cases v with
      | none =>
        simp only [paramsText, hi]
        exact .inl ⟨⟨p, List.mem_cons_self, .inl hi⟩, trivial⟩
      | some t =>
        have ht : paramType db p = some t := by simp [paramType, hi]
        simp only [ht, dep, List.map_cons, List.map_nil, List.cons_append, List.nil_append, paramsText, hi, dequeue]
        rcases hg p List.mem_cons_self t ht with h | ⟨pat, hp, a, b, rfl, ha, hb⟩
        · rw [h]
          exact .inl ⟨⟨p, List.mem_cons_self, .inr ⟨t, ht, h⟩⟩, rfl⟩
        · rw [hp]
          simp only
          rw [fmt_one ha hb]
          simp only [Outcome.bind_ok]
          have hpn : Plain (if fn then [] else (db p).name.getD []) := by
            split
            · exact plain_nil
            · cases hx : (db p).name with
              | none => exact plain_nil
              | some n => exact hnm n hx
          have hy : Plain (trim (a ++ (if fn then [] else (db p).name.getD []) ++ b)) := by
            apply trim_plain
            rw [plain_append, plain_append]
            exact ⟨⟨ha, hpn⟩, hb⟩
          rcases paramsText_ok (o := o) (fn := fn) hn' hg' (hadd _ hy) with ⟨⟨x, hx, h1⟩, h3⟩ | ⟨h0, h1, x, h2, h3⟩
          · exact .inl ⟨⟨x, List.mem_cons_of_mem _ hx, h1⟩, h3⟩
          · refine .inr ⟨?_, ?_, x, h2, h3⟩
            · intro x hx
              rcases List.mem_cons.mp hx with rfl | hx
              · rw [hi]; simp
              · exact h0 x hx
            · intro x hx t' htx
              rcases List.mem_cons.mp hx with rfl | hx
              · rw [ht] at htx; cases htx; rw [hp]; simp
              · exact h1 x hx t' htx

theorem Spec.Mentions.trans {db : Db} {a b c : Ref} (h : Mentions db a b) (g : Mentions db b c) : Mentions db a c := by
  induction g with
  | self => exact h
  | step _ u ih => exact .step ih u

/-- The complete outcome of printing, for sound descriptions. -/
def Result (db : Db) (r : Ref) : Prop :=
  ((∃ d, Mentions db r d ∧ Unsupported db d) ∧ cdecl db r = .ok none) ∨
  ((∀ d, Mentions db r d → ¬ Unsupported db d) ∧ ∃ t, cdecl db r = .ok (some t) ∧ (IsType db r → OneHole t) ∧ (¬ IsType db r → Plain t))

theorem mem_uses {db : Db} {r d : Ref} {t : Option Ref} (h : ∀ d, t = some d → Uses db r d) (e : d ∈ dep t) : Uses db r d :=
  h d (mem_dep.mp e)

/-- The format of a type given those of all entries. -/
def outOf (o : Ref → Option Text) : Option Ref → Option Text
  | none => some voidPat
  | some d => o d

theorem typePattern_map {t : Option Ref} {o : Ref → Option Text} {rest : List (Option Text)} :
    typePattern t ((dep t).map o ++ rest) = (outOf o t, rest) := by
  cases t <;> rfl

/-- The result for the type an entry is derived from: all cases. -/
theorem link {db : Db} {r : Ref} (ih : ∀ d, Uses db r d → Result db d) (hs : Sound db r) {t : Option Ref}
    (hu : ∀ d, t = some d → Uses db r d) :
    (outOf (out db) t = none ∧ ∃ d, Uses db r d ∧ t = some d ∧ out db d = none) ∨
      ∃ x, outOf (out db) t = some x ∧ OneHole x ∧ ∀ d, t = some d → out db d ≠ none := by
  cases t with
  | none => exact .inr ⟨_, rfl, good_void, by simp⟩
  | some d =>
    have u := hu d rfl
    rcases ih d u with ⟨_, h⟩ | ⟨_, x, h, h1, _⟩
    · have ho : out db d = none := by simp [out, h]
      exact .inl ⟨ho, d, u, rfl, ho⟩
    · have ho : out db d = some x := by simp [out, h]
      refine .inr ⟨x, ho, h1 (hs.links d u), ?_⟩
      rintro _ ⟨⟩
      rw [ho]; simp

theorem out_none {db : Db} {d : Ref} (h : Result db d) (ho : out db d = none) : ∃ e, Mentions db d e ∧ Unsupported db e := by
  rcases h with ⟨h, _⟩ | ⟨_, x, h, _⟩
  · exact h
  · simp [out, h] at ho

theorem out_some {db : Db} {d : Ref} (h : Result db d) (ho : out db d ≠ none) : ∀ e, Mentions db d e → ¬ Unsupported db e := by
  rcases h with ⟨_, h⟩ | ⟨h, _⟩
  · simp [out, h] at ho
  · exact h

theorem out_good {db : Db} {d : Ref} (h : Result db d) (ht : IsType db d) : Good (out db d) := by
  rcases h with ⟨_, h⟩ | ⟨_, x, h, h1, _⟩
  · exact .inl (by simp [out, h])
  · exact .inr ⟨x, by simp [out, h], h1 ht⟩

theorem Spec.Mentions.cases_head {db : Db} {a c : Ref} (h : Mentions db a c) : a = c ∨ ∃ b, Uses db a b ∧ Mentions db b c := by
  induction h with
  | self => exact .inl rfl
  | step _ u ih =>
    rcases ih with rfl | ⟨b, h1, h2⟩
    · exact .inr ⟨_, u, .self⟩
    · exact .inr ⟨b, h1, .step h2 u⟩

theorem bad_link {db : Db} {r d : Ref} (ih : ∀ d, Uses db r d → Result db d) (u : Uses db r d) (h : out db d = none) :
    ∃ e, Mentions db r e ∧ Unsupported db e := by
  obtain ⟨e, h1, h2⟩ := out_none (ih d u) h
  exact ⟨e, Mentions.trans (.step .self u) h1, h2⟩

theorem good_links {db : Db} {r : Ref} (ih : ∀ d, Uses db r d → Result db d) (h : ∀ d, Uses db r d → out db d ≠ none)
    (hr : ¬ Unsupported db r) : ∀ e, Mentions db r e → ¬ Unsupported db e := by
  intro e he
  rcases he.cases_head with rfl | ⟨b, u, hb⟩
  · exact hr
  · exact out_some (ih b u) (h b u) e hb

theorem result {db : Db} {r : Ref} (hf : Finite db r) (hs : ∀ d, Mentions db r d → Sound db d) : Result db r := by
  induction hf with
  | intro r _ ih =>
  have hr := hs r .self
  have ih : ∀ d, Uses db r d → Result db d := fun d u => ih d u fun e he => hs e (Mentions.trans (.step .self u) he)
  have hc : cdecl db r = combine db (db r) ((deps db (db r)).map (out db)) := by
    apply cdecl_out
    intro d hd
    rcases ih d (deps_uses hd) with ⟨_, h⟩ | ⟨_, x, h, _⟩
    · exact ⟨_, h⟩
    · exact ⟨_, h⟩
  have bad : Unsupported db r → cdecl db r = .ok none → Result db r := fun h1 h2 => .inl ⟨⟨r, .self, h1⟩, h2⟩
  have leaf : ∀ t, (∀ d, ¬ Uses db r d) → ¬ Unsupported db r → IsType db r → OneHole t → cdecl db r = .ok (some t) → Result db r := by
    intro t h1 h2 h3 h4 h5
    exact .inr ⟨good_links ih (fun d u => absurd u (h1 d)) h2, t, h5, fun _ => h4, fun h => absurd h3 h⟩
  have named : ∀ a n b : Text, Plain a → Plain n → Plain b → OneHole (a ++ n ++ b ++ [37, 115]) := by
    intro a n b h1 h2 h3
    exact ⟨a ++ n ++ b, [], by simp, by rw [plain_append, plain_append]; exact ⟨⟨h1, h2⟩, h3⟩, plain_nil⟩
  cases hi : (db r).info with
  | var t =>
    have hty : ¬ IsType db r := by simp [IsType, hi]
    have hus : ¬ Unsupported db r := by intro h; cases h <;> simp_all
    rw [deps, hi] at hc
    obtain ⟨n, hn⟩ := Option.ne_none_iff_exists'.mp (hr.named t (.inl hi))
    have hu : ∀ d, t = some d → Uses db r d := fun d h => .var (by rw [hi, h])
    rw [combine, hi, hn] at hc
    simp only at hc
    rw [show (dep t).map (out db) = (dep t).map (out db) ++ [] by simp, typePattern_map] at hc
    rcases link ih hr hu with ⟨h1, d, u, _, h2⟩ | ⟨x, h1, ⟨a, b, rfl, ha, hb⟩, h2⟩
    · rw [h1] at hc
      exact .inl ⟨bad_link ih u h2, hc⟩
    · rw [h1] at hc
      simp only at hc
      rw [fmt_one ha hb] at hc
      refine .inr ⟨good_links ih ?_ hus, _, hc, fun h => absurd h hty, fun _ => ?_⟩
      · intro d u
        cases u <;> simp_all
      · rw [plain_append, plain_append]
        exact ⟨⟨ha, hr.plain n hn⟩, hb⟩
  | typedef t =>
    obtain ⟨n, hn⟩ := Option.ne_none_iff_exists'.mp (hr.named t (.inr hi))
    rw [deps, hi, combine, hi, hn] at hc
    refine leaf _ ?_ ?_ (by simp [IsType, hi]) (named [] n [32] plain_nil (hr.plain n hn) (by simp [Plain])) hc
    · intro d u; cases u <;> simp_all
    · intro h; cases h <;> simp_all
  | base s e =>
    obtain ⟨n, hn⟩ := Option.ne_none_iff_exists'.mp (hr.base s e hi)
    rw [deps, hi, combine, hi, hn] at hc
    refine leaf _ ?_ ?_ (by simp [IsType, hi]) (named [] n [32] plain_nil (hr.plain n hn) (by simp [Plain])) hc
    · intro d u; cases u <;> simp_all
    · intro h; cases h <;> simp_all
  | enumeration s e es =>
    rw [deps, hi, combine, hi] at hc
    cases hn : (db r).name with
    | none =>
      rw [hn] at hc
      refine leaf _ ?_ ?_ (by simp [IsType, hi]) (named [101, 110, 117, 109, 32, 123] _ [125, 32] (by simp [Plain])
        (enumText_plain (val := none) (hr.enumerators s e es hi) plain_nil) (by simp [Plain])) hc
      · intro d u; cases u <;> simp_all
      · intro h; cases h <;> simp_all
    | some n =>
      rw [hn] at hc
      refine leaf _ ?_ ?_ (by simp [IsType, hi]) (named [101, 110, 117, 109, 32] n [32] (by simp [Plain])
        (hr.plain n hn) (by simp [Plain])) hc
      · intro d u; cases u <;> simp_all
      · intro h; cases h <;> simp_all
  | array t c =>
    have hty : IsType db r := by simp [IsType, hi]
    have hus : ¬ Unsupported db r := by intro h; cases h <;> simp_all
    have hu : ∀ d, t = some d → Uses db r d := fun d h => .array (by rw [hi, h])
    rw [deps, hi, combine, hi] at hc
    simp only at hc
    rw [show (dep t).map (out db) = (dep t).map (out db) ++ [] by simp, typePattern_map] at hc
    rcases link ih hr hu with ⟨h1, d, u, _, h2⟩ | ⟨x, h1, ⟨a, b, rfl, ha, hb⟩, h2⟩
    · rw [h1] at hc
      exact .inl ⟨bad_link ih u h2, hc⟩
    · rw [h1] at hc
      simp only at hc
      rw [fmt_one ha hb] at hc
      refine .inr ⟨good_links ih ?_ hus, _, hc, fun _ => ?_, fun h => absurd hty h⟩
      · intro d u
        cases u <;> simp_all
      · split
        · refine ⟨a, [91] ++ Value.decimalInt c ++ [93] ++ b, by simp [hole], ha, ?_⟩
          simp only [plain_append]
          exact ⟨⟨⟨by simp [Plain], decimalInt_plain c⟩, by simp [Plain]⟩, hb⟩
        · refine ⟨a, [91, 93] ++ b, by simp [hole], ha, ?_⟩
          simp only [plain_append]
          exact ⟨by simp [Plain], hb⟩
  | pointer t =>
    have hty : IsType db r := by simp [IsType, hi]
    have hus : ¬ Unsupported db r := by intro h; cases h <;> simp_all
    have hu : ∀ d, t = some d → Uses db r d := fun d h => .pointer (by rw [hi, h])
    rw [deps, hi, combine, hi] at hc
    simp only at hc
    rw [show (dep t).map (out db) = (dep t).map (out db) ++ [] by simp, typePattern_map] at hc
    rcases link ih hr hu with ⟨h1, d, u, _, h2⟩ | ⟨x, h1, ⟨a, b, rfl, ha, hb⟩, h2⟩
    · rw [h1] at hc
      exact .inl ⟨bad_link ih u h2, hc⟩
    · rw [h1] at hc
      simp only at hc
      rw [fmt_one ha hb] at hc
      refine .inr ⟨good_links ih ?_ hus, _, hc, fun _ => ?_, fun h => absurd hty h⟩
      · intro d u
        cases u <;> simp_all
      · refine ⟨a ++ [42, 32], b, by simp, ?_, hb⟩
        simp only [plain_append]
        exact ⟨ha, by simp [Plain]⟩
  | qual q t =>
    have hty : IsType db r := by simp [IsType, hi]
    have hus : ¬ Unsupported db r := by intro h; cases h <;> simp_all
    have hu : ∀ d, t = some d → Uses db r d := fun d h => .qual (by rw [hi, h])
    rw [deps, hi, combine, hi] at hc
    simp only at hc
    rw [show (dep t).map (out db) = (dep t).map (out db) ++ [] by simp, typePattern_map] at hc
    obtain ⟨w, hw, pw⟩ : ∃ w, qualPat q = w ++ [37, 115] ++ [] ∧ Plain w := by
      cases q
      · exact ⟨[99, 111, 110, 115, 116, 32], rfl, by simp [Plain]⟩
      · exact ⟨[118, 111, 108, 97, 116, 105, 108, 101, 32], rfl, by simp [Plain]⟩
      · exact ⟨[114, 101, 115, 116, 114, 105, 99, 116, 32], rfl, by simp [Plain]⟩
      · exact ⟨[109, 117, 116, 97, 98, 108, 101, 32], rfl, by simp [Plain]⟩
      · exact ⟨[115, 104, 97, 114, 101, 100, 32], rfl, by simp [Plain]⟩
      · exact ⟨[112, 97, 99, 107, 101, 100, 32], rfl, by simp [Plain]⟩
    rcases link ih hr hu with ⟨h1, d, u, _, h2⟩ | ⟨x, h1, ⟨a, b, rfl, ha, hb⟩, h2⟩
    · rw [h1] at hc
      exact .inl ⟨bad_link ih u h2, hc⟩
    · rw [h1] at hc
      simp only at hc
      rw [hw, fmt_one ha hb, fmt_one pw plain_nil] at hc
      have hl : ∀ d, Uses db r d → out db d ≠ none := by intro d u; cases u <;> simp_all
      have h3 : OneHole (a ++ (w ++ [37, 115] ++ []) ++ b) :=
        ⟨a ++ w, b, by simp, by simp only [plain_append]; exact ⟨ha, pw⟩, hb⟩
      have h4 : OneHole (w ++ (a ++ [37, 115] ++ b) ++ []) :=
        ⟨w ++ a, b, by simp, by simp only [plain_append]; exact ⟨pw, ha⟩, hb⟩
      cases t with
      | none => exact .inr ⟨good_links ih hl hus, _, hc, fun _ => h4, fun h => absurd hty h⟩
      | some d =>
        simp only at hc
        split at hc
        · exact .inr ⟨good_links ih hl hus, _, hc, fun _ => h3, fun h => absurd hty h⟩
        · exact .inr ⟨good_links ih hl hus, _, hc, fun _ => h4, fun h => absurd hty h⟩
  | struct k s ms =>
    have hty : IsType db r := by simp [IsType, hi]
    by_cases hk : k = .class
    · subst hk
      rw [deps, hi, combine, hi] at hc
      exact bad (.class hi) hc
    · have hus : ¬ Unsupported db r := by intro h; cases h <;> simp_all
      have hw : Plain (structWord k) := by cases k <;> simp [structWord, Plain]
      have hc1 : cdecl db r = match (db r).name with
          | some n => .ok (some (structWord k ++ [32] ++ n ++ [32] ++ hole))
          | none => do
            match ← fieldsText db ms ((ms.flatMap fun r => dep (memberType db r)).map (out db)) none with
            | none => return none
            | some res => return some (structWord k ++ [32, 123] ++ res.getD [] ++ [125, 32] ++ hole) := by
        rw [hc, deps, hi, combine, hi]
        cases k
        · cases hn : (db r).name <;> rfl
        · cases hn : (db r).name <;> rfl
        · exact absurd rfl hk
      cases hn : (db r).name with
      | some n =>
        rw [hn] at hc1
        refine leaf _ ?_ hus hty ?_ hc1
        · intro d u; cases u <;> simp_all
        · have := named (structWord k ++ [32]) n [32] (by rw [plain_append]; exact ⟨hw, by simp [Plain]⟩) (hr.plain n hn) (by simp [Plain])
          exact this
      | none =>
        rw [hn] at hc1
        simp only at hc1
        have hmt : ∀ m ∈ ms, ∀ t, memberType db m = some t → Uses db r t := by
          intro m hm t ht
          unfold memberType at ht
          split at ht
          · next i h => exact .field hi hn hm h ht
          · cases ht
        rcases fieldsText_ok (db := db) (o := out db) (ms := ms) (res := none) (fun m hm => (hr.fields k s ms hi m hm).2)
          (fun m hm t ht => out_good (ih t (hmt m hm t ht)) (hr.links t (hmt m hm t ht))) plain_nil with
          ⟨⟨m, hm, t, h1, h2⟩, h3⟩ | ⟨h1, x, h2, h3⟩
        · rw [h3] at hc1
          exact .inl ⟨bad_link ih (hmt m hm t h1) h2, hc1⟩
        · rw [h2] at hc1
          refine .inr ⟨good_links ih ?_ hus, _, hc1, fun _ => ?_, fun h => absurd hty h⟩
          · intro d u
            cases u with
            | field h4 _ hm h5 h6 =>
              rw [hi] at h4
              cases h4
              exact h1 _ hm d (by simp [memberType, h5, h6])
            | _ => simp_all
          · have := named (structWord k ++ [32, 123]) (x.getD []) [125, 32] (by rw [plain_append]; exact ⟨hw, by simp [Plain]⟩) h3 (by simp [Plain])
            exact this
  | subprogram t ps =>
    have hty : ¬ IsType db r := by simp [IsType, hi]
    obtain ⟨n, hn⟩ := Option.ne_none_iff_exists'.mp (hr.func t ps hi)
    have hu : ∀ d, t = some d → Uses db r d := fun d h => .result (.inl (by rw [hi, h]))
    have hpt : ∀ p ∈ ps, ∀ t, paramType db p = some t → Uses db r t := by
      intro p hp t' ht
      unfold paramType at ht
      split at ht
      · next i h => exact .param (.inl hi) hp (by rw [h, ht])
      · cases ht
    rw [deps, hi, combine, hi, hn] at hc
    simp only at hc
    rw [List.map_append, typePattern_map] at hc
    rcases link ih hr hu with ⟨h1, d, u, _, h2⟩ | ⟨x, h1, ⟨a, b, rfl, ha, hb⟩, h2⟩
    · rw [h1] at hc
      exact .inl ⟨bad_link ih u h2, hc⟩
    · rw [h1] at hc
      simp only at hc
      rcases paramsText_ok (db := db) (o := out db) (fn := false) (acc := none) (hr.params t ps (.inl hi))
          (fun m hm t ht => out_good (ih t (hpt m hm t ht)) (hr.links t (hpt m hm t ht))) plain_nil with
          ⟨⟨p, hp, h3⟩, h4⟩ | ⟨h3, h4, x, h5, h6⟩
      · rw [h4] at hc
        rcases h3 with h3 | ⟨t', h3, h5⟩
        · exact bad (.untyped (.inl hi) hp h3) hc
        · exact .inl ⟨bad_link ih (hpt p hp t' h3) h5, hc⟩
      · rw [h5] at hc
        simp only [Outcome.bind_ok, hole] at hc
        rw [show a ++ [37, 115] ++ b ++ [40] ++ [37, 115] ++ [41] = a ++ [37, 115] ++ (b ++ [40]) ++ [37, 115] ++ [41] by simp,
          fmt_two ha (by rw [plain_append]; exact ⟨hb, by simp [Plain]⟩) (by simp [Plain])] at hc
        refine .inr ⟨good_links ih ?_ ?_, _, hc, fun h => absurd h hty, fun _ => ?_⟩
        · intro d u
          cases u with
          | result h => simp_all
          | param h hp h7 =>
            simp only [hi, Info.subprogram.injEq, reduceCtorEq, or_false] at h
            rw [← h.2] at hp
            exact h4 _ hp d (by simp [paramType, h7])
          | _ => simp_all
        · intro h
          cases h with
          | untyped h hp h7 =>
            simp only [hi, Info.subprogram.injEq, reduceCtorEq, or_false] at h
            rw [← h.2] at hp
            exact h3 _ hp h7
          | _ => simp_all
        · simp only [plain_append]
          exact ⟨⟨⟨⟨ha, hr.plain n hn⟩, hb, by simp [Plain]⟩, h6⟩, by simp [Plain]⟩
  | subroutine t ps =>
    have hty : IsType db r := by simp [IsType, hi]
    have hu : ∀ d, t = some d → Uses db r d := fun d h => .result (.inr (by rw [hi, h]))
    have hpt : ∀ p ∈ ps, ∀ t, paramType db p = some t → Uses db r t := by
      intro p hp t' ht
      unfold paramType at ht
      split at ht
      · next i h => exact .param (.inr hi) hp (by rw [h, ht])
      · cases ht
    rw [deps, hi, combine, hi] at hc
    simp only at hc
    rw [List.map_append, typePattern_map] at hc
    rcases link ih hr hu with ⟨h1, d, u, _, h2⟩ | ⟨x, h1, ⟨a, b, rfl, ha, hb⟩, h2⟩
    · rw [h1] at hc
      exact .inl ⟨bad_link ih u h2, hc⟩
    · rw [h1] at hc
      simp only at hc
      rcases paramsText_ok (db := db) (o := out db) (fn := true) (acc := none) (hr.params t ps (.inr hi))
          (fun m hm t ht => out_good (ih t (hpt m hm t ht)) (hr.links t (hpt m hm t ht))) plain_nil with
          ⟨⟨p, hp, h3⟩, h4⟩ | ⟨h3, h4, x, h5, h6⟩
      · rw [h4] at hc
        rcases h3 with h3 | ⟨t', h3, h5⟩
        · exact bad (.untyped (.inr hi) hp h3) hc
        · exact .inl ⟨bad_link ih (hpt p hp t' h3) h5, hc⟩
      · rw [h5] at hc
        simp only [Outcome.bind_ok, hole] at hc
        rw [show a ++ [37, 115] ++ b ++ [40] ++ [37, 115] ++ [41] = a ++ [37, 115] ++ (b ++ [40]) ++ [37, 115] ++ [41] by simp,
          fmt_two ha (by rw [plain_append]; exact ⟨hb, by simp [Plain]⟩) (by simp [Plain])] at hc
        refine .inr ⟨good_links ih ?_ ?_, _, hc, fun _ => ?_, fun h => absurd hty h⟩
        · intro d u
          cases u with
          | result h => simp_all
          | param h hp h7 =>
            simp only [hi, Info.subroutine.injEq, reduceCtorEq, false_or] at h
            rw [← h.2] at hp
            exact h4 _ hp d (by simp [paramType, h7])
          | _ => simp_all
        · intro h
          cases h with
          | untyped h hp h7 =>
            simp only [hi, Info.subroutine.injEq, reduceCtorEq, false_or] at h
            rw [← h.2] at hp
            exact h3 _ hp h7
          | _ => simp_all
        · refine ⟨a ++ [40], [41] ++ b ++ [40] ++ x.getD [] ++ [41], by simp, ?_, ?_⟩
          · simp only [plain_append]
            exact ⟨ha, by simp [Plain]⟩
          · simp only [plain_append]
            exact ⟨⟨⟨⟨by simp [Plain], hb⟩, by simp [Plain]⟩, h6⟩, by simp [Plain]⟩
  | reference v s t => exact bad (.reference hi) (by rw [hc, combine, hi])
  | unspecifiedType => exact bad (.unspecified hi) (by rw [hc, combine, hi])
  | member i => exact bad (.member hi) (by rw [hc, combine, hi])
  | param u t => exact bad (.param hi) (by rw [hc, combine, hi])
  | lexBlock => exact bad (.scope (.inl hi)) (by rw [hc, combine, hi])
  | nspace => exact bad (.scope (.inr (.inl hi))) (by rw [hc, combine, hi])
  | compileUnit => exact bad (.scope (.inr (.inr hi))) (by rw [hc, combine, hi])

end Verif.CDecl
