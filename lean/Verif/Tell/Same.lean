import Verif.Tell.Tells
import Verif.Deep.Lemmas
/-
Two values with the same text hold the same data: the induction.
-/
namespace Verif.Tell
open Verif Verif.Entry Verif.Entry.Spec Verif.Value Verif.Value.Spec Verif.PrintString.Spec Verif.ValueString Verif.ValueString.Spec Verif.Tell.Spec

variable {env : Env} {deep : Bool} {db : Db} {S : Ref → Prop}

theorem shown_addr (hd : DataTypes env db S) {m : Mem} {o : List Value} {v : Value} {u : Text} (h : Shown env deep db m o v u) (hS : S v.entry) : v.addr ≠ 0 := by
  cases h with
  | base h | enumeration h | null h | address _ h | void _ h | target _ h | string _ h | struct h | union h | unionMember h | skipped h | literal h | array h
  | call h | callPointer h => exact h.2.1
  | arguments h | vaList h => exact absurd h (not_packed hd hS)

theorem object_of (hd : DataTypes env db S) {m : Mem} {o : List Value} {v v' : Value} {u : Text} {i : Info} (h : Shown env deep db m o v' u) (hS : S v'.entry) (he : v.entry = v'.entry)
    (ho : Object env db v i) : Object env db v' i := by
  obtain ⟨-, -, x, qs, hx, hi⟩ := ho
  exact ⟨not_packed hd hS, shown_addr hd h hS, x, qs, he ▸ hx, hi⟩

theorem array_of (hd : DataTypes env db S) {m : Mem} {o : List Value} {v v' : Value} {u : Text} {e : Option Ref} {n : Int} (h : Shown env deep db m o v' u) (hS : S v'.entry) (hk : Kin db v v')
    (ho : Object env db v (.array e n)) : ∃ n', Object env db v' (.array e n') := by
  rcases hk with he | ⟨e', k, k', ⟨-, y, q, a1, a2⟩, -, y', q', a1', a2'⟩
  · exact ⟨n, object_of hd h hS he ho⟩
  · obtain ⟨-, -, x, qs, hx, hi⟩ := ho
    cases info_unique hx hi a1 a2
    exact ⟨k', not_packed hd hS, shown_addr hd h hS, y', q', a1', a2'⟩

theorem heads {c c' : UInt8} {u u' s s' : Text} (e : (c :: u) ++ s = (c' :: u') ++ s') (h : c ≠ c') : False := by
  simp only [List.cons_append, List.cons.injEq] at e
  exact h e.1

theorem paren_split {a b r r' : Text} (ha : Neutral a) (hb : Neutral b) (e : a ++ 41 :: r = b ++ 41 :: r') : a = b ∧ r = r' := by
  have stuck : ∀ {a b z : Text}, Neutral a → Neutral b → b ≠ a ++ 41 :: z := by
    intro a b z ha hb e
    have := hb []
    rw [e, scan_append, ha []] at this
    simp only [Option.bind_some] at this
    have h2 : scan (41 :: z) (.code, []) = none := by
      show List.foldlM Spec.read (.code, []) (41 :: z) = none
      rw [List.foldlM_cons]
      rfl
    rw [h2] at this
    cases this
  rcases List.append_eq_append_iff.mp e with ⟨z, h1, h2⟩ | ⟨z, h1, h2⟩
  · cases z with
    | nil => simp at h1 h2; exact ⟨h1.symm, h2⟩
    | cons c z =>
      simp only [List.cons_append, List.cons.injEq] at h2
      rw [← h2.1] at h1
      exact absurd h1 (stuck ha hb)
  · cases z with
    | nil => simp at h1 h2; exact ⟨h1, h2.symm⟩
    | cons c z =>
      simp only [List.cons_append, List.cons.injEq] at h2
      rw [← h2.1] at h1
      exact absurd h1 (stuck hb ha)

theorem digit_head {a : Nat} (hf : Formats env) : ∃ d s, env.ptr a = d :: s ∧ d ≠ 78 ∧ d ≠ 40 ∧ d ≠ 34 := by
  obtain ⟨d, s, h, hd, _⟩ := hf.address a
  refine ⟨d, s, h, ?_, ?_, ?_⟩ <;> rintro rfl <;> exact absurd hd (by unfold Digit; decide)

theorem ptr_word (hf : Formats env) (a : Nat) : Word (env.ptr a) := by
  obtain ⟨d, s, h, hd, hs⟩ := hf.address a
  rw [h]
  intro c hc
  rcases List.mem_cons.mp hc with rfl | hc
  · exact digit_word hd
  · rcases hs c hc with h | h
    · exact letter_word h
    · exact digit_word h

theorem literal_tell {pr : UInt8 → Bool} {m m' : Mem} {v v' : Value} {u u' s s' : Text} (h : Literal pr db m v u) (h' : Literal pr db m' v' u') (e : u ++ s = u' ++ s') :
    u = u' ∧ ∃ k, Chars db v k ∧ Chars db v' k ∧ ∀ j < k, m (v.addr + j) = m' (v'.addr + j) := by
  obtain ⟨cs, t, h1, -, h3, -, h5, rfl⟩ := h
  obtain ⟨cs', t', h1', -, h3', -, h5', rfl⟩ := h'
  have e2 : t ++ 34 :: s = t' ++ 34 :: s' := by simpa using e
  obtain ⟨rfl, rfl⟩ := escaped_tell h5 h5' e2
  have : t = t' := by simpa using e2
  refine ⟨by rw [this], _, h1, h1', ?_⟩
  intro j hj
  have hj2 : j < (cs ++ [0]).length := by rw [List.length_append]; exact hj
  have hj' := List.getElem?_eq_getElem hj2
  rw [h3 j _ hj', h3' j _ hj']

theorem counted_type (hd : DataTypes env db S) {v arr : Value} {o : List Value} {e e' : Option Ref} {n n' : Int} (hS : S v.entry) (ho : Object env db v (.array e n))
    (hc : Counted env v o e n arr) (ha : IsArray db arr e' n') : e' = e := by
  by_cases hn : n = -1
  · subst hn
    exact hd.counted v o e arr hS ho hc e' n' ha
  · cases hc with
    | known =>
      obtain ⟨-, x, qs, hx, hi⟩ := ha
      obtain ⟨-, -, y, qs', hy, hi'⟩ := ho
      cases info_unique hx hi hy hi'
      rfl
    | empty => exact absurd rfl hn
    | reply => exact absurd rfl hn

theorem wrapped_tell {v v' : Value} {t t' u u' : Text} (he : v.entry = v'.entry) (h : Wrapped db v t u) (h' : Wrapped db v' t' u') :
    (u = t ∧ u' = t') ∨ (u = [123] ++ t ++ [125] ∧ u' = [123] ++ t' ++ [125]) := by
  by_cases hb : Bare db v.entry
  · exact .inl ⟨wrapped_bare h hb, wrapped_bare h' (he ▸ hb)⟩
  · refine .inr ⟨?_, ?_⟩
    · rcases wrapped_head h with ⟨-, h⟩ | h
      · exact absurd h hb
      · exact h
    · rcases wrapped_head h' with ⟨-, h⟩ | h
      · exact absurd (he ▸ h) hb
      · exact h

theorem union_text (hf : Formats env) (hd : DataTypes env db S) {m : Mem} {o : List Value} {v w : Value} {s : UInt64} {ms : List Ref} {t : Text} (hS : S v.entry) (ho : Object env db v (.struct .union s ms))
    {i : Nat} (hm : Member db v ms i w) (h : Shown env deep db m (v :: o) w t) :
    ∃ n, (db w.entry).name = some n ∧ CName n ∧ S w.entry ∧ membersText db [(w, t)] = 46 :: (n ++ 32 :: 61 :: 32 :: (t ++ [44])) := by
  have hin := (member_entry hm hm).2
  have hSw := members_data hd hS ho _ hin
  have ho' := ho
  obtain ⟨-, -, x, qs, hx, hi⟩ := ho'
  obtain ⟨n, hn, hc⟩ := (hd.unions _ _ _ _ _ hS hx hi).2 _ hin
  refine ⟨n, hn, hc, hSw, ?_⟩
  have ht : t ≠ [] := by
    rcases shown_head hf hd h hSw with ⟨-, ⟨-, h⟩, -⟩ | ⟨c, s, rfl, -⟩
    · rw [hn] at h; cases h
    · simp
  simp [membersText, memberText, ht, hn, List.intercalate]

theorem element_unique (hs : Sane db) {v w w' : Value} {e : Option Ref} {i : Nat} (h : Element db v e i w) (h' : Element db v e i w') : w = w' := by
  obtain ⟨r, n, rfl, h1, rfl⟩ := h
  obtain ⟨r', n', h2, h3, rfl⟩ := h'
  cases h2
  rw [Deep.size_unique hs h1 h3]

theorem shown_tells (hs : Sane db) (hn : CleanNames db) (hf : Formats env) (hd : DataTypes env db S) {m m' : Mem} {o : List Value} {v : Value} {u : Text} (h : Shown env deep db m o v u) :
    ∀ {o' v' u'}, S v.entry → S v'.entry → Kin db v v' → Shown env deep db m' o' v' u' → ∀ s s', Follows s → Follows s' → u ++ s = u' ++ s' →
      u = u' ∧ Alike env deep db m m' o o' v v' := by
  have pnull : ∀ {o o' : List Value} {v v' : Value} {u' : Text} {ty : Option Ref}, Object env db v (.pointer ty) → Object env db v' (.pointer ty) → Holds m v.addr 8 0 → S v'.entry →
      Shown env deep db m' o' v' u' → ∀ s s', Follows s → Follows s' → [78, 85, 76, 76] ++ s = u' ++ s' → [78, 85, 76, 76] = u' ∧ Alike env deep db m m' o o' v v' := by
    intro o o' v v' u' ty ho ho' hh hS' h' s s' _ _ e
    obtain ⟨a, h1, ⟨rfl, rfl⟩ | ⟨_, _, rfl⟩ | ⟨_, _, arr, e', n, t, type, -, -, -, -, ⟨_, rfl⟩ | ⟨ht, rfl⟩⟩⟩ := inv_pointer hd h' hS' ho'
    · exact ⟨rfl, .null ho ho' hh h1⟩
    · obtain ⟨d, r, h2, h3, -⟩ := digit_head (a := a) hf
      rw [h2] at e
      exact (heads e (Ne.symm h3)).elim
    · simp at e
    · cases u' with
      | nil => cases ht
      | cons c r => cases ht; exact (heads e (by decide)).elim
  have paddr : ∀ {o o' : List Value} {v v' : Value} {u' : Text} {ty : Option Ref} {a : Nat}, Object env db v (.pointer ty) → Object env db v' (.pointer ty) → Holds m v.addr 8 a → S v'.entry →
      deep = false ∨ ty = none → Shown env deep db m' o' v' u' → ∀ s s', Follows s → Follows s' → env.ptr a ++ s = u' ++ s' → env.ptr a = u' ∧ Alike env deep db m m' o o' v v' := by
    intro o o' v v' u' ty a ho ho' hh hS' hty h' s s' hs hs' e
    obtain ⟨d, r, h2, h3, h4, h5⟩ := digit_head (a := a) hf
    obtain ⟨a', h1, ⟨rfl, rfl⟩ | ⟨_, _, rfl⟩ | ⟨_, _, arr, e', n, t, type, -, -, -, -, ⟨_, rfl⟩ | ⟨ht, rfl⟩⟩⟩ := inv_pointer hd h' hS' ho'
    · rw [h2] at e
      exact (heads e h3).elim
    · have := word_split (ptr_word hf a) (ptr_word hf a') hs hs' e
      refine ⟨this, ?_⟩
      have := hf.distinct _ _ this
      subst this
      exact .address hty ho ho' hh h1
    · rw [h2] at e
      exact (heads (u' := type ++ [41] ++ t) (by simpa using e) h4).elim
    · rw [h2] at e
      cases u' with
      | nil => cases ht
      | cons c r => cases ht; exact (heads e h5).elim
  induction h with
  | base ho h =>
    intro o' v' u' hS hS' hk h' s s' hs1 hs2 e
    have he := kin_entry hk ho (by intro _ _ h; cases h)
    have ho' := object_of hd h' hS' he ho
    have h' := inv_base hd h' hS' ho'
    obtain ⟨t, n, a1, a2, a3⟩ := stringLoop_get h
    obtain ⟨t', n', b1, b2, b3⟩ := stringLoop_get h'
    have ht : t = t' := by
      obtain ⟨-, -, x, qs, hx, -⟩ := ho
      rw [← he] at b1
      have key : ∀ {r t}, Final db r (some x) qs → isTy db (some r) t = .ok true → Describes db x t := by
        intro r t hx h
        obtain ⟨b, hb, hb'⟩ := isTy_spec hs.named hx t
        rw [h] at hb
        obtain ⟨y, hy, hy'⟩ := hb'.mp (Outcome.ok.inj hb).symm
        cases hy
        exact hy'
      exact describes_unique (key hx a1) (key hx b1)
    subst ht
    obtain ⟨c1, c2, c3⟩ := tyText_tell hf (getTy_lt a2) (getTy_lt b2) a3 b3 hs1 hs2 e
    refine ⟨c1, ?_⟩
    by_cases hi : Integral t
    · exact .number ho ho' hi a2 (c2 hi ▸ b2)
    · exact .floating ho ho' hi a2 b2 (c3 hi)
  | enumeration ho h =>
    intro o' v' u' hS hS' hk h' s s' hs1 hs2 e
    have he := kin_entry hk ho (by intro _ _ h; cases h)
    have ho' := object_of hd h' hS' he ho
    have h' := inv_enum hd h' hS' ho'
    obtain ⟨-, -, x, qs, hx, hi⟩ := id ho
    obtain ⟨-, -, x', qs', hx', hi'⟩ := id ho'
    obtain ⟨k, a1, a2⟩ := enumeration_text hx hi h
    obtain ⟨k', b1, b2⟩ := enumeration_text hx' hi' h'
    have en := hd.enumerators _ _ _ _ _ _ hS hx hi
    rcases a2 with a2 | ⟨a2, rfl⟩ <;> rcases b2 with b2 | ⟨b2, rfl⟩
    · obtain ⟨c1, c2⟩ := en _ a2
      have := word_split (cname_word c1) (cname_word (en _ b2).1) hs1 hs2 e
      refine ⟨this, .enumeration ho ho' a1 ?_⟩
      have hkk : k = k' := c2 _ b2 this
      rw [hkk]; exact b1
    · have := word_split (cname_word (en _ a2).1) (decimalInt_word _) hs1 hs2 e
      exact absurd this (cname_decimal (en _ a2).1 _)
    · have := word_split (decimalInt_word _) (cname_word (en _ b2).1) hs1 hs2 e
      exact absurd this.symm (cname_decimal (en _ b2).1 _)
    · have := word_split (decimalInt_word _) (decimalInt_word _) hs1 hs2 e
      refine ⟨this, .enumeration ho ho' a1 ?_⟩
      rw [decimalInt_inj this]; exact b1
  | null ho hh =>
    intro o' v' u' hS hS' hk h'
    have he := kin_entry hk ho (by intro _ _ h; cases h)
    exact pnull ho (object_of hd h' hS' he ho) hh hS' h'
  | address h0 ho hh h1 =>
    intro o' v' u' hS hS' hk h'
    have he := kin_entry hk ho (by intro _ _ h; cases h)
    exact paddr ho (object_of hd h' hS' he ho) hh hS' (.inl h0) h'
  | void h0 ho hh h1 _ _ =>
    intro o' v' u' hS hS' hk h'
    have he := kin_entry hk ho (by intro _ _ h; cases h)
    exact paddr ho (object_of hd h' hS' he ho) hh hS' (.inr rfl) h'
  | @target o v ty a arr el n t type h0 ho hh h1 _ h2 h3 h4 h5 h6 ih =>
    intro o' v' u' hS hS' hk h' s s' hs1 hs2 e
    have he := kin_entry hk ho (by intro _ _ h; cases h)
    have ho' := object_of hd h' hS' he ho
    obtain ⟨a', g1, ⟨rfl, rfl⟩ | ⟨_, _, rfl⟩ | ⟨ha', _, arr', el', n', t', type', g2, g3, g4, g5, ⟨g6, rfl⟩ | ⟨g6, rfl⟩⟩⟩ := inv_pointer hd h' hS' ho'
    · simp at e
    · obtain ⟨d, r, k2, -, k3, -⟩ := digit_head (a := a') hf
      rw [k2] at e
      exact (heads (u := type ++ [41] ++ t) (by simpa using e) (Ne.symm k3)).elim
    · have e2 : type ++ 41 :: (t ++ s) = type' ++ 41 :: (t' ++ s') := by simpa using e
      obtain ⟨rfl, e3⟩ := paren_split (typeText_nice hn h5).1 (typeText_nice hn g5).1 e2
      have hel := hd.written v v' o o' ty a a' arr arr' el el' n n' type hS he ho h2 g2 h4 g4 h5 g5
      subst hel
      obtain ⟨j1, j2⟩ := ih (hd.targets _ _ _ _ _ hS ho h2) (hd.targets _ _ _ _ _ hS' ho' g2) (.inr ⟨_, _, _, h4, g4⟩) g3 s s' hs1 hs2 e3
      exact ⟨by rw [j1], .target h0 ho ho' hh g1 h1 ha' h2 g2 j2⟩
    · cases u' with
      | nil => cases g6
      | cons c r => cases g6; simp at e
  | @string o v ty a arr el n t type h0 ho hh h1 _ h2 h3 h4 h5 h6 ih =>
    intro o' v' u' hS hS' hk h' s s' hs1 hs2 e
    have he := kin_entry hk ho (by intro _ _ h; cases h)
    have ho' := object_of hd h' hS' he ho
    obtain ⟨r, rfl⟩ : ∃ r, t = 34 :: r := by
      cases t with
      | nil => cases h6
      | cons c r => cases h6; exact ⟨r, rfl⟩
    obtain ⟨a', g1, ⟨rfl, rfl⟩ | ⟨_, _, rfl⟩ | ⟨ha', _, arr', el', n', t', type', g2, g3, g4, g5, ⟨g6, rfl⟩ | ⟨g6, rfl⟩⟩⟩ := inv_pointer hd h' hS' ho'
    · exact (heads e (by decide)).elim
    · obtain ⟨d, r, k2, -, -, k3⟩ := digit_head (a := a') hf
      rw [k2] at e
      exact (heads e (Ne.symm k3)).elim
    · simp at e
    · have hSa := hd.targets _ _ _ _ _ hS ho h2
      have hSa' := hd.targets _ _ _ _ _ hS' ho' g2
      have oa : Object env db arr (.array (some el) n) := ⟨not_packed hd hSa, h4.1, h4.2⟩
      have oa' : Object env db arr' (.array (some el') n') := ⟨not_packed hd hSa', g4.1, g4.2⟩
      obtain ⟨b, b1, b2⟩ := inv_array hd h3 hSa oa
      obtain ⟨b', b1', b2'⟩ := inv_array hd g3 hSa' oa'
      rcases b2 with b2 | ⟨_, _, _, _, _, _, _, b2⟩
      · rcases b2' with b2' | ⟨_, _, _, _, _, _, _, b2'⟩
        · obtain ⟨c1, k, c2, c3, c4⟩ := literal_tell b2 b2' e
          exact ⟨c1, .target h0 ho ho' hh g1 h1 ha' h2 g2 (.characters oa oa' b1 b1' c2 c3 c4)⟩
        · rw [b2'] at g6; cases g6
      · simp at b2
  | @struct o v sz ms ws t ho hl hm hsh hw ih =>
    intro o' v' u' hS hS' hk h' s s' hs1 hs2 e
    have he := kin_entry hk ho (by intro _ _ h; cases h)
    have ho' := object_of hd h' hS' he ho
    obtain ⟨ws', hl', hm', hsh', hw'⟩ := inv_struct hd h' hS' ho'
    have hp : Pairs (fun x y => (db x.1.entry).name = (db y.1.entry).name ∧ Delim (Alike env deep db m m' (v :: o) (v' :: o')) x y) ws ws' := by
      refine pairs_of (by rw [hl, hl']) ?_
      rintro i ⟨w, x⟩ ⟨w', x'⟩ hi hi'
      obtain ⟨e1, e2⟩ := member_entry (hm i _ _ hi) (hm' i _ _ hi')
      have hSw := members_data hd hS ho _ e2
      have hSw' : S w'.entry := e1 ▸ hSw
      have s1 := hsh _ _ (List.mem_of_getElem? hi)
      have s2 := hsh' _ _ (List.mem_of_getElem? hi')
      refine ⟨by show (db w.entry).name = (db w'.entry).name; rw [e1], ⟨⟨fun h0 => shown_empty hf hd s1 hSw e1 s2 h0, fun h0 => shown_empty hf hd s2 hSw' e1.symm s1 h0⟩, ?_⟩⟩
      intro r r' hr hr' er
      exact ih w x (List.mem_of_getElem? hi) hSw hSw' (.inl e1) s2 r r' hr hr' er
    have fin : ∀ {r r' : Text}, Follows r → Follows r' → membersText db ws ++ r = membersText db ws' ++ r' → membersText db ws = membersText db ws' ∧ Alike env deep db m m' o o' v v' := by
      intro r r' hr hr' er
      obtain ⟨j1, j2⟩ := members_tell hp hr hr' er
      refine ⟨j1, .struct ho ho' ?_⟩
      intro i w w' hw hw'
      have hlt : i < ms.length := by
        obtain ⟨_, _, h, -⟩ := hw
        exact (List.getElem?_eq_some_iff.mp h).1
      obtain ⟨⟨y, x⟩, hi⟩ : ∃ p, ws[i]? = some p := ⟨_, List.getElem?_eq_getElem (by omega)⟩
      obtain ⟨⟨y', x'⟩, hi'⟩ : ∃ p, ws'[i]? = some p := ⟨_, List.getElem?_eq_getElem (by omega)⟩
      rw [member_unique hw (hm i _ _ hi), member_unique hw' (hm' i _ _ hi')]
      exact (pairs_at j2).2 i _ _ hi hi'
    rcases wrapped_tell he hw hw' with ⟨rfl, rfl⟩ | ⟨rfl, rfl⟩
    · exact fin hs1 hs2 e
    · obtain ⟨j1, j2⟩ := fin (r := 125 :: s) (r' := 125 :: s') (.inr (.inr rfl)) (.inr (.inr rfl)) (by simpa using e)
      exact ⟨by rw [j1], j2⟩
  | @union o v sz ms t ho hr hw =>
    intro o' v' u' hS hS' hk h' s s' hs1 hs2 e
    have he := kin_entry hk ho (by intro _ _ h; cases h)
    have ho' := object_of hd h' hS' he ho
    rcases inv_union hd h' hS' ho' with ⟨hr', hw'⟩ | ⟨w, x, hne, hr', hsh, hw'⟩
    · refine ⟨?_, .union ho ho' fun h => ⟨hr h, hr' h⟩⟩
      rcases wrapped_tell he hw hw' with ⟨rfl, rfl⟩ | ⟨rfl, rfl⟩ <;> rfl
    · exfalso
      obtain ⟨i, hi⟩ := hd.chosen _ _ _ _ _ hS' ho' hr'
      obtain ⟨n, -, -, -, ht⟩ := union_text hf hd hS' ho' hi hsh
      by_cases hb : Bare db v.entry
      · exact hd.answered _ _ _ _ hS ho hb.2 hb.1 hne (hr hne)
      · rcases wrapped_tell he hw hw' with ⟨h1, h2⟩ | ⟨rfl, rfl⟩
        · rcases wrapped_head hw with ⟨-, h⟩ | h
          · exact hb h
          · rw [h1] at h; cases h
        · rw [ht] at e
          simp at e
  | @unionMember o v sz ms w x t ho hne hr hsh hw ih =>
    intro o' v' u' hS hS' hk h' s s' hs1 hs2 e
    have he := kin_entry hk ho (by intro _ _ h; cases h)
    have ho' := object_of hd h' hS' he ho
    obtain ⟨i, hi⟩ := hd.chosen _ _ _ _ _ hS ho hr
    obtain ⟨n, hn1, hn2, hSw, ht⟩ := union_text hf hd hS ho hi hsh
    rcases inv_union hd h' hS' ho' with ⟨hr', hw'⟩ | ⟨w', x', hne', hr', hsh', hw'⟩
    · exfalso
      by_cases hb : Bare db v'.entry
      · exact hd.answered _ _ _ _ hS' ho' hb.2 hb.1 hne (hr' hne)
      · rcases wrapped_tell he hw hw' with ⟨h1, h2⟩ | ⟨rfl, rfl⟩
        · rcases wrapped_head hw' with ⟨-, h⟩ | h
          · exact hb h
          · rw [h2] at h; cases h
        · rw [ht] at e
          simp at e
    · obtain ⟨i', hi'⟩ := hd.chosen _ _ _ _ _ hS' ho' hr'
      obtain ⟨n', hn1', hn2', hSw', ht'⟩ := union_text hf hd hS' ho' hi' hsh'
      have fin : ∀ {r r' : Text}, Follows r → Follows r' → membersText db [(w, x)] ++ r = membersText db [(w', x')] ++ r' →
          membersText db [(w, x)] = membersText db [(w', x')] ∧ Alike env deep db m m' o o' v v' := by
        intro r r' _ _ er
        rw [ht, ht'] at er
        simp only [List.cons_append, List.append_assoc, List.cons.injEq, true_and] at er
        have hnn := word_split (cname_word hn2) (cname_word hn2') (s := 32 :: _) (s' := 32 :: _) (.inr (.inl rfl)) (.inr (.inl rfl)) er
        subst hnn
        simp only [List.append_cancel_left_eq, List.cons.injEq, true_and] at er
        have hii : i = i' := by
          have ho2 := ho
          obtain ⟨-, -, y, qs, hy, hinfo⟩ := ho2
          obtain ⟨r1, _, k1, _, k2⟩ := hi
          obtain ⟨r2, _, k3, _, k4⟩ := hi'
          refine (hd.unions _ _ _ _ _ hS hy hinfo).1 i i' r1 r2 k1 k3 ?_
          rw [k2] at hn1; rw [k4] at hn1'
          exact hn1.trans hn1'.symm
        subst hii
        obtain ⟨j1, j2⟩ := ih hSw hSw' (.inl (member_entry hi hi').1) hsh' _ _ (comma _) (comma _) er
        exact ⟨by rw [ht, ht', j1], .unionMember ho ho' hr hr' hi hi' j2⟩
      rcases wrapped_tell he hw hw' with ⟨rfl, rfl⟩ | ⟨rfl, rfl⟩
      · exact fin hs1 hs2 e
      · obtain ⟨j1, j2⟩ := fin (r := 125 :: s) (r' := 125 :: s') (.inr (.inr rfl)) (.inr (.inr rfl)) (by simpa using e)
        exact ⟨by rw [j1], j2⟩
  | skipped ho ht hr => intro o' v' u' hS; exact absurd hr (hd.arrays _ _ _ hS ho ht)
  | literal ho hc hl =>
    intro o' v' u' hS hS' hk h' s s' hs1 hs2 e
    obtain ⟨n', ho'⟩ := array_of hd h' hS' hk ho
    obtain ⟨arr', b1, b2 | ⟨_, _, _, _, _, _, _, rfl⟩⟩ := inv_array hd h' hS' ho'
    · obtain ⟨c1, k, c2, c3, c4⟩ := literal_tell hl b2 e
      exact ⟨c1, .characters ho ho' hc b1 c2 c3 c4⟩
    · obtain ⟨cs, t, -, -, -, -, -, rfl⟩ := hl
      simp at e
  | @array o v el n arr el' k ws ho hc hnl ha hl he hsh ih =>
    intro o' v' u' hS hS' hk h' s s' hs1 hs2 e
    obtain ⟨n', ho'⟩ := array_of hd h' hS' hk ho
    obtain ⟨arr', b1, b2 | ⟨el2, k', ws', c1, c2, c3, c4, rfl⟩⟩ := inv_array hd h' hS' ho'
    · obtain ⟨cs, t, -, -, -, -, -, rfl⟩ := b2
      simp at e
    · cases counted_type hd hS ho hc ha
      cases counted_type hd hS' ho' b1 c1
      have hSe : ∀ {arr w i}, Element db arr el i w → el = some w.entry := by
        rintro arr w i ⟨r, n, rfl, -, rfl⟩
        rfl
      have hSel : ∀ {r}, el = some r → S r ∧ ∀ mi, (db r).info ≠ .member mi := by
        rintro r rfl
        obtain ⟨-, -, x, qs, hx, hi⟩ := ho
        exact hd.elements _ _ _ _ _ hS hx hi
      have t1 : ∀ x ∈ ws, el = some x.1.entry := by
        rintro ⟨w, x⟩ hx
        obtain ⟨i, hi⟩ := List.mem_iff_getElem?.mp hx
        exact hSe (he i _ _ hi)
      have t2 : ∀ x ∈ ws', el = some x.1.entry := by
        rintro ⟨w, x⟩ hx
        obtain ⟨i, hi⟩ := List.mem_iff_getElem?.mp hx
        exact hSe (c3 i _ _ hi)
      have hdel : ∀ x ∈ ws, ∀ y ∈ ws', Delim (Alike env deep db m m' (v :: o) (v' :: o')) x y := by
        rintro ⟨w, x⟩ hx ⟨w', x'⟩ hy
        have e1 : w.entry = w'.entry := Option.some.inj ((t1 _ hx).symm.trans (t2 _ hy))
        have hSw := (hSel (t1 _ hx)).1
        have hSw' := (hSel (t2 _ hy)).1
        have s1 := hsh _ _ hx
        have s2 := c4 _ _ hy
        refine ⟨⟨fun h0 => shown_empty hf hd s1 hSw e1 s2 h0, fun h0 => shown_empty hf hd s2 hSw' e1.symm s1 h0⟩, ?_⟩
        intro r r' hr hr' er
        exact ih w x hx hSw hSw' (.inl e1) s2 r r' hr hr' er
      have hheads : ∀ x ∈ ws ++ ws', ∃ c s, x.2 = c :: s ∧ ¬ Follows [c] := by
        rintro ⟨w, x⟩ hx
        rcases List.mem_append.mp hx with hx | hx
        · obtain ⟨q1, q2⟩ := hSel (t1 _ hx)
          rcases shown_head hf hd (hsh _ _ hx) q1 with ⟨-, ⟨⟨mi, h⟩, -⟩, -⟩ | h
          · exact absurd h (q2 mi)
          · exact h
        · obtain ⟨q1, q2⟩ := hSel (t2 _ hx)
          rcases shown_head hf hd (c4 _ _ hx) q1 with ⟨-, ⟨⟨mi, h⟩, -⟩, -⟩ | h
          · exact absurd h (q2 mi)
          · exact h
      obtain ⟨j1, -, j3⟩ := elements_tell hdel hheads (s := s) (s' := s') (by simpa using e)
      obtain ⟨p1, p2⟩ := pairs_at j3
      refine ⟨by rw [j1], .array ho ho' hc b1 ha c1 (by omega) ?_⟩
      intro i w w' hlt hw hw'
      obtain ⟨⟨y, x⟩, hi⟩ : ∃ p, ws[i]? = some p := ⟨_, List.getElem?_eq_getElem (by omega)⟩
      obtain ⟨⟨y', x'⟩, hi'⟩ : ∃ p, ws'[i]? = some p := ⟨_, List.getElem?_eq_getElem (by omega)⟩
      rw [element_unique hs hw (he i _ _ hi), element_unique hs hw' (c3 i _ _ hi')]
      exact p2 i _ _ hi hi'
  | arguments h => intro o' v' u' hS; exact absurd h (not_packed hd hS)
  | vaList h => intro o' v' u' hS; exact absurd h (not_packed hd hS)
  | call h => intro o' v' u' hS; exact absurd h (not_call hd hS).1
  | callPointer h => intro o' v' u' hS; exact absurd h (not_call hd hS).2

end Verif.Tell
