import Verif.GoDwarf.Spec
import Verif.GoDedup.Text
/-
C65: the tree of debug information entries is read as it was stored.
-/
namespace Verif.GoDwarf
open GoMeta (Str)
open GoDedup (Go)
open Spec

theorem readAll_append {α : Type} : ∀ (a b : List (Item α)) (t t' : Tree α), readAll t (a ++ b) = Go.ret t' ↔ ∃ t1, readAll t a = Go.ret t1 ∧ readAll t1 b = Go.ret t'
  | [], b, t, t' => by
    constructor
    · intro h; exact ⟨t, rfl, h⟩
    · rintro ⟨t1, h1, h2⟩; cases Go.ret_inj.mp h1; exact h2
  | i :: a, b, t, t' => by
    simp only [List.cons_append, readAll]
    rw [Go.bind_ret]
    constructor
    · rintro ⟨t2, h1, h2⟩
      obtain ⟨t1, h3, h4⟩ := (readAll_append a b t2 t').mp h2
      exact ⟨t1, Go.bind_ret.mpr ⟨t2, h1, h3⟩, h4⟩
    · rintro ⟨t1, h1, h2⟩
      obtain ⟨t2, h3, h4⟩ := Go.bind_ret.mp h1
      exact ⟨t2, h3, (readAll_append a b t2 t').mpr ⟨t1, h4, h2⟩⟩

theorem unwind_none {off : Off} {stack : List (Off × Off)} (h : ∀ f ∈ stack, f.2 ≠ 0 → f.2 ≠ off) : unwind off stack = stack := by
  have : ∀ l : List (Off × Off), (∀ f ∈ l, f.2 ≠ 0 → f.2 ≠ off) → l.dropWhile (fun f => !(f.2 ≠ 0 ∧ f.2 = off)) = [] := by
    intro l
    induction l with
    | nil => intro _; rfl
    | cons f l ih =>
      intro h
      rw [List.dropWhile_cons, if_pos, ih fun g hg => h g (by simp [hg])]
      have := h f (by simp)
      simp only [Bool.not_eq_true', decide_eq_false_iff_not]
      rintro ⟨h1, h2⟩
      exact this h1 h2
  unfold unwind
  rw [this stack h]

/-- The entry made for `d` below `p`. -/
def made {α : Type} (p : Off) (d : Die α) : Entry α := { parent := some p, tag := d.tag, body := some d.body, children := d.kids.map Die.off }

mutual
def Has {α : Type} (E : Off → Option (Entry α)) (p : Off) : Die α → Prop
  | .node o t b f s ks => E o = some (made p (.node o t b f s ks)) ∧ HasAll E o ks
def HasAll {α : Type} (E : Off → Option (Entry α)) (p : Off) : List (Die α) → Prop
  | [] => True
  | k :: ks => Has E p k ∧ HasAll E p ks
end

mutual
theorem Has.congr {α : Type} {E E' : Off → Option (Entry α)} {p : Off} : ∀ {d : Die α}, Has E p d → (∀ x ∈ d.offs, E' x = E x) → Has E' p d
  | .node o t b f s ks, h, he => by
    rw [Die.offs] at he
    exact ⟨by rw [he o (by simp)]; exact h.1, HasAll.congr h.2 fun x hx => he x (by simp [hx])⟩
theorem HasAll.congr {α : Type} {E E' : Off → Option (Entry α)} {p : Off} : ∀ {ds : List (Die α)}, HasAll E p ds → (∀ x ∈ Die.offsAll ds, E' x = E x) → HasAll E' p ds
  | [], _, _ => trivial
  | k :: ks, h, he => by
    rw [Die.offsAll] at he
    exact ⟨Has.congr h.1 fun x hx => he x (by simp [hx]), HasAll.congr h.2 fun x hx => he x (by simp [hx])⟩
end

theorem off_mem {α : Type} (d : Die α) : d.off ∈ d.offs := by
  cases d; simp [Die.off, Die.offs]

theorem off_memAll {α : Type} {d : Die α} : ∀ {ds : List (Die α)}, d ∈ ds → d.off ∈ Die.offsAll ds
  | k :: ks, h => by
    rw [Die.offsAll]
    rcases List.mem_cons.mp h with rfl | h
    · simp [off_mem]
    · simp [off_memAll h]

/-- What reading the entries of `ds` does: nothing but adding them below the innermost open entry. -/
structure Added {α : Type} (t t' : Tree α) (p : Off) (ds : List (Die α)) : Prop where
  stack : t'.stack = t.stack
  parent : ∀ e, t.entries p = some e → t'.entries p = some { e with children := e.children ++ ds.map Die.off }
  has : HasAll t'.entries p ds
  other : ∀ x, x ≠ p → x ∉ Die.offsAll ds → t'.entries x = t.entries x

theorem Added.trans {α : Type} {t t1 t' : Tree α} {p : Off} {d : Die α} {ds : List (Die α)} (h1 : Added t t1 p [d]) (h2 : Added t1 t' p ds)
    (hd : ∀ x ∈ d.offs, x ∉ Die.offsAll ds) (hp : p ∉ d.offs) : Added t t' p (d :: ds) where
  stack := by rw [h2.stack, h1.stack]
  parent e he := by
    rw [h2.parent _ (h1.parent e he)]
    simp
  has := by
    refine ⟨h1.has.1.congr fun x hx => h2.other x ?_ (hd x hx), h2.has⟩
    rintro rfl
    exact hp hx
  other x hx hn := by
    rw [Die.offsAll, List.mem_append] at hn
    rw [h2.other x hx fun h => hn (.inr h), h1.other x hx]
    intro h
    rw [Die.offsAll, Die.offsAll, List.append_nil] at h
    exact hn (.inl h)

theorem nodup_app {l l' : List Off} (h : (l ++ l').Nodup) : l.Nodup ∧ l'.Nodup ∧ ∀ x ∈ l, x ∉ l' := by
  rw [List.nodup_append] at h
  exact ⟨h.1, h.2.1, fun x hx hx' => h.2.2 x hx x hx' rfl⟩

mutual
theorem read_die {α : Type} : ∀ (d : Die α) (t : Tree α) (p s0 : Off) (rest : List (Off × Off)) (pe : Entry α), t.stack = (p, s0) :: rest → t.entries p = some pe → p ∉ d.offs → d.offs.Nodup →
    d.Sound → (d.tag = go! "CompileUnit" → t.stack = [(0, 0)]) → (∀ f ∈ t.stack, f.2 ≠ 0 → f.2 ∉ d.offs) → ∃ t', readAll t d.stored = Go.ret t' ∧ Added t t' p [d]
  | .node o tag b fl s ks, t, p, s0, rest, pe, hst, hpe, hp, hnd, hsd, htag, hsib => by
    rw [Die.offs] at hp hnd hsib
    rw [Die.Sound] at hsd
    obtain ⟨hf, hs, hk, hsk⟩ := hsd
    have hpo : p ≠ o := fun h => hp (by rw [h]; simp)
    have hun : unwind o t.stack = (p, s0) :: rest := by
      rw [unwind_none fun f hf h0 he => hsib f hf h0 (by rw [he]; simp), hst]
    obtain ⟨ho, hnd'⟩ := List.nodup_cons.mp hnd
    -- the entry itself
    obtain ⟨t1, e1, e2⟩ : ∃ t1 : Tree α, readItem t (.entry ⟨o, tag, fl, s, some b⟩) = Go.ret t1 ∧
        t1 = ⟨fun x => if x = p then some { pe with children := pe.children ++ [o] } else if x = o then some { parent := some p, tag := tag, body := some b } else t.entries x,
          if fl then (o, s.getD 0) :: t.stack else t.stack⟩ := by
      refine ⟨_, ?_, rfl⟩
      unfold readItem
      have hcut : (if tag = go! "CompileUnit" then [(0, 0)] else unwind o t.stack) = (p, s0) :: rest := by
        split
        · rename_i ht
          rw [← htag ht, hst]
        · exact hun
      simp only [hcut, hpo, hpe, if_false]
      simp only [List.head?_cons, Option.map_some, hst]
    cases fl with
    | false =>
      have := hf rfl
      subst this
      refine ⟨t1, Go.bind_ret.mpr ⟨t1, e1, rfl⟩, ?_⟩
      subst e2
      refine ⟨rfl, ?_, ⟨⟨?_, trivial⟩, trivial⟩, ?_⟩
      · intro e he
        rw [hpe] at he; cases he
        simp [Die.off]
      · simp only [if_neg (Ne.symm hpo), if_true, made, Die.tag, Die.body, Die.kids, List.map_nil]
      · intro x hx hn
        have : x ≠ o := fun h => hn (by rw [h]; simp [Die.offsAll, Die.offs])
        simp only [if_neg hx, if_neg this]
    | true =>
      have hstack : t1.stack = (o, s.getD 0) :: t.stack := by rw [e2]; rfl
      have hto : t1.entries o = some { parent := some p, tag := tag, body := some b } := by
        rw [e2]; simp only [if_neg (Ne.symm hpo), if_true]
      obtain ⟨t2, e3, e4⟩ := read_dies ks t1 o (s.getD 0) t.stack _ hstack hto ho hnd' hsk hk (by
        intro f hf h0 hm
        rw [hstack] at hf
        rcases List.mem_cons.mp hf with rfl | hf
        · cases s with
          | none => exact h0 rfl
          | some x => exact hs x rfl hm
        · exact hsib f hf h0 (List.mem_cons_of_mem _ hm))
      have hnull : readAll t2 [.null] = Go.ret { t2 with stack := t.stack } := by
        refine Go.bind_ret.mpr ⟨{ t2 with stack := t.stack }, ?_, rfl⟩
        have : t2.stack.length > 1 := by rw [e4.stack, hstack, hst]; simp
        unfold readItem
        rw [if_pos this, e4.stack, hstack]
        rfl
      refine ⟨_, Go.bind_ret.mpr ⟨t1, e1, (readAll_append _ _ _ _).mpr ⟨t2, e3, hnull⟩⟩, rfl, ?_, ⟨⟨?_, e4.has⟩, trivial⟩, ?_⟩
      · intro e he
        rw [hpe] at he; cases he
        show t2.entries p = _
        rw [e4.other p hpo fun h => hp (List.mem_cons_of_mem _ h), e2]
        simp [Die.off]
      · show t2.entries o = _
        rw [e4.parent _ hto]
        simp [made, Die.tag, Die.body, Die.kids]
      · intro x hx hn
        rw [Die.offsAll, Die.offsAll, List.append_nil, Die.offs, List.mem_cons, not_or] at hn
        show t2.entries x = _
        rw [e4.other x hn.1 hn.2, e2]
        simp only [if_neg hx, if_neg hn.1]
theorem read_dies {α : Type} : ∀ (ds : List (Die α)) (t : Tree α) (p s0 : Off) (rest : List (Off × Off)) (pe : Entry α), t.stack = (p, s0) :: rest → t.entries p = some pe → p ∉ Die.offsAll ds →
    (Die.offsAll ds).Nodup → Die.SoundAll ds → (∀ k ∈ ds, k.tag ≠ go! "CompileUnit") → (∀ f ∈ t.stack, f.2 ≠ 0 → f.2 ∉ Die.offsAll ds) →
    ∃ t', readAll t (Die.storedAll ds) = Go.ret t' ∧ Added t t' p ds
  | [], t, p, s0, rest, pe, hst, hpe, hp, hnd, hsd, htag, hsib =>
    ⟨t, rfl, rfl, fun e he => by simp [he], trivial, fun _ _ _ => rfl⟩
  | d :: ds, t, p, s0, rest, pe, hst, hpe, hp, hnd, hsd, htag, hsib => by
    rw [Die.offsAll] at hp hnd hsib
    obtain ⟨n1, n2, n3⟩ := nodup_app hnd
    have hpd : p ∉ d.offs := fun h => hp (List.mem_append_left _ h)
    obtain ⟨t1, e1, e2⟩ := read_die d t p s0 rest pe hst hpe hpd n1 hsd.1 (fun h => absurd h (htag d (by simp))) (fun f hf h0 h => hsib f hf h0 (List.mem_append_left _ h))
    obtain ⟨t2, e3, e4⟩ := read_dies ds t1 p s0 rest _ (by rw [e2.stack, hst]) (e2.parent _ hpe) (fun h => hp (List.mem_append_right _ h)) n2 hsd.2
      (fun k hk => htag k (by simp [hk])) (fun f hf h0 h => hsib f (by rwa [e2.stack] at hf) h0 (List.mem_append_right _ h))
    exact ⟨t2, (readAll_append _ _ _ _).mpr ⟨t1, e1, e3⟩, e2.trans e4 n3 hpd⟩
end

/-! ### Units -/

theorem read_nulls {α : Type} {t : Tree α} (h : t.stack.length ≤ 1) : ∀ n, readAll t (List.replicate n .null) = Go.ret t
  | 0 => rfl
  | n + 1 => by
    rw [List.replicate_succ]
    refine Go.bind_ret.mpr ⟨t, ?_, read_nulls h n⟩
    unfold readItem
    rw [if_neg (by omega)]

theorem read_units {α : Type} : ∀ (us : List (Nat × Die α)) (t : Tree α) (pe : Entry α), t.stack = [(0, 0)] → t.entries 0 = some pe → 0 ∉ Die.offsAll (us.map Prod.snd) →
    (Die.offsAll (us.map Prod.snd)).Nodup → Die.SoundAll (us.map Prod.snd) → ∃ t', readAll t (storedUnits us) = Go.ret t' ∧ Added t t' 0 (us.map Prod.snd)
  | [], t, pe, _, _, _, _, _ => ⟨t, rfl, rfl, fun e he => by simp [he], trivial, fun _ _ _ => rfl⟩
  | (n, d) :: us, t, pe, hst, hpe, h0, hnd, hsd => by
    rw [List.map_cons, Die.offsAll] at h0 hnd
    obtain ⟨n1, n2, n3⟩ := nodup_app hnd
    have hpd : 0 ∉ d.offs := fun h => h0 (List.mem_append_left _ h)
    obtain ⟨t1, e1, e2⟩ := read_die d t 0 0 [] pe hst hpe hpd n1 hsd.1 (fun _ => hst) (by
      rw [hst]
      intro f hf
      simp at hf
      simp [hf])
    obtain ⟨t2, e3, e4⟩ := read_units us t1 _ (by rw [e2.stack, hst]) (e2.parent _ hpe) (fun h => h0 (List.mem_append_right _ h)) n2 hsd.2
    refine ⟨t2, ?_, e2.trans e4 n3 hpd⟩
    have : storedUnits ((n, d) :: us) = (List.replicate n .null ++ d.stored) ++ storedUnits us := by simp [storedUnits]
    rw [this]
    refine (readAll_append _ _ _ _).mpr ⟨t1, (readAll_append _ _ _ _).mpr ⟨t, read_nulls (by simp [hst]) n, e1⟩, e3⟩

theorem HasAll.mem {α : Type} {E : Off → Option (Entry α)} {p : Off} {d : Die α} : ∀ {ds : List (Die α)}, HasAll E p ds → d ∈ ds → Has E p d
  | k :: ks, h, hd => by
    rcases List.mem_cons.mp hd with rfl | hd
    · exact h.1
    · exact HasAll.mem h.2 hd

theorem HasAll.below {α : Type} {E : Off → Option (Entry α)} {p0 : Off} {ds : List (Die α)} {p : Off} {d : Die α} (hb : Die.Below p0 ds p d) : HasAll E p0 ds → E d.off = some (made p d) := by
  induction hb with
  | here hd =>
    intro h
    have := h.mem hd
    rename_i d
    cases d
    exact this.1
  | there hk _ ih =>
    intro h
    have := h.mem hk
    rename_i k _ _ _
    cases k
    exact ih this.2

/-- C65: what is read is the tree that was stored.  Every entry is there, with its tag and its
contents, it is below the one it was below, and the entries below it are those that were, in the order
they were in; the units are below 0; and there is nothing else. -/
theorem C65_tree {α : Type} (units : List (Nat × Die α)) (hsound : ∀ u ∈ units, u.2.Sound)
    (hdist : (0 :: Die.offsAll (units.map Prod.snd)).Nodup) :
    ∃ E, newData (storedUnits units) = Go.ret E ∧
      (∀ p d, Die.Below 0 (units.map Prod.snd) p d →
        E d.off = some { parent := some p, tag := d.tag, body := some d.body, children := d.kids.map Die.off }) ∧
      E 0 = some { parent := none, tag := [], body := none, children := units.map fun u => u.2.off } ∧
      (∀ x, x ∉ 0 :: Die.offsAll (units.map Prod.snd) → E x = none) := by
  obtain ⟨h0, hnd⟩ := List.nodup_cons.mp hdist
  have hsd : Die.SoundAll (units.map Prod.snd) := by
    clear hdist h0 hnd
    induction units with
    | nil => trivial
    | cons u us ih => exact ⟨hsound u (by simp), ih fun v hv => hsound v (by simp [hv])⟩
  obtain ⟨t, e1, e2⟩ := read_units units (Tree.init α) {} rfl rfl h0 hnd hsd
  refine ⟨t.entries, Go.bind_ret.mpr ⟨t, e1, rfl⟩, fun p d hb => HasAll.below hb e2.has, ?_, ?_⟩
  · rw [e2.parent {} rfl]
    simp [Function.comp_def]
  · intro x hx
    rw [List.mem_cons, not_or] at hx
    rw [e2.other x hx.1 hx.2]
    simp [Tree.init, hx.1]

/-! ### Any stream of entries -/

/-- The entry is an error, or its contents cannot be read. -/
def Item.Bad {α : Type} : Item α → Prop
  | .entry e => e.body = none
  | .null => False
  | .error => True

/-- The offset of an entry. -/
def Item.off? {α : Type} : Item α → Option Off
  | .entry e => some e.off
  | _ => none

theorem unwind_sub {off : Off} {stack : List (Off × Off)} {f : Off × Off} (h : f ∈ unwind off stack) : f ∈ stack := by
  unfold unwind at h
  split at h
  · exact h
  · rename_i x rest hx
    have : f ∈ stack.dropWhile (fun f => !(f.2 ≠ 0 ∧ f.2 = off)) := by rw [hx]; simp [h]
    exact (List.dropWhile_sublist _).subset this

theorem unwind_last {off : Off} : ∀ {stack : List (Off × Off)}, stack.getLast? = some (0, 0) → (unwind off stack).getLast? = some (0, 0)
  | [], h => by simp at h
  | f :: stack, h => by
    unfold unwind
    rw [List.dropWhile_cons]
    cases stack with
    | nil =>
      simp at h
      subst h
      simp
    | cons g stack =>
      have h' : (g :: stack).getLast? = some (0, 0) := by simpa using h
      by_cases hc : (!(f.2 ≠ 0 ∧ f.2 = off) : Bool) = true
      · have ih := unwind_last (off := off) h'
        unfold unwind at ih
        rw [if_pos hc]
        split
        · exact h
        · rename_i x rest hx
          rw [hx] at ih
          exact ih
      · rw [if_neg hc]
        exact h'

/-- What holds after reading any entries. -/
structure Inv {α : Type} (t : Tree α) : Prop where
  bottom : t.stack.getLast? = some (0, 0)
  known : ∀ f ∈ t.stack, (t.entries f.1).isSome

theorem cut_inv {α : Type} {t : Tree α} (h : Inv t) (h0 : (t.entries 0).isSome) (c : Prop) [Decidable c] (off : Off) :
    (if c then [(0, 0)] else unwind off t.stack).getLast? = some (0, 0) ∧ ∀ f ∈ (if c then [(0, 0)] else unwind off t.stack), (t.entries f.1).isSome := by
  split
  · exact ⟨rfl, by simpa using h0⟩
  · exact ⟨unwind_last h.bottom, fun f hf => h.known f (unwind_sub hf)⟩

theorem Inv.zero {α : Type} {t : Tree α} (h : Inv t) : (t.entries 0).isSome := h.known (0, 0) (List.mem_of_getLast? h.bottom)

theorem readItem_inv {α : Type} {t : Tree α} (h : Inv t) (i : Item α) : (Item.Bad i ∧ readItem t i = Go.fail) ∨ (¬ Item.Bad i ∧ ∃ t', readItem t i = Go.ret t' ∧ Inv t') := by
  cases i with
  | error => exact .inl ⟨trivial, rfl⟩
  | null =>
    refine .inr ⟨id, _, rfl, ?_⟩
    split
    · rename_i hl
      refine ⟨?_, fun f hf => h.known f (List.mem_of_mem_tail hf)⟩
      obtain ⟨entries, stack⟩ := t
      cases stack with
      | nil => simp at hl
      | cons a l =>
        cases l with
        | nil => simp at hl
        | cons b l => simpa using h.bottom
    · exact h
  | entry e =>
    obtain ⟨off, tag, ch, sib, body⟩ := e
    cases body with
    | none => exact .inl ⟨rfl, rfl⟩
    | some b =>
      refine .inr ⟨by simp [Item.Bad], ?_⟩
      obtain ⟨hb, hk⟩ := cut_inv h h.zero (tag = go! "CompileUnit") off
      simp only [readItem]
      generalize (if tag = go! "CompileUnit" then [(0, 0)] else unwind off t.stack) = stack at hb hk
      cases stack with
      | nil => simp at hb
      | cons f stack =>
        obtain ⟨p, s⟩ := f
        have hkp : ((if p = off then some { parent := some p, tag := tag, body := some b } else t.entries p : Option (Entry α))).isSome := by
          split
          · rfl
          · exact hk (p, s) (by simp)
        simp only [List.head?_cons, Option.map_some]
        obtain ⟨pe, hpe⟩ := Option.isSome_iff_exists.mp hkp
        rw [hpe]
        refine ⟨_, rfl, ?_, ?_⟩
        · show (if ch then _ else _ : List (Off × Off)).getLast? = _
          cases ch
          · exact hb
          · simpa [List.getLast?_cons] using hb
        · intro f hf
          show Option.isSome (if f.1 = p then _ else if f.1 = off then _ else _)
          by_cases h1 : f.1 = p
          · simp [h1]
          · rw [if_neg h1]
            by_cases h2 : f.1 = off
            · simp [h2]
            · rw [if_neg h2]
              have : f ∈ (p, s) :: stack := by
                cases ch
                · exact hf
                · rcases List.mem_cons.mp hf with rfl | hf
                  · exact absurd rfl h2
                  · exact hf
              exact hk f this

theorem readAll_inv {α : Type} : ∀ (is : List (Item α)) {t : Tree α}, Inv t → ((∃ i ∈ is, Item.Bad i) ∧ readAll t is = Go.fail) ∨ ((∀ i ∈ is, ¬ Item.Bad i) ∧ ∃ t', readAll t is = Go.ret t' ∧ Inv t')
  | [], t, h => .inr ⟨by simp, t, rfl, h⟩
  | i :: is, t, h => by
    rcases readItem_inv h i with ⟨hb, he⟩ | ⟨hb, t1, he, h1⟩
    · refine .inl ⟨⟨i, by simp, hb⟩, ?_⟩
      show (readItem t i >>= _) = _
      rw [he]; rfl
    · have hstep : readAll t (i :: is) = readAll t1 is := by
        show (readItem t i >>= fun x => readAll x is) = _
        rw [he]; rfl
      rw [hstep]
      rcases readAll_inv is h1 with ⟨⟨j, hj, hbj⟩, hr⟩ | ⟨hn, t', hr, h'⟩
      · exact .inl ⟨⟨j, by simp [hj], hbj⟩, hr⟩
      · refine .inr ⟨?_, t', hr, h'⟩
        intro j hj
        rcases List.mem_cons.mp hj with rfl | hj
        · exact hb
        · exact hn j hj

theorem Inv.init (α : Type) : Inv (Tree.init α) := ⟨rfl, by simp [Tree.init]⟩

/-- C65: whatever the stream is - children without end, siblings that are wrong - reading it does not
panic, and it fails when, and only when, an entry cannot be read. -/
theorem C65_errors {α : Type} (items : List (Item α)) :
    (newData items = Go.fail ∧ ∃ i ∈ items, Item.Bad i) ∨ ((∃ E, newData items = Go.ret E) ∧ ∀ i ∈ items, ¬ Item.Bad i) := by
  rcases readAll_inv items (Inv.init α) with ⟨h, hr⟩ | ⟨h, t, hr, _⟩
  · refine .inl ⟨?_, h⟩
    show (readAll _ items >>= _) = _
    rw [hr]; rfl
  · exact .inr ⟨⟨t.entries, Go.bind_ret.mpr ⟨t, hr, rfl⟩⟩, h⟩

/-- The links between the entries at the offsets of `done`. -/
structure Linked {α : Type} (E : Off → Option (Entry α)) (done : List Off) : Prop where
  dom : ∀ x, (E x).isSome ↔ x ∈ done
  root : ∀ e, E 0 = some e → e.parent = none
  up : ∀ x e, E x = some e → x ≠ 0 → ∃ p pe, e.parent = some p ∧ E p = some pe ∧ x ∈ pe.children ∧ ∃ a b c, done = a ++ p :: b ++ x :: c
  down : ∀ p pe, E p = some pe → pe.children.Nodup ∧ ∀ x ∈ pe.children, ∃ e, E x = some e ∧ e.parent = some p

theorem before_app {done : List Off} {p x : Off} (y : Off) (h : ∃ a b c, done = a ++ p :: b ++ x :: c) : ∃ a b c, done ++ [y] = a ++ p :: b ++ x :: c := by
  obtain ⟨a, b, c, rfl⟩ := h
  exact ⟨a, b, c ++ [y], by simp⟩

theorem readItem_linked {α : Type} {t t' : Tree α} {i : Item α} {done : List Off} (hi : Inv t) (h : Linked t.entries done) (hr : readItem t i = Go.ret t') (h0 : 0 ∈ done)
    (hx : ∀ x, i.off? = some x → x ∉ done) : Linked t'.entries (done ++ i.off?.toList) := by
  cases i with
  | error => exact absurd hr.symm Go.fail_ne.symm
  | null =>
    have := Go.ret_inj.mp hr
    subst this
    simp only [Item.off?, Option.toList_none, List.append_nil]
    split <;> exact h
  | entry e =>
    obtain ⟨off, tag, ch, sib, body⟩ := e
    have hxo := hx off rfl
    clear hx
    cases body with
    | none => exact absurd hr.symm Go.fail_ne.symm
    | some b =>
      obtain ⟨hb, hk⟩ := cut_inv hi hi.zero (tag = go! "CompileUnit") off
      simp only [readItem] at hr
      generalize (if tag = go! "CompileUnit" then [(0, 0)] else unwind off t.stack) = stack at hb hk hr
      cases stack with
      | nil => simp at hb
      | cons f stack =>
        obtain ⟨p, s⟩ := f
        have hp : (t.entries p).isSome := hk (p, s) (by simp)
        have hpd := (h.dom p).mp hp
        have hpo : p ≠ off := fun he => hxo (he ▸ hpd)
        obtain ⟨pe, hpe⟩ := Option.isSome_iff_exists.mp hp
        simp only [List.head?_cons, Option.map_some, if_neg hpo, hpe] at hr
        have := Go.ret_inj.mp hr
        subst this
        have hoff : t.entries off = none := by
          cases he : t.entries off with
          | none => rfl
          | some e => exact absurd ((h.dom off).mp (by rw [he]; rfl)) hxo
        simp only [Item.off?, Option.toList_some]
        -- the entries afterwards
        have ep : (if p = p then some { pe with children := pe.children ++ [off] } else if p = off then some { parent := some p, tag := tag, body := some b } else t.entries p : Option (Entry α))
            = some { pe with children := pe.children ++ [off] } := if_pos rfl
        have hnp : off ∉ pe.children := fun hm => by
          obtain ⟨e, he, _⟩ := (h.down p pe hpe).2 off hm
          rw [hoff] at he; cases he
        -- an entry there was is still there, with the same parent and at least the same children
        have keep : ∀ y e, t.entries y = some e → ∃ e', (if y = p then some { pe with children := pe.children ++ [off] } else if y = off then some { parent := some p, tag := tag, body := some b } else t.entries y : Option (Entry α)) = some e' ∧
            e'.parent = e.parent ∧ ∀ z ∈ e.children, z ∈ e'.children := by
          intro y e he
          by_cases h1 : y = p
          · subst h1
            rw [hpe] at he; cases he
            exact ⟨_, if_pos rfl, rfl, fun z hz => List.mem_append_left _ hz⟩
          · rw [if_neg h1]
            by_cases h2 : y = off
            · subst h2; rw [hoff] at he; cases he
            · rw [if_neg h2]
              exact ⟨e, he, rfl, fun _ hz => hz⟩
        refine ⟨?_, ?_, ?_, ?_⟩
        · intro x
          simp only [List.mem_append, List.mem_singleton]
          by_cases h1 : x = p
          · simp [h1, hpd]
          · rw [if_neg h1]
            by_cases h2 : x = off
            · simp [h2]
            · rw [if_neg h2, h.dom x]
              simp [h2]
        · intro e he
          by_cases h1 : 0 = p
          · rw [← h1] at hpe
            simp only [if_pos h1] at he
            cases he
            exact h.root pe hpe
          · have h2 : 0 ≠ off := fun h2 => hxo (h2 ▸ h0)
            simp only [if_neg h1, if_neg h2] at he
            exact h.root e he
        · intro x e he hx0
          by_cases h2 : x = off
          · subst h2
            simp only [if_neg (Ne.symm hpo), if_true] at he
            cases he
            refine ⟨p, _, rfl, ep, by simp, ?_⟩
            obtain ⟨a, c, rfl⟩ := List.append_of_mem hpd
            exact ⟨a, c, [], by simp⟩
          · -- it was there before
            obtain ⟨e0, he0, hpar⟩ : ∃ e0, t.entries x = some e0 ∧ e.parent = e0.parent := by
              by_cases h1 : x = p
              · subst h1
                simp only [if_true] at he
                cases he
                exact ⟨pe, hpe, rfl⟩
              · simp only [if_neg h1, if_neg h2] at he
                exact ⟨e, he, rfl⟩
            obtain ⟨q, qe, u1, u2, u3, u4⟩ := h.up x e0 he0 hx0
            obtain ⟨qe', k1, k2, k3⟩ := keep q qe u2
            exact ⟨q, qe', by rw [hpar, u1], k1, k3 x u3, before_app off u4⟩
        · intro q qe hq
          by_cases h1 : q = p
          · subst h1
            simp only [if_true] at hq
            cases hq
            obtain ⟨d1, d2⟩ := h.down q pe hpe
            refine ⟨?_, ?_⟩
            · rw [List.nodup_append]
              exact ⟨d1, by simp, fun a ha b hb' => by simp at hb'; subst hb'; rintro rfl; exact hnp ha⟩
            · intro x hx'
              rcases List.mem_append.mp hx' with hx' | hx'
              · obtain ⟨e, he, hpar⟩ := d2 x hx'
                obtain ⟨e', k1, k2, _⟩ := keep x e he
                exact ⟨e', k1, by rw [k2, hpar]⟩
              · simp at hx'
                subst hx'
                exact ⟨{ parent := some q, tag := tag, body := some b }, by simp only [if_neg (Ne.symm hpo), if_true], rfl⟩
          · simp only [if_neg h1] at hq
            by_cases h2 : q = off
            · subst h2
              simp only [if_true] at hq
              cases hq
              exact ⟨List.nodup_nil, by simp⟩
            · simp only [if_neg h2] at hq
              obtain ⟨d1, d2⟩ := h.down q qe hq
              refine ⟨d1, fun x hx' => ?_⟩
              obtain ⟨e, he, hpar⟩ := d2 x hx'
              obtain ⟨e', k1, k2, _⟩ := keep x e he
              exact ⟨e', k1, by rw [k2, hpar]⟩

theorem readAll_linked {α : Type} : ∀ (is : List (Item α)) {t t' : Tree α} {done : List Off}, Inv t → Linked t.entries done → readAll t is = Go.ret t' → 0 ∈ done →
    (done ++ is.filterMap Item.off?).Nodup → Linked t'.entries (done ++ is.filterMap Item.off?)
  | [], t, t', done, _, h, hr, _, _ => by
    cases Go.ret_inj.mp hr
    simpa using h
  | i :: is, t, t', done, hi, h, hr, h0, hnd => by
    obtain ⟨t1, e1, e2⟩ := Go.bind_ret.mp hr
    have hsplit : done ++ (i :: is).filterMap Item.off? = (done ++ i.off?.toList) ++ is.filterMap Item.off? := by
      cases ho : i.off? <;> simp [ho]
    rw [hsplit] at hnd ⊢
    have hx : ∀ x, i.off? = some x → x ∉ done := by
      intro x hxo hm
      rw [hxo] at hnd
      rw [List.nodup_append] at hnd
      have := (List.nodup_append.mp hnd.1).2.2 x hm x (by simp)
      exact this rfl
    have h1 := readItem_linked hi h e1 h0 hx
    rcases readItem_inv hi i with ⟨_, hf⟩ | ⟨_, t2, e3, hi2⟩
    · rw [e1] at hf; exact absurd hf Go.fail_ne.symm
    · rw [e1] at e3
      cases Go.ret_inj.mp e3
      exact readAll_linked is hi2 h1 e2 (by simp [h0]) hnd

/-- C65: whatever the stream is, if its entries are at different offsets then what is read is a tree
with the entry at 0 on top: each entry of the stream is in it, it has one parent, which came before
it, and it is among the children of that entry, once, and of no other. -/
theorem C65_links {α : Type} (items : List (Item α)) (E : Off → Option (Entry α)) (hdist : (0 :: items.filterMap Item.off?).Nodup) (h : newData items = Go.ret E) :
    (∀ x, (E x).isSome ↔ x = 0 ∨ x ∈ items.filterMap Item.off?) ∧
    (∀ x e, E x = some e → (x = 0 ∧ e.parent = none) ∨ ∃ p, e.parent = some p ∧ ∃ a b c, 0 :: items.filterMap Item.off? = a ++ p :: b ++ x :: c) ∧
    (∀ x p, (∃ e, E x = some e ∧ e.parent = some p) ↔ ∃ pe, E p = some pe ∧ x ∈ pe.children) ∧
    (∀ p pe, E p = some pe → pe.children.Nodup) := by
  obtain ⟨t, e1, e2⟩ := Go.bind_ret.mp h
  cases Go.ret_inj.mp e2
  have hl : Linked t.entries ([0] ++ items.filterMap Item.off?) := by
    refine readAll_linked items (Inv.init α) ⟨?_, ?_, ?_, ?_⟩ e1 (by simp) hdist
    · intro x
      by_cases hx : x = 0 <;> simp [Tree.init, hx]
    · intro e he
      simp [Tree.init] at he
      subst he; rfl
    · intro x e he hx
      simp [Tree.init, hx] at he
    · intro p pe hp
      by_cases hx : p = 0
      · simp [Tree.init, hx] at hp
        subst hp
        simp
      · simp [Tree.init, hx] at hp
  refine ⟨fun x => by rw [hl.dom x]; simp, ?_, ?_, fun p pe hp => (hl.down p pe hp).1⟩
  · intro x e he
    by_cases hx : x = 0
    · subst hx; exact .inl ⟨rfl, hl.root e he⟩
    · obtain ⟨p, _, u1, _, _, u4⟩ := hl.up x e he hx
      exact .inr ⟨p, u1, u4⟩
  · intro x p
    constructor
    · rintro ⟨e, he, hp⟩
      by_cases hx : x = 0
      · subst hx; rw [hl.root e he] at hp; cases hp
      · obtain ⟨p', pe, u1, u2, u3, _⟩ := hl.up x e he hx
        rw [hp] at u1; cases u1
        exact ⟨pe, u2, u3⟩
    · rintro ⟨pe, hp, hm⟩
      exact (hl.down p pe hp).2 x hm

/-! ### A case -/

/-- Two units: a structure with two members and a function below the first, with siblings given;
padding before the second. -/
def case65 : List (Nat × Die Nat) :=
  [(0, .node 11 (go! "CompileUnit") 1 true none
      [.node 20 (go! "StructType") 2 true (some 40) [.node 25 (go! "Member") 3 false none [], .node 32 (go! "Member") 4 false none []],
       .node 40 (go! "Subprogram") 5 true none []]),
   (2, .node 70 (go! "PartialUnit") 6 true (some 99) [.node 80 (go! "BaseType") 7 false none []])]

example : (∀ u ∈ case65, u.2.Sound) ∧ (0 :: Die.offsAll (case65.map Prod.snd)).Nodup := by
  constructor
  · simp [case65, Die.Sound, Die.SoundAll, Die.offsAll, Die.offs, Die.tag]
  · decide +kernel

example : (storedUnits case65).length = 13 ∧ Die.Below 0 (case65.map Prod.snd) 20 (.node 32 (go! "Member") 4 false none []) :=
  ⟨by decide +kernel, .there (List.mem_cons_self ..) (.there (List.mem_cons_self ..) (.here (by simp [Die.kids])))⟩

/-- A stream that is not a forest: no end of children, a sibling that is an entry below. -/
example : let items : List (Item Nat) := [.null, .entry ⟨5, go! "Variable", true, some 9, some 1⟩, .entry ⟨9, go! "Member", true, none, some 2⟩, .entry ⟨12, go! "Member", true, none, some 3⟩]
    (0 :: items.filterMap Item.off?).Nodup ∧ (∀ i ∈ items, ¬ Item.Bad i) := by
  constructor
  · decide
  · simp [Item.Bad]

end Verif.GoDwarf
