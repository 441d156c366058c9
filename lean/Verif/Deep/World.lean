import Verif.Deep.Lemmas
import Verif.Entry.Acyclic
import Verif.ValueString.Props
/-
Concrete type descriptions and memories for examples: nothing here is part of a statement about
all values.
-/
namespace Verif.Deep.World
open Verif Verif.Entry Verif.Entry.Spec Verif.Value Verif.Value.Spec Verif.Handlers Verif.ValueString Verif.ValueString.Spec Verif.Deep Verif.Deep.Spec

/-- A list of descriptions, followed by those of new arrays. -/
def world (es : List Entry) : Db := fun r =>
  match es[r]? with
  | some e => e
  | none => { info := .array (if (r - es.length) / 3 = 0 then none else some ((r - es.length) / 3 - 1)) (((r - es.length) % 3 : Nat) - 1) }

def dyn (es : List Entry) (e : Entry) : Ref :=
  match e.info with
  | .array t c => es.length + (3 * (match t with | none => 0 | some r => r + 1) + (c + 1).toNat)
  | _ => 0

/-- C's `==` for two numbers in the format of IEEE 754 double precision: NaNs are not equal to
anything, the zeros are equal. -/
def ieee (a b : Nat) : Bool :=
  let nan (a : Nat) : Bool := decide (a / 2 ^ 52 % 2048 = 2047 ∧ a % 2 ^ 52 ≠ 0)
  !nan a && !nan b && (decide (a = b) || decide (a % 2 ^ 63 = 0 ∧ b % 2 ^ 63 = 0))

def cfg : Plat := { exCfg false with feq := fun t a b => if t = .double then ieee a b else a == b }

/-- No tags; entry 0 is to be `unsigned char`. -/
def env (es : List Entry) : Env where
  vaList := fun _ => false
  params := fun _ => []
  cfg := cfg
  pr := fun c => decide (32 ≤ c ∧ c < 127)
  flt := fun _ _ => [46]
  ptr := fun _ => [48, 120, 49]
  tags := none
  dyn := dyn es
  uchar := 0

theorem world_interned (es : List Entry) : Interned (env es).vs (world es) := by
  intro t c hc
  have e : ∀ k j : Nat, j < 3 → (3 * k + j) / 3 = k ∧ (3 * k + j) % 3 = j := by omega
  have h : (c + 1).toNat < 3 := by omega
  have go : ∀ k : Nat, world es (es.length + (3 * k + (c + 1).toNat)) = { info := .array (if k = 0 then none else some (k - 1)) c } := by
    intro k
    unfold world
    rw [List.getElem?_eq_none (by omega)]
    simp only [Nat.add_sub_cancel_left]
    rw [(e k _ h).1, (e k _ h).2, show (((c + 1).toNat : Nat) : Int) - 1 = c by omega]
  cases t with
  | none => exact go 0
  | some r => exact (go (r + 1)).trans (by simp)

theorem world_honest (es : List Entry) : Honest (env es).vs (world es) := by
  intro v outer w h
  cases h with
  | reply h => cases h

/-- Sizes are at most the listed ones. -/
def entryOk (es : List Entry) (szs : List Nat) (r : Ref) (e : Entry) : Bool :=
  let sz (t : Ref) : Nat := szs[t]?.getD 0
  decide (sz r ≤ 2 ^ 32) &&
  match e.info with
  | .typedef (some t) | .qual _ (some t) | .var (some t) | .param _ (some t) => decide (t < r) && decide (sz t ≤ sz r)
  | .member mi => match mi.type with | none => true | some t => decide (t < r) && decide (sz t ≤ sz r)
  | .base n _ => e.name.isSome && decide (n.toNat ≤ sz r)
  | .pointer _ => decide (8 ≤ sz r)
  | .reference _ n _ => decide (n.toNat ≤ sz r)
  | .enumeration n _ _ => decide (n.toNat ≤ sz r)
  | .array none c => decide (-2 ^ 31 ≤ c) && decide (c < 2 ^ 30)
  | .array (some t) c => decide (-2 ^ 31 ≤ c) && decide (c < 2 ^ 30) && decide (t < r) && decide (c.toNat * sz t ≤ sz r)
  | .struct _ n ms => decide (n.toNat ≤ sz r) && ms.all fun x => match es[x]? with | some y => (match y.info with | .member _ => true | _ => false) | none => false
  | _ => true

def worldOk (es : List Entry) (szs : List Nat) : Bool :=
  decide (szs.length = es.length) && (List.range es.length).all fun r => match es[r]? with | some e => entryOk es szs r e | none => false

section
variable {es : List Entry} {szs : List Nat} (h : worldOk es szs = true)
include h

theorem world_old {r : Nat} (hr : r < es.length) : entryOk es szs r (world es r) = true := by
  simp only [worldOk, Bool.and_eq_true, List.all_eq_true, List.mem_range] at h
  have := h.2 r hr
  simp only [world]
  rw [List.getElem?_eq_getElem hr] at this ⊢
  exact this

omit h in
theorem world_new {r : Nat} (hr : es.length ≤ r) :
    ∃ t c, world es r = { info := .array t c } ∧ (∀ x : Nat, t = some x → x < r) ∧ -1 ≤ c ∧ c ≤ 1 := by
  unfold world
  rw [List.getElem?_eq_none hr]
  refine ⟨_, _, rfl, ?_, by omega, by omega⟩
  intro x hx
  split at hx
  · cases hx
  · next hne =>
    have he := Option.some.inj hx
    have hne' : ¬ @Eq Nat ((r - es.length) / 3) 0 := hne
    subst he
    show @LT.lt Nat _ ((r - es.length) / 3 - 1) r
    omega

theorem world_down : ∀ r t : Nat, nextOf (world es r).info = some t → t < r := by
  intro r t ht
  by_cases hr : r < es.length
  · have := world_old h hr
    revert this ht
    generalize world es r = e
    obtain ⟨i, n, d⟩ := e
    intro ht
    cases i <;> simp only [nextOf, reduceCtorEq] at ht
    case member mi =>
      simp only [entryOk, ht, Bool.and_eq_true, decide_eq_true_eq]
      exact fun a => a.2.1
    all_goals
      subst ht
      simp only [entryOk, Bool.and_eq_true, decide_eq_true_eq]
    case array c => exact fun a => a.2.1.2
    all_goals exact fun a => a.2.1
  · obtain ⟨t', c, h1, h2, _⟩ := world_new (es := es) (r := r) (Nat.le_of_not_lt hr)
    rw [h1] at ht
    exact h2 _ ht

theorem world_size {r : Nat} {n : Nat} (hs : Size (world es) r n) : n ≤ 2 ^ 32 ∧ (r < es.length → n ≤ szs[r]?.getD 0) := by
  have small : ∀ {r : Nat}, r < es.length → szs[r]?.getD 0 ≤ 2 ^ 32 := by
    intro r hr
    have := world_old h hr
    simp only [entryOk, Bool.and_eq_true, decide_eq_true_eq] at this
    exact this.1
  have lt : ∀ {r t : Nat}, Entry.Spec.Next (world es) t r → t < r := fun hn => world_down h _ _ (next_nextOf hn)
  suffices hsuf : (r < es.length → n ≤ szs[r]?.getD 0) ∧ (es.length ≤ r → n ≤ 2 ^ 32) by
    by_cases hr : r < es.length
    · exact ⟨Nat.le_trans (hsuf.1 hr) (small hr), hsuf.1⟩
    · exact ⟨hsuf.2 (Nat.le_of_not_lt hr), hsuf.1⟩
  induction hs with
  | @stored r n hst =>
    constructor
    · intro hr
      have := world_old h hr
      simp only [entryOk, Bool.and_eq_true, decide_eq_true_eq] at this
      cases hst with
      | base he => rw [he] at this; simp only [Bool.and_eq_true, decide_eq_true_eq] at this; exact this.2.2
      | enumeration he => rw [he] at this; simp only [Bool.and_eq_true, decide_eq_true_eq] at this; exact this.2
      | pointer he => rw [he] at this; simp only [Bool.and_eq_true, decide_eq_true_eq] at this; exact this.2
      | struct he => rw [he] at this; simp only [Bool.and_eq_true, decide_eq_true_eq] at this; exact this.2.1
      | reference he => rw [he] at this; simp only [Bool.and_eq_true, decide_eq_true_eq] at this; exact this.2
    · intro hr
      obtain ⟨t, c, h1, _⟩ := world_new hr
      cases hst with
      | base he => rw [h1] at he; cases he
      | enumeration he => rw [h1] at he; cases he
      | pointer he => rw [h1] at he; cases he
      | struct he => rw [h1] at he; cases he
      | reference he => rw [h1] at he; cases he
  | @through r t n ha _ ih =>
    have hlt : (t : Nat) < (r : Nat) := lt (.alias ha)
    constructor
    · intro hr
      have := world_old h hr
      have hle : szs[t]?.getD 0 ≤ szs[r]?.getD 0 := by
        simp only [entryOk, Bool.and_eq_true, decide_eq_true_eq] at this
        generalize hx : some t = t' at ha
        cases ha with
        | typedef he => rw [he, ← hx] at this; simp only [Bool.and_eq_true, decide_eq_true_eq] at this; exact this.2.2
        | var he => rw [he, ← hx] at this; simp only [Bool.and_eq_true, decide_eq_true_eq] at this; exact this.2.2
        | param he => rw [he, ← hx] at this; simp only [Bool.and_eq_true, decide_eq_true_eq] at this; exact this.2.2
        | member he => rw [he] at this; simp only [← hx, Bool.and_eq_true, decide_eq_true_eq] at this; exact this.2.2
        | qual he => rw [he, ← hx] at this; simp only [Bool.and_eq_true, decide_eq_true_eq] at this; exact this.2.2
      exact Nat.le_trans (ih.1 (Nat.lt_trans hlt hr)) hle
    · intro hr
      by_cases ht : t < es.length
      · exact Nat.le_trans (ih.1 ht) (small ht)
      · exact ih.2 (Nat.le_of_not_lt ht)
  | @dots r t n ha _ ih =>
    have hlt : (t : Nat) < (r : Nat) := lt (.dots ha)
    constructor
    · intro hr
      have := world_old h hr
      simp only [entryOk, Bool.and_eq_true, decide_eq_true_eq] at this
      rw [ha] at this
      simp only [Bool.and_eq_true, decide_eq_true_eq] at this
      exact Nat.le_trans (ih.1 (Nat.lt_trans hlt hr)) this.2.2
    · intro hr
      by_cases ht : t < es.length
      · exact Nat.le_trans (ih.1 ht) (small ht)
      · exact ih.2 (Nat.le_of_not_lt ht)
  | @array r t n count ha hc _ ih =>
    have hlt : (t : Nat) < (r : Nat) := lt (.array ha)
    constructor
    · intro hr
      have := world_old h hr
      simp only [entryOk, Bool.and_eq_true, decide_eq_true_eq] at this
      rw [ha] at this
      simp only [Bool.and_eq_true, decide_eq_true_eq, Int.toNat_natCast] at this
      exact Nat.le_trans (Nat.mul_le_mul_left _ (ih.1 (Nat.lt_trans hlt hr))) this.2.2
    · intro hr
      obtain ⟨t', c, h1, _, _, h2⟩ := world_new hr
      rw [h1] at ha
      simp only [Info.array.injEq] at ha
      have : count = 1 := by omega
      subst this
      rw [Nat.one_mul]
      by_cases ht : t < es.length
      · exact Nat.le_trans (ih.1 ht) (small ht)
      · exact ih.2 (Nat.le_of_not_lt ht)

theorem world_counts {r : Ref} {t : Option Ref} {c : Int} (hi : (world es r).info = .array t c) : -2 ^ 31 ≤ c ∧ c < 2 ^ 30 := by
  by_cases hr : r < es.length
  · have := world_old h hr
    simp only [entryOk, Bool.and_eq_true, decide_eq_true_eq] at this
    rw [hi] at this
    cases t with
    | none => simp only [Bool.and_eq_true, decide_eq_true_eq] at this; exact ⟨this.2.1, this.2.2⟩
    | some t => simp only [Bool.and_eq_true, decide_eq_true_eq] at this; exact ⟨this.2.1.1.1, this.2.1.1.2⟩
  · obtain ⟨t', c', h1, _, h2, h3⟩ := world_new (es := es) (r := r) (Nat.le_of_not_lt hr)
    rw [h1] at hi
    cases hi
    omega

theorem world_sane : Sane (world es) where
  acyclic := acyclic_of_down (world_down h)
  named := by
    intro r bs be hi hn
    by_cases hr : r < es.length
    · have := world_old h hr
      simp only [entryOk, Bool.and_eq_true, decide_eq_true_eq] at this
      rw [hi] at this
      simp only [hn, Bool.and_eq_true] at this
      simp at this
    · obtain ⟨t, c, h1, _⟩ := world_new (es := es) (r := r) (Nat.le_of_not_lt hr)
      rw [h1] at hi
      cases hi
  members := by
    intro r k size ms hi x hx
    by_cases hr : r < es.length
    · have := world_old h hr
      simp only [entryOk, Bool.and_eq_true, decide_eq_true_eq] at this
      rw [hi] at this
      simp only [Bool.and_eq_true, List.all_eq_true] at this
      have := this.2.2 x hx
      simp only [world]
      split at this
      · next y hy =>
        split at this
        · next m hm => exact ⟨m, hm⟩
        · cases this
      · cases this
    · obtain ⟨t, c, h1, _⟩ := world_new (es := es) (r := r) (Nat.le_of_not_lt hr)
      rw [h1] at hi
      cases hi
  counts := fun r t c hi => world_counts h hi
  sizes := by
    intro r t c n hi hn
    have h1 := (world_size h hn).1
    have h2 := (world_counts h hi).2
    have h3 : c * (n : Int) ≤ 2 ^ 30 * (n : Int) := Int.mul_le_mul_of_nonneg_right (by omega) (by omega)
    omega
end

/-! ### Making trees -/

/-- Following aliases. -/
def fin (db : Db) : Nat → Ref → Option Ref
  | 0, _ => none
  | f + 1, r =>
    match (db r).info with
    | .typedef (some t) | .qual _ (some t) | .var (some t) | .param false (some t) => fin db f t
    | .member mi => match mi.type with | none => none | some t => fin db f t
    | .typedef none | .qual _ none | .var none | .param false none => none
    | _ => some r

theorem fin_sound {db : Db} : ∀ {f r x}, fin db f r = some x → ∃ qs, Final db r (some x) qs
  | 0, _, _, h => by cases h
  | f + 1, r, x, h => by
    unfold fin at h
    split at h
    · next t hi => obtain ⟨qs, hf⟩ := fin_sound h; exact ⟨_, .step (.typedef hi) hf⟩
    · next q t hi => obtain ⟨qs, hf⟩ := fin_sound h; exact ⟨_, .step (.qual hi) hf⟩
    · next t hi => obtain ⟨qs, hf⟩ := fin_sound h; exact ⟨_, .step (.var hi) hf⟩
    · next t hi => obtain ⟨qs, hf⟩ := fin_sound h; exact ⟨_, .step (.param hi) hf⟩
    · next mi hi =>
      cases ht : mi.type with
      | none => rw [ht] at h; cases h
      | some t =>
        rw [ht] at h
        obtain ⟨qs, hf⟩ := fin_sound h
        exact ⟨_, .step (ht ▸ .member hi) hf⟩
    · cases h
    · cases h
    · cases h
    · cases h
    · next h1 h2 h3 h4 h5 h6 h7 h8 h9 =>
      cases h
      refine ⟨[], .here ?_⟩
      intro t ht
      cases ht with
      | typedef hi => cases t; exact h6 hi; exact h1 _ hi
      | qual hi => cases t; exact h7 _ hi; exact h2 _ _ hi
      | var hi => cases t; exact h8 hi; exact h3 _ hi
      | param hi => cases t; exact h9 hi; exact h4 _ hi
      | member hi => exact h5 _ hi

/-- Sizes. -/
def sz (db : Db) : Nat → Ref → Option Nat
  | 0, _ => none
  | f + 1, r =>
    match (db r).info with
    | .typedef (some t) | .qual _ (some t) | .var (some t) | .param false (some t) => sz db f t
    | .member mi => match mi.type with | none => none | some t => sz db f t
    | .base n _ | .enumeration n _ _ | .struct _ n _ => some n.toNat
    | .pointer _ => some 8
    | .array (some t) c => if 0 < c then (sz db f t).map (c.toNat * ·) else none
    | _ => none

theorem sz_sound {db : Db} : ∀ {f r n}, sz db f r = some n → Size db r n
  | 0, _, _, h => by cases h
  | f + 1, r, n, h => by
    unfold sz at h
    split at h
    · next t hi => exact .through (.typedef hi) (sz_sound h)
    · next q t hi => exact .through (.qual hi) (sz_sound h)
    · next t hi => exact .through (.var hi) (sz_sound h)
    · next t hi => exact .through (.param hi) (sz_sound h)
    · next mi hi =>
      cases ht : mi.type with
      | none => rw [ht] at h; cases h
      | some t => rw [ht] at h; exact .through (ht ▸ .member hi) (sz_sound h)
    · next hi => cases h; exact .stored (.base hi)
    · next hi => cases h; exact .stored (.enumeration hi)
    · next hi => cases h; exact .stored (.struct hi)
    · next hi => cases h; exact .stored (.pointer hi)
    · next t c hi =>
      split at h
      · next hc =>
        cases hs : sz db f t with
        | none => rw [hs] at h; cases h
        | some k =>
          rw [hs] at h
          cases h
          refine .array ?_ (by omega) (sz_sound hs)
          rw [show ((c.toNat : Nat) : Int) = c by omega]
          exact hi
      · cases h
    · cases h

/-- The level of the nearest value around that is a pointer to `a`, or 0. -/
def level (db : Db) (m : Mem) (a : Nat) : List Value → Nat → Option Nat
  | [], _ => some 0
  | w :: ws, i =>
    match fin db 100 w.entry with
    | none => none
    | some x =>
      match (db x).info with
      | .pointer _ =>
        if w.addr = 0 then level db m a ws (i + 1)
        else match m.loadN w.addr 8 with
          | .ok b => if b = a then some (i + 1) else level db m a ws (i + 1)
          | _ => none
      | _ => level db m a ws (i + 1)

theorem level_sound {db : Db} {m : Mem} {a : Nat} : ∀ {ws : List Value} {i l : Nat}, level db m a ws i = some l →
    (l = 0 ∧ Fresh db m ws a) ∨ ∃ j w, l = i + j + 1 ∧ ws[j]? = some w ∧ Pointer db m w a ∧ Fresh db m (ws.take j) a
  | [], i, l, h => by cases h; exact .inl ⟨rfl, fun w hw => by cases hw⟩
  | w :: ws, i, l, h => by
    unfold level at h
    split at h
    · cases h
    · next x hx =>
      obtain ⟨qs, hf⟩ := fin_sound hx
      have cons : (∀ y qs' t, Final db w.entry (some y) qs' → (db y).info = .pointer t → w.addr ≠ 0 → ∃ b, Holds m w.addr 8 b ∧ b ≠ a) →
          level db m a ws (i + 1) = some l →
          (l = 0 ∧ Fresh db m (w :: ws) a) ∨ ∃ j w', l = i + j + 1 ∧ (w :: ws)[j]? = some w' ∧ Pointer db m w' a ∧ Fresh db m ((w :: ws).take j) a := by
        intro hw h
        rcases level_sound h with ⟨h1, h2⟩ | ⟨j, w', h1, h2, h3, h4⟩
        · refine .inl ⟨h1, fun u hu => ?_⟩
          rcases List.mem_cons.mp hu with rfl | hu
          · exact hw
          · exact h2 u hu
        · refine .inr ⟨j + 1, w', by omega, by simpa using h2, h3, fun u hu => ?_⟩
          rw [List.take_succ_cons] at hu
          rcases List.mem_cons.mp hu with rfl | hu
          · exact hw
          · exact h4 u hu
      split at h
      · next t ht =>
        split at h
        · next h0 => exact cons (fun y qs' t' _ _ hne => absurd h0 hne) h
        · next h0 =>
          split at h
          · next b hb =>
            split at h
            · next hba =>
              cases h
              subst hba
              exact .inr ⟨0, w, rfl, rfl, ⟨h0, ⟨x, qs, t, hf, ht⟩, holds_loadN.mpr hb⟩, fun u hu => by simp at hu⟩
            · next hba => exact cons (fun y qs' t' _ _ _ => ⟨b, holds_loadN.mpr hb, hba⟩) h
          · cases h
      · next hn =>
        refine cons (fun y qs' t' hf' ht' _ => ?_) h
        have := final_unique hf hf'
        cases this
        exact absurd ht' (hn _)

def each (f : α → Option β) : List α → Option (List β)
  | [] => some []
  | a :: l => match f a, each f l with | some b, some bs => some (b :: bs) | _, _ => none

theorem each_sound {f : α → Option β} : ∀ {l bs}, each f l = some bs → bs.length = l.length ∧ ∀ (i : Nat) (b : β), bs[i]? = some b → ∃ a, l[i]? = some a ∧ f a = some b
  | [], bs, h => by cases h; simp
  | a :: l, bs, h => by
    unfold each at h
    split at h
    · next b bs' h1 h2 =>
      cases h
      obtain ⟨h3, h4⟩ := each_sound h2
      refine ⟨by simp [h3], fun i c hc => ?_⟩
      cases i with
      | zero => simp at hc; subst hc; exact ⟨a, rfl, h1⟩
      | succ i => simpa using h4 i c (by simpa using hc)
    · cases h

def memberAt (db : Db) (a : Nat) (r : Ref) : Option Value :=
  match (db r).info with
  | .member mi => some ⟨r, a + mi.byteOffset.toNat⟩
  | _ => none

def parts (v : Value) (n : Nat) (ks : List Node) : Option Node :=
  if ks.all (fun k => decide (v.addr ≤ k.val.addr)) then some (.mk 0 v (extent v.addr n ks) 0 false ks) else none

/-- The tree of a value, as far as the fuel goes. -/
def build (es : List Entry) (mode : Mode) (m : Mem) : Nat → List Value → Value → Option Node
  | 0, _, _ => none
  | f + 1, outer, v =>
    if v.addr = 0 then none else
    match (world es v.entry).info with
    | .param .. => none
    | _ =>
      match fin (world es) 100 v.entry with
      | none => none
      | some x =>
        match (world es x).info with
        | .base .. => (sz (world es) 100 v.entry).map fun n => .mk 0 v n 0 false []
        | .enumeration .. => (sz (world es) 100 v.entry).map fun n => .mk 0 v n 0 false []
        | .struct .struct _ ms =>
          match sz (world es) 100 v.entry, each (memberAt (world es) v.addr) ms with
          | some n, some vs => match each (build es mode m f (v :: outer)) vs with
            | some ks => parts v n ks
            | none => none
          | _, _ => none
        | .struct .union _ _ => if mode.union = .fail then none else (sz (world es) 100 v.entry).bind fun n => parts v n []
        | .array (some e) c =>
          if c = -1 then (if mode.flexFail then none else parts v 0 [])
          else if c ≤ 0 then parts v 0 []
          else match sz (world es) 100 v.entry, sz (world es) 100 e with
          | some n, some k => match each (build es mode m f (v :: outer)) ((List.range c.toNat).map fun i => ⟨e, v.addr + i * k⟩) with
            | some ks => parts v n ks
            | none => none
          | _, _ => none
        | .pointer ty =>
          match sz (world es) 100 v.entry, m.loadN v.addr 8 with
          | some n, .ok a =>
            if a = 0 then some (.mk 0 v n 0 false [])
            else match level (world es) m a outer 0 with
              | none => none
              | some (l + 1) => some (.mk 0 v n (l + 1) false [])
              | some 0 =>
                match ty with
                | some e =>
                  if (world es e).declaration then none
                  else (build es mode m f (v :: outer) ⟨dyn es { info := .array (some e) 1 }, a⟩).map fun k => .mk 0 v n 0 true [k]
                | none =>
                  match mode.uptr with
                  | .fail => none
                  | .ignore | .asValues => some (.mk 0 v n 0 false [])
                  | .oneByte => (build es mode m f (v :: outer) ⟨dyn es { info := .array (some 0) 1 }, a⟩).map fun k => .mk 0 v n 0 true [k]
          | _, _ => none
        | _ => none

theorem parts_sound {es : List Entry} {mode : Mode} {m : Mem} {outer : List Value} {v : Value} {n : Nat} {vs : List Value} {ks : List Node} {k : Node}
    (hc : Consists (env es) mode (world es) m outer v (.parts vs n)) (hv : ks.map Node.val = vs) (ht : ∀ k ∈ ks, Tree (env es) mode (world es) m (v :: outer) k)
    (h : parts v n ks = some k) : Tree (env es) mode (world es) m outer k ∧ k.val = v := by
  unfold parts at h
  split at h
  · next ha =>
    cases h
    simp only [List.all_eq_true, decide_eq_true_eq] at ha
    exact ⟨.parts hc hv ha ht, rfl⟩
  · cases h

theorem build_sound {es : List Entry} {mode : Mode} {m : Mem} : ∀ {f : Nat} {outer : List Value} {v : Value} {k : Node}, build es mode m f outer v = some k →
    Tree (env es) mode (world es) m outer k ∧ k.val = v
  | 0, _, _, _, h => by cases h
  | f + 1, outer, v, k, h => by
    have ih : ∀ {outer v k}, build es mode m f outer v = some k → Tree (env es) mode (world es) m outer k ∧ k.val = v := build_sound
    have all : ∀ {vs ks}, each (build es mode m f (v :: outer)) vs = some ks → ks.map Node.val = vs ∧ ∀ k ∈ ks, Tree (env es) mode (world es) m (v :: outer) k := by
      intro vs ks h
      obtain ⟨h1, h2⟩ := each_sound h
      constructor
      · refine List.ext_getElem? fun i => ?_
        rw [List.getElem?_map]
        cases hk : ks[i]? with
        | none =>
          have := List.getElem?_eq_none_iff.mp hk
          rw [List.getElem?_eq_none (by omega)]
          rfl
        | some k =>
          obtain ⟨w, h3, h4⟩ := h2 i k hk
          rw [h3, ← (ih h4).2]
          rfl
      · intro k hk
        obtain ⟨i, hi⟩ := List.mem_iff_getElem?.mp hk
        obtain ⟨w, h3, h4⟩ := h2 i k hi
        exact (ih h4).1
    have norep : ∀ ev, Reply (env es).vs ev v outer none := fun ev => .noMap rfl
    unfold build at h
    split at h
    · cases h
    · next h0 =>
      split at h
      · cases h
      · next hparam =>
        have hnp : ¬ Packed (env es).vs (world es) v := by
          rintro ⟨u, t, hp, _⟩
          exact hparam _ _ hp
        split at h
        · cases h
        · next x hx =>
          obtain ⟨qs, hf⟩ := fin_sound hx
          have obj : ∀ {i}, (world es x).info = i → Object (env es).vs (world es) v i := fun hi => ⟨hnp, h0, x, qs, hf, hi⟩
          split at h
          · next hi =>
            cases hn : sz (world es) 100 v.entry with
            | none => rw [hn] at h; cases h
            | some n => rw [hn] at h; cases h; exact ⟨.leaf (.base (obj hi) (sz_sound hn)), rfl⟩
          · next hi =>
            cases hn : sz (world es) 100 v.entry with
            | none => rw [hn] at h; cases h
            | some n => rw [hn] at h; cases h; exact ⟨.leaf (.enumeration (obj hi) (sz_sound hn)), rfl⟩
          · next ms hi =>
            split at h
            · next n vs hn hvs =>
              split at h
              · next ks hks =>
                obtain ⟨h1, h2⟩ := all hks
                obtain ⟨h3, h4⟩ := each_sound hvs
                refine parts_sound (.struct (obj hi) (sz_sound hn) h3 ?_) h1 h2 h
                intro i w hw
                obtain ⟨r, h5, h6⟩ := h4 i w hw
                unfold memberAt at h6
                split at h6
                · next mi hmi => cases h6; exact ⟨r, mi, h5, hmi, rfl⟩
                · cases h6
              · cases h
            · cases h
          · next hi =>
            split at h
            · cases h
            · next hu =>
              cases hn : sz (world es) 100 v.entry with
              | none => rw [hn] at h; cases h
              | some n =>
                rw [hn] at h
                exact parts_sound (.union (obj hi) (sz_sound hn) (fun _ => ⟨norep _, hu⟩)) (ks := []) rfl (by simp) h
          · next e c hi =>
            split at h
            · next hc =>
              subst hc
              split at h
              · cases h
              · next hfl =>
                refine parts_sound (.noElements (e' := some e) (c' := 0) (obj hi) (.empty (norep _) (by simpa using hfl) rfl) ⟨h0, _, [], .here ?_, ?_⟩ (by omega)) (ks := []) rfl (by simp) h
                · intro t ht
                  have := world_interned es (some e) 0 (by omega)
                  have hw : (world es ((env es).dyn { info := .array (some e) 0 })).info = .array (some e) 0 := by rw [this]
                  cases ht with
                  | typedef hi => rw [hw] at hi; cases hi
                  | var hi => rw [hw] at hi; cases hi
                  | param hi => rw [hw] at hi; cases hi
                  | member hi => rw [hw] at hi; cases hi
                  | qual hi => rw [hw] at hi; cases hi
                · rw [world_interned es (some e) 0 (by omega)]
            · next hc =>
              split at h
              · next hle => exact parts_sound (.noElements (obj hi) (.known hc) ⟨h0, x, qs, hf, hi⟩ hle) (ks := []) rfl (by simp) h
              · next hle =>
                split at h
                · next n k hn hk =>
                  split at h
                  · next ks hks =>
                    obtain ⟨h1, h2⟩ := all hks
                    refine parts_sound (.array (obj hi) (.known hc) ⟨h0, x, qs, hf, hi⟩ (by simp) ?_ ?_ (sz_sound hn)) h1 h2 h
                    · intro i w hw
                      rw [List.getElem?_map] at hw
                      by_cases hl : i < c.toNat
                      · rw [List.getElem?_range hl] at hw
                        cases hw
                        exact ⟨e, k, rfl, sz_sound hk, rfl⟩
                      · rw [List.getElem?_eq_none (by simpa using hl)] at hw
                        cases hw
                    · intro hn
                      have := congrArg List.length hn
                      simp at this
                      omega
                  · cases h
                · cases h
          · next ty hi =>
            split at h
            · next n a hn ha =>
              have hold := holds_loadN.mpr ha
              split at h
              · next hz => cases h; subst hz; exact ⟨.leaf (.null (obj hi) (sz_sound hn) hold), rfl⟩
              · next hz =>
                split at h
                · cases h
                · next l hl =>
                  cases h
                  rcases level_sound hl with ⟨h1, _⟩ | ⟨j, w, h1, h2, h3, h4⟩
                  · omega
                  · exact ⟨.leaf (.loop (obj hi) (sz_sound hn) hold hz ⟨j, w, by omega, h2, h3, h4⟩), rfl⟩
                · next hl =>
                  have hfr : Fresh (world es) m outer a := by
                    rcases level_sound hl with ⟨_, h2⟩ | ⟨j, w, h1, _⟩
                    · exact h2
                    · omega
                  have tgt : ∀ {arr : Value} {k'}, Spec.Target (env es) mode (world es) v outer ty a arr → build es mode m f (v :: outer) arr = some k' →
                      Tree (env es) mode (world es) m outer (.mk 0 v n 0 true [k']) := by
                    intro arr k' ht hb
                    obtain ⟨h1, h2⟩ := ih hb
                    subst h2
                    exact .target (.target (obj hi) (sz_sound hn) hold hz hfr ht) h1
                  split at h
                  · next e =>
                    split at h
                    · cases h
                    · next hd =>
                      cases hb : build es mode m f (v :: outer) ⟨dyn es { info := .array (some e) 1 }, a⟩ with
                      | none => rw [hb] at h; cases h
                      | some k' =>
                        rw [hb] at h
                        cases h
                        exact ⟨tgt (.one (norep _) ⟨e, rfl, by simpa using hd⟩ rfl) hb, rfl⟩
                  · have hunk : ¬ Known (world es) none := by rintro ⟨e, he, _⟩; cases he
                    split at h
                    · cases h
                    · next hm => cases h; exact ⟨.leaf (.unknown (obj hi) (sz_sound hn) hold hz hfr (norep _) hunk (.inl hm)), rfl⟩
                    · next hm => cases h; exact ⟨.leaf (.unknown (obj hi) (sz_sound hn) hold hz hfr (norep _) hunk (.inr hm)), rfl⟩
                    · next hm =>
                      cases hb : build es mode m f (v :: outer) ⟨dyn es { info := .array (some 0) 1 }, a⟩ with
                      | none => rw [hb] at h; cases h
                      | some k' =>
                        rw [hb] at h
                        cases h
                        exact ⟨tgt (.byte (norep _) hunk hm) hb, rfl⟩
            · cases h
          · cases h

/-! ### Memories -/

/-- Words of 8 bytes, little-endian, at the addresses given. -/
def words : List (Nat × Nat) → Mem
  | [], _ => none
  | (a, w) :: l, b => if a ≤ b ∧ b < a + 8 then some (UInt8.ofNat (w / 256 ^ (b - a))) else words l b

/-- Addresses and sizes of what pointers of the tree point to. -/
def ranges (k : Node) : List (Nat × Nat) := (targets k).map fun t => (t.val.addr, t.size)

theorem range_iff {k : Node} {a n : Nat} : Range k a n ↔ (a, n) ∈ ranges k := by
  simp only [Range, ranges, List.mem_map, Prod.mk.injEq]

/-- The map of a value that has a tree. -/
theorem map_of {es : List Entry} {szs : List Nat} (hw : worldOk es szs = true) {mode : Mode} {m : Mem} {f : Nat} {v : Value} {k : Node}
    (h : build es mode m f [] v = some k) {offs : List (Nat × Nat)}
    (hi : identify id (if mode.dag then (targets (number k 0).1).foldl reg [] else []) = .ok offs) :
    memoryMap (env es) id mode (world es) m (some v) =
      .ok (some ⟨(number k 0).1, if mode.dag then (targets (number k 0).1).foldl reg [] else [], offs⟩) := by
  obtain ⟨ht, rfl⟩ := build_sound h
  obtain ⟨st, h1, _, _⟩ := walk_number (world_sane hw) (world_interned es) (world_honest es) ht ⟨0, [], []⟩ rfl
  obtain ⟨_, _, b3⟩ := walk_sound (world_sane hw) (world_interned es) (world_honest es) h1
  have hm := b3.map
  simp only at hm
  rw [← hm] at hi ⊢
  simp [memoryMap, h1, hi]

/-- What is freed of a value that has a tree. -/
theorem free_of {es : List Entry} {szs : List Nat} (hw : worldOk es szs = true) {mode : Mode} (hd : mode.dag = true) {m : Mem} {f : Nat} {v : Value} {k : Node}
    (h : build es mode m f [] v = some k) {offs : List (Nat × Nat)}
    (hi : identify id ((targets (number k 0).1).foldl reg []) = .ok offs) :
    freeEx (env es) id mode (world es) m (some v) =
      .ok (some (((targets (number k 0).1).foldl reg []).filterMap fun (a, i, _) => if (List.lookup i offs).getD 0 = 0 then some a else none)) := by
  have hm : ({ mode with dag := true } : Mode) = mode := by cases mode; cases hd; rfl
  have := map_of hw h (offs := offs) (by rw [hd]; exact hi)
  simp only [freeEx, hm, this, Outcome.bind_ok, hd, if_true]
  rfl

end Verif.Deep.World
