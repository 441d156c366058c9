import Verif.Deep.Equal
import Verif.Deep.World
/-
Comparison of concrete data, for examples.
-/
namespace Verif.Deep.World
open Verif Verif.Entry Verif.Entry.Spec Verif.Value Verif.Value.Spec Verif.Handlers Verif.ValueString Verif.ValueString.Spec Verif.Deep Verif.Deep.Spec

theorem world_vaLists (es : List Entry) : VaLists (env es) (world es) := fun _ h => by cases h

/-- Some C types. -/
def tyOf (e : Entry) : Option Ty :=
  match e.info with
  | .base s c =>
    if s = 4 ∧ c = 6 ∧ e.name = some (typeName .int) then some .int
    else if s = 4 ∧ c = 8 ∧ e.name = some (typeName .uint) then some .uint
    else if s = 8 ∧ c = 5 ∧ e.name = some (typeName .double) then some .double
    else none
  | _ => none

theorem tyOf_sound {db : Db} {x : Ref} {t : Ty} (h : tyOf (db x) = some t) : Describes db x t ∧ (t = .int ∨ t = .uint ∨ t = .double) := by
  unfold tyOf at h
  split at h
  · next s c hi =>
    split at h
    · next hc => cases h; obtain ⟨rfl, rfl, hn⟩ := hc; exact ⟨⟨_, _, hi, hn, fun _ => rfl, fun _ => rfl⟩, by simp⟩
    split at h
    · next hc => cases h; obtain ⟨rfl, rfl, hn⟩ := hc; exact ⟨⟨_, _, hi, hn, fun _ => rfl, fun _ => rfl⟩, by simp⟩
    split at h
    · next hc => cases h; obtain ⟨rfl, rfl, hn⟩ := hc; exact ⟨⟨_, _, hi, hn, fun _ => rfl, fun _ => rfl⟩, by simp⟩
    cases h
  · cases h

def plainEntry (e : Entry) : Bool :=
  match e.info with
  | .member mi => mi.bitOffset.isNone && mi.bitSize.isNone && mi.dataBitOffset.isNone
  | _ => true

theorem plainEntry_sound {db : Db} {r : Ref} (h : plainEntry (db r) = true) : ¬ IsBitfield db r := by
  rintro ⟨mi, hi, hb⟩
  simp only [plainEntry, hi, Bool.and_eq_true, Option.isNone_iff_eq_none] at h
  obtain ⟨⟨h1, h2⟩, h3⟩ := h
  rcases hb with hb | hb | hb
  · exact hb h1
  · exact hb h2
  · exact hb h3

/-- The content of a value. -/
def leafOf (db : Db) (m : Mem) (v : Value) : Option Leaf :=
  if v.addr = 0 then none else
  match fin db 100 v.entry with
  | none => none
  | some x =>
    match (db x).info with
    | .enumeration s _ _ =>
      if s = 4 then (match m.loadN v.addr 4 with | .ok n => some (.enumeration (twos 4 n)) | _ => none) else none
    | _ =>
      match tyOf (db x) with
      | none => none
      | some t =>
        if plainEntry (db v.entry) then
          match m.loadN v.addr (Value.Spec.sizeOf t) with
          | .ok n => some (if t = .double then .real t n else .num t (intOf t n))
          | _ => none
        else none

theorem leafOf_sound {cfg : Plat} {db : Db} {m : Mem} {v : Value} {c : Leaf} (h : leafOf db m v = some c) : Content cfg db m v c := by
  unfold leafOf at h
  split at h
  · cases h
  next ha =>
  split at h
  · cases h
  next x hx =>
  obtain ⟨qs, hf⟩ := fin_sound hx
  split at h
  · next s e es hi =>
    split at h
    · next h4 =>
      subst h4
      split at h
      · next n hn =>
        cases h
        exact .enumeration hf hi ha (.inr (.inr (.inl rfl))) (holds_loadN.mpr hn)
      · cases h
    · cases h
  · split at h
    · cases h
    next t ht =>
    obtain ⟨hd, htt⟩ := tyOf_sound ht
    split at h
    · next hp =>
      split at h
      · next n hn =>
        have ho : Value.Object db m v t n := ⟨⟨x, qs, hf, hd⟩, plainEntry_sound hp, ha, holds_loadN.mpr hn, by rcases htt with rfl | rfl | rfl <;> simp⟩
        rcases htt with rfl | rfl | rfl
        · simp at h; subst h; exact .integer ho (by simp [Integral])
        · simp at h; subst h; exact .integer ho (by simp [Integral])
        · simp at h; subst h; exact .real ho (by simp [Integral])
      · cases h
    · cases h

def sameLeaf (cfg : Plat) : Leaf → Leaf → Bool
  | .num t i, .num t' i' => decide (t = t') && decide (i = i')
  | .real t a, .real t' b => decide (t = t') && cfg.feq t a b
  | .enumeration i, .enumeration i' => decide (i = i')
  | _, _ => false

theorem sameLeaf_iff {cfg : Plat} {c d : Leaf} : sameLeaf cfg c d = true ↔ SameLeaf cfg c d := by
  cases c <;> cases d <;> simp [sameLeaf, SameLeaf]

def scalar : Info → Bool
  | .base .. | .enumeration .. => true
  | _ => false

def isUnion : Info → Bool
  | .struct .union .. => true
  | _ => false

def loadsSame (m : Mem) (a b : Nat) : Bool :=
  match m.loadN a 8, m.loadN b 8 with
  | .ok x, .ok y => decide (x = y)
  | _, _ => false

/-- Two nodes agree. -/
def agreeB (cfg : Plat) (mode : Mode) (db : Db) (m : Mem) (M₁ M₂ : Map) (x y : Node) : Bool :=
  decide (x.size = y.size) && decide (x.kids.length = y.kids.length) && decide (x.loop = y.loop) && decide (M₁.offset x.id = M₂.offset y.id) &&
  match fin db 100 x.val.entry, fin db 100 y.val.entry with
  | some a, some b =>
    decide (kindOf (db a).info = kindOf (db b).info) &&
    (!scalar (db a).info || match leafOf db m x.val, leafOf db m y.val with | some c, some d => sameLeaf cfg c d | _, _ => false) &&
    (!(decide (mode.uptr = .asValues) && x.kids.isEmpty && isPointer (db a).info) || loadsSame m x.val.addr y.val.addr) &&
    (!(decide (mode.union = .asMem) && x.kids.isEmpty && isUnion (db a).info) || (List.range x.size).all fun i => decide (m (x.val.addr + i) = m (y.val.addr + i)))
  | _, _ => false

theorem scalar_iff {db : Db} {v : Value} {a : Ref} {qs : List Qual} (hf : Final db v.entry (some a) qs) (h : Scalar db v) : scalar (db a).info = true := by
  rcases h with ⟨s, e, h⟩ | ⟨s, e, es, h⟩ <;> rw [typed_unique ⟨a, qs, hf, rfl⟩ h] <;> rfl

theorem agreeB_sound {cfg : Plat} {mode : Mode} {db : Db} {m : Mem} {M₁ M₂ : Map} {x y : Node} (h : agreeB cfg mode db m M₁ M₂ x y = true) :
    AgreeNode cfg mode db m M₁ M₂ x y := by
  simp only [agreeB, Bool.and_eq_true, decide_eq_true_eq] at h
  obtain ⟨⟨⟨⟨h1, h2⟩, h3⟩, h4⟩, h⟩ := h
  split at h
  · next a b ha hb =>
    obtain ⟨qs, hf⟩ := fin_sound ha
    obtain ⟨qs', hf'⟩ := fin_sound hb
    simp only [Bool.and_eq_true, decide_eq_true_eq] at h
    obtain ⟨⟨⟨h5, h6⟩, h7⟩, h8⟩ := h
    refine ⟨h1, h2, h3, h4, .same hf hf' ((kind_iff (final_info hf) (final_info hf')).mp h5), ?_, ?_, ?_⟩
    · intro hs
      rw [scalar_iff hf hs] at h6
      simp only [Bool.not_true, Bool.false_or] at h6
      split at h6
      · next c d hc hd => exact ⟨c, d, leafOf_sound hc, leafOf_sound hd, sameLeaf_iff.mp h6⟩
      · cases h6
    · rintro hm hk ⟨t, ht⟩
      rw [typed_unique ⟨a, qs, hf, rfl⟩ ht, hm, hk] at h7
      simp only [List.isEmpty_nil, decide_true, isPointer, Bool.and_self, Bool.not_true, Bool.false_or, loadsSame] at h7
      split at h7
      · next p q hp hq =>
        have := of_decide_eq_true h7
        subst this
        exact ⟨p, holds_loadN.mpr hp, holds_loadN.mpr hq⟩
      · cases h7
    · rintro hm hk ⟨s, ms, ht⟩ i hi
      rw [typed_unique ⟨a, qs, hf, rfl⟩ ht, hm, hk] at h8
      simp only [List.isEmpty_nil, decide_true, isUnion, Bool.and_self, Bool.not_true, Bool.false_or, List.all_eq_true, List.mem_range, decide_eq_true_eq] at h8
      exact h8 i hi
  · cases h

mutual
def agreeTree (cfg : Plat) (mode : Mode) (db : Db) (m : Mem) (M₁ M₂ : Map) : Node → Node → Bool
  | .mk i v s l d ks, y => agreeB cfg mode db m M₁ M₂ (.mk i v s l d ks) y && agreeTrees cfg mode db m M₁ M₂ ks y.kids
def agreeTrees (cfg : Plat) (mode : Mode) (db : Db) (m : Mem) (M₁ M₂ : Map) : List Node → List Node → Bool
  | k :: ks, k' :: ks' => agreeTree cfg mode db m M₁ M₂ k k' && agreeTrees cfg mode db m M₁ M₂ ks ks'
  | _, _ => true
end

theorem agreeTrees_get {cfg : Plat} {mode : Mode} {db : Db} {m : Mem} {M₁ M₂ : Map} : ∀ {ks ks' : List Node}, agreeTrees cfg mode db m M₁ M₂ ks ks' = true →
    ∀ {i : Nat} {a b : Node}, ks[i]? = some a → ks'[i]? = some b → agreeTree cfg mode db m M₁ M₂ a b = true
  | [], _, _, _, _, _, h, _ => by cases h
  | _ :: _, [], _, _, _, _, _, h => by cases h
  | k :: ks, k' :: ks', h, i, a, b, h1, h2 => by
    simp only [agreeTrees, Bool.and_eq_true] at h
    cases i with
    | zero => cases h1; cases h2; exact h.1
    | succ i => exact agreeTrees_get h.2 (by simpa using h1) (by simpa using h2)

theorem agree_sound {cfg : Plat} {mode : Mode} {db : Db} {m : Mem} {M₁ M₂ : Map} (h : agreeTree cfg mode db m M₁ M₂ M₁.top M₂.top = true) :
    Agree cfg mode db m M₁ M₂ := by
  intro x y hp
  suffices agreeTree cfg mode db m M₁ M₂ x y = true by
    cases x
    simp only [agreeTree, Bool.and_eq_true] at this
    exact agreeB_sound this.1
  induction hp with
  | top => exact h
  | @part x y x' y' i _ h1 h2 ih =>
    cases x
    simp only [agreeTree, Bool.and_eq_true] at ih
    exact agreeTrees_get ih.2 h1 h2

/-- One node can be read. -/
def readB (mode : Mode) (db : Db) (m : Mem) (x : Node) : Bool :=
  decide (x.val.addr ≠ 0) &&
  match fin db 100 x.val.entry with
  | some a =>
    (!scalar (db a).info || (leafOf db m x.val).isSome) &&
    (!(decide (mode.uptr = .asValues) && x.kids.isEmpty && isPointer (db a).info) || loadsSame m x.val.addr x.val.addr) &&
    (!(decide (mode.union = .asMem) && x.kids.isEmpty && isUnion (db a).info) || (List.range x.size).all fun i => (m (x.val.addr + i)).isSome)
  | none => false

mutual
def readTree (mode : Mode) (db : Db) (m : Mem) : Node → Bool
  | .mk i v s l d ks => readB mode db m (.mk i v s l d ks) && readTrees mode db m ks
def readTrees (mode : Mode) (db : Db) (m : Mem) : List Node → Bool
  | [] => true
  | k :: ks => readTree mode db m k && readTrees mode db m ks
end

theorem readTrees_get {mode : Mode} {db : Db} {m : Mem} : ∀ {ks : List Node}, readTrees mode db m ks = true → ∀ {k : Node}, k ∈ ks → readTree mode db m k = true
  | k :: ks, h, _, hk => by
    simp only [readTrees, Bool.and_eq_true] at h
    cases hk with
    | head => exact h.1
    | tail _ hk => exact readTrees_get h.2 hk

theorem read_sound {cfg : Plat} {mode : Mode} {db : Db} {m : Mem} {k : Node} (h : readTree mode db m k = true) : Readable cfg mode db m k := by
  have all : ∀ x, Within k x → readB mode db m x = true := by
    intro x hx
    suffices readTree mode db m x = true by
      cases x
      simp only [readTree, Bool.and_eq_true] at this
      exact this.1
    induction hx with
    | top => exact h
    | @part x y _ hy ih =>
      cases x
      simp only [readTree, Bool.and_eq_true] at ih
      exact readTrees_get ih.2 hy
  have un : ∀ x, Within k x → x.val.addr ≠ 0 ∧ ∃ a qs, Final db x.val.entry (some a) qs ∧ (scalar (db a).info = true → (leafOf db m x.val).isSome) ∧
      (mode.uptr = .asValues → x.kids = [] → isPointer (db a).info = true → loadsSame m x.val.addr x.val.addr = true) ∧
      (mode.union = .asMem → x.kids = [] → isUnion (db a).info = true → ∀ i < x.size, (m (x.val.addr + i)).isSome) := by
    intro x hx
    have := all x hx
    simp only [readB, Bool.and_eq_true, decide_eq_true_eq] at this
    obtain ⟨h0, h⟩ := this
    refine ⟨h0, ?_⟩
    split at h
    · next a ha =>
      obtain ⟨qs, hf⟩ := fin_sound ha
      simp only [Bool.and_eq_true] at h
      obtain ⟨⟨h1, h2⟩, h3⟩ := h
      refine ⟨a, qs, hf, ?_, ?_, ?_⟩
      · intro hs; simpa [hs] using h1
      · intro hm hk hp; simpa [hm, hk, hp] using h2
      · intro hm hk hp i hi
        simp only [hm, hk, hp, List.isEmpty_nil, decide_true, Bool.and_self, Bool.not_true, Bool.false_or, List.all_eq_true, List.mem_range] at h3
        exact h3 i hi
    · cases h
  refine ⟨fun x hx => (un x hx).1, ?_, ?_, ?_⟩
  · intro x hx hs
    obtain ⟨_, a, qs, hf, h1, _⟩ := un x hx
    obtain ⟨c, hc⟩ := Option.isSome_iff_exists.mp (h1 (scalar_iff hf hs))
    exact ⟨c, leafOf_sound hc⟩
  · rintro hm x hx hk ⟨t, ht⟩
    obtain ⟨_, a, qs, hf, _, h1, _⟩ := un x hx
    have := h1 hm hk (by rw [typed_unique ⟨a, qs, hf, rfl⟩ ht]; rfl)
    simp only [loadsSame] at this
    split at this
    · next p q hp _ => exact ⟨p, holds_loadN.mpr hp⟩
    · cases this
  · rintro hm x hx hk ⟨s, ms, ht⟩ i hi hnone
    obtain ⟨_, a, qs, hf, _, _, h1⟩ := un x hx
    have := h1 hm hk (by rw [typed_unique ⟨a, qs, hf, rfl⟩ ht]; rfl) i hi
    rw [hnone] at this
    cases this

mutual
/-- No NaN in the tree. -/
def numTree (cfg : Plat) (db : Db) (m : Mem) : Node → Bool
  | .mk _ v _ _ _ ks => (match leafOf db m v with | some (.real t n) => cfg.feq t n n | _ => true) && numTrees cfg db m ks
def numTrees (cfg : Plat) (db : Db) (m : Mem) : List Node → Bool
  | [] => true
  | k :: ks => numTree cfg db m k && numTrees cfg db m ks
end

theorem numTrees_get {cfg : Plat} {db : Db} {m : Mem} : ∀ {ks : List Node}, numTrees cfg db m ks = true → ∀ {k : Node}, k ∈ ks → numTree cfg db m k = true
  | k :: ks, h, _, hk => by
    simp only [numTrees, Bool.and_eq_true] at h
    cases hk with
    | head => exact h.1
    | tail _ hk => exact numTrees_get h.2 hk

theorem num_sound {cfg : Plat} {db : Db} {m : Mem} {k x : Node} (h : numTree cfg db m k = true) (hx : Within k x) {t : Ty} {n : Nat} (hl : leafOf db m x.val = some (.real t n)) :
    cfg.feq t n n = true := by
  have go : ∀ z, Within k z → numTree cfg db m z = true := by
    intro z hz
    induction hz with
    | top => exact h
    | @part x y _ hy ih =>
      cases x
      simp only [numTree, Bool.and_eq_true] at ih
      exact numTrees_get ih.2 hy
  have := go x hx
  cases x
  simp only [numTree, Bool.and_eq_true] at this
  have := this.1
  simp only [Node.val] at hl
  rw [hl] at this
  exact this

theorem read_leaf {mode : Mode} {db : Db} {m : Mem} {k x : Node} (h : readTree mode db m k = true) (hx : Within k x) (hs : Scalar db x.val) : ∃ c, leafOf db m x.val = some c := by
  have go : ∀ z, Within k z → readTree mode db m z = true := by
    intro z hz
    induction hz with
    | top => exact h
    | @part x y _ hy ih =>
      cases x
      simp only [readTree, Bool.and_eq_true] at ih
      exact readTrees_get ih.2 hy
  have := go x hx
  cases x
  simp only [readTree, Bool.and_eq_true, readB] at this
  have := this.1.2
  split at this
  · next a ha =>
    obtain ⟨qs, hf⟩ := fin_sound ha
    simp only [Bool.and_eq_true] at this
    have := this.1.1
    rw [scalar_iff hf hs] at this
    exact Option.isSome_iff_exists.mp (by simpa using this)
  · cases this

theorem cfg_symm (t : Ty) (a b : Nat) : cfg.feq t a b = cfg.feq t b a := by
  show (if t = .double then ieee a b else a == b) = (if t = .double then ieee b a else b == a)
  split
  · rw [Bool.eq_iff_iff]
    simp only [ieee, Bool.and_eq_true, Bool.or_eq_true, decide_eq_true_eq, Bool.not_eq_true', decide_eq_false_iff_not]
    constructor
    · rintro ⟨⟨h1, h2⟩, h3⟩
      exact ⟨⟨h2, h1⟩, h3.imp Eq.symm fun h => ⟨h.2, h.1⟩⟩
    · rintro ⟨⟨h1, h2⟩, h3⟩
      exact ⟨⟨h2, h1⟩, h3.imp Eq.symm fun h => ⟨h.2, h.1⟩⟩
  · exact Bool.beq_comm

theorem cfg_trans (t : Ty) (a b c : Nat) (h : cfg.feq t a b = true) (h' : cfg.feq t b c = true) : cfg.feq t a c = true := by
  have h : (if t = .double then ieee a b else a == b) = true := h
  have h' : (if t = .double then ieee b c else b == c) = true := h'
  show (if t = .double then ieee a c else a == c) = true
  split
  · next ht =>
    simp only [ht, if_true, ieee, Bool.and_eq_true, Bool.or_eq_true, decide_eq_true_eq, Bool.not_eq_true', decide_eq_false_iff_not] at h h' ⊢
    obtain ⟨⟨h1, h2⟩, h3⟩ := h
    obtain ⟨⟨h4, h5⟩, h6⟩ := h'
    refine ⟨⟨h1, h5⟩, ?_⟩
    rcases h3 with rfl | ⟨h3, _⟩
    · exact h6
    · rcases h6 with rfl | ⟨_, h6⟩
      · exact .inr ⟨h3, by omega⟩
      · exact .inr ⟨h3, h6⟩
  · next ht =>
    simp only [ht, if_false, beq_iff_eq] at h h' ⊢
    exact h.trans h'

end Verif.Deep.World
