import Verif.GoMeta.Spec
namespace Verif.GoMeta
open Verif Spec

/-! ### Identifiers -/

theorem dec_digit {n : Nat} {b : UInt8} (h : b ∈ dec n) : 48 ≤ b.toNat ∧ b.toNat ≤ 57 := by
  induction n using Nat.strongRecOn with
  | ind n ih =>
    rw [dec] at h
    split at h
    · rename_i hn
      simp only [List.mem_singleton] at h
      subst h
      rw [UInt8.toNat_ofNat']
      omega
    · rename_i hn
      simp only [List.mem_append, List.mem_singleton] at h
      rcases h with h | h
      · exact ih (n / 10) (by omega) h
      · subst h
        rw [UInt8.toNat_ofNat']
        omega

theorem pad4_digit {n : Nat} {b : UInt8} (h : b ∈ pad4 n) : 48 ≤ b.toNat ∧ b.toNat ≤ 57 := by
  unfold pad4 at h
  simp only [List.mem_append, List.mem_replicate] at h
  rcases h with ⟨_, rfl⟩ | h
  · decide
  · exact dec_digit h

/-- the number written in digits. -/
def numOf (acc : Nat) (bs : Str) : Nat := bs.foldl (fun acc b => 10 * acc + (b.toNat - 48)) acc

theorem numOf_append (acc : Nat) (a b : Str) : numOf acc (a ++ b) = numOf (numOf acc a) b := by
  unfold numOf
  rw [List.foldl_append]

theorem numOf_cons (acc : Nat) (b : UInt8) (bs : Str) : numOf acc (b :: bs) = numOf (10 * acc + (b.toNat - 48)) bs := by
  unfold numOf
  rw [List.foldl_cons]

theorem numOf_nil (acc : Nat) : numOf acc [] = acc := by
  unfold numOf
  rw [List.foldl_nil]

theorem numOf_dec (n : Nat) : numOf 0 (dec n) = n := by
  induction n using Nat.strongRecOn with
  | ind n ih =>
    rw [dec]
    split
    · simp only [numOf_cons, numOf_nil, UInt8.toNat_ofNat']
      omega
    · rw [numOf_append, ih (n / 10) (by omega)]
      simp only [numOf_cons, numOf_nil, UInt8.toNat_ofNat']
      omega

theorem numOf_zeros (k : Nat) : numOf 0 (List.replicate k 48) = 0 := by
  induction k with
  | zero => rw [List.replicate_zero, numOf_nil]
  | succ k ih => rw [List.replicate_succ, numOf_cons]; exact ih

theorem pad4_inj {a b : Nat} (h : pad4 a = pad4 b) : a = b := by
  have h1 := congrArg (numOf 0) h
  unfold pad4 at h1
  rwa [numOf_append, numOf_append, numOf_zeros, numOf_zeros, numOf_dec, numOf_dec] at h1

theorem split_last {x : UInt8} {s t u v : Str} (h : s ++ [x] ++ u = t ++ [x] ++ v) (hu : x ∉ u) (hv : x ∉ v) : s = t ∧ u = v := by
  simp only [List.append_assoc, List.singleton_append] at h
  rcases List.append_eq_append_iff.mp h with ⟨a, ha, h⟩ | ⟨a, ha, h⟩
  · cases a with
    | nil => simp at ha h; exact ⟨ha.symm, h⟩
    | cons y a =>
      simp only [List.cons_append, List.cons.injEq] at h
      exact absurd (by rw [h.2]; simp) hu
  · cases a with
    | nil => simp at ha h; exact ⟨ha, h.symm⟩
    | cons y a =>
      simp only [List.cons_append, List.cons.injEq] at h
      exact absurd (by rw [h.2]; simp) hv

theorem no_underscore (n : Nat) : (95 : UInt8) ∉ pad4 n := by
  intro h
  have := (pad4_digit h).2
  simp at this

theorem id_inj {s t : Str} {a b : Nat} (h : s ++ [95] ++ pad4 a = t ++ [95] ++ pad4 b) : s = t ∧ a = b := by
  obtain ⟨h1, h2⟩ := split_last h (no_underscore a) (no_underscore b)
  exact ⟨h1, pad4_inj h2⟩

theorem dec_head (n : Nat) (hn : 0 < n) : (dec n).head? ≠ some 48 := by
  induction n using Nat.strongRecOn with
  | ind n ih =>
    rw [dec]
    split
    · rename_i h
      intro e
      simp only [List.head?_cons, Option.some.injEq] at e
      have := congrArg UInt8.toNat e
      rw [UInt8.toNat_ofNat'] at this
      simp at this
      omega
    · rename_i h
      have := ih (n / 10) (by omega) (by omega)
      cases hd : dec (n / 10) with
      | nil => rw [dec] at hd; split at hd <;> simp at hd
      | cons a l => rw [hd] at this; simpa using this

theorem pad4_digits (n : Nat) : Digits n (pad4 n) := by
  refine ⟨fun b hb => pad4_digit hb, ?_, ?_, ?_⟩
  · show numOf 0 (pad4 n) = n
    unfold pad4
    rw [numOf_append, numOf_zeros, numOf_dec]
  · simp only [pad4, List.length_append, List.length_replicate]
    omega
  · intro h
    simp only [pad4, List.length_append, List.length_replicate] at h
    have h4 : 4 - (dec n).length = 0 := by omega
    rw [pad4, h4, List.replicate_zero, List.nil_append]
    apply dec_head
    rcases Nat.eq_zero_or_pos n with rfl | h
    · have : (dec 0).length = 1 := by rw [dec]; rfl
      omega
    · exact h

theorem stem_spec (snake : Str → Str) (o : Obj) : Stem snake o (stem snake o) := by
  obtain ⟨k, n⟩ := o
  by_cases h1 : k = .lexBlock
  · subst h1; 
    have : stem snake ⟨.lexBlock, n⟩ = ascii (kindWord .lexBlock) := by cases n <;> rfl
    rw [this]
    exact Stem.unnamed (o := ⟨.lexBlock, n⟩) (.inl rfl)
  by_cases h2 : k = .compileUnit
  · subst h2; 
    have : stem snake ⟨.compileUnit, n⟩ = ascii (kindWord .compileUnit) := by cases n <;> rfl
    rw [this]
    exact Stem.unnamed (o := ⟨.compileUnit, n⟩) (.inr (.inl rfl))
  cases n with
  | none =>
    by_cases h3 : k = .subprogram
    · subst h3
      exact .function rfl rfl
    · have : stem snake ⟨k, none⟩ = ascii (kindWord k) := by
        cases k <;> first | rfl | exact absurd rfl h3
      rw [this]
      exact .unnamed (.inr (.inr ⟨h3, rfl⟩))
  | some n =>
    have hn : nameOf snake ⟨k, some n⟩ = snake n := by
      cases k <;> first | rfl | exact absurd rfl h1 | exact absurd rfl h2
    have hp : prefixOf k = ascii (kindWord k) := by cases k <;> rfl
    by_cases h3 : snake n = []
    · have : stem snake ⟨k, some n⟩ = ascii (kindWord k) := by simp [stem, hn, h3, hp]
      rw [this]
      exact .empty h1 h2 rfl h3
    · by_cases h4 : k = .baseType
      · subst h4
        have : stem snake ⟨.baseType, some n⟩ = snake n := by simp [stem, hn, h3, prefixOf]
        rw [this]
        exact .base rfl rfl h3
      · have h5 : prefixOf k ≠ [] := by cases k <;> first | exact absurd rfl h4 | exact (by decide)
        have : stem snake ⟨k, some n⟩ = ascii (kindWord k) ++ ascii "_" ++ snake n := by
          simp only [stem, hn, h3, h5, ne_eq, not_false_eq_true, if_true]
          rw [hp]; rfl
        rw [this]
        exact .named h1 h2 h4 rfl h3

theorem Spec.Stem.unique {snake : Str → Str} {o : Obj} {s t : Str} (h : Stem snake o s) (h' : Stem snake o t) : s = t := by
  obtain ⟨k, n⟩ := o
  cases h <;> cases h' <;> simp_all

/-- all identifiers in the database are accounted for by the counters. -/
def Counted (db : Db) : Prop :=
  ∀ k id o, ((k, id), o) ∈ db.items → ∃ s n c, id = s ++ [95] ++ pad4 n ∧ find s db.names = some c ∧ n ≤ c

theorem find_cons {α β : Type} [DecidableEq α] (k k' : α) (v : β) (l : List (α × β)) :
    find k ((k', v) :: l) = if k' = k then some v else find k l := rfl

theorem append_counted (snake : Str → Str) {db : Db} (hc : Counted db) (o : Obj) :
    Counted (appendDb snake db o).2 ∧ (appendDb snake db o).2.items = ((o.kind, (appendDb snake db o).1), o) :: db.items ∧
    (∃ n, (appendDb snake db o).1 = stem snake o ++ [95] ++ pad4 n) ∧ ∀ k o', ((k, (appendDb snake db o).1), o') ∉ db.items := by
  unfold appendDb commonId
  cases hf : find (stem snake o) db.names with
  | none =>
    simp only [hf]
    refine ⟨?_, True.intro, ⟨0, rfl⟩, ?_⟩
    · intro k id o' hm
      simp only [List.mem_cons, Prod.mk.injEq] at hm
      rcases hm with ⟨⟨-, rfl⟩, -⟩ | hm
      · exact ⟨stem snake o, 0, 0, rfl, by simp [find_cons], Nat.le_refl _⟩
      · obtain ⟨s, n, c, h1, h2, h3⟩ := hc k id o' hm
        refine ⟨s, n, c, h1, ?_, h3⟩
        rw [find_cons, if_neg, h2]
        rintro rfl
        rw [hf] at h2
        cases h2
    · intro k o' hm
      obtain ⟨s, n, c, h1, h2, h3⟩ := hc _ _ _ hm
      obtain ⟨rfl, -⟩ := id_inj h1
      rw [hf] at h2
      cases h2
  | some c0 =>
    simp only [hf]
    refine ⟨?_, True.intro, ⟨c0 + 1, rfl⟩, ?_⟩
    · intro k id o' hm
      simp only [List.mem_cons, Prod.mk.injEq] at hm
      rcases hm with ⟨⟨-, rfl⟩, -⟩ | hm
      · exact ⟨stem snake o, c0 + 1, c0 + 1, rfl, by simp [find_cons], Nat.le_refl _⟩
      · obtain ⟨s, n, c, h1, h2, h3⟩ := hc k id o' hm
        by_cases hs : stem snake o = s
        · subst hs
          rw [hf] at h2
          cases h2
          exact ⟨_, n, c0 + 1, h1, by simp [find_cons], by omega⟩
        · exact ⟨s, n, c, h1, by rw [find_cons, if_neg hs, h2], h3⟩
    · intro k o' hm
      obtain ⟨s, n, c, h1, h2, h3⟩ := hc _ _ _ hm
      obtain ⟨rfl, h⟩ := id_inj h1
      subst h
      rw [hf] at h2
      cases h2
      exact Nat.not_succ_le_self _ h3

theorem addAll_spec (snake : Str → Str) (objs : List Obj) (db : Db) (hc : Counted db) :
    let r := addAll snake db objs
    r.1.length = objs.length ∧ r.1.Nodup ∧ (∀ id ∈ r.1, ∀ k o, ((k, id), o) ∉ db.items) ∧
    (∀ (i : Nat) (o : Obj) (id : Str), objs[i]? = some o → r.1[i]? = some id →
      ((o.kind, id), o) ∈ r.2.items ∧ ∀ k o', ((k, id), o') ∈ r.2.items → k = o.kind ∧ o' = o) ∧
    (∀ k id o, ((k, id), o) ∈ r.2.items → id ∉ r.1 → ((k, id), o) ∈ db.items) ∧
    (∀ x, x ∈ db.items → x ∈ r.2.items) ∧
    (∀ id ∈ r.1, ∃ s n, id = s ++ [95] ++ pad4 n) := by
  induction objs generalizing db with
  | nil => simp [addAll]
  | cons o rest ih =>
    obtain ⟨h1, h2, h3, h4⟩ := append_counted snake hc o
    obtain ⟨g1, g2, g3, g4, g5, g6, g7⟩ := ih (appendDb snake db o).2 h1
    simp only [addAll]
    refine ⟨by simp [g1], ?_, ?_, ?_, ?_, ?_, ?_⟩
    · rw [List.nodup_cons]
      refine ⟨?_, g2⟩
      intro hm
      exact g3 _ hm o.kind o (by rw [h2]; simp)
    · intro id hid k o' hm
      simp only [List.mem_cons] at hid
      rcases hid with rfl | hid
      · exact h4 k o' hm
      · exact g3 id hid k o' (by rw [h2]; simp [hm])
    · intro i o' id ho hi
      cases i with
      | zero =>
        simp only [List.getElem?_cons_zero, Option.some.injEq] at ho hi
        subst ho hi
        refine ⟨g6 _ (by rw [h2]; simp), ?_⟩
        intro k o' hm
        have hn : (appendDb snake db o).1 ∉ (addAll snake (appendDb snake db o).2 rest).1 := by
          intro hm
          exact g3 _ hm o.kind o (by rw [h2]; simp)
        have := g5 _ _ _ hm hn
        rw [h2] at this
        simp only [List.mem_cons, Prod.mk.injEq] at this
        rcases this with ⟨⟨rfl, -⟩, rfl⟩ | this
        · exact ⟨rfl, rfl⟩
        · exact absurd this (h4 _ _)
      | succ i =>
        simp only [List.getElem?_cons_succ] at ho hi
        exact g4 i o' id ho hi
    · intro k id o' hm hn
      simp only [List.mem_cons, not_or] at hn
      have := g5 k id o' hm hn.2
      rw [h2] at this
      simp only [List.mem_cons, Prod.mk.injEq] at this
      rcases this with ⟨⟨-, h⟩, -⟩ | this
      · exact absurd h hn.1
      · exact this
    · intro x hx
      exact g6 x (by rw [h2]; simp [hx])
    · intro id hid
      simp only [List.mem_cons] at hid
      rcases hid with rfl | hid
      · obtain ⟨n, hn⟩ := h3
        exact ⟨_, n, hn⟩
      · exact g7 id hid

/-- the counters are those of the stems of `pre`. -/
def Counts (snake : Str → Str) (db : Db) (pre : List Obj) : Prop :=
  ∀ s, find s db.names = match pre.countP (stem snake · = s) with | 0 => none | n + 1 => some n

theorem counts_append {snake : Str → Str} {db : Db} {pre : List Obj} (h : Counts snake db pre) (o : Obj) :
    Counts snake (appendDb snake db o).2 (pre ++ [o]) ∧
      (appendDb snake db o).1 = stem snake o ++ [95] ++ pad4 (pre.countP (stem snake · = stem snake o)) := by
  have h0 := h (stem snake o)
  have hc : (match find (stem snake o) db.names with | none => 0 | some c => c + 1) = pre.countP (stem snake · = stem snake o) := by
    rw [h0]
    cases pre.countP (stem snake · = stem snake o) <;> rfl
  constructor
  · intro s
    simp only [appendDb, commonId, find_cons, List.countP_append, List.countP_cons, List.countP_nil]
    by_cases e : stem snake o = s
    · subst e
      simp only [if_true, decide_true]
      exact congrArg some hc
    · rw [if_neg e, h s]
      simp [e]
  · simp only [appendDb, commonId]
    exact congrArg (fun n => stem snake o ++ [95] ++ pad4 n) hc

theorem addAll_text {snake : Str → Str} : ∀ {objs : List Obj} {db : Db} {pre : List Obj}, Counts snake db pre →
    ∀ (i : Nat) (o : Obj) (id : Str), objs[i]? = some o → (addAll snake db objs).1[i]? = some id →
      id = stem snake o ++ [95] ++ pad4 ((pre ++ objs.take i).countP (stem snake · = stem snake o))
  | [], _, _, _, i, o, id, h1, _ => by simp at h1
  | x :: objs, db, pre, h, i, o, id, h1, h2 => by
    have := counts_append h x
    cases i with
    | zero =>
      simp only [List.getElem?_cons_zero, Option.some.injEq] at h1
      subst h1
      simp only [addAll, List.getElem?_cons_zero, Option.some.injEq] at h2
      rw [← h2, this.2]
      simp
    | succ i =>
      simp only [List.getElem?_cons_succ] at h1
      simp only [addAll, List.getElem?_cons_succ] at h2
      have := addAll_text this.1 i o id h1 h2
      rw [this]
      simp

/-! ### Arrays -/

theorem toInt64_id {v : Int} (h1 : -2 ^ 63 ≤ v) (h2 : v < 2 ^ 63) : toInt64 v = v := by
  unfold toInt64
  rw [Int.bmod_eq_of_le] <;> omega

theorem toInt64_sub (a b : Int) : toInt64 (toInt64 a - b) = toInt64 (a - b) := by
  unfold toInt64
  exact Int.bmod_sub_bmod

theorem arrayOf_dim (type : Option Off) (level : Nat) (c : Child) (h : InRange c) : Dim c (arrayOf type level c).count := by
  unfold arrayOf
  cases hc : c.count with
  | some n => exact .count hc
  | none =>
    cases hu : c.upper with
    | none => exact .unknown hc hu
    | some u =>
      have := h u hc hu
      cases hl : c.lower with
      | none =>
        simp only [hl, Option.getD_none, Int.sub_zero] at this
        simp only
        rw [toInt64_id this.1 this.2]
        exact .upper hc hu hl
      | some l =>
        simp only [hl, Option.getD_some] at this
        simp only
        rw [toInt64_sub, toInt64_id this.1 this.2]
        exact .bounds hc hu hl

/-- the array type `a`, to be stored at `par`, over the given dimensions (innermost part of the chain). -/
def Good (ix : Index) (elem : Option Off) (par : Off) : List Child → ArrayT → Prop
  | [], _ => False
  | [c], a => Dim c a.count ∧ a.lower = c.lower ∧ a.level = 0 ∧ a.type = elem
  | c :: c' :: cs, a => Dim c a.count ∧ a.lower = c.lower ∧ a.level = (c' :: cs).length ∧ a.type = some c'.off ∧
      ∃ a', ix c'.off = some a' ∧ a'.parents = [par] ∧ Good ix elem c'.off (c' :: cs) a'

theorem Good.frame {ix ix' : Index} {elem : Option Off} {par : Off} {cs : List Child} {a : ArrayT} (h : Good ix elem par cs a)
    (hx : ∀ x ∈ cs.tail.map Child.off, ix' x = ix x) : Good ix' elem par cs a := by
  induction cs generalizing par a with
  | nil => exact h
  | cons c cs ih =>
    cases cs with
    | nil => exact h
    | cons c' cs =>
      obtain ⟨h1, h2, h3, h4, a', h5, h6, h7⟩ := h
      refine ⟨h1, h2, h3, h4, a', ?_, h6, ih h7 ?_⟩
      · rw [hx _ (by simp), h5]
      · intro x hm
        exact hx x (by simp only [List.tail_cons, List.map_cons, List.mem_cons] at hm ⊢; exact .inr hm)

theorem Good.fields {ix : Index} {elem : Option Off} {par : Off} {cs : List Child} {a b : ArrayT} (h : Good ix elem par cs a)
    (h1 : b.count = a.count) (h2 : b.lower = a.lower) (h3 : b.level = a.level) (h4 : b.type = a.type) : Good ix elem par cs b := by
  match cs with
  | [] => exact h
  | [c] => simpa only [Good, h1, h2, h3, h4] using h
  | c :: c' :: cs => simpa only [Good, h1, h2, h3, h4] using h

theorem Good.chain {ix : Index} {elem : Option Off} {o par : Off} {cs : List Child} {a : ArrayT} (h : Good ix elem o cs a)
    (ho : ix o = some a) (hp : a.parents = [par]) : Chain ix elem o par cs := by
  induction cs generalizing o par a with
  | nil => exact h.elim
  | cons c cs ih =>
    cases cs with
    | nil =>
      obtain ⟨h1, h2, h3, h4⟩ := h
      exact .last ho h1 h2 h3 h4 hp
    | cons c' cs =>
      obtain ⟨h1, h2, h3, h4, a', h5, h6, h7⟩ := h
      exact .cons ho h1 h2 h3 h4 hp (ih h7 h5 h6)

theorem arrayLoop_step (top : Off) (elem : Option Off) (n : Nat) (todo : List Child) :
    ∀ (done : List Child) (c : Child) (p : ArrayT) (ix : Index) (k : Nat),
    k = done.length + 1 → n = k + todo.length →
    (∀ x ∈ todo, x.isSubrange = true) → (∀ x ∈ todo, InRange x) →
    ((todo.reverse ++ c :: done).map Child.off).Nodup →
    top ∉ (todo.reverse ++ c :: done).map Child.off →
    Good ix elem (if todo = [] then top else c.off) (c :: done) p → p.parents = [] → p.stride = none →
    (todo ≠ [] → ix c.off = some p) →
    ∃ a ix', arrayLoop top n ix (some c.off) (some (c.off, p)) k todo = .ok (some a, ix') ∧ a.parents = [] ∧ a.stride = none ∧
      Good ix' elem top (todo.reverse ++ c :: done) a ∧ ∀ x, x ∉ (todo.reverse ++ c :: done).map Child.off → ix' x = ix x := by
  induction todo with
  | nil =>
    intro done c p ix k hk hn hs hr hnd ht hg hp hst hi
    exact ⟨p, ix, rfl, hp, hst, by simpa using hg, fun x _ => rfl⟩
  | cons d todo ih =>
    intro done c p ix k hk hn hs hr hnd ht hg hp hst hi
    have hsd := hs d (by simp)
    have hrd := hr d (by simp)
    have hix := hi (by simp)
    simp only [List.reverse_cons, List.append_assoc, List.singleton_append] at hnd ht ⊢
    have hnd2 : ((d :: c :: done).map Child.off).Nodup := by
      rw [List.map_append] at hnd
      exact (List.nodup_append.mp hnd).2.1
    have hdc : d.off ≠ c.off := by
      intro h
      simp [h] at hnd2
    have hcd : c.off ∉ done.map Child.off := by
      simp only [List.map_cons, List.nodup_cons, List.mem_cons, not_or] at hnd2
      exact hnd2.2.1
    have hdd : d.off ∉ done.map Child.off := by
      simp only [List.map_cons, List.nodup_cons, List.mem_cons, not_or] at hnd2
      exact hnd2.1.2
    simp only [arrayLoop, hsd, if_true]
    -- the index after this round
    let par := if k = n - 1 then top else d.off
    let p' : ArrayT := { p with parents := p.parents ++ [par] }
    let a := arrayOf (some c.off) k d
    let ix1 : Index := fun x => if x = c.off then some p' else ix x
    let ix2 : Index := if k < n - 1 then (fun x => if x = d.off then some a else ix1 x) else ix1
    have hlast : (todo = []) ↔ k = n - 1 := by
      simp only [List.length_cons] at hn
      rw [← List.length_eq_zero_iff]
      omega
    have e2 : ∀ x, x ≠ d.off → ix2 x = ix1 x := by
      intro x hx
      simp only [ix2]
      split
      · simp [hx]
      · rfl
    obtain ⟨a', ix', h1, h2, h2', h3, h4⟩ := ih (c :: done) d a ix2 (k + 1) (by simp [hk]) (by simp at hn; omega)
      (fun x hx => hs x (by simp [hx])) (fun x hx => hr x (by simp [hx])) hnd ht
      (by
        refine ⟨arrayOf_dim _ _ _ hrd, rfl, by simp [a, arrayOf, hk], rfl, p', ?_, ?_, ?_⟩
        · rw [e2 _ hdc.symm]; simp [ix1]
        · simp only [p', hp, List.nil_append, par]
          by_cases ht' : todo = []
          · simp [ht', hlast.mp ht']
          · have : ¬ k = n - 1 := fun h => ht' (hlast.mpr h)
            simp [ht', this]
        · refine Good.fields (a := p) ?_ rfl rfl rfl rfl
          have hg' : Good ix elem c.off (c :: done) p := by simpa using hg
          refine hg'.frame ?_
          intro x hx
          simp only [List.tail_cons] at hx
          rw [e2 x (fun h => hdd (h ▸ hx))]
          have : x ≠ c.off := fun h => hcd (h ▸ hx)
          simp [ix1, this])
      rfl rfl
      (by
        intro ht'
        have : k < n - 1 := by
          have : ¬ k = n - 1 := fun h => ht' (hlast.mpr h)
          simp only [List.length_cons] at hn
          omega
        simp [ix2, this])
    refine ⟨a', ix', h1, h2, h2', h3, ?_⟩
    intro x hx
    rw [h4 x hx]
    have hxd : x ≠ d.off := by
      rintro rfl
      exact hx (by simp)
    have hxc : x ≠ c.off := by
      rintro rfl
      exact hx (by simp)
    rw [e2 x hxd]
    simp [ix1, hxc]

end Verif.GoMeta
