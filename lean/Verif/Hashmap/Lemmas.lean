import Verif.Hashmap.Model
import Verif.Hashmap.Spec
/- Helper lemmas for the hash map; the property theorems are in `Props.lean`. -/
namespace Verif.Hashmap
open Verif.Hashmap.Spec

variable {K V : Type}

/-! ### Bucket counts and indices -/

theorem minBucketCount_lt (c : BitVec 64) : (minBucketCount c).toNat < 2 ^ 63 := by
  unfold minBucketCount
  have : (c * 4#64).toNat < 2 ^ 64 := (c * 4#64).isLt
  rw [BitVec.toNat_udiv]
  have h3 : (3#64).toNat = 3 := rfl
  rw [h3]
  omega

theorem twoPow_shift (bc : BitVec 64) (i : Nat) (hi : i < 63) (h : bc.toNat = 2 ^ i) :
    (bc <<< 1).toNat = 2 ^ (i + 1) := by
  rw [BitVec.toNat_shiftLeft, h, Nat.shiftLeft_eq, ← Nat.pow_add]
  apply Nat.mod_eq_of_lt
  exact Nat.pow_lt_pow_right (by omega) (by omega)

theorem growLoop_spec (fuel i : Nat) (bc m : BitVec 64) (hm : m.toNat < 2 ^ 63)
    (hi : i ≤ 63) (hf : 63 ≤ i + fuel) (hbc : bc.toNat = 2 ^ i) :
    ∃ bc' j, growLoop fuel bc m = some bc' ∧ i ≤ j ∧ j ≤ 63 ∧ bc'.toNat = 2 ^ j ∧
      m.toNat < 2 ^ j ∧ (j = i ∨ 2 ^ (j - 1) ≤ m.toNat) := by
  induction fuel generalizing i bc with
  | zero =>
    have : i = 63 := by omega
    subst this
    refine ⟨bc, 63, ?_, Nat.le_refl _, Nat.le_refl _, hbc, hm, Or.inl rfl⟩
    unfold growLoop
    have : ¬ bc ≤ m := by rw [BitVec.le_def]; omega
    simp [this]
  | succ f ih =>
    unfold growLoop
    by_cases hle : bc ≤ m
    · have hlt : bc.toNat ≤ m.toNat := by rwa [BitVec.le_def] at hle
      have hi' : i < 63 := by
        apply Classical.byContradiction
        intro hc
        have : i = 63 := by omega
        subst this; omega
      obtain ⟨bc', j, h1, h2, h3, h4, h5, h6⟩ := ih (i + 1) (bc <<< 1) (by omega) (by omega)
        (twoPow_shift bc i hi' hbc)
      refine ⟨bc', j, by simp [hle, h1], by omega, h3, h4, h5, Or.inr ?_⟩
      rcases h6 with h6 | h6
      · subst h6; simpa using hbc ▸ hlt
      · exact h6
    · have hlt : m.toNat < bc.toNat := by rw [BitVec.le_def] at hle; omega
      exact ⟨bc, i, by simp [hle], Nat.le_refl _, hi, hbc, hbc ▸ hlt, Or.inl rfl⟩

theorem calcIndex_lt (bc : BitVec 64) (h : BitVec 32) (hbc : 0 < bc.toNat) :
    (calcIndex bc h).toNat < bc.toNat := by
  unfold calcIndex
  rw [BitVec.toNat_and]
  have h1 : (bc - 1#64).toNat = bc.toNat - 1 := by
    rw [BitVec.toNat_sub_of_le]
    · simp
    · rw [BitVec.le_def]; simp; omega
  have := @Nat.and_le_right (BitVec.signExtend 64 h).toNat (bc - 1#64).toNat
  omega

/-! ### Lists of chains -/

/-- Replacing one chain: everything else stays. -/
theorem set_flatten_perm {α : Type} (bs : List (List α)) (i : Nat) (c : List α)
    (h : bs[i]? = some c) :
    ∃ rest : List α, bs.flatten.Perm (c ++ rest) ∧
      ∀ c', (bs.set i c').flatten.Perm (c' ++ rest) := by
  induction bs generalizing i with
  | nil => simp at h
  | cons b bs ih =>
    cases i with
    | zero =>
      simp at h; subst h
      exact ⟨bs.flatten, by simp, by simp⟩
    | succ i =>
      simp at h
      obtain ⟨rest, h1, h2⟩ := ih i h
      refine ⟨b ++ rest, ?_, ?_⟩
      · simp only [List.flatten_cons]
        exact (List.Perm.append_left b h1).trans (by
          rw [← List.append_assoc, ← List.append_assoc]
          exact List.Perm.append_right rest List.perm_append_comm)
      · intro c'
        simp only [List.set_cons_succ, List.flatten_cons]
        exact (List.Perm.append_left b (h2 c')).trans (by
          rw [← List.append_assoc, ← List.append_assoc]
          exact List.Perm.append_right rest List.perm_append_comm)

theorem mem_flatten_set {α : Type} (bs : List (List α)) (i : Nat) (c' : List α) :
    ∀ (j : Nat) (d : List α), (bs.set i c')[j]? = some d → (j ≠ i ∧ bs[j]? = some d) ∨ (j = i ∧ d = c') := by
  intro j d hd
  rw [List.getElem?_set] at hd
  split at hd
  · rename_i hij
    split at hd
    · right; simp at hd; exact ⟨hij.symm, hd.symm⟩
    · simp at hd
  · left; rename_i hij; exact ⟨fun h => hij h.symm, hd⟩

/-! ### The representation invariant -/

/-- Entries of a map, in traversal order. -/
def entries (m : Map K V) : List (Entry K V) := m.buckets.flatten

/-- Key/value pairs of a map, in traversal order. -/
def pairs (m : Map K V) : List (K × V) := (entries m).map (fun e => (e.key, e.value))

/-- Placement: every entry carries its key's hash and lives in the bucket that the
hash selects. -/
def Placed (cb : Callbacks K) (bc : BitVec 64) (bs : List (List (Entry K V))) : Prop :=
  ∀ (i : Nat) (c : List (Entry K V)), bs[i]? = some c →
    ∀ e ∈ c, e.hash = hashKey cb e.key ∧ (calcIndex bc e.hash).toNat = i

/-- No two pairs of a list have equal keys. -/
def DistinctKeys (cb : Callbacks K) (es : List (Entry K V)) : Prop :=
  es.Pairwise (fun a b => cb.equals a.key b.key = false)

structure Inv (cb : Callbacks K) (m : Map K V) : Prop where
  len : m.buckets.length = m.bucketCount.toNat
  pow : ∃ j, j ≤ 60 ∧ m.bucketCount.toNat = 2 ^ j
  placed : Placed cb m.bucketCount m.buckets
  distinct : DistinctKeys cb (entries m)
  size : m.size = (entries m).length

theorem Inv.pos {cb : Callbacks K} {m : Map K V} (h : Inv cb m) : 0 < m.bucketCount.toNat := by
  obtain ⟨j, _, hj⟩ := h.pow
  rw [hj]; exact Nat.pow_pos (by omega)

theorem Inv.bucket {cb : Callbacks K} {m : Map K V} (h : Inv cb m) (hash : BitVec 32) :
    ∃ c, m.buckets[(calcIndex m.bucketCount hash).toNat]? = some c := by
  have := calcIndex_lt m.bucketCount hash h.pos
  rw [← h.len] at this
  exact ⟨_, List.getElem?_eq_getElem this⟩

theorem placed_perm_distinct {cb : Callbacks K} (hc : Contract cb) {es es' : List (Entry K V)}
    (hp : es.Perm es') (h : DistinctKeys cb es) : DistinctKeys cb es' := by
  refine (hp.pairwise_iff ?_).1 h
  intro a b hab
  cases hba : cb.equals b.key a.key with
  | false => rfl
  | true => have := hc.symm _ _ hba; simp [this] at hab

/-! ### `equalKeys` under the contract -/

variable [DecidableEq K]

theorem equalKeys_eq {cb : Callbacks K} (hc : Contract cb) (a b : K) :
    equalKeys cb a (hashKey cb a) b (hashKey cb b) = cb.equals a b := by
  unfold equalKeys
  by_cases h : a = b
  · subst h; simp [hc.refl]
  · simp only [h, if_false]
    by_cases hh : hashKey cb a = hashKey cb b
    · simp [hh]
    · simp only [ne_eq, hh, not_false_eq_true, if_true]
      cases hab : cb.equals a b with
      | false => rfl
      | true => exact absurd (by unfold hashKey; rw [hc.hash a b hab]) hh

/-! ### Chain walks -/

theorem findChain_eq {cb : Callbacks K} (hc : Contract cb) (k : K) (c : List (Entry K V))
    (hp : ∀ e ∈ c, e.hash = hashKey cb e.key) :
    findChain cb k (hashKey cb k) c = c.find? (fun e => cb.equals e.key k) := by
  induction c with
  | nil => rfl
  | cons e es ih =>
    have he := hp e (by simp)
    unfold findChain
    rw [he, equalKeys_eq hc, List.find?_cons, ih (fun e h => hp e (by simp [h]))]
    cases cb.equals e.key k <;> rfl

theorem find?_perm_distinct {cb : Callbacks K} (hc : Contract cb) (k : K)
    {es es' : List (Entry K V)} (hp : es.Perm es') (hd : DistinctKeys cb es) :
    es.find? (fun e => cb.equals e.key k) = es'.find? (fun e => cb.equals e.key k) := by
  induction hp with
  | nil => rfl
  | cons x _ ih =>
    rw [List.find?_cons, List.find?_cons, ih (List.pairwise_cons.1 hd).2]
  | swap x y l =>
    rw [List.find?_cons, List.find?_cons, List.find?_cons, List.find?_cons]
    have h1 : cb.equals y.key x.key = false := (List.pairwise_cons.1 hd).1 x (by simp)
    cases hx : cb.equals x.key k <;> cases hy : cb.equals y.key k <;> try rfl
    have := hc.trans _ _ _ hy (hc.symm _ _ hx)
    simp [this] at h1
  | trans h1 _ ih1 ih2 =>
    rw [ih1 hd, ih2 (placed_perm_distinct hc h1 hd)]

/-- Entries of other buckets never match: the search in the selected bucket is the
search among all entries. -/
theorem rest_no_match {cb : Callbacks K} (hc : Contract cb) {m : Map K V} (h : Inv cb m)
    (k : K) (j : Nat) (c : List (Entry K V)) (hj : m.buckets[j]? = some c)
    (hne : j ≠ (calcIndex m.bucketCount (hashKey cb k)).toNat) :
    ∀ e ∈ c, cb.equals e.key k = false := by
  intro e he
  obtain ⟨h1, h2⟩ := h.placed j c hj e he
  cases heq : cb.equals e.key k with
  | false => rfl
  | true =>
    exfalso; apply hne
    have : hashKey cb e.key = hashKey cb k := by unfold hashKey; rw [hc.hash _ _ heq]
    rw [← h2, h1, this]

/-- Strengthened split: the rest contains no entry matching `k`. -/
theorem split_bucket {cb : Callbacks K} (hc : Contract cb) {m : Map K V} (h : Inv cb m) (k : K)
    (c : List (Entry K V))
    (hb : m.buckets[(calcIndex m.bucketCount (hashKey cb k)).toNat]? = some c) :
    ∃ rest, (entries m).Perm (c ++ rest) ∧ (∀ e ∈ rest, cb.equals e.key k = false) ∧
      ∀ c', ((m.buckets.set (calcIndex m.bucketCount (hashKey cb k)).toNat c').flatten).Perm (c' ++ rest) := by
  obtain ⟨rest, h1, h2⟩ := set_flatten_perm _ _ _ hb
  refine ⟨rest, h1, ?_, h2⟩
  intro e he
  have hmem : e ∈ (m.buckets.set (calcIndex m.bucketCount (hashKey cb k)).toNat []).flatten := by
    rw [(h2 []).mem_iff]; simpa using he
  rw [List.mem_flatten] at hmem
  obtain ⟨d, hd, hed⟩ := hmem
  obtain ⟨j, hj⟩ := List.getElem?_of_mem hd
  rcases mem_flatten_set _ _ _ j d hj with ⟨hne, hj'⟩ | ⟨_, hd'⟩
  · exact rest_no_match hc h k j d hj' hne e hed
  · subst hd'; simp at hed

theorem bucket_hashes {cb : Callbacks K} {m : Map K V} (h : Inv cb m) {i : Nat} {c : List (Entry K V)}
    (hb : m.buckets[i]? = some c) : ∀ e ∈ c, e.hash = hashKey cb e.key :=
  fun e he => (h.placed i c hb e he).1

theorem find_eq_entries {cb : Callbacks K} (hc : Contract cb) {m : Map K V} (h : Inv cb m) (k : K)
    (c : List (Entry K V))
    (hb : m.buckets[(calcIndex m.bucketCount (hashKey cb k)).toNat]? = some c) :
    findChain cb k (hashKey cb k) c = (entries m).find? (fun e => cb.equals e.key k) := by
  rw [findChain_eq hc k c (bucket_hashes h hb)]
  obtain ⟨rest, h1, h2, _⟩ := split_bucket hc h k c hb
  rw [find?_perm_distinct hc k h1 h.distinct, List.find?_append]
  have : rest.find? (fun e => cb.equals e.key k) = none := by
    rw [List.find?_eq_none]; intro e he; simp [h2 e he]
  rw [this]; simp

/-! ### put -/

/-- Relational description of `putChain`. -/
theorem putChain_spec {cb : Callbacks K} (hc : Contract cb) (k : K) (v : V) (a : Bool)
    (c : List (Entry K V)) (hp : ∀ e ∈ c, e.hash = hashKey cb e.key) :
    putChain cb k (hashKey cb k) v a c =
      match c.find? (fun e => cb.equals e.key k) with
      | some e => (.found e.value, (putChain cb k (hashKey cb k) v a c).2)
      | none => if a then (.added, c ++ [⟨k, hashKey cb k, v⟩]) else (.nomem, c) := by
  induction c with
  | nil => unfold putChain; cases a <;> rfl
  | cons e es ih =>
    have he := hp e (by simp)
    have ih := ih (fun e h => hp e (by simp [h]))
    unfold putChain
    rw [he, equalKeys_eq hc, List.find?_cons]
    cases hek : cb.equals e.key k with
    | true => simp [← he]
    | false =>
      simp only [Bool.false_eq_true, if_false]
      rw [ih]
      cases hf : List.find? (fun e => cb.equals e.key k) es with
      | some e' => simp
      | none => cases a <;> simp

theorem putChain_found {cb : Callbacks K} (hc : Contract cb) (k : K) (v : V) (a : Bool)
    (c : List (Entry K V)) (hp : ∀ e ∈ c, e.hash = hashKey cb e.key)
    (hd : DistinctKeys cb c) (hs : (c.find? (fun e => cb.equals e.key k)).isSome) :
    (putChain cb k (hashKey cb k) v a c).2 =
      c.map (fun e => if cb.equals e.key k then { e with value := v } else e) := by
  induction c with
  | nil => simp at hs
  | cons e es ih =>
    have he := hp e (by simp)
    unfold putChain
    rw [he, equalKeys_eq hc]
    cases hek : cb.equals e.key k with
    | true =>
      simp only [if_true, List.map_cons, hek]
      congr 1
      · rw [he]
      symm
      rw [List.map_congr_left (g := id) ?_, List.map_id]
      intro e' he'
      have h1 := (List.pairwise_cons.1 hd).1 e' he'
      cases h2 : cb.equals e'.key k with
      | false => simp
      | true =>
        have := hc.trans _ _ _ hek (hc.symm _ _ h2)
        simp [this] at h1
    | false =>
      rw [List.find?_cons, hek] at hs
      simp only [Bool.false_eq_true, if_false, List.map_cons, hek]
      rw [ih (fun e h => hp e (by simp [h])) (List.pairwise_cons.1 hd).2 hs]

theorem memoChain_spec {cb : Callbacks K} (hc : Contract cb) (k : K) (v : V) (a : Bool)
    (c : List (Entry K V)) (hp : ∀ e ∈ c, e.hash = hashKey cb e.key) :
    memoChain cb k (hashKey cb k) v a c =
      match c.find? (fun e => cb.equals e.key k) with
      | some e => (.found e.value, c)
      | none => if a then (.added, c ++ [⟨k, hashKey cb k, v⟩]) else (.nomem, c) := by
  induction c with
  | nil => unfold memoChain; cases a <;> rfl
  | cons e es ih =>
    have he := hp e (by simp)
    have ih := ih (fun e h => hp e (by simp [h]))
    unfold memoChain
    rw [he, equalKeys_eq hc, List.find?_cons]
    cases hek : cb.equals e.key k with
    | true => simp [← he]
    | false =>
      simp only [Bool.false_eq_true, if_false]
      rw [ih]
      cases hf : List.find? (fun e => cb.equals e.key k) es with
      | some e' => simp
      | none => cases a <;> simp

theorem removeChain_spec {cb : Callbacks K} (hc : Contract cb) (k : K)
    (c : List (Entry K V)) (hp : ∀ e ∈ c, e.hash = hashKey cb e.key) (hd : DistinctKeys cb c) :
    removeChain cb k (hashKey cb k) c =
      ((c.find? (fun e => cb.equals e.key k)).map (·.value),
        c.filter (fun e => !cb.equals e.key k)) := by
  induction c with
  | nil => rfl
  | cons e es ih =>
    have he := hp e (by simp)
    have ih := ih (fun e h => hp e (by simp [h])) (List.pairwise_cons.1 hd).2
    unfold removeChain
    rw [he, equalKeys_eq hc, List.find?_cons]
    cases hek : cb.equals e.key k with
    | true =>
      simp only [if_true, Option.map_some, Prod.mk.injEq, true_and]
      rw [List.filter_cons]
      simp only [hek, Bool.not_true, Bool.false_eq_true, if_false]
      symm
      rw [List.filter_eq_self]
      intro e' he'
      have h1 := (List.pairwise_cons.1 hd).1 e' he'
      cases h2 : cb.equals e'.key k with
      | false => rfl
      | true =>
        have := hc.trans _ _ _ hek (hc.symm _ _ h2)
        simp [this] at h1
    | false =>
      simp only [Bool.false_eq_true, if_false]
      rw [ih, List.filter_cons]
      simp [hek]

/-! ### Rehash -/

theorem rehashOne_spec {cb : Callbacks K} (nc : BitVec 64) (hnc : 0 < nc.toNat)
    (nb : List (List (Entry K V))) (hlen : nb.length = nc.toNat)
    (hpl : Placed cb nc nb) (e : Entry K V) (he : e.hash = hashKey cb e.key) :
    ∃ nb', rehashOne nc nb e = some nb' ∧ nb'.length = nc.toNat ∧ Placed cb nc nb' ∧
      nb'.flatten.Perm (e :: nb.flatten) := by
  unfold rehashOne
  have hidx := calcIndex_lt nc e.hash hnc
  have hget : nb[(calcIndex nc e.hash).toNat]? = some (nb[(calcIndex nc e.hash).toNat]'(by omega)) :=
    List.getElem?_eq_getElem (by omega)
  simp only [hget]
  refine ⟨_, rfl, by simp [hlen], ?_, ?_⟩
  · intro i c hi x hx
    rcases mem_flatten_set _ _ _ i c hi with ⟨hne, hi'⟩ | ⟨hi', hc'⟩
    · exact hpl i c hi' x hx
    · subst hc'
      rcases List.mem_cons.1 hx with rfl | hx
      · exact ⟨he, hi'.symm⟩
      · subst hi'
        exact hpl _ _ hget x hx
  · obtain ⟨rest, h1, h2⟩ := set_flatten_perm _ _ _ hget
    exact (h2 _).trans (by simpa using (List.Perm.cons e h1.symm))

theorem rehashChain_spec {cb : Callbacks K} (nc : BitVec 64) (hnc : 0 < nc.toNat)
    (chain : List (Entry K V)) (hch : ∀ e ∈ chain, e.hash = hashKey cb e.key)
    (nb : List (List (Entry K V))) (hlen : nb.length = nc.toNat)
    (hpl : Placed cb nc nb) :
    ∃ nb', chain.foldlM (rehashOne nc) nb = some nb' ∧ nb'.length = nc.toNat ∧ Placed cb nc nb' ∧
      nb'.flatten.Perm (chain ++ nb.flatten) := by
  induction chain generalizing nb with
  | nil => exact ⟨nb, rfl, hlen, hpl, by simp⟩
  | cons e es ih =>
    obtain ⟨nb1, h1, h2, h3, h4⟩ := rehashOne_spec nc hnc nb hlen hpl e (hch e (by simp))
    obtain ⟨nb2, g1, g2, g3, g4⟩ := ih (fun x hx => hch x (by simp [hx])) nb1 h2 h3
    refine ⟨nb2, ?_, g2, g3, ?_⟩
    · simp [h1, g1]
    · exact g4.trans ((List.Perm.append_left es h4).trans (by simp))

theorem rehash_spec {cb : Callbacks K} (nc : BitVec 64) (hnc : 0 < nc.toNat)
    (old : List (List (Entry K V))) (hold : ∀ c ∈ old, ∀ e ∈ c, e.hash = hashKey cb e.key)
    (nb : List (List (Entry K V))) (hlen : nb.length = nc.toNat) (hpl : Placed cb nc nb) :
    ∃ nb', old.foldlM (fun nb chain => chain.foldlM (rehashOne nc) nb) nb = some nb' ∧
      nb'.length = nc.toNat ∧ Placed cb nc nb' ∧ nb'.flatten.Perm (old.flatten ++ nb.flatten) := by
  induction old generalizing nb with
  | nil => exact ⟨nb, rfl, hlen, hpl, by simp⟩
  | cons c cs ih =>
    obtain ⟨nb1, h1, h2, h3, h4⟩ := rehashChain_spec nc hnc c (hold c (by simp)) nb hlen hpl
    obtain ⟨nb2, g1, g2, g3, g4⟩ := ih (fun x hx => hold x (by simp [hx])) nb1 h2 h3
    refine ⟨nb2, ?_, g2, g3, ?_⟩
    · simp [h1, g1]
    · refine g4.trans ((List.Perm.append_left _ h4).trans ?_)
      simp only [List.flatten_cons, List.append_assoc]
      rw [← List.append_assoc, ← List.append_assoc]
      exact List.Perm.append_right _ List.perm_append_comm

omit [DecidableEq K] in
theorem replicate_placed {cb : Callbacks K} (nc : BitVec 64) :
    Placed (V := V) cb nc (List.replicate nc.toNat []) := by
  intro i c hi e he
  rw [List.getElem?_replicate] at hi
  split at hi
  · simp at hi; subst hi; simp at he
  · simp at hi

omit [DecidableEq K] in
theorem replicate_flatten (n : Nat) : (List.replicate n ([] : List (Entry K V))).flatten = [] := by
  simp

/-- Expansion never fails, keeps the invariant and the entries. -/
theorem expand_spec {cb : Callbacks K} (hc : Contract cb) {m : Map K V} (h : Inv cb m) (a : Bool) :
    ∃ m', expandIfNecessary a m = some m' ∧ Inv cb m' ∧ (entries m').Perm (entries m) := by
  unfold expandIfNecessary
  split
  · by_cases ha : callocOk a (m.bucketCount <<< 1) = true
    · obtain ⟨j, hj, hbc⟩ := h.pow
      have hsh := twoPow_shift m.bucketCount j (by omega) hbc
      have hj' : j + 1 ≤ 60 := by
        have : (m.bucketCount <<< 1).toNat * 8 < 2 ^ 64 := by
          unfold callocOk at ha; simp at ha; simpa using ha.2
        rw [hsh] at this
        have h3 : (2:Nat) ^ (j + 1) * 2 ^ 3 < 2 ^ 64 := by simpa using this
        rw [← Nat.pow_add] at h3
        have := (Nat.pow_lt_pow_iff_right (a := 2) (by omega)).1 h3
        omega
      have hpos : 0 < (m.bucketCount <<< 1).toNat := by rw [hsh]; exact Nat.pow_pos (by omega)
      obtain ⟨nb, h1, h2, h3, h4⟩ := rehash_spec (cb := cb) (m.bucketCount <<< 1) hpos m.buckets
        (by
          intro c hcm e he
          obtain ⟨i, hi⟩ := List.getElem?_of_mem hcm
          exact (h.placed i c hi e he).1)
        (List.replicate _ []) (by simp) (replicate_placed _)
      rw [replicate_flatten] at h4
      simp only [List.append_nil] at h4
      have hr : rehash (m.bucketCount <<< 1) m.buckets = some nb := h1
      simp only [ha, if_true, hr]
      refine ⟨_, rfl, ⟨h2, ⟨j + 1, hj', hsh⟩, h3, ?_, ?_⟩, h4⟩
      · exact placed_perm_distinct hc h4.symm h.distinct
      · simp only [entries]; rw [h4.length_eq]; exact h.size
    · simp only [ha, Bool.false_eq_true, if_false]
      exact ⟨m, rfl, h, List.Perm.refl _⟩
  · exact ⟨m, rfl, h, List.Perm.refl _⟩

/-! ### Replacing one bucket keeps the placement -/

omit [DecidableEq K] in
theorem placed_set {cb : Callbacks K} {bc : BitVec 64} {bs : List (List (Entry K V))} {i : Nat}
    {c' : List (Entry K V)} (hp : Placed cb bc bs)
    (hc' : ∀ e ∈ c', e.hash = hashKey cb e.key ∧ (calcIndex bc e.hash).toNat = i) :
    Placed cb bc (bs.set i c') := by
  intro j c hj e he
  rcases mem_flatten_set _ _ _ j c hj with ⟨_, hj'⟩ | ⟨hji, hcc⟩
  · exact hp j c hj' e he
  · subst hcc; subst hji; exact hc' e he

/-! ### The simulation relation -/

/-- A map represents a dictionary: invariant plus same pairs up to order. -/
def Rep (cb : Callbacks K) (m : Map K V) (d : Dict K V) : Prop :=
  Inv cb m ∧ (pairs m).Perm d

omit [DecidableEq K] in
theorem lookup_pairs {cb : Callbacks K} (es : List (Entry K V)) (k : K) :
    lookup cb.equals (es.map (fun e => (e.key, e.value))) k =
      (es.find? (fun e => cb.equals e.key k)).map (·.value) := by
  unfold lookup
  rw [List.find?_map]
  simp [Function.comp_def]

omit [DecidableEq K] in
theorem lookup_perm {cb : Callbacks K} (hc : Contract cb) (k : K) {d d' : Dict K V}
    (hp : d.Perm d') (hd : d.Pairwise (fun a b => cb.equals a.1 b.1 = false)) :
    lookup cb.equals d k = lookup cb.equals d' k := by
  unfold lookup
  congr 1
  induction hp with
  | nil => rfl
  | cons x _ ih => rw [List.find?_cons, List.find?_cons, ih (List.pairwise_cons.1 hd).2]
  | swap x y l =>
    rw [List.find?_cons, List.find?_cons, List.find?_cons, List.find?_cons]
    have h1 : cb.equals y.1 x.1 = false := (List.pairwise_cons.1 hd).1 x (by simp)
    cases hx : cb.equals x.1 k <;> cases hy : cb.equals y.1 k <;> try rfl
    have := hc.trans _ _ _ hy (hc.symm _ _ hx)
    simp [this] at h1
  | trans h1 _ ih1 ih2 =>
    rw [ih1 hd, ih2 ?_]
    refine (h1.pairwise_iff ?_).1 hd
    intro a b hab
    cases hba : cb.equals b.1 a.1 with
    | false => rfl
    | true => have := hc.symm _ _ hba; simp [this] at hab

omit [DecidableEq K] in
theorem Rep.lookup_eq {cb : Callbacks K} (hc : Contract cb) {m : Map K V} {d : Dict K V}
    (h : Rep cb m d) (k : K) :
    lookup cb.equals d k = ((entries m).find? (fun e => cb.equals e.key k)).map (·.value) := by
  rw [← lookup_pairs, ← lookup_perm hc k h.2]
  · rfl
  · unfold pairs
    rw [List.pairwise_map]
    exact h.1.distinct

omit [DecidableEq K] in
theorem any_iff_lookup {eq : K → K → Bool} (d : Dict K V) (k : K) :
    d.any (fun p => eq p.1 k) = (lookup eq d k).isSome := by
  unfold lookup
  induction d with
  | nil => rfl
  | cons p ps ih =>
    rw [List.any_cons, List.find?_cons, ih]
    cases eq p.1 k <;> simp

/-- Common part of `put` and `memoize`: adding a fresh entry at the end of its chain. -/
theorem add_inv {cb : Callbacks K} (hc : Contract cb) {m : Map K V} (h : Inv cb m) (k : K) (v : V)
    (c : List (Entry K V))
    (hb : m.buckets[(calcIndex m.bucketCount (hashKey cb k)).toNat]? = some c)
    (hn : (entries m).find? (fun e => cb.equals e.key k) = none) :
    Inv cb (Map.mk (m.buckets.set (calcIndex m.bucketCount (hashKey cb k)).toNat
              (c ++ [⟨k, hashKey cb k, v⟩])) m.bucketCount (m.size + 1)) ∧
    (entries (Map.mk (m.buckets.set (calcIndex m.bucketCount (hashKey cb k)).toNat
              (c ++ [⟨k, hashKey cb k, v⟩])) m.bucketCount (m.size + 1))).Perm
      (entries m ++ [⟨k, hashKey cb k, v⟩]) := by
  obtain ⟨rest, h1, h2, h3⟩ := split_bucket hc h k c hb
  have hperm : (m.buckets.set (calcIndex m.bucketCount (hashKey cb k)).toNat
              (c ++ [⟨k, hashKey cb k, v⟩])).flatten.Perm (entries m ++ [⟨k, hashKey cb k, v⟩]) := by
    refine (h3 _).trans ?_
    refine List.Perm.trans ?_ (List.Perm.append_right _ h1.symm)
    simp only [List.append_assoc]
    exact List.Perm.append_left c List.perm_append_comm
  refine ⟨⟨by simp [h.len], h.pow, ?_, ?_, ?_⟩, hperm⟩
  · refine placed_set h.placed ?_
    intro e he
    rcases List.mem_append.1 he with he | he
    · exact h.placed _ _ hb e he
    · simp at he; subst he; exact ⟨rfl, rfl⟩
  · refine placed_perm_distinct hc hperm.symm ?_
    unfold DistinctKeys
    rw [List.pairwise_append]
    refine ⟨h.distinct, by simp, ?_⟩
    intro a ha b hb
    simp at hb; subst hb
    have := List.find?_eq_none.1 hn a ha
    simpa using this
  · simp only [entries]; rw [hperm.length_eq]; simp [h.size]

/-- One API call: never undefined, same answer as the dictionary, still represents it. -/
theorem step_sim {null : V} {cb : Callbacks K} (hc : Contract cb) {m : Map K V} {d : Dict K V}
    (h : Rep cb m d) (op : Op K V) :
    ∃ m', step null cb m op = some (m', (Spec.step null cb.equals d op).2) ∧
      Rep cb m' (Spec.step null cb.equals d op).1 := by
  cases op with
  | get k =>
    obtain ⟨c, hb⟩ := h.1.bucket (hashKey cb k)
    refine ⟨m, ?_, h⟩
    simp only [step, get, hb, Spec.step, h.lookup_eq hc, find_eq_entries hc h.1 k c hb]
    cases List.find? (fun e => cb.equals e.key k) (entries m) <;> simp
  | contains k =>
    obtain ⟨c, hb⟩ := h.1.bucket (hashKey cb k)
    refine ⟨m, ?_, h⟩
    simp only [step, containsKey, hb, Spec.step, h.lookup_eq hc, find_eq_entries hc h.1 k c hb]
    cases List.find? (fun e => cb.equals e.key k) (entries m) <;> simp
  | size =>
    refine ⟨m, ?_, h⟩
    simp only [step, size, Spec.step]
    rw [← h.2.length_eq, h.1.size]; simp [pairs]
  | remove k =>
    obtain ⟨c, hb⟩ := h.1.bucket (hashKey cb k)
    obtain ⟨rest, h1, h2, h3⟩ := split_bucket hc h.1 k c hb
    have hdc : DistinctKeys cb c :=
      (List.pairwise_append.1 (placed_perm_distinct hc h1 h.1.distinct)).1
    have hfind := find_eq_entries hc h.1 k c hb
    rw [findChain_eq hc k c (bucket_hashes h.1 hb)] at hfind
    simp only [step, remove, hb, removeChain_spec hc k c (bucket_hashes h.1 hb) hdc, Spec.step,
      h.lookup_eq hc, hfind]
    have herase : (erase cb.equals d k).Perm ((pairs m).filter (fun p => !cb.equals p.1 k)) :=
      (h.2.filter _).symm
    have hpf : (pairs m).filter (fun p => !cb.equals p.1 k) =
        ((entries m).filter (fun e => !cb.equals e.key k)).map (fun e => (e.key, e.value)) := by
      unfold pairs; rw [List.filter_map]; rfl
    cases hf : List.find? (fun e => cb.equals e.key k) (entries m) with
    | none =>
      refine ⟨m, by simp, h.1, ?_⟩
      refine List.Perm.trans ?_ herase.symm
      rw [hpf, List.filter_eq_self.2]
      · exact List.Perm.refl _
      · intro e he
        have := List.find?_eq_none.1 hf e he
        simpa using this
    | some e =>
      have hperm : (m.buckets.set (calcIndex m.bucketCount (hashKey cb k)).toNat
          (c.filter (fun e => !cb.equals e.key k))).flatten.Perm
          ((entries m).filter (fun e => !cb.equals e.key k)) := by
        refine (h3 _).trans ?_
        refine List.Perm.trans ?_ (h1.filter _).symm
        rw [List.filter_append]
        refine List.Perm.append_left _ ?_
        rw [List.filter_eq_self.2]
        intro e he; simp [h2 e he]
      refine ⟨Map.mk (m.buckets.set (calcIndex m.bucketCount (hashKey cb k)).toNat
          (c.filter (fun e => !cb.equals e.key k))) m.bucketCount (m.size - 1),
          by simp only [Option.map_some]; rfl, ⟨by simp [h.1.len], h.1.pow, ?_, ?_, ?_⟩, ?_⟩
      · refine placed_set h.1.placed ?_
        intro e he
        exact h.1.placed _ _ hb e (List.mem_filter.1 he).1
      · exact placed_perm_distinct hc hperm.symm (h.1.distinct.filter _)
      · simp only [entries]
        rw [hperm.length_eq, h.1.size]
        -- exactly one entry matches
        have hmem := List.mem_of_find?_eq_some hf
        have hek : cb.equals e.key k = true := by simpa using List.find?_some hf
        have hone : ∀ es : List (Entry K V), DistinctKeys cb es → e ∈ es →
            es.length - 1 = (es.filter (fun e => !cb.equals e.key k)).length := by
          intro es hde hme
          induction es with
          | nil => simp at hme
          | cons x xs ih =>
            have hd2 := List.pairwise_cons.1 hde
            rw [List.filter_cons]
            cases hx : cb.equals x.key k with
            | true =>
              simp only [Bool.not_true, Bool.false_eq_true, if_false]
              rw [List.filter_eq_self.2]
              · simp
              · intro y hy
                have h5 := hd2.1 y hy
                cases h6 : cb.equals y.key k with
                | false => rfl
                | true =>
                  have := hc.trans _ _ _ hx (hc.symm _ _ h6)
                  simp [this] at h5
            | false =>
              have hme' : e ∈ xs := by
                rcases List.mem_cons.1 hme with rfl | h7
                · simp [hek] at hx
                · exact h7
              have := ih hd2.2 hme'
              have hpos : 0 < xs.length := List.length_pos_of_mem hme'
              simp only [Bool.not_false, if_true, List.length_cons]
              omega
        exact hone _ h.1.distinct hmem
      · refine List.Perm.trans ?_ herase.symm
        rw [hpf]
        exact hperm.map _
  | put k v a1 a2 =>
    obtain ⟨c, hb⟩ := h.1.bucket (hashKey cb k)
    obtain ⟨rest, h1, h2, h3⟩ := split_bucket hc h.1 k c hb
    have hdc : DistinctKeys cb c :=
      (List.pairwise_append.1 (placed_perm_distinct hc h1 h.1.distinct)).1
    have hfind := find_eq_entries hc h.1 k c hb
    rw [findChain_eq hc k c (bucket_hashes h.1 hb)] at hfind
    have hps := putChain_spec hc k v a1 c (bucket_hashes h.1 hb)
    simp only [step, put, hb, Spec.step, h.lookup_eq hc]
    cases hf : List.find? (fun e => cb.equals e.key k) (entries m) with
    | none =>
      rw [hfind, hf] at hps
      have hlk : lookup cb.equals d k = none := by rw [h.lookup_eq hc, hf]; rfl
      cases a1 with
      | false =>
        simp only [Bool.false_eq_true, if_false] at hps
        simp only [hps, Option.map_some, Option.map_none]
        exact ⟨m, rfl, h⟩
      | true =>
        simp only [if_true] at hps
        obtain ⟨hinv, hperm⟩ := add_inv hc h.1 k v c hb hf
        obtain ⟨m', he1, he2, he3⟩ := expand_spec hc hinv a2
        simp only [hps, he1, Option.map_some, Option.map_none]
        refine ⟨m', rfl, he2, ?_⟩
        simp only [if_true, Spec.insert, any_iff_lookup, hlk, Option.isSome_none, Bool.false_eq_true, if_false]
        unfold pairs
        refine ((he3.trans hperm).map _).trans ?_
        rw [List.map_append]
        exact List.Perm.append_right _ h.2
    | some e =>
      rw [hfind, hf] at hps
      have hlk : lookup cb.equals d k = some e.value := by rw [h.lookup_eq hc, hf]; rfl
      have hch := putChain_found hc k v a1 c (bucket_hashes h.1 hb) hdc (by rw [hfind, hf]; rfl)
      rw [hps]
      simp only [Option.map_some]
      rw [hch]
      have hperm : (m.buckets.set (calcIndex m.bucketCount (hashKey cb k)).toNat
          (c.map (fun e => if cb.equals e.key k then { e with value := v } else e))).flatten.Perm
          ((entries m).map (fun e => if cb.equals e.key k then { e with value := v } else e)) := by
        refine (h3 _).trans ?_
        refine List.Perm.trans ?_ (h1.map _).symm
        rw [List.map_append]
        refine List.Perm.append_left _ ?_
        rw [List.map_congr_left (g := id) ?_, List.map_id]
        intro x hx; simp [h2 x hx]
      refine ⟨_, rfl, ⟨by simp [h.1.len], h.1.pow, ?_, ?_, ?_⟩, ?_⟩
      · refine placed_set h.1.placed ?_
        intro x hx
        obtain ⟨y, hy, rfl⟩ := List.mem_map.1 hx
        have := h.1.placed _ _ hb y hy
        split <;> exact this
      · refine placed_perm_distinct hc hperm.symm ?_
        unfold DistinctKeys
        rw [List.pairwise_map]
        refine h.1.distinct.imp ?_
        intro a b hab
        split <;> split <;> exact hab
      · simp only [entries]; rw [hperm.length_eq, h.1.size]; simp
      · simp only [Spec.insert, any_iff_lookup, hlk, Option.isSome_some, if_true]
        refine List.Perm.trans (hperm.map _) ?_
        refine List.Perm.trans ?_ (h.2.map _)
        unfold pairs
        rw [List.map_map, List.map_map]
        refine List.Perm.of_eq (List.map_congr_left ?_)
        intro x _
        simp only [Function.comp_apply]
        split <;> rfl
  | memoize k v a1 a2 =>
    obtain ⟨c, hb⟩ := h.1.bucket (hashKey cb k)
    have hfind := find_eq_entries hc h.1 k c hb
    rw [findChain_eq hc k c (bucket_hashes h.1 hb)] at hfind
    have hps := memoChain_spec hc k v a1 c (bucket_hashes h.1 hb)
    simp only [step, memoize, hb, Spec.step, h.lookup_eq hc]
    cases hf : List.find? (fun e => cb.equals e.key k) (entries m) with
    | none =>
      rw [hfind, hf] at hps
      have hlk : lookup cb.equals d k = none := by rw [h.lookup_eq hc, hf]; rfl
      cases a1 with
      | false =>
        simp only [Bool.false_eq_true, if_false] at hps
        simp only [hps, Option.map_some, Option.map_none]
        exact ⟨m, rfl, h⟩
      | true =>
        simp only [if_true] at hps
        obtain ⟨hinv, hperm⟩ := add_inv hc h.1 k v c hb hf
        obtain ⟨m', he1, he2, he3⟩ := expand_spec hc hinv a2
        simp only [hps, he1, Option.map_some, Option.map_none]
        refine ⟨m', rfl, he2, ?_⟩
        simp only [if_true, Spec.insert, any_iff_lookup, hlk, Option.isSome_none, Bool.false_eq_true, if_false]
        unfold pairs
        refine ((he3.trans hperm).map _).trans ?_
        rw [List.map_append]
        exact List.Perm.append_right _ h.2
    | some e =>
      rw [hfind, hf] at hps
      simp only [hps, Option.map_some]
      have hset : m.buckets.set (calcIndex m.bucketCount (hashKey cb k)).toNat c = m.buckets := by
        have hlt := (List.getElem?_eq_some_iff.1 hb).1
        have := (List.getElem?_eq_some_iff.1 hb).2
        rw [← this]; exact List.set_getElem_self hlt
      refine ⟨m, ?_, h⟩
      rw [hset]

theorem run_sim {null : V} {cb : Callbacks K} (hc : Contract cb) (ops : List (Op K V)) :
    ∀ {m : Map K V} {d : Dict K V}, Rep cb m d →
    ∃ m', run null cb m ops = some (m', (Spec.run null cb.equals d ops).2) ∧
      Rep cb m' (Spec.run null cb.equals d ops).1 := by
  induction ops with
  | nil => intro m d h; exact ⟨m, rfl, h⟩
  | cons op ops ih =>
    intro m d h
    obtain ⟨m1, h1, h2⟩ := step_sim (null := null) hc h op
    obtain ⟨m2, h3, h4⟩ := ih h2
    refine ⟨m2, ?_, h4⟩
    simp only [run, h1, h3, Spec.run]

/-- A freshly created map represents the empty dictionary. -/
theorem create_rep {cb : Callbacks K} (cap : BitVec 64) (a1 a2 : Bool) {m : Map K V}
    (h : create K V cap a1 a2 = .ok m) : Rep cb m [] := by
  unfold create at h
  split at h
  · obtain ⟨bc, j, h1, _, h3, h4, _, _⟩ := growLoop_spec 64 0 1#64 (minBucketCount cap)
      (minBucketCount_lt cap) (by omega) (by omega) (by simp)
    rw [h1] at h
    simp only at h
    split at h
    · rename_i hcal
      injection h with h
      subst h
      have hj : j ≤ 60 := by
        have : bc.toNat * 8 < 2 ^ 64 := by
          unfold callocOk at hcal; simp at hcal; simpa using hcal.2
        rw [h4] at this
        have h3' : (2:Nat) ^ j * 2 ^ 3 < 2 ^ 64 := by simpa using this
        rw [← Nat.pow_add] at h3'
        have := (Nat.pow_lt_pow_iff_right (a := 2) (by omega)).1 h3'
        omega
      refine ⟨⟨by simp, ⟨j, hj, h4⟩, replicate_placed _, ?_, ?_⟩, ?_⟩
      · simp [DistinctKeys, entries]
      · simp [entries]
      · simp [pairs, entries]
    · simp at h
  · simp at h

/-! ### for-each -/

omit [DecidableEq K] in
theorem forEachChain_append {S : Type} (f : S → K → V → S × Bool) (s : S)
    (c c' : List (Entry K V)) :
    forEachChain f s (c ++ c') =
      match forEachChain f s c with
      | (s', false) => (s', false)
      | (s', true) => forEachChain f s' c' := by
  induction c generalizing s with
  | nil => rfl
  | cons e es ih =>
    simp only [List.cons_append, forEachChain]
    cases hf : f s e.key e.value with
    | mk s' b => cases b <;> simp [ih]

omit [DecidableEq K] in
theorem forEachBuckets_flatten {S : Type} (f : S → K → V → S × Bool) (s : S)
    (bs : List (List (Entry K V))) :
    forEachBuckets f s bs = (forEachChain f s bs.flatten).1 := by
  induction bs generalizing s with
  | nil => rfl
  | cons b bs ih =>
    rw [List.flatten_cons, forEachChain_append, forEachBuckets]
    cases h : forEachChain f s b with
    | mk s' fl => cases fl <;> simp [ih]

end Verif.Hashmap
