import Verif.Hashmap.Lemmas
/-
Property theorems for the hash map (C01-C06, C49).
The specification they refer to is in `Spec.lean`.
-/
namespace Verif.Hashmap
open Verif.Hashmap.Spec

variable {K V : Type} [DecidableEq K]

/-- `m` can be produced by some client: created with some capacity and then driven
by some history of API calls (with some allocation outcomes), which `m` and the
dictionary `d` went through together. -/
def Reachable (null : V) (cb : Callbacks K) (m : Map K V) (d : Dict K V) : Prop :=
  ∃ cap a1 a2 m0 ops os, create K V cap a1 a2 = .ok m0 ∧ run null cb m0 ops = some (m, os) ∧
    (Spec.run null cb.equals [] ops).1 = d

theorem Reachable.rep {null : V} {cb : Callbacks K} (hc : Contract cb) {m : Map K V} {d : Dict K V}
    (h : Reachable null cb m d) : Rep cb m d := by
  obtain ⟨cap, a1, a2, m0, ops, os, h1, h2, h3⟩ := h
  obtain ⟨m', h4, h5⟩ := run_sim (null := null) hc ops (create_rep (cb := cb) cap a1 a2 h1)
  rw [h4] at h2
  have : m' = m := by simpa using (Prod.mk.inj (Option.some.inj h2)).1
  rw [← this, ← h3]; exact h5

/-- **C01.** Every history of API calls on a created map is free of undefined
behaviour and produces exactly the observations of a plain dictionary, for every
initial capacity, every lawful pair of callbacks and every pattern of allocation
failures. -/
theorem C01_hashmap_is_dictionary (null : V) (cb : Callbacks K) (hc : Contract cb)
    (cap : BitVec 64) (a1 a2 : Bool) (m : Map K V) (hm : create K V cap a1 a2 = .ok m)
    (ops : List (Op K V)) :
    ∃ m', run null cb m ops = some (m', (Spec.run null cb.equals [] ops).2) := by
  obtain ⟨m', h, _⟩ := run_sim (null := null) hc ops (create_rep (cb := cb) cap a1 a2 hm)
  exact ⟨m', h⟩

/-- What `hashmapForEach` reports when the callback records everything and never
asks to stop. -/
def reported (m : Map K V) : List (K × V) :=
  forEach (fun acc k v => (acc ++ [(k, v)], true)) [] m

omit [DecidableEq K] in
theorem reported_eq (m : Map K V) : reported m = pairs m := by
  unfold reported forEach
  rw [forEachBuckets_flatten]
  have : ∀ (es : List (Entry K V)) (acc : List (K × V)),
      (forEachChain (fun acc k v => (acc ++ [(k, v)], true)) acc es).1 =
        acc ++ es.map (fun e => (e.key, e.value)) := by
    intro es
    induction es with
    | nil => intro acc; simp [forEachChain]
    | cons e es ih => intro acc; simp [forEachChain, ih]
  simpa [pairs, entries] using this m.buckets.flatten []

/-- **C02.** After any history: `hashmapSize` is the number of pairs in the
dictionary, a full `hashmapForEach` reports exactly the dictionary's pairs (each once,
in some order), and no two reported keys are equal. -/
theorem C02_size_counts_distinct_keys (null : V) (cb : Callbacks K) (hc : Contract cb)
    (m : Map K V) (d : Dict K V) (h : Reachable null cb m d) :
    size m = d.length ∧ (reported m).Perm d ∧
      (reported m).Pairwise (fun p q => cb.equals p.1 q.1 = false) := by
  have hr := h.rep hc
  rw [reported_eq]
  refine ⟨?_, hr.2, ?_⟩
  · rw [← hr.2.length_eq]; simp [size, hr.1.size, pairs]
  · unfold pairs; rw [List.pairwise_map]; exact hr.1.distinct

/-- **C02 (collisions).** After any history the collisions counted are the pairs that are not the first
of their chain: with one for each chain in use they make up the size; there are none exactly if no
two pairs share a chain. -/
theorem C02_collisions (null : V) (cb : Callbacks K) (hc : Contract cb)
    (m : Map K V) (d : Dict K V) (h : Reachable null cb m d) :
    countCollisions m + (m.buckets.filter fun c => !c.isEmpty).length = d.length ∧
      (countCollisions m = 0 ↔ ∀ c ∈ m.buckets, c.length ≤ 1) := by
  have hs := (C02_size_counts_distinct_keys null cb hc m d h).1
  have hr := h.rep hc
  have e : size m = m.buckets.flatten.length := by rw [size, hr.1.size]; rfl
  rw [← hs, e]
  unfold countCollisions
  generalize m.buckets = bs
  constructor
  · induction bs with
    | nil => rfl
    | cons c bs ih =>
      cases c with
      | nil => simpa using ih
      | cons x c => simp at ih ⊢; omega
  · induction bs with
    | nil => simp
    | cons c bs ih =>
      rw [List.map_cons, List.sum_cons, Nat.add_eq_zero_iff, ih]
      simp only [List.mem_cons, forall_eq_or_imp]
      have : c.length - 1 = 0 ↔ c.length ≤ 1 := by omega
      rw [this]

/-- **C03 (creation).** For every requested capacity - including those whose scaling
wraps around `size_t` - creation terminates, and when it succeeds the bucket count
is a power of two; if the request is below 2^62 the map has room for the requested
number of entries before it has to grow. -/
theorem C03_create_power_of_two (cap : BitVec 64) (a1 a2 : Bool) :
    (match create K V cap a1 a2 with
    | .diverged => False
    | .nomem => True
    | .ok m => (∃ j, m.bucketCount.toNat = 2 ^ j) ∧
        m.buckets.length = m.bucketCount.toNat ∧
        (cap.toNat < 2 ^ 62 → cap.toNat ≤ (currentCapacity m).toNat)) := by
  obtain ⟨bc, j, h1, _, h3, h4, h5, _⟩ := growLoop_spec 64 0 1#64 (minBucketCount cap)
      (minBucketCount_lt cap) (by omega) (by omega) (by simp)
  unfold create
  cases a1 with
  | false => simp
  | true =>
    simp only [if_true, h1]
    cases hcal : callocOk a2 bc with
    | false => simp
    | true =>
      simp only [if_true]
      refine ⟨⟨j, h4⟩, by simp, ?_⟩
      intro hcap
      have hj : bc.toNat * 8 < 2 ^ 64 := by
        unfold callocOk at hcal; simp at hcal; simpa using hcal.2
      unfold currentCapacity
      rw [BitVec.toNat_udiv, BitVec.toNat_mul]
      have e3 : (3#64).toNat = 3 := rfl
      have e4 : (4#64).toNat = 4 := rfl
      have hmin : (minBucketCount cap).toNat = cap.toNat * 4 / 3 := by
        unfold minBucketCount
        rw [BitVec.toNat_udiv, BitVec.toNat_mul, e3, e4]
        rw [Nat.mod_eq_of_lt (by omega)]
      rw [← h4, hmin] at h5
      rw [e3, e4]
      simp only
      rw [Nat.mod_eq_of_lt (by omega)]
      omega

/-- **C03 (index range).** In every reachable map the bucket count is a power of two
equal to the length of the bucket array, and every 32-bit hash value (negative ones
included) selects a bucket inside the array. -/
theorem C03_index_in_range (null : V) (cb : Callbacks K) (hc : Contract cb)
    (m : Map K V) (d : Dict K V) (h : Reachable null cb m d) (hash : BitVec 32) :
    (∃ j, m.bucketCount.toNat = 2 ^ j) ∧ m.buckets.length = m.bucketCount.toNat ∧
      (calcIndex m.bucketCount hash).toNat < m.buckets.length := by
  have hr := h.rep hc
  obtain ⟨j, _, hj⟩ := hr.1.pow
  refine ⟨⟨j, hj⟩, hr.1.len, ?_⟩
  rw [hr.1.len]
  exact calcIndex_lt _ _ hr.1.pos

/-- Reference semantics of an early-stopping iteration over a list. -/
def iterUntil {S : Type} (f : S → K → V → S × Bool) : S → List (K × V) → S
  | s, [] => s
  | s, (k, v) :: rest =>
    let r := f s k v
    if r.2 then iterUntil f r.1 rest else r.1

/-- **C04.** For every map and every stateful callback, `hashmapForEach` is the
early-stopping iteration over one fixed enumeration of the map (the one a
never-stopping callback sees; by C02 that enumeration has every pair exactly once). -/
theorem C04_forEach_prefix {S : Type} (f : S → K → V → S × Bool) (s : S) (m : Map K V) :
    forEach f s m = iterUntil f s (reported m) := by
  rw [reported_eq]
  unfold forEach pairs entries
  rw [forEachBuckets_flatten]
  generalize m.buckets.flatten = es
  induction es generalizing s with
  | nil => rfl
  | cons e es ih =>
    simp only [List.map_cons, iterUntil, forEachChain]
    cases hf : f s e.key e.value with
    | mk s' b => cases b <;> simp [ih]

/-- **C05.** On every reachable map `hashmapMemoize` never misbehaves; it calls the
callback at most once, and exactly when the key is absent and memory was available;
on success the stored value is what it returned and a second memoize of the same key
returns it without calling the callback. -/
theorem C05_memoize_once (null : V) (cb : Callbacks K) (hc : Contract cb)
    (m : Map K V) (d : Dict K V) (h : Reachable null cb m d) (k : K) (init : V) (a1 a2 : Bool) :
    ∃ m' rc res calls, memoize cb m k init a1 a2 = some (m', rc, res, calls) ∧
      calls ≤ 1 ∧ (calls = 1 ↔ containsKey cb m k = some false ∧ a1 = true) ∧
      (rc = .enomem ↔ containsKey cb m k = some false ∧ a1 = false) ∧
      (calls = 1 → res = some init) ∧
      (rc = .ok → ∃ v, res = some v ∧ get null cb m' k = some v ∧
        ∀ init' b1 b2, memoize cb m' k init' b1 b2 = some (m', .ok, some v, 0)) := by
  have hr := h.rep hc
  obtain ⟨m', h1, h2⟩ := step_sim (null := null) hc hr (.memoize k init a1 a2)
  have hcont : containsKey cb m k = some (lookup cb.equals d k).isSome := by
    obtain ⟨m2, g1, _⟩ := step_sim (null := null) hc hr (.contains k)
    simp only [step, Spec.step] at g1
    cases hck : containsKey cb m k with
    | none => simp [hck] at g1
    | some b => simp [hck] at g1; simp [g1.2]
  -- looking up a memoized key again does not change the map
  have hagain : ∀ (mm : Map K V) (dd : Dict K V), Rep cb mm dd → ∀ v, lookup cb.equals dd k = some v →
      get null cb mm k = some v ∧ ∀ i b1 b2, memoize cb mm k i b1 b2 = some (mm, .ok, some v, 0) := by
    intro mm dd hrep v hv
    obtain ⟨c, hb⟩ := hrep.1.bucket (hashKey cb k)
    have hfind := find_eq_entries hc hrep.1 k c hb
    have hl := hrep.lookup_eq hc k
    rw [hv] at hl
    cases hf : (entries mm).find? (fun e => cb.equals e.key k) with
    | none => simp [hf] at hl
    | some e =>
      have hev : e.value = v := by simp [hf] at hl; exact hl.symm
      refine ⟨?_, ?_⟩
      · simp only [get, hb, hfind, hf, hev]
      · intro i b1 b2
        have hms := memoChain_spec hc k i b1 c (bucket_hashes hrep.1 hb)
        rw [← findChain_eq hc k c (bucket_hashes hrep.1 hb), hfind, hf] at hms
        have hset : mm.buckets.set (calcIndex mm.bucketCount (hashKey cb k)).toNat c = mm.buckets := by
          have hlt := (List.getElem?_eq_some_iff.1 hb).1
          have := (List.getElem?_eq_some_iff.1 hb).2
          rw [← this]; exact List.set_getElem_self hlt
        simp only [memoize, hb, hms, hset, hev]
  simp only [step] at h1
  cases hmem : memoize cb m k init a1 a2 with
  | none => simp [hmem] at h1
  | some r =>
    obtain ⟨m1, rc, res, calls⟩ := r
    simp only [hmem, Option.map_some, Option.some.injEq, Prod.mk.injEq] at h1
    obtain ⟨rfl, h3⟩ := h1
    refine ⟨m1, rc, res, calls, rfl, ?_⟩
    rw [hcont]
    simp only [Spec.step] at h3 h2
    cases hl : lookup cb.equals d k with
    | some old =>
      simp only [hl] at h3 h2
      injection h3 with e1 e2 e3
      subst e1; subst e2; subst e3
      obtain ⟨g1, g2⟩ := hagain m1 d h2 old hl
      simp [g1, g2]
    | none =>
      simp only [hl] at h3 h2
      cases a1 with
      | false =>
        simp only [Bool.false_eq_true, if_false] at h3
        injection h3 with e1 e2 e3
        subst e1; subst e2; subst e3
        simp
      | true =>
        simp only [if_true] at h3 h2
        injection h3 with e1 e2 e3
        subst e1; subst e2; subst e3
        have hlk : lookup cb.equals (Spec.insert cb.equals d k init) k = some init := by
          unfold Spec.insert
          rw [any_iff_lookup, hl]
          simp only [Option.isSome_none, Bool.false_eq_true, if_false]
          unfold lookup at hl ⊢
          rw [List.find?_append]
          have : d.find? (fun p => cb.equals p.1 k) = none := by simpa using hl
          rw [this]; simp [hc.refl]
        obtain ⟨g1, g2⟩ := hagain m1 _ h2 init hlk
        simp [g1, g2]

/-- **C06 (contents).** Expansion never loses, duplicates or alters an entry, whether
or not its allocation succeeds, in every reachable map. -/
theorem C06_expand_keeps_contents (null : V) (cb : Callbacks K) (hc : Contract cb)
    (m : Map K V) (d : Dict K V) (h : Reachable null cb m d) (a : Bool) :
    ∃ m', expandIfNecessary a m = some m' ∧ (reported m').Perm (reported m) ∧ size m' = size m ∧
      ∀ k, get null cb m' k = get null cb m k := by
  have hr := h.rep hc
  obtain ⟨m', h1, h2, h3⟩ := expand_spec hc hr.1 a
  refine ⟨m', h1, ?_, ?_, ?_⟩
  · rw [reported_eq, reported_eq]; exact h3.map _
  · simp [size, h2.size, hr.1.size, h3.length_eq]
  · intro k
    have hg : ∀ (mm : Map K V), Inv cb mm → get null cb mm k =
        some ((((entries mm).find? (fun e => cb.equals e.key k)).map (·.value)).getD null) := by
      intro mm hi
      obtain ⟨c, hb⟩ := hi.bucket (hashKey cb k)
      simp only [get, hb, find_eq_entries hc hi k c hb]
      cases (entries mm).find? (fun e => cb.equals e.key k) <;> rfl
    rw [hg m' h2, hg m hr.1, find?_perm_distinct hc k h3 h2.distinct]

theorem capacity_toNat (m : Map K V) (h : m.bucketCount.toNat ≤ 2 ^ 61) :
    (currentCapacity m).toNat = m.bucketCount.toNat * 3 / 4 := by
  unfold currentCapacity
  rw [BitVec.toNat_udiv, BitVec.toNat_mul]
  have e3 : (3#64).toNat = 3 := rfl
  have e4 : (4#64).toNat = 4 := rfl
  rw [e3, e4, Nat.mod_eq_of_lt (by omega)]

theorem expand_load (m m' : Map K V) (hpow : ∃ j, j ≤ 60 ∧ m.bucketCount.toNat = 2 ^ j)
    (hprev : m.size ≤ (currentCapacity m).toNat + 1)
    (he : expandIfNecessary true m = some m')
    (hmem : (currentCapacity m).toNat < m.size → m.bucketCount.toNat * 16 < 2 ^ 64) :
    m'.size = m.size ∧ m'.size ≤ (currentCapacity m').toNat := by
  obtain ⟨j, hj, hbc⟩ := hpow
  have hpos : 0 < m.bucketCount.toNat := by rw [hbc]; exact Nat.pow_pos (by omega)
  have hsh := twoPow_shift m.bucketCount j (by omega) hbc
  have hle : m.bucketCount.toNat ≤ 2 ^ 60 := by
    rw [hbc]; exact Nat.pow_le_pow_right (by omega) hj
  have hle2 : (m.bucketCount <<< 1).toNat = 2 * m.bucketCount.toNat := by
    rw [hsh, hbc, Nat.pow_succ]; omega
  rw [capacity_toNat m (by omega)] at hprev hmem
  unfold expandIfNecessary at he
  have hcap := capacity_toNat m (by omega)
  unfold currentCapacity at hcap
  rw [hcap] at he
  split at he
  · rename_i hgt
    have hcal : callocOk true (m.bucketCount <<< 1) = true := by
      have := hmem hgt
      unfold callocOk; simp only [Bool.true_and, decide_eq_true_eq]; omega
    simp only [hcal, if_true] at he
    split at he
    · simp at he
    · rename_i nb _
      injection he with he
      subst he
      refine ⟨rfl, ?_⟩
      rw [capacity_toNat]
      · simp only [hle2]; omega
      · simp only [hle2]; omega
  · injection he with he
    subst he
    refine ⟨rfl, ?_⟩
    rw [capacity_toNat _ (by omega)]; omega

/-- Every growth allocation of the history is granted. -/
def growthGranted : Op K V → Bool
  | .put _ _ _ a2 => a2
  | .memoize _ _ _ a2 => a2
  | _ => true

theorem step_load (null : V) (cb : Callbacks K) (hc : Contract cb) (m m' : Map K V) (d : Dict K V)
    (hrep : Rep cb m d) (op : Op K V) (o : Obs V)
    (hs : step null cb m op = some (m', o)) (hg : growthGranted op = true)
    (hload : m.size ≤ (currentCapacity m).toNat) (hsz : m.size < 2 ^ 58) :
    m'.size ≤ (currentCapacity m').toNat ∧ m'.size ≤ m.size + 1 := by
  have hbound : ∀ mm : Map K V, mm.bucketCount = m.bucketCount → mm.size = m.size + 1 →
      expandIfNecessary true mm = some m' → m'.size ≤ (currentCapacity m').toNat ∧ m'.size ≤ m.size + 1 := by
    intro mm h1 h2 h3
    have hcc : currentCapacity mm = currentCapacity m := by unfold currentCapacity; rw [h1]
    obtain ⟨j, hj, hbc⟩ := hrep.1.pow
    have hle : m.bucketCount.toNat ≤ 2 ^ 60 := by
      rw [hbc]; exact Nat.pow_le_pow_right (by omega) hj
    obtain ⟨g1, g2⟩ := expand_load mm m' ⟨j, hj, h1 ▸ hbc⟩ (by rw [hcc, h2]; omega) h3 (by
      rw [hcc, capacity_toNat m (by omega), h2, h1]
      omega)
    omega
  cases op with
  | get k =>
    simp only [step, Option.map_eq_some_iff, Prod.mk.injEq] at hs
    obtain ⟨_, _, rfl, _⟩ := hs; omega
  | contains k =>
    simp only [step, Option.map_eq_some_iff, Prod.mk.injEq] at hs
    obtain ⟨_, _, rfl, _⟩ := hs; omega
  | size =>
    simp only [step, Option.some.injEq, Prod.mk.injEq] at hs
    obtain ⟨rfl, _⟩ := hs; omega
  | remove k =>
    simp only [step, remove, Option.map_eq_some_iff, Prod.mk.injEq] at hs
    obtain ⟨⟨m1, v⟩, h1, rfl, _⟩ := hs
    split at h1
    · simp at h1
    · split at h1
      · simp only [Option.some.injEq, Prod.mk.injEq] at h1
        obtain ⟨rfl, _⟩ := h1
        simp only [currentCapacity] at hload ⊢
        omega
      · simp only [Option.some.injEq, Prod.mk.injEq] at h1
        obtain ⟨rfl, _⟩ := h1; exact ⟨hload, by simp⟩
  | put k v a1 a2 =>
    simp only [growthGranted] at hg
    subst hg
    simp only [step, put, Option.map_eq_some_iff, Prod.mk.injEq] at hs
    obtain ⟨⟨m1, rc, r⟩, h1, rfl, _⟩ := hs
    split at h1
    · simp at h1
    · split at h1
      · simp only [Option.some.injEq, Prod.mk.injEq] at h1
        obtain ⟨rfl, _⟩ := h1; exact ⟨hload, by simp⟩
      · simp only [Option.some.injEq, Prod.mk.injEq] at h1
        obtain ⟨rfl, _⟩ := h1
        simp only [currentCapacity] at hload ⊢
        omega
      · split at h1
        · simp at h1
        · rename_i m2 he
          simp only [Option.some.injEq, Prod.mk.injEq] at h1
          obtain ⟨rfl, _⟩ := h1
          exact hbound _ (by rfl) (by rfl) he
  | memoize k v a1 a2 =>
    simp only [growthGranted] at hg
    subst hg
    simp only [step, memoize, Option.map_eq_some_iff, Prod.mk.injEq] at hs
    obtain ⟨⟨m1, rc, r⟩, h1, rfl, _⟩ := hs
    split at h1
    · simp at h1
    · split at h1
      · simp only [Option.some.injEq, Prod.mk.injEq] at h1
        obtain ⟨rfl, _⟩ := h1; exact ⟨hload, by simp⟩
      · simp only [Option.some.injEq, Prod.mk.injEq] at h1
        obtain ⟨rfl, _⟩ := h1
        simp only [currentCapacity] at hload ⊢
        omega
      · split at h1
        · simp at h1
        · rename_i m2 he
          simp only [Option.some.injEq, Prod.mk.injEq] at h1
          obtain ⟨rfl, _⟩ := h1
          exact hbound _ (by rfl) (by rfl) he

/-- **C06 (load bound).** After every history of fewer than 2^58 calls in which the
growth allocations are granted, the number of stored entries is at most
`hashmapCurrentCapacity` (3/4 of the buckets). -/
theorem C06_load_bound (null : V) (cb : Callbacks K) (hc : Contract cb)
    (cap : BitVec 64) (a1 a2 : Bool) (m0 : Map K V) (hm : create K V cap a1 a2 = .ok m0)
    (ops : List (Op K V)) (hg : ∀ op ∈ ops, growthGranted op = true) (hlen : ops.length < 2 ^ 58)
    (m : Map K V) (os : List (Obs V)) (hrun : run null cb m0 ops = some (m, os)) :
    size m ≤ (currentCapacity m).toNat ∧ m.bucketCount.toNat ≤ 2 ^ 60 ∧
      (currentCapacity m).toNat = m.bucketCount.toNat * 3 / 4 := by
  have key : ∀ (ops : List (Op K V)) (m0 : Map K V) (d : Dict K V) (os : List (Obs V)),
      Rep cb m0 d → (∀ op ∈ ops, growthGranted op = true) → m0.size + ops.length < 2 ^ 58 →
      m0.size ≤ (currentCapacity m0).toNat → run null cb m0 ops = some (m, os) →
      m.size ≤ (currentCapacity m).toNat ∧ ∃ d', Rep cb m d' := by
    intro ops
    induction ops with
    | nil =>
      intro m0 d os hr _ _ hl hrun
      simp only [run, Option.some.injEq, Prod.mk.injEq] at hrun
      obtain ⟨rfl, _⟩ := hrun
      exact ⟨hl, d, hr⟩
    | cons op ops ih =>
      intro m0 d os hr hg hlen hl hrun
      obtain ⟨m1, h1, h2⟩ := step_sim (null := null) hc hr op
      simp only [run, h1] at hrun
      split at hrun
      · simp at hrun
      · rename_i m2 os2 hr2
        simp only [Option.some.injEq, Prod.mk.injEq] at hrun
        obtain ⟨rfl, _⟩ := hrun
        simp only [List.length_cons] at hlen
        obtain ⟨g1, g2⟩ := step_load null cb hc m0 m1 d hr op _ h1 (hg op (by simp)) hl (by omega)
        exact ih m1 _ os2 h2 (fun o ho => hg o (by simp [ho])) (by omega) g1 hr2
  have hrep0 := create_rep (cb := cb) cap a1 a2 hm
  have hz : m0.size = 0 := by rw [hrep0.1.size]; simpa [pairs] using hrep0.2.length_eq
  obtain ⟨h1, d', h2⟩ := key ops m0 [] os hrep0 hg (by omega) (by omega) hrun
  obtain ⟨j, hj, hbc⟩ := h2.1.pow
  have hle : m.bucketCount.toNat ≤ 2 ^ 60 := by
    rw [hbc]; exact Nat.pow_le_pow_right (by omega) hj
  exact ⟨h1, hle, capacity_toNat m (by omega)⟩

/-- **C06 (free).** `hashmapFree` releases each entry exactly once: the list of entries
passed to `free` is the list of entries in the table. -/
theorem C06_free_each_once (m : Map K V) : freedEntries m = m.buckets.flatten := by
  unfold freedEntries
  have : ∀ (bs : List (List (Entry K V))) (acc : List (Entry K V)),
      bs.foldl (fun acc c => acc ++ c) acc = acc ++ bs.flatten := by
    intro bs
    induction bs with
    | nil => simp
    | cons b bs ih => intro acc; simp [ih]
  simpa using this m.buckets []

/-- **C49 (negative).** Under the letter of the C standard the secondary hash has
undefined behaviour for *every* client hash value: the first two lines always make `h`
negative, and a negative `int` is then shifted left (src/hashmap.c:94).  The property
"hashing is defined for every key" is therefore false of the code; the other theorems
use the two's-complement result `mix` that gcc/clang produce. -/
theorem C49_mix_always_undefined (h : BitVec 32) : mixStrict h = none := by
  unfold mixStrict
  simp only [bind, Option.bind]
  split
  · rfl
  · rename_i s1 hs1
    split at hs1
    case isFalse => simp at hs1
    case isTrue hh =>
      injection hs1 with hs1
      dsimp only
      split
      · rfl
      · rename_i h1 hh1
        split at hh1
        case isFalse => simp at hh1
        case isTrue hadd =>
          injection hh1 with hh1
          -- h1 is negative
          have hnn : h.toNat < 2 ^ 22 := by
            have h0 := hh.1
            have h2 := hh.2
            rw [BitVec.toInt_eq_toNat_cond] at h0 h2
            have := h.isLt
            split at h0 <;> split at h2 <;> omega
          have hmsb1 : h1.msb = true := by
            rw [BitVec.msb_eq_decide]
            simp only [decide_eq_true_eq]
            rw [← hh1, ← hs1, BitVec.toNat_add, BitVec.toNat_not, BitVec.toNat_shiftLeft,
              Nat.shiftLeft_eq]
            rw [Nat.mod_eq_of_lt (a := h.toNat * 2 ^ 9) (by omega)]
            have hx : h.toNat + (2 ^ 32 - 1 - h.toNat * 2 ^ 9) < 2 ^ 32 := by omega
            rw [Nat.mod_eq_of_lt hx]
            omega
          have hmsb2 : (h1 ^^^ h1 >>> 14).msb = true := by
            rw [BitVec.msb_xor, hmsb1]
            simp [BitVec.msb_ushiftRight]
          have hneg : ¬ (0 ≤ (h1 ^^^ h1 >>> 14).toInt) := by
            have := BitVec.toInt_neg_of_msb_true hmsb2
            omega
          dsimp only
          rw [if_neg (fun hx => hneg hx.1)]

/-! ### Concrete, non-trivial instances of the hypotheses -/

/-- Pointer keys compared by identity, hashed by `hashmapIntHash`-like conversion. -/
def exCb : Callbacks Nat := { hash := fun k => BitVec.ofNat 32 k, equals := fun a b => a == b }

theorem exContract : Contract exCb :=
  ⟨by simp [exCb], by simp [exCb], by simp [exCb], by intro a b h; simp [exCb] at h ⊢; rw [h]⟩

/-- Keys compared modulo 4: several distinct pointers are equal keys. -/
def exCb4 : Callbacks Nat := { hash := fun k => BitVec.ofNat 32 (k % 4), equals := fun a b => a % 4 == b % 4 }

theorem exContract4 : Contract exCb4 :=
  ⟨by simp [exCb4], by simp [exCb4]; omega, by simp [exCb4]; omega,
   by intro a b h; simp [exCb4] at h ⊢; rw [h]⟩

/-- C01/C02/C05/C06: a lawful callback pair, a map that has grown twice, lost a failed
put and a removal, and still answers. -/
example : ∃ m0, create Nat Nat 0#64 true true = .ok m0 ∧
    (run 0 exCb m0 [.put 7 70 true true, .put 3 30 true true, .put 11 110 true false,
       .put 9 90 false true, .put 7 71 true true, .remove 3, .get 7, .get 3, .size]).map (·.2) =
      some [.put .ok (some 0), .put .ok (some 0), .put .ok (some 0), .put .enomem none,
        .put .ok (some 70), .remove 30, .get 71, .get 0, .size 2] := by
  refine ⟨⟨List.replicate 1 [], 1#64, 0⟩, rfl, by decide⟩

example : ∃ (m : Map Nat Nat) (d : Dict Nat Nat), Reachable 0 exCb m d ∧ d.length = 2 ∧ m.bucketCount = 4#64 :=
  ⟨_, _, ⟨0#64, true, true, ⟨List.replicate 1 [], 1#64, 0⟩,
    [.put 7 70 true true, .put 3 30 true true], _, rfl, rfl, rfl⟩, by decide, by decide⟩

/-- C06_load_bound: a history with granted growth that really grows. -/
example : ∃ (m0 m : Map Nat Nat) (os : List (Obs Nat)), create Nat Nat 0#64 true true = .ok m0 ∧
    run 0 exCb4 m0 [.put 7 70 true true, .put 2 30 true true, .put 3 5 true true] = some (m, os) ∧
    m.bucketCount = 4#64 ∧ m.size = 2 :=
  ⟨⟨List.replicate 1 [], 1#64, 0⟩, _, _, rfl, rfl, by decide, by decide⟩

end Verif.Hashmap
