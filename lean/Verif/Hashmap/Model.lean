/-
Model of /repo/src/hashmap.c (chained hash map).

Conventions
* `none` of an operation means *undefined behaviour* (an access outside the
  bucket array).  Nothing is totalised: the theorems have to exclude `none`.
* malloc / calloc outcomes are inputs (`Bool`), so every pattern of allocation
  failure is covered.
* `size_t` is `BitVec 64`, `int` is `BitVec 32` (LP64).
* A client pointer (`void *key`) is an element of `K`; pointer identity is
  decidable equality on `K`.  `void *value` is an element of `V`, `null : V`.
* Simplification: the `HASHMAP_ENABLE_CONCURRNCEY` lock is not modelled (it is
  compiled out in this repository).
-/
namespace Verif.Hashmap

/-- src/hashmap.c:35-41 `struct Entry` (without `next`; a chain is a list). -/
structure Entry (K V : Type) where
  key : K
  hash : BitVec 32
  value : V
deriving DecidableEq, Repr

/-- The two client callbacks stored in `struct Hashmap`, src/hashmap.c:45-46. -/
structure Callbacks (K : Type) where
  hash : K → BitVec 32
  equals : K → K → Bool

/-- src/hashmap.c:42-51 `struct Hashmap`.
Simplification: `size` is a `Nat`; every counted entry is a separate live
malloc block, so the real `size_t` counter cannot wrap. -/
structure Map (K V : Type) where
  buckets : List (List (Entry K V))
  bucketCount : BitVec 64
  size : Nat

/-- src/hashmap.c:65-68: `while (bucketCount <= minimumBucketCount) bucketCount <<= 1;`
with `bucketCount` a `size_t`.  `fuel` bounds the number of iterations; `none` means
that the loop is still running after `fuel` iterations (the theorems show that 64
iterations always suffice). -/
def growLoop (fuel : Nat) (bc minBc : BitVec 64) : Option (BitVec 64) :=
  if bc ≤ minBc then
    match fuel with
    | 0 => none
    | f + 1 => growLoop f (bc <<< 1) minBc
  else some bc

/-- src/hashmap.c:63: `size_t minimumBucketCount = initialCapacity * 4 / 3;` (wrapping). -/
def minBucketCount (initialCapacity : BitVec 64) : BitVec 64 :=
  (initialCapacity * 4#64) / 3#64

/-- `calloc(n, sizeof(Entry*))` (8-byte pointers): fails when the byte count
does not fit `size_t` (C standard / glibc), otherwise as the oracle says. -/
def callocOk (oracle : Bool) (n : BitVec 64) : Bool :=
  oracle && decide (n.toNat * 8 < 2 ^ 64)

/-- Result of `hashmapCreate`. -/
inductive CreateRes (K V : Type) where
  | diverged            -- the loop of L65 did not stop
  | nomem               -- returned NULL
  | ok (m : Map K V)

/-- src/hashmap.c:52-84 `hashmapCreate`.  `a1` / `a2`: outcomes of the two allocations. -/
def create (K V : Type) (initialCapacity : BitVec 64) (a1 a2 : Bool) : CreateRes K V :=
  if a1 then
    match growLoop 64 1#64 (minBucketCount initialCapacity) with
    | none => .diverged
    | some bc =>
      if callocOk a2 bc then
        .ok { buckets := List.replicate bc.toNat [], bucketCount := bc, size := 0 }
      else .nomem
  else .nomem

/-- src/hashmap.c:92-95, the secondary hash, with two's-complement wrap-around
(what gcc/clang emit for the project's flags). -/
def mix (h0 : BitVec 32) : BitVec 32 :=
  let h1 := h0 + ~~~(h0 <<< 9)
  let h2 := h1 ^^^ (h1 >>> 14)
  let h3 := h2 + (h2 <<< 4)
  h3 ^^^ (h3 >>> 10)

/-- The same lines under the letter of the C standard: `none` when a signed
left shift or a signed addition overflows (undefined behaviour). -/
def mixStrict (h0 : BitVec 32) : Option (BitVec 32) :=
  let shl (h : BitVec 32) (n : Nat) : Option (BitVec 32) :=
    if 0 ≤ h.toInt ∧ h.toInt * 2 ^ n < 2 ^ 31 then some (h <<< n) else none
  let add (a b : BitVec 32) : Option (BitVec 32) :=
    if -2 ^ 31 ≤ a.toInt + b.toInt ∧ a.toInt + b.toInt < 2 ^ 31 then some (a + b) else none
  do
    let s1 ← shl h0 9
    let h1 ← add h0 (~~~s1)
    let h2 := h1 ^^^ (h1 >>> 14)
    let s2 ← shl h2 4
    let h3 ← add h2 s2
    return h3 ^^^ (h3 >>> 10)

/-- src/hashmap.c:88-98 `hashKey`. -/
def hashKey {K : Type} (cb : Callbacks K) (k : K) : BitVec 32 := mix (cb.hash k)

/-- src/hashmap.c:102-104 `calculateIndex`: `((size_t) hash) & (bucketCount - 1)`;
the conversion of the signed `int` sign-extends. -/
def calcIndex (bucketCount : BitVec 64) (hash : BitVec 32) : BitVec 64 :=
  hash.signExtend 64 &&& (bucketCount - 1#64)

/-- src/hashmap.c:179-188 `equalKeys`. -/
def equalKeys {K : Type} [DecidableEq K] (cb : Callbacks K)
    (keyA : K) (hashA : BitVec 32) (keyB : K) (hashB : BitVec 32) : Bool :=
  if keyA = keyB then true
  else if hashA ≠ hashB then false
  else cb.equals keyA keyB

variable {K V : Type} [DecidableEq K]

/-- src/hashmap.c:119-126: one iteration of the inner loop of the rehash:
prepend the entry to its new bucket. -/
def rehashOne (newCount : BitVec 64) (nb : List (List (Entry K V))) (e : Entry K V) :
    Option (List (List (Entry K V))) :=
  let idx := (calcIndex newCount e.hash).toNat
  match nb[idx]? with
  | none => none
  | some chain => some (nb.set idx (e :: chain))

/-- src/hashmap.c:117-127: both loops of the rehash. -/
def rehash (newCount : BitVec 64) (old : List (List (Entry K V))) :
    Option (List (List (Entry K V))) :=
  old.foldlM (fun nb chain => chain.foldlM (rehashOne newCount) nb)
    (List.replicate newCount.toNat [])

/-- src/hashmap.c:105-133 `expandIfNecessary`; `a` is the outcome of the calloc. -/
def expandIfNecessary (a : Bool) (m : Map K V) : Option (Map K V) :=
  if m.size > (m.bucketCount * 3#64 / 4#64).toNat then
    let newCount := m.bucketCount <<< 1
    if callocOk a newCount then
      match rehash newCount m.buckets with
      | none => none
      | some nb => some { m with buckets := nb, bucketCount := newCount }
    else some m
  else some m

/-- What a walk of `hashmapPut` along a chain found. -/
inductive ChainRes (V : Type) where
  | added | nomem | found (old : V)
deriving DecidableEq, Repr

/-- src/hashmap.c:194-220: the loop of `hashmapPut` over one chain.
`a` is the outcome of `createEntry`'s malloc. -/
def putChain (cb : Callbacks K) (k : K) (h : BitVec 32) (v : V) (a : Bool) :
    List (Entry K V) → ChainRes V × List (Entry K V)
  | [] => if a then (.added, [⟨k, h, v⟩]) else (.nomem, [])
  | e :: es =>
    if equalKeys cb e.key e.hash k h then (.found e.value, { e with value := v } :: es)
    else
      let r := putChain cb k h v a es
      (r.1, e :: r.2)

/-- Result code of an operation: `0` or `-ENOMEM`. -/
inductive Rc where
  | ok | enomem
deriving DecidableEq, Repr

/-- src/hashmap.c:190-221 `hashmapPut` (with non-NULL `p_res`).
Returns the code and what was written to `*p_res` (`none`: not written). -/
def put (null : V) (cb : Callbacks K) (m : Map K V) (k : K) (v : V) (a1 a2 : Bool) :
    Option (Map K V × Rc × Option V) :=
  let h := hashKey cb k
  let idx := (calcIndex m.bucketCount h).toNat
  match m.buckets[idx]? with
  | none => none
  | some chain =>
    match putChain cb k h v a1 chain with
    | (.nomem, _) => some (m, .enomem, none)
    | (.found old, chain') => some ({ m with buckets := m.buckets.set idx chain' }, .ok, some old)
    | (.added, chain') =>
      match expandIfNecessary a2 { m with buckets := m.buckets.set idx chain', size := m.size + 1 } with
      | none => none
      | some m' => some (m', .ok, some null)

/-- src/hashmap.c:226-231 / 238-243: the search loop of `hashmapGet` and
`hashmapContainsKey` over one chain. -/
def findChain (cb : Callbacks K) (k : K) (h : BitVec 32) : List (Entry K V) → Option (Entry K V)
  | [] => none
  | e :: es => if equalKeys cb e.key e.hash k h then some e else findChain cb k h es

/-- src/hashmap.c:222-233 `hashmapGet`. -/
def get (null : V) (cb : Callbacks K) (m : Map K V) (k : K) : Option V :=
  let h := hashKey cb k
  match m.buckets[(calcIndex m.bucketCount h).toNat]? with
  | none => none
  | some chain => match findChain cb k h chain with
    | some e => some e.value
    | none => some null

/-- src/hashmap.c:234-245 `hashmapContainsKey`. -/
def containsKey (cb : Callbacks K) (m : Map K V) (k : K) : Option Bool :=
  let h := hashKey cb k
  match m.buckets[(calcIndex m.bucketCount h).toNat]? with
  | none => none
  | some chain => match findChain cb k h chain with
    | some _ => some true
    | none => some false

/-- src/hashmap.c:252-278: the loop of `hashmapMemoize` over one chain.
`init` is what the callback returns if it is called; the callback is called
exactly when the result is `.added`.
Simplification: the callback does not re-enter the map. -/
def memoChain (cb : Callbacks K) (k : K) (h : BitVec 32) (init : V) (a : Bool) :
    List (Entry K V) → ChainRes V × List (Entry K V)
  | [] => if a then (.added, [⟨k, h, init⟩]) else (.nomem, [])
  | e :: es =>
    if equalKeys cb e.key e.hash k h then (.found e.value, e :: es)
    else
      let r := memoChain cb k h init a es
      (r.1, e :: r.2)

/-- src/hashmap.c:246-279 `hashmapMemoize`.  Returns the code, what was written
to `*p_res`, and the number of calls made to `initialValue`. -/
def memoize (cb : Callbacks K) (m : Map K V) (k : K) (init : V) (a1 a2 : Bool) :
    Option (Map K V × Rc × Option V × Nat) :=
  let h := hashKey cb k
  let idx := (calcIndex m.bucketCount h).toNat
  match m.buckets[idx]? with
  | none => none
  | some chain =>
    match memoChain cb k h init a1 chain with
    | (.nomem, _) => some (m, .enomem, none, 0)
    | (.found old, chain') =>
      some ({ m with buckets := m.buckets.set idx chain' }, .ok, some old, 0)
    | (.added, chain') =>
      match expandIfNecessary a2 { m with buckets := m.buckets.set idx chain', size := m.size + 1 } with
      | none => none
      | some m' => some (m', .ok, some init, 1)

/-- src/hashmap.c:286-295: the loop of `hashmapRemove` over one chain. -/
def removeChain (cb : Callbacks K) (k : K) (h : BitVec 32) :
    List (Entry K V) → Option V × List (Entry K V)
  | [] => (none, [])
  | e :: es =>
    if equalKeys cb e.key e.hash k h then (some e.value, es)
    else
      let r := removeChain cb k h es
      (r.1, e :: r.2)

/-- src/hashmap.c:280-297 `hashmapRemove`. -/
def remove (null : V) (cb : Callbacks K) (m : Map K V) (k : K) : Option (Map K V × V) :=
  let h := hashKey cb k
  let idx := (calcIndex m.bucketCount h).toNat
  match m.buckets[idx]? with
  | none => none
  | some chain =>
    match removeChain cb k h chain with
    | (some v, chain') =>
      some ({ m with buckets := m.buckets.set idx chain', size := m.size - 1 }, v)
    | (none, _) => some (m, null)

/-- src/hashmap.c:303-309: the inner loop of `hashmapForEach` over one chain.
The client callback is a state transformer `S → K → V → S × Bool` (its state also
stands for `context`); the result flag says whether to go on. -/
def forEachChain {S : Type} (f : S → K → V → S × Bool) (s : S) : List (Entry K V) → S × Bool
  | [] => (s, true)
  | e :: es =>
    match f s e.key e.value with
    | (s', false) => (s', false)
    | (s', true) => forEachChain f s' es

/-- src/hashmap.c:298-311 `hashmapForEach`. -/
def forEachBuckets {S : Type} (f : S → K → V → S × Bool) (s : S) :
    List (List (Entry K V)) → S
  | [] => s
  | c :: cs =>
    match forEachChain f s c with
    | (s', false) => s'
    | (s', true) => forEachBuckets f s' cs

/-- src/hashmap.c:298-311 `hashmapForEach` on a map. -/
def forEach {S : Type} (f : S → K → V → S × Bool) (s : S) (m : Map K V) : S :=
  forEachBuckets f s m.buckets

/-- src/hashmap.c:99-101 `hashmapSize`. -/
def size (m : Map K V) : Nat := m.size

/-- src/hashmap.c:312-315 `hashmapCurrentCapacity`. -/
def currentCapacity (m : Map K V) : BitVec 64 := m.bucketCount * 3#64 / 4#64

/-- src/hashmap.c:316-329 `hashmapCountCollisions`: every entry that has a
successor in its chain counts one. -/
def countCollisions (m : Map K V) : Nat :=
  (m.buckets.map (fun c => c.length - 1)).sum

/-- src/hashmap.c:142-157 `hashmapFree`: the entries passed to `free`, in order. -/
def freedEntries (m : Map K V) : List (Entry K V) :=
  m.buckets.foldl (fun acc c => acc ++ c) []

/-- The operations of include/metac/backend/hashmap.h a client can interleave;
`Bool` arguments are the outcomes of the allocations the call may make. -/
inductive Op (K V : Type) where
  | put (k : K) (v : V) (a1 a2 : Bool)
  | get (k : K)
  | contains (k : K)
  | memoize (k : K) (init : V) (a1 a2 : Bool)
  | remove (k : K)
  | size

/-- What the client observes from one operation. -/
inductive Obs (V : Type) where
  | put (rc : Rc) (res : Option V)
  | get (v : V)
  | contains (b : Bool)
  | memoize (rc : Rc) (res : Option V) (calls : Nat)
  | remove (v : V)
  | size (n : Nat)
deriving DecidableEq, Repr

/-- One API call; `none` is undefined behaviour. -/
def step (null : V) (cb : Callbacks K) (m : Map K V) : Op K V → Option (Map K V × Obs V)
  | .put k v a1 a2 => (put null cb m k v a1 a2).map fun (m', rc, r) => (m', .put rc r)
  | .get k => (get null cb m k).map fun v => (m, .get v)
  | .contains k => (containsKey cb m k).map fun b => (m, .contains b)
  | .memoize k i a1 a2 => (memoize cb m k i a1 a2).map fun (m', rc, r, n) => (m', .memoize rc r n)
  | .remove k => (remove null cb m k).map fun (m', v) => (m', .remove v)
  | .size => some (m, .size (size m))

/-- A history of API calls and the list of observations. -/
def run (null : V) (cb : Callbacks K) : Map K V → List (Op K V) → Option (Map K V × List (Obs V))
  | m, [] => some (m, [])
  | m, op :: ops =>
    match step null cb m op with
    | none => none
    | some (m', o) =>
      match run null cb m' ops with
      | none => none
      | some (m'', os) => some (m'', o :: os)

end Verif.Hashmap
