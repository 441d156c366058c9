import Verif.DeepCopy.Fails
import Verif.DeepCopy.Example
/-
Concrete copies, step by step.
-/
namespace Verif.DeepCopy.Example
open Verif Verif.Entry Verif.Entry.Spec Verif.Value Verif.Value.Spec Verif.Handlers Verif.ValueString.Spec Verif.Deep.Spec Verif.DeepCopy.Spec
open Verif.Deep (Node Map Table Keys Ids)
open Verif.Deep.World Verif.DeepCopy.World

mutual
/-- Equality of trees. -/
def same : Node → Node → Bool
  | .mk i v s l d ks, .mk i' v' s' l' d' ks' => decide (i = i' ∧ v = v' ∧ s = s' ∧ l = l' ∧ d = d') && sameAll ks ks'
def sameAll : List Node → List Node → Bool
  | [], [] => true
  | k :: ks, k' :: ks' => same k k' && sameAll ks ks'
  | _, _ => false
end

mutual
theorem same_eq : ∀ {k k' : Node}, same k k' = true → k = k'
  | .mk i v s l d ks, .mk i' v' s' l' d' ks', h => by
    simp only [same, Bool.and_eq_true, decide_eq_true_eq] at h
    obtain ⟨⟨rfl, rfl, rfl, rfl, rfl⟩, h⟩ := h
    rw [sameAll_eq h]
theorem sameAll_eq : ∀ {ks ks' : List Node}, sameAll ks ks' = true → ks = ks'
  | [], [], _ => rfl
  | k :: ks, k' :: ks', h => by
    simp only [sameAll, Bool.and_eq_true] at h
    rw [same_eq h.1, sameAll_eq h.2]
  | [], _ :: _, h => by cases h
  | _ :: _, [], h => by cases h
end

/-- `unsigned char` (0), `int` (1), `int *` (2), `int **` (3), `struct r { int **a, **b; }` (6),
`struct r *` (7). -/
def handles : List Entry := [
  { info := .base 1 9, name := some (typeName .uchar) },
  { info := .base 4 6, name := some (typeName .int) },
  { info := .pointer (some 1) },
  { info := .pointer (some 2) },
  { info := .member { type := some 3, byteOffset := 0 }, name := some [97] },
  { info := .member { type := some 3, byteOffset := 8 }, name := some [98] },
  { info := .struct .struct 16 [4, 5], name := some [114] }]

theorem handles_ok : worldOk handles [1, 4, 8, 8, 8, 8, 16] = true := by decide

def trees : Deep.Mode := ⟨false, .fail, .fail, true⟩

/-- A struct at 100; both members point to `NULL` pointers, at 200 and 300; room for a struct
at 600. -/
def nulls : Mem := words [(100, 200), (108, 300), (200, 0), (300, 0), (600, 0), (608, 0)]

def nullTree : Node := (build handles trees nulls 30 [] ⟨6, 100⟩).get (by decide +kernel)

theorem null_build : build handles trees nulls 30 [] ⟨6, 100⟩ = some nullTree := (Option.some_get _).symm

def nullA : Node := .mk 2 ⟨4, 100⟩ 8 0 true [.mk 1 ⟨18, 200⟩ 8 0 false [.mk 0 ⟨2, 200⟩ 8 0 false []]]
def nullB : Node := .mk 5 ⟨5, 108⟩ 8 0 true [.mk 4 ⟨18, 300⟩ 8 0 false [.mk 3 ⟨2, 300⟩ 8 0 false []]]
def nullMap : Map := ⟨.mk 6 ⟨6, 100⟩ 16 0 false [nullA, nullB], [], []⟩

theorem null_number : (Deep.number nullTree 0).1 = nullMap.top := same_eq (by decide +kernel)

theorem null_map (limit : Nat) : Deep.memoryMap (copier handles limit).deep id trees (world handles) nulls (some ⟨6, 100⟩) = .ok (some nullMap) := by
  have := map_of handles_ok null_build (offs := []) (by rw [null_number]; decide +kernel)
  rw [null_number] at this
  exact this

theorem isa {es : List Entry} {v : Value} {x : Ref} (h : fin (world es) 100 v.entry = some x) (p : Info → Bool) : Deep.isA (world es) p v = .ok (p (world es x).info) := by
  obtain ⟨qs, h⟩ := fin_sound h
  exact Deep.isA_final h p

theorem has_no_load {es : List Entry} {limit : Nat} {c : Bool} {v : Value} {x : Ref} (h : fin (world es) 100 v.entry = some x) (h1 : isFunc (world es x).info = false)
    (h2 : ∀ u t, (world es v.entry).info ≠ .param u t) : hasLoad (copier es limit c).toEnv (world es) v = .ok false := by
  obtain ⟨qs, hf⟩ := fin_sound h
  obtain ⟨b, h3, h4⟩ := ValueString.hasLoad_iff (env := (copier es limit c).vs) hf
  rw [h3]
  cases b with
  | false => rfl
  | true =>
    exfalso
    rcases h4.mp rfl with ⟨u, t, h5, _⟩ | ⟨z, qs', t, ps, h5, h6⟩
    · exact h2 u t h5
    · cases (Value.final_unique hf h5)
      rcases h6 with h6 | h6 <;> rw [h6] at h1 <;> cases h1

theorem kind_of {es : List Entry} {v : Value} {x : Ref} (h : fin (world es) 100 v.entry = some x) (h0 : v.addr ≠ 0) :
    Deep.finalKind (world es) v = .ok (Entry.kind (world es) (some x)) := by
  obtain ⟨qs, hf⟩ := fin_sound h
  exact (Deep.kinds h0 h0 hf hf).1

/-- The first visit of a struct or an array. -/
theorem head_parts {es : List Entry} {limit : Nat} {c : Bool} {mode : Deep.Mode} {M : Map} {tbl : List (Nat × Nat)} {outer : List Value} {k : Node} {d : Value} {st : State} {x : Ref}
    (h : fin (world es) 100 k.val.entry = some x) (h0 : k.val.addr ≠ 0)
    (hc : (match (world es x).info with | .struct .struct _ _ | .array _ _ => true | _ => false) = true) (h2 : ∀ u t, (world es k.val.entry).info ≠ .param u t) :
    head (copier es limit c) mode (world es) M tbl outer k d st = .ok (.parts, st) := by
  have h1 : ∀ p, Deep.isA (world es) p k.val = .ok (p (world es x).info) := isa h
  have h3 := kind_of h h0
  have h4 : hasLoad (copier es limit c).toEnv (world es) k.val = .ok false := has_no_load h (by split at hc <;> simp_all [isFunc]) h2
  have h5 : Entry.kind (world es) (some x) ≠ 17 := by
    simp only [Entry.kind]
    split at hc
    · next hi => rw [hi]; simp [kindOf]
    · next hi => rw [hi]; simp [kindOf]
    · cases hc
  have h6 : isPointer (world es x).info = false ∧ isEnum (world es x).info = false ∧ isBase (world es x).info = false := by
    split at hc
    · next hi => rw [hi]; exact ⟨rfl, rfl, rfl⟩
    · next hi => rw [hi]; exact ⟨rfl, rfl, rfl⟩
    · cases hc
  simp only [head, h1, h3, h4, h6, Outcome.bind_ok, Bool.false_eq_true, if_false]
  rw [if_neg (by simp [h5])]
  rfl

/-- What a pointer to one object points to, in tree mode. -/
theorem place_tree {es : List Entry} {limit : Nat} {c : Bool} {mode : Deep.Mode} {M : Map} {tbl : List (Nat × Nat)} {k : Node} {st : State} {e : Option Ref} (hd : mode.dag = false)
    (h : (world es k.val.entry).info = .array e 1) :
    targetPlace (copier es limit c) mode (world es) M tbl k st = .ok (match alloc (copier es limit c) st 1 k.size with | none => (none, st) | some (a, st) => (some a, st)) := by
  have hf : Final (world es) k.val.entry (some k.val.entry) [] := .here (fun t ht => by cases ht <;> simp_all)
  have h1 := finalOf_some hf isArray
  simp only [h, isArray, if_true] at h1
  have h2 : nmemb (world es) k = .ok 1 := by
    simp [nmemb, ValueString.hasElements, valueElementCount, Entry.elementCount, h1, h, Outcome.ofLoop, toInt32]
  simp only [targetPlace, hd, h2, Bool.false_eq_true, if_false, Outcome.bind_ok, Nat.div_one]
  cases alloc (copier es limit c) st 1 k.size with
  | none => rfl
  | some p => rfl

/-- A pointer that is `NULL` and is left alone. -/
theorem head_null {es : List Entry} {limit : Nat} {c : Bool} {mode : Deep.Mode} {M : Map} {tbl : List (Nat × Nat)} {outer : List Value} {i : Nat} {v : Value} {s : Nat} {d : Value} {st : State} {x : Ref}
    (h : fin (world es) 100 v.entry = some x) (hp : isPointer (world es x).info = true) (hm : mode.uptr = .fail) :
    copyNode (copier es limit c) mode (world es) M tbl outer (.mk i v s 0 false []) d st = .ok (true, st) := by
  have h1 : Deep.isA (world es) isPointer v = .ok true := by rw [isa h, hp]
  have h2 : head (copier es limit c) mode (world es) M tbl outer (.mk i v s 0 false []) d st = .ok (.parts, st) := by
    show (Deep.isA (world es) isPointer v >>= _) = _
    rw [h1]
    simp only [Outcome.bind_ok, if_true, copyUnfollowed, hm]
    rfl
  unfold copyNode
  rw [h2]
  rfl

/-- A pointer to a `NULL` pointer: there is no memory. -/
theorem handle_none {es : List Entry} {limit : Nat} {c : Bool} {mode : Deep.Mode} {M : Map} {tbl : List (Nat × Nat)} {outer : List Value} {i : Nat} {v : Value} {s : Nat} {d : Value} {st : State}
    {x : Ref} {k : Node} {e : Option Ref} (h : fin (world es) 100 v.entry = some x) (hp : isPointer (world es x).info = true) (hd : mode.dag = false)
    (hk : (world es k.val.entry).info = .array e 1) (ha : alloc (copier es limit c) st 1 k.size = none) :
    copyNode (copier es limit c) mode (world es) M tbl outer (.mk i v s 0 true [k]) d st = .ok (false, st) := by
  have h1 : Deep.isA (world es) isPointer v = .ok true := by rw [isa h, hp]
  have h2 : head (copier es limit c) mode (world es) M tbl outer (.mk i v s 0 true [k]) d st = .ok (.fail, st) := by
    show (Deep.isA (world es) isPointer v >>= _) = _
    rw [h1]
    simp only [Outcome.bind_ok, if_true, Node.kids, copyTarget, place_tree hd hk, ha]
    rfl
  unfold copyNode
  rw [h2]
  rfl

/-- A pointer to something that can be copied, or not. -/
theorem handle_some {es : List Entry} {limit : Nat} {c : Bool} {mode : Deep.Mode} {M : Map} {tbl : List (Nat × Nat)} {outer : List Value} {i : Nat} {v : Value} {s : Nat} {d : Value} {st st₁ : State}
    {x : Ref} {k : Node} {e t : Option Ref} {a : Nat} (h : fin (world es) 100 v.entry = some x) (hp : (world es x).info = .pointer t) (hd : mode.dag = false)
    (hk : (world es k.val.entry).info = .array e 1) (ha : alloc (copier es limit c) st 1 k.size = some (a, st₁)) (h0 : v.addr ≠ 0) (hka : k.val.addr ≠ 0)
    (hh : st₁.m.loadN v.addr 8 = .ok k.val.addr) (hdf : fin (world es) 100 d.entry = some x) (hd0 : d.addr ≠ 0) (hdm : ∀ i < 8, st₁.m (d.addr + i) ≠ none) (ha0 : a ≠ 0)
    (hlt : a < 2 ^ 64)
    {ok : Bool} (hr : ∀ m, ∃ m', copyNode (copier es limit c) mode (world es) M tbl (d :: outer) k ⟨k.val.entry, a⟩ ⟨m, st₁.live⟩ = .ok (ok, ⟨m', st₁.live⟩)) :
    ∃ m', copyNode (copier es limit c) mode (world es) M tbl outer (.mk i v s 0 true [k]) d st = (do return (ok, ← undo (copier es limit c) mode ok ⟨m', st₁.live⟩ (.target a))) := by
  have h1 : Deep.isA (world es) isPointer v = .ok true := by rw [isa h, hp]; rfl
  obtain ⟨qs, hf⟩ := fin_sound h
  obtain ⟨qs', hf'⟩ := fin_sound hdf
  have h2 := pointer_get (db := world es) (m := st₁.m) (v := v) (a := k.val.addr) ⟨h0, ⟨x, qs, t, hf, hp⟩, holds_loadN.mpr hh⟩
  obtain ⟨m', h3, _⟩ := set_pointer (db := world es) (m := st₁.m) (w := d) ⟨x, qs', hf', hp⟩ hd0 hdm hlt
  have h4 : head (copier es limit c) mode (world es) M tbl outer (.mk i v s 0 true [k]) d st = .ok (.target a, ⟨m', st₁.live⟩) := by
    show (Deep.isA (world es) isPointer v >>= _) = _
    rw [h1]
    simp only [Outcome.bind_ok, if_true, Node.kids, copyTarget, place_tree hd hk, ha]
    show (pointer (world es) st₁.m (some v) >>= _) = _
    rw [h2]
    simp only [Outcome.bind_ok, Outcome.assert, ne_eq, hka, not_false_eq_true, decide_true, if_true, Nat.add_sub_cancel, h3, not_true_eq_false, if_false]
    rfl
  obtain ⟨m'', h5⟩ := hr m'
  refine ⟨m'', ?_⟩
  unfold copyNode
  rw [h4]
  simp only [Outcome.bind_ok, copyAll, places, List.map_cons, List.map_nil, newValue, ha0, if_false, h5, Bool.and_true]
  rfl

theorem array_of {es : List Entry} {limit : Nat} {c : Bool} {mode : Deep.Mode} {M : Map} {tbl : List (Nat × Nat)} {outer : List Value} {i : Nat} {v : Value} {s : Nat} {a : Nat} {st st' : State}
    {x : Ref} {k : Node} {ok : Bool} (h : fin (world es) 100 v.entry = some x) (h0 : v.addr ≠ 0)
    (hc : (match (world es x).info with | .struct .struct _ _ | .array _ _ => true | _ => false) = true) (h2 : ∀ u t, (world es v.entry).info ≠ .param u t) (ha : a ≠ 0)
    (hkv : k.val.addr = v.addr)
    (hr : copyNode (copier es limit c) mode (world es) M tbl (⟨v.entry, a⟩ :: outer) k ⟨k.val.entry, a⟩ st = .ok (ok, st')) :
    copyNode (copier es limit c) mode (world es) M tbl outer (.mk i v s 0 false [k]) ⟨v.entry, a⟩ st = .ok (ok, st') := by
  unfold copyNode
  rw [head_parts (k := .mk i v s 0 false [k]) h h0 hc h2]
  simp only [Outcome.bind_ok, copyAll, places, List.map_cons, List.map_nil, newValue, hkv, Nat.sub_self, Nat.add_zero, ha, if_false, hr, Bool.and_true]
  rfl

theorem same_types {es : List Entry} {x y : Value} {f : Ref} {s : List UInt8} (h : fin (world es) 100 x.entry = some f) (h' : fin (world es) 100 y.entry = some f)
    (hc : CDecl.cdecl (world es) f = .ok (some s)) : sameType (world es) x y = .ok true := by
  obtain ⟨qs, hf⟩ := fin_sound h
  obtain ⟨qs', hf'⟩ := fin_sound h'
  simp [sameType, Entry.final_entry hf, Entry.final_entry hf', Outcome.ofLoop, hc]

theorem leak : ∃ st', copyEx (copier handles 1) id trees (world handles) ⟨nulls, []⟩ (some ⟨6, 100⟩) (some ⟨6, 600⟩) = .ok (false, st') ∧ st'.live = [(1000, 8)] := by
  have ht : sameType (world handles) ⟨6, 100⟩ ⟨6, 600⟩ = .ok true := same_types (f := 6) rfl rfl (CDecl.no_dep rfl)
  simp only [copyEx, ht, null_map, Outcome.bind_ok, Bool.true_eq_false, if_false]
  rw [if_neg (by decide)]
  have hal : alloc (copier handles 1) ⟨nulls, []⟩ 1 8 = some (1000, ⟨fill nulls 1000 8 (some 0), [(1000, 8)]⟩) := by
    have : (copier handles 1).calloc ⟨nulls, []⟩ 1 8 = some 1000 := by decide +kernel
    simp only [alloc, this]
    rfl
  obtain ⟨m', h1⟩ := handle_some (es := handles) (limit := 1) (mode := trees) (M := nullMap) (tbl := []) (outer := [⟨6, 600⟩]) (i := 2) (v := ⟨4, 100⟩) (s := 8) (d := ⟨4, 600⟩)
    (st := ⟨nulls, []⟩) (x := 3) (t := some 2) (e := some 2)
    (k := .mk 1 ⟨18, 200⟩ 8 0 false [.mk 0 ⟨2, 200⟩ 8 0 false []]) rfl rfl rfl rfl hal (by decide) (by decide) (by decide +kernel) rfl (by decide) (by decide +kernel) (by decide) (by decide)
    (ok := true) (fun m => ⟨m, array_of (x := 18) rfl (by decide) rfl (by intro u t h; cases h) (by decide) rfl (head_null (x := 2) rfl rfl rfl)⟩)
  have h2 := handle_none (es := handles) (limit := 1) (c := false) (mode := trees) (M := nullMap) (tbl := []) (outer := [⟨6, 600⟩]) (i := 5) (v := ⟨5, 108⟩) (s := 8) (d := ⟨5, 608⟩)
    (st := ⟨m', [(1000, 8)]⟩) (x := 3) (e := some 2)
    (k := .mk 4 ⟨18, 300⟩ 8 0 false [.mk 3 ⟨2, 300⟩ 8 0 false []]) rfl rfl rfl rfl (by simp [alloc, copier, bump])
  refine ⟨⟨m', [(1000, 8)]⟩, ?_, rfl⟩
  show copyNode _ _ _ _ _ _ (.mk 6 ⟨6, 100⟩ 16 0 false [nullA, nullB]) _ _ = _
  unfold copyNode
  rw [head_parts (k := .mk 6 ⟨6, 100⟩ 16 0 false [nullA, nullB]) (x := 6) rfl (by decide) rfl (by intro u t h; cases h)]
  show (copyAll _ _ _ _ _ _ [nullA, nullB] [some ⟨4, 600⟩, some ⟨5, 608⟩] ⟨nulls, []⟩ >>= _) = _
  simp only [copyAll, nullA, h1, nullB, undo, Bool.true_eq_false, false_and, if_false, Outcome.bind_ok, Outcome.pure_eq, h2]
  rfl

/-- A struct at 100; its first member points to a pointer at 200 to the number at 300. -/
def nested : Mem := words [(100, 200), (108, 0), (200, 300), (300, 7), (600, 0), (608, 0)]

def nestedTree : Node := (build handles trees nested 30 [] ⟨6, 100⟩).get (by decide +kernel)

theorem nested_build : build handles trees nested 30 [] ⟨6, 100⟩ = some nestedTree := (Option.some_get _).symm

def nestedA : Node := .mk 4 ⟨4, 100⟩ 8 0 true [.mk 3 ⟨18, 200⟩ 8 0 false [.mk 2 ⟨2, 200⟩ 8 0 true [.mk 1 ⟨15, 300⟩ 4 0 false [.mk 0 ⟨1, 300⟩ 4 0 false []]]]]
def nestedB : Node := .mk 5 ⟨5, 108⟩ 8 0 false []
def nestedMap : Map := ⟨.mk 6 ⟨6, 100⟩ 16 0 false [nestedA, nestedB], [], []⟩

theorem nested_number : (Deep.number nestedTree 0).1 = nestedMap.top := same_eq (by decide +kernel)

theorem nested_map (limit : Nat) (c : Bool) : Deep.memoryMap (copier handles limit c).deep id trees (world handles) nested (some ⟨6, 100⟩) = .ok (some nestedMap) := by
  have := map_of handles_ok nested_build (offs := []) (by rw [nested_number]; decide +kernel)
  rw [nested_number] at this
  exact this

theorem wrong_free : copyEx (copier handles 1 true) id trees (world handles) ⟨nested, []⟩ (some ⟨6, 100⟩) (some ⟨6, 600⟩) = .ub := by
  have ht : sameType (world handles) ⟨6, 100⟩ ⟨6, 600⟩ = .ok true := same_types (f := 6) rfl rfl (CDecl.no_dep rfl)
  simp only [copyEx, ht, nested_map, Outcome.bind_ok, Bool.true_eq_false, if_false]
  rw [if_neg (by decide)]
  have hal : alloc (copier handles 1 true) ⟨nested, []⟩ 1 8 = some (1000, ⟨fill nested 1000 8 (some 0), [(1000, 8)]⟩) := by
    have : (copier handles 1 true).calloc ⟨nested, []⟩ 1 8 = some 1000 := by decide +kernel
    simp only [alloc, this]
    rfl
  have h2 := fun m => handle_none (es := handles) (limit := 1) (c := true) (mode := trees) (M := nestedMap) (tbl := []) (outer := [⟨18, 1000⟩, ⟨4, 600⟩, ⟨6, 600⟩]) (i := 2) (v := ⟨2, 200⟩)
    (s := 8) (d := ⟨2, 1000⟩) (st := ⟨m, [(1000, 8)]⟩) (x := 2) (e := some 1)
    (k := .mk 1 ⟨15, 300⟩ 4 0 false [.mk 0 ⟨1, 300⟩ 4 0 false []]) rfl rfl rfl rfl (by simp [alloc, copier, bump])
  obtain ⟨m', h1⟩ := handle_some (es := handles) (limit := 1) (c := true) (mode := trees) (M := nestedMap) (tbl := []) (outer := [⟨6, 600⟩]) (i := 4) (v := ⟨4, 100⟩) (s := 8) (d := ⟨4, 600⟩)
    (st := ⟨nested, []⟩) (x := 3) (t := some 2) (e := some 2)
    (k := .mk 3 ⟨18, 200⟩ 8 0 false [.mk 2 ⟨2, 200⟩ 8 0 true [.mk 1 ⟨15, 300⟩ 4 0 false [.mk 0 ⟨1, 300⟩ 4 0 false []]]]) rfl rfl rfl rfl hal (by decide) (by decide)
    (by decide +kernel) rfl (by decide) (by decide +kernel) (by decide) (by decide)
    (ok := false) (fun m => ⟨m, array_of (x := 18) rfl (by decide) rfl (by intro u t h; cases h) (by decide) rfl (h2 m)⟩)
  show copyNode _ _ _ _ _ _ (.mk 6 ⟨6, 100⟩ 16 0 false [nestedA, nestedB]) _ _ = _
  unfold copyNode
  rw [head_parts (k := .mk 6 ⟨6, 100⟩ 16 0 false [nestedA, nestedB]) (x := 6) rfl (by decide) rfl (by intro u t h; cases h)]
  show (copyAll _ _ _ _ _ _ [nestedA, nestedB] [some ⟨4, 600⟩, some ⟨5, 608⟩] ⟨nested, []⟩ >>= _) = _
  simp only [copyAll, nestedA, h1]
  rfl

end Verif.DeepCopy.Example
