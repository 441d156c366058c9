import Verif.Ffi.Lemmas
/-
Calls: the arguments, the result.
-/
namespace Verif.Ffi
open Verif Verif.Entry Verif.Entry.Spec Verif.Value Verif.Value.Spec Verif.Handlers Verif.Ffi.Spec Verif.Heap

/-- Memory does not run out. -/
def Enough (h : Heap) : Prop := ∀ k, h.fails k = false

theorem Enough.of {h h' : Heap} (e : Enough h) (hf : h'.fails = h.fails) : Enough h' := fun k => by rw [hf]; exact e k

theorem alloc_enough {base : Nat → Bool} {h : Heap} {bs : List Nat} (e : Enough h) (o : Owns base h bs) :
    ∃ b h', h.alloc = (some b, h') ∧ Owns base h' (b :: bs) ∧ Enough h' := by
  cases ea : h.alloc with
  | mk x h' =>
    cases x with
    | none =>
      obtain ⟨_, _, k, hk⟩ := o.alloc_none ea
      rw [e k] at hk
      cases hk
    | some b =>
      obtain ⟨o', f⟩ := o.alloc_some ea
      exact ⟨b, h', rfl, o', e.of f⟩

theorem free_enough {base : Nat → Bool} {h : Heap} {bs : List Nat} {b : Nat} (e : Enough h) (o : Owns base h (b :: bs)) :
    ∃ h', h.free b = .ok h' ∧ Owns base h' bs ∧ Enough h' := by
  obtain ⟨h', e1, o1, f1⟩ := o.free
  exact ⟨h', e1, o1, e.of f1⟩

theorem Makes.enough {base : Nat → Bool} {bs : List Nat} {h : Heap} {s : Shape} {x : Outcome Made} (hm : Makes base bs h.fails s x) (e : Enough h) :
    ∃ t h', x = .ok (0, some t, h') ∧ see t = .ok s ∧ Owns base h' (blocks t ++ bs) ∧ Enough h' := by
  obtain ⟨c, o, h', rfl, f, ⟨rfl, t, rfl, hs, ho⟩ | ⟨_, _, _, k, hk⟩⟩ := hm
  · exact ⟨t, h', rfl, hs, ho, e.of f⟩
  · rw [e k] at hk
    cases hk

/-- One filled place of `args` and `values`, for an argument. -/
def Place (m : Mem) (x : Option FType × Src) (a : Arg) : Prop := ∃ t, x.1 = some t ∧ see t = .ok (shape a) ∧ fetch m (shape a) x.2 = .ok a

/-- The blocks of the types of the arguments. -/
def argBlocks (l : Args) : List Nat := l.flatMap fun x => match x.1 with | none => [] | some t => blocks t

theorem argBlocks_cons (t : FType) (s : Src) (l : Args) : argBlocks ((some t, s) :: l) = blocks t ++ argBlocks l := rfl

theorem argBlocks_append (l l' : Args) : argBlocks (l ++ l') = argBlocks l ++ argBlocks l' := by simp [argBlocks]

theorem newItem_enough {base : Nat → Bool} {h : Heap} {bs : List Nat} (e : Enough h) (o : Owns base h bs) {env : Env} {v p : Value} {i : Nat}
    (hp : (env.params v.addr)[i]? = some p) (ha : p.addr ≠ 0) : ∃ b h', newItem env v i h = (some (p, b), h') ∧ Owns base h' (b :: bs) ∧ Enough h' := by
  obtain ⟨b, h', e1, o1, n1⟩ := alloc_enough e o
  refine ⟨b, h', ?_, o1, n1⟩
  simp [newItem, hp, newValue, ha, e1]

theorem load_bytes {m : Mem} {a n : Nat} {bs : List UInt8} (hl : bs.length = n) (hb : Bytes m a bs) : m.load a n = .ok bs := by
  subst hl
  refine Mem.load_of_get fun k hk => ?_
  rw [List.getElem?_eq_getElem hk, hb k _ (List.getElem?_eq_getElem hk)]

theorem bytesOf_address {a : Nat} {bs : List UInt8} (h : Address a bs) : Mem.bytesOf 8 a = bs := by
  apply List.ext_getElem?
  intro i
  by_cases hi : i < 8
  · rw [bytesOf_get 8 a i hi, h.2 i hi]
  · rw [List.getElem?_eq_none (by rw [Mem.bytesOf_length]; omega), List.getElem?_eq_none (by rw [h.1]; omega)]

theorem width_eq (p : Prim) : width p = primSize p := by cases p <;> rfl

theorem room_eq (s : Shape) : room s = s.bytes := by cases s <;> first | exact width_eq _ | rfl

/-! ### `...` -/

/-- How the arguments of `...` arrive: scalars as they are, the others as their address. -/
inductive Raw (env : Env) (db : Db) (m : Mem) (v : Value) : Arg → Prop where
  | scalar {p bs} : Scalar env db v.entry p → v.addr ≠ 0 → bs.length = primSize p → Bytes m v.addr bs → Raw env db m v (.object (.prim p) bs)
  | aggregate {x qs bs} : Final db v.entry (some x) qs → (isStruct (db x).info || isArray (db x).info) = true → env.vaList v.entry = false → v.addr ≠ 0 → Address v.addr bs →
      Raw env db m v (.object (.prim .pointer) bs)

theorem raw_dots {env : Env} {db : Db} {m : Mem} {v : Value} {a : Arg} (h : Dots env db m v a) : Raw env db m v a := by
  cases h with
  | scalar h1 _ h3 h4 h5 => exact .scalar h1 h3 (h4.trans (width_eq _)) h5
  | array h1 h2 h3 h4 h5 => exact .aggregate h1 (by simp [h2, isStruct, isArray]) h3 h4 h5

theorem dots_addr {env : Env} {db : Db} {m : Mem} {v : Value} {a : Arg} (h : Raw env db m v a) : v.addr ≠ 0 := by cases h <;> assumption

theorem dots_place {env : Env} {db : Db} {m : Mem} (hn : Named db) {v : Value} {a : Arg} (h : Raw env db m v a) {base : Nat → Bool} {bs : List Nat} {hp : Heap}
    (e : Enough hp) (o : Owns base hp bs) :
    ∃ t src h', ffiType env db true v.entry hp = .ok (0, some t, h') ∧ dotsSrc db v = .ok src ∧ Place m (some t, src) a ∧ Owns base h' (blocks t ++ bs) ∧ Enough h' := by
  cases h with
  | @scalar p bytes hs ha hl hb =>
    obtain ⟨t, h', e1, hsee, o1, n1⟩ := (scalar_makes hn hs true o).enough e
    refine ⟨t, .at v.addr, h', e1, ?_, ⟨t, rfl, hsee, ?_⟩, o1, n1⟩
    · have : ∀ {x qs}, Final db v.entry (some x) qs → isStruct (db x).info = false → isArray (db x).info = false → dotsSrc db v = .ok (.at v.addr) := by
        intro x qs hf h1 h2
        simp [dotsSrc, finalOf_some hf, h1, h2]
      cases hs with
      | base hf hd =>
        obtain ⟨b, e, hi, _⟩ := hd
        exact this hf (by simp [hi, isStruct]) (by simp [hi, isArray])
      | enumeration hf hi _ => exact this hf (by simp [hi, isStruct]) (by simp [hi, isArray])
      | pointer hf hi _ => exact this hf (by simp [hi, isStruct]) (by simp [hi, isArray])
    · simp only [fetch, shape, Shape.bytes, load_bytes hl hb, Outcome.bind_ok]
      rfl
  | @aggregate x qs bytes hf hi hv ha hb =>
    obtain ⟨t, h', e1, hsee, o1, n1⟩ := (newPrim_makes o .pointer).enough e
    refine ⟨t, .ptr v.addr, h', ?_, ?_, ⟨t, rfl, hsee, ?_⟩, o1, n1⟩
    · rw [ffiType_final hf, ← e1]
      cases hx : (db x).info <;> simp_all [isBase, isEnum, isPointer, isStruct, isArray]
    · have h1 := finalOf_some hf isStruct
      have h2 := finalOf_some hf isArray
      unfold dotsSrc
      rw [h1, h2]
      cases hx : (db x).info <;> simp_all [isStruct, isArray]
    · simp only [fetch, shape, Shape.bytes, primSize, bytesOf_address hb]

theorem Each.mono {α β : Type} {R S : α → β → Prop} (h : ∀ a b, R a b → S a b) {as : List α} {bs : List β} (he : Each R as bs) : Each S as bs := by
  induction he with
  | nil => exact .nil
  | cons hr _ ih => exact .cons (h _ _ hr) ih

theorem drop_cons {α : Type} {l : List α} {i : Nat} {a : α} {r : List α} (h : l.drop i = a :: r) : l[i]? = some a ∧ l.drop (i + 1) = r := by
  refine ⟨?_, ?_⟩
  · have := congrArg (·[0]?) h
    simpa using this
  · rw [← List.drop_drop, h]
    rfl

theorem fillDots_ok {env : Env} {db : Db} {m : Mem} (hn : Named db) {v : Value} {vs : List Value} {as : List Arg} (he : Each (Raw env db m) vs as) {base : Nat → Bool} :
    ∀ (i : Nat) (bs : List Nat) (h : Heap), (env.params v.addr).drop i = vs → Enough h → Owns base h bs →
      ∃ l h', fillDots env db v vs.length i h = .ok (0, l, h') ∧ Each (Place m) l as ∧ Owns base h' (argBlocks l ++ bs) ∧ Enough h' := by
  induction he with
  | nil => exact fun i bs h _ e o => ⟨[], h, rfl, .nil, o, e⟩
  | @cons p a ps as hd _ ih =>
    intro i bs h hdrop e o
    obtain ⟨hp, hdrop'⟩ := drop_cons hdrop
    obtain ⟨b, h1, e1, o1, n1⟩ := newItem_enough e o hp (dots_addr hd)
    obtain ⟨t, src, h2, e2, esrc, hpl, o2, n2⟩ := dots_place hn hd n1 o1
    obtain ⟨h3, e3, o3, n3⟩ := free_enough n2 (bs := blocks t ++ bs) (b := b) (o2.perm (by perm))
    obtain ⟨l, h4, e4, hl, o4, n4⟩ := ih (i + 1) (blocks t ++ bs) h3 hdrop' n3 o3
    refine ⟨(some t, src) :: l, h4, ?_, .cons hpl hl, o4.perm (by rw [argBlocks_cons]; perm), n4⟩
    simp [fillDots, e1, e2, esrc, e3, e4]

/-! ### Parameters -/

/-- The `va_list` arguments and their numbers. -/
def vasOf : Nat → List Arg → List (Nat × List Arg)
  | _, [] => []
  | i, .vaList l :: as => (i, l) :: vasOf (i + 1) as
  | i, .object .. :: as => vasOf (i + 1) as

theorem fixed_addr {D : Value → Arg → Prop} {env : Env} {db : Db} {m : Mem} {v : Value} {a : Arg} (h : Fixed env db m D v a) : v.addr ≠ 0 := by cases h <;> assumption

theorem fillFixed_ok {D : Value → Arg → Prop} {env : Env} {db : Db} {m : Mem} (hn : Named db) {v : Value} {vs : List Value} {as : List Arg} (he : Each (Fixed env db m D) vs as) {base : Nat → Bool} :
    ∀ (i : Nat) (more : List Value) (bs : List Nat) (h : Heap), (env.params v.addr).drop i = vs ++ more → Enough h → Owns base h bs →
      ∃ l h', fillFixed env db v vs.length i (vasOf i as) h = .ok (0, l, h') ∧ Each (Place m) l as ∧ Owns base h' (argBlocks l ++ bs) ∧ Enough h' := by
  induction he with
  | nil => exact fun i more bs h _ e o => ⟨[], h, rfl, .nil, o, e⟩
  | @cons p a ps as hd _ ih =>
    intro i more bs h hdrop e o
    obtain ⟨hp, hdrop'⟩ := drop_cons hdrop
    obtain ⟨b, h1, e1, o1, n1⟩ := newItem_enough e o hp (fixed_addr hd)
    cases hd with
    | @object s bytes hs hv ha hl hb =>
      obtain ⟨t, h2, e2, hsee, o2, n2⟩ := (looks_makes hn hs _ h1 o1).enough n1
      obtain ⟨h3, e3, o3, n3⟩ := free_enough n2 (bs := blocks t ++ bs) (b := b) (o2.perm (by perm))
      obtain ⟨l, h4, e4, hl', o4, n4⟩ := ih (i + 1) more (blocks t ++ bs) h3 hdrop' n3 o3
      refine ⟨(some t, .at p.addr) :: l, h4, ?_, .cons ⟨t, rfl, hsee, ?_⟩ hl', o4.perm (by rw [argBlocks_cons]; perm), n4⟩
      · simp [fillFixed, vasOf, e1, e2, hv, e3, e4]
      · simp only [fetch, shape, load_bytes (hl.trans (room_eq _)) hb, Outcome.bind_ok]
        rfl
    | @vaList x qs tt l0 hf hi hv ha hds =>
      have hm : Makes base (b :: bs) h1.fails (.struct 8 8 [.prim .pointer]) (ffiType env db false p.entry h1) := by
        rw [ffiType_final hf]
        simp only [hi, isBase, isEnum, hv, Bool.false_eq_true, if_false, if_true]
        exact vaType_makes o1
      obtain ⟨t, h2, e2, hsee, o2, n2⟩ := hm.enough n1
      obtain ⟨h3, e3, o3, n3⟩ := free_enough n2 (bs := blocks t ++ bs) (b := b) (o2.perm (by perm))
      obtain ⟨l, h4, e4, hl', o4, n4⟩ := ih (i + 1) more (blocks t ++ bs) h3 hdrop' n3 o3
      refine ⟨(some t, .va l0) :: l, h4, ?_, .cons ⟨t, rfl, hsee, rfl⟩ hl', o4.perm (by rw [argBlocks_cons]; perm), n4⟩
      simp [fillFixed, vasOf, e1, e2, hv, e3, e4, Outcome.assert]

/-! ### Blocks -/

theorem cleanupArgs_ok {m : Mem} {l : Args} {as : List Arg} (hl : Each (Place m) l as) {base : Nat → Bool} : ∀ {bs : List Nat} {h : Heap}, Enough h →
    Owns base h (argBlocks l ++ bs) → ∃ h', cleanupArgs l h = .ok h' ∧ Owns base h' bs ∧ Enough h' := by
  induction hl with
  | nil => exact fun e o => ⟨_, rfl, o, e⟩
  | @cons x a l as hp _ ih =>
    intro bs h e o
    obtain ⟨t, hx, hsee, _⟩ := hp
    obtain ⟨o1, src⟩ := x
    cases hx
    rw [argBlocks_cons, List.append_assoc] at o
    obtain ⟨h1, e1, o1, f1⟩ := cleanup_ok t hsee o
    obtain ⟨h2, e2, o2, n2⟩ := ih (e.of f1) o1
    exact ⟨h2, by simp [cleanupArgs, cleanupOpt, e1, e2], o2, n2⟩

/-- The numbers of the three blocks. -/
def blockList : Option (Nat × Nat × Option Nat) → List Nat
  | none => []
  | some (a, v, none) => [a, v]
  | some (a, v, some p) => [a, v, p]

/-- All three are there. -/
def Whole : Option (Nat × Nat × Option Nat) → Prop
  | some (_, _, none) => False
  | _ => True

theorem threeBlocks_ok {base : Nat → Bool} {h : Heap} {bs : List Nat} (e : Enough h) (o : Owns base h bs) :
    ∃ b h', threeBlocks h = .ok (some b, h') ∧ Whole (some b) ∧ Owns base h' (blockList (some b) ++ bs) ∧ Enough h' := by
  obtain ⟨a, h1, e1, o1, n1⟩ := alloc_enough e o
  obtain ⟨b, h2, e2, o2, n2⟩ := alloc_enough n1 o1
  obtain ⟨c, h3, e3, o3, n3⟩ := alloc_enough n2 o2
  refine ⟨(a, b, some c), h3, by simp [threeBlocks, e1, e2, e3], trivial, o3.perm (by simp only [blockList]; perm), n3⟩

theorem blocksFor_ok {base : Nat → Bool} {h : Heap} {bs : List Nat} (e : Enough h) (o : Owns base h bs) (n : Nat) :
    ∃ b h', blocksFor n h = .ok (some b, h') ∧ Whole b ∧ Owns base h' (blockList b ++ bs) ∧ Enough h' := by
  unfold blocksFor
  by_cases hn : n = 0
  · exact ⟨none, h, by simp [hn], trivial, o, e⟩
  · obtain ⟨b, h', e1, hw, o1, n1⟩ := threeBlocks_ok e o
    exact ⟨some b, h', by simp [hn, e1], hw, o1, n1⟩

theorem whole_null {b : Option (Nat × Nat × Option Nat)} (hw : Whole b) (l : Args) : nullPvalues b l = false := by
  cases b with
  | none => rfl
  | some x =>
    obtain ⟨a, v, p⟩ := x
    cases p with
    | none => exact hw.elim
    | some p => rfl

theorem release_ok {m : Mem} {l : Args} {as : List Arg} (hl : Each (Place m) l as) {b : Option (Nat × Nat × Option Nat)} (hw : Whole b) {base : Nat → Bool} {bs : List Nat} {h : Heap}
    (e : Enough h) (o : Owns base h (argBlocks l ++ (blockList b ++ bs))) : ∃ h', release b l h = .ok h' ∧ Owns base h' bs ∧ Enough h' := by
  cases b with
  | none =>
    obtain ⟨h', e1, o1, n1⟩ := cleanupArgs_ok hl e o
    exact ⟨h', by simp [release, e1], o1, n1⟩
  | some x =>
    obtain ⟨a, v, p⟩ := x
    cases p with
    | none => exact hw.elim
    | some p =>
      simp only [blockList] at o
      obtain ⟨h1, e1, o1, n1⟩ := free_enough e (b := p) (bs := v :: (argBlocks l ++ (a :: bs))) (o.perm (by perm))
      obtain ⟨h2, e2, o2, n2⟩ := free_enough n1 o1
      obtain ⟨h3, e3, o3, n3⟩ := cleanupArgs_ok hl n2 o2
      obtain ⟨h4, e4, o4, n4⟩ := free_enough n3 o3
      exact ⟨h4, by simp [release, freeOpt, e1, e2, e3, e4], o4, n4⟩

theorem freeOpt_ok {base : Nat → Bool} {bs : List Nat} {h : Heap} (e : Enough h) (last : Option Nat) (o : Owns base h (last.toList ++ bs)) :
    ∃ h', freeOpt last h = .ok h' ∧ Owns base h' bs ∧ Enough h' := by
  cases last with
  | none => exact ⟨h, rfl, o, e⟩
  | some b => exact free_enough e o

/-! ### libffi's view -/

theorem see_args {m : Mem} {l : Args} {as : List Arg} (hl : Each (Place m) l as) : (l.mapM fun a => seeOpt a.1) = Outcome.ok (as.map shape) := by
  induction hl with
  | nil => rfl
  | @cons x a l as hp _ ih =>
    obtain ⟨t, hx, hsee, _⟩ := hp
    rw [List.mapM_cons, ih, hx]
    simp [seeOpt, hsee]

theorem fetch_args {m : Mem} {l : Args} {as : List Arg} (hl : Each (Place m) l as) : fetchAll m ((as.map shape).zip (l.map (·.2))) = .ok as := by
  induction hl with
  | nil => rfl
  | @cons x a l as hp _ ih =>
    obtain ⟨t, hx, hsee, hf⟩ := hp
    simp only [List.map_cons, List.zip_cons_cons, fetchAll, hf, Outcome.bind_ok, ih]
    rfl

theorem prepare_ok {lib : Lib} {fixed : Option Nat} {m : Mem} {l : Args} {as : List Arg} (hl : Each (Place m) l as) {t : FType} {s : Shape} (ht : see t = .ok s)
    (hp : lib.prep fixed s (as.map shape) = true) : prepare lib fixed (some t) l = .ok (some (s, as.map shape)) := by
  rw [prepare, see_args hl]
  simp [seeOpt, ht, hp]

theorem run_ok {lib : Lib} {fixed : Option Nat} {m : Mem} {l : Args} {as : List Arg} (hl : Each (Place m) l as) (fn : Nat) (s : Shape) :
    run lib fn fixed s (as.map shape) l m = lib.run fn fixed s as m := by
  simp [run, fetch_args hl]

/-! ### The result -/

theorem copyResult_store (m : Mem) (a rc n : Nat) : copyResult m a rc n = m.store a (Mem.bytesOf n rc) := by
  induction n generalizing m a rc with
  | zero => rfl
  | succ n ih =>
    simp only [copyResult, Mem.bytesOf, Mem.store]
    have e : UInt8.ofNat (rc % 256) = UInt8.ofNat rc := by
      rw [← UInt8.toNat_inj, UInt8.toNat_ofNat', UInt8.toNat_ofNat']
      omega
    cases hm : m a with
    | none => rfl
    | some b =>
      simp only [Outcome.bind_ok, e]
      exact ih _ _ _

theorem bytesOf_prefix (out rest : List UInt8) : Mem.bytesOf out.length (Mem.le (out ++ rest)) = out := by
  induction out with
  | nil => rfl
  | cons b bs ih =>
    have hb : b.toNat < 256 := UInt8.toNat_lt b
    simp only [List.cons_append, List.length_cons, Mem.bytesOf, Mem.le]
    have h1 : (b.toNat + 256 * Mem.le (bs ++ rest)) / 256 = Mem.le (bs ++ rest) := by omega
    rw [h1, ih]
    congr 1
    rw [← UInt8.toNat_inj, UInt8.toNat_ofNat']
    omega

theorem store_written {m : Mem} {a : Nat} {bs : List UInt8} (h : Room m a bs.length) : ∃ m', m.store a bs = .ok m' ∧ Written m a bs m' := by
  obtain ⟨m', e, hm⟩ := Mem.store_spec (m := m) (a := a) (bs := bs) (by
    intro x h1 h2
    have := h (x - a) (by omega)
    rw [show a + (x - a) = x by omega] at this
    cases hx : m x with
    | none => exact absurd hx this
    | some b => rfl)
  refine ⟨m', e, ?_, ?_⟩
  · intro i b hb
    have hi := (List.getElem?_eq_some_iff.1 hb).1
    rw [hm, if_pos (by omega), show a + i - a = i by omega, hb]
  · intro x hx
    rw [hm, if_neg (by omega)]

/-- The rest of a run after the function: code 0, the result is written, the blocks `bs` are left. -/
def Finishes (base : Nat → Bool) (bs : List Nat) (a n : Nat) (R : Outcome (List UInt8 × Mem)) (x : Outcome (Int × Mem × Heap)) : Prop :=
  ∃ k, x = (R >>= k) ∧ ∀ out m1, out.length = n → Room m1 a n → ∃ m2 h', k (out, m1) = .ok (0, m2, h') ∧ Written m1 a out m2 ∧ Owns base h' bs ∧ Enough h'

theorem bind_assoc' {α β γ : Type} (x : Outcome α) (f : α → Outcome β) (g : β → Outcome γ) : (x >>= f >>= g) = (x >>= fun a => f a >>= g) := by
  cases x <;> rfl

theorem Finishes.bind {base : Nat → Bool} {bs bs' : List Nat} {a n : Nat} {R : Outcome (List UInt8 × Mem)} {x : Outcome (Int × Mem × Heap)} (hx : Finishes base bs a n R x)
    {f : Int × Mem × Heap → Outcome (Int × Mem × Heap)}
    (hf : ∀ (m : Mem) (h : Heap), Owns base h bs → Enough h → ∃ h', f (0, m, h) = .ok (0, m, h') ∧ Owns base h' bs' ∧ Enough h') : Finishes base bs' a n R (x >>= f) := by
  obtain ⟨k, rfl, hk⟩ := hx
  refine ⟨fun p => k p >>= f, bind_assoc' _ _ _, ?_⟩
  intro out m1 h1 h2
  obtain ⟨m2, h', e, hw, o, n⟩ := hk out m1 h1 h2
  obtain ⟨h'', e', o', n'⟩ := hf m2 h' o n
  exact ⟨m2, h'', by simp [e, e'], hw, o', n'⟩

theorem finishCall_ok {lib : Lib} {db : Db} {fn : Nat} {w : Value} {t : FType} {s : Shape} {fixed last : Option Nat} {b : Option (Nat × Nat × Option Nat)} {l : Args}
    {as : List Arg} {m : Mem} {h : Heap} {base : Nat → Bool} {bs : List Nat} {n : Nat} (hs : Size db w.entry n) (hn : n < 2 ^ 64) (hw : w.addr ≠ 0) (ht : see t = .ok s)
    (hl : Each (Place m) l as) (hb : Whole b) (hp : lib.prep fixed s (as.map shape) = true) (e : Enough h)
    (o : Owns base h (last.toList ++ (argBlocks l ++ (blockList b ++ (blocks t ++ bs))))) :
    Finishes base bs w.addr n (lib.run fn fixed s as m) (finishCall lib db fn (some w) (some t) fixed last b l m h) := by
  obtain ⟨v, ev, hv⟩ := byteSize_of hs hn
  obtain ⟨h1, e1, o1, n1⟩ := freeOpt_ok e last o
  obtain ⟨h2, e2, o2, n2⟩ := release_ok hl hb n1 o1
  obtain ⟨h3, e3, o3, f3⟩ := cleanup_ok t ht o2
  have hge : v ≥ 8 ↔ 8 ≤ n := by rw [ge_iff_le, UInt64.le_iff_toNat_le, hv]; exact Iff.rfl
  have hassert : (decide (v < 8) || decide (w.addr ≠ 0)) = true := by simp [hw]
  refine ⟨_, by simp only [finishCall, ev, Outcome.ofLoop_some, Outcome.bind_ok, hassert, Outcome.assert, if_true, e1, prepare_ok hl ht hp, run_ok hl]; rfl, ?_⟩
  intro out m1 hout hroom
  subst hout
  obtain ⟨m2, e4, hwr⟩ := store_written (m := m1) (a := w.addr) (bs := out) hroom
  refine ⟨m2, h3, ?_, hwr, o3, n2.of f3⟩
  dsimp only
  by_cases h8 : v ≥ 8
  · rw [if_pos h8, e4]
    simp [e2, cleanupOpt, e3]
  · rw [if_neg h8, if_neg (by rw [hge] at h8; omega)]
    simp [e2, cleanupOpt, e3, copyResult_store, hv, bytesOf_prefix, e4]

/-! ### The call -/

theorem Each.append {α β : Type} {R : α → β → Prop} {as as' : List α} {bs bs' : List β} (h : Each R as bs) (h' : Each R as' bs') : Each R (as ++ as') (bs ++ bs') := by
  induction h with
  | nil => exact h'
  | cons hr _ ih => exact .cons hr ih

/-- A function's parameters. -/
theorem function_params {db : Db} {r : Ref} {t : Option Ref} {ps : List Ref} (hf : Function db r t ps) :
    ∃ f, finalOf db (some r) isFunc = some (some f) ∧ hasResult db r = .ok t.isSome ∧ parametersCount db (some r) = some (ps.length : Int) ∧
      ∀ i : Nat, i < ps.length → byParameterId db (some r) i = some ps[i]? := by
  obtain ⟨f, qs, hfin, hi⟩ := hf
  have key := finalOf_some hfin isFunc
  have hif : isFunc (db f).info = true := by rcases hi with hi | hi <;> simp [hi, isFunc]
  have hps : paramsOf (db f).info = ps := by rcases hi with hi | hi <;> simp [hi, paramsOf]
  rw [if_pos hif] at key
  refine ⟨f, key, ?_, ?_, ?_⟩
  · unfold hasResult
    rw [key]
    rcases hi with hi | hi <;> simp [hi]
  · simp [parametersCount, key, hps]
  · intro i hlt
    simp only [byParameterId, key, item]
    simp [hps, hlt]

/-- The arguments before `...`. -/
def fixedPart : Option Nat → List Arg → List Arg
  | none, as => as
  | some k, as => as.take k

/-- The call of `_call`, when all goes well. -/
theorem call_ok {D : Value → Arg → Prop} {lib : Lib} {env : Env} {db : Db} (hn : Named db) {fn : Nat} {v w : Value} {t : Option Ref} {ps : List Ref} {as : List Arg} {fixed : Option Nat} {m : Mem} {s : Shape} {n : Nat}
    (hf : Function db v.entry t ps) (ht : t ≠ none) (hD : ∀ v a, D v a → Raw env db m v a) (ha : Arguments env db m D v ps as fixed) (hl : Looks env db w.entry s) (hs : Size db w.entry n) (hlt : n < 2 ^ 64) (hw : w.addr ≠ 0)
    (hfn : fn ≠ 0) (hp : lib.prep fixed s (as.map shape) = true) {vas : List (Nat × List Arg)}
    (hvas : vas = vasOf 0 (fixedPart fixed as))
    {base : Nat → Bool} {bs : List Nat} {h : Heap} (e : Enough h) (o : Owns base h bs) :
    Finishes base bs w.addr n (lib.run fn fixed s as m) (call lib env db fn v (some w) vas m h) := by
  obtain ⟨f, hfun, hres, hcount, hbyid⟩ := function_params hf
  have hload : hasLoad env db v = .ok true := by simp [hasLoad, hfun]
  have htt : t.isSome = true := by cases t <;> simp_all
  obtain ⟨rt, h1, e1, hsee, o1, n1⟩ := (looks_makes hn hl _ h o).enough e
  unfold call
  simp only [hload, hfun, hres, htt, hcount, e1, Outcome.bind_ok, Outcome.ofLoop_some, hfn, Bool.not_true, Bool.false_or, decide_false, Bool.false_eq_true, if_false,
    Option.isNone_some, if_true, ne_eq, not_true]
  cases ha with
  | plain hlen hlast hfix =>
    have hvas' : vas = vasOf 0 as := hvas
    have hd0 : (env.params v.addr).drop 0 = env.params v.addr ++ [] := by simp
    have main : ∀ k, k = (env.params v.addr).length →
        Finishes base bs w.addr n (lib.run fn none s as m) (callWith lib env db fn v (some w) vas (some rt) k none m h1) := by
      intro k hk
      subst hk
      obtain ⟨b, h2, e2, hb, o2, n2⟩ := blocksFor_ok n1 o1 ((env.params v.addr).length + 0)
      obtain ⟨l, h3, e3, hpl, o3, n3⟩ := fillFixed_ok hn hfix 0 [] _ h2 hd0 n2 o2
      rw [← hvas'] at e3
      unfold callWith
      simp only [e2, Outcome.bind_ok, e3, whole_null hb, Bool.false_eq_true, if_false, ne_eq, not_true]
      exact finishCall_ok hs hlt hw hsee hpl hb hp n3 o3
    rw [hlen, if_neg (by omega)]
    by_cases h0 : ps.length > 0
    · rw [if_pos h0]
      obtain ⟨q, hq⟩ : ∃ q, ps.getLast? = some q := by
        cases hps : ps.getLast? with
        | none => rw [List.getLast?_eq_none_iff] at hps; subst hps; simp at h0
        | some q => exact ⟨q, rfl⟩
      have hq' : ps[ps.length - 1]? = some q := by rw [← List.getLast?_eq_getElem?]; exact hq
      have hb := hbyid (ps.length - 1) (by omega)
      rw [show ((ps.length - 1 : Nat) : Int) = (ps.length : Int) - 1 by omega, hq'] at hb
      rw [hb]
      simp only [Outcome.ofLoop_some, Outcome.bind_ok]
      have hnd : isDots db q = false := by
        have := hlast q hq
        unfold isDots
        cases hi : (db q).info with
        | param u t =>
          cases u with
          | false => rfl
          | true => exact absurd ⟨t, hi⟩ this
        | _ => rfl
      rw [hnd]
      simp only [Bool.false_eq_true, if_false]
      exact main _ hlen.symm
    · rw [if_neg h0]
      exact main 0 (by omega)
  | @dots vs d q as more hpar hlen hlast hdots hd hdv hfix hmore =>
    have hvas' : vas = vasOf 0 as := by
      rw [hvas, fixedPart, Each.length hfix, List.take_left]
    have hlen' : (env.params v.addr).length = vs.length + 1 := by rw [hpar]; simp
    rw [hlen', if_neg (by omega), if_pos (by omega)]
    have hq' : ps[ps.length - 1]? = some q := by rw [← List.getLast?_eq_getElem?]; exact hlast
    have hb := hbyid (ps.length - 1) (by omega)
    rw [hq', show ((ps.length - 1 : Nat) : Int) = ((vs.length + 1 : Nat) : Int) - 1 by omega] at hb
    rw [hb]
    have hnd : isDots db q = true := by
      obtain ⟨t, hi⟩ := hdots
      simp [isDots, hi]
    have hdi : (env.params v.addr)[vs.length]? = some d := by rw [hpar]; simp
    obtain ⟨bl, h2, e2, o2, n2⟩ := newItem_enough n1 o1 hdi hd
    simp only [Outcome.ofLoop_some, Outcome.bind_ok, hnd, if_true, Nat.add_sub_cancel, e2]
    obtain ⟨b, h3, e3, hb, o3, n3⟩ := blocksFor_ok n2 o2 (vs.length + (env.params d.addr).length)
    obtain ⟨l, h4, e4, hpl, o4, n4⟩ := fillFixed_ok hn hfix 0 [d] _ h3 (by simpa using hpar) n3 o3
    obtain ⟨l', h5, e5, hpl', o5, n5⟩ := fillDots_ok hn (Each.mono hD hmore) (v := d) 0 _ h4 (by simp) n4 o4
    rw [← hvas'] at e4
    unfold callWith
    simp only [e3, Outcome.bind_ok, e4, e5, whole_null hb, Bool.false_eq_true, if_false, ne_eq, not_true, Option.map_some]
    refine finishCall_ok hs hlt hw hsee (Each.append hpl hpl') hb hp n5 (o5.perm ?_)
    simp only [argBlocks_append, Option.toList]
    perm

/-! ### `va_list` arguments -/

/-- A stored `va_list` argument and its number; the arguments that can be read from it. -/
def Todo (env : Env) (db : Db) (m : Mem) (x : Nat × Value) (y : Nat × List Arg) : Prop := x.1 = y.1 ∧ env.vaList x.2.entry = true ∧ Each (Raw env db m) (env.params x.2.addr) y.2

theorem wrap_ok {lib : Lib} {env : Env} {db : Db} (hn : Named db) {fn : Nat} {v w : Value} {m : Mem} {a n : Nat} {R : Outcome (List UInt8 × Mem)}
    {todo : List (Nat × Value)} {more : List (Nat × List Arg)} (ht : Each (Todo env db m) todo more)
    (hp : ∀ y ∈ more, lib.prep (some 6) (.prim .sint) ([.prim .pointer, .prim .pointer, .prim .pointer, .prim .sint, .prim .pointer, .prim .sint] ++ y.2.map shape) = true)
    {base : Nat → Bool} : ∀ (vas : List (Nat × List Arg)) (bs : List Nat) (h : Heap), Enough h → Owns base h bs →
      (∀ bs' h', Enough h' → Owns base h' bs' → Finishes base bs' a n R (call lib env db fn v (some w) (vas ++ more) m h')) →
      Finishes base bs a n R (wrap lib env db fn v (some w) todo vas m h) := by
  induction ht with
  | nil =>
    intro vas bs h e o hc
    have := hc bs h e o
    rw [List.append_nil] at this
    simp only [wrap]
    exact this
  | @cons x y todo more hx _ ih =>
    intro vas bs h e o hc
    obtain ⟨i, p⟩ := x
    obtain ⟨j, l0⟩ := y
    obtain ⟨rfl, hv, hd⟩ := hx
    dsimp only at hv hd
    obtain ⟨b, h1, e1, hb, o1, n1⟩ := threeBlocks_ok e o
    obtain ⟨l, h2, e2, hpl, o2, n2⟩ := fillDots_ok hn hd (v := p) 0 _ h1 (by simp) n1 o1
    have hpp := hp (i, l0) (by simp)
    dsimp only at hpp
    have := ih (fun y hy => hp y (by simp [hy])) (vas ++ [(i, l0)]) _ h2 n2 o2 (fun bs' h' e' o' => by
      have := hc bs' h' e' o'
      rw [List.append_assoc]
      exact this)
    unfold wrap
    simp only [hv, Outcome.assert, if_true, Outcome.bind_ok, e1, e2, whole_null hb, Bool.false_eq_true, if_false, ne_eq, not_true, see_args hpl, hpp, fetch_args hpl]
    refine this.bind fun m' h' o' e' => ?_
    obtain ⟨h3, e3, o3, n3⟩ := release_ok hpl hb e' o'
    exact ⟨h3, by simp [e3], o3, n3⟩

/-- The `va_list` arguments among the stored ones. -/
def todoOf (env : Env) : Nat → List Value → List (Nat × Value)
  | _, [] => []
  | i, p :: ps => if env.vaList p.entry then (i, p) :: todoOf env (i + 1) ps else todoOf env (i + 1) ps

theorem todoOf_snoc {env : Env} {d : Value} (hd : env.vaList d.entry = false) (i : Nat) (vs : List Value) : todoOf env i (vs ++ [d]) = todoOf env i vs := by
  induction vs generalizing i with
  | nil => simp [todoOf, hd]
  | cons p ps ih => simp only [List.cons_append, todoOf, ih]

theorem todo_fixed {D : Value → Arg → Prop} {env : Env} {db : Db} {m : Mem} (hD : ∀ v a, D v a → Raw env db m v a) {vs : List Value} {as : List Arg} (h : Each (Fixed env db m D) vs as) (i : Nat) :
    Each (Todo env db m) (todoOf env i vs) (vasOf i as) := by
  induction h generalizing i with
  | nil => exact .nil
  | @cons p a ps as hf _ ih =>
    cases hf with
    | object _ hv _ _ _ => simpa [todoOf, vasOf, hv] using ih (i + 1)
    | vaList _ _ hv _ hd =>
      simp only [todoOf, vasOf, hv, if_true]
      exact .cons ⟨rfl, hv, Each.mono hD hd⟩ (ih (i + 1))

theorem countVas_ok {env : Env} {v : Value} (vs : List Value) (hne : ∀ p ∈ vs, p.addr ≠ 0) {base : Nat → Bool} : ∀ (i k : Nat) (bs : List Nat) (h : Heap),
    (env.params v.addr).drop i = vs → Enough h → Owns base h bs →
    ∃ h', countVas env v vs.length i k h = .ok (some (k + (todoOf env i vs).length), h') ∧ Owns base h' bs ∧ Enough h' := by
  induction vs with
  | nil => exact fun i k bs h _ e o => ⟨h, rfl, o, e⟩
  | cons p ps ih =>
    intro i k bs h hd e o
    obtain ⟨hp, hd'⟩ := drop_cons hd
    obtain ⟨b, h1, e1, o1, n1⟩ := newItem_enough e o hp (hne p (by simp))
    obtain ⟨h2, e2, o2, n2⟩ := free_enough n1 o1
    obtain ⟨h3, e3, o3, n3⟩ := ih (fun q hq => hne q (by simp [hq])) (i + 1) (if env.vaList p.entry then k + 1 else k) bs h2 hd' n2 o2
    refine ⟨h3, ?_, o3, n3⟩
    simp only [List.length_cons, countVas, e1, e2, Outcome.bind_ok, e3, todoOf]
    by_cases hv : env.vaList p.entry = true
    · simp [hv]; omega
    · simp [hv]

theorem collectVas_ok {env : Env} {v : Value} (vs : List Value) (hne : ∀ p ∈ vs, p.addr ≠ 0) {base : Nat → Bool} : ∀ (i : Nat) (bs : List Nat) (h : Heap),
    (env.params v.addr).drop i = vs → Enough h → Owns base h bs →
    ∃ l h', collectVas env v vs.length i h = .ok (true, l, h') ∧ (l.map fun x => (x.1, x.2.1)) = todoOf env i vs ∧ Owns base h' ((l.map fun x => x.2.2) ++ bs) ∧ Enough h' := by
  induction vs with
  | nil => exact fun i bs h _ e o => ⟨[], h, rfl, rfl, o, e⟩
  | cons p ps ih =>
    intro i bs h hd e o
    obtain ⟨hp, hd'⟩ := drop_cons hd
    obtain ⟨b, h1, e1, o1, n1⟩ := newItem_enough e o hp (hne p (by simp))
    by_cases hv : env.vaList p.entry = true
    · obtain ⟨l, h3, e3, hl, o3, n3⟩ := ih (fun q hq => hne q (by simp [hq])) (i + 1) (b :: bs) h1 hd' n1 o1
      refine ⟨(i, p, b) :: l, h3, ?_, ?_, ?_, n3⟩
      · simp [List.length_cons, collectVas, e1, hv, e3]
      · simp [todoOf, hv, hl]
      · exact o3.perm (by simp only [List.map_cons]; perm)
    · obtain ⟨h2, e2, o2, n2⟩ := free_enough n1 o1
      obtain ⟨l, h3, e3, hl, o3, n3⟩ := ih (fun q hq => hne q (by simp [hq])) (i + 1) bs h2 hd' n2 o2
      refine ⟨l, h3, ?_, ?_, o3, n3⟩
      · simp [List.length_cons, collectVas, e1, hv, e2, e3]
      · simp [todoOf, hv, hl]

theorem freeAll_ok {base : Nat → Bool} {bs : List Nat} : ∀ (l : List Nat) {h : Heap}, Enough h → Owns base h (l ++ bs) → ∃ h', freeAll l h = .ok h' ∧ Owns base h' bs ∧ Enough h'
  | [], h, e, o => ⟨h, rfl, o, e⟩
  | b :: l, h, e, o => by
    obtain ⟨h1, e1, o1, n1⟩ := free_enough e o
    obtain ⟨h2, e2, o2, n2⟩ := freeAll_ok l n1 o1
    exact ⟨h2, by simp [freeAll, e1, e2], o2, n2⟩

theorem vas_mem {as : List Arg} : ∀ (i : Nat) {y : Nat × List Arg}, y ∈ vasOf i as → Arg.vaList y.2 ∈ as := by
  induction as with
  | nil => intro i y hy; cases hy
  | cons a as ih =>
    intro i y hy
    cases a with
    | object s b => simp only [vasOf] at hy; exact List.mem_cons_of_mem _ (ih _ hy)
    | vaList l =>
      simp only [vasOf, List.mem_cons] at hy
      rcases hy with rfl | hy
      · simp
      · exact List.mem_cons_of_mem _ (ih _ hy)

theorem each_mem {α β : Type} {R : α → β → Prop} {as : List α} {bs : List β} (h : Each R as bs) {a : α} (ha : a ∈ as) : ∃ b ∈ bs, R a b := by
  induction h with
  | nil => cases ha
  | @cons a' b' _ _ hr _ ih =>
    rcases List.mem_cons.1 ha with rfl | ha
    · exact ⟨b', by simp, hr⟩
    · obtain ⟨b, hb, hr⟩ := ih ha
      exact ⟨b, by simp [hb], hr⟩

theorem ffiCall_ok {D : Value → Arg → Prop} {lib : Lib} {env : Env} {db : Db} (hn : Named db) {fn : Nat} {v w : Value} {t : Option Ref} {ps : List Ref} {as : List Arg} {fixed : Option Nat} {m : Mem} {s : Shape} {n : Nat}
    (hf : Function db v.entry t ps) (ht : t ≠ none) (hD : ∀ v a, D v a → Raw env db m v a) (ha : Arguments env db m D v ps as fixed) (hl : Looks env db w.entry s) (hs : Size db w.entry n) (hlt : n < 2 ^ 64) (hw : w.addr ≠ 0)
    (hfn : fn ≠ 0) (hp : Accepts lib s as fixed) {base : Nat → Bool} {bs : List Nat} {h : Heap} (e : Enough h) (o : Owns base h bs) :
    Finishes base bs w.addr n (lib.run fn fixed s as m) (ffiCall lib env db (some v) fn (some w) m h) := by
  obtain ⟨f, hfun, hres, hcount, _⟩ := function_params hf
  have hload : hasLoad env db v = .ok true := by simp [hasLoad, hfun]
  -- what the arguments are
  obtain ⟨hlen, hne, htodo, hsub⟩ : (env.params v.addr).length = ps.length ∧ (∀ p ∈ env.params v.addr, p.addr ≠ 0) ∧
      Each (Todo env db m) (todoOf env 0 (env.params v.addr)) (vasOf 0 (fixedPart fixed as)) ∧ (∀ a ∈ fixedPart fixed as, a ∈ as) := by
    cases ha with
    | plain hlen _ hfix =>
      refine ⟨hlen, fun p hp => ?_, todo_fixed hD hfix 0, fun a h => h⟩
      obtain ⟨a, _, hr⟩ := each_mem hfix hp
      exact fixed_addr hr
    | @dots vs d q as more hpar hlen hlast hdots hd hdv hfix hmore =>
      have e1 : fixedPart (some vs.length) (as ++ more) = as := by rw [fixedPart, Each.length hfix, List.take_left]
      rw [e1, hpar, todoOf_snoc hdv]
      refine ⟨by simp [hlen], ?_, todo_fixed hD hfix 0, fun a h => List.mem_append_left _ h⟩
      intro p hp
      rcases List.mem_append.1 hp with hp | hp
      · obtain ⟨a, _, hr⟩ := each_mem hfix hp
        exact fixed_addr hr
      · simp only [List.mem_cons, List.not_mem_nil, or_false] at hp
        subst hp
        exact hd
  have hwrap : ∀ bs h, Enough h → Owns base h bs → Finishes base bs w.addr n (lib.run fn fixed s as m)
      (wrap lib env db fn v (some w) (todoOf env 0 (env.params v.addr)) [] m h) := by
    intro bs h e o
    refine wrap_ok hn htodo (fun y hy => hp.lists y.2 (hsub _ (vas_mem 0 hy))) [] bs h e o fun bs' h' e' o' => ?_
    exact call_ok hn hf ht hD ha hl hs hlt hw hfn hp.call (by simp) e' o'
  obtain ⟨h1, e1, o1, n1⟩ := countVas_ok (env := env) (v := v) (env.params v.addr) hne 0 0 bs h (by simp) e o
  unfold ffiCall
  simp only [hload, hfun, hcount, e1, Outcome.bind_ok, Outcome.ofLoop_some, hfn, Bool.not_true, Bool.false_or, decide_false, Bool.false_eq_true, if_false,
    Option.isNone_some, Nat.zero_add]
  rw [if_neg (by omega)]
  cases hk : (todoOf env 0 (env.params v.addr)).length with
  | zero =>
    have := hwrap bs h1 n1 o1
    rw [List.length_eq_zero_iff.1 hk] at this
    exact this
  | succ k =>
    obtain ⟨b, h2, e2, o2, n2⟩ := alloc_enough n1 o1
    obtain ⟨l, h3, e3, hl3, o3, n3⟩ := collectVas_ok (env := env) (v := v) (env.params v.addr) hne 0 _ h2 (by simp) n2 o2
    simp only [e2, e3, Outcome.bind_ok, hl3]
    refine (hwrap _ h3 n3 o3).bind fun m' h' o' e' => ?_
    obtain ⟨h4, e4, o4, n4⟩ := freeAll_ok _ e' o'
    obtain ⟨h5, e5, o5, n5⟩ := free_enough n4 o4
    exact ⟨h5, by simp [e4, e5], o5, n5⟩

end Verif.Ffi
