import Verif.Emit.Spec
/-
Reading back what the templates write.
-/
namespace Verif.Emit
open Verif.GoMeta (Str)

/-- What may follow an initialiser. -/
def Stop (rest : List Tok) : Prop :=
  rest = [] ∨ (∃ r, rest = .p 44 :: r) ∨ ∃ r, rest = .p 125 :: r

/-- The tokens are the initialiser `v`. -/
def Reads (t : List Tok) (v : Init) : Prop :=
  ∀ rest n, t.length ≤ n → Stop rest → parseInit n (t ++ rest) = some (v, rest)

/-- The tokens are items. -/
def Items (t : List Tok) (is : List (Option Str × Init)) : Prop :=
  ∀ rest n, t.length + 1 ≤ n → parseItems n (t ++ .p 125 :: rest) = some (is, rest)

/-- Tokens in front of items. -/
def Seg (t : List Tok) (is : List (Option Str × Init)) : Prop :=
  ∀ ts js, Items ts js → Items (t ++ ts) (is ++ js)

theorem items_nil : Items [] [] := by
  intro rest n hn
  obtain ⟨n, rfl⟩ : ∃ m, n = m + 1 := ⟨n - 1, by simp at hn; omega⟩
  rfl

theorem Seg.nil : Seg [] [] := fun _ _ h => h
theorem Seg.append {t u is js} (h : Seg t is) (k : Seg u js) : Seg (t ++ u) (is ++ js) := by
  intro ts ks hts
  rw [List.append_assoc, List.append_assoc]
  exact h _ _ (k _ _ hts)
theorem Seg.items {t is} (h : Seg t is) : Items t is := by
  have := h [] [] items_nil
  simpa using this

/-- `.k = t,` -/
def seg (k : Str) (t : List Tok) : List Tok := .p 46 :: .id k :: .p 61 :: (t ++ [.p 44])
/-- `{ t }` -/
def braces (t : List Tok) : List Tok := .p 123 :: (t ++ [.p 125])

theorem parseItems_des (k : Str) (ts : List Tok) (n : Nat) :
    parseItems (n + 1) (.p 46 :: .id k :: .p 61 :: ts) =
      match parseInit n ts with
      | some (v, .p 44 :: rest) => (parseItems n rest).map fun r => ((some k, v) :: r.1, r.2)
      | some (v, .p 125 :: rest) => some ([(some k, v)], rest)
      | _ => none := by
  rw [parseItems]
  · rfl
  · intro ts heq
    injection heq with h _
    exact absurd h (by decide)

theorem Reads.seg {t v} (k : Str) (h : Reads t v) : Seg (seg k t) [(some k, v)] := by
  intro ts js hts rest n hn
  obtain ⟨n, rfl⟩ : ∃ m, n = m + 1 := ⟨n - 1, by simp [Emit.seg] at hn; omega⟩
  have hv := h (.p 44 :: (ts ++ .p 125 :: rest)) n (by simp [Emit.seg] at hn; omega) (.inr (.inl ⟨_, rfl⟩))
  have hi := hts rest n (by simp [Emit.seg] at hn; omega)
  simp only [Emit.seg, List.cons_append, List.append_assoc, List.nil_append]
  rw [parseItems_des, hv]
  simp only [hi, Option.map_some]

/-- The first token of an element without a designator. -/
def Starts (t : List Tok) : Prop := ∃ c r, t = c :: r ∧ c ≠ .p 125 ∧ c ≠ .p 46

theorem designator_plain {t : List Tok} (h : Starts t) (rest : List Tok) :
    designator (t ++ rest) = (none, t ++ rest) := by
  obtain ⟨c, r, rfl, -, h2⟩ := h
  simp only [List.cons_append]
  unfold designator
  split
  · rename_i heq
    injection heq with h _
    exact absurd h h2
  · rfl

theorem parseItems_plain {t : List Tok} (h : Starts t) (rest : List Tok) (n : Nat) :
    parseItems (n + 1) (t ++ rest) =
      match parseInit n (t ++ rest) with
      | some (v, .p 44 :: rest) => (parseItems n rest).map fun r => ((none, v) :: r.1, r.2)
      | some (v, .p 125 :: rest) => some ([(none, v)], rest)
      | _ => none := by
  have hd := designator_plain h rest
  obtain ⟨c, r, rfl, h1, h2⟩ := h
  simp only [List.cons_append] at hd ⊢
  rw [parseItems]
  · rw [hd]
    rfl
  · intro ts heq
    injection heq with h _
    exact absurd h h1

theorem Reads.elem {t v} (h : Reads t v) (hs : Starts t) : Seg (t ++ [.p 44]) [(none, v)] := by
  intro ts js hts rest n hn
  obtain ⟨n, rfl⟩ : ∃ m, n = m + 1 := ⟨n - 1, by simp at hn; omega⟩
  have hv := h (.p 44 :: (ts ++ .p 125 :: rest)) n (by simp at hn; omega) (.inr (.inl ⟨_, rfl⟩))
  have hi := hts rest n (by simp at hn; omega)
  simp only [List.append_assoc, List.cons_append, List.nil_append]
  rw [parseItems_plain hs, hv]
  simp only [hi, Option.map_some]

theorem Reads.last {t v} (h : Reads t v) (hs : Starts t) : Items t [(none, v)] := by
  intro rest n hn
  obtain ⟨n, rfl⟩ : ∃ m, n = m + 1 := ⟨n - 1, by omega⟩
  have hv := h (.p 125 :: rest) n (by omega) (.inr (.inr ⟨_, rfl⟩))
  rw [parseItems_plain hs, hv]
  simp

theorem Items.reads {t is} (h : Items t is) : Reads (braces t) (.brace is) := by
  intro rest n hn _
  obtain ⟨n, rfl⟩ : ∃ m, n = m + 1 := ⟨n - 1, by simp [braces] at hn; omega⟩
  have := h rest n (by simp [braces] at hn; omega)
  simp only [braces, List.cons_append, List.append_assoc, List.nil_append, parseInit, this]
  rfl

/-- `(ty[]){ t }` for the three kinds of types. -/
def typeToks : CType → List Tok
  | .val s => .id s :: c! "[])"
  | .ptr s => .id s :: c! "*[])"
  | .struct s => .id (go! "struct") :: .id s :: c! "[])"
/-- `(ty[]){ t }` -/
def literalToks (ty : CType) (t : List Tok) : List Tok := .p 40 :: (typeToks ty ++ braces t)

theorem parseType_toks (ty : CType) (rest : List Tok) :
    parseType (typeToks ty ++ rest) = some (ty, rest) := by
  cases ty <;> simp [typeToks, parseType]

theorem Items.readsArray {t is} (ty : CType) (h : Items t is) :
    Reads (literalToks ty t) (.array ty is) := by
  intro rest n hn _
  obtain ⟨n, rfl⟩ : ∃ m, n = m + 1 := ⟨n - 1, by simp [literalToks] at hn; omega⟩
  have := h rest n (by simp [literalToks, braces] at hn; omega)
  have hp := parseType_toks ty (.p 123 :: (t ++ .p 125 :: rest))
  simp only [literalToks, List.cons_append, List.append_assoc, braces, List.nil_append, parseInit, hp, this]
  rfl

/-! ## Values -/

/-- The tokens are an initialiser with the value `b`. -/
def Gives {β : Type} (g : Init → Option β) (t : List Tok) (b : β) : Prop :=
  Starts t ∧ ∃ v, Reads t v ∧ g v = some b

/-- The tokens set members of a structure. -/
def Sets {α : Type} (table : List (Str × (α → Init → Option α))) (t : List Tok) (f : α → α) : Prop :=
  ∃ is, Seg t is ∧ ∀ a rest, fields table a (is ++ rest) = fields table (f a) rest

theorem Sets.nil {α : Type} {table : List (Str × (α → Init → Option α))} : Sets table [] id :=
  ⟨[], Seg.nil, fun _ _ => rfl⟩

theorem Sets.nil' {α : Type} {table : List (Str × (α → Init → Option α))} {f : α → α}
    (h : ∀ a, f a = a) : Sets table [] f :=
  ⟨[], Seg.nil, fun a _ => by rw [h]; rfl⟩

theorem Sets.append {α : Type} {table : List (Str × (α → Init → Option α))} {t u f g}
    (h : Sets table t f) (k : Sets table u g) : Sets table (t ++ u) (g ∘ f) := by
  obtain ⟨is, h1, h2⟩ := h
  obtain ⟨js, k1, k2⟩ := k
  refine ⟨is ++ js, h1.append k1, fun a rest => ?_⟩
  rw [List.append_assoc, h2, k2]
  rfl

theorem Sets.field {α β : Type} {table : List (Str × (α → Init → Option α))} {g : Init → Option β}
    {t b} (k : Str) (f : α → α) {set : α → Init → Option α} (h : Gives g t b)
    (hk : table.lookup k = some set) (hs : ∀ a v, g v = some b → set a v = some (f a)) :
    Sets table (seg k t) f := by
  obtain ⟨-, v, hv, hg⟩ := h
  refine ⟨_, hv.seg k, fun a rest => ?_⟩
  simp only [List.cons_append, List.nil_append, fields, hk, hs a v hg, Option.bind_some]

/-- A member that is read by `g` and stored by `upd`. -/
theorem Sets.fieldMap {α β : Type} {table : List (Str × (α → Init → Option α))} {g : Init → Option β}
    {t b} (k : Str) (upd : α → β → α) (h : Gives g t b)
    (hk : table.lookup k = some fun a v => (g v).map (upd a)) :
    Sets table (seg k t) (fun a => upd a b) :=
  Sets.field k _ h hk (fun a v hv => by simp only [hv, Option.map_some])

theorem Sets.gives {α : Type} {table : List (Str × (α → Init → Option α))} {t f} (zero : α)
    (h : Sets table t f) : Gives (structOf table zero) (braces t) (f zero) := by
  obtain ⟨is, h1, h2⟩ := h
  refine ⟨⟨_, _, rfl, by decide, by decide⟩, _, h1.items.reads, ?_⟩
  have := h2 zero []
  simp only [List.append_nil] at this
  simp only [structOf, this, fields]

theorem gives_int (v : Int) : Gives intOf (int v) v := by
  unfold int
  split
  · rename_i h
    refine ⟨⟨_, _, rfl, by decide, by decide⟩, .num v, ?_, rfl⟩
    intro rest n hn _
    obtain ⟨n, rfl⟩ : ∃ m, n = m + 1 := ⟨n - 1, by simp at hn; omega⟩
    simp only [List.cons_append, List.nil_append, parseInit]
    congr 3
    omega
  · rename_i h
    refine ⟨⟨_, _, rfl, by simp, by simp⟩, .num v, ?_, rfl⟩
    intro rest n hn _
    obtain ⟨n, rfl⟩ : ∃ m, n = m + 1 := ⟨n - 1, by simp at hn; omega⟩
    simp only [List.cons_append, List.nil_append, parseInit]
    congr 3
    omega

theorem reads_name (s : Str) : Reads [.id s] (.name s) := by
  intro rest n hn hst
  obtain ⟨n, rfl⟩ : ∃ m, n = m + 1 := ⟨n - 1, by simp at hn; omega⟩
  rcases hst with rfl | ⟨r, rfl⟩ | ⟨r, rfl⟩ <;> simp [parseInit]

theorem gives_const {s : Str} {x : Int} (h : constants.lookup s = some x) :
    Gives intOf [.id s] x :=
  ⟨⟨_, _, rfl, by simp, by simp⟩, _, reads_name s, h⟩

theorem gives_func {sc : Scope} {s : Str} (h : s ∈ sc.funcs) : Gives (funcOf sc) [.id s] s :=
  ⟨⟨_, _, rfl, by simp, by simp⟩, _, reads_name s, by simp [funcOf, h]⟩

theorem gives_addr {sc : Scope} {s : Str} (h : s ∈ sc.entries) :
    Gives (addrOf sc) [.p 38, .id s] s := by
  refine ⟨⟨_, _, rfl, by simp, by simp⟩, .addr s, ?_, by simp [addrOf, h]⟩
  intro rest n hn _
  obtain ⟨n, rfl⟩ : ∃ m, n = m + 1 := ⟨n - 1, by simp at hn; omega⟩
  simp [parseInit]

theorem gives_str {raw s : Str} (h : literal true raw = some s) : Gives strOf [.str raw] s := by
  refine ⟨⟨_, _, rfl, by simp, by simp⟩, .str s, ?_, rfl⟩
  intro rest n hn _
  obtain ⟨n, rfl⟩ : ∃ m, n = m + 1 := ⟨n - 1, by simp at hn; omega⟩
  simp [parseInit, h]

theorem gives_ptrSize : Gives intOf (c! "sizeof(void*)") 8 := by
  refine ⟨⟨_, _, rfl, by simp, by simp⟩, .num 8, ?_, rfl⟩
  intro rest n hn _
  obtain ⟨n, rfl⟩ : ∃ m, n = m + 1 := ⟨n - 1, by simp at hn; omega⟩
  simp [parseInit]

theorem literal_plain {s : Str} (h : Spec.Plain s) : literal true s = some s := by
  induction s with
  | nil => rfl
  | cons c s ih =>
    obtain ⟨h1, h2, h3⟩ := h
    simp only [List.mem_cons, not_or] at h1 h2 h3
    have := ih ⟨h1.2, h2.2, h3.2⟩
    unfold literal
    simp [this, Ne.symm h1.1, Ne.symm h2.1, Ne.symm h3.1]

theorem quote_printable {s : Str} (h : Spec.Printable s) :
    ∃ q, quote s = some q ∧ literal true q = some s := by
  induction s with
  | nil => exact ⟨[], rfl, rfl⟩
  | cons c s ih =>
    obtain ⟨q, h1, h2⟩ := ih fun x hx => h x (List.mem_cons_of_mem _ hx)
    obtain ⟨hc1, hc2⟩ := h c List.mem_cons_self
    by_cases hq : c = 34 ∨ c = 92
    · refine ⟨92 :: c :: q, by simp [quote, h1, hq], ?_⟩
      rcases hq with rfl | rfl <;> simp [literal, escape, h2]
    · have hne : ∀ k : UInt8, k < 32 → c ≠ k := by
        rintro k hk rfl
        exact absurd (UInt8.lt_of_lt_of_le hk hc1) (UInt8.lt_irrefl _)
      have h7 := hne 7 (by decide)
      have h8 := hne 8 (by decide)
      have h9 := hne 9 (by decide)
      have h10 := hne 10 (by decide)
      have h11 := hne 11 (by decide)
      have h12 := hne 12 (by decide)
      have h13 := hne 13 (by decide)
      have h127 : c ≠ 127 := by rintro rfl; exact absurd hc2 (by decide)
      have hlt : ¬ c < 32 := UInt8.not_lt.mpr hc1
      refine ⟨c :: q, by simp [quote, h1, hq, h7, h8, h9, h10, h11, h12, h13, h127, hlt], ?_⟩
      simp only [not_or] at hq
      unfold literal
      simp [hq, h10, h2]

/-! ## Lists of elements -/

/-- The tokens are elements with the values `bs`. -/
def Elems {β : Type} (g : Init → Option β) (t : List Tok) (bs : List β) : Prop :=
  ∃ is, Items t is ∧ elements g is = some bs

theorem elems_flatMap {α β : Type} {g : Init → Option β} (tok : α → List Tok) (val : α → β) (l : List α)
    (h : ∀ a ∈ l, Gives g (tok a) (val a)) :
    Elems g (l.flatMap fun a => tok a ++ [.p 44]) (l.map val) := by
  suffices ∃ is, Seg (l.flatMap fun a => tok a ++ [.p 44]) is ∧ elements g is = some (l.map val) by
    obtain ⟨is, h1, h2⟩ := this
    exact ⟨is, h1.items, h2⟩
  induction l with
  | nil => exact ⟨[], Seg.nil, rfl⟩
  | cons a l ih =>
    obtain ⟨is, h1, h2⟩ := ih fun x hx => h x (List.mem_cons_of_mem _ hx)
    obtain ⟨hs, v, hv, hg⟩ := h a List.mem_cons_self
    refine ⟨(none, v) :: is, ?_, ?_⟩
    · rw [List.flatMap_cons]
      exact (hv.elem hs).append h1
    · simp [elements, hg, h2]

theorem Elems.gives {β : Type} {g : Init → Option β} {t bs} (ty : CType) (h : Elems g t bs) :
    Gives (arrayOf ty g) (literalToks ty t) bs := by
  obtain ⟨is, h1, h2⟩ := h
  refine ⟨⟨_, _, rfl, by simp, by simp⟩, _, h1.readsArray ty, ?_⟩
  simp [arrayOf, h2]

theorem gives_sizePtr {t : List Tok} {x : Int} (h : ∃ v, Items t [(none, v)] ∧ intOf v = some x) :
    Gives sizePtr (literalToks (.val (go! "metac_size_t")) t) (unsigned 64 x) := by
  obtain ⟨v, h1, h2⟩ := h
  refine ⟨⟨_, _, rfl, by simp, by simp⟩, _, h1.readsArray _, ?_⟩
  simp [sizePtr, h2]

theorem sizeItems (x : Int) : ∃ v, Items (int x ++ [.p 44]) [(none, v)] ∧ intOf v = some x := by
  obtain ⟨hs, v, hv, hg⟩ := gives_int x
  exact ⟨v, (hv.elem hs).items, hg⟩

theorem placeItems (x : Int) : ∃ v, Items (int x) [(none, v)] ∧ intOf v = some x := by
  obtain ⟨hs, v, hv, hg⟩ := gives_int x
  exact ⟨v, hv.last hs, hg⟩

/-! ## Ranges -/

theorem unsigned_of {bits : Nat} {v : Int} (h0 : 0 ≤ v) (h : v < 2 ^ bits) : unsigned bits v = v :=
  Int.emod_eq_of_lt h0 h

theorem signed_of {bits : Nat} {v : Int} (hb : 1 ≤ bits) (h0 : -2 ^ (bits - 1) ≤ v) (h : v < 2 ^ (bits - 1)) :
    signed bits v = v := by
  have e : (2 : Int) ^ bits = 2 ^ (bits - 1) + 2 ^ (bits - 1) := by
    have : bits = (bits - 1) + 1 := by omega
    rw [this, Int.pow_succ]
    simp only [Nat.add_sub_cancel]
    omega
  unfold signed
  rw [Int.emod_eq_of_lt (by omega) (by omega)]
  omega

end Verif.Emit
