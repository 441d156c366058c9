import Verif.Emit.Lemmas
/-
What each template writes is read back as the record of the specification.
-/
namespace Verif.Emit
open Verif.GoMeta (Str)
open Spec (Plain Named Size Int64 Few Link)

/-- A flag, or nothing. -/
def flagSeg (k : Str) : Option Bool → List Tok
  | some true => seg k [.num 1]
  | _ => []

/-- Starting from `a`, the tokens leave `b`. -/
def SetsAt {α : Type} (table : List (Str × (α → Init → Option α))) (t : List Tok) (a b : α) : Prop :=
  ∃ is, Seg t is ∧ ∀ rest, fields table a (is ++ rest) = fields table b rest

section
variable {α β : Type} {table : List (Str × (α → Init → Option α))}

theorem SetsAt.nil {a : α} : SetsAt table [] a a := ⟨[], Seg.nil, fun _ => rfl⟩

theorem SetsAt.append {t u : List Tok} {a b c : α} (h : SetsAt table t a b) (k : SetsAt table u b c) :
    SetsAt table (t ++ u) a c := by
  obtain ⟨is, h1, h2⟩ := h
  obtain ⟨js, k1, k2⟩ := k
  refine ⟨is ++ js, h1.append k1, fun rest => ?_⟩
  rw [List.append_assoc, h2, k2]

theorem SetsAt.to {t : List Tok} {a b c : α} (h : SetsAt table t a b) (e : b = c) : SetsAt table t a c :=
  e ▸ h

/-- `.k = t,` where `t` has the value `b`. -/
theorem SetsAt.field {g : Init → Option β} {t : List Tok} {b : β} {a : α} (k : Str) (upd : α → β → α)
    (h : Gives g t b) (hk : table.lookup k = some fun a v => (g v).map (upd a)) :
    SetsAt table (seg k t) a (upd a b) := by
  obtain ⟨-, v, hv, hg⟩ := h
  refine ⟨_, hv.seg k, fun rest => ?_⟩
  simp only [List.cons_append, List.nil_append, fields, hk, hg, Option.map_some, Option.bind_some]

/-- `.k = t,` or nothing. -/
theorem SetsAt.opt {g : Init → Option β} {γ : Type} {n : Option γ} {a : α} (k : Str) (tok : γ → List Tok)
    (val : γ → β) (upd : α → Option β → α) (hg : ∀ x, n = some x → Gives g (tok x) (val x))
    (hk : table.lookup k = some fun a v => (g v).map fun x => upd a (some x))
    (h0 : upd a none = a) : SetsAt table (n.elim [] fun x => seg k (tok x)) a (upd a (n.map val)) := by
  cases n with
  | none => exact SetsAt.nil.to h0.symm
  | some x => exact SetsAt.field k (fun a b => upd a (some b)) (hg x rfl) hk

theorem SetsAt.gives {t : List Tok} {zero b : α} (h : SetsAt table t zero b) :
    Gives (structOf table zero) (braces t) b := by
  obtain ⟨is, h1, h2⟩ := h
  refine ⟨⟨_, _, rfl, by simp, by simp⟩, _, h1.items.reads, ?_⟩
  have := h2 []
  simp only [List.append_nil] at this
  simp only [structOf, this, fields]

end

/-- The ids that may be linked to. -/
structure Ctx (sc : Scope) (ids : List Str) : Prop where
  entries : ∀ i ∈ ids, i ∈ sc.entries
  names : ∀ i ∈ ids, ident i = [.id i]

section
variable {sc : Scope} {ids : List Str}

theorem gives_link (c : Ctx sc ids) {i : Str} (h : i ∈ ids) : Gives (addrOf sc) (.p 38 :: ident i) i := by
  rw [c.names i h]
  exact gives_addr (c.entries i h)

theorem gives_links (c : Ctx sc ids) {l : List Str} (h : ∀ i ∈ l, i ∈ ids) :
    Gives (entryPtrs sc) (literalToks (.ptr (go! "metac_entry_t")) (links l)) l := by
  have := (elems_flatMap (g := addrOf sc) (fun i => .p 38 :: ident i) (fun i => i) l
    fun i hi => gives_link c (h i hi)).gives (.ptr (go! "metac_entry_t"))
  simp only [List.map_id'] at this
  exact this

theorem gives_size {v : Int} (h : 0 ≤ v ∧ v < 2 ^ 63) :
    Gives sizePtr (literalToks (.val (go! "metac_size_t")) (int v ++ [.p 44])) v := by
  have := gives_sizePtr (sizeItems v)
  rwa [unsigned_of h.1 (by omega)] at this

theorem gives_place {v : Int} (h : 0 ≤ v ∧ v < 2 ^ 63) :
    Gives sizePtr (literalToks (.val (go! "metac_size_t")) (int v)) v := by
  have := gives_sizePtr (placeItems v)
  rwa [unsigned_of h.1 (by omega)] at this

section
variable {α : Type} {table : List (Str × (α → Init → Option α))}

theorem sets_name {n : Option Str} {a : α} (upd : α → Option Str → α) (hn : Named n)
    (hk : table.lookup (go! "name") = some fun a v => (strOf v).map fun x => upd a (some x))
    (h0 : upd a none = a) : SetsAt table (nameMixin n) a (upd a n) := by
  have := SetsAt.opt (n := n) (a := a) (go! "name") (fun s => [.str s]) (fun s => s) upd
    (fun s hs => gives_str (literal_plain (hn s hs))) hk h0
  cases n <;> exact this

theorem sets_linkageName {n : Option Str} {a : α} (upd : α → Option Str → α) (hn : Named n)
    (hk : table.lookup (go! "linkage_name") = some fun a v => (strOf v).map fun x => upd a (some x))
    (h0 : upd a none = a) :
    SetsAt table (n.elim [] fun n => seg (go! "linkage_name") [.str n]) a (upd a n) := by
  have := SetsAt.opt (n := n) (a := a) (go! "linkage_name") (fun s => [.str s]) (fun s => s) upd
    (fun s hs => gives_str (literal_plain (hn s hs))) hk h0
  cases n <;> exact this

theorem sets_type (c : Ctx sc ids) {ty : Str} {a : α} (upd : α → Option Str → α) (hl : Link ids ty)
    (hk : table.lookup (go! "type") = some fun a v => (addrOf sc v).map fun x => upd a (some x))
    (h0 : upd a none = a) : SetsAt table (typeMixin ty) a (upd a (Spec.target ty)) := by
  by_cases h : ty = [] ∨ ty = go! "void"
  · have e : typeMixin ty = [] := by
      rcases h with rfl | rfl <;> simp [typeMixin]
    rw [e, Spec.target, if_pos h]
    exact SetsAt.nil.to h0.symm
  · have hm : ty ∈ ids := by
      rcases hl with h' | h' | h'
      · exact absurd (.inl h') h
      · exact absurd (.inr h') h
      · exact h'
    have := SetsAt.field (table := table) (a := a) (go! "type") (fun a b => upd a (some b)) (gives_link c hm) hk
    have hn : ty ≠ [] ∧ ty ≠ go! "void" := by simpa [not_or] using h
    rw [Spec.target, if_neg h, typeMixin, if_pos hn]
    simpa [seg] using this

theorem sets_sizeRef {n : Option Int} {a : α} (k : Str) (upd : α → Option Int → α) (hn : Size n)
    (hk : table.lookup k = some fun a v => (sizePtr v).map fun x => upd a (some x))
    (h0 : upd a none = a) : SetsAt table (sizeRef k n) a (upd a n) := by
  have := SetsAt.opt (n := n) (a := a) k
    (fun v => literalToks (.val (go! "metac_size_t")) (int v ++ [.p 44])) (fun s => s) upd
    (fun s hs => gives_size (hn s hs)) hk h0
  cases n with
  | none => exact this
  | some v => simpa [seg, sizeRef, literalToks, typeToks, braces] using this

theorem sets_placeRef {n : Option Int} {a : α} (k : Str) (upd : α → Option Int → α) (hn : Size n)
    (hk : table.lookup k = some fun a v => (sizePtr v).map fun x => upd a (some x))
    (h0 : upd a none = a) : SetsAt table (placeRef k n) a (upd a n) := by
  have := SetsAt.opt (n := n) (a := a) k
    (fun v => literalToks (.val (go! "metac_size_t")) (int v)) (fun s => s) upd
    (fun s hs => gives_place (hn s hs)) hk h0
  cases n with
  | none => exact this
  | some v => simpa [seg, placeRef, literalToks, typeToks, braces] using this

/-- A flag that is written as 1 or not at all. -/
theorem sets_flag {n : Option Bool} {a : α} (k : Str) (upd : α → Int → α)
    (hk : table.lookup k = some fun a v => (intOf v).map fun x => upd a (unsigned 8 x))
    (h0 : upd a 0 = a) :
    SetsAt table (flagSeg k n) a (upd a (Spec.flag n)) := by
  match n with
  | none => exact SetsAt.nil.to h0.symm
  | some false => exact SetsAt.nil.to h0.symm
  | some true => exact SetsAt.field k (fun a b => upd a (unsigned 8 b)) (gives_int 1) hk

/-- `.k = v,` with a conversion. -/
theorem sets_int {v : Int} {a : α} {w : Int} (k : Str) (conv : Int → Int) (upd : α → Int → α) (hw : conv v = w)
    (hk : table.lookup k = some fun a v => (intOf v).map fun x => upd a (conv x)) :
    SetsAt table (seg k (int v)) a (upd a w) :=
  (SetsAt.field k (fun a b => upd a (conv b)) (gives_int v) hk).to (by simp only [hw])

/-- `.k = CONSTANT,` with a conversion. -/
theorem sets_const {s : Str} {a : α} {w x : Int} (k : Str) (conv : Int → Int) (upd : α → Int → α)
    (hx : constants.lookup s = some x) (hw : conv x = w)
    (hk : table.lookup k = some fun a v => (intOf v).map fun x => upd a (conv x)) :
    SetsAt table (seg k [.id s]) a (upd a w) :=
  (SetsAt.field k (fun a b => upd a (conv b)) (gives_const hx) hk).to (by simp only [hw])

theorem sets_byteSize {n : Option Int} {a : CInfo} {table : List (Str × (CInfo → Init → Option CInfo))} (hn : Size n)
    (hk : table.lookup (go! "byte_size") = some setByteSize.2) (h0 : a.byteSize = 0) :
    SetsAt table (byteSizeMixin n) a { a with byteSize := n.getD 0 } := by
  cases n with
  | none => exact SetsAt.nil.to (by cases a; simp only at h0; subst h0; rfl)
  | some v =>
    obtain ⟨h1, h2⟩ := hn v rfl
    exact sets_int (go! "byte_size") (unsigned 64) (fun (a : CInfo) x => { a with byteSize := x }) (unsigned_of h1 (by omega)) hk

end

theorem signed32 {n : Nat} (h : n < 2 ^ 31) : signed 32 n = n :=
  signed_of (by omega) (by omega) (by omega)

theorem sets_parents (c : Ctx sc ids) {l : List Str} {a : CEntry} (h : ∀ p ∈ l, p ∈ ids) (hf : Few l) :
    SetsAt (entryTable sc) (typeParents l) a { a with parentsCount := l.length, parents := some l } := by
  have h1 := sets_int (table := entryTable sc) (a := a) (go! "parents_count") (signed 32)
    (fun a x => { a with parentsCount := x }) (signed32 hf) rfl
  have h2 := SetsAt.field (table := entryTable sc) (a := { a with parentsCount := l.length }) (go! "parents")
    (fun a x => { a with parents := some x }) (gives_links c h) rfl
  simpa [seg, literalToks, typeToks, braces, typeParents] using h1.append h2

theorem sets_parent (c : Ctx sc ids) {i : Str} {a : CEntry} (h : i ∈ ids) :
    SetsAt (entryTable sc) (parent i) a { a with parentsCount := 1, parents := some [i] } := by
  have h1 := sets_int (table := entryTable sc) (a := a) (v := 1) (go! "parents_count") (signed 32)
    (fun a x => { a with parentsCount := x }) (signed32 (n := 1) (by omega)) rfl
  have h2 := SetsAt.field (table := entryTable sc) (a := { a with parentsCount := 1 }) (go! "parents")
    (fun a x => { a with parents := some x }) (gives_links c (l := [i]) (by simpa using h)) rfl
  simpa [seg, literalToks, typeToks, braces, parent, int, links] using h1.append h2

theorem sets_leafParent (c : Ctx sc ids) {i : Str} {a : Leaf} (h : i ∈ ids) :
    SetsAt (leafTable sc) (parent i) a { a with parentsCount := 1, parents := some [i] } := by
  have h1 := sets_int (table := leafTable sc) (a := a) (v := 1) (go! "parents_count") (signed 32)
    (fun a x => { a with parentsCount := x }) (signed32 (n := 1) (by omega)) rfl
  have h2 := SetsAt.field (table := leafTable sc) (a := { a with parentsCount := 1 }) (go! "parents")
    (fun a x => { a with parents := some x }) (gives_links c (l := [i]) (by simpa using h)) rfl
  simpa [seg, literalToks, typeToks, braces, parent, int, links] using h1.append h2

/-- The tokens of a hierarchy item, without the comma. -/
theorem gives_item (c : Ctx sc ids) {i : Item} (h : i.link ∈ ids ∧ Size i.file ∧ Size i.line ∧ Size i.column) :
    ∃ t, hierarchyItem i = t ++ [.p 44] ∧ Gives (structOf (itemTable sc) {}) t (Spec.item i) := by
  obtain ⟨h1, h2, h3, h4⟩ := h
  have s1 := SetsAt.field (table := itemTable sc) (a := {}) (go! "link") (fun a x => { a with link := some x })
    (gives_link c h1) rfl
  have s2 := s1.append (sets_placeRef (go! "p_decl_file") (fun a x => { a with file := x }) h2 rfl rfl)
  have s3 := s2.append (sets_placeRef (go! "p_decl_line") (fun a x => { a with line := x }) h3 rfl rfl)
  have s4 := s3.append (sets_placeRef (go! "p_decl_column") (fun a x => { a with column := x }) h4 rfl rfl)
  exact ⟨_, by simp [hierarchyItem, seg, braces], s4.gives⟩

theorem elems_of {α β : Type} {g : Init → Option β} (tok : α → List Tok) (val : α → β) (l : List α)
    (h : ∀ a ∈ l, ∃ t, tok a = t ++ [.p 44] ∧ Gives g t (val a)) : Elems g (l.flatMap tok) (l.map val) := by
  have := elems_flatMap (g := g) (fun a => (tok a).dropLast) val l (fun a ha => by
    obtain ⟨t, ht, hg⟩ := h a ha
    rw [ht, List.dropLast_concat]
    exact hg)
  have e : l.flatMap (fun a => (tok a).dropLast ++ [.p 44]) = l.flatMap tok := by
    clear this
    induction l with
    | nil => rfl
    | cons a l ih =>
      obtain ⟨t, ht, -⟩ := h a List.mem_cons_self
      rw [List.flatMap_cons, List.flatMap_cons, ih fun x hx => h x (List.mem_cons_of_mem _ hx), ht, List.dropLast_concat]
  rwa [e] at this

theorem sets_hierarchy (c : Ctx sc ids) {l : List Item} {a : CInfo} {table : List (Str × (CInfo → Init → Option CInfo))}
    (h : Spec.HierFits ids l)
    (hk : ∀ s ∈ setItems sc, table.lookup s.1 = some s.2) (h0 : a.itemsCount = 0) (h1 : a.items = none) :
    SetsAt table (hierarchy l) a { a with itemsCount := l.length, items := Spec.unlessEmpty Spec.item l } := by
  obtain ⟨hf, hl⟩ := h
  unfold hierarchy
  split
  · rename_i hz
    have : l = [] := List.length_eq_zero_iff.mp hz
    subst this
    exact SetsAt.nil.to (by cases a; simp only at h0 h1; subst h0; subst h1; rfl)
  · rename_i hz
    have hne : l ≠ [] := fun h => hz (by rw [h]; rfl)
    have s1 := sets_int (table := table) (a := a) (go! "hierarchy_items_count") (signed 32)
      (fun a x => { a with itemsCount := x }) (signed32 hf) (hk _ List.mem_cons_self)
    have s2 := SetsAt.field (table := table) (a := { a with itemsCount := l.length }) (go! "hierarchy_items")
      (fun a x => { a with items := some x })
      ((elems_of hierarchyItem Spec.item l fun i hi => gives_item c (hl i hi)).gives (.struct (go! "hierarchy_item")))
      (hk _ (List.mem_cons_of_mem _ List.mem_cons_self))
    rw [Spec.unlessEmpty, if_neg hne]
    simpa [seg, literalToks, typeToks, braces, hierarchy] using s1.append s2

/-- The tokens of a parameter, without the comma. -/
theorem gives_param (c : Ctx sc ids) {i : Str} {p : Param} (hi : i ∈ ids) (hn : Named p.name) (hl : Link ids p.type) :
    ∃ t, parameter i p = t ++ [.p 44] ∧ Gives (structOf (leafTable sc) {}) t (Spec.param i p) := by
  have p1 := sets_flag (table := paramTable sc) (n := p.unspecified) (a := (0, none)) (go! "unspecified_parameters")
    (fun a x => (x, a.2)) rfl rfl
  have p2 := p1.append (sets_type c (ty := p.type) (fun a x => (a.1, x)) hl rfl rfl)
  have s1 := sets_const (table := leafTable sc) (a := {}) (s := go! "METAC_KND_func_parameter") (w := 20) (go! "kind")
    (signed 8) (fun a x => { a with kind := x }) rfl rfl rfl
  have s2 := s1.append (sets_name (n := p.name) (fun a x => { a with name := x }) hn rfl rfl)
  have s3 := s2.append (sets_leafParent c hi)
  have s4 := s3.append (SetsAt.field (table := leafTable sc) (go! "func_parameter_info")
    (fun a (m : Int × Option Str) => { a with info := .param m.1 m.2 }) p2.gives rfl)
  refine ⟨_, ?_, s4.gives⟩
  cases h : p.unspecified with
  | none => simp [parameter, seg, braces, parent, h, flagSeg]
  | some b => cases b <;> simp [parameter, seg, braces, parent, h, flagSeg]

/-- The tokens of a member, without the comma. -/
theorem gives_member (c : Ctx sc ids) {i : Str} {f : Field} (hi : i ∈ ids) (hf : Spec.FieldFits ids f) :
    ∃ t, member i f = t ++ [.p 44] ∧ Gives (structOf (leafTable sc) {}) t (Spec.member i f) := by
  obtain ⟨f1, f2, f3, f4, f5, f6, f7, f8⟩ := hf
  have p1 := sets_type (table := memberTable sc) (a := {}) c (ty := f.type) (fun a x => { a with type := x }) f2 rfl rfl
  have p2 := p1.append (sets_sizeRef (go! "p_byte_size") (fun a x => { a with byteSize := x }) f3 rfl rfl)
  have p3 := p2.append (sets_sizeRef (go! "p_alignment") (fun a x => { a with alignment := x }) f4 rfl rfl)
  have p4 : SetsAt (memberTable sc) (if f.byteOffset ≠ 0 then c! ".byte_offset =" ++ int f.byteOffset ++ c! "," else [])
      { type := Spec.target f.type, byteSize := f.byteSize, alignment := f.alignment }
      { type := Spec.target f.type, byteSize := f.byteSize, alignment := f.alignment, byteOffset := f.byteOffset } := by
    split
    · obtain ⟨h1, h2⟩ := f5 _ rfl
      exact sets_int (go! "byte_offset") (unsigned 64) (fun (a : CMember) x => { a with byteOffset := x })
        (unsigned_of h1 (by omega)) rfl
    · rename_i hz
      exact SetsAt.nil.to (by rw [Decidable.not_not.mp hz])
  have p5 := (p3.append p4).append
    (sets_sizeRef (go! "p_data_bit_offset") (fun a x => { a with dataBitOffset := x }) f6 rfl rfl)
  have p6 := p5.append (sets_sizeRef (go! "p_bit_offset") (fun a x => { a with bitOffset := x }) f7 rfl rfl)
  have p7 := p6.append (sets_sizeRef (go! "p_bit_size") (fun a x => { a with bitSize := x }) f8 rfl rfl)
  have s1 := sets_const (table := leafTable sc) (a := {}) (s := go! "METAC_KND_member") (w := 15) (go! "kind")
    (signed 8) (fun a x => { a with kind := x }) rfl rfl rfl
  have s2 := s1.append (sets_name (n := f.name) (fun a x => { a with name := x }) f1 rfl rfl)
  have s3 := s2.append (sets_leafParent c hi)
  have s4 := s3.append (SetsAt.field (table := leafTable sc) (go! "member_info")
    (fun a (m : CMember) => { a with info := .member m.type m.byteSize m.alignment m.byteOffset m.dataBitOffset m.bitOffset m.bitSize }) p7.gives rfl)
  refine ⟨_, ?_, s4.gives⟩
  simp [member, seg, braces, parent]

theorem gives_enumerator {e : Str × Int} (h : Spec.Printable e.1 ∧ Int64 e.2) :
    ∃ t, enumerator e = t ++ [.p 44] ∧ Gives (structOf enumeratorTable (none, 0)) t (some e.1, e.2) := by
  obtain ⟨hp, h1, h2⟩ := h
  obtain ⟨q, hq, hl⟩ := quote_printable hp
  have s1 := SetsAt.field (table := enumeratorTable) (a := (none, 0)) (go! "name") (fun a x => (some x, a.2)) (gives_str hl) rfl
  obtain ⟨hs, v, hv, hg⟩ := gives_int e.2
  -- the last item has no comma
  obtain ⟨is, g1, g2⟩ := s1
  have hi : Items (.p 46 :: .id (go! "const_value") :: .p 61 :: int e.2) [(some (go! "const_value"), v)] := by
    intro rest n hn
    obtain ⟨n, rfl⟩ : ∃ m, n = m + 1 := ⟨n - 1, by omega⟩
    have := hv (.p 125 :: rest) n (by simp at hn; omega) (.inr (.inr ⟨_, rfl⟩))
    simp only [List.cons_append]
    rw [parseItems_des, this]
    simp
  refine ⟨_, ?_, ⟨_, _, rfl, by simp, by simp⟩, _, (g1 _ _ hi).reads, ?_⟩
  · simp [enumerator, hq, seg]
  · simp only [structOf, g2, fields]
    have : enumeratorTable.lookup (go! "const_value") =
      some fun a v => (intOf v).map fun x => (a.1, signed 64 x) := rfl
    simp only [this, hg, Option.map_some, Option.bind_some]
    rw [signed_of (by omega) (by omega) (by omega)]


theorem sets_parameters (c : Ctx sc ids) {i : Str} {ps : List Param} {a : CInfo} {table : List (Str × (CInfo → Init → Option CInfo))}
    (hi : i ∈ ids) (h : Spec.ParamsFit ids ps) (hk : ∀ s ∈ setParameters sc, table.lookup s.1 = some s.2) :
    SetsAt table (parameters i ps) a { a with parametersCount := ps.length, parameters := some (ps.map (Spec.param i)) } := by
  obtain ⟨hf, hp⟩ := h
  have s1 := sets_int (table := table) (a := a) (go! "parameters_count") (signed 32)
    (fun a x => { a with parametersCount := x }) (signed32 hf) (hk _ List.mem_cons_self)
  have s2 := SetsAt.field (table := table) (a := { a with parametersCount := ps.length }) (go! "parameters")
    (fun a x => { a with parameters := some x })
    ((elems_of (parameter i) (Spec.param i) ps fun p h => gives_param c hi (hp p h).1 (hp p h).2).gives
      (.struct (go! "metac_entry"))) (hk _ (List.mem_cons_of_mem _ List.mem_cons_self))
  simpa [seg, literalToks, typeToks, braces, parameters] using s1.append s2

theorem sets_linkage {e : Option Bool} {l : Option Str} {a : CInfo} {table : List (Str × (CInfo → Init → Option CInfo))}
    (hl : Named l) (hk : table.lookup (go! "linkage_info") = some setLinkage.2) (h0 : a.linkage = {}) :
    SetsAt table (objMixin e l) a { a with linkage := { external := Spec.flag e, name := l } } := by
  unfold objMixin
  split
  · have p1 := sets_flag (table := linkageTable) (n := e) (a := {}) (go! "external") (fun a x => { a with external := x }) rfl rfl
    have p2 := p1.append (sets_linkageName (n := l) (fun a x => { a with name := x }) hl rfl rfl)
    have s1 := SetsAt.field (table := table) (a := a) (go! "linkage_info") (fun a x => { a with linkage := x }) p2.gives hk
    cases e with
    | none => cases l <;> simpa [seg, braces, flagSeg] using s1
    | some b => cases b <;> cases l <;> simpa [seg, braces, flagSeg] using s1
  · rename_i hz
    simp only [Bool.or_eq_true, not_or, Option.not_isSome_iff_eq_none] at hz
    obtain ⟨rfl, rfl⟩ := hz
    exact SetsAt.nil.to (by cases a; simp only at h0; subst h0; rfl)

theorem sets_head (c : Ctx sc ids) {h : Head} {a : CEntry} {kind : Int} (hh : Spec.HeadFits ids h)
    (ha : a = { kind := kind }) :
    SetsAt (entryTable sc) (nameMixin h.name ++ declarationMixin h.decl ++ typeParents h.parents) a
      (Spec.typeEntry kind h) := by
  subst ha
  obtain ⟨h1, h2, h3⟩ := hh
  have s1 := sets_name (table := entryTable sc) (n := h.name) (a := { kind := kind }) (fun a x => { a with name := x }) h1 rfl rfl
  have s2 := s1.append (sets_flag (n := h.decl) (go! "declaration") (fun a x => { a with declaration := x }) rfl rfl)
  have s3 := s2.append (sets_parents c h2 h3)
  have e : declarationMixin h.decl = flagSeg (go! "declaration") h.decl := by
    cases h.decl with
    | none => rfl
    | some b => cases b <;> rfl
  rw [e]
  exact s3

theorem sets_objHead (c : Ctx sc ids) {n : Option Str} {d : Option Bool} {p : Str} {a : CEntry} {kind : Int}
    (h1 : Named n) (h2 : p ∈ ids) (ha : a = { kind := kind }) :
    SetsAt (entryTable sc) (nameMixin n ++ declarationMixin d ++ parent p) a
      (Spec.objEntry kind n (Spec.flag d) p) := by
  subst ha
  have s1 := sets_name (table := entryTable sc) (n := n) (a := { kind := kind }) (fun a x => { a with name := x }) h1 rfl rfl
  have s2 := s1.append (sets_flag (n := d) (go! "declaration") (fun a x => { a with declaration := x }) rfl rfl)
  have s3 := s2.append (sets_parent c h2)
  have e : declarationMixin d = flagSeg (go! "declaration") d := by
    cases d with
    | none => rfl
    | some b => cases b <;> rfl
  rw [e]
  exact s3

/-- `.kind = CONSTANT,` -/
theorem sets_kind {s : Str} (x : Int) (hx : constants.lookup s = some x) (h : 0 ≤ x ∧ x < 128) :
    SetsAt (entryTable sc) (seg (go! "kind") [.id s]) {} { kind := x } :=
  sets_const (table := entryTable sc) (a := {}) (w := x) (go! "kind")
    (signed 8) (fun a x => { a with kind := x }) hx (signed_of (by omega) (by omega) (by omega)) rfl

/-- The member of the union. -/
theorem sets_info {t : List Tok} {a : CEntry} {b : CInfo} {T : List (Str × (CInfo → Init → Option CInfo))} (k : Str)
    (h : SetsAt T t {} b)
    (hk : (entryTable sc).lookup k = some fun a v => (structOf T {} v).map fun x => { a with which := some k, info := x }) :
    SetsAt (entryTable sc) (seg k (braces t)) a { a with which := some k, info := b } :=
  SetsAt.field k (fun (a : CEntry) (x : CInfo) => { a with which := some k, info := x }) h.gives hk

/-- The initialiser of an object is the record of the specification. -/
abbrev Right (sc : Scope) (t : List Tok) (e : CEntry) : Prop := Gives (structOf (entryTable sc) {}) t e

theorem Right.of {t t' : List Tok} {e e' : CEntry} (h : SetsAt (entryTable sc) t' {} e') (ht : t = braces t') (he : e' = e) :
    Right sc t e := by
  subst ht he
  exact h.gives

theorem encoding_const : ∀ x ∈ Spec.encodings, joined (go! "METAC_ENC_") x.2 = [.id (go! "METAC_ENC_" ++ x.2)] ∧
    constants.lookup (go! "METAC_ENC_" ++ x.2) = some (Spec.encodingCode x.1) ∧
    0 ≤ Spec.encodingCode x.1 ∧ Spec.encodingCode x.1 < 256 := by decide +kernel

theorem tag_const : ∀ x ∈ Spec.tags, joined (go! "METAC_KND_") x.2.1 = [.id (go! "METAC_KND_" ++ x.2.1)] ∧
    constants.lookup (go! "METAC_KND_" ++ x.2.1) = some (Spec.kindOfTag x.1) ∧
    0 ≤ Spec.kindOfTag x.1 ∧ Spec.kindOfTag x.1 < 128 := by decide +kernel

theorem tag_ok {snake : Str → Str} (hs : Spec.Snake snake) {tag : Str} (h : tag ∈ Spec.tags.map (·.1)) :
    ∃ s, joined (go! "METAC_KND_") (snake tag) = [.id s] ∧ constants.lookup s = some (Spec.kindOfTag tag) ∧
      0 ≤ Spec.kindOfTag tag ∧ Spec.kindOfTag tag < 128 := by
  obtain ⟨x, hx, rfl⟩ := List.mem_map.mp h
  rw [hs.2 x hx]
  exact ⟨_, tag_const x hx⟩

/-- The kind and the head of a type. -/
theorem sets_typeHead (c : Ctx sc ids) {h : Head} {s : Str} (kind : Int) (hx : constants.lookup s = some kind)
    (hr : 0 ≤ kind ∧ kind < 128) (hh : Spec.HeadFits ids h) :
    SetsAt (entryTable sc) (seg (go! "kind") [.id s] ++
      (nameMixin h.name ++ declarationMixin h.decl ++ typeParents h.parents)) {} (Spec.typeEntry kind h) :=
  (sets_kind kind hx hr).append (sets_head c hh rfl)

theorem right_base {snake : Str → Str} (hs : Spec.Snake snake) (c : Ctx sc ids) {h : Head} {size : Option Int} {enc : Str}
    (hf : Spec.Fits ids (.base h size enc)) : Right sc (baseType snake h size enc) (Spec.entry (.base h size enc)) := by
  obtain ⟨⟨h1, h2, h3⟩, hsz, he⟩ := hf
  obtain ⟨s, e1, e2, e3, e4⟩ : ∃ s, joined (go! "METAC_ENC_") (snake enc) = [.id s] ∧
      constants.lookup s = some (Spec.encodingCode enc) ∧
      0 ≤ Spec.encodingCode enc ∧ Spec.encodingCode enc < 256 := by
    obtain ⟨x, hx, rfl⟩ := List.mem_map.mp he
    rw [hs.1 x hx]
    exact ⟨_, encoding_const x hx⟩
  have p1 := sets_byteSize (table := baseTable) (a := {}) hsz rfl rfl
  have p2 := p1.append (sets_const (go! "encoding") (unsigned 8) (fun a x => { a with encoding := x }) e2 (unsigned_of e3 e4) rfl)
  have s1 := sets_kind (sc := sc) (s := go! "METAC_KND_base_type") 1 rfl (by omega)
  have s2 := s1.append (sets_name (n := h.name) (fun a x => { a with name := x }) h1 rfl rfl)
  have s3 := s2.append (sets_parents c h2 h3)
  have s4 := s3.append (sets_info (go! "base_type_info") p2 rfl)
  exact .of s4 (by simp [baseType, seg, braces, e1]) rfl

theorem right_enumeration (c : Ctx sc ids) {h : Head} {size : Option Int} {es : List (Str × Int)}
    (hf : Spec.Fits ids (.enumeration h size es)) :
    Right sc (enumerationType h size es) (Spec.entry (.enumeration h size es)) := by
  obtain ⟨hh, hsz, hfew, hes⟩ := hf
  have p1 := sets_byteSize (table := enumerationTable sc) (a := {}) hsz rfl rfl
  have p2 := p1.append (sets_int (go! "enumerators_count") (signed 32) (fun a x => { a with enumeratorsCount := x }) (signed32 hfew) rfl)
  have p3 := p2.append (SetsAt.field (go! "enumerators") (fun a x => { a with enumerators := some x })
    ((elems_of enumerator (fun e => (some e.1, e.2)) es fun e he => gives_enumerator (hes e he)).gives
      (.struct (go! "metac_type_enumerator_info"))) rfl)
  have s1 := sets_typeHead c (s := go! "METAC_KND_enumeration_type") 3 rfl (by omega) hh
  have s2 := s1.append (sets_info (go! "enumeration_type_info") p3 rfl)
  exact .of s2 (by simp [enumerationType, seg, braces, literalToks, typeToks]) rfl

theorem sets_lower {lower : Option Int} {a : CInfo} (hlow : ∀ v, lower = some v → Int64 v) (h0 : a.lowerBound = 0) :
    SetsAt (arrayTable sc) (match lower with | some n => c! ".lower_bound =" ++ int n ++ c! "," | none => []) a
      { a with lowerBound := lower.getD 0 } := by
  cases lower with
  | none => exact SetsAt.nil.to (by cases a; simp only at h0; subst h0; rfl)
  | some v =>
    obtain ⟨h1, h2⟩ := hlow v rfl
    exact sets_int (go! "lower_bound") (signed 64) (fun (a : CInfo) x => { a with lowerBound := x })
      (signed_of (v := v) (by omega) (by omega) (by omega)) rfl

theorem sets_arrayInfo (c : Ctx sc ids) {count level : Int} {lower : Option Int} {type : Str}
    (hc : Int64 count) (hl1 : 0 ≤ level) (hl2 : level < 2 ^ 31) (hlow : ∀ v, lower = some v → Int64 v)
    (hl : Link ids type) :
    SetsAt (arrayTable sc) (seg (go! "count") (int count) ++ seg (go! "level") (int level) ++
      (match lower with | some n => c! ".lower_bound =" ++ int n ++ c! "," | none => []) ++ typeMixin type) {}
      { count := count, level := level, lowerBound := lower.getD 0, type := Spec.target type } := by
  obtain ⟨hc1, hc2⟩ := hc
  have p1 := sets_int (table := arrayTable sc) (a := {}) (go! "count") (signed 64) (fun a x => { a with count := x })
    (signed_of (v := count) (by omega) (by omega) (by omega)) rfl
  have p2 := p1.append (sets_int (v := level) (go! "level") (signed 32) (fun a x => { a with level := x })
    (signed_of (v := level) (by omega) (by omega) (by omega)) rfl)
  have p3 := p2.append (sets_lower hlow rfl)
  exact p3.append (sets_type c (ty := type) (fun (a : CInfo) x => { a with type := x }) hl rfl rfl)

theorem right_array (c : Ctx sc ids) {h : Head} {count level : Int} {lower stride : Option Int} {type : Str}
    (hf : Spec.Fits ids (.array h count level lower stride type)) :
    Right sc (arrayType h count level lower stride type) (Spec.entry (.array h count level lower stride type)) := by
  obtain ⟨hh, hc, hl1, hl2, hlow, rfl, hl, hv⟩ := hf
  have p4 := sets_arrayInfo (sc := sc) c hc hl1 hl2 hlow hl
  have s1 := sets_typeHead c (s := go! "METAC_KND_array_type") 5 rfl (by omega) hh
  have s2 := s1.append (sets_info (go! "array_type_info") p4 rfl)
  have e : typeMixin type = if type ≠ [] then c! ".type = &" ++ ident type ++ c! "," else [] := by
    unfold typeMixin
    by_cases h : type = [] <;> simp_all
  rw [e] at s2
  refine .of s2 ?_ rfl
  cases lower <;> simp [arrayType, seg, braces]

theorem right_pointer (c : Ctx sc ids) {h : Head} {type : Str} (hf : Spec.Fits ids (.pointer h type)) :
    Right sc (pointerType h type) (Spec.entry (.pointer h type)) := by
  obtain ⟨hh, hl⟩ := hf
  have p1 := SetsAt.field (table := pointerTable sc) (a := {}) (go! "byte_size") (fun a x => { a with byteSize := unsigned 64 x })
    gives_ptrSize rfl
  have p2 := p1.append (sets_type c (ty := type) (fun a x => { a with type := x }) hl rfl rfl)
  have s1 := sets_typeHead c (s := go! "METAC_KND_pointer_type") 2 rfl (by omega) hh
  have s2 := s1.append (sets_info (go! "pointer_type_info") p2 rfl)
  exact .of s2 (by simp [pointerType, seg, braces]) rfl

theorem right_reference {snake : Str → Str} (hs : Spec.Snake snake) (c : Ctx sc ids) {h : Head} {tag : Str} {size : Option Int}
    {type : Str} (hf : Spec.Fits ids (.reference h tag size type)) :
    Right sc (referenceType snake h tag size type) (Spec.entry (.reference h tag size type)) := by
  obtain ⟨hh, ht, hsz, hl⟩ := hf
  obtain ⟨s, e1, e2, e3⟩ := tag_ok hs (tag := tag) (by
    simp only [List.mem_cons, List.not_mem_nil, or_false] at ht
    rcases ht with rfl | rfl <;> decide)
  have p1 := sets_byteSize (table := pointerTable sc) (a := {}) hsz rfl rfl
  have p2 := p1.append (sets_type c (ty := type) (fun a x => { a with type := x }) hl rfl rfl)
  have s1 := sets_typeHead c _ e2 e3 hh
  have s2 := s1.append (sets_info (go! "reference_type_info") p2 rfl)
  exact .of s2 (by simp [referenceType, seg, braces, e1]) rfl

theorem right_unspecified (c : Ctx sc ids) {h : Head} (hf : Spec.Fits ids (.unspecified h)) :
    Right sc (unspecifiedType h) (Spec.entry (.unspecified h)) := by
  have s1 := sets_typeHead c (s := go! "METAC_KND_unspecified_type") 14 rfl (by omega) hf
  exact .of s1 (by simp [unspecifiedType, seg, braces]) rfl

theorem right_subroutine (c : Ctx sc ids) {h : Head} {type : Str} {ps : List Param} (hi : h.id ∈ ids)
    (hf : Spec.Fits ids (.subroutine h type ps)) :
    Right sc (subroutineType h type ps) (Spec.entry (.subroutine h type ps)) := by
  obtain ⟨hh, hl, hp⟩ := hf
  have p1 := sets_type (table := subroutineTable sc) (a := {}) c (ty := type) (fun a x => { a with type := x }) hl rfl rfl
  have p2 := p1.append (sets_parameters c hi hp (by simp only [setParameters, List.forall_mem_cons]; exact ⟨rfl, rfl, by simp⟩))
  have s1 := sets_typeHead c (s := go! "METAC_KND_subroutine_type") 4 rfl (by omega) hh
  have s2 := s1.append (sets_info (go! "subroutine_type_info") p2 rfl)
  exact .of s2 (by simp [subroutineType, seg, braces]) rfl

theorem right_qual {snake : Str → Str} (hs : Spec.Snake snake) (c : Ctx sc ids) {h : Head} {q type : Str}
    (hf : Spec.Fits ids (.qual h q type)) : Right sc (qualType snake h q type) (Spec.entry (.qual h q type)) := by
  obtain ⟨hh, hl, ht⟩ := hf
  obtain ⟨s, e1, e2, e3⟩ := tag_ok hs (tag := q) (by
    simp only [List.mem_cons, List.not_mem_nil, or_false] at ht
    rcases ht with rfl | rfl | rfl | rfl | rfl | rfl <;> decide)
  have p1 := sets_type (table := aliasTable sc) (a := {}) c (ty := type) (fun a x => { a with type := x }) hl rfl rfl
  have s1 := sets_typeHead c _ e2 e3 hh
  have s2 := s1.append (sets_info (go! "qual_type_info") p1 rfl)
  exact .of s2 (by simp [qualType, seg, braces, e1]) rfl

theorem right_typedef (c : Ctx sc ids) {h : Head} {type : Str} (hf : Spec.Fits ids (.typedef h type)) :
    Right sc (typedef_ h type) (Spec.entry (.typedef h type)) := by
  obtain ⟨hh, hl⟩ := hf
  have p1 := sets_type (table := aliasTable sc) (a := {}) c (ty := type) (fun a x => { a with type := x }) hl rfl rfl
  have s1 := sets_typeHead c (s := go! "METAC_KND_typedef") 0 rfl (by omega) hh
  have s2 := s1.append (sets_info (go! "typedef_info") p1 rfl)
  exact .of s2 (by simp [typedef_, seg, braces]) rfl

theorem sets_members (c : Ctx sc ids) {i : Str} {fs : List Field} {a : CInfo} (hi : i ∈ ids) (hf : Few fs)
    (hfs : ∀ f ∈ fs, Spec.FieldFits ids f) (h0 : a.membersCount = 0) (h1 : a.members = none) :
    SetsAt (structTable sc) (if fs.length ≠ 0 then
        c! ".members_count =" ++ int fs.length ++ c! ", .members = (struct metac_entry[]){" ++ fs.flatMap (member i) ++ c! "},"
      else []) a { a with membersCount := fs.length, members := Spec.unlessEmpty (Spec.member i) fs } := by
  split
  · rename_i hz
    have hne : fs ≠ [] := fun h => hz (by rw [h]; rfl)
    have s1 := sets_int (table := structTable sc) (a := a) (go! "members_count") (signed 32)
      (fun a x => { a with membersCount := x }) (signed32 hf) rfl
    have s2 := SetsAt.field (table := structTable sc) (a := { a with membersCount := fs.length }) (go! "members")
      (fun a x => { a with members := some x })
      ((elems_of (member i) (Spec.member i) fs fun f h => gives_member c hi (hfs f h)).gives (.struct (go! "metac_entry"))) rfl
    rw [Spec.unlessEmpty, if_neg hne]
    simpa [seg, literalToks, typeToks, braces] using s1.append s2
  · rename_i hz
    have : fs = [] := List.length_eq_zero_iff.mp (Decidable.not_not.mp hz)
    subst this
    exact SetsAt.nil.to (by cases a; simp only at h0 h1; subst h0; subst h1; rfl)

theorem right_aggregate {snake : Str → Str} (hs : Spec.Snake snake) (c : Ctx sc ids) {h : Head} {tag : Str}
    {size alignment : Option Int} {fs : List Field} {hier : List Item} (hi : h.id ∈ ids)
    (hn : ident (h.id ++ go! "_va_arg") = [.id (h.id ++ go! "_va_arg")])
    (hfn : size ≠ none → h.id ++ go! "_va_arg" ∈ sc.funcs)
    (hf : Spec.Fits ids (.aggregate h tag size alignment fs hier)) :
    Right sc (structType snake h tag size alignment fs hier) (Spec.entry (.aggregate h tag size alignment fs hier)) := by
  obtain ⟨hh, ht, hsz, hal, hsome, hfew, hfs, hhier⟩ := hf
  obtain ⟨s, e1, e2, e3⟩ := tag_ok hs (tag := tag) (by
    simp only [List.mem_cons, List.not_mem_nil, or_false] at ht
    rcases ht with rfl | rfl | rfl <;> decide)
  have s1 := sets_typeHead c _ e2 e3 hh
  by_cases hd : h.decl = some true
  · refine .of s1 (by simp [structType, seg, braces, e1, hd]) ?_
    simp only [Spec.entry, hd, if_true]
  · have p1 := sets_byteSize (table := structTable sc) (a := {}) hsz rfl rfl
    have p2 := p1.append (sets_sizeRef (go! "p_alignment") (fun a x => { a with alignment := x }) hal rfl rfl)
    have p3 := p2.append (SetsAt.field (go! "p_va_arg_fn") (fun a x => { a with vaArg := some x })
      (gives_func (hfn (hsome hd))) rfl)
    have p4 := p3.append (sets_members c hi hfew hfs rfl rfl)
    have p5 := p4.append (sets_hierarchy c hhier (by simp only [setItems, List.forall_mem_cons]; exact ⟨rfl, rfl, by simp⟩) rfl rfl)
    have s2 := s1.append (sets_info (go! "structure_type_info") p5 rfl)
    refine .of s2 (by simp [structType, seg, braces, e1, hd, hn]) ?_
    simp only [Spec.entry, if_neg hd]

theorem right_subprogram (c : Ctx sc ids) {h : ObjHead} {type : Str} {ps : List Param} {hier : List Item} (hi : h.id ∈ ids)
    (hf : Spec.Fits ids (.subprogram h type ps hier)) :
    Right sc (subprogram_ h type ps hier) (Spec.entry (.subprogram h type ps hier)) := by
  obtain ⟨⟨hn, hp, hlk⟩, hl, hps, hhier⟩ := hf
  have p1 := sets_type (table := subprogramTable sc) (a := {}) c (ty := type) (fun a x => { a with type := x }) hl rfl rfl
  have p2 := p1.append (sets_parameters c hi hps (by simp only [setParameters, List.forall_mem_cons]; exact ⟨rfl, rfl, by simp⟩))
  have p3 := p2.append (sets_linkage (e := h.external) hlk rfl rfl)
  have p4 := p3.append (sets_hierarchy c hhier (by simp only [setItems, List.forall_mem_cons]; exact ⟨rfl, rfl, by simp⟩) rfl rfl)
  have s1 := (sets_kind (sc := sc) (s := go! "METAC_KND_subprogram") 21 rfl (by omega)).append
    (sets_objHead c (d := h.decl) hn hp rfl)
  have s2 := s1.append (sets_info (go! "subprogram_info") p4 rfl)
  exact .of s2 (by simp [subprogram_, seg, braces]) rfl

theorem right_variable (c : Ctx sc ids) {h : ObjHead} {type : Str} (hf : Spec.Fits ids (.variable h type)) :
    Right sc (variable_ h type) (Spec.entry (.variable h type)) := by
  obtain ⟨⟨hn, hp, hlk⟩, hl⟩ := hf
  have p1 := sets_type (table := variableTable sc) (a := {}) c (ty := type) (fun a x => { a with type := x }) hl rfl rfl
  have p3 := p1.append (sets_linkage (e := h.external) hlk rfl rfl)
  have s1 := (sets_kind (sc := sc) (s := go! "METAC_KND_variable") 19 rfl (by omega)).append
    (sets_objHead c (d := h.decl) hn hp rfl)
  have s2 := s1.append (sets_info (go! "variable_info") p3 rfl)
  exact .of s2 (by simp [variable_, seg, braces]) rfl

theorem right_lexBlock (c : Ctx sc ids) {i par : Str} {hier : List Item} (hf : Spec.Fits ids (.lexBlock i par hier)) :
    Right sc (lexBlock_ par hier) (Spec.entry (.lexBlock i par hier)) := by
  obtain ⟨hp, hhier⟩ := hf
  have p1 := sets_hierarchy (table := setItems sc) (a := {}) c hhier
    (by simp only [setItems, List.forall_mem_cons]; exact ⟨rfl, rfl, by simp⟩) rfl rfl
  have s1 := (sets_kind (sc := sc) (s := go! "METAC_KND_lex_block") 22 rfl (by omega)).append (sets_parent c hp)
  have s2 := s1.append (sets_info (go! "lex_block_info") p1 rfl)
  exact .of s2 (by simp [lexBlock_, seg, braces]) rfl

theorem right_namespace (c : Ctx sc ids) {i : Str} {name : Option Str} {par : Str} {modules decls : List Str} {hier : List Item}
    (hf : Spec.Fits ids (.namespace i name par modules decls hier)) :
    Right sc (namespace_ name par modules decls hier) (Spec.entry (.namespace i name par modules decls hier)) := by
  obtain ⟨hn, hp, rfl, rfl, hhier⟩ := hf
  have p1 := sets_hierarchy (table := namespaceTable sc) (a := {}) c hhier
    (by simp only [setItems, List.forall_mem_cons]; exact ⟨rfl, rfl, by simp⟩) rfl rfl
  have s1 := (sets_kind (sc := sc) (s := go! "METAC_KND_namespace") 23 rfl (by omega)).append
    (sets_objHead c (n := name) (d := none) hn hp rfl)
  have s2 := s1.append (sets_info (go! "namespace_info") p1 rfl)
  exact .of s2 (by simp [namespace_, imports, declarationMixin, seg, braces]) rfl

theorem language_const : ∀ l : Fin 37, joined (go! "METAC_LANG_") (languageName (l.val + 1)) =
      [.id (go! "METAC_LANG_" ++ languageName (l.val + 1))] ∧
    constants.lookup (go! "METAC_LANG_" ++ languageName (l.val + 1)) = some (l.val + 1 : Int) := by decide +kernel

theorem slashes_plain {f : Str} (h : (34 : UInt8) ∉ f ∧ (10 : UInt8) ∉ f) : Plain (Spec.slashes f) := by
  refine ⟨fun hm => ?_, fun hm => ?_, fun hm => ?_⟩ <;>
  · obtain ⟨c, hc, e⟩ := List.mem_map.mp hm
    split at e
    · exact absurd e (by decide)
    · first
      | exact h.1 (e ▸ hc)
      | exact h.2 (e ▸ hc)
      | (rename_i hne; exact hne e)

theorem sets_files {files : List Str} {a : CInfo} (hf : Few files) (hp : ∀ f ∈ files, (34 : UInt8) ∉ f ∧ (10 : UInt8) ∉ f)
    (h0 : a.filesCount = 0) (h1 : a.files = none) :
    SetsAt (unitTable sc) (if files.length = 0 then []
      else c! ".decl_files_count =" ++ int files.length ++ c! ", .decl_files = (metac_name_t[]){" ++
        files.flatMap (fun f => [.str (escapePath f)] ++ c! ",") ++ c! "},") a
      { a with filesCount := files.length, files := Spec.unlessEmpty (fun f => some (Spec.slashes f)) files } := by
  split
  · rename_i hz
    have : files = [] := List.length_eq_zero_iff.mp hz
    subst this
    exact SetsAt.nil.to (by cases a; simp only at h0 h1; subst h0; subst h1; rfl)
  · rename_i hz
    have hne : files ≠ [] := fun h => hz (by rw [h]; rfl)
    have s1 := sets_int (table := unitTable sc) (a := a) (go! "decl_files_count") (signed 32)
      (fun a x => { a with filesCount := x }) (signed32 hf) rfl
    have s2 := SetsAt.field (table := unitTable sc) (a := { a with filesCount := files.length }) (go! "decl_files")
      (fun a x => { a with files := some x })
      ((elems_of (g := fun v => (strOf v).map some) (fun f => [.str (escapePath f)] ++ c! ",") (fun f => some (Spec.slashes f)) files
        (fun f hf => ⟨[.str (escapePath f)], rfl, by
          obtain ⟨g1, v, g2, g3⟩ := gives_str (literal_plain (slashes_plain (hp f hf)))
          exact ⟨g1, v, g2, by simp [g3]⟩⟩)).gives (.val (go! "metac_name_t"))) rfl
    rw [Spec.unlessEmpty, if_neg hne]
    simpa [seg, literalToks, typeToks, braces] using s1.append s2

theorem right_unit (c : Ctx sc ids) {i name : Str} {lang : Option Int} {files modules decls : List Str} {hier : List Item}
    (hf : Spec.Fits ids (.unit i name lang files modules decls hier)) :
    Right sc (compileUnit name lang files modules decls hier) (Spec.entry (.unit i name lang files modules decls hier)) := by
  obtain ⟨hn, ⟨l, rfl, hl1, hl2⟩, hfew, hfiles, rfl, rfl, hhier⟩ := hf
  obtain ⟨s, e1, e2⟩ : ∃ s, langToks (some l) = [.id s] ∧ constants.lookup s = some l := by
    have := language_const ⟨(l - 1).toNat, by omega⟩
    have e : ((l - 1).toNat : Int) + 1 = l := by omega
    simp only [e] at this
    exact ⟨_, this⟩
  have p1 := sets_const (table := unitTable sc) (a := {}) (go! "lang") (unsigned 8) (fun a x => { a with lang := x }) e2
    (unsigned_of (by omega) (by omega)) rfl
  have p2 := p1.append (sets_files hfew hfiles rfl rfl)
  have p3 := p2.append (sets_hierarchy c hhier (by simp only [setItems, List.forall_mem_cons]; exact ⟨rfl, rfl, by simp⟩) rfl rfl)
  have s1 := (sets_kind (sc := sc) (s := go! "METAC_KND_compile_unit") 24 rfl (by omega)).append
    (SetsAt.field (go! "name") (fun a x => { a with name := some x }) (gives_str (literal_plain hn)) rfl)
  have s2 := s1.append (sets_info (go! "compile_unit_info") p3 rfl)
  refine .of s2 (by simp [compileUnit, imports, seg, braces, e1]) rfl

end
end Verif.Emit
