import Verif.Emit.File
import Verif.Emit.Run
import Verif.Emit.RunSpec
import Verif.Entry.Lemmas
/-
Lemmas about the entries in memory.
-/
namespace Verif.Emit
open Verif.GoMeta (Str)
open Spec
open Verif.Entry (Ref Db Info)

/-- The entry of an object is in memory. -/
theorem loaded_entry {snake : Str → Str} (hs : Snake snake) {db : List Obj} (hg : Good db)
    {defs : List (Str × CEntry)} (hc : compileFile (file snake db) = some defs) {addr : Str → Ref} {rt : Db}
    (hl : Loaded defs addr rt) (o : Obj) (ho : o ∈ db) : EntryAt addr rt (Spec.entry o) (addr o.id) := by
  rw [compile_file hs hg] at hc
  injection hc with hc
  subst hc
  exact (hl (o.id, Spec.entry o) (List.mem_reverse.mpr (List.mem_map.mpr ⟨o, ho, rfl⟩))).1

/-- And its parents. -/
theorem loaded_parents {snake : Str → Str} (hs : Snake snake) {db : List Obj} (hg : Good db)
    {defs : List (Str × CEntry)} (hc : compileFile (file snake db) = some defs) {addr : Str → Ref} {rt : Db}
    (hl : Loaded defs addr rt) (o : Obj) (ho : o ∈ db) :
    ParentsAt addr rt (Spec.entry o).parentsCount (Spec.entry o).parents (addr o.id) := by
  rw [compile_file hs hg] at hc
  injection hc with hc
  subst hc
  exact (hl (o.id, Spec.entry o) (List.mem_reverse.mpr (List.mem_map.mpr ⟨o, ho, rfl⟩))).2

theorem unlessEmpty_getD {α β : Type} (f : α → β) (l : List α) : (unlessEmpty f l).getD [] = l.map f := by
  unfold unlessEmpty
  split
  · rename_i h
    rw [h]
    rfl
  · rfl

theorem counted_map {α β : Type} (f : α → β) (l : List α) : counted l.length (some (l.map f)) = some (l.map f) := by
  simp [counted]

theorem counted_unless {α β : Type} (f : α → β) (l : List α) : counted l.length (unlessEmpty f l) = some (l.map f) := by
  simp [counted, unlessEmpty_getD]

/-- The objects of a database in memory. -/
structure InMem (db : List Obj) (addr : Str → Ref) (rt : Db) : Prop where
  good : Good db
  entry : ∀ o ∈ db, EntryAt addr rt (Spec.entry o) (addr o.id)

variable {db : List Obj} {addr : Str → Ref} {rt : Db}

theorem InMem.base (hm : InMem db addr rt) {h size enc} (ho : .base h size enc ∈ db) :
    (rt (addr h.id)).info = .base (UInt64.ofInt (size.getD 0)) (encodingCode enc).toNat := by
  obtain ⟨-, -, ls, refs, hls, hlen, -, he⟩ := hm.entry _ ho
  simp only [Spec.entry, typeEntry, entryInfo] at he
  exact (Option.some.inj he).symm

theorem mapM_some (es : List (Str × Int)) :
    ((es.map fun e => ((some e.1 : Option Str), e.2)).mapM fun x => x.1.map fun n => (n, x.2)) = some es := by
  induction es with
  | nil => rfl
  | cons e es ih =>
    rw [List.map_cons, List.mapM_cons, ih]
    rfl

theorem InMem.enumeration (hm : InMem db addr rt) {h size es} (ho : .enumeration h size es ∈ db) :
    (rt (addr h.id)).info = .enumeration (UInt64.ofInt (size.getD 0)) 0 es := by
  obtain ⟨-, -, ls, refs, hls, hlen, -, he⟩ := hm.entry _ ho
  simp only [Spec.entry, typeEntry, entryInfo, counted_map, Option.bind_some, mapM_some, Option.map_some] at he
  exact (Option.some.inj he).symm

theorem InMem.array (hm : InMem db addr rt) {h count lv lo st t} (ho : .array h count lv lo st t ∈ db) :
    (rt (addr h.id)).info = .array ((target t).map addr) count := by
  obtain ⟨-, -, ls, refs, hls, hlen, -, he⟩ := hm.entry _ ho
  simp only [Spec.entry, typeEntry, entryInfo] at he
  exact (Option.some.inj he).symm

theorem InMem.pointer (hm : InMem db addr rt) {h t} (ho : .pointer h t ∈ db) :
    (rt (addr h.id)).info = .pointer ((target t).map addr) := by
  obtain ⟨-, -, ls, refs, hls, hlen, -, he⟩ := hm.entry _ ho
  simp only [Spec.entry, typeEntry, entryInfo] at he
  exact (Option.some.inj he).symm

theorem InMem.typedef (hm : InMem db addr rt) {h t} (ho : .typedef h t ∈ db) :
    (rt (addr h.id)).info = .typedef ((target t).map addr) := by
  obtain ⟨-, -, ls, refs, hls, hlen, -, he⟩ := hm.entry _ ho
  simp only [Spec.entry, typeEntry, entryInfo] at he
  exact (Option.some.inj he).symm

theorem InMem.unspecified (hm : InMem db addr rt) {h} (ho : .unspecified h ∈ db) :
    (rt (addr h.id)).info = .unspecifiedType := by
  obtain ⟨-, -, ls, refs, hls, hlen, -, he⟩ := hm.entry _ ho
  simp only [Spec.entry, typeEntry, entryInfo] at he
  exact (Option.some.inj he).symm

theorem InMem.variable (hm : InMem db addr rt) {h t} (ho : .variable h t ∈ db) :
    (rt (addr h.id)).info = .var ((target t).map addr) := by
  obtain ⟨-, -, ls, refs, hls, hlen, -, he⟩ := hm.entry _ ho
  simp only [Spec.entry, objEntry, entryInfo] at he
  exact (Option.some.inj he).symm

theorem InMem.lexBlock (hm : InMem db addr rt) {i p hier} (ho : .lexBlock i p hier ∈ db) :
    (rt (addr i)).info = .lexBlock := by
  obtain ⟨-, -, ls, refs, hls, hlen, -, he⟩ := hm.entry _ ho
  simp only [Spec.entry, objEntry, entryInfo] at he
  exact (Option.some.inj he).symm

theorem InMem.nspace (hm : InMem db addr rt) {i n p m d hier} (ho : .namespace i n p m d hier ∈ db) :
    (rt (addr i)).info = .nspace := by
  obtain ⟨-, -, ls, refs, hls, hlen, -, he⟩ := hm.entry _ ho
  simp only [Spec.entry, objEntry, entryInfo] at he
  exact (Option.some.inj he).symm

theorem InMem.unit (hm : InMem db addr rt) {i n l f m d hier} (ho : .unit i n l f m d hier ∈ db) :
    (rt (addr i)).info = .compileUnit := by
  obtain ⟨-, -, ls, refs, hls, hlen, -, he⟩ := hm.entry _ ho
  simp only [Spec.entry, entryInfo] at he
  exact (Option.some.inj he).symm

/-- The qualifier of a tag. -/
def qualOf (tag : Str) : Option Entry.Qual :=
  if tag = go! "ConstType" then some .const
  else if tag = go! "VolatileType" then some .volatile
  else if tag = go! "RestrictType" then some .restrict
  else if tag = go! "MutableType" then some .mutable
  else if tag = go! "SharedType" then some .shared
  else if tag = go! "PackedType" then some .packed
  else none

theorem InMem.qual (hm : InMem db addr rt) {h q t} (ho : .qual h q t ∈ db) :
    ∃ k, qualOf q = some k ∧ (rt (addr h.id)).info = .qual k ((target t).map addr) ∧
      Entry.kindOf (rt (addr h.id)).info = kindOfTag q := by
  obtain ⟨-, -, ls, refs, hls, hlen, -, he⟩ := hm.entry _ ho
  have hf := (hm.good.fits _ ho).2.2
  simp only [Spec.entry, typeEntry] at he
  change entryInfo addr refs _ = some (rt (addr h.id)).info at he
  simp only [List.mem_cons, List.not_mem_nil, or_false] at hf
  rcases hf with rfl | rfl | rfl | rfl | rfl | rfl
  · exact ⟨.const, by decide, (Option.some.inj he).symm, by rw [← Option.some.inj he]; rfl⟩
  · exact ⟨.volatile, by decide, (Option.some.inj he).symm, by rw [← Option.some.inj he]; rfl⟩
  · exact ⟨.restrict, by decide, (Option.some.inj he).symm, by rw [← Option.some.inj he]; rfl⟩
  · exact ⟨.mutable, by decide, (Option.some.inj he).symm, by rw [← Option.some.inj he]; rfl⟩
  · exact ⟨.shared, by decide, (Option.some.inj he).symm, by rw [← Option.some.inj he]; rfl⟩
  · exact ⟨.packed, by decide, (Option.some.inj he).symm, by rw [← Option.some.inj he]; rfl⟩

theorem InMem.reference (hm : InMem db addr rt) {h tag size t} (ho : .reference h tag size t ∈ db) :
    ∃ v, (rt (addr h.id)).info = .reference v (UInt64.ofInt (size.getD 0)) ((target t).map addr) ∧
      Entry.kindOf (rt (addr h.id)).info = kindOfTag tag := by
  obtain ⟨-, -, ls, refs, hls, hlen, -, he⟩ := hm.entry _ ho
  have hf := (hm.good.fits _ ho).2.1
  simp only [Spec.entry, typeEntry] at he
  change entryInfo addr refs _ = some (rt (addr h.id)).info at he
  simp only [List.mem_cons, List.not_mem_nil, or_false] at hf
  rcases hf with rfl | rfl
  · exact ⟨false, (Option.some.inj he).symm, by rw [← Option.some.inj he]; rfl⟩
  · exact ⟨true, (Option.some.inj he).symm, by rw [← Option.some.inj he]; rfl⟩

/-- Leaves at their addresses. -/
def LeavesAt (addr : Str → Ref) (rt : Db) (ls : List Leaf) (refs : List Ref) : Prop :=
  refs.length = ls.length ∧ ∀ (k : Nat) l m, ls[k]? = some l → refs[k]? = some m → LeafAt addr rt l m

theorem InMem.aggregate (hm : InMem db addr rt) {h tag size al fs hier} (ho : .aggregate h tag size al fs hier ∈ db) :
    ∃ k refs, (rt (addr h.id)).info = .struct k (UInt64.ofInt (if h.decl = some true then 0 else size.getD 0)) refs ∧
      Entry.kindOf (rt (addr h.id)).info = kindOfTag tag ∧
      LeavesAt addr rt (if h.decl = some true then [] else fs.map (Spec.member h.id)) refs := by
  obtain ⟨-, -, ls, refs, hls, hlen, hat, he⟩ := hm.entry _ ho
  have hf := (hm.good.fits _ ho).2.1
  simp only [Spec.entry] at he hls
  change entryInfo addr refs _ = some (rt (addr h.id)).info at he
  simp only [List.mem_cons, List.not_mem_nil, or_false] at hf
  have key : ∀ (k : Entry.StructKind),
      (rt (addr h.id)).info = .struct k (UInt64.ofInt (if h.decl = some true then 0 else size.getD 0)) refs →
      ls = (if h.decl = some true then [] else fs.map (Spec.member h.id)) →
      Entry.kindOf (.struct k 0 []) = kindOfTag tag →
      ∃ k refs, (rt (addr h.id)).info = .struct k (UInt64.ofInt (if h.decl = some true then 0 else size.getD 0)) refs ∧
        Entry.kindOf (rt (addr h.id)).info = kindOfTag tag ∧
        LeavesAt addr rt (if h.decl = some true then [] else fs.map (Spec.member h.id)) refs := by
    intro k h1 h2 h3
    refine ⟨k, refs, h1, ?_, ?_⟩
    · rw [h1, ← h3]
      cases k <;> rfl
    · rw [← h2]
      exact ⟨hlen, hat⟩
  by_cases hd : h.decl = some true
  · rw [if_pos hd] at he hls
    rw [if_pos hd, if_pos hd] at key ⊢
    rcases hf with rfl | rfl | rfl
    · exact key .struct (Option.some.inj he).symm (Option.some.inj hls).symm (by decide)
    · exact key .union (Option.some.inj he).symm (Option.some.inj hls).symm (by decide)
    · exact key .class (Option.some.inj he).symm (Option.some.inj hls).symm (by decide)
  · rw [if_neg hd] at he hls
    rw [if_neg hd, if_neg hd] at key ⊢
    have hl : ∀ n : Int, n = 16 ∨ n = 17 ∨ n = 18 → ∀ e : CEntry, e.kind = n → e.info.membersCount = fs.length →
        e.info.members = unlessEmpty (Spec.member h.id) fs → leaves e = some ls → ls = fs.map (Spec.member h.id) := by
      intro n hn e he hc hmm hle
      unfold leaves at hle
      rw [he, hc, hmm, counted_unless] at hle
      rcases hn with rfl | rfl | rfl <;> exact (Option.some.inj hle).symm
    rcases hf with rfl | rfl | rfl
    · exact key .struct (Option.some.inj he).symm (hl 16 (by simp) _ (by rfl) rfl rfl hls) (by decide)
    · exact key .union (Option.some.inj he).symm (hl 17 (by simp) _ (by rfl) rfl rfl hls) (by decide)
    · exact key .class (Option.some.inj he).symm (hl 18 (by simp) _ (by rfl) rfl rfl hls) (by decide)

theorem InMem.subprogram (hm : InMem db addr rt) {h t ps hier} (ho : .subprogram h t ps hier ∈ db) :
    ∃ refs, (rt (addr h.id)).info = .subprogram ((target t).map addr) refs ∧
      LeavesAt addr rt (ps.map (Spec.param h.id)) refs := by
  obtain ⟨-, -, ls, refs, hls, hlen, hat, he⟩ := hm.entry _ ho
  simp only [Spec.entry, objEntry, entryInfo] at he
  simp only [Spec.entry, objEntry, leaves, counted_map, Option.some.injEq] at hls
  exact ⟨refs, (Option.some.inj he).symm, hls ▸ hlen, hls ▸ hat⟩

theorem InMem.subroutine (hm : InMem db addr rt) {h t ps} (ho : .subroutine h t ps ∈ db) :
    ∃ refs, (rt (addr h.id)).info = .subroutine ((target t).map addr) refs ∧
      LeavesAt addr rt (ps.map (Spec.param h.id)) refs := by
  obtain ⟨-, -, ls, refs, hls, hlen, hat, he⟩ := hm.entry _ ho
  simp only [Spec.entry, typeEntry, entryInfo] at he
  simp only [Spec.entry, typeEntry, leaves, counted_map, Option.some.injEq] at hls
  exact ⟨refs, (Option.some.inj he).symm, hls ▸ hlen, hls ▸ hat⟩

theorem target_of {t : Str} (hm : InMem db addr rt) (ht : t ∈ db.map Obj.id) : target t = some t := by
  obtain ⟨o, ho, rfl⟩ := List.mem_map.mp ht
  unfold target
  rw [if_neg]
  rintro (h | h)
  · obtain ⟨c, s, hc, -⟩ := (hm.good.names o ho).2
    rw [h] at hc
    cases hc
  · exact hm.good.reserved o ho h

theorem alias_behind (hm : InMem db addr rt) {i t : Str} (h : Behind db i t) :
    Entry.Spec.Alias rt (addr i) ((target t).map addr) := by
  cases h with
  | typedef h => exact .typedef (hm.typedef h)
  | qual h =>
    obtain ⟨k, -, h', -⟩ := hm.qual h
    exact .qual h'
  | «variable» h => exact .var (hm.variable h)

theorem u64_toNat {n : Nat} (h : n < 2 ^ 63) : (UInt64.ofInt (n : Int)).toNat = n := by
  unfold UInt64.ofInt
  rw [UInt64.toNat_ofNat']
  omega

theorem size_bound {n : Nat} (h : Spec.Size (some (n : Int))) : n < 2 ^ 63 := by
  have := (h _ rfl).2
  omega

theorem size_of (hm : InMem db addr rt) {i : Str} {n : Nat} (h : SizeOf db i n) : Entry.Spec.Size rt (addr i) n := by
  induction h with
  | base ho =>
    have hb := size_bound (hm.good.fits _ ho).2.1
    have := Entry.Spec.Stored.base (hm.base ho)
    rw [Option.getD_some, u64_toNat hb] at this
    exact .stored this
  | enumeration ho =>
    have hb := size_bound (hm.good.fits _ ho).2.1
    have := Entry.Spec.Stored.enumeration (hm.enumeration ho)
    rw [Option.getD_some, u64_toNat hb] at this
    exact .stored this
  | pointer ho => exact .stored (.pointer (hm.pointer ho))
  | reference ho =>
    have hb := size_bound (hm.good.fits _ ho).2.2.1
    obtain ⟨v, hv, -⟩ := hm.reference ho
    have := Entry.Spec.Stored.reference hv
    rw [Option.getD_some, u64_toNat hb] at this
    exact .stored this
  | aggregate ho hd =>
    have hb := size_bound (hm.good.fits _ ho).2.2.1
    obtain ⟨k, refs, hv, -⟩ := hm.aggregate ho
    have := Entry.Spec.Stored.struct hv
    rw [if_neg hd, Option.getD_some, u64_toNat hb] at this
    exact .stored this
  | behind hb ht _ ih =>
    have := alias_behind hm hb
    rw [target_of hm ht] at this
    exact .through this ih
  | array ho ht hc _ ih =>
    have := hm.array ho
    rw [target_of hm ht] at this
    exact .array this hc ih

theorem no_alias (hm : InMem db addr rt) {o : Obj} (ho : o ∈ db) (hb : ∀ t, ¬ Behind db o.id t) (t : Option Ref) :
    ¬ Entry.Spec.Alias rt (addr o.id) t := by
  have key : ∀ i : Info, (rt (addr o.id)).info = i → (∀ t, i ≠ .typedef t) → (∀ t, i ≠ .var t) → (∀ t, i ≠ .param false t) →
      (∀ t, i ≠ .member t) → (∀ q t, i ≠ .qual q t) → ¬ Entry.Spec.Alias rt (addr o.id) t := by
    rintro i rfl h1 h2 h3 h4 h5 ha
    cases ha with
    | typedef h => exact h1 _ h
    | var h => exact h2 _ h
    | param h => exact h3 _ h
    | member h => exact h4 _ h
    | qual h => exact h5 _ _ h
  cases o with
  | base h size enc => exact key _ (hm.base ho) (by simp) (by simp) (by simp) (by simp) (by simp)
  | enumeration h size es => exact key _ (hm.enumeration ho) (by simp) (by simp) (by simp) (by simp) (by simp)
  | array h c lv lo st t => exact key _ (hm.array ho) (by simp) (by simp) (by simp) (by simp) (by simp)
  | pointer h t => exact key _ (hm.pointer ho) (by simp) (by simp) (by simp) (by simp) (by simp)
  | reference h tag size t =>
    obtain ⟨v, hv, -⟩ := hm.reference ho
    exact key _ hv (by simp) (by simp) (by simp) (by simp) (by simp)
  | unspecified h => exact key _ (hm.unspecified ho) (by simp) (by simp) (by simp) (by simp) (by simp)
  | subroutine h t ps =>
    obtain ⟨v, hv, -⟩ := hm.subroutine ho
    exact key _ hv (by simp) (by simp) (by simp) (by simp) (by simp)
  | qual h q t => exact absurd (.qual ho) (hb t)
  | typedef h t => exact absurd (.typedef ho) (hb t)
  | aggregate h tag size al fs hier =>
    obtain ⟨k, refs, hv, -⟩ := hm.aggregate ho
    exact key _ hv (by simp) (by simp) (by simp) (by simp) (by simp)
  | subprogram h t ps hier =>
    obtain ⟨v, hv, -⟩ := hm.subprogram ho
    exact key _ hv (by simp) (by simp) (by simp) (by simp) (by simp)
  | «variable» h t => exact absurd (.variable ho) (hb t)
  | lexBlock i p hier => exact key _ (hm.lexBlock ho) (by simp) (by simp) (by simp) (by simp) (by simp)
  | «namespace» i n p m d hier => exact key _ (hm.nspace ho) (by simp) (by simp) (by simp) (by simp) (by simp)
  | unit i n l f m d hier => exact key _ (hm.unit ho) (by simp) (by simp) (by simp) (by simp) (by simp)

theorem final_of (hm : InMem db addr rt) {i : Str} {o : Obj} (h : Leads db i o) :
    ∃ qs, Entry.Spec.Final rt (addr i) (some (addr o.id)) qs := by
  induction h with
  | here ho hb => exact ⟨[], .here (no_alias hm ho hb)⟩
  | behind hb ht _ ih =>
    obtain ⟨qs, hq⟩ := ih
    have := alias_behind hm hb
    rw [target_of hm ht] at this
    exact ⟨_, .step this hq⟩

theorem leads_mem {i : Str} {o : Obj} (h : Leads db i o) : o ∈ db := by
  induction h with
  | here ho _ => exact ho
  | behind _ _ _ ih => exact ih

theorem LeavesAt.get {ls : List Leaf} {refs : List Ref} (h : LeavesAt addr rt ls refs) {k : Nat} {l : Leaf}
    (hk : ls[k]? = some l) : ∃ r, refs[k]? = some r ∧ LeafAt addr rt l r := by
  have hlt : k < refs.length := by
    rw [h.1]
    exact (List.getElem?_eq_some_iff.mp hk).1
  exact ⟨refs[k], List.getElem?_eq_getElem hlt, h.2 k l _ hk (List.getElem?_eq_getElem hlt)⟩

theorem LeavesAt.back {ls : List Leaf} {refs : List Ref} (h : LeavesAt addr rt ls refs) {k : Nat} {r : Ref}
    (hk : refs[k]? = some r) : ∃ l, ls[k]? = some l ∧ LeafAt addr rt l r := by
  have hlt : k < ls.length := by
    rw [← h.1]
    exact (List.getElem?_eq_some_iff.mp hk).1
  exact ⟨ls[k], List.getElem?_eq_getElem hlt, h.2 k _ r (List.getElem?_eq_getElem hlt) hk⟩

end Verif.Emit
