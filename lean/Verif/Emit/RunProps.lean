import Verif.Emit.Props
import Verif.Emit.RunLemmas
import Verif.Emit.Memory
import Verif.Entry.Props
/-
C78: what a program that was compiled with the generated file is told about the objects of the
database, by the functions of /repo/src/entry.c.
-/
namespace Verif.Emit
open Verif.GoMeta (Str)
open Spec
open Verif.Entry (Ref Db)

variable {snake : Str → Str} {db : List Obj} {defs : List (Str × CEntry)} {addr : Str → Ref} {rt : Db}

/-! ### The example in memory -/

/-- The compiled example. -/
def exDefs : List (Str × CEntry) := (compileFile (file exSnake exDb)).getD []

theorem exDefs_eq : compileFile (file exSnake exDb) = some exDefs := by
  unfold exDefs
  rw [compile_file exSnake_snake exDb_good]
  rfl

/-- Every good database can be put into memory: the hypotheses of the following theorems are met. -/
theorem C78_loadable (snake : Str → Str) (hs : Snake snake) (db : List Obj) (hg : Good db) :
    ∃ defs, compileFile (file snake db) = some defs ∧ Loaded defs (place defs) (memory defs) :=
  ⟨_, compile_file hs hg, loaded_memory hg⟩

theorem exLoaded : Loaded exDefs (place exDefs) (memory exDefs) := by
  have := loaded_memory exDb_good
  have he := exDefs_eq
  rw [compile_file exSnake_snake exDb_good] at he
  rw [← Option.some.inj he]
  exact this

/-! ### C78 -/

/-- C78: kinds and names. -/
theorem C78_kind_partial (hs : Snake snake) (hg : Good db) (hc : compileFile (file snake db) = some defs)
    (hl : Loaded defs addr rt) (o : Obj) (ho : o ∈ db) :
    Entry.kind rt (some (addr o.id)) = Spec.kind o ∧ (rt (addr o.id)).name = Spec.nameOf o := by
  have hm : InMem db addr rt := ⟨hg, loaded_entry hs hg hc hl⟩
  refine ⟨?_, ?_⟩
  · show Entry.kindOf (rt (addr o.id)).info = _
    cases o with
    | base h size enc => exact congrArg Entry.kindOf (hm.base ho)
    | enumeration h size es => exact congrArg Entry.kindOf (hm.enumeration ho)
    | array h c lv lo st t => exact congrArg Entry.kindOf (hm.array ho)
    | pointer h t => exact congrArg Entry.kindOf (hm.pointer ho)
    | reference h tag size t =>
      obtain ⟨v, -, hk⟩ := hm.reference ho
      exact hk
    | unspecified h => exact congrArg Entry.kindOf (hm.unspecified ho)
    | subroutine h t ps =>
      obtain ⟨v, hv, -⟩ := hm.subroutine ho
      exact congrArg Entry.kindOf hv
    | qual h q t =>
      obtain ⟨k, -, -, hk⟩ := hm.qual ho
      exact hk
    | typedef h t => exact congrArg Entry.kindOf (hm.typedef ho)
    | aggregate h tag size al fs hier =>
      obtain ⟨k, refs, -, hk, -⟩ := hm.aggregate ho
      exact hk
    | subprogram h t ps hier =>
      obtain ⟨v, hv, -⟩ := hm.subprogram ho
      exact congrArg Entry.kindOf hv
    | «variable» h t => exact congrArg Entry.kindOf (hm.variable ho)
    | lexBlock i p hier => exact congrArg Entry.kindOf (hm.lexBlock ho)
    | «namespace» i n p m d hier => exact congrArg Entry.kindOf (hm.nspace ho)
    | unit i n l f m d hier => exact congrArg Entry.kindOf (hm.unit ho)
  · obtain ⟨h1, -⟩ := hm.entry o ho
    rw [h1]
    cases o <;> try rfl
    simp only [Spec.entry]
    split <;> rfl

/-- C78: sizes: the size of a type that has one, modulo 2^64. -/
theorem C78_size_partial (hs : Snake snake) (hg : Good db) (hc : compileFile (file snake db) = some defs)
    (hl : Loaded defs addr rt) (i : Str) (n : Nat) (h : SizeOf db i n) :
    ∃ v, Entry.byteSize rt (some (addr i)) true = some (.ok v) ∧ v.toNat = n % 2 ^ 64 := by
  have hm : InMem db addr rt := ⟨hg, loaded_entry hs hg hc hl⟩
  obtain ⟨v, h1, h2, -⟩ := (Entry.C17_byte_size rt).1 _ _ (size_of hm h)
  exact ⟨v, h1, h2⟩

/-- The size of `root` is that of `struct node`, the one of the array `key` four bytes. -/
example : SizeOf exDb (go! "var_root_0000") 24 ∧ SizeOf exDb (go! "a_0000") (4 * 1) := by
  refine ⟨?_, ?_⟩
  · refine .behind (t := go! "t_node_t_0000") (.variable (h := ⟨go! "var_root_0000", some (go! "root"), none, go! "cu_0000", none, none⟩) (by decide +kernel)) (by decide +kernel) ?_
    refine .behind (t := go! "s_node_0000") (.typedef (h := exHead (go! "t_node_t_0000") (some (go! "node_t"))) (by decide +kernel)) (by decide +kernel) ?_
    have : exDb[8]? = some (exDb[8]'(by decide)) := rfl
    exact SizeOf.aggregate (List.mem_of_getElem? this) (by decide)
  · refine .array (h := exHead (go! "a_0000") none) (lv := 0) (lo := none) (st := none) (t := go! "qual_0000") (by decide +kernel) (by decide +kernel) (by decide) ?_
    refine .behind (t := go! "unsigned_char_0000") (.qual (h := exHead (go! "qual_0000") none) (q := go! "ConstType") (by decide +kernel)) (by decide +kernel) ?_
    exact .base (h := exHead (go! "unsigned_char_0000") (some (go! "unsigned char"))) (enc := go! "UnsignedChar") (by decide +kernel)

/-- C78: the members of a structure, a union or a class, reached through typedefs, qualifiers and
variables: as many as there are fields; each with the name, the type and the offset of its field,
found by its number and by its name. -/
theorem C78_members_partial (hs : Snake snake) (hg : Good db) (hc : compileFile (file snake db) = some defs)
    (hl : Loaded defs addr rt) (i : Str) {h : Head} {tag : Str} {size al : Option Int} {fs : List Field} {hier : List Item}
    (hi : Leads db i (.aggregate h tag size al fs hier)) (hd : h.decl ≠ some true) :
    Entry.memberCount rt (some (addr i)) = some (fs.length : Int) ∧
    (∀ (k : Nat) f, fs[k]? = some f → ∃ r m, Entry.byMemberId rt (some (addr i)) k = some (some r) ∧ (rt r).name = f.name ∧
      (rt r).info = .member m ∧ m.type = (target f.type).map addr ∧ (m.byteOffset.toNat : Int) = f.byteOffset) ∧
    (∀ k : Int, k < 0 ∨ k ≥ fs.length → Entry.byMemberId rt (some (addr i)) k = some none) ∧
    (∀ n k, FirstNamed Field.name fs n k → Entry.memberNameToId rt (some (addr i)) n = some (k : Int)) ∧
    (∀ n, (∀ f ∈ fs, f.name ≠ some n) → Entry.memberNameToId rt (some (addr i)) n = some (-2)) := by
  have hm : InMem db addr rt := ⟨hg, loaded_entry hs hg hc hl⟩
  obtain ⟨qs, hf⟩ := final_of hm hi
  have ho := leads_mem hi
  obtain ⟨k, refs, hinfo, -, hat⟩ := hm.aggregate ho
  rw [if_neg hd] at hat
  obtain ⟨h1, h2, h3, h4, h5⟩ := (Entry.C19_members rt _ _ _ hf).1 _ _ _ _ rfl hinfo
  have hlen : refs.length = fs.length := by rw [hat.1, List.length_map]
  have hget : ∀ (k : Nat) f, fs[k]? = some f → ∃ r, refs[k]? = some r ∧ LeafAt addr rt (Spec.member h.id f) r := by
    intro k f hk
    exact hat.get (by rw [List.getElem?_map, hk]; rfl)
  have hname : ∀ (k : Nat) r, refs[k]? = some r → ∃ f, fs[k]? = some f ∧ (rt r).name = f.name := by
    intro k r hk
    obtain ⟨l, hl', hla⟩ := hat.back hk
    rw [List.getElem?_map] at hl'
    obtain ⟨f, hf', rfl⟩ := Option.map_eq_some_iff.mp hl'
    exact ⟨f, hf', hla.1⟩
  refine ⟨by rw [h1, hlen], ?_, ?_, ?_, ?_⟩
  · intro k f hk
    obtain ⟨r, hr, hla⟩ := hget k f hk
    have hlt : k < refs.length := (List.getElem?_eq_some_iff.mp hr).1
    have hb := ((hm.good.fits _ ho).2.2.2.2.2.2.1 f (List.mem_of_getElem? hk)).2.2.2.2.1
    refine ⟨r, _, by rw [h4 k hlt, hr], hla.1, (Option.some.inj hla.2.2.1).symm, rfl, ?_⟩
    obtain ⟨hb1, hb2⟩ := hb _ rfl
    show ((UInt64.ofInt f.byteOffset).toNat : Int) = f.byteOffset
    obtain ⟨n, hn⟩ := Int.eq_ofNat_of_zero_le hb1
    rw [hn, u64_toNat (by omega)]
  · intro k hk
    exact h5 k (by rw [hlen]; exact hk)
  · rintro n k ⟨⟨f, hk, hn⟩, hfirst⟩
    obtain ⟨r, hr, hla⟩ := hget k f hk
    refine h2 n k ⟨⟨r, hr, hla.1.trans hn⟩, ?_⟩
    intro j hj m hm'
    obtain ⟨f', hf', hn'⟩ := hname j m hm'
    rw [hn']
    exact hfirst j hj f' hf'
  · intro n hn
    refine h3 n ?_
    intro m hm'
    obtain ⟨k, hk⟩ := List.mem_iff_getElem?.mp hm'
    obtain ⟨f, hf', hn'⟩ := hname k m hk
    rw [hn']
    exact hn f (List.mem_of_getElem? hf')

theorem eq_of_id (hg : Good db) {o p : Obj} (ho : o ∈ db) (hp : p ∈ db) (h : o.id = p.id) : o = p := by
  have hn := hg.ids
  revert hn ho hp
  generalize db = l
  intro ho hp hn
  induction l with
  | nil => cases ho
  | cons a l ih =>
    rw [List.map_cons, List.nodup_cons] at hn
    rcases List.mem_cons.mp ho with ho' | ho' <;> rcases List.mem_cons.mp hp with hp' | hp'
    · rw [ho', hp']
    · exact absurd (List.mem_map.mpr ⟨p, hp', by rw [← h, ho']⟩) hn.1
    · exact absurd (List.mem_map.mpr ⟨o, ho', by rw [h, hp']⟩) hn.1
    · exact ih ho' hp' hn.2

theorem not_behind (hg : Good db) {o : Obj} (ho : o ∈ db) (h1 : ∀ h t, o ≠ .typedef h t) (h2 : ∀ h q t, o ≠ .qual h q t)
    (h3 : ∀ h t, o ≠ .variable h t) (t : Str) : ¬ Behind db o.id t := by
  intro hb
  generalize hi : o.id = i at hb
  cases hb with
  | typedef h => exact h1 _ _ (eq_of_id hg ho h hi)
  | qual h => exact h2 _ _ _ (eq_of_id hg ho h hi)
  | «variable» h => exact h3 _ _ (eq_of_id hg ho h hi)

/-- `root` leads to `struct node`; `hi` is its member 3. -/
theorem exLeads : Leads exDb (go! "var_root_0000")
      (.aggregate (exHead (go! "s_node_0000") (some (go! "node"))) (go! "StructType") (some 24) none exFields []) ∧
    FirstNamed Field.name exFields (go! "hi") 3 := by
  refine ⟨?_, ⟨⟨_, rfl, rfl⟩, ?_⟩⟩
  · refine .behind (t := go! "t_node_t_0000") (.variable (h := ⟨go! "var_root_0000", some (go! "root"), none, go! "cu_0000", none, none⟩) (by decide +kernel)) (by decide +kernel) ?_
    refine .behind (t := go! "s_node_0000") (.typedef (h := exHead (go! "t_node_t_0000") (some (go! "node_t"))) (by decide +kernel)) (by decide +kernel) ?_
    refine Leads.here (o := .aggregate (exHead (go! "s_node_0000") (some (go! "node"))) (go! "StructType") (some 24) none exFields [])
      (by decide +kernel) ?_
    exact not_behind exDb_good (by decide +kernel) (by simp) (by simp) (by simp)
  · intro j hj f hf
    rcases j with _ | _ | _ | j
    · injection hf with hf; subst hf; decide
    · injection hf with hf; subst hf; decide
    · injection hf with hf; subst hf; decide
    · omega

example : Snake exSnake ∧ Good exDb ∧ compileFile (file exSnake exDb) = some exDefs ∧ Loaded exDefs (place exDefs) (memory exDefs) ∧
    Entry.memberNameToId (memory exDefs) (some (place exDefs (go! "var_root_0000"))) (go! "hi") = some 3 :=
  ⟨exSnake_snake, exDb_good, exDefs_eq, exLoaded,
   (C78_members_partial exSnake_snake exDb_good exDefs_eq exLoaded _ exLeads.1 (by decide)).2.2.2.1 _ 3 exLeads.2⟩

/-- C78: bit-fields: the byte and the bit where the field begins, and the number of its bits. -/
theorem C78_bitfields_partial (hs : Snake snake) (hg : Good db) (hc : compileFile (file snake db) = some defs)
    (hl : Loaded defs addr rt) (i : Str) {h : Head} {tag : Str} {size al : Option Int} {fs : List Field} {hier : List Item}
    (hi : Leads db i (.aggregate h tag size al fs hier)) (hd : h.decl ≠ some true) (k : Nat) (f : Field) (hk : fs[k]? = some f)
    (bit n : Nat) (hb : BitsAt f bit n) :
    ∃ r byte off sz, Entry.byMemberId rt (some (addr i)) k = some (some r) ∧
      Entry.bitfieldOffsets rt (some r) = (0, some (byte, off, sz)) ∧ byte.toNat = bit / 8 ∧ off.toNat = bit % 8 ∧ sz.toNat = n := by
  have hm : InMem db addr rt := ⟨hg, loaded_entry hs hg hc hl⟩
  obtain ⟨qs, hf⟩ := final_of hm hi
  have ho := leads_mem hi
  obtain ⟨k', refs, hinfo, -, hat⟩ := hm.aggregate ho
  rw [if_neg hd] at hat
  obtain ⟨-, -, -, h4, -⟩ := (Entry.C19_members rt _ _ _ hf).1 _ _ _ _ rfl hinfo
  obtain ⟨r, hr, hla⟩ := hat.get (k := k) (l := Spec.member h.id f) (by rw [List.getElem?_map, hk]; rfl)
  have hlt : k < refs.length := (List.getElem?_eq_some_iff.mp hr).1
  obtain ⟨-, -, f1, -, f2, f3, f4, f5⟩ := (hm.good.fits _ ho).2.2.2.2.2.2.1 f (List.mem_of_getElem? hk)
  obtain ⟨hb0, hb⟩ := hb
  rw [hb0] at f5
  have hmem := (Option.some.inj hla.2.2.1).symm
  have hpos := Entry.C20_offsets rt r _ bit n hmem (by
    rcases hb with ⟨hb1, hb2⟩ | ⟨unit, off, hb1, hb2, hb3, hb4, hb5⟩
    · right
      rw [hb2] at f3
      exact ⟨_, _, by rw [hb1]; rfl, by rw [hb2]; rfl, by rw [hb0]; rfl, u64_toNat (size_bound f3), u64_toNat (size_bound f5)⟩
    · left
      rw [hb1] at f1
      rw [hb2] at f4
      obtain ⟨hb6, hb7⟩ := f2 _ rfl
      obtain ⟨o, ho'⟩ := Int.eq_ofNat_of_zero_le hb6
      have e1 := u64_toNat (size_bound f1)
      have e2 := u64_toNat (size_bound f4)
      have e3 : (UInt64.ofInt f.byteOffset).toNat = o := by rw [ho', u64_toNat (by omega)]
      refine ⟨_, _, _, by rw [hb1]; rfl, by rw [hb2]; rfl, by rw [hb0]; rfl, ?_, u64_toNat (size_bound f5), ?_, ?_⟩
      · intro hz
        rw [hz] at e1
        exact hb3 e1.symm
      · show ((UInt64.ofInt f.byteOffset).toNat + _) * 8 < _
        rw [e1, e3]
        omega
      · show bit + n + _ = ((UInt64.ofInt f.byteOffset).toNat + _) * 8
        rw [e1, e2, e3]
        omega)
  obtain ⟨byte, off, sz, p1, p2, p3, p4, -⟩ := hpos
  exact ⟨r, byte, off, sz, by rw [h4 k hlt, hr], p1, p2, p3, p4⟩

/-- `hi` is told the DWARF 3 way: 5 bits in the unit of 4 bytes at 12, 24 bits from the top. -/
example : ∃ f, exFields[3]? = some f ∧ BitsAt f 99 5 :=
  ⟨_, rfl, rfl, .inr ⟨4, 24, rfl, rfl, by decide, by decide, by decide⟩⟩

/-- C78: the parameters and the result of a function or a function type. -/
theorem C78_parameters_partial (hs : Snake snake) (hg : Good db) (hc : compileFile (file snake db) = some defs)
    (hl : Loaded defs addr rt) (i : Str) (o : Obj) (t : Str) (ps : List Param) (hi : Leads db i o)
    (ho : (∃ h hier, o = .subprogram h t ps hier) ∨ ∃ h, o = .subroutine h t ps) :
    Entry.resultType rt (some (addr i)) = some ((target t).map addr) ∧
    Entry.parametersCount rt (some (addr i)) = some (ps.length : Int) ∧
    (∀ (k : Nat) p, ps[k]? = some p → ∃ r, Entry.byParameterId rt (some (addr i)) k = some (some r) ∧ (rt r).name = p.name ∧
      (rt r).info = .param (p.unspecified = some true) ((target p.type).map addr)) ∧
    (∀ k : Int, k < 0 ∨ k ≥ ps.length → Entry.byParameterId rt (some (addr i)) k = some none) ∧
    (∀ n k, FirstNamed Param.name ps n k → Entry.parameterNameToId rt (some (addr i)) n = some (k : Int)) := by
  have hm : InMem db addr rt := ⟨hg, loaded_entry hs hg hc hl⟩
  obtain ⟨qs, hf⟩ := final_of hm hi
  have hmem := leads_mem hi
  obtain ⟨refs, hinfo, hat⟩ : ∃ refs, ((rt (addr o.id)).info = .subprogram ((target t).map addr) refs ∨
      (rt (addr o.id)).info = .subroutine ((target t).map addr) refs) ∧ LeavesAt addr rt (ps.map (Spec.param o.id)) refs := by
    rcases ho with ⟨h, hier, rfl⟩ | ⟨h, rfl⟩
    · obtain ⟨refs, h1, h2⟩ := hm.subprogram hmem
      exact ⟨refs, .inl h1, h2⟩
    · obtain ⟨refs, h1, h2⟩ := hm.subroutine hmem
      exact ⟨refs, .inr h1, h2⟩
  obtain ⟨h1, h2, -, h4, h5, h6⟩ := (Entry.C19_parameters rt _ _ _ hf).1 _ _ _ rfl hinfo
  have hlen : refs.length = ps.length := by rw [hat.1, List.length_map]
  have hget : ∀ (k : Nat) p, ps[k]? = some p → ∃ r, refs[k]? = some r ∧ LeafAt addr rt (Spec.param o.id p) r := by
    intro k p hk
    exact hat.get (by rw [List.getElem?_map, hk]; rfl)
  refine ⟨h6, by rw [h1, hlen], ?_, ?_, ?_⟩
  · intro k p hk
    obtain ⟨r, hr, hla⟩ := hget k p hk
    have hlt : k < refs.length := (List.getElem?_eq_some_iff.mp hr).1
    refine ⟨r, by rw [h4 k hlt, hr], hla.1, ?_⟩
    have := (Option.some.inj hla.2.2.1).symm
    rw [this]
    cases hu : p.unspecified with
    | none => rfl
    | some b => cases b <;> rfl
  · intro k hk
    exact h5 k (by rw [hlen]; exact hk)
  · rintro n k ⟨⟨p, hk, hn⟩, hfirst⟩
    obtain ⟨r, hr, hla⟩ := hget k p hk
    refine h2 n k ⟨⟨r, hr, hla.1.trans hn⟩, ?_⟩
    intro j hj m hm'
    obtain ⟨l, hl', hla'⟩ := hat.back hm'
    rw [List.getElem?_map] at hl'
    obtain ⟨p', hp', rfl⟩ := Option.map_eq_some_iff.mp hl'
    rw [hla'.1]
    exact hfirst j hj p' hp'

/-- `walk` has two parameters, the second is `...`. -/
example : ∃ r, Entry.byParameterId (memory exDefs) (some (place exDefs (go! "fn_walk_0000"))) (1 : Nat) = some (some r) ∧
    (memory exDefs r).info = .param true none := by
  have hl : Leads exDb (go! "fn_walk_0000") (exDb[9]'(by decide)) :=
    Leads.here (o := exDb[9]'(by decide)) (by decide +kernel)
      (not_behind exDb_good (by decide +kernel) (by simp [exDb]) (by simp [exDb]) (by simp [exDb]))
  obtain ⟨-, -, h, -⟩ := C78_parameters_partial exSnake_snake exDb_good exDefs_eq exLoaded _ _ (go! "int_0000") _ hl (.inl ⟨_, _, rfl⟩)
  obtain ⟨r, h1, -, h2⟩ := h 1 _ rfl
  exact ⟨r, h1, h2⟩

/-- C78: the enumerators of an enumeration. -/
theorem C78_enumerators_partial (hs : Snake snake) (hg : Good db) (hc : compileFile (file snake db) = some defs)
    (hl : Loaded defs addr rt) (i : Str) {h : Head} {size : Option Int} {es : List (Str × Int)}
    (hi : Leads db i (.enumeration h size es)) :
    Entry.enumerationInfoSize rt (some (addr i)) = some (es.length : Int) ∧
    (∀ k : Nat, k < es.length → Entry.enumerationInfo rt (some (addr i)) k = some es[k]?) ∧
    (∀ v pre post n, es = pre ++ (n, v) :: post → (∀ e ∈ pre, e.2 ≠ v) →
      Entry.enumerationToName rt (some (addr i)) v = some (some n)) ∧
    (∀ v, (∀ e ∈ es, e.2 ≠ v) → Entry.enumerationToName rt (some (addr i)) v = some none) := by
  have hm : InMem db addr rt := ⟨hg, loaded_entry hs hg hc hl⟩
  obtain ⟨qs, hf⟩ := final_of hm hi
  obtain ⟨h1, h2, h3, h4, -⟩ := Entry.C19_enumerators rt _ _ _ _ _ _ hf (hm.enumeration (leads_mem hi))
  exact ⟨h3, h4, h1, h2⟩

example : Entry.enumerationToName (memory exDefs) (some (place exDefs (go! "e_color_0000"))) (-2) = some (some (go! "blue")) := by
  have hl : Leads exDb (go! "e_color_0000") (exDb[2]'(by decide)) :=
    Leads.here (o := exDb[2]'(by decide)) (by decide +kernel)
      (not_behind exDb_good (by decide +kernel) (by simp [exDb]) (by simp [exDb]) (by simp [exDb]))
  exact (C78_enumerators_partial exSnake_snake exDb_good exDefs_eq exLoaded _ hl).2.2.1 (-2) [(go! "red", 0)] [] _ rfl (by simp)

/-- C78: what a pointer points to, and the elements of an array. -/
theorem C78_links_partial (hs : Snake snake) (hg : Good db) (hc : compileFile (file snake db) = some defs)
    (hl : Loaded defs addr rt) (i : Str) :
    (∀ h t, Leads db i (.pointer h t) → Entry.pointerEntry rt (some (addr i)) = some ((target t).map addr)) ∧
    (∀ h count lv lo st t, Leads db i (.array h count lv lo st t) →
      Entry.elementEntry rt (some (addr i)) = some ((target t).map addr) ∧
      (-(2 ^ 31) ≤ count → count < 2 ^ 31 → Entry.elementCount rt (some (addr i)) = some count)) := by
  have hm : InMem db addr rt := ⟨hg, loaded_entry hs hg hc hl⟩
  refine ⟨fun h t hi => ?_, fun h count lv lo st t hi => ?_⟩
  · obtain ⟨qs, hf⟩ := final_of hm hi
    exact ((Entry.C52_accessors_partial rt _ _ _ hf).1 _ _ rfl (hm.pointer (leads_mem hi))).1
  · obtain ⟨qs, hf⟩ := final_of hm hi
    exact ((Entry.C52_accessors_partial rt _ _ _ hf).2.1 _ _ _ rfl (hm.array (leads_mem hi))).2

/-- The array `key` has four elements. -/
example : Entry.elementCount (memory exDefs) (some (place exDefs (go! "a_0000"))) = some 4 := by
  have hl : Leads exDb (go! "a_0000") (exDb[3]'(by decide)) :=
    Leads.here (o := exDb[3]'(by decide)) (by decide +kernel)
      (not_behind exDb_good (by decide +kernel) (by simp [exDb]) (by simp [exDb]) (by simp [exDb]))
  exact ((C78_links_partial exSnake_snake exDb_good exDefs_eq exLoaded _).2 _ _ _ _ _ _ hl).2 (by decide) (by decide)

theorem entry_parents (o : Obj) : (Spec.entry o).parentsCount = (parentsOf o).length ∧ ((Spec.entry o).parents.getD []) = parentsOf o := by
  cases o with
  | aggregate h tag size al fs hier =>
    simp only [Spec.entry]
    split <;> exact ⟨rfl, rfl⟩
  | _ => exact ⟨rfl, rfl⟩

theorem parents_at {addr : Str → Ref} {rt : Db} {l : List Str} {r : Ref} (h : (rt r).parentsCount = l.length ∧ (rt r).parents = l.map addr) :
    Entry.parentCount rt (some r) = (l.length : Int) ∧
    (∀ (k : Nat) p, l[k]? = some p → Entry.parentEntry rt (some r) k = some (some (addr p))) ∧
    (∀ k : Int, k < 0 ∨ k ≥ l.length → Entry.parentEntry rt (some r) k = some none) := by
  refine ⟨h.1, ?_, ?_⟩
  · intro k p hk
    have hlt := (List.getElem?_eq_some_iff.mp hk).1
    simp only [Entry.parentEntry]
    rw [if_neg (by rw [h.1]; omega), h.2]
    simp [hk]
  · intro k hk
    simp only [Entry.parentEntry]
    rw [if_pos (by rw [h.1]; exact hk)]

/-- C78: a program finds the parents of each object. -/
theorem C78_parents_partial {snake : Str → Str} (hs : Snake snake) {db : List Obj} (hg : Good db)
    {defs : List (Str × CEntry)} (hc : compileFile (file snake db) = some defs) {addr : Str → Ref} {rt : Db}
    (hl : Loaded defs addr rt) (o : Obj) (ho : o ∈ db) :
    Entry.parentCount rt (some (addr o.id)) = ((parentsOf o).length : Int) ∧
    (∀ (k : Nat) p, (parentsOf o)[k]? = some p → Entry.parentEntry rt (some (addr o.id)) k = some (some (addr p))) ∧
    (∀ k : Int, k < 0 ∨ k ≥ (parentsOf o).length → Entry.parentEntry rt (some (addr o.id)) k = some none) := by
  obtain ⟨h1, h2⟩ := loaded_parents hs hg hc hl o ho
  rw [(entry_parents o).1] at h1
  rw [(entry_parents o).2] at h2
  exact parents_at ⟨h1, h2⟩

/-- C78: the parent of a member is the structure. -/
theorem C78_parents_members_partial {snake : Str → Str} (hs : Snake snake) {db : List Obj} (hg : Good db)
    {defs : List (Str × CEntry)} (hc : compileFile (file snake db) = some defs) {addr : Str → Ref} {rt : Db}
    (hl : Loaded defs addr rt) (i : Str) {h tag size al fs hier} (hi : Leads db i (.aggregate h tag size al fs hier)) (hd : h.decl ≠ some true)
    (k : Nat) (e : Ref) (he : Entry.byMemberId rt (some (addr i)) k = some (some e)) :
    Entry.parentCount rt (some e) = 1 ∧ Entry.parentEntry rt (some e) 0 = some (some (addr h.id)) := by
  have hm : InMem db addr rt := ⟨hg, loaded_entry hs hg hc hl⟩
  obtain ⟨qs, hf⟩ := final_of hm hi
  have ho := leads_mem hi
  obtain ⟨kk, refs, hinfo, -, hat⟩ := hm.aggregate ho
  rw [if_neg hd] at hat
  obtain ⟨h1, h2, h3, h4, h5⟩ := (Entry.C19_members rt _ _ _ hf).1 _ _ _ _ rfl hinfo
  by_cases hlt : k < refs.length
  · rw [h4 k hlt, Option.some.injEq] at he
    obtain ⟨l, hl', hla⟩ := hat.back he
    rw [List.getElem?_map] at hl'
    obtain ⟨f, hf', rfl⟩ := Option.map_eq_some_iff.mp hl'
    obtain ⟨p1, p2, -⟩ := parents_at (l := [h.id]) hla.2.2.2
    exact ⟨p1, p2 0 _ rfl⟩
  · rw [h5 k (.inr (by omega))] at he
    cases he

/-- C78: the parent of a parameter is the function. -/
theorem C78_parents_parameters_partial {snake : Str → Str} (hs : Snake snake) {db : List Obj} (hg : Good db)
    {defs : List (Str × CEntry)} (hc : compileFile (file snake db) = some defs) {addr : Str → Ref} {rt : Db}
    (hl : Loaded defs addr rt) (i : Str) (o : Obj) (t : Str) (ps : List Param)
    (ho : (∃ h hier, o = .subprogram h t ps hier) ∨ (∃ h, o = .subroutine h t ps)) (hi : Leads db i o)
    (k : Nat) (e : Ref) (he : Entry.byParameterId rt (some (addr i)) k = some (some e)) :
    Entry.parentCount rt (some e) = 1 ∧ Entry.parentEntry rt (some e) 0 = some (some (addr o.id)) := by
  have hm : InMem db addr rt := ⟨hg, loaded_entry hs hg hc hl⟩
  obtain ⟨qs, hf⟩ := final_of hm hi
  have hmem := leads_mem hi
  obtain ⟨refs, hinfo, hat⟩ : ∃ refs, ((rt (addr o.id)).info = .subprogram ((target t).map addr) refs ∨
      (rt (addr o.id)).info = .subroutine ((target t).map addr) refs) ∧ LeavesAt addr rt (ps.map (Spec.param o.id)) refs := by
    rcases ho with ⟨h, hier, rfl⟩ | ⟨h, rfl⟩
    · obtain ⟨refs, h1, h2⟩ := hm.subprogram hmem
      exact ⟨refs, .inl h1, h2⟩
    · obtain ⟨refs, h1, h2⟩ := hm.subroutine hmem
      exact ⟨refs, .inr h1, h2⟩
  obtain ⟨h1, h2, -, h4, h5, h6⟩ := (Entry.C19_parameters rt _ _ _ hf).1 _ _ _ rfl hinfo
  by_cases hlt : k < refs.length
  · rw [h4 k hlt, Option.some.injEq] at he
    obtain ⟨l, hl', hla⟩ := hat.back he
    rw [List.getElem?_map] at hl'
    obtain ⟨f, hf', rfl⟩ := Option.map_eq_some_iff.mp hl'
    obtain ⟨p1, p2, -⟩ := parents_at (l := [o.id]) hla.2.2.2
    exact ⟨p1, p2 0 _ rfl⟩
  · rw [h5 k (.inr (by omega))] at he
    cases he

end Verif.Emit
