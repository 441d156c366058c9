import Verif.Chain.RunLemmas
/-
C79: what a program is told is what the debug information says.
-/
namespace Verif.Chain
open Verif.GoMeta (Str)
open GoDwarf.Spec (Die)
open GoBuild.Spec (Tree Placed text num ref declared isTag paramTags Dim)
open GoDedup (World St)
open GoDedup.Spec (cat)
open Emit.Spec (FirstNamed)
open Spec

variable {units : List (Nat × Tree)} {w : World} {st : St} {snake : Str → Str} {x : Extra} {db : List Emit.Obj}
  {defs : List (Str × Emit.CEntry)} {addr : Str → Entry.Ref} {rt : Entry.Db}

/-- C79: for each entry of the debug information a program is told its kind and its name. -/
theorem C79_entries_partial (h : Program units snake w st x db defs addr rt) (q : List GoDedup.Off) (d : Tree) (hp : Placed [] (units.map Prod.snd) q d) :
    Told rt (addr (link snake w st d.off)) d := by
  obtain ⟨st0, order, hr⟩ := h.run
  obtain ⟨t, o, h1, h2, h3, h4, h5⟩ := hr.link_eq hp
  obtain ⟨f1, f2⟩ := for_head h5
  rw [h4]
  exact hr.told h3 f1 f2 h2

/-- C79: for a structure, union or class that is defined, a program is told its members: how many,
their names, their types, their places, and how to find them by name; and its size. -/
theorem C79_structures_partial (h : Program units snake w st x db defs addr rt) (q : List GoDedup.Off) (d : Tree) (hp : Placed [] (units.map Prod.snd) q d)
    (ht : d.tag ∈ [go! "ClassType", go! "StructType", go! "UnionType"]) (hd : declared d = false) (r : Entry.Ref) (hr : r = addr (link snake w st d.off))
    (ms : List Tree) (hms : ms = d.kids.filter (isTag [go! "Member"])) :
    Entry.memberCount rt (some r) = some (ms.length : Int) ∧
    (∀ (j : Nat) k, ms[j]? = some k → ∃ e, Entry.byMemberId rt (some r) j = some (some e) ∧ MemberAt units (fun l => addr (link snake w st l)) rt k e) ∧
    (∀ j : Int, j < 0 ∨ j ≥ ms.length → Entry.byMemberId rt (some r) j = some none) ∧
    (∀ n j, FirstNamed (fun k => text k (go! "Name")) ms n j → Entry.memberNameToId rt (some r) n = some (j : Int)) ∧
    (∀ n, (∀ k ∈ ms, text k (go! "Name") ≠ some n) → Entry.memberNameToId rt (some r) n = some (-2)) ∧
    (∀ n : Nat, num d (go! "ByteSize") = some (n : Int) → ∃ v, Entry.byteSize rt (some r) true = some (.ok v) ∧ v.toNat = n) := by
  subst hr hms
  obtain ⟨st0, order, hrun⟩ := h.run
  obtain ⟨o, hh, a, fs, hs, ho, hl, hobj, hdecl, hsize, he⟩ := hrun.struct hp ht hd
  have hview : view snake w st x o = .aggregate (head snake w st o hh) a.tag hh.byteSize hh.alignment (fs.map (field snake w st)) (hs.map (item snake w st x)) := by
    unfold view; rw [hobj]
  have hlead := hrun.leads ho hview (by simp) (by simp) (by simp)
  have hnd : (head snake w st o hh).decl ≠ some true := by simp [head, flagOf, hdecl]
  have hmem := hrun.mem ho
  rw [hview] at hmem
  obtain ⟨c1, c2, c3, c4, c5⟩ := Emit.C78_members_partial h.ids h.good h.compiled h.loaded _ hlead hnd
  rw [hl]
  have hlen : (d.kids.filter (isTag [go! "Member"])).length = (fs.map (field snake w st)).length := by rw [List.length_map]; exact (each_get he).1
  refine ⟨by rw [hlen]; exact c1, ?_, ?_, ?_, ?_, ?_⟩
  · intro j k hk
    obtain ⟨f, f1, f2⟩ := (each_get he).2 j k hk
    have hf : (fs.map (field snake w st))[j]? = some (field snake w st f) := by rw [List.getElem?_map, f1]; rfl
    obtain ⟨e, m, e1, e2, e3, e4, e5⟩ := c2 j _ hf
    refine ⟨e, e1, by rw [e2]; exact f2.name, ⟨m, e3, ?_, ?_⟩, ?_⟩
    · rw [e4]
      refine hrun.answer ho ?_ (member_at h.input hp ht (List.mem_of_getElem? hk)) f2.type
      intro y hy
      rw [hobj]
      exact List.mem_append_left _ (List.mem_filterMap.mpr ⟨f, List.mem_of_getElem? f1, hy⟩)
    · intro hb
      rw [e5]
      exact f2.offset hb
    · intro bit n b1 b2 b3
      obtain ⟨e', byte, off, sz, g1, g2⟩ := Emit.C78_bitfields_partial h.ids h.good h.compiled h.loaded _ hlead hnd j _ hf bit n
        ⟨f2.bitSize.trans b3, .inl ⟨f2.bitOffset.trans b1, f2.dataBitOffset.trans b2⟩⟩
      rw [e1] at g1
      cases g1
      exact ⟨byte, off, sz, g2⟩
  · rw [hlen]; exact c3
  · exact fun n j hf => c4 n j (first_named (f := field snake w st) (nc := Emit.Field.name) he (fun k f hk => hk.name) hf)
  · intro n hn
    refine c5 n ?_
    intro f hf
    obtain ⟨g, hg, rfl⟩ := List.mem_map.mp hf
    obtain ⟨k, hk, hkg⟩ := each_mem he g hg
    exact fun hc => hn k hk (hkg.name.symm.trans hc)
  · intro n hn
    have hfit := (h.good.fits _ hmem).2.2.1 n (by rw [hsize, hn])
    rw [← Nat.mod_eq_of_lt (show n < 2 ^ 64 by omega)]
    refine Emit.C78_size_partial h.ids h.good h.compiled h.loaded _ n ?_
    rw [← view_id (x := x), hview]
    rw [hsize, hn] at hmem
    rw [hsize, hn]
    exact .aggregate hmem hnd

/-- C79: for an enumeration, a program is told its enumerators and its size. -/
theorem C79_enumerations_partial (h : Program units snake w st x db defs addr rt) (q : List GoDedup.Off) (d : Tree) (hp : Placed [] (units.map Prod.snd) q d)
    (ht : d.tag = go! "EnumerationType") (hd : declared d = false) (r : Entry.Ref) (hr : r = addr (link snake w st d.off)) :
    Entry.enumerationInfoSize rt (some r) = some (d.kids.length : Int) ∧
    (∀ (j : Nat) k n v, d.kids[j]? = some k → text k (go! "Name") = some n → num k (go! "ConstValue") = some v →
      Entry.enumerationInfo rt (some r) j = some (some (n, v)) ∧
      ((∀ i < j, ∀ k', d.kids[i]? = some k' → num k' (go! "ConstValue") ≠ some v) → Entry.enumerationToName rt (some r) v = some (some n))) ∧
    (∀ v, (∀ k ∈ d.kids, num k (go! "ConstValue") ≠ some v) → Entry.enumerationToName rt (some r) v = some none) ∧
    (∀ n : Nat, num d (go! "ByteSize") = some (n : Int) → ∃ v, Entry.byteSize rt (some r) true = some (.ok v) ∧ v.toNat = n) := by
  subst hr
  obtain ⟨st0, order, hrun⟩ := h.run
  obtain ⟨o, hh, es, ho, hl, hobj, hsize, he⟩ := hrun.enumeration hp ht hd
  have hview : view snake w st x o = .enumeration (head snake w st o hh) hh.byteSize es := by unfold view; rw [hobj]
  have hlead := hrun.leads ho hview (by simp) (by simp) (by simp)
  have hmem := hrun.mem ho
  rw [hview] at hmem
  obtain ⟨c1, c2, c3, c4⟩ := Emit.C78_enumerators_partial h.ids h.good h.compiled h.loaded _ hlead
  rw [hl]
  obtain ⟨e1, e2⟩ := each_get he
  refine ⟨by rw [e1]; exact c1, ?_, ?_, ?_⟩
  · intro j k n v hk hn hv
    obtain ⟨⟨n', v'⟩, f1, f2, f3⟩ := e2 j k hk
    rw [hn] at f2
    rw [hv] at f3
    obtain rfl : n = n' := Option.some.inj f2
    obtain rfl : v = v' := Option.some.inj f3
    have hj : j < es.length := (List.getElem?_eq_some_iff.mp f1).1
    refine ⟨by rw [c2 j hj, f1], ?_⟩
    intro hfirst
    refine c3 v (es.take j) (es.drop (j + 1)) n ?_ ?_
    · have hj' : es[j] = (n, v) := (List.getElem?_eq_some_iff.mp f1).2
      rw [← hj', ← List.drop_eq_getElem_cons hj]
      exact (List.take_append_drop j es).symm
    · intro e he' hev
      obtain ⟨i, hi, hie⟩ := List.mem_iff_getElem.mp he'
      rw [List.length_take] at hi
      rw [List.getElem_take] at hie
      have hi' : i < es.length := by omega
      obtain ⟨k', k1, k2⟩ := each_back he i e (by rw [List.getElem?_eq_getElem hi', hie])
      exact hfirst i (by omega) k' k1 (by rw [k2.2, hev])
  · intro v hv
    refine c4 v ?_
    intro e hee hev
    obtain ⟨k, hk, hke⟩ := each_mem he e hee
    exact hv k hk (by rw [hke.2, hev])
  · intro n hn
    have hfit := (h.good.fits _ hmem).2.1 n (by rw [hsize, hn])
    rw [← Nat.mod_eq_of_lt (show n < 2 ^ 64 by omega)]
    refine Emit.C78_size_partial h.ids h.good h.compiled h.loaded _ n ?_
    rw [← view_id (x := x), hview]
    rw [hsize, hn] at hmem
    rw [hsize, hn]
    exact .enumeration hmem

/-- C79: for a pointer, a program is told what it points to. -/
theorem C79_pointers_partial (h : Program units snake w st x db defs addr rt) (q : List GoDedup.Off) (d : Tree) (hp : Placed [] (units.map Prod.snd) q d)
    (ht : d.tag = go! "PointerType") (hd : declared d = false) (r : Entry.Ref) (hr : r = addr (link snake w st d.off)) :
    (∃ e, Entry.pointerEntry rt (some r) = some e ∧ Answer units (fun l => addr (link snake w st l)) rt (ref d (go! "Type")) e) ∧
    ∃ v, Entry.byteSize rt (some r) true = some (.ok v) ∧ v.toNat = 8 := by
  subst hr
  obtain ⟨st0, order, hrun⟩ := h.run
  obtain ⟨o, t, ho, hl, hcat, hone, hans⟩ := hrun.one hp (by rw [ht]; decide) (fun _ => hd)
  rw [ht] at hcat
  have hcat : GoDedup.Spec.Cat.pointer = cat (w.obj o) := Option.some.inj hcat
  generalize hobj : w.obj o = y at hcat hone
  cases y with
  | pointer hh t' =>
    cases hone
    have hview : view snake w st x o = .pointer (head snake w st o hh) (typeLink snake w st t) := by unfold view; rw [hobj]
    have hlead := hrun.leads ho hview (by simp) (by simp) (by simp)
    have hmem := hrun.mem ho
    rw [hview] at hmem
    rw [hl]
    refine ⟨⟨_, (Emit.C78_links_partial h.ids h.good h.compiled h.loaded _).1 _ _ hlead, hans⟩, ?_⟩
    refine Emit.C78_size_partial h.ids h.good h.compiled h.loaded _ 8 ?_
    rw [← view_id (x := x), hview]
    exact .pointer hmem
  | _ => cases hcat

/-- C79: a typedef, a qualifier or a variable has the size and the final type of what it leads to. -/
theorem C79_aliases_partial (h : Program units snake w st x db defs addr rt) (q : List GoDedup.Off) (d : Tree) (hp : Placed [] (units.map Prod.snd) q d)
    (ht : d.tag ∈ [go! "Typedef", go! "Variable", go! "ConstType", go! "VolatileType", go! "RestrictType", go! "MutableType", go! "SharedType", go! "PackedType"])
    (hd : d.tag ≠ go! "Variable" → declared d = false) : AliasAt units (fun l => addr (link snake w st l)) rt d (addr (link snake w st d.off)) := by
  obtain ⟨st0, order, hrun⟩ := h.run
  obtain ⟨o, t, ho, hl, hcat, hone, hans⟩ := hrun.one hp (alias_one ht) (fun hx => hd (by intro hv; rw [hv] at hx; exact absurd hx (by decide)))
  have hmem := hrun.mem ho
  have hid := view_id (snake := snake) (w := w) (st := st) (x := x) o
  have hA : Entry.Spec.Alias rt (addr (GoDedup.idOf snake w st.added o)) ((Emit.Spec.target (typeLink snake w st t)).map addr) := by
    rw [← hid]
    have hm := hrun.inMem
    unfold view at hmem ⊢
    generalize hobj : w.obj o = y at hcat hone hmem
    cases y with
    | typedef hh t' => cases hone; exact .typedef (hm.typedef hmem)
    | «variable» hh t' => cases hone; exact .var (hm.variable hmem)
    | qual hh k t' =>
      cases hone
      obtain ⟨k', -, hk, -⟩ := hm.qual hmem
      exact .qual hk
    | pointer hh t' => exact absurd (catOf_mem ht hcat) no_pointer
    | reference hh k t' => exact absurd (catOf_mem ht hcat) (no_reference k)
    | _ => cases hone
  rw [hl]
  refine ⟨_, hans, alias_size hA, ?_, ?_⟩
  · intro he
    rw [he] at hA
    exact Entry.final_entry (.void hA)
  · intro r' hr' f qs hf
    rw [hr'] at hA
    exact ⟨_, Entry.final_entry (.step hA hf)⟩

/-- C79: for a base type, a program is told its size and its encoding, so that it is recognised. -/
theorem C79_base_partial (h : Program units snake w st x db defs addr rt) (q : List GoDedup.Off) (d : Tree) (hp : Placed [] (units.map Prod.snd) q d)
    (ht : d.tag = go! "BaseType") (hd : declared d = false) (r : Entry.Ref) (hr : r = addr (link snake w st d.off)) (size code : Nat)
    (hs : num d (go! "ByteSize") = some (size : Int)) (hc : num d (go! "Encoding") = some (code : Int)) :
    (∃ v, Entry.byteSize rt (some r) true = some (.ok v) ∧ v.toNat = size) ∧
    ∃ n, (rt r).name = some n ∧ NameAt d (some n) ∧ ∀ v : UInt64, v.toNat = size →
      Entry.checkBaseType rt (some r) n (code + 1) v = some (.ok 0) := by
  subst hr
  have hname := (C79_entries_partial h q d hp).2
  obtain ⟨st0, order, hrun⟩ := h.run
  obtain ⟨o, hh, e, ho, hl, hobj, hsize, he⟩ := hrun.base hp ht hd
  have hview : view snake w st x o = .base (head snake w st o hh) hh.byteSize e := by unfold view; rw [hobj]
  have hmem := hrun.mem ho
  rw [hview] at hmem
  rw [hl] at hname ⊢
  have hid : (head snake w st o hh).id = GoDedup.idOf snake w st.added o := rfl
  have hinfo := hrun.inMem.base hmem
  rw [hid, hsize, hs] at hinfo
  have hfit := (h.good.fits _ hmem).2.2
  rw [he, hc] at hfit
  rw [he, hc, encoding_code code hfit] at hinfo
  refine ⟨?_, ?_⟩
  · have hlt := (h.good.fits _ hmem).2.1 size (by rw [hsize, hs])
    rw [← Nat.mod_eq_of_lt (show size < 2 ^ 64 by omega)]
    refine Emit.C78_size_partial h.ids h.good h.compiled h.loaded _ size ?_
    rw [← hid]
    rw [hsize, hs] at hmem
    exact .base hmem
  · have hna : ∀ t, ¬ Entry.Spec.Alias rt (addr (GoDedup.idOf snake w st.added o)) t := by
      intro t ha
      cases ha <;> rename_i ha <;> rw [hinfo] at ha <;> cases ha
    obtain ⟨n, hn⟩ : ∃ n, (rt (addr (GoDedup.idOf snake w st.added o))).name = some n := by
      generalize (rt (addr (GoDedup.idOf snake w st.added o))).name = m at hname
      cases hname with
      | base => exact ⟨_, rfl⟩
      | block g => rw [g] at ht; exact absurd ht (by decide)
      | other g => exact absurd ht g
    refine ⟨n, hn, by rw [← hn]; exact hname, ?_⟩
    intro v hv
    unfold Entry.checkBaseType
    rw [Entry.finalOf_final (.here hna)]
    simp only [Entry.keep, hinfo, Entry.isBase, Option.bind_eq_bind, Option.bind_some, if_true, Entry.checkBase, hn, true_and]
    have : UInt64.ofInt (size : Int) = v := by
      apply UInt64.toNat.inj
      rw [hv]
      refine Emit.u64_toNat ?_
      have := (h.good.fits _ hmem).2.1 size (by rw [hsize, hs])
      omega
    simp [this]

/-- C79: for a function or a function type, a program is told its result and its parameters; for a
function also their names (function types that differ in nothing else are one). -/
theorem C79_functions_partial (h : Program units snake w st x db defs addr rt) (q : List GoDedup.Off) (d : Tree) (hp : Placed [] (units.map Prod.snd) q d)
    (ht : d.tag ∈ [go! "SubroutineType", go! "Subprogram"]) (hd : d.tag = go! "SubroutineType" → declared d = false) (r : Entry.Ref)
    (hr : r = addr (link snake w st d.off)) (ps : List Tree) (hps : ps = d.kids.filter (isTag paramTags)) :
    (∃ e, Entry.resultType rt (some r) = some e ∧ Answer units (fun l => addr (link snake w st l)) rt (ref d (go! "Type")) e) ∧
    Entry.parametersCount rt (some r) = some (ps.length : Int) ∧
    (∀ (j : Nat) k, ps[j]? = some k → ∃ e, Entry.byParameterId rt (some r) j = some (some e) ∧ ParamAt units (fun l => addr (link snake w st l)) rt k e ∧
      (d.tag = go! "Subprogram" → (rt e).name = text k (go! "Name"))) ∧
    (∀ j : Int, j < 0 ∨ j ≥ ps.length → Entry.byParameterId rt (some r) j = some none) ∧
    (d.tag = go! "Subprogram" → ∀ n j, FirstNamed (fun k => text k (go! "Name")) ps n j → Entry.parameterNameToId rt (some r) n = some (j : Int)) := by
  subst hr hps
  obtain ⟨st0, order, hrun⟩ := h.run
  obtain ⟨o, t, ps, ho, hl, hview, hres, hrl, hpl, he⟩ := hrun.func hp ht hd
  have hlead : Emit.Spec.Leads db (GoDedup.idOf snake w st.added o) (view snake w st x o) := by
    rcases hview with ⟨_, _, hv⟩ | ⟨_, hv⟩ <;> exact hrun.leads ho rfl (by simp [hv]) (by simp [hv]) (by simp [hv])
  obtain ⟨c1, c2, c3, c4, c5⟩ := Emit.C78_parameters_partial h.ids h.good h.compiled h.loaded _ _ _ _ hlead hview
  rw [hl]
  have hlen : (d.kids.filter (isTag paramTags)).length = (ps.map (param snake w st)).length := by rw [List.length_map]; exact (each_get he).1
  refine ⟨⟨_, c1, hrun.answer ho hrl (func_at h.input hp ht) hres⟩, by rw [hlen]; exact c2, ?_, by rw [hlen]; exact c4, ?_⟩
  · intro j k hk
    obtain ⟨p, p1, p2⟩ := (each_get he).2 j k hk
    obtain ⟨e, e1, e2, e3⟩ := c3 j (param snake w st p) (by rw [List.getElem?_map, p1]; rfl)
    refine ⟨e, e1, ⟨(Emit.Spec.target (typeLink snake w st p.type)).map addr, ?_, ?_⟩, fun hs => by rw [e2]; exact p2.name hs⟩
    · rw [e3, ← p2.rest]
      show Entry.Info.param (decide (flagOf p.unspecified = some true)) _ = _
      cases p.unspecified <;> rfl
    · intro hk'
      exact hrun.answer ho (fun y hy => hpl _ (List.mem_filterMap.mpr ⟨p, List.mem_of_getElem? p1, hy⟩)) (param_at h.input hp ht (List.mem_of_getElem? hk)) (p2.type hk')
  · intro hs n j hf
    exact c5 n j (first_named (f := param snake w st) (nc := Emit.Param.name) he (fun k p hk => hk.name hs) hf)

/-- C79: for an array, a program is told its dimensions and its elements. -/
theorem C79_arrays_partial (h : Program units snake w st x db defs addr rt) (q : List GoDedup.Off) (d : Tree) (hp : Placed [] (units.map Prod.snd) q d)
    (ht : d.tag = go! "ArrayType") (hd : declared d = false) : ArrayAt units (fun l => addr (link snake w st l)) rt (ref d (go! "Type")) (addr (link snake w st d.off)) d.kids := by
  obtain ⟨st0, order, hrun⟩ := h.run
  obtain ⟨t, o, h1, h2, h3, h4, h5, -⟩ := hrun.defined hp fun _ => hd
  obtain ⟨t', g1, -, -, g2⟩ := hrun.core.obj q d hp
  rw [h1] at g1; cases g1
  obtain ⟨hh, p, -, -, g3⟩ := g2 ht
  rw [h4]
  refine hrun.array (fun y hy => at_link (complete_link (complete h.input hp (by rw [ht]; decide)) (by rw [ht]; decide)) hy) g3 h1 h3 ?_
  rcases h5 with h5 | ⟨h5, -⟩
  · exact .inl h5
  · exact .inr h5

end Verif.Chain
