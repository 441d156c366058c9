import Verif.GoBuild.Objects
import Verif.GoDedup.Props
/-
C66: the reflection database says what the debug information says.  C67: names of base types.
-/
namespace Verif.GoBuild
open GoMeta (Str)
open GoDedup (Go Desc Head Field Param Qual Aggr isTypeTag)
open GoDedup.Spec (tagName cat Start)
open GoDwarf.Spec (Die storedUnits)
open GoDwarf (Has HasAll made newData)
open Spec (Tree isTag Placed Describes Dims Good GoodNames ctype NameOf)

/-! ### From the stored entries to the objects -/

mutual
theorem has_of_below {E : Data} : ∀ (d : Tree) (p : Off), (∀ q k, Die.Below p [d] q k → E k.off = some (made q k)) → Has E p d
  | .node o t b f s ks, p, h => by
    refine ⟨h p _ (.here (List.mem_singleton.mpr rfl)), hasAll_of_below ks o ?_⟩
    intro q k hk
    exact h q k (.there (List.mem_singleton.mpr rfl) hk)
theorem hasAll_of_below {E : Data} : ∀ (ds : List Tree) (p : Off), (∀ q k, Die.Below p ds q k → E k.off = some (made q k)) → HasAll E p ds
  | [], _, _ => trivial
  | d :: ds, p, h => by
    refine ⟨has_of_below d p ?_, hasAll_of_below ds p ?_⟩
    · intro q k hk
      refine h q k ?_
      cases hk with
      | here hk => rw [List.mem_singleton.mp hk]; exact .here (by simp)
      | there hk hk' => rw [List.mem_singleton.mp hk] at hk'; exact .there (List.mem_cons_self ..) hk'
    · intro q k hk
      refine h q k ?_
      cases hk with
      | here hk => exact .here (by simp [hk])
      | there hk hk' => exact .there (List.mem_cons_of_mem _ hk) hk'
end

theorem parts_sub {d k : Tree} (h : k ∈ Spec.parts d) : k ∈ d.kids := by
  unfold Spec.parts at h
  split at h
  · exact (List.mem_filter.mp h).1
  · split at h
    · exact (List.mem_filter.mp h).1
    · split at h
      · exact (List.mem_filter.mp h).1
      · simp at h

theorem placed_below {p : List Off} {ds : List Tree} {q : List Off} {d : Tree} (h : Placed p ds q d) : ∀ (p0 : Off) (ds' : List Tree), (∀ x ∈ ds, x ∈ ds') → ∃ q0, Die.Below p0 ds' q0 d := by
  induction h with
  | here hd => exact fun p0 ds' hs => ⟨p0, .here (hs _ hd)⟩
  | there hk _ ih =>
    intro p0 ds' hs
    obtain ⟨q0, h0⟩ := ih _ _ (fun x hx => parts_sub hx)
    exact ⟨q0, .there (hs _ hk) h0⟩

theorem below_offs {p : Off} {ds : List Tree} {q : Off} {d : Tree} (h : Die.Below p ds q d) : (∀ x ∈ d.offs, x ∈ Die.offsAll ds) ∧ ((Die.offsAll ds).Nodup → d.offs.Nodup) := by
  have sub : ∀ {ds : List Tree} {k : Tree}, k ∈ ds → (∀ x ∈ k.offs, x ∈ Die.offsAll ds) ∧ ((Die.offsAll ds).Nodup → k.offs.Nodup) := by
    intro ds
    induction ds with
    | nil => intro k hk; simp at hk
    | cons j ds ih =>
      intro k hk
      rw [Die.offsAll]
      rcases List.mem_cons.mp hk with rfl | hk
      · exact ⟨fun x hx => by simp [hx], fun h => (GoDwarf.nodup_app h).1⟩
      · exact ⟨fun x hx => by simp [(ih hk).1 x hx], fun h => (ih hk).2 (GoDwarf.nodup_app h).2.1⟩
  induction h with
  | here hd => exact sub hd
  | there hk _ ih =>
    obtain ⟨s1, s2⟩ := sub hk
    refine ⟨fun x hx => s1 x (by rw [offs_eq]; exact List.mem_cons_of_mem _ (ih.1 x hx)), fun h => ih.2 ?_⟩
    have := s2 h
    rw [offs_eq, List.nodup_cons] at this
    exact this.2

theorem typeTag_cat (c : GoDedup.Spec.Cat) : isTypeTag (tagName c) = c.type := by
  cases c with
  | qual q => cases q <;> decide +kernel
  | reference r => cases r <;> decide +kernel
  | aggregate a => cases a <;> decide +kernel
  | _ => decide +kernel

theorem describes_tag {d : Tree} {x : Desc} (h : Describes d x) : d.tag = tagName (cat x) := by
  cases h <;> assumption

/-- Everything about the build of a good forest. -/
structure Built (us : List Tree) (E : Data) (b : B) (l : List Ev) : Prop where
  step : Step E {} l b
  nodup : (l.map Ev.off).Nodup
  events : l = unitsEvs us

theorem build_good (units : List (Nat × Tree)) (hsound : ∀ u ∈ units, u.2.Sound) (hdist : (0 :: Die.offsAll (units.map Prod.snd)).Nodup) (hgood : Good (units.map Prod.snd)) :
    ∃ E b, newData (storedUnits units) = Go.ret E ∧ build E = Go.ret b ∧ Built (units.map Prod.snd) E b (unitsEvs (units.map Prod.snd)) := by
  obtain ⟨E, e1, e2, e3, e4⟩ := GoDwarf.C65_tree units hsound hdist
  have hnd : (Die.offsAll (units.map Prod.snd)).Nodup := (List.nodup_cons.mp hdist).2
  have hh : HasAll E 0 (units.map Prod.snd) := hasAll_of_below _ _ e2
  obtain ⟨b, h1, h2⟩ := units_run (data := E) (ty := Spec.TypeAt (units.map Prod.snd)) (by
    rintro t ⟨q, d, c, g1, rfl, g3, g4⟩
    obtain ⟨q0, g⟩ := placed_below g1 0 _ (fun x hx => hx)
    refine ⟨_, e2 q0 d g, ?_⟩
    show isTypeTag d.tag = true
    rw [g3, typeTag_cat, g4]) (units.map Prod.snd) {} hh hnd hgood (fun x _ t ht => by cases ht) (fun u _ => rfl)
  refine ⟨E, b, e1, ?_, h2, unitsEvs_nodup _ hnd, rfl⟩
  unfold build
  rw [e3]
  have : (units.map fun u => u.2.off) = (units.map Prod.snd).map Die.off := by rw [List.map_map]; rfl
  simp only [this]
  exact h1

section
variable {us : List Tree} {E : Data} {b : B} {l : List Ev}

theorem Built.holds (h : Built us E b l) : Holds l 0 b := by
  have := put_holds l {} h.nodup
  have c := h.step.core
  refine ⟨?_, ?_, ?_⟩
  · intro i e he; rw [c.ptr]; exact this.ptr i e he
  · intro i e he; rw [c.obj]; exact this.obj i e he
  · intro i e he; rw [c.parents]; exact this.parents i e he

theorem Built.mem (h : Built us E b l) {e : Ev} (he : e ∈ l) : ∃ n, l[n]? = some e ∧ b.ptr e.off = some n ∧ b.obj n = e.desc ∧ b.parents n = e.parents := by
  obtain ⟨i, hi⟩ := List.mem_iff_getElem?.mp he
  have := h.holds
  exact ⟨i, hi, by simpa using this.ptr i e hi, by simpa using this.obj i e hi, by simpa using this.parents i e hi⟩

theorem Built.ptr (h : Built us E b l) {o n : Nat} (ho : b.ptr o = some n) : ∃ e, l[n]? = some e ∧ e.off = o := by
  by_cases hm : o ∈ l.map Ev.off
  · obtain ⟨e, he, rfl⟩ := List.mem_map.mp hm
    obtain ⟨m, h1, h2, _⟩ := h.mem he
    rw [ho] at h2
    cases h2
    exact ⟨e, h1, rfl⟩
  · rw [h.step.core.ptr, put_ptr l _ o hm] at ho
    cases ho

theorem Built.added (h : Built us E b l) : b.added.Nodup ∧ ∀ n, n ∈ b.added ↔ ∃ e, l[n]? = some e ∧ e.obj = true := by
  obtain ⟨h1, h2⟩ := put_added l {} (by simp) (by simp)
  rw [h.step.core.added]
  refine ⟨h1, fun n => (h2 n).trans ?_⟩
  constructor
  · rintro (h | ⟨i, e, h1, h2, rfl⟩)
    · simp at h
    · exact ⟨e, by simpa using h1, h2⟩
  · rintro ⟨e, h1, h2⟩
    exact .inr ⟨n, e, h1, h2, by simp⟩
end

theorem unit_describes {u : Tree} (h : Spec.UnitOk u) : Describes u (.compileUnit ((Spec.text u (go! "Name")).getD []) (u.kids.map Die.off)) := by
  cases hn : Spec.text u (go! "Name") with
  | none => exact absurd hn h.name
  | some n =>
    rw [← parts_unit h]
    exact .compileUnit h.tag hn

/-- The units themselves, or below them. -/
theorem placed_top {us : List Tree} {q : List Off} {d : Tree} (h : Placed [] us q d) : (q = [] ∧ d ∈ us) ∨ ∃ u ∈ us, Placed [u.off] (Spec.parts u) q d := by
  cases h with
  | here h => exact .inl ⟨rfl, h⟩
  | there h h' => exact .inr ⟨_, h, h'⟩

/-- Entries below units: their objects are among those made. -/
theorem placed_events {us : List Tree} (hgood : Good us) {u : Tree} (hu : u ∈ us) {q : List Off} {d : Tree} (h : Placed [u.off] (Spec.parts u) q d) :
    ∃ p, q = [p] ∧ ∀ e ∈ own p d, e ∈ unitsEvs us := by
  refine placed_own h u.off rfl (fun q k hk => notUnit ((hgood u hu).2 q k hk)) ?_
  intro k hk e he
  refine unitsEvs_mem.mpr ⟨u, hu, ?_⟩
  rw [parts_unit (hgood u hu).1] at hk
  rw [unitEvs, List.mem_append]
  exact .inl (mem_evsOf.mpr ⟨k, hk, rfl, he⟩)

/-- Every object belongs to an entry. -/
theorem event_placed {us : List Tree} (hgood : Good us) {e : Ev} (he : e ∈ unitsEvs us) :
    (∃ u ∈ us, e = ⟨u.off, .compileUnit ((Spec.text u (go! "Name")).getD []) (u.kids.map Die.off), [], true⟩) ∨
      ∃ u ∈ us, ∃ p d, Placed [u.off] (Spec.parts u) [p] d ∧ e ∈ own p d := by
  obtain ⟨u, hu, he⟩ := unitsEvs_mem.mp he
  rw [unitEvs, List.mem_append] at he
  rcases he with he | he
  · obtain ⟨k, hk, _, hek⟩ := mem_evsOf.mp he
    obtain ⟨p, d, hd, hed⟩ := evs_placed u.off k e hek
    refine .inr ⟨u, hu, p, d, Placed.sub hd ?_, hed⟩
    rw [parts_unit (hgood u hu).1]
    simpa using hk
  · exact .inl ⟨u, hu, List.mem_singleton.mp he⟩

theorem own_array {p : Off} {d : Tree} (h : d.tag = go! "ArrayType") : own p d = arrayEvs p d := by
  have hk : kinds.lookup d.tag = some .array := by rw [h]; rfl
  simp only [own, hk]

theorem array_complete {ty : Off → Prop} {d : Tree} (hc : Spec.Complete ty d) (h : d.tag = go! "ArrayType") : ∀ k ∈ d.kids, k.tag = go! "SubrangeType" ∧ Spec.InRange k := by
  cases hc with
  | array _ _ h3 => exact h3
  | link h1 h2 | func h1 h2 | struct h1 h2 => exfalso; rw [← h2, h] at h1; revert h1; decide
  | base h1 | enumeration h1 | typedef h1 | unspecified h1 | block h1 | scope h1 => exfalso; rw [h] at h1; revert h1; decide

theorem unit_names {u : Tree} (h : GoodNames u) (hn : Spec.text u (go! "Name") ≠ none) (hs : List Off) : GoDedup.Spec.Names (.compileUnit ((Spec.text u (go! "Name")).getD []) hs) := by
  refine ⟨?_, fun _ => rfl, ?_, ?_, ?_⟩
  · intro n hn'
    cases ht : Spec.text u (go! "Name") with
    | none => exact absurd ht hn
    | some m =>
      rw [ht] at hn'
      cases hn'
      exact h.name _ ht
  · intro _ _ _ _ h; cases h
  · intro _ _ h; cases h
  · intro _ _ h; cases h

/-- The entry of an object. -/
theorem object_entry {us : List Tree} {E : Data} {b : B} (hb : Built us E b (unitsEvs us)) (hnd : (Die.offsAll us).Nodup) (hgood : Good us) (n : Nat) (e : Ev)
    (he : (unitsEvs us)[n]? = some e) : ∃ q d, Placed [] us q d ∧
      ((e.off = d.off ∧ Describes d e.desc ∧ e.obj = !(cat e.desc).type ∧ (GoodNames d → GoDedup.Spec.Names e.desc)) ∨
        (d.tag = go! "ArrayType" ∧ e.off ∈ (d.kids.map Die.off).tail ∧ e.obj = false ∧ cat e.desc = .array ∧ (GoodNames d → GoDedup.Spec.Names e.desc))) := by
  rcases event_placed hgood (List.mem_of_getElem? he) with ⟨u, hu, rfl⟩ | ⟨u, hu, p, d, hp, hed⟩
  · exact ⟨[], u, .here hu, .inl ⟨rfl, unit_describes (hgood u hu).1, rfl, fun h => unit_names h (hgood u hu).1.name _⟩⟩
  · have hp0 : Placed [] us [p] d := .there hu hp
    have hc := (hgood u hu).2 _ d hp
    refine ⟨[p], d, hp0, ?_⟩
    by_cases ha : d.tag = go! "ArrayType"
    · rw [own_array ha] at hed
      obtain ⟨q0, hbe⟩ := placed_below hp0 0 _ (fun x hx => hx)
      obtain ⟨h, s, a, g1, g2, g3, g4, g5⟩ := array_own (p := p) (array_complete hc ha) ((below_offs hbe).2 hnd)
      obtain ⟨k1, k2, k3, k4, k5⟩ := g4 e hed
      have hN : GoodNames d → GoDedup.Spec.Names e.desc := by
        intro hg
        refine ⟨?_, ?_, ?_, ?_, ?_⟩
        · intro m hm
          rw [k3] at hm
          split at hm
          · exact hg.name m hm
          · cases hm
        · intro hm
          rw [k3] at hm
          rw [k4]
          split
          · rename_i hx; rw [if_pos hx] at hm; exact hg.decl hm
          · rfl
        · intro _ _ _ _ hx; rw [hx] at k2; cases k2
        · intro _ _ hx; rw [hx] at k2; cases k2
        · intro _ _ hx; rw [hx] at k2; cases k2
      rcases k5 with k5 | k5
      · refine .inl ⟨k5, ?_, by rw [k1, k2]; rfl, hN⟩
        obtain ⟨m, m1, m2, m3, m4⟩ := hb.mem (by
          obtain ⟨p', hpp, hown⟩ := placed_events hgood hu hp
          cases hpp
          exact hown _ (by rw [own_array ha]; exact g3))
        have : b.ptr e.off = some n := by simpa using hb.holds.ptr n e he
        rw [k5] at this
        simp only at m2
        rw [this] at m2
        cases m2
        rw [he] at m1
        cases m1
        exact .array ha g1 g2
      · exact .inr ⟨ha, k5, k1, k2, hN⟩
    · obtain ⟨x, ob, g1, g2, g3, g4⟩ := own_plain (p := p) hc ha
      rw [g1] at hed
      rw [List.mem_singleton.mp hed]
      exact .inl ⟨rfl, g2, g3, g4⟩

theorem obj_tags (c : GoDedup.Spec.Cat) : c.type = false ↔ tagName c ∈ [go! "Variable", go! "Subprogram", go! "LexDwarfBlock", go! "Namespace", go! "CompileUnit"] := by
  cases c with
  | qual q => cases q <;> decide
  | reference r => cases r <;> decide
  | aggregate a => cases a <;> decide
  | _ => decide

/-- C66: for debug information that is complete, reading it and building the database succeeds;
each entry that has a meaning of its own becomes an object that says what the entry says, a part of
the object of the entry it is a part of; an array becomes one array type for each of its dimensions;
there are no other objects; and variables, functions, blocks, namespaces and units, each once, and
nothing else, are in the database before types are added. -/
theorem C66_objects (units : List (Nat × Tree)) (hsound : ∀ u ∈ units, u.2.Sound) (hdist : (0 :: Die.offsAll (units.map Prod.snd)).Nodup) (hgood : Good (units.map Prod.snd)) :
    ∃ E b, newData (storedUnits units) = Go.ret E ∧ build E = Go.ret b ∧
      (∀ q d, Placed [] (units.map Prod.snd) q d → ∃ n, b.ptr d.off = some n ∧ Describes d (b.obj n) ∧ b.parents n = q ∧
        (d.tag = go! "ArrayType" → ∃ h p, Spec.TypeHead d h ∧ q = [p] ∧
          Dims b.ptr b.obj b.parents (Spec.ref d (go! "Type")) h (Spec.num d (go! "StrideSize")) d.off p d.kids)) ∧
      (∀ o n, b.ptr o = some n → ∃ q d, Placed [] (units.map Prod.snd) q d ∧ (o = d.off ∨ d.tag = go! "ArrayType" ∧ o ∈ (d.kids.map Die.off).tail)) ∧
      (∀ o o' n, b.ptr o = some n → b.ptr o' = some n → o = o') ∧
      b.added.Nodup ∧
      ∀ n, n ∈ b.added ↔ ∃ q d, Placed [] (units.map Prod.snd) q d ∧ b.ptr d.off = some n ∧
        d.tag ∈ [go! "Variable", go! "Subprogram", go! "LexDwarfBlock", go! "Namespace", go! "CompileUnit"] := by
  obtain ⟨E, b, e1, e2, hb⟩ := build_good units hsound hdist hgood
  have hnd : (Die.offsAll (units.map Prod.snd)).Nodup := (List.nodup_cons.mp hdist).2
  have part1 : ∀ q d, Placed [] (units.map Prod.snd) q d → ∃ n, b.ptr d.off = some n ∧ Describes d (b.obj n) ∧ b.parents n = q ∧
        (d.tag = go! "ArrayType" → ∃ h p, Spec.TypeHead d h ∧ q = [p] ∧
          Dims b.ptr b.obj b.parents (Spec.ref d (go! "Type")) h (Spec.num d (go! "StrideSize")) d.off p d.kids) := by
    intro q d hp
    rcases placed_top hp with ⟨rfl, hu⟩ | ⟨u, hu, hp'⟩
    · obtain ⟨n, -, h1, h2, h3⟩ := hb.mem (e := ⟨d.off, .compileUnit ((Spec.text d (go! "Name")).getD []) (d.kids.map Die.off), [], true⟩)
        (unitsEvs_mem.mpr ⟨d, hu, by simp [unitEvs]⟩)
      refine ⟨n, h1, ?_, h3, ?_⟩
      · rw [h2]; exact unit_describes (hgood d hu).1
      · intro ht; exfalso; rw [(hgood d hu).1.tag] at ht; revert ht; decide
    · have hc := (hgood u hu).2 q d hp'
      obtain ⟨p, rfl, hown⟩ := placed_events hgood hu hp'
      by_cases ha : d.tag = go! "ArrayType"
      · rw [own_array ha] at hown
        obtain ⟨q0, hbe⟩ := placed_below hp 0 _ (fun x hx => hx)
        obtain ⟨h, s, a, g1, g2, g3, g4, g5⟩ := array_own (p := p) (array_complete hc ha) ((below_offs hbe).2 hnd)
        obtain ⟨n, -, h1, h2, h3⟩ := hb.mem (hown _ g3)
        refine ⟨n, h1, ?_, h3, fun _ => ⟨h, p, g1, rfl, ?_⟩⟩
        · rw [h2]; exact .array ha g1 g2
        · rw [← g2]
          refine g5 _ _ _ ?_
          intro e he
          obtain ⟨m, -, k1, k2, k3⟩ := hb.mem (hown e he)
          exact ⟨m, k1, k2, k3⟩
      · obtain ⟨x, ob, g1, g2, -, -⟩ := own_plain (p := p) hc ha
        obtain ⟨n, -, h1, h2, h3⟩ := hb.mem (hown ⟨d.off, x, [p], ob⟩ (by rw [g1]; simp))
        exact ⟨n, h1, by rw [h2]; exact g2, h3, fun h => absurd h ha⟩
  have inj : ∀ o o' n, b.ptr o = some n → b.ptr o' = some n → o = o' := by
    intro o o' n h1 h2
    obtain ⟨e, k1, k2⟩ := hb.ptr h1
    obtain ⟨e', k1', k2'⟩ := hb.ptr h2
    rw [k1] at k1'
    cases k1'
    rw [← k2, ← k2']
  have back := fun n e h => object_entry hb hnd hgood n e h
  obtain ⟨a1, a2⟩ := hb.added
  refine ⟨E, b, e1, e2, part1, ?_, inj, a1, ?_⟩
  · intro o n ho
    obtain ⟨e, k1, k2⟩ := hb.ptr ho
    obtain ⟨q, d, g1, g2⟩ := back n e k1
    refine ⟨q, d, g1, ?_⟩
    rcases g2 with ⟨g, -⟩ | ⟨g2, g3, -⟩
    · exact .inl (by rw [← k2, g])
    · exact .inr ⟨g2, by rw [← k2]; exact g3⟩
  · intro n
    rw [a2 n]
    constructor
    · rintro ⟨e, h1, h2⟩
      obtain ⟨q, d, g1, g2⟩ := back n e h1
      rcases g2 with ⟨g2, g3, g4, -⟩ | ⟨-, -, g4, -⟩
      · refine ⟨q, d, g1, ?_, ?_⟩
        · rw [← g2]; simpa using hb.holds.ptr n e h1
        · rw [describes_tag g3]
          apply (obj_tags _).mp
          rw [h2] at g4
          simpa using g4.symm
      · rw [h2] at g4; cases g4
    · rintro ⟨q, d, g1, g2, g3⟩
      obtain ⟨m, k1, k2, k3, -⟩ := part1 q d g1
      rw [g2] at k1
      cases k1
      obtain ⟨e, h1, h2⟩ := hb.ptr g2
      refine ⟨e, h1, ?_⟩
      have ho : b.obj n = e.desc := by simpa using hb.holds.obj n e h1
      rw [ho] at k2
      obtain ⟨q', d', g1', g2'⟩ := back n e h1
      have ht : (cat e.desc).type = false := (obj_tags _).mpr (by rw [← describes_tag k2]; exact g3)
      rcases g2' with ⟨-, -, g4, -⟩ | ⟨-, -, -, g6, -⟩
      · rw [g4, ht]; rfl
      · -- an inner dimension is no object of its own
        rw [g6] at ht
        cases ht

theorem own_base {ty : Off → Prop} {p : Off} {d : Tree} (hc : Spec.Complete ty d) (ht : d.tag = go! "BaseType") :
    ∃ x ob n nm, own p d = [⟨d.off, x, [p], ob⟩] ∧ Spec.text d (go! "Name") = some n ∧ baseName n (Spec.num d (go! "ByteSize")) = Go.ret nm ∧ GoDedup.Spec.name x = some nm := by
  cases hc with
  | base htag hn hcx hb1 hb2 hb3 henc =>
    have hk : kinds.lookup d.tag = some .base := by rw [htag]; rfl
    obtain ⟨nm, hnm, hname⟩ := baseName_ok hcx
    have hb : baseDesc (made p d) = Go.ret (.base { head (made p d) with name := some nm } ((intOf (made p d) (go! "Encoding")).elim [] encodingString)) := by
      unfold baseDesc
      simp only [strOf_made, intOf_made, hn, hb1, hb2, hb3]
      exact Go.bind_ret.mpr ⟨_, hnm, rfl⟩
    have hown : own p d = [⟨d.off, .base { head (made p d) with name := some nm } ((intOf (made p d) (go! "Encoding")).elim [] encodingString), [p], false⟩] := by
      simp only [own, hk, hb, Go.ret]
    exact ⟨_, false, _, nm, hown, hn, hnm, rfl⟩
  | enumeration h1 | unspecified h1 | block h1 | scope h1 | typedef h1 | array h1 => rw [h1] at ht; exact absurd ht (by decide)
  | struct h1 h2 | func h1 h2 | link h1 h2 => rw [h2] at ht; rw [ht] at h1; exact absurd h1 (by decide)

/-- C66: base types of one name and one size get one name. -/
theorem C66_names (units : List (Nat × Tree)) (hsound : ∀ u ∈ units, u.2.Sound) (hdist : (0 :: Die.offsAll (units.map Prod.snd)).Nodup) (hgood : Good (units.map Prod.snd)) :
    ∃ E b, newData (storedUnits units) = Go.ret E ∧ build E = Go.ret b ∧
      ∀ q d q' d' n n', Placed [] (units.map Prod.snd) q d → Placed [] (units.map Prod.snd) q' d' → d.tag = go! "BaseType" → d'.tag = go! "BaseType" →
        Spec.text d (go! "Name") = Spec.text d' (go! "Name") → Spec.num d (go! "ByteSize") = Spec.num d' (go! "ByteSize") →
        b.ptr d.off = some n → b.ptr d'.off = some n' → GoDedup.Spec.name (b.obj n) = GoDedup.Spec.name (b.obj n') := by
  obtain ⟨E, b, e1, e2, hb⟩ := build_good units hsound hdist hgood
  refine ⟨E, b, e1, e2, ?_⟩
  have one : ∀ q d n, Placed [] (units.map Prod.snd) q d → d.tag = go! "BaseType" → b.ptr d.off = some n →
      ∃ m nm, Spec.text d (go! "Name") = some m ∧ baseName m (Spec.num d (go! "ByteSize")) = Go.ret nm ∧ GoDedup.Spec.name (b.obj n) = some nm := by
    intro q d n hp ht hn
    rcases placed_top hp with ⟨rfl, hu⟩ | ⟨u, hu, hp'⟩
    · rw [(hgood d hu).1.tag] at ht
      exact absurd ht (by decide)
    · obtain ⟨p, rfl, hown⟩ := placed_events hgood hu hp'
      obtain ⟨x, ob, m, nm, g1, g2, g3, g4⟩ := own_base (p := p) ((hgood u hu).2 _ d hp') ht
      obtain ⟨n', -, h1, h2, h3⟩ := hb.mem (hown ⟨d.off, x, [p], ob⟩ (by rw [g1]; simp))
      simp only at h1 h2
      rw [hn] at h1
      cases h1
      exact ⟨m, nm, g2, g3, by rw [h2, g4]⟩
  intro q d q' d' n n' hp hp' ht ht' hname hsize hn hn'
  obtain ⟨m, nm, g1, g2, g3⟩ := one q d n hp ht hn
  obtain ⟨m', nm', g1', g2', g3'⟩ := one q' d' n' hp' ht' hn'
  rw [hname, g1'] at g1
  cases g1
  rw [hsize, g2'] at g2
  rw [g3, g3', Go.ret_inj.mp g2]

/-- C66: what is built from complete debug information with names as compilers write them is what
the merging of types requires, so that C61 to C64 hold of the whole. -/
theorem C66_start (units : List (Nat × Tree)) (hsound : ∀ u ∈ units, u.2.Sound) (hdist : (0 :: Die.offsAll (units.map Prod.snd)).Nodup) (hgood : Good (units.map Prod.snd))
    (hnames : ∀ q d, Placed [] (units.map Prod.snd) q d → GoodNames d) :
    ∃ E b, newData (storedUnits units) = Go.ret E ∧ build E = Go.ret b ∧ Start (world E b) (start b) := by
  obtain ⟨E, b, e1, e2, hb⟩ := build_good units hsound hdist hgood
  have hnd : (Die.offsAll (units.map Prod.snd)).Nodup := (List.nodup_cons.mp hdist).2
  have back := fun n e h => object_entry hb hnd hgood n e h
  have hobj : ∀ {n e}, (unitsEvs (units.map Prod.snd))[n]? = some e → b.obj n = e.desc := by
    intro n e he; simpa using hb.holds.obj n e he
  obtain ⟨a1, a2⟩ := hb.added
  refine ⟨E, b, e1, e2, ?_, ?_, ?_, ?_, ?_, a1, fun _ => rfl, rfl, rfl⟩
  · intro n
    show GoDedup.Spec.Names (b.obj n)
    cases he : (unitsEvs (units.map Prod.snd))[n]? with
    | none =>
      rw [hb.step.core.obj, (put_obj _ _ n (.inr (by simpa using List.getElem?_eq_none_iff.mp he))).1]
      exact names_block []
    | some e =>
      rw [hobj he]
      obtain ⟨q, d, g1, g2⟩ := back n e he
      rcases g2 with ⟨-, -, -, g⟩ | ⟨-, -, -, -, g⟩ <;> exact g (hnames q d g1)
  · intro i j o hi hj
    obtain ⟨e, k1, k2⟩ := hb.ptr hi
    obtain ⟨e', k1', k2'⟩ := hb.ptr hj
    rw [k1] at k1'
    cases k1'
    rw [← k2, ← k2']
  · intro i o hi
    obtain ⟨e, k1, k2⟩ := hb.ptr hi
    show (b.tag i).getD [] = tagName (cat (b.obj o))
    rw [← k2, hb.step.tags e (List.mem_of_getElem? k1), hobj k1]
    rfl
  · intro i o hi
    obtain ⟨e, k1, k2⟩ := hb.ptr hi
    show o ∈ b.added ↔ (cat (b.obj o)).type = false
    rw [a2, hobj k1]
    have : e.obj = !(cat e.desc).type := by
      obtain ⟨q, d, g1, g2⟩ := back o e k1
      rcases g2 with ⟨-, -, g, -⟩ | ⟨-, -, g, g', -⟩
      · exact g
      · rw [g, g']; rfl
    constructor
    · rintro ⟨e', h1, h2⟩
      rw [k1] at h1
      cases h1
      rw [this] at h2
      simpa using h2
    · intro h
      exact ⟨e, k1, by rw [this, h]; rfl⟩
  · intro o ho
    obtain ⟨e, h1, h2⟩ := (a2 o).mp ho
    exact ⟨e.off, by show b.ptr e.off = some o; simpa using hb.holds.ptr o e h1⟩


/-! ### What goes wrong -/

section
open Lean.Order

/-- An entry with attributes and children. -/
def die (o : Off) (t : Str) (as : List (Str × Val)) (ks : List Tree) : Tree := .node o t ⟨as⟩ (!ks.isEmpty) none ks

/-- The index entry of `i` was made. -/
def noted (data : Data) (i : Off) (b : B) : B :=
  match data i with
  | none => b
  | some e => if (b.tag i).isSome then b else { b with tag := GoDedup.set b.tag i (some e.tag) }

theorem noted_ptr (data : Data) (i : Off) (b : B) : (noted data i b).ptr = b.ptr := by
  unfold noted; repeat (first | rfl | split)
theorem noted_obj (data : Data) (i : Off) (b : B) : (noted data i b).obj = b.obj := by
  unfold noted; repeat (first | rfl | split)
theorem noted_parents (data : Data) (i : Off) (b : B) : (noted data i b).parents = b.parents := by
  unfold noted; repeat (first | rfl | split)
theorem noted_next (data : Data) (i : Off) (b : B) : (noted data i b).next = b.next := by
  unfold noted; repeat (first | rfl | split)
theorem noted_added (data : Data) (i : Off) (b : B) : (noted data i b).added = b.added := by
  unfold noted; repeat (first | rfl | split)

theorem noted_tag {data : Data} {i : Off} {b : B} {e : DEntry} (h : data i = some e) (hb : ∀ t, b.tag i = some t → t = e.tag) : ((noted data i b).tag i).getD [] = e.tag := by
  simp only [noted, h]
  split
  · rename_i hs
    obtain ⟨t, ht⟩ := Option.isSome_iff_exists.mp hs
    rw [ht, hb t ht]; rfl
  · simp [GoDedup.set]

theorem getIndex_noted {data : Data} {i : Off} {b : B} {e : DEntry} (h : data i = some e) : getIndex data i b = Go.ret (e, noted data i b) := by
  simp only [getIndex, noted, h]

/-- Tags in the index are those of the entries. -/
def TagsOk (data : Data) (b : B) : Prop := ∀ x t e, b.tag x = some t → data x = some e → t = e.tag

theorem TagsOk.noted {data : Data} {b : B} (h : TagsOk data b) (i : Off) : TagsOk data (noted data i b) := by
  unfold GoBuild.noted
  intro x t e ht he
  cases hi : data i with
  | none => rw [hi] at ht; exact h x t e ht he
  | some e' =>
    rw [hi] at ht
    simp only at ht
    split at ht
    · exact h x t e ht he
    · simp only [GoDedup.set] at ht
      split at ht
      · rename_i hx; subst hx; cases ht; rw [hi] at he; cases he; rfl
      · exact h x t e ht he

theorem pure_eq {α : Type} (a : α) : (pure a : Go α) = Go.ret a := rfl
theorem ret_bind {α β : Type} (a : α) (f : α → Go β) : (Go.ret a >>= f) = f a := rfl

theorem pe_variable {data : Data} {parent i : Off} {b : B} {e : DEntry} (h : data i = some e) (ht : e.tag = go! "Variable") (hl : offOf e (go! "Type") = none) (hb : TagsOk data b) :
    processEntry data parent i b = Go.ret (true, finishObj i (.variable (objHead e) none) [parent] (noted data i b)) := by
  rw [processEntry]
  refine Go.bind_ret.mpr ⟨_, getIndex_noted h, ?_⟩
  simp only
  rw [noted_tag h (fun t h' => hb i t e h' h), ht]
  have : kinds.lookup (go! "Variable") = some .variable := rfl
  simp only [this]
  refine Go.bind_ret.mpr ⟨(none, noted data i b), by simp only [typeLink, hl], rfl⟩

theorem pe_namespace {data : Data} {parent i : Off} {b : B} {e : DEntry} (h : data i = some e) (ht : e.tag = go! "Namespace") (hb : TagsOk data b) :
    processEntry data parent i b = (scopeKids (processEntry data i) data e.children (noted data i b) >>= fun r =>
      Go.ret (true, finishObj i (.namespace_ (objHead e) r.1) [parent] r.2)) := by
  have hk : kinds.lookup (((noted data i b).tag i).getD []) = some .namespace_ := by rw [noted_tag h (fun t h' => hb i t e h' h), ht]; rfl
  rw [processEntry, getIndex_noted h]
  simp only [ret_bind, hk]
  rfl

/-- A namespace in a namespace, with a using directive that names the outer one. -/
def caseCycle : List (Nat × Tree) :=
  [(0, die 11 (go! "CompileUnit") [(go! "Name", .str (go! "a.cc"))]
    [die 20 (go! "Namespace") [(go! "Name", .str (go! "A"))]
      [die 30 (go! "Namespace") [(go! "Name", .str (go! "B"))]
        [die 40 (go! "ImportedModule") [(go! "Import", .off 20)] []]]])]

/-- C66 does not extend to debug information with imports: where a namespace within a namespace imports the outer one, the build does not end. -/
theorem C66_imports_hang : (∀ u ∈ caseCycle, u.2.Sound) ∧ (0 :: Die.offsAll (caseCycle.map Prod.snd)).Nodup ∧
    ∃ E, newData (storedUnits caseCycle) = Go.ret E ∧ build E = .hang := by
  have hs : ∀ u ∈ caseCycle, u.2.Sound := by simp [caseCycle, die, Die.Sound, Die.SoundAll, Die.tag]
  have hn : (0 :: Die.offsAll (caseCycle.map Prod.snd)).Nodup := by decide +kernel
  refine ⟨hs, hn, ?_⟩
  obtain ⟨E, e1, e2, e3, -⟩ := GoDwarf.C65_tree caseCycle hs hn
  refine ⟨E, e1, ?_⟩
  obtain ⟨eU, hU, tU, cU, nU⟩ : ∃ e, E 11 = some e ∧ e.tag = go! "CompileUnit" ∧ e.children = [20] ∧ strOf e (go! "Name") = some (go! "a.cc") :=
    ⟨_, e2 0 _ (.here (List.mem_singleton.mpr rfl)), rfl, rfl, rfl⟩
  obtain ⟨eA, hA, tA, cA⟩ : ∃ e, E 20 = some e ∧ e.tag = go! "Namespace" ∧ e.children = [30] :=
    ⟨_, e2 11 _ (.there (List.mem_singleton.mpr rfl) (.here (List.mem_singleton.mpr rfl))), rfl, rfl⟩
  obtain ⟨eB, hB, tB, cB⟩ : ∃ e, E 30 = some e ∧ e.tag = go! "Namespace" ∧ e.children = [40] :=
    ⟨_, e2 20 _ (.there (List.mem_singleton.mpr rfl) (.there (List.mem_singleton.mpr rfl) (.here (List.mem_singleton.mpr rfl)))), rfl, rfl⟩
  obtain ⟨eC, hC, tC, cC⟩ : ∃ e, E 40 = some e ∧ e.tag = go! "ImportedModule" ∧ offOf e (go! "Import") = some 20 :=
    ⟨_, e2 30 _ (.there (List.mem_singleton.mpr rfl) (.there (List.mem_singleton.mpr rfl) (.there (List.mem_singleton.mpr rfl) (.here (List.mem_singleton.mpr rfl))))), rfl, rfl⟩
  have plain : ∀ (rec : Off → B → Go (Bool × B)) (o : Off) (b : B) (e : DEntry), E o = some e → e.tag = go! "Namespace" → rec o b = .hang → scopeKids rec E [o] b = .hang := by
    intro rec o b e h1 h2 h3
    simp only [scopeKids, h1]
    rw [h2, if_neg (by decide), h3]
    rfl
  have key := processEntry.fixpoint_induct E (motive := fun g => ∀ p i b, i = 20 ∨ i = 30 → TagsOk E b → g p i b = .hang)
    (by
      apply admissible_pi_apply (P := fun p (g : Off → B → Go (Bool × B)) => ∀ i b, i = 20 ∨ i = 30 → TagsOk E b → g i b = .hang)
      intro p
      apply admissible_pi_apply (P := fun i (g : B → Go (Bool × B)) => ∀ b, i = 20 ∨ i = 30 → TagsOk E b → g b = .hang)
      intro i
      apply admissible_pi_apply (P := fun b (g : Go (Bool × B)) => i = 20 ∨ i = 30 → TagsOk E b → g = .hang)
      intro b
      exact Outcome.admissible_of_hang _ (fun _ _ => rfl))
    (by
      intro g hg p i b hi hb
      rcases hi with rfl | rfl
      · have hk : kinds.lookup (((noted E 20 b).tag 20).getD []) = some .namespace_ := by rw [noted_tag hA (fun t h' => hb 20 t _ h' hA), tA]; rfl
        simp only [getIndex_noted hA, ret_bind, hk, cA]
        rw [plain _ 30 _ eB hB tB (hg 20 30 _ (.inr rfl) (hb.noted 20))]
        rfl
      · have hk : kinds.lookup (((noted E 30 b).tag 30).getD []) = some .namespace_ := by rw [noted_tag hB (fun t h' => hb 30 t _ h' hB), tB]; rfl
        simp only [getIndex_noted hB, ret_bind, hk, cB]
        have : scopeKids (g 30) E [40] (noted E 30 b) = .hang := by
          simp only [scopeKids, hC]
          rw [tC, if_pos (by decide)]
          simp only [cC]
          rw [hg 30 20 _ (.inl rfl) (hb.noted 30)]
          rfl
        rw [this]
        rfl)
  unfold build
  rw [e3]
  show buildUnits E [11] {} = _
  rw [buildUnits, if_neg (by simp), getIndex_noted hU, ret_bind]
  simp only [processCompileUnit, nU, cU]
  rw [if_pos tU, plain _ 20 _ eA hA tA (key 11 20 _ (.inl rfl) (TagsOk.noted (fun x t e h => by cases h) 11))]
  rfl

/-- A variable in a namespace, and a using declaration for it. -/
def caseTwice : List (Nat × Tree) :=
  [(0, die 11 (go! "CompileUnit") [(go! "Name", .str (go! "a.cc"))]
    [die 20 (go! "Namespace") [(go! "Name", .str (go! "A"))]
      [die 30 (go! "Variable") [(go! "Name", .str (go! "x"))] []],
     die 40 (go! "ImportedDeclaration") [(go! "Import", .off 30)] []])]

/-- C66 does not extend to debug information with imports: a variable that is imported is in the
database twice, as a part of its namespace and as a part of the unit, and the index has the second. -/
theorem C66_imports_false : (∀ u ∈ caseTwice, u.2.Sound) ∧ (0 :: Die.offsAll (caseTwice.map Prod.snd)).Nodup ∧
    ∃ E b n m d, newData (storedUnits caseTwice) = Go.ret E ∧ build E = Go.ret b ∧ Placed [] (caseTwice.map Prod.snd) [20] d ∧ d.tag = go! "Variable" ∧
      n ≠ m ∧ n ∈ b.added ∧ m ∈ b.added ∧ Describes d (b.obj n) ∧ Describes d (b.obj m) ∧ b.parents n = [20] ∧ b.parents m = [11] ∧ b.ptr d.off = some m := by
  have hs : ∀ u ∈ caseTwice, u.2.Sound := by simp [caseTwice, die, Die.Sound, Die.SoundAll, Die.tag]
  have hn : (0 :: Die.offsAll (caseTwice.map Prod.snd)).Nodup := by decide +kernel
  refine ⟨hs, hn, ?_⟩
  obtain ⟨E, e1, e2, e3, -⟩ := GoDwarf.C65_tree caseTwice hs hn
  obtain ⟨eU, hU, tU, cU, nU⟩ : ∃ e, E 11 = some e ∧ e.tag = go! "CompileUnit" ∧ e.children = [20, 40] ∧ strOf e (go! "Name") = some (go! "a.cc") :=
    ⟨_, e2 0 _ (.here (List.mem_singleton.mpr rfl)), rfl, rfl, rfl⟩
  obtain ⟨eA, hA, tA, cA⟩ : ∃ e, E 20 = some e ∧ e.tag = go! "Namespace" ∧ e.children = [30] :=
    ⟨_, e2 11 _ (.there (List.mem_singleton.mpr rfl) (.here (List.mem_cons_self ..))), rfl, rfl⟩
  obtain ⟨eB, hB, tB, lB, oB⟩ : ∃ e, E 30 = some e ∧ e.tag = go! "Variable" ∧ offOf e (go! "Type") = none ∧ objHead e = { name := some (go! "x") } :=
    ⟨_, e2 20 _ (.there (List.mem_singleton.mpr rfl) (.there (List.mem_cons_self ..) (.here (List.mem_singleton.mpr rfl)))), rfl, rfl, rfl⟩
  obtain ⟨eC, hC, tC, cC⟩ : ∃ e, E 40 = some e ∧ e.tag = go! "ImportedDeclaration" ∧ offOf e (go! "Import") = some 30 :=
    ⟨_, e2 11 _ (.there (List.mem_singleton.mpr rfl) (.here (List.mem_cons_of_mem _ (List.mem_singleton.mpr rfl)))), rfl, rfl⟩
  have t0 : TagsOk E {} := fun x t e h => by cases h
  have bd : build E = Go.ret (
      let b1 := noted E 30 (noted E 20 (noted E 11 {}))
      let b2 := finishObj 20 (.namespace_ (objHead eA) [30]) [11] (finishObj 30 (.variable (objHead eB) none) [20] b1)
      finishObj 11 (.compileUnit (go! "a.cc") [20, 30]) [] (finishObj 30 (.variable (objHead eB) none) [11] (noted E 30 b2))) := by
    unfold build
    rw [e3]
    show buildUnits E [11] {} = _
    rw [buildUnits, if_neg (by simp), getIndex_noted hU, ret_bind]
    simp only [processCompileUnit, nU, cU]
    rw [if_pos tU]
    simp only [scopeKids, hA, hC]
    rw [tA, if_neg (by decide), pe_namespace hA tA (t0.noted 11)]
    simp only [cA, scopeKids, hB]
    rw [tB, if_neg (by decide), pe_variable hB tB lB ((t0.noted 11).noted 20)]
    simp only [ret_bind, if_true, pure_eq]
    rw [tC, if_pos (by decide)]
    simp only [cC]
    rw [pe_variable hB tB lB (by exact ((t0.noted 11).noted 20).noted 30)]
    rfl
  refine ⟨E, _, 0, 2, die 30 (go! "Variable") [(go! "Name", .str (go! "x"))] [], e1, bd, ?_, rfl, by decide, ?_, ?_, ?_, ?_, ?_, ?_, ?_⟩
  · exact .there (List.mem_singleton.mpr rfl) (.there (List.mem_cons_self ..) (.here (List.mem_singleton.mpr rfl)))
  all_goals simp only [noted_ptr, noted_obj, noted_parents, noted_next, noted_added, finishObj, finish, oB]
  · decide
  · decide
  · exact .variable (h := { name := some (go! "x") }) rfl ⟨rfl, rfl⟩
  · exact .variable (h := { name := some (go! "x") }) rfl ⟨rfl, rfl⟩
  · rfl
  · rfl
  · rfl

/-- Code directly below a unit: an inlined function call in the initialisation of a variable. -/
def caseCode : List (Nat × Tree) :=
  [(0, die 11 (go! "CompileUnit") [(go! "Name", .str (go! "a.cc"))] [die 20 (go! "InlinedSubroutine") [] []])]

/-- C66 does not extend to units with code directly below them: the build panics. -/
theorem C66_code_panic : (∀ u ∈ caseCode, u.2.Sound) ∧ (0 :: Die.offsAll (caseCode.map Prod.snd)).Nodup ∧
    ∃ E, newData (storedUnits caseCode) = Go.ret E ∧ build E = Go.panic := by
  have hs : ∀ u ∈ caseCode, u.2.Sound := by simp [caseCode, die, Die.Sound, Die.SoundAll, Die.tag]
  have hn : (0 :: Die.offsAll (caseCode.map Prod.snd)).Nodup := by decide +kernel
  refine ⟨hs, hn, ?_⟩
  obtain ⟨E, e1, e2, e3, -⟩ := GoDwarf.C65_tree caseCode hs hn
  refine ⟨E, e1, ?_⟩
  obtain ⟨eU, hU, tU, cU, nU⟩ : ∃ e, E 11 = some e ∧ e.tag = go! "CompileUnit" ∧ e.children = [20] ∧ strOf e (go! "Name") = some (go! "a.cc") :=
    ⟨_, e2 0 _ (.here (List.mem_singleton.mpr rfl)), rfl, rfl, rfl⟩
  obtain ⟨eA, hA, tA⟩ : ∃ e, E 20 = some e ∧ e.tag = go! "InlinedSubroutine" :=
    ⟨_, e2 11 _ (.there (List.mem_singleton.mpr rfl) (.here (List.mem_cons_self ..))), rfl⟩
  have hk : kinds.lookup (((noted E 20 (noted E 11 {})).tag 20).getD []) = some .ignored := by
    rw [noted_tag hA (fun t h' => TagsOk.noted (data := E) (fun x t e h => by cases h) 11 20 t _ h' hA), tA]; rfl
  unfold build
  rw [e3]
  show buildUnits E [11] {} = _
  rw [buildUnits, if_neg (by simp), getIndex_noted hU, ret_bind]
  simp only [processCompileUnit, nU, cU]
  rw [if_pos tU]
  simp only [scopeKids, hA]
  rw [tA, if_neg (by decide), processEntry]
  simp only [getIndex_noted hA, ret_bind, hk]
  rfl
end

theorem each_members {ptr : Off → Option Nat} {R : Nat → Nat → Prop} {fs fs' : List Field} (h : GoDedup.Spec.Each (GoDedup.Spec.Fields ptr R) fs fs') :
    ∀ {ks ks' : List Tree}, GoDedup.Spec.Each Spec.FieldOf ks fs → GoDedup.Spec.Each Spec.FieldOf ks' fs' → GoDedup.Spec.Each Spec.SameMember ks ks' := by
  induction h with
  | nil => intro ks ks' h1 h2; cases h1; cases h2; exact .nil
  | cons c _ ih =>
    intro ks ks' h1 h2
    cases h1 with
    | cons a as =>
    cases h2 with
    | cons b bs =>
    refine .cons ⟨?_, ?_, ?_, ?_, ?_, ?_⟩ (ih as bs)
    · rw [← a.name, ← b.name, c.name]
    · rw [← a.alignment, ← b.alignment, c.alignment]
    · rw [← a.bitSize, ← b.bitSize, c.bitSize]
    · rw [← a.bitOffset, ← b.bitOffset, c.bitOffset]
    · rw [← a.dataBitOffset, ← b.dataBitOffset, c.dataBitOffset]
    · intro h
      rw [← a.offset, ← b.offset, c.byteOffset (by rw [a.bitOffset, h])]

theorem alike_head {obj : Nat → Desc} {ptr : Off → Option Nat} {a b : Nat} (h : GoDedup.Spec.Alike obj ptr a b) : cat (obj a) = cat (obj b) ∧ GoDedup.Spec.name (obj a) = GoDedup.Spec.name (obj b) := by
  refine h (fun x y => cat (obj x) = cat (obj y) ∧ GoDedup.Spec.name (obj x) = GoDedup.Spec.name (obj y)) ?_
  intro x y hk
  cases hk with
  | named h1 h2 h3 => exact ⟨h1, by rw [h2, h3]⟩
  | unnamed h1 h2 h3 =>
    refine ⟨?_, by rw [h1, h2]⟩
    revert h3
    generalize obj x = X
    generalize obj y = Y
    intro h3
    cases h3 <;> rfl

theorem describes_name {d : Tree} {x : Desc} (h : Describes d x) (hb : d.tag ≠ go! "BaseType") (hu : d.tag ∉ [go! "CompileUnit", go! "LexDwarfBlock"]) :
    GoDedup.Spec.name x = Spec.text d (go! "Name") := by
  cases h with
  | base h1 => exact absurd h1 hb
  | compileUnit h1 => exact absurd (by rw [h1]; decide) hu
  | lexBlock h1 => exact absurd (by rw [h1]; decide) hu
  | «variable» _ h | subprogram _ h | namespace_ _ h => exact h.name
  | enumeration _ h | qual _ h | typedef _ h | pointer _ h | unspecified _ h | reference _ h | subroutine _ h | array _ h | struct _ h => exact h.name

theorem describes_struct {d : Tree} {x : Desc} (h : Describes d x) (ht : d.tag ∈ [go! "ClassType", go! "StructType", go! "UnionType"]) :
    ∃ h a fs hs, x = .struct h a fs hs ∧ Spec.TypeHead d h ∧ GoDedup.Spec.Each Spec.FieldOf (d.kids.filter (isTag [go! "Member"])) fs := by
  cases h with
  | struct h1 h2 h3 => exact ⟨_, _, _, _, rfl, h2, h3⟩
  | @qual _ q h1 => exfalso; rw [h1] at ht; revert ht; cases q <;> decide
  | @reference _ r h1 => exfalso; rw [h1] at ht; revert ht; cases r <;> decide
  | base h1 | enumeration h1 | typedef h1 | pointer h1 | unspecified h1 | subroutine h1 | array h1 | «variable» h1 | subprogram h1 | namespace_ h1 | lexBlock h1 | compileUnit h1 =>
    exfalso; rw [h1] at ht; revert ht; decide

/-- C66, to the end: when the build of the database succeeds, two entries of types are one type in it
only if they have one tag and, but for synonyms of base types, one name, both are declarations or
neither is, and, for structures, classes and unions that are not declarations, size, alignment and all
members agree. -/
theorem C66_merged (units : List (Nat × Tree)) (hsound : ∀ u ∈ units, u.2.Sound) (hdist : (0 :: Die.offsAll (units.map Prod.snd)).Nodup) (hgood : Good (units.map Prod.snd))
    (hnames : ∀ q d, Placed [] (units.map Prod.snd) q d → GoodNames d) :
    ∃ E b, newData (storedUnits units) = Go.ret E ∧ build E = Go.ret b ∧
      ∀ order w st, GoDedup.Spec.Visits (start b) order → newMetaDb E order = Go.ret (w, st) →
        ∀ q d q' d', Placed [] (units.map Prod.snd) q d → Placed [] (units.map Prod.snd) q' d' → d.off ≠ d'.off →
          (∃ c, d.tag = tagName c ∧ c.type = true) → (∃ c, d'.tag = tagName c ∧ c.type = true) → st.ptr d.off = st.ptr d'.off →
          d.tag = d'.tag ∧ Spec.declared d = Spec.declared d' ∧ (d.tag ≠ go! "BaseType" → Spec.text d (go! "Name") = Spec.text d' (go! "Name")) ∧
          (Spec.declared d = false → d.tag ∈ [go! "ClassType", go! "StructType", go! "UnionType"] →
            Spec.num d (go! "ByteSize") = Spec.num d' (go! "ByteSize") ∧ Spec.num d (go! "Alignment") = Spec.num d' (go! "Alignment") ∧
            GoDedup.Spec.Each Spec.SameMember (d.kids.filter (isTag [go! "Member"])) (d'.kids.filter (isTag [go! "Member"]))) := by
  obtain ⟨E, b, e1, e2, e3⟩ := C66_start units hsound hdist hgood hnames
  obtain ⟨E', b', e1', e2', e3', -⟩ := C66_objects units hsound hdist hgood
  obtain ⟨E'', g1, g2, -⟩ := GoDwarf.C65_tree units hsound hdist
  rw [e1] at e1'
  cases e1'
  rw [e1] at g1
  cases g1
  rw [e2] at e2'
  cases e2'
  refine ⟨E, b, e1, e2, ?_⟩
  intro order w st hv hm q d q' d' hp hp' hne ⟨c, hc, hct⟩ ⟨c', hc', hct'⟩ hptr
  unfold newMetaDb at hm
  rw [e2, ret_bind] at hm
  obtain ⟨st1, h1, h2⟩ := Go.bind_ret.mp hm
  cases h2
  obtain ⟨n, k1, k2, k3, -⟩ := e3' q d hp
  obtain ⟨n', k1', k2', k3', -⟩ := e3' q' d' hp'
  have tag : ∀ {i o}, b.ptr i = some o → (world E b).tag i = tagName (cat (b.obj o)) := fun h => e3.tag _ _ h
  obtain ⟨m1, m2⟩ := GoDedup.C61_merged (world E b) (start b) st order e3 hv h1 d.off d'.off n n'
    (by rw [tag k1, ← describes_tag k2, hc, typeTag_cat, hct]) (by rw [tag k1', ← describes_tag k2', hc', typeTag_cat, hct']) k1 k1' hne hptr
  have hdecl : ∀ {q d}, Placed [] (units.map Prod.snd) q d → (world E b).decl d.off = Spec.declared d := by
    intro q d hp
    obtain ⟨q0, hb⟩ := placed_below hp 0 _ (fun x hx => hx)
    show (match E d.off with | none => false | some e => declOf e) = _
    rw [g2 q0 d hb]
    exact declOf_made q0 d
  rw [hdecl hp, hdecl hp'] at m1
  rw [hdecl hp] at m2
  have al : GoDedup.Spec.Alike b.obj b.ptr n n' := by cases m2 <;> assumption
  obtain ⟨a1, a2⟩ := alike_head al
  have htag : d.tag = d'.tag := by rw [describes_tag k2, describes_tag k2', a1]
  refine ⟨htag, m1, ?_, ?_⟩
  · intro hb
    have nu : d.tag ∉ [go! "CompileUnit", go! "LexDwarfBlock"] := by
      rw [hc]
      intro hx
      have : tagName c ∈ [go! "Variable", go! "Subprogram", go! "LexDwarfBlock", go! "Namespace", go! "CompileUnit"] := by
        simp only [List.mem_cons, List.not_mem_nil, or_false] at hx ⊢
        rcases hx with hx | hx <;> simp [hx]
      rw [← obj_tags, hct] at this
      cases this
    rw [← describes_name k2 hb nu, ← describes_name k2' (htag ▸ hb) (htag ▸ nu), a2]
  · intro hd hs
    cases m2 with
    | declaration hx => rw [hd] at hx; cases hx
    | definition _ _ ag =>
      obtain ⟨h, a, fs, hs1, x1, x2, x3⟩ := describes_struct k2 hs
      obtain ⟨h', a', fs', hs1', x1', x2', x3'⟩ := describes_struct k2' (htag ▸ hs)
      have ag' : GoDedup.Spec.Agree b.ptr (GoDedup.Spec.Alike b.obj b.ptr) (b.obj n) (b.obj n') := ag
      rw [x1, x1'] at ag'
      cases ag' with
      | struct y1 y2 y3 y4 =>
        exact ⟨by rw [← x2.size, ← x2'.size, y1], by rw [← x2.alignment, ← x2'.alignment, y2], each_members y3 x3 x3'⟩

/-! ### C67: names of base types -/

/-- C67, in part: whatever the name in the debug information, the name in the database is a name of
the same type of C, translating it again changes nothing, a type is recognised at run time only if it
is that type, two names are taken for one only if they are equal or name one type, and every name
that gcc and clang use is recognised.  Missing: other spellings (`C67_false`). -/
theorem C67_names_partial :
    (∀ n, ctype (deSynonim n) = ctype n) ∧ (∀ n, deSynonim (deSynonim n) = deSynonim n) ∧
    (∀ n t, deSynonim n = Spec.runtimeName t → ctype n = some t) ∧
    (∀ n n', deSynonim n = deSynonim n' → n = n' ∨ ∃ t, ctype n = some t ∧ ctype n' = some t) ∧
    (∀ n ∈ Spec.compilerNames, ∃ t, ctype n = some t ∧ deSynonim n = Spec.runtimeName t) := by
  have h1 : ∀ n, ctype (deSynonim n) = ctype n := by
    intro n
    rcases deSynonim_cases n with h | h
    · rw [h]
    · exact (synonyms_ctype _ h).2
  have rt : ∀ t, ctype (Spec.runtimeName t) = some t := by intro t; cases t <;> decide +kernel
  refine ⟨h1, ?_, ?_, ?_, ?_⟩
  · have all : ∀ e ∈ synonyms, deSynonim e.2 = e.2 := by decide +kernel
    intro n
    rcases deSynonim_cases n with h | h
    · rw [h]; exact h
    · exact all _ h
  · intro n t h
    rw [← h1, h, rt]
  · intro n n' h
    rcases deSynonim_cases n with g | g <;> rcases deSynonim_cases n' with g' | g'
    · left; rw [← g, ← g', h]
    · right
      obtain ⟨t, ht⟩ := Option.ne_none_iff_exists'.mp (synonyms_ctype _ g').1
      exact ⟨t, by rw [← h1, h, h1]; exact ht, ht⟩
    · right
      obtain ⟨t, ht⟩ := Option.ne_none_iff_exists'.mp (synonyms_ctype _ g).1
      exact ⟨t, ht, by rw [← h1, ← h, h1]; exact ht⟩
    · right
      obtain ⟨t, ht⟩ := Option.ne_none_iff_exists'.mp (synonyms_ctype _ g).1
      exact ⟨t, ht, by rw [← h1, ← h, h1]; exact ht⟩
  · have all : ∀ n ∈ Spec.compilerNames, (ctype n).map Spec.runtimeName = some (deSynonim n) := by decide +kernel
    intro n hn
    have := all n hn
    cases ht : ctype n with
    | none => rw [ht] at this; cases this
    | some t => rw [ht] at this; exact ⟨t, rfl, (Option.some.inj this).symm⟩

/-- C67 is false of the code: `long unsigned` is `unsigned long int`, but its entry in the table of
names has a space at the end, and `long long signed` has none: such types are not recognised. -/
theorem C67_false : ∃ n t, ctype n = some t ∧ deSynonim n ≠ Spec.runtimeName t :=
  ⟨go! "long unsigned", .ulong, by decide +kernel, by decide +kernel⟩

/-! ### A complete case -/

theorem placed_nil {p q : List Off} {d : Tree} : Placed p [] q d ↔ False := by
  constructor
  · intro h; cases h <;> simp_all
  · exact False.elim
theorem placed_cons {p q : List Off} {k d : Tree} {ds : List Tree} : Placed p (k :: ds) q d ↔ (q = p ∧ d = k) ∨ Placed [k.off] (Spec.parts k) q d ∨ Placed p ds q d := by
  constructor
  · intro h
    cases h with
    | here h =>
      rcases List.mem_cons.mp h with rfl | h
      · exact .inl ⟨rfl, rfl⟩
      · exact .inr (.inr (.here h))
    | there h h' =>
      rcases List.mem_cons.mp h with rfl | h
      · exact .inr (.inl h')
      · exact .inr (.inr (.there h h'))
  · rintro (⟨rfl, rfl⟩ | h | h)
    · exact .here (List.mem_cons_self ..)
    · exact .there (List.mem_cons_self ..) h
    · cases h with
      | here h => exact .here (List.mem_cons_of_mem _ h)
      | there h h' => exact .there (List.mem_cons_of_mem _ h) h'

section
/-- `int` -/
def dInt := die 30 (go! "BaseType") [(go! "Name", .str (go! "int")), (go! "ByteSize", .int 4), (go! "Encoding", .int 5)] []
/-- `struct s { int a; struct s * next; }` -/
def dStruct := die 40 (go! "StructType") [(go! "Name", .str (go! "s")), (go! "ByteSize", .int 16)]
  [die 42 (go! "Member") [(go! "Name", .str (go! "a")), (go! "Type", .off 30), (go! "DataMemberLoc", .int 0)] [],
   die 44 (go! "Member") [(go! "Name", .str (go! "next")), (go! "Type", .off 50), (go! "DataMemberLoc", .int 8)] []]
def dPtr := die 50 (go! "PointerType") [(go! "ByteSize", .int 8), (go! "Type", .off 40)] []
/-- `struct s v[2][3]` -/
def dArray := die 60 (go! "ArrayType") [(go! "Type", .off 40)]
  [die 62 (go! "SubrangeType") [(go! "UpperBound", .int 1)] [], die 64 (go! "SubrangeType") [(go! "Count", .int 3)] []]
def dVar := die 70 (go! "Variable") [(go! "Name", .str (go! "v")), (go! "Type", .off 60)] []
/-- `int f(struct s * p, ...) { l: { int i; } }` -/
def dLocal := die 88 (go! "Variable") [(go! "Name", .str (go! "i")), (go! "Type", .off 30)] []
def dBlock := die 86 (go! "LexDwarfBlock") [] [dLocal]
def dFunc := die 80 (go! "Subprogram") [(go! "Name", .str (go! "f")), (go! "Type", .off 30)]
  [die 82 (go! "FormalParameter") [(go! "Name", .str (go! "p")), (go! "Type", .off 50)] [], die 83 (go! "UnspecifiedParameters") [] [],
   die 84 (go! "Label") [(go! "Name", .str (go! "l"))] [], dBlock]
def unitA := die 11 (go! "CompileUnit") [(go! "Name", .str (go! "a.c"))] [dInt, dStruct, dPtr, dArray, dVar, dFunc]
def dLong := die 120 (go! "BaseType") [(go! "Name", .str (go! "long unsigned int")), (go! "ByteSize", .int 8), (go! "Encoding", .int 7)] []
def unitB := die 111 (go! "CompileUnit") [(go! "Name", .str (go! "b.c"))] [dLong]
def case66 : List (Nat × Tree) := [(2, unitA), (0, unitB)]

theorem case66_below {u : Tree} (hu : u = unitA ∨ u = unitB) {q : List Off} {d : Tree} (h : Placed [u.off] (Spec.parts u) q d) : d = dInt ∨ d = dStruct ∨ d = dPtr ∨ d = dArray ∨
    d = dVar ∨ d = dFunc ∨ d = dBlock ∨ d = dLocal ∨ d = dLong := by
  have e1 : Spec.parts unitA = [dInt, dStruct, dPtr, dArray, dVar, dFunc] := rfl
  have e2 : Spec.parts unitB = [dLong] := rfl
  have e3 : Spec.parts dInt = [] := rfl
  have e4 : Spec.parts dStruct = [] := rfl
  have e5 : Spec.parts dPtr = [] := rfl
  have e6 : Spec.parts dArray = [] := rfl
  have e7 : Spec.parts dVar = [] := rfl
  have e8 : Spec.parts dFunc = [dBlock] := rfl
  have e9 : Spec.parts dBlock = [dLocal] := rfl
  have e10 : Spec.parts dLocal = [] := rfl
  have e11 : Spec.parts dLong = [] := rfl
  rcases hu with rfl | rfl <;> simp only [placed_cons, placed_nil, e1, e2, e3, e4, e5, e6, e7, e8, e9, e10, e11] at h <;> grind

theorem case66_types {t : Off} (h : t ∈ [30, 40, 50, 60]) : Spec.TypeAt (case66.map Prod.snd) t := by
  have pl : ∀ d ∈ [dInt, dStruct, dPtr, dArray], Placed [] (case66.map Prod.snd) [11] d := by
    intro d hd
    refine .there (k := unitA) (by simp [case66]) (.here ?_)
    have : Spec.parts unitA = [dInt, dStruct, dPtr, dArray, dVar, dFunc] := rfl
    rw [this]
    simp at hd ⊢
    grind
  simp only [List.mem_cons, List.not_mem_nil, or_false] at h
  rcases h with rfl | rfl | rfl | rfl
  · exact ⟨_, dInt, .base, pl _ (by simp), rfl, rfl, rfl⟩
  · exact ⟨_, dStruct, .aggregate .struct, pl _ (by simp), rfl, rfl, rfl⟩
  · exact ⟨_, dPtr, .pointer, pl _ (by simp), rfl, rfl, rfl⟩
  · exact ⟨_, dArray, .array, pl _ (by simp), rfl, rfl, rfl⟩

theorem case66_link {d : Tree} {t : Off} (h : Spec.ref d (go! "Type") = some t) (ht : t ∈ [30, 40, 50, 60]) : Spec.LinkOk (Spec.TypeAt (case66.map Prod.snd)) d := by
  intro t' h'
  rw [h] at h'
  cases h'
  exact case66_types ht

theorem case66_good : Good (case66.map Prod.snd) := by
  intro u hu
  have hu' : u = unitA ∨ u = unitB := by simpa [case66] using hu
  refine ⟨?_, ?_⟩
  · rcases hu' with rfl | rfl
    · exact ⟨rfl, by decide, by intro k hk; revert k; simp [unitA, die, Die.kids]; decide⟩
    · exact ⟨rfl, by decide, by intro k hk; revert k; simp [unitB, die, Die.kids]; decide⟩
  · intro q d hp
    rcases case66_below hu' hp with rfl | rfl | rfl | rfl | rfl | rfl | rfl | rfl | rfl
    · exact .base rfl rfl (by decide) rfl rfl rfl (by intro v hv; cases hv; decide)
    · refine .struct (t := go! "StructType") (by decide) rfl ?_
      intro k hk _
      have : k = die 42 (go! "Member") [(go! "Name", .str (go! "a")), (go! "Type", .off 30), (go! "DataMemberLoc", .int 0)] [] ∨
        k = die 44 (go! "Member") [(go! "Name", .str (go! "next")), (go! "Type", .off 50), (go! "DataMemberLoc", .int 8)] [] := by
        simpa [dStruct, die, Die.kids] using hk
      rcases this with rfl | rfl
      · exact ⟨⟨30, rfl, case66_types (by simp)⟩, by decide, .inl (by decide)⟩
      · exact ⟨⟨50, rfl, case66_types (by simp)⟩, by decide, .inl (by decide)⟩
    · exact .link (t := go! "PointerType") (by decide) rfl (case66_link (t := 40) rfl (by simp))
    · refine .array rfl (case66_link (t := 40) rfl (by simp)) ?_
      intro k hk
      have : k = die 62 (go! "SubrangeType") [(go! "UpperBound", .int 1)] [] ∨ k = die 64 (go! "SubrangeType") [(go! "Count", .int 3)] [] := by
        simpa [dArray, die, Die.kids] using hk
      rcases this with rfl | rfl
      · exact ⟨rfl, by intro v _ hv; cases hv; decide⟩
      · exact ⟨rfl, by intro v hv; cases hv⟩
    · exact .link (t := go! "Variable") (by decide) rfl (case66_link (t := 60) rfl (by simp))
    · refine .func (t := go! "Subprogram") (by decide) rfl (case66_link (t := 30) rfl (by simp)) ?_ ?_
      · intro k hk hp
        have : k = die 82 (go! "FormalParameter") [(go! "Name", .str (go! "p")), (go! "Type", .off 50)] [] ∨ k = die 83 (go! "UnspecifiedParameters") [] [] ∨
            k = die 84 (go! "Label") [(go! "Name", .str (go! "l"))] [] ∨ k = dBlock := by
          simpa [dFunc, die, Die.kids] using hk
        rcases this with rfl | rfl | rfl | rfl
        · exact case66_link (t := 50) rfl (by simp)
        · intro t ht; cases ht
        · intro t ht; cases ht
        · intro t ht; cases ht
      · refine ⟨fun h => absurd h (by decide), fun _ => ?_, fun h => absurd h (by decide), fun h => absurd h (by decide), trivial⟩
        simp only [List.mem_cons, List.not_mem_nil, or_false]
        rintro j (rfl | rfl) <;> decide
    · exact .block rfl
    · exact .link (t := go! "Variable") (by decide) rfl (case66_link (t := 30) rfl (by simp))
    · exact .base rfl rfl (by decide) rfl rfl rfl (by intro v hv; cases hv; decide)

/-- The hypotheses of C66. -/
example : (∀ u ∈ case66, u.2.Sound) ∧ (0 :: Die.offsAll (case66.map Prod.snd)).Nodup ∧ Good (case66.map Prod.snd) ∧
    ∀ q d, Placed [] (case66.map Prod.snd) q d → GoodNames d := by
  refine ⟨?_, by decide +kernel, case66_good, ?_⟩
  · simp [case66, unitA, unitB, die, dInt, dStruct, dPtr, dArray, dVar, dFunc, dBlock, dLocal, dLong, Die.Sound, Die.SoundAll, Die.tag]
  · intro q d h
    have hd : (d = unitA ∨ d = unitB) ∨ d = dInt ∨ d = dStruct ∨ d = dPtr ∨ d = dArray ∨ d = dVar ∨ d = dFunc ∨ d = dBlock ∨ d = dLocal ∨ d = dLong := by
      rcases placed_top h with ⟨-, hu⟩ | ⟨u, hu, hp⟩
      · exact .inl (by simpa [case66] using hu)
      · exact .inr (case66_below (by simpa [case66] using hu) hp)
    rcases hd with (rfl | rfl) | rfl | rfl | rfl | rfl | rfl | rfl | rfl | rfl | rfl
    case inr.inr.inl =>
      refine ⟨?_, (fun h => by cases h), ?_⟩
      · intro n h; cases h; exact ⟨by decide, by unfold GoDedup.Spec.Closed; decide +kernel, by decide⟩
      · intro k hk _
        have : k = die 42 (go! "Member") [(go! "Name", .str (go! "a")), (go! "Type", .off 30), (go! "DataMemberLoc", .int 0)] [] ∨
          k = die 44 (go! "Member") [(go! "Name", .str (go! "next")), (go! "Type", .off 50), (go! "DataMemberLoc", .int 8)] [] := by
          simpa [dStruct, die, Die.kids] using hk
        rcases this with rfl | rfl
        · intro n h; cases h; unfold GoDedup.Spec.Plain; decide
        · intro n h; cases h; unfold GoDedup.Spec.Plain; decide
    all_goals
      refine ⟨?_, (fun h => by first | (cases h; done) | rfl), ?_⟩
      · intro n h; cases h <;> exact ⟨by decide, by unfold GoDedup.Spec.Closed; decide +kernel, by decide⟩
      · intro k hk ht
        revert k
        simp [unitA, unitB, dInt, dPtr, dArray, dVar, dFunc, dBlock, dLocal, dLong, dStruct, die, Die.kids, Die.tag]
end

end Verif.GoBuild
