import Verif.GoSerial.Lemmas
/-
Debug information written and read back.
-/
namespace Verif.GoSerial
open GoMeta (Str dec)
open GoDedup (Go)
open Spec

/-! ### Unstructured values -/

theorem go_bind {α β : Type} (a : α) (f : α → Go β) : ((Go.ret a : Go α) >>= f) = f a := rfl
theorem go_pure {α : Type} (a : α) : (pure a : Go α) = Go.ret a := rfl

theorem fix_newer {M : Machine} {c : Str} {v : GoVal} (h : Newer c v) : fixVal M c v = v := by
  cases h with
  | int _ v h _ _ =>
    simp only [List.mem_cons, List.not_mem_nil, or_false] at h
    rcases h with h | h | h | h | h | h <;> subst h <;> rfl
  | uint _ _ => rfl

theorem newer_ref {c : Str} {v : GoVal} (h : Newer c v) : c ≠ go! "ClassReference" := by
  cases h with
  | int _ v h _ _ =>
    simp only [List.mem_cons, List.not_mem_nil, or_false] at h
    rcases h with h | h | h | h | h | h <;> subst h <;> decide
  | uint _ _ => decide

/-- A field as `NewField` makes it is unchanged by fixing it again, and comes back from the
unstructured form. -/
theorem field_back {M : Machine} {f : Field} (h : ∃ a c v, (Documented c v ∨ Newer c v) ∧ f = newField M a c v) :
    fixField M f = f ∧ newFieldU M (fieldToU f) = Go.ret f := by
  obtain ⟨a, c, v, h, rfl⟩ := h
  rcases h with h | h
  · obtain ⟨w, hw, hk⟩ := kept (M := M) (a := a) h
    rw [hw]
    have hf : fixField M ⟨a, w, c⟩ = ⟨a, w, c⟩ := by simp only [fixField, fix_kept hk]
    refine ⟨hf, ?_⟩
    cases hk with
    | off ho =>
      rename_i o
      show (newOffsetU (.str (dec o)) >>= fun o => (Go.ret (fixField M ⟨a, .offset o, go! "ClassReference"⟩) : Go Field)) = _
      have : newOffsetU (.str (dec o)) = Go.ret o := by
        simp only [newOffsetU]
        rw [atoi_dec (by omega)]
        show Go.ret (i2o o) = _
        rw [i2o_nat ho]
      rw [this, go_bind, hf]
    | u64 h _ => rcases h with h | h <;> subst h <;> rfl
    | ints h _ => rcases h with h | h <;> subst h <;> rfl
    | i64 h _ _ =>
      simp only [List.mem_cons, List.not_mem_nil, or_false] at h
      rcases h with h | h | h | h | h <;> subst h <;> rfl
    | flag => rfl
    | str => rfl
  · have hn : newField M a c v = ⟨a, v, c⟩ := by simp only [newField, fixField, fix_newer h]
    rw [hn]
    have hf : fixField M ⟨a, v, c⟩ = ⟨a, v, c⟩ := by simp only [fixField, fix_newer h]
    refine ⟨hf, ?_⟩
    have hc := newer_ref h
    have hv : fieldToU ⟨a, v, c⟩ = .map [(go! "Attr", .str a), (go! "Val", v), (go! "Class", .str c)] := by
      cases h <;> rfl
    rw [hv]
    show (if c = go! "ClassReference" then (newOffsetU v >>= fun o => (Go.ret (fixField M ⟨a, .offset o, c⟩) : Go Field))
      else Go.ret (fixField M ⟨a, v, c⟩)) = _
    rw [if_neg hc, hf]

theorem lt63 {n : Nat} (h : n < 2 ^ 32) : n < 2 ^ 63 := by omega

theorem each_back {α : Type} (f : GoVal → Go α) (g : α → GoVal) (l : List α) (h : ∀ a ∈ l, f (g a) = Go.ret a) :
    each f (l.map g) = Go.ret l := by
  induction l with
  | nil => rfl
  | cons a l ih =>
    simp only [List.map_cons, each, h a (by simp), go_bind]
    rw [ih fun b hb => h b (by simp [hb])]
    rfl

theorem off_back {o : Off} (h : o < 2 ^ 32) : newOffsetU (offToU o) = Go.ret o := by
  simp only [newOffsetU, offToU]
  rw [atoi_dec (lt63 h)]
  show Go.ret (i2o _) = _
  rw [i2o_nat h]

theorem listIn_some {α : Type} (f : GoVal → Go α) (g : α → GoVal) (m : List (Str × GoVal)) (k : Str) (l : List α)
    (hm : m.lookup k = some (.list (l.map g))) (h : ∀ a ∈ l, f (g a) = Go.ret a) : listIn m k f = Go.ret (some l) := by
  simp only [listIn, hm, each_back f g l h]
  rfl

theorem lookup_entry (e : Entry) :
    (∀ m, entryToU e = .map m →
      m.lookup (go! "Tag") = some (.str e.tag) ∧
      m.lookup (go! "Parent") = e.parent.map (fun p => .str (dec p)) ∧
      m.lookup (go! "Fields") = (if e.fields = [] then none else some (.list (e.fields.map fieldToU))) ∧
      m.lookup (go! "Children") = (if e.children = [] then none else some (.list (e.children.map offToU))) ∧
      m.lookup (go! "DeclFiles") = (match e.declFiles with | none => none | some [] => none | some l => some (.list (l.map .str)))) := by
  intro m hm
  cases hm
  obtain ⟨parent, tag, fields, children, files⟩ := e
  cases parent <;> cases fields <;> cases children <;>
    (rcases files with _ | files
     · simp [putList, List.lookup]
     · cases files <;> simp [putList, List.lookup])

theorem entry_back {M : Machine} {e : Entry} (hp : ∀ p, e.parent = some p → p < 2 ^ 32) (hc : ∀ c ∈ e.children, c < 2 ^ 32)
    (hf : ∀ f ∈ e.fields, ∃ a c v, (Documented c v ∨ Newer c v) ∧ f = newField M a c v) (hd : e.declFiles ≠ some []) :
    fixEntry M e = e ∧ newEntryU M (entryToU e) = Go.ret e := by
  have hfix : e.fields.map (fixField M) = e.fields := by
    have : ∀ l : List Field, (∀ f ∈ l, f ∈ e.fields) → l.map (fixField M) = l := by
      intro l
      induction l with
      | nil => intro _; rfl
      | cons f l ih =>
        intro h
        rw [List.map_cons, (field_back (hf f (h f (by simp)))).1, ih fun g hg => h g (by simp [hg])]
    exact this _ fun _ h => h
  refine ⟨by simp only [fixEntry, hfix], ?_⟩
  obtain ⟨m, hm⟩ : ∃ m, entryToU e = .map m := ⟨_, rfl⟩
  obtain ⟨l1, l2, l3, l4, l5⟩ := lookup_entry e m hm
  rw [hm]
  have e0 : mapOf (.map m) = Go.ret m := rfl
  have e1 : strIn m (go! "Tag") = Go.ret e.tag := by simp only [strIn, l1]
  have e2 : parentIn m = Go.ret e.parent := by
    simp only [parentIn, l2]
    cases hpar : e.parent with
    | none => rfl
    | some p =>
      simp only [Option.map_some]
      have := off_back (hp p hpar)
      simp only [offToU] at this
      rw [this]; rfl
  have e3 : listIn m (go! "Fields") (newFieldU M) = Go.ret (if e.fields = [] then none else some e.fields) := by
    by_cases h : e.fields = []
    · simp only [listIn, l3, h, if_true]
    · rw [if_neg h] at l3 ⊢
      exact listIn_some _ fieldToU m _ _ l3 fun f hf' => (field_back (hf f hf')).2
  have e4 : listIn m (go! "Children") newOffsetU = Go.ret (if e.children = [] then none else some e.children) := by
    by_cases h : e.children = []
    · simp only [listIn, l4, h, if_true]
    · rw [if_neg h] at l4 ⊢
      exact listIn_some _ offToU m _ _ l4 fun o ho => off_back (hc o ho)
  have e5 : listIn m (go! "DeclFiles") fileU = Go.ret e.declFiles := by
    rcases hfs : e.declFiles with _ | fs
    · rw [hfs] at l5; simp only [listIn, l5]
    · rw [hfs] at l5 hd
      cases fs with
      | nil => exact absurd rfl hd
      | cons s fs => exact listIn_some _ .str m _ _ l5 fun _ _ => rfl
  unfold newEntryU
  rw [e0, go_bind, e2, go_bind, e1, go_bind, e3, go_bind, e4, go_bind, e5, go_bind, go_pure]
  congr 1
  obtain ⟨parent, tag, fields, children, files⟩ := e
  have hfields : (if fields = [] then none else some fields).getD [] = fields := by cases fields <;> rfl
  have hchildren : (if children = [] then none else some children).getD [] = children := by cases children <;> rfl
  simp only [hfields, hchildren, Entry.mk.injEq, true_and, and_true]
  exact hfix

theorem lookup_filter_ne {o k : Off} (d : Data) (h : o ≠ k) : (d.filter fun x => x.1 ≠ k).lookup o = d.lookup o := by
  induction d with
  | nil => rfl
  | cons x d ih =>
    obtain ⟨a, e⟩ := x
    by_cases hk : a = k
    · subst hk
      simp only [List.filter_cons, ne_eq, not_true_eq_false, decide_false, Bool.false_eq_true, if_false, List.lookup]
      rw [show (o == a) = false by simpa using h]
      simpa using ih
    · simp only [List.filter_cons, ne_eq, hk, not_false_eq_true, decide_true, if_true, List.lookup]
      split
      · rfl
      · simpa using ih

theorem lookup_put (d : Data) (o k : Off) (e : Entry) : (put d k e).lookup o = if o = k then some e else d.lookup o := by
  simp only [put, List.lookup]
  by_cases h : o = k
  · subst h; simp
  · rw [show (o == k) = false by simpa using h, if_neg h]
    exact lookup_filter_ne d h

theorem lookup_none_of {d : Data} {o : Off} (h : o ∉ d.map Prod.fst) : d.lookup o = none := by
  induction d with
  | nil => rfl
  | cons x d ih =>
    simp only [List.map_cons, List.mem_cons, not_or] at h
    simp only [List.lookup]
    rw [show (o == x.1) = false by simpa using h.1]
    exact ih h.2

theorem lookup_puts (d : Data) (hd : (d.map Prod.fst).Nodup) (acc : Data) (o : Off) :
    (d.foldl (fun a x => put a x.1 x.2) acc).lookup o = (d.lookup o).or (acc.lookup o) := by
  induction d generalizing acc with
  | nil => rfl
  | cons x d ih =>
    obtain ⟨k, e⟩ := x
    simp only [List.map_cons, List.nodup_cons] at hd
    simp only [List.foldl_cons, List.lookup]
    rw [ih hd.2, lookup_put]
    by_cases h : o = k
    · subst h
      simp [lookup_none_of hd.1]
    · rw [show (o == k) = false by simpa using h, if_neg h]

theorem mem_lookup {d : Data} (hd : (d.map Prod.fst).Nodup) (o : Off) (e : Entry) : d.lookup o = some e ↔ (o, e) ∈ d := by
  induction d with
  | nil => simp
  | cons x d ih =>
    obtain ⟨k, e'⟩ := x
    simp only [List.map_cons, List.nodup_cons] at hd
    simp only [List.lookup, List.mem_cons, Prod.mk.injEq]
    by_cases h : o = k
    · subst h
      have : (o, e) ∉ d := fun h => hd.1 (List.mem_map.2 ⟨_, h, rfl⟩)
      simp [this, eq_comm]
    · rw [show (o == k) = false by simpa using h]
      simp [h, ih hd.2]

theorem puts_all (P : Off × Entry → Prop) (d acc : Data) (h : ∀ x ∈ d, P x) (ha : ∀ x ∈ acc, P x) :
    ∀ x ∈ d.foldl (fun a x => put a x.1 x.2) acc, P x := by
  induction d generalizing acc with
  | nil => exact ha
  | cons y d ih =>
    refine ih _ (fun x hx => h x (by simp [hx])) ?_
    intro x hx
    simp only [put, List.mem_cons] at hx
    rcases hx with rfl | hx
    · exact h y (by simp)
    · exact ha x (List.mem_filter.1 hx).1

theorem entriesU_back {M : Machine} (d acc : Data) (hs : ∀ x ∈ d, x.1 < 2 ^ 32) (he : ∀ x ∈ d, newEntryU M (entryToU x.2) = Go.ret x.2) :
    entriesU M (d.map fun x => (dec x.1, entryToU x.2)) acc = Go.ret (d.foldl (fun a x => put a x.1 x.2) acc) := by
  induction d generalizing acc with
  | nil => rfl
  | cons x d ih =>
    have h := hs x (by simp)
    simp only [List.map_cons, entriesU, List.foldl_cons]
    rw [atoi_dec (lt63 h), he x (by simp)]
    simp only [go_bind]
    rw [i2o_nat h]
    exact ih _ (fun y hy => hs y (by simp [hy])) fun y hy => he y (by simp [hy])

/-- **C83** Debug information turned into unstructured values and read back is the same, in whatever
order the map of entries is visited (`d'`: the entries of `d` in any order). -/
theorem C83_unstructured_partial (M : Machine) (d d' : Data) (hd : Made M (fun c v => Documented c v ∨ Newer c v) d) (hf : Files d)
    (hp : d'.Perm d) :
    ∃ r, newDataU M (dataToU d') = Go.ret r ∧ ∀ o, r.lookup o = d.lookup o := by
  have keys' : (d'.map Prod.fst).Nodup := (hp.map Prod.fst).nodup_iff.2 hd.keys
  have eb : ∀ x ∈ d', fixEntry M x.2 = x.2 ∧ newEntryU M (entryToU x.2) = Go.ret x.2 := fun x hx =>
    have hx := hp.mem_iff.1 hx
    entry_back (hd.parents x hx) (hd.children x hx) (hd.fields x hx) (hf x hx)
  refine ⟨d'.foldl (fun a x => put a x.1 x.2) [], ?_, ?_⟩
  · show (entriesU M (d'.map fun x => (dec x.1, entryToU x.2)) [] >>= fun d => Go.ret (d.map fun x => (x.1, fixEntry M x.2))) = _
    rw [entriesU_back d' [] (fun x hx => hd.small x (hp.mem_iff.1 hx)) fun x hx => (eb x hx).2, go_bind]
    congr 1
    have := puts_all (fun x => fixEntry M x.2 = x.2) d' [] (fun x hx => (eb x hx).1) (by simp)
    generalize d'.foldl (fun a x => put a x.1 x.2) [] = r at this ⊢
    induction r with
    | nil => rfl
    | cons x r ih => rw [List.map_cons, this x (by simp), ih fun y hy => this y (by simp [hy])]
  · intro o
    rw [lookup_puts d' keys']
    simp only [List.lookup_nil, Option.or_none]
    apply Option.ext
    intro e
    rw [mem_lookup keys', mem_lookup hd.keys, hp.mem_iff]

/-- **C83** The full claim is false: a compile unit with an empty table of files comes back without
a table. -/
theorem C83_unstructured_false (M : Machine) :
    ∃ d : Data, Made M (fun c v => Documented c v ∨ Newer c v) d ∧ ∃ r, newDataU M (dataToU d) = Go.ret r ∧
      (d.lookup 11).map Entry.declFiles = some (some []) ∧ (r.lookup 11).map Entry.declFiles = some none := by
  refine ⟨[(11, { parent := some 0, tag := go! "CompileUnit", declFiles := some [] })], ⟨by simp, by simp, by simp, by simp, by simp⟩, ?_⟩
  obtain ⟨r, h, hl⟩ := C83_unstructured_partial M [(11, { parent := some 0, tag := go! "CompileUnit" })] _
    ⟨by simp, by simp, by simp, by simp, by simp⟩ (by simp [Files]) (.refl _)
  exact ⟨r, h, rfl, by rw [hl]; rfl⟩

/-! ### YAML -/

theorem fixFields_back (M : Machine) (fs : List Field) (g : Field → Field) (h : ∀ f ∈ fs, fixField M (g f) = f) :
    fixFields M (fs.map fun f => some (g f)) = Go.ret fs := by
  induction fs with
  | nil => rfl
  | cons f fs ih =>
    simp only [List.map_cons, fixFields, h f (by simp)]
    rw [ih fun x hx => h x (by simp [hx])]
    rfl

/-- **C84** Debug information written as YAML and read back is the same, entry by entry. -/
theorem C84_yaml_partial (M : Machine) (d : Data) (hd : Made M Documented d) : newDataDoc M (some (yamlDoc d)) = Go.ret d := by
  have hf := hd.fields
  clear hd
  show fixDoc M (yamlDoc d) = _
  unfold yamlDoc
  induction d with
  | nil => rfl
  | cons x d ih =>
    obtain ⟨o, e⟩ := x
    simp only [List.map_cons, fixDoc]
    rw [fixFields_back M e.fields (fun f => { f with val := yamlVal f.val }), go_bind, ih fun y hy => hf y (by simp [hy])]
    · rfl
    · intro f hfm
      obtain ⟨a, c, v, hv, rfl⟩ := hf (o, e) (by simp) f hfm
      obtain ⟨w, hw, hk⟩ := kept (M := M) (a := a) hv
      rw [hw]
      simp only [fixField, yaml_kept hk]

/-- **C84** The full claim is false: a value of one of the newer classes comes back with another Go
type, here the offset of the string table of a DWARF 5 unit. -/
theorem C84_yaml_false (M : Machine) :
    ∃ d : Data, Made M (fun c v => Documented c v ∨ Newer c v) d ∧ ∃ r, newDataDoc M (some (yamlDoc d)) = Go.ret r ∧
      (d.lookup 12).map (fun e => e.fields.map Field.val) = some [.int64 8] ∧
      (r.lookup 12).map (fun e => e.fields.map Field.val) = some [.int 8] := by
  refine ⟨[(12, { parent := some 0, tag := go! "CompileUnit", fields := [newField M (go! "StrOffsetsBase") (go! "ClassStrOffsetsPtr") (.int64 8)] })],
    ⟨by simp, by simp, by simp, by simp, ?_⟩, _, rfl, rfl, rfl⟩
  intro x hx f hf
  simp only [List.mem_singleton] at hx
  subst hx
  simp only [List.mem_singleton] at hf
  exact ⟨_, _, _, .inr (.int _ 8 (by simp) (by omega) (by omega)), hf⟩

/-! ### JSON -/

theorem jsonStrs (l : List Str) (h : ∀ s ∈ l, Utf8 s) : l.map jsonStr = l := by
  induction l with
  | nil => rfl
  | cons s l ih => rw [List.map_cons, jsonStr_utf8 (h s (by simp)), ih fun t ht => h t (by simp [ht])]

/-- **C85** Debug information written as JSON and read back is the same, entry by entry, if numbers
have at most 53 digits (and zeros after them), text is UTF-8 and blocks are not empty. -/
theorem C85_json_partial (M : Machine) (d : Data) (hd : Made M (fun c v => Documented c v ∧ JsonSafe v) d) (hf : Files d) (ht : Texts d) :
    newDataDoc M (some (jsonDoc d)) = Go.ret d := by
  have hfs := hd.fields
  clear hd
  show fixDoc M (jsonDoc d) = _
  unfold jsonDoc
  induction d with
  | nil => rfl
  | cons x d ih =>
    obtain ⟨o, e⟩ := x
    obtain ⟨ht1, ht2, ht3⟩ := ht (o, e) (by simp)
    simp only [List.map_cons, fixDoc]
    rw [fixFields_back M e.fields (fun f => ⟨jsonStr f.attr, jsonVal f.val, jsonStr f.cls⟩), go_bind,
      ih (fun y hy => hf y (by simp [hy])) (fun y hy => ht y (by simp [hy])) fun y hy => hfs y (by simp [hy])]
    · have hfiles : (match e.declFiles with | some [] => none | some l => some (l.map jsonStr) | none => none) = e.declFiles := by
        have := hf (o, e) (by simp)
        rcases hl : e.declFiles with _ | l
        · rfl
        · cases l with
          | nil => exact absurd hl this
          | cons s l => show some _ = _; rw [jsonStrs _ (ht3 _ hl)]
      rw [go_bind, go_pure]
      congr 2
      simp only [jsonStr_utf8 ht1]
      congr 1
      obtain ⟨_, _, _, _, _⟩ := e
      simp only [Entry.mk.injEq, true_and]
      exact hfiles
    · intro f hfm
      have ha := ht2 f hfm
      obtain ⟨a, c, v, hv, rfl⟩ := hfs (o, e) (by simp) f hfm
      obtain ⟨w, hw, hk⟩ := kept (M := M) (a := a) hv.1
      rw [hw] at ha ⊢
      simp only [fixField, class_text hv.1, json_kept hk (small hv.1 hv.2 hw), jsonStr_utf8 ha]

theorem json_fields (M : Machine) (l : List Field) (g : Field → Field) :
    fixFields M (l.map fun f => some (g f)) = Go.ret (l.map fun f => fixField M (g f)) := by
  induction l with
  | nil => rfl
  | cons f l ih => rw [List.map_cons, fixFields, ih]; rfl

theorem json_shape (M : Machine) (d : Data) : ∃ g : Off × Entry → Entry,
    newDataDoc M (some (jsonDoc d)) = Go.ret (d.map fun x => (x.1, g x)) ∧
    ∀ x, (g x).fields = x.2.fields.map fun f => fixField M ⟨jsonStr f.attr, jsonVal f.val, jsonStr f.cls⟩ := by
  refine ⟨fun x =>
    { parent := x.2.parent, tag := jsonStr x.2.tag,
      fields := x.2.fields.map fun f => fixField M ⟨jsonStr f.attr, jsonVal f.val, jsonStr f.cls⟩,
      children := x.2.children,
      declFiles := match x.2.declFiles with
        | some [] => none
        | some l => some (l.map jsonStr)
        | none => none }, ?_, fun x => rfl⟩
  show fixDoc M (jsonDoc d) = _
  unfold jsonDoc
  induction d with
  | nil => rfl
  | cons x d ih =>
    rw [List.map_cons, fixDoc, json_fields, go_bind, ih]
    rfl

theorem round_is (v : Int) : Nearest (roundInt v) v := ⟨roundInt_has v, roundInt_nearest v⟩

theorem signed_back (M : Machine) {v : Int} (h1 : -2 ^ 63 ≤ v) (h2 : v < 2 ^ 63) :
    (v < 2 ^ 63 - 512 → Nearest (f2i M (roundInt v)) v) ∧ (2 ^ 63 - 512 ≤ v → f2i M (roundInt v) = M.toInt64 (2 ^ 63)) := by
  constructor
  · intro h
    have hn := round_is v
    have a := hn.2 (-2 ^ 63) ⟨1, 63, by omega, by decide⟩
    have b := hn.2 (2 ^ 63 - 1024) ⟨2 ^ 53 - 1, 10, by omega, by decide⟩
    unfold f2i
    rw [if_pos (by omega)]
    exact hn
  · intro h
    have hl : v.natAbs.log2 = 62 := (Nat.log2_eq_iff (by omega)).2 (by omega)
    have := round_top hl (by omega) (by omega) (by omega) (by omega)
    have e : roundInt v = 2 ^ 63 := by
      unfold roundInt
      rw [if_neg (by omega), this]; rfl
    rw [e]
    unfold f2i
    rw [if_neg (by omega)]

theorem unsigned_back (M : Machine) {n : Nat} (h2 : n < 2 ^ 64) :
    (n < 2 ^ 64 - 1024 → Nearest (f2u M (roundInt n)) n) ∧ (2 ^ 64 - 1024 ≤ n → f2u M (roundInt n) = M.toUint64 (2 ^ 64)) := by
  constructor
  · intro h
    have hn := round_is n
    have a := hn.2 0 ⟨0, 0, by omega, by decide⟩
    have b := hn.2 (2 ^ 64 - 2048) ⟨2 ^ 53 - 1, 11, by omega, by decide⟩
    unfold f2u
    rw [if_pos (by omega), Int.toNat_of_nonneg (by omega)]
    exact hn
  · intro h
    have hl : n.log2 = 63 := (Nat.log2_eq_iff (by omega)).2 (by omega)
    have := round_top hl (by omega) (by omega) (by omega) (by omega)
    have e : roundInt n = 2 ^ 64 := by
      unfold roundInt
      rw [if_neg (by omega), Int.natAbs_natCast, this]; rfl
    rw [e]
    unfold f2u
    rw [if_neg (by omega)]

/-- **C85** Numbers in general: whatever numbers there are, reading the JSON text succeeds with the
same entries, and each number comes back as a nearest number of 53 digits; the ones that round to
`2 ^ 63` (`2 ^ 64` for addresses) come back as whatever the machine makes of a `float64` that does not fit. -/
theorem C85_numbers_partial (M : Machine) (d : Data) (hd : Made M Documented d) :
    ∃ r, newDataDoc M (some (jsonDoc d)) = Go.ret r ∧ r.map Prod.fst = d.map Prod.fst ∧
      ∀ o e, (o, e) ∈ d → ∃ e', (o, e') ∈ r ∧ e'.fields.length = e.fields.length ∧
        (∀ (i : Nat) (v : Int), (e.fields[i]?).map Field.val = some (.int64 v) →
          ∃ w, (e'.fields[i]?).map Field.val = some (.int64 w) ∧
            (v < 2 ^ 63 - 512 → Nearest w v) ∧ (2 ^ 63 - 512 ≤ v → w = M.toInt64 (2 ^ 63))) ∧
        (∀ (i n : Nat), (e.fields[i]?).map Field.val = some (.uint64 n) →
          ∃ m, (e'.fields[i]?).map Field.val = some (.uint64 m) ∧
            (n < 2 ^ 64 - 1024 → Nearest m n) ∧ (2 ^ 64 - 1024 ≤ n → m = M.toUint64 (2 ^ 64))) := by
  obtain ⟨g, hg, hfs⟩ := json_shape M d
  refine ⟨_, hg, by simp, ?_⟩
  intro o e hoe
  refine ⟨g (o, e), List.mem_map.2 ⟨_, hoe, rfl⟩, by rw [hfs]; simp, ?_, ?_⟩
  · intro i v hi
    obtain ⟨f, hf, hv⟩ := Option.map_eq_some_iff.1 hi
    obtain ⟨a, c, u, hk, rfl⟩ := hd.fields _ hoe f (List.mem_of_getElem? hf)
    obtain ⟨w, hw, hkept⟩ := kept (M := M) (a := a) hk
    rw [hw] at hf hv
    obtain rfl : w = .int64 v := hv
    rw [hfs, List.getElem?_map, hf]
    cases hkept with
    | i64 h h1 h2 =>
      refine ⟨_, ?_, signed_back M h1 h2⟩
      simp only [List.mem_cons, List.not_mem_nil, or_false] at h
      show some (fixVal M (jsonStr c) (jsonVal (.int64 v))) = _
      rw [class_text hk]
      rcases h with h | h | h | h | h <;> subst h <;> rfl
  · intro i v hi
    obtain ⟨f, hf, hv⟩ := Option.map_eq_some_iff.1 hi
    obtain ⟨a, c, u, hk, rfl⟩ := hd.fields _ hoe f (List.mem_of_getElem? hf)
    obtain ⟨w, hw, hkept⟩ := kept (M := M) (a := a) hk
    rw [hw] at hf hv
    obtain rfl : w = .uint64 v := hv
    rw [hfs, List.getElem?_map, hf]
    cases hkept with
    | u64 h hn =>
      refine ⟨_, ?_, unsigned_back M hn⟩
      show some (fixVal M (jsonStr c) (jsonVal (.uint64 v))) = _
      rw [class_text hk]
      rcases h with h | h <;> subst h <;> rfl

/-- Values of enumerators that the theorem is about: the largest number, which does not come back, and
one that rounds up. -/
def case85 (M : Machine) : Data :=
  [(12, { parent := some 0, tag := go! "Enumerator",
          fields := [newField M (go! "ConstValue") (go! "ClassConstant") (.int64 9223372036854775807),
                     newField M (go! "ConstValue") (go! "ClassConstant") (.int64 (-9007199254740995)),
                     newField M (go! "LowPc") (go! "ClassAddress") (.uint64 0xffffffff81000000)] })]

example (M : Machine) : Made M Documented (case85 M) where
  keys := by simp [case85]
  small := by simp [case85]
  parents := by simp [case85]
  children := by simp [case85]
  fields := by
    intro x hx f hf
    simp only [case85, List.mem_singleton] at hx
    subst hx
    simp only [List.mem_cons, List.not_mem_nil, or_false] at hf
    rcases hf with rfl | rfl | rfl
    · exact ⟨_, _, _, .constant _ (by omega) (by omega), rfl⟩
    · exact ⟨_, _, _, .constant _ (by omega) (by omega), rfl⟩
    · exact ⟨_, _, _, .address _ (by omega), rfl⟩

/-- An address of the kernel has few enough digits. -/
example : JsonSafe (.uint64 0xffffffff81000000) := ⟨0xffffffff81, 24, by decide, by decide⟩

/-- The JSON round trip of one attribute of an entry at 12. -/
theorem json_one (M : Machine) (a c : Str) (v : GoVal) (h : Documented c v) (ha : jsonStr a = a) (hc : jsonStr c = c) :
    ∃ d : Data, Made M Documented d ∧ Files d ∧ ∃ r, newDataDoc M (some (jsonDoc d)) = Go.ret r ∧
      (d.lookup 12).map (fun e => e.fields.map Field.val) = some [fixVal M c v] ∧
      (r.lookup 12).map (fun e => e.fields.map Field.val) = some [fixVal M c (jsonVal (fixVal M c v))] := by
  refine ⟨[(12, { parent := some 0, tag := go! "Enumerator", fields := [newField M a c v] })],
    ⟨by simp, by simp, by simp, by simp, ?_⟩, by simp [Files], _, rfl, rfl, ?_⟩
  · intro x hx f hf
    simp only [List.mem_singleton] at hx
    subst hx
    simp only [List.mem_singleton] at hf
    exact ⟨_, _, _, h, hf⟩
  · show some [fixVal M (jsonStr c) (jsonVal (fixVal M c v))] = _
    rw [hc]

/-- **C85** Numbers: the value of an enumerator that needs more than 53 bits comes back as another
number, on every machine. -/
theorem C85_json_number_false (M : Machine) :
    ∃ d : Data, Made M Documented d ∧ Files d ∧ ∃ r, newDataDoc M (some (jsonDoc d)) = Go.ret r ∧
      (d.lookup 12).map (fun e => e.fields.map Field.val) = some [.int64 9007199254740993] ∧
      (r.lookup 12).map (fun e => e.fields.map Field.val) = some [.int64 9007199254740992] :=
  json_one M (go! "ConstValue") (go! "ClassConstant") (.int64 9007199254740993) (.constant _ (by omega) (by omega)) (by decide) (by decide)

/-- **C85** Text: a name that is not UTF-8 comes back as another name. -/
theorem C85_json_text_false (M : Machine) :
    ∃ d : Data, Made M Documented d ∧ Files d ∧ ∃ r, newDataDoc M (some (jsonDoc d)) = Go.ret r ∧
      (d.lookup 12).map (fun e => e.fields.map Field.val) = some [.str [0x6e, 0xe9, 0x65]] ∧
      (r.lookup 12).map (fun e => e.fields.map Field.val) = some [.str [0x6e, 0xef, 0xbf, 0xbd, 0x65]] :=
  json_one M (go! "Name") (go! "ClassString") (.str [0x6e, 0xe9, 0x65]) (.string _) (by decide) (by decide)

/-- **C85** Blocks: an empty block comes back as no value at all. -/
theorem C85_json_block_false (M : Machine) :
    ∃ d : Data, Made M Documented d ∧ Files d ∧ ∃ r, newDataDoc M (some (jsonDoc d)) = Go.ret r ∧
      (d.lookup 12).map (fun e => e.fields.map Field.val) = some [.ints []] ∧
      (r.lookup 12).map (fun e => e.fields.map Field.val) = some [.nil] :=
  json_one M (go! "Location") (go! "ClassExprLoc") (.bytes []) (.exprloc _) (by decide) (by decide)

/-! ### Data that nothing here has written -/

/-- There is a nil pointer in the value. -/
inductive HasNil : GoVal → Prop where
  | here : HasNil (.mapPtr none)
  | map {m k v} : (k, v) ∈ m → HasNil v → HasNil (.map m)
  | ptr {m k v} : (k, v) ∈ m → HasNil v → HasNil (.mapPtr (some m))
  | list {l v} : v ∈ l → HasNil v → HasNil (.list l)

/-- The function returns, with a value or an error. -/
def Returns {α : Type} (x : Go α) : Prop := ∃ r, x = Outcome.ok r

theorem returns_bind {α β : Type} {x : Go α} {f : α → Go β} (h : Returns x) (hf : ∀ a, x = Go.ret a → Returns (f a)) :
    Returns (x >>= f) := by
  obtain ⟨r, rfl⟩ := h
  cases r with
  | none => exact ⟨none, rfl⟩
  | some a => exact hf a rfl

theorem returns_mapOf {u : GoVal} (h : ¬ HasNil u) : Returns (mapOf u) := by
  unfold mapOf
  split
  · exact ⟨_, rfl⟩
  · exact ⟨_, rfl⟩
  · exact absurd HasNil.here h
  · exact ⟨_, rfl⟩

theorem mapOf_nil {u : GoVal} {m : List (Str × GoVal)} (h : ¬ HasNil u) (hm : mapOf u = Go.ret m) {k : Str} {v : GoVal}
    (hk : (k, v) ∈ m) : ¬ HasNil v := by
  intro hv
  apply h
  unfold mapOf at hm
  split at hm
  · cases hm; exact .map hk hv
  · cases hm; exact .ptr hk hv
  · cases hm
  · cases hm

theorem lookup_mem {m : List (Str × GoVal)} {k : Str} {v : GoVal} (h : m.lookup k = some v) : (k, v) ∈ m := by
  induction m with
  | nil => cases h
  | cons x m ih =>
    obtain ⟨k', v'⟩ := x
    simp only [List.lookup] at h
    split at h
    · rename_i hk
      have hk : k = k' := by simpa using hk
      cases h; subst hk; exact .head _
    · exact .tail _ (ih h)

theorem returns_strIn (m : List (Str × GoVal)) (k : Str) : Returns (strIn m k) := by
  unfold strIn; split <;> exact ⟨_, rfl⟩

theorem returns_off (u : GoVal) : Returns (newOffsetU u) := by
  unfold newOffsetU
  split
  · split <;> exact ⟨_, rfl⟩
  · exact ⟨_, rfl⟩

theorem returns_field {M : Machine} {u : GoVal} (h : ¬ HasNil u) : Returns (newFieldU M u) := by
  unfold newFieldU
  refine returns_bind (returns_mapOf h) fun m _ => returns_bind (returns_strIn _ _) fun a _ => returns_bind (returns_strIn _ _) fun c _ => ?_
  split
  · exact ⟨_, rfl⟩
  · split
    · exact returns_bind (returns_off _) fun _ _ => ⟨_, rfl⟩
    · exact ⟨_, rfl⟩

theorem returns_each {α : Type} {f : GoVal → Go α} {l : List GoVal} (h : ∀ u ∈ l, Returns (f u)) : Returns (each f l) := by
  induction l with
  | nil => exact ⟨_, rfl⟩
  | cons u l ih =>
    exact returns_bind (h u (by simp)) fun _ _ => returns_bind (ih fun v hv => h v (by simp [hv])) fun _ _ => ⟨_, rfl⟩

theorem returns_listIn {α : Type} {f : GoVal → Go α} {m : List (Str × GoVal)} {k : Str}
    (h : ∀ l, (k, .list l) ∈ m → ∀ u ∈ l, Returns (f u)) : Returns (listIn m k f) := by
  unfold listIn
  split
  · exact ⟨_, rfl⟩
  · rename_i l hl
    exact returns_bind (returns_each (h l (lookup_mem hl))) fun _ _ => ⟨_, rfl⟩
  · exact ⟨_, rfl⟩

theorem returns_entry {M : Machine} {u : GoVal} (h : ¬ HasNil u) : Returns (newEntryU M u) := by
  unfold newEntryU
  refine returns_bind (returns_mapOf h) fun m hm => returns_bind ?_ fun _ _ => returns_bind (returns_strIn _ _) fun _ _ =>
    returns_bind (returns_listIn fun l hl u hu => returns_field fun hn => mapOf_nil h hm hl (.list hu hn)) fun _ _ =>
    returns_bind (returns_listIn fun _ _ _ _ => returns_off _) fun _ _ =>
    returns_bind (returns_listIn fun _ _ u _ => ?_) fun _ _ => ⟨_, rfl⟩
  · unfold parentIn
    split
    · exact ⟨_, rfl⟩
    · exact returns_bind (returns_off _) fun _ _ => ⟨_, rfl⟩
  · unfold fileU; split <;> exact ⟨_, rfl⟩

theorem returns_entries {M : Machine} {es : List (Str × GoVal)} (h : ∀ k v, (k, v) ∈ es → ¬ HasNil v) (d : Data) : Returns (entriesU M es d) := by
  induction es generalizing d with
  | nil => exact ⟨_, rfl⟩
  | cons x es ih =>
    obtain ⟨k, u⟩ := x
    simp only [entriesU]
    split
    · exact ⟨_, rfl⟩
    · exact returns_bind (returns_entry (h k u (by simp))) fun _ _ => ih (fun k v hk => h k v (by simp [hk])) _

/-- **C86** Whatever unstructured value is handed in, reading it returns data or an error, unless
there is a nil pointer in it. -/
theorem C86_unstructured_partial (M : Machine) (u : GoVal) (h : ¬ HasNil u) : Returns (newDataU M u) := by
  unfold newDataU
  refine returns_bind (returns_mapOf h) fun m hm => ?_
  split
  · rename_i es hes
    have := mapOf_nil h hm (lookup_mem hes)
    exact returns_bind (returns_entries (fun k v hk hv => this (.map hk hv)) _) fun _ _ => ⟨_, rfl⟩
  · exact ⟨_, rfl⟩

/-- **C86** A JSON or YAML document is read without a panic exactly if no entry and no field in it
is `null`. -/
theorem C86_document_partial (M : Machine) (doc : Doc) :
    Returns (newDataDoc M (some doc)) ↔ ∀ x ∈ doc, ∃ e, x.2 = some e ∧ ∀ f ∈ e.fields, f ≠ none := by
  have fields : ∀ fs : List (Option Field), (∃ l, fixFields M fs = Go.ret l ∧ ∀ f ∈ fs, f ≠ none) ∨
      (fixFields M fs = Go.panic ∧ ¬ ∀ f ∈ fs, f ≠ none) := by
    intro fs
    induction fs with
    | nil => exact .inl ⟨_, rfl, by simp⟩
    | cons f fs ih =>
      cases f with
      | none => exact .inr ⟨rfl, fun h => h none (by simp) rfl⟩
      | some f =>
        rcases ih with ⟨l, hl, hn⟩ | ⟨hl, hn⟩
        · refine .inl ⟨fixField M f :: l, by simp only [fixFields, hl]; rfl, ?_⟩
          intro g hg
          rcases List.mem_cons.1 hg with rfl | hg
          · simp
          · exact hn g hg
        · exact .inr ⟨by simp only [fixFields, hl]; rfl, fun h => hn fun g hg => h g (by simp [hg])⟩
  have all : (∃ d, fixDoc M doc = Go.ret d ∧ ∀ x ∈ doc, ∃ e, x.2 = some e ∧ ∀ f ∈ e.fields, f ≠ none) ∨
      (fixDoc M doc = Go.panic ∧ ¬ ∀ x ∈ doc, ∃ e, x.2 = some e ∧ ∀ f ∈ e.fields, f ≠ none) := by
    induction doc with
    | nil => exact .inl ⟨_, rfl, by simp⟩
    | cons x doc ih =>
      obtain ⟨o, e⟩ := x
      cases e with
      | none => exact .inr ⟨rfl, fun h => by obtain ⟨e, he, -⟩ := h (o, none) (by simp); cases he⟩
      | some e =>
        rcases fields e.fields with ⟨l, hl, hn⟩ | ⟨hl, hn⟩
        · rcases ih with ⟨d, hd, hx⟩ | ⟨hd, hx⟩
          · refine .inl ⟨_, by simp only [fixDoc, hl, hd, go_bind, go_pure]; rfl, ?_⟩
            intro y hy
            rcases List.mem_cons.1 hy with rfl | hy
            · exact ⟨e, rfl, hn⟩
            · exact hx y hy
          · exact .inr ⟨by simp only [fixDoc, hl, hd, go_bind]; rfl, fun h => hx fun y hy => h y (by simp [hy])⟩
        · refine .inr ⟨by simp only [fixDoc, hl]; rfl, fun h => hn ?_⟩
          obtain ⟨e', he, h'⟩ := h (o, some e) (by simp)
          cases he
          exact h'
  show Returns (fixDoc M doc) ↔ _
  rcases all with ⟨d, hd, h⟩ | ⟨hd, h⟩
  · exact ⟨fun _ => h, fun _ => ⟨some d, hd⟩⟩
  · refine ⟨fun ⟨r, hr⟩ => ?_, fun h' => absurd h' h⟩
    rw [hd] at hr; cases hr

/-- **C86** The full claim is false: the documents `entries: {7: null}` and
`entries: {7: {tag: Variable, fields: [null]}}` panic. -/
theorem C86_document_false (M : Machine) :
    newDataDoc M (some [(7, none)]) = Go.panic ∧
    newDataDoc M (some [(7, some { tag := go! "Variable", fields := [none] })]) = Go.panic := ⟨rfl, rfl⟩

/-- **C86** Of entries under decimal numbers of 32 bits none is lost and none is added. -/
theorem C86_offsets_partial (M : Machine) (es : List (Off × GoVal)) (hs : ∀ x ∈ es, x.1 < 2 ^ 32)
    (r : Data) (hr : newDataU M (.map [(go! "Entries", .map (es.map fun x => (dec x.1, x.2)))]) = Go.ret r) (o : Off) :
    (∃ e, r.lookup o = some e) ↔ o ∈ es.map Prod.fst := by
  have loop : ∀ (es : List (Off × GoVal)) (acc d : Data), (∀ x ∈ es, x.1 < 2 ^ 32) →
      entriesU M (es.map fun x => (dec x.1, x.2)) acc = Go.ret d →
      ((∃ e, d.lookup o = some e) ↔ o ∈ es.map Prod.fst ∨ ∃ e, acc.lookup o = some e) := by
    intro es
    induction es with
    | nil => intro acc d _ h; cases h; simp
    | cons x es ih =>
      intro acc d hs h
      simp only [List.map_cons, entriesU, atoi_dec (lt63 (hs x (by simp)))] at h
      cases he : newEntryU M x.2 with
      | ok e =>
        cases e with
        | none => rw [he] at h; cases h
        | some e =>
          rw [he, i2o_nat (hs x (by simp))] at h
          have := ih _ d (fun y hy => hs y (by simp [hy])) h
          rw [this, lookup_put]
          by_cases ho : o = x.1
          · simp [ho]
          · simp [ho]
      | abort => rw [he] at h; cases h
      | ub => rw [he] at h; cases h
      | hang => rw [he] at h; cases h
  change (entriesU M (es.map fun x => (dec x.1, x.2)) [] >>= fun d => Go.ret (d.map fun x => (x.1, fixEntry M x.2))) = Go.ret r at hr
  cases hd : entriesU M (es.map fun x => (dec x.1, x.2)) [] with
  | ok d =>
    cases d with
    | none => rw [hd] at hr; cases hr
    | some d =>
      rw [hd] at hr
      cases hr
      have := loop es [] d hs hd
      have hmap : ∀ d : Data, (∃ e, (d.map fun x => (x.1, fixEntry M x.2)).lookup o = some e) ↔ ∃ e, d.lookup o = some e := by
        intro d
        induction d with
        | nil => rfl
        | cons x d ih =>
          simp only [List.map_cons, List.lookup]
          split
          · simp
          · exact ih
      rw [hmap, this]
      simp
  | abort => rw [hd] at hr; cases hr
  | ub => rw [hd] at hr; cases hr
  | hang => rw [hd] at hr; cases hr

/-- **C86** Numbers that do not fit are not refused: two different keys of one map are the same
entry, and which of the two is kept depends on the order in which the map is visited. -/
theorem C86_offsets_false (M : Machine) :
    ∃ m m' : List (Str × GoVal), m'.Perm m ∧ (m.map Prod.fst).Nodup ∧
      ∃ r r', newDataU M (.map [(go! "Entries", .map m)]) = Go.ret r ∧ newDataU M (.map [(go! "Entries", .map m')]) = Go.ret r' ∧
        (r.lookup 1).map Entry.tag = some (go! "Variable") ∧ (r'.lookup 1).map Entry.tag = some (go! "Member") :=
  ⟨[(go! "1", .map [(go! "Tag", .str (go! "Member"))]), (go! "4294967297", .map [(go! "Tag", .str (go! "Variable"))])],
   [(go! "4294967297", .map [(go! "Tag", .str (go! "Variable"))]), (go! "1", .map [(go! "Tag", .str (go! "Member"))])],
   .swap _ _ _, by decide, _, _, rfl, rfl, rfl, rfl⟩

/-! ### A concrete case: a unit with an enumeration and a variable of it -/

/-- The entries, as `NewField` and `NewData` make them. -/
def case83 (M : Machine) : Data :=
  [(0, { children := [11] }),
   (11, { parent := some 0, tag := go! "CompileUnit", children := [42, 60], declFiles := some [[], go! "caf\u00e9.c"],
          fields := [newField M (go! "Name") (go! "ClassString") (.str (go! "caf\u00e9.c")),
                     newField M (go! "LowPC") (go! "ClassAddress") (.uint64 4198694),
                     newField M (go! "StmtList") (go! "ClassLinePtr") (.int64 0)] }),
   (42, { parent := some 11, tag := go! "EnumerationType", children := [50],
          fields := [newField M (go! "ByteSize") (go! "ClassConstant") (.int64 4)] }),
   (50, { parent := some 42, tag := go! "Enumerator",
          fields := [newField M (go! "Name") (go! "ClassString") (.str (go! "minus")),
                     newField M (go! "ConstValue") (go! "ClassConstant") (.int64 (-1))] }),
   (60, { parent := some 11, tag := go! "Variable",
          fields := [newField M (go! "Type") (go! "ClassReference") (.dwarfOffset 42),
                     newField M (go! "External") (go! "ClassFlag") (.bool true),
                     newField M (go! "Location") (go! "ClassExprLoc") (.bytes [3, 16, 64, 0, 0])] })]

theorem utf8_ascii (s : Str) (h : s.all (· < 0x80) = true) : Utf8 s := by
  induction s with
  | nil => exact .nil
  | cons b s ih =>
    simp only [List.all_cons, Bool.and_eq_true, decide_eq_true_eq] at h
    have hb : b.toNat < 0x80 := UInt8.lt_iff_toNat_lt.1 h.1
    have := Utf8.cons b.toNat s (.inl (by omega)) (ih h.2)
    unfold encode at this
    rw [if_pos hb] at this
    simpa using this

theorem cafe : Utf8 (go! "caf\u00e9.c") :=
  .cons 0x63 _ (by omega) (.cons 0x61 _ (by omega) (.cons 0x66 _ (by omega) (.cons 0xe9 _ (by omega) (.cons 0x2e _ (by omega) (.cons 0x63 _ (by omega) .nil)))))

theorem case83_made (M : Machine) : Made M (fun c v => Documented c v ∧ JsonSafe v) (case83 M) where
  keys := by simp [case83]
  small := by simp [case83]
  parents := by simp [case83]
  children := by simp [case83]
  fields := by
    intro x hx f hf
    simp only [case83, List.mem_cons, List.not_mem_nil, or_false] at hx
    rcases hx with rfl | rfl | rfl | rfl | rfl <;> simp only [List.mem_cons, List.not_mem_nil, or_false] at hf
    · rcases hf with rfl | rfl | rfl
      · exact ⟨_, _, _, ⟨.string _, cafe⟩, rfl⟩
      · exact ⟨_, _, _, ⟨.address _ (by omega), _, 0, by decide, (Nat.mul_one _).symm⟩, rfl⟩
      · exact ⟨_, _, _, ⟨.lineptr _ (by omega) (by omega), _, 0, by decide, (Nat.mul_one _).symm⟩, rfl⟩
    · subst hf; exact ⟨_, _, _, ⟨.constant _ (by omega) (by omega), _, 0, by decide, (Nat.mul_one _).symm⟩, rfl⟩
    · rcases hf with rfl | rfl
      · exact ⟨_, _, _, ⟨.string _, utf8_ascii _ (by decide)⟩, rfl⟩
      · exact ⟨_, _, _, ⟨.constant _ (by omega) (by omega), _, 0, by decide, (Nat.mul_one _).symm⟩, rfl⟩
    · rcases hf with rfl | rfl | rfl
      · exact ⟨_, _, _, ⟨.reference _ (by omega), trivial⟩, rfl⟩
      · exact ⟨_, _, _, ⟨.flag _, trivial⟩, rfl⟩
      · exact ⟨_, _, _, ⟨.exprloc _, by simp [JsonSafe]⟩, rfl⟩

theorem Spec.Made.mono {M : Machine} {k k' : Str → GoVal → Prop} {d : Data} (h : Made M k d) (hk : ∀ c v, k c v → k' c v) : Made M k' d :=
  { h with fields := fun x hx f hf => by obtain ⟨a, c, v, hv, he⟩ := h.fields x hx f hf; exact ⟨a, c, v, hk c v hv, he⟩ }

theorem case83_files (M : Machine) : Files (case83 M) := by simp [case83, Files]

theorem case83_texts (M : Machine) : Texts (case83 M) := by
  intro x hx
  simp only [case83, List.mem_cons, List.not_mem_nil, or_false] at hx
  rcases hx with rfl | rfl | rfl | rfl | rfl
  · exact ⟨.nil, by simp, by simp⟩
  · refine ⟨utf8_ascii _ rfl, ?_, ?_⟩
    · intro f hf
      simp only [List.mem_cons, List.not_mem_nil, or_false] at hf
      rcases hf with rfl | rfl | rfl <;> exact utf8_ascii _ rfl
    · intro l hl s hs
      cases hl
      simp only [List.mem_cons, List.not_mem_nil, or_false] at hs
      rcases hs with rfl | rfl
      · exact .nil
      · exact cafe
  · refine ⟨utf8_ascii _ rfl, ?_, by simp⟩
    intro f hf
    simp only [List.mem_cons, List.not_mem_nil, or_false] at hf
    subst hf; exact utf8_ascii _ rfl
  · refine ⟨utf8_ascii _ rfl, ?_, by simp⟩
    intro f hf
    simp only [List.mem_cons, List.not_mem_nil, or_false] at hf
    rcases hf with rfl | rfl <;> exact utf8_ascii _ rfl
  · refine ⟨utf8_ascii _ rfl, ?_, by simp⟩
    intro f hf
    simp only [List.mem_cons, List.not_mem_nil, or_false] at hf
    rcases hf with rfl | rfl | rfl <;> exact utf8_ascii _ rfl

example (M : Machine) : ∃ r, newDataU M (dataToU (case83 M).reverse) = Go.ret r ∧ ∀ o, r.lookup o = (case83 M).lookup o :=
  C83_unstructured_partial M _ _ ((case83_made M).mono fun _ _ h => .inl h.1) (case83_files M) (List.reverse_perm _)

example (M : Machine) : newDataDoc M (some (yamlDoc (case83 M))) = Go.ret (case83 M) :=
  C84_yaml_partial M _ ((case83_made M).mono fun _ _ h => h.1)

example (M : Machine) : newDataDoc M (some (jsonDoc (case83 M))) = Go.ret (case83 M) :=
  C85_json_partial M _ (case83_made M) (case83_files M) (case83_texts M)

/-- A list where a map is expected is refused. -/
example (M : Machine) : newDataU M (.map [(go! "Entries", .map [(go! "1", .list [])])]) = Go.fail := rfl

example (M : Machine) (o : Off) (r : Data)
    (h : newDataU M (.map [(go! "Entries", .map ([((3 : Off), GoVal.map [(go! "Tag", .str (go! "Member"))]), (4, .map [(go! "Tag", .str (go! "Variable"))])].map
      fun x => (dec x.1, x.2)))]) = Go.ret r) : (∃ e, r.lookup o = some e) ↔ o ∈ [3, 4] :=
  C86_offsets_partial M _ (by simp) r h o

end Verif.GoSerial
