import Verif.GoModule.Spec
import Verif.GoOverride.Props
/-
Finding, loading and running modules.
-/
namespace Verif.GoModule
open GoMeta (Str)
open GoDedup (Go)
open Spec

theorem go_bind {α β : Type} (a : α) (f : α → Go β) : ((Go.ret a : Go α) >>= f) = f a := rfl

/-! ### C87: names and search order -/

theorem components_ne (s : Str) : components s ≠ [] := by
  cases s with
  | nil => simp [components]
  | cons c s =>
    simp only [components]
    split
    · simp
    · split <;> simp

theorem components_sub (p name : Str) : components (p ++ [47] ++ name) = components p ++ components name := by
  induction p with
  | nil => simp [components]
  | cons c p ih =>
    simp only [List.cons_append, components]
    rw [ih]
    split
    · rfl
    · cases h : components p with
      | nil => exact absurd h (components_ne p)
      | cons a t => rfl

theorem components_name {s : Str} (h : (47 : UInt8) ∉ s) : components s = [s] := by
  induction s with
  | nil => rfl
  | cons c s ih =>
    simp only [List.mem_cons, not_or] at h
    simp only [components, ih h.2]
    rw [if_neg (fun e => h.1 e.symm)]

/-- **C87** The modules of a name are directly below a search path: neither above it nor anywhere
else, whatever directory one starts from. -/
theorem C87_inside (disk : Disk) (r : Runner) (name : Str) (infos : List (Path × Str)) (h : infoByName disk r name = Go.ret infos)
    (q : Path) (kind : Str) (hq : (q, kind) ∈ infos) :
    ∃ p ∈ r.paths, ∀ dir, walk dir q = if name = [] then walk dir p else walk dir p ++ [name] := by
  unfold infoByName at h
  split at h
  · cases h
  · rename_i hr
    cases h
    obtain ⟨p, hp, he⟩ := List.mem_filterMap.1 hq
    have hq : q = sub p name := by
      unfold found at he
      split at he
      · cases he
      · split at he
        · cases he
        · cases he; rfl
    subst hq
    refine ⟨p, hp, fun dir => ?_⟩
    simp only [refused, Bool.or_eq_true, List.contains_eq_mem, decide_eq_true_eq, beq_iff_eq, not_or] at hr
    simp only [walk, sub, components_sub, components_name hr.1.1.1, List.foldl_append, List.foldl_cons, List.foldl_nil]
    generalize List.foldl step dir (components p) = d
    simp only [step]
    by_cases hn : name = []
    · simp [hn]
    · rw [if_neg (by simp only [hn, false_or]; exact hr.2), if_neg hr.1.2, if_neg hn]

/-- **C87** Names that could lead elsewhere are refused before anything is read: the answer is the
same for every disk. -/
theorem C87_refused (r : Runner) (make : Nat → Path → Str → Option Inst) (dirOf baseOf : Path → Path) (name file : Str)
    (h : (47 : UInt8) ∈ name ∨ (92 : UInt8) ∈ name ∨ name = go! "." ∨ name = go! "..") (disk : Disk) :
    infoByName disk r name = Go.fail ∧ newInstance disk make dirOf baseOf r name file = Go.fail := by
  have hr : refused name = true := by
    simp only [refused, Bool.or_eq_true, List.contains_eq_mem, decide_eq_true_eq, beq_iff_eq]
    rcases h with h | h | h | h
    · exact .inl (.inl (.inl h))
    · exact .inl (.inl (.inr h))
    · exact .inr h
    · exact .inl (.inr h)
  refine ⟨by unfold infoByName; rw [if_pos hr], ?_⟩
  unfold newInstance
  rw [if_neg, if_pos hr]
  rintro rfl
  cases hr

theorem info_eq {disk : Disk} {r : Runner} {name : Str} {p : Path} : found disk r name p =
    match disk.header (p ++ go! "/" ++ name ++ go! "/module.yaml") with
      | none => none
      | some kind => if (r.kinds kind).isSome then some (p ++ go! "/" ++ name, kind) else none := by
  unfold found
  have : sub (sub p name) (go! "module.yaml") = p ++ go! "/" ++ name ++ go! "/module.yaml" := by
    simp [sub]
  rw [this]
  cases disk.header (p ++ go! "/" ++ name ++ go! "/module.yaml") with
  | none => rfl
  | some kind => cases h : r.kinds kind <;> simp [h, sub]

theorem first_info (disk : Disk) (r : Runner) (name file : Str) (paths : List Path) :
    let infos := paths.filterMap (found disk r name)
    (∃ p k, First (fun p => ∃ k, Holds disk r name p k) paths p ∧ Holds disk r name p k ∧
        firstMade makeTemplate r file infos = some ⟨k, p ++ go! "/" ++ name, file⟩) ∨
    ((∀ p ∈ paths, ¬ ∃ k, Holds disk r name p k) ∧ firstMade makeTemplate r file infos = none) := by
  induction paths with
  | nil => exact .inr ⟨by simp, rfl⟩
  | cons p ps ih =>
    simp only [List.filterMap_cons]
    rw [info_eq]
    cases hh : disk.header (p ++ go! "/" ++ name ++ go! "/module.yaml") with
    | none =>
      have hn : ¬ ∃ k, Holds disk r name p k := by rintro ⟨k, kind, h, -⟩; rw [hh] at h; cases h
      rcases ih with ⟨q, k, ⟨pre, post, hl, hq, hpre⟩, hk, hm⟩ | ⟨h, hm⟩
      · refine .inl ⟨q, k, ⟨p :: pre, post, by rw [hl]; rfl, hq, ?_⟩, hk, hm⟩
        intro y hy
        rcases List.mem_cons.1 hy with rfl | hy
        · exact hn
        · exact hpre y hy
      · refine .inr ⟨?_, hm⟩
        intro y hy
        rcases List.mem_cons.1 hy with rfl | hy
        · exact hn
        · exact h y hy
    | some kind =>
      cases hk : r.kinds kind with
      | none =>
        have hn : ¬ ∃ k, Holds disk r name p k := by rintro ⟨k, kind', h, h'⟩; rw [hh] at h; cases h; rw [hk] at h'; cases h'
        simp only [hk, Option.isSome_none, Bool.false_eq_true, if_false]
        rcases ih with ⟨q, k, ⟨pre, post, hl, hq, hpre⟩, hk, hm⟩ | ⟨h, hm⟩
        · refine .inl ⟨q, k, ⟨p :: pre, post, by rw [hl]; rfl, hq, ?_⟩, hk, hm⟩
          intro y hy
          rcases List.mem_cons.1 hy with rfl | hy
          · exact hn
          · exact hpre y hy
        · refine .inr ⟨?_, hm⟩
          intro y hy
          rcases List.mem_cons.1 hy with rfl | hy
          · exact hn
          · exact h y hy
      | some k =>
        refine .inl ⟨p, k, ⟨[], ps, rfl, ⟨k, kind, hh, hk⟩, by simp⟩, ⟨kind, hh, hk⟩, ?_⟩
        simp only [hk, Option.isSome_some, if_true, firstMade, newByInfo, makeTemplate]

/-- **C87** A module is taken from the first search path that holds one of that name and of a known
kind, and there is an error if none does. -/
theorem C87_first (disk : Disk) (dirOf baseOf : Path → Path) (r : Runner) (name file : Str) (hn : name ≠ [])
    (hs : (47 : UInt8) ∉ name) (hb : (92 : UInt8) ∉ name) (h1 : name ≠ go! ".") (h2 : name ≠ go! "..") :
    (∃ p k, First (fun p => ∃ k, Holds disk r name p k) r.paths p ∧ Holds disk r name p k ∧
      newInstance disk makeTemplate dirOf baseOf r name file =
        Go.ret ⟨k, p ++ go! "/" ++ name, if file = [] then go! "module.yaml" else file⟩) ∨
    ((∀ p ∈ r.paths, ¬ ∃ k, Holds disk r name p k) ∧ newInstance disk makeTemplate dirOf baseOf r name file = Go.fail) := by
  have hr : refused name = false := by
    simp only [refused, Bool.or_eq_false_iff, List.contains_eq_mem, decide_eq_false_iff_not, beq_eq_false_iff_ne, ne_eq]
    exact ⟨⟨⟨hs, hb⟩, h2⟩, h1⟩
  have h := first_info disk r name (if file = [] then go! "module.yaml" else file) r.paths
  unfold newInstance infoByName
  rw [if_neg hn]
  simp only [hr, Bool.false_eq_true, if_false, go_bind]
  rcases h with ⟨p, k, h1, h2, h3⟩ | ⟨h1, h3⟩
  · exact .inl ⟨p, k, h1, h2, by rw [h3]⟩
  · exact .inr ⟨h1, by rw [h3]⟩

/-! ### C90: which templates are loaded -/

theorem holding_snoc (defs : List (Str × Body)) (d : Str × Body) (n : Str) :
    holding (defs ++ [d]) n = if d.1 = n ∧ (d.2.empty = false ∨ holding defs n = none) then some d.2 else holding defs n := by
  unfold holding
  rw [List.filter_append, List.find?_append]
  by_cases hn : d.1 = n
  · cases he : d.2.empty with
    | false => simp [hn, he]
    | true =>
      simp only [List.filter_cons, hn, he, List.filter_nil, List.append_nil, List.find?_cons, true_and, Bool.true_eq_false, false_or,
        decide_false, decide_true, Bool.false_eq_true, if_false, and_false]
      cases hl : (defs.filter fun d => d.1 = n ∧ d.2.empty = false).getLast? with
      | some x => simp
      | none =>
        cases hf : defs.find? fun d => d.1 = n with
        | some x => simp
        | none => simp
  · simp [hn]

theorem parse_holding (defs : Parsed) (n : Str) : parse (fun _ => none) defs n = holding defs n := by
  have : ∀ l : Parsed, ∀ n, parse (fun _ => none) l.reverse n = holding l.reverse n := by
    intro l
    induction l with
    | nil => intro n; rfl
    | cons d l ih =>
      intro n
      rw [List.reverse_cons, holding_snoc]
      simp only [parse, List.foldl_append, List.foldl_cons, List.foldl_nil] at ih ⊢
      simp only [addTree]
      by_cases hn : n = d.1
      · subst hn
        rw [ih d.1]
        cases he : d.2.empty with
        | false => simp
        | true =>
          cases hh : holding l.reverse d.1 with
          | none => simp
          | some b => simp [ih, hh]
      · have : ¬ (d.1 = n ∧ (d.2.empty = false ∨ holding l.reverse n = none)) := fun h => hn h.1.symm
        rw [if_neg this]
        split
        · exact ih n
        · show (if n = d.1 then _ else _) = _
          rw [if_neg hn]; exact ih n
  have := this defs.reverse n
  rwa [List.reverse_reverse] at this

theorem parse_append (s : Set) (a b : Parsed) : parse (parse s a) b = parse s (a ++ b) := by
  simp only [parse, List.foldl_append]

theorem loadFiles_all (s : Set) (texts : List Parsed) : loadFiles s (texts.map some) = (parse s texts.flatten, true) := by
  induction texts generalizing s with
  | nil => rfl
  | cons t texts ih =>
    simp only [List.map_cons, loadFiles, ih, List.flatten_cons, parse_append]

theorem tryInfos_ok {disk : Disk} {r : Runner} {i : Inst} (ho : ∀ k n, r.kinds k = some n → n = i.kind) (hd : Readable disk) (name : Str)
    (hr : refused name = false) (paths : List Path) (s : Set) (errs : Nat) :
    let infos := paths.filterMap (found disk r name)
    (∃ p texts, First (fun p => (∃ k, Holds disk r name p k) ∧ (disk.templates (p ++ go! "/" ++ name) = none → p ++ go! "/" ++ name = i.path)) paths p ∧
        ((disk.templates (p ++ go! "/" ++ name) = some (texts.map some)) ∨ (disk.templates (p ++ go! "/" ++ name) = none ∧ texts = [])) ∧
        ∃ n, tryInfos disk r i s infos errs = (parse s texts.flatten, errs + n) ∧ n < infos.length) ∨
    (tryInfos disk r i s infos errs = (s, errs + infos.length)) := by
  induction paths generalizing s errs with
  | nil => exact .inr rfl
  | cons p ps ih =>
    simp only [List.filterMap_cons]
    rw [info_eq]
    have skip : (¬ ((∃ k, Holds disk r name p k) ∧ (disk.templates (p ++ go! "/" ++ name) = none → p ++ go! "/" ++ name = i.path))) →
        ∀ {q}, First (fun p => (∃ k, Holds disk r name p k) ∧ (disk.templates (p ++ go! "/" ++ name) = none → p ++ go! "/" ++ name = i.path)) ps q →
        First (fun p => (∃ k, Holds disk r name p k) ∧ (disk.templates (p ++ go! "/" ++ name) = none → p ++ go! "/" ++ name = i.path)) (p :: ps) q := by
      rintro hn q ⟨pre, post, hl, hq, hpre⟩
      refine ⟨p :: pre, post, by rw [hl]; rfl, hq, ?_⟩
      intro y hy
      rcases List.mem_cons.1 hy with rfl | hy
      · exact hn
      · exact hpre y hy
    cases hh : disk.header (p ++ go! "/" ++ name ++ go! "/module.yaml") with
    | none =>
      have hn : ¬ ∃ k, Holds disk r name p k := by rintro ⟨k, kind, h, -⟩; rw [hh] at h; cases h
      rcases ih s errs with ⟨q, texts, hf, ht, n, hm⟩ | hm
      · exact .inl ⟨q, texts, skip (fun h => hn h.1) hf, ht, n, hm⟩
      · exact .inr hm
    | some kind =>
      cases hk : r.kinds kind with
      | none =>
        have hn : ¬ ∃ k, Holds disk r name p k := by rintro ⟨k, kind', h, h'⟩; rw [hh] at h; cases h; rw [hk] at h'; cases h'
        simp only [hk, Option.isSome_none, Bool.false_eq_true, if_false]
        rcases ih s errs with ⟨q, texts, hf, ht, n, hm⟩ | hm
        · exact .inl ⟨q, texts, skip (fun h => hn h.1) hf, ht, n, hm⟩
        · exact .inr hm
      | some k =>
        have hH : Holds disk r name p k := ⟨kind, hh, hk⟩
        simp only [hk, Option.isSome_some, if_true, tryInfos]
        rw [if_neg (by rw [ho _ _ hk]; simp)]
        cases ht : disk.templates (p ++ go! "/" ++ name) with
        | some fs =>
          obtain ⟨texts, rfl⟩ := hd _ _ ht
          refine .inl ⟨p, texts, ⟨[], ps, rfl, ⟨⟨k, hH⟩, by rw [ht]; simp⟩, by simp⟩, .inl ht, 0, ?_, by simp⟩
          simp only [handleIncludes, ht, loadFiles_all, Nat.add_zero]
        | none =>
          by_cases hown : p ++ go! "/" ++ name = i.path
          · refine .inl ⟨p, [], ⟨[], ps, rfl, ⟨⟨k, hH⟩, fun _ => hown⟩, by simp⟩, .inr ⟨ht, rfl⟩, 0, ?_, by simp⟩
            have hdec : decide (p ++ go! "/" ++ name = i.path) = true := by simpa using hown
            simp only [handleIncludes, ht, hdec]
            rfl
          · have hdec : decide (p ++ go! "/" ++ name = i.path) = false := by simpa using hown
            simp only [handleIncludes, ht, hdec]
            have hn : ¬ ((∃ k, Holds disk r name p k) ∧ (disk.templates (p ++ go! "/" ++ name) = none → p ++ go! "/" ++ name = i.path)) :=
              fun h => hown (h.2 ht)
            rcases ih s (errs + 1) with ⟨q, texts, hf, htx, n, hm, hlt⟩ | hm
            · refine .inl ⟨q, texts, skip hn hf, htx, n + 1, ?_, ?_⟩
              · rw [hm]; congr 1; omega
              · simp only [List.length_cons]; omega
            · refine .inr ?_
              rw [hm]
              simp only [List.length_cons]
              congr 1; omega

theorem includeAll_ok {disk : Disk} {r : Runner} {i : Inst} (ho : ∀ k n, r.kinds k = some n → n = i.kind) (hd : Readable disk)
    (names : List Str) (s s' : Set) (h : includeAll disk r i s names = Go.ret s') :
    ∃ texts, IncludesAll disk r i.path names texts ∧ s' = parse s texts.flatten := by
  induction names generalizing s with
  | nil => cases h; exact ⟨[], .nil, rfl⟩
  | cons name names ih =>
    simp only [includeAll] at h
    unfold infoByName at h
    cases hr : refused name with
    | true => rw [if_pos hr] at h; cases h
    | false =>
      rw [if_neg (by rw [hr]; simp)] at h
      rw [go_bind] at h
      rcases tryInfos_ok ho hd name hr r.paths s 0 with ⟨p, texts, hf, ht, n, hm, hlt⟩ | hm
      · simp only [hm] at h
        rw [if_neg (by omega)] at h
        obtain ⟨rest, hrest, hs⟩ := ih _ h
        refine ⟨texts ++ rest, .cons ⟨p, hf, ht⟩ hrest, ?_⟩
        rw [hs, parse_append, List.flatten_append]
      · simp only [hm] at h
        rw [if_pos (by omega)] at h
        cases h

/-- What a run that gives output has done. -/
theorem run_output {world : Path → Disk} {engine : Engine} {r : Runner} {i : Inst} {allow : Bool} {workDir : Path}
    {ovs : List (Option (Option GoOverride.Table))} {p p' : Proc} {out : Str}
    (h : run world engine r i allow workDir ovs p = (Go.ret out, p')) :
    ∃ m s settings, loadSpec world i p = some (m, { p with loaded := some m }) ∧
      prepare (world p.cwd) r i m allow ovs = Go.ret (s, settings) ∧
      engine.exec s settings (if workDir = [] then p.cwd else chdir (world p.cwd) p.cwd workDir) = some out ∧
      p'.loaded = some m ∧
      p'.cwd = (let inside := if workDir = [] then p.cwd else chdir (world p.cwd) p.cwd workDir
                chdir (world inside) inside (if workDir = [] then [] else p.cwd)) := by
  unfold run at h
  cases hl : loadSpec world i p with
  | none => rw [hl] at h; cases h
  | some mp =>
    obtain ⟨m, q⟩ := mp
    have hq : q = { p with loaded := some m } := by
      unfold loadSpec at hl
      cases hp : p.loaded with
      | some m' => rw [hp] at hl; cases hl; cases p; cases hp; rfl
      | none =>
        rw [hp] at hl
        simp only at hl
        split at hl
        · cases hl
        · cases hl; rfl
    subst hq
    rw [hl] at h
    simp only at h
    cases hp : prepare (world p.cwd) r i m allow ovs with
    | ok o =>
      cases o with
      | none => rw [hp] at h; cases h
      | some ss =>
        obtain ⟨s, settings⟩ := ss
        rw [hp] at h
        simp only at h
        cases he : engine.exec s settings (if workDir = [] then p.cwd else chdir (world p.cwd) p.cwd workDir) with
        | none => rw [he] at h; cases h
        | some o =>
          rw [he] at h
          cases h
          exact ⟨m, s, settings, rfl, hp, he, rfl, rfl⟩
    | abort => rw [hp] at h; cases h
    | ub => rw [hp] at h; cases h
    | hang => rw [hp] at h; cases h

theorem prepare_ok {disk : Disk} {r : Runner} {i : Inst} {m : MSpec} {allow : Bool} {ovs : List (Option (Option GoOverride.Table))}
    {s : Set} {settings : GoOverride.Table} (h : prepare disk r i m allow ovs = Go.ret (s, settings)) :
    ∃ inp main s', m.settings = some inp ∧ m.template = some (some main) ∧ GoOverride.mergeAll inp ovs = .ok (some settings) ∧
      (m.includes = [] ∨ allow = true) ∧ handleIncludes disk i.path (parse (fun _ => none) main) i.path = (s', true) ∧
      includeAll disk r i s' m.includes = Go.ret s := by
  unfold prepare at h
  split at h
  · cases h
  · cases h
  · rename_i src inp h1 h2
    cases hm : GoOverride.mergeAll inp ovs with
    | ok o =>
      cases o with
      | none => rw [hm] at h; cases h
      | some st =>
        rw [hm] at h
        change (match src with | none => Go.fail | some main => _) = _ at h
        cases src with
        | none => cases h
        | some main =>
          simp only at h
          split at h
          · cases h
          · rename_i hallow
            cases hi : handleIncludes disk i.path (parse (fun _ => none) main) i.path with
            | mk s' ok =>
              rw [hi] at h
              cases ok with
              | false => cases h
              | true =>
                simp only at h
                cases hx : includeAll disk r i s' m.includes with
                | ok o =>
                  cases o with
                  | none => rw [hx] at h; cases h
                  | some s2 =>
                    rw [hx] at h
                    cases h
                    refine ⟨inp, main, s', h2, h1, hm, ?_, hi, hx⟩
                    rcases Classical.em (m.includes = []) with h | h
                    · exact .inl h
                    · exact .inr (by simpa [h] using hallow)
                | abort => rw [hx] at h; cases h
                | ub => rw [hx] at h; cases h
                | hang => rw [hx] at h; cases h
    | abort => rw [hm] at h; cases h
    | ub => rw [hm] at h; cases h
    | hang => rw [hm] at h; cases h

/-- **C90** A module that gives output was executed with its own template, the templates of its own
directory and those of every module it includes, each from the first search path that has them; of
several definitions of one template the last that is not empty holds.  For runners with one kind of
modules (as the command has) and files that can be parsed. -/
theorem C90_templates_partial (world : Path → Disk) (engine : Engine) (r : Runner) (i : Inst) (allow : Bool) (workDir : Path)
    (ovs : List (Option (Option GoOverride.Table))) (p p' : Proc) (out : Str) (m : MSpec)
    (ho : ∀ k n, r.kinds k = some n → n = i.kind) (hd : Readable (world p.cwd))
    (hm : (world p.cwd).spec (i.path ++ go! "/" ++ i.file) = some m) (hp : p.loaded = none)
    (h : run world engine r i allow workDir ovs p = (Go.ret out, p')) :
    ∃ main own included set settings cwd, m.template = some (some main) ∧ (workDir = [] → cwd = p.cwd) ∧
      (∀ e, workDir ≠ [] → (world p.cwd).enter workDir = some e → cwd = e) ∧
      ((world p.cwd).templates i.path = some (own.map some) ∨ ((world p.cwd).templates i.path = none ∧ own = [])) ∧
      IncludesAll (world p.cwd) r i.path m.includes included ∧
      (∀ n, set n = holding (main ++ own.flatten ++ included.flatten) n) ∧
      engine.exec set settings cwd = some out := by
  obtain ⟨m', s, settings, hl, hpr, he, -, -⟩ := run_output h
  have : m' = m := by
    unfold loadSpec at hl
    rw [hp] at hl
    have hm : (world p.cwd).spec (sub i.path i.file) = some m := hm
    simp only [hm] at hl
    cases hl; rfl
  subst this
  obtain ⟨inp, main, s', h1, h2, h3, h4, h5, h6⟩ := prepare_ok hpr
  obtain ⟨included, hinc, hs⟩ := includeAll_ok ho hd _ _ _ h6
  have hown : ∃ own : List Parsed, ((world p.cwd).templates i.path = some (own.map some) ∨ ((world p.cwd).templates i.path = none ∧ own = [])) ∧
      s' = parse (fun _ => none) (main ++ own.flatten) := by
    unfold handleIncludes at h5
    cases ht : (world p.cwd).templates i.path with
    | none => rw [ht] at h5; rw [← (Prod.mk.inj h5).1]; exact ⟨[], .inr ⟨rfl, rfl⟩, by simp⟩
    | some fs =>
      obtain ⟨own, rfl⟩ := hd _ _ ht
      rw [ht] at h5
      simp only [loadFiles_all] at h5
      cases h5
      exact ⟨own, .inl rfl, by rw [parse_append]⟩
  obtain ⟨own, hown, hs'⟩ := hown
  refine ⟨main, own, included, s, settings, _, h2, fun hw => if_pos hw, ?_, hown, hinc, ?_, he⟩
  · intro e hw hent
    rw [if_neg hw]
    simp only [chdir, hent, Option.getD_some]
  intro n
  rw [hs, hs', parse_append, parse_holding]

/-! ### C91: settings -/

/-- **C91** The template is executed on the settings of the module as the overrides change them, one
after the other. -/
theorem C91_settings (world : Path → Disk) (engine : Engine) (r : Runner) (i : Inst) (allow : Bool) (workDir : Path)
    (ovs : List GoOverride.Table) (p p' : Proc) (out : Str) (m : MSpec) (inp : GoOverride.Table)
    (hm : (world p.cwd).spec (i.path ++ go! "/" ++ i.file) = some m) (hp : p.loaded = none) (hs : m.settings = some inp)
    (hi : GoOverride.Spec.Map inp) (hv : ∀ o ∈ ovs, GoOverride.Spec.Map o)
    (h : run world engine r i allow workDir (ovs.map fun o => some (some o)) p = (Go.ret out, p')) :
    ∃ set settings cwd, engine.exec set settings cwd = some out ∧
      ∀ q c, GoOverride.Spec.At settings q c ↔ GoOverride.Spec.Layered inp ovs.reverse q c := by
  obtain ⟨m', s, settings, hl, hpr, he, -, -⟩ := run_output h
  have : m' = m := by
    unfold loadSpec at hl
    rw [hp] at hl
    have hm : (world p.cwd).spec (sub i.path i.file) = some m := hm
    simp only [hm] at hl
    cases hl; rfl
  subst this
  obtain ⟨inp', main, s', h1, h2, h3, h4, h5, h6⟩ := prepare_ok hpr
  rw [hs] at h1; cases h1
  obtain ⟨t, ht, hat⟩ := GoOverride.C47_all inp ovs hi hv
  rw [ht] at h3; cases h3
  exact ⟨s, settings, _, he, hat⟩

/-! ### C89: the working directory -/

/-- **C89** After a run the process is where it was, unless it was told another directory and the
execution of the template failed there. -/
theorem C89_directory_partial (dirs : Path → Prop) (world : Path → Disk) (hos : Os dirs world) (engine : Engine) (r : Runner) (i : Inst) (allow : Bool) (workDir : Path)
    (ovs : List (Option (Option GoOverride.Table))) (p : Proc) (hd : dirs p.cwd) :
    let res := run world engine r i allow workDir ovs p
    res.2.cwd = p.cwd ∨ (workDir ≠ [] ∧ res.1 = Go.fail ∧ ∃ s settings, engine.exec s settings res.2.cwd = none) := by
  have inner : ∀ inside, inside = (if workDir = [] then p.cwd else chdir (world p.cwd) p.cwd workDir) →
      chdir (world inside) inside (if workDir = [] then [] else p.cwd) = p.cwd := by
    intro inside hin
    by_cases hw : workDir = []
    · rw [if_pos hw] at hin ⊢
      subst hin
      simp only [chdir, hos.none, Option.getD_none]
    · rw [if_neg hw] at hin ⊢
      subst hin
      unfold chdir
      cases he : (world p.cwd).enter workDir with
      | none => simp only [Option.getD_none, hos.here _ hd, Option.getD_some]
      | some e => simp only [Option.getD_some, hos.back _ _ _ hd he]
  have lcwd : ∀ m q, loadSpec world i p = some (m, q) → q.cwd = p.cwd := by
    intro m q hl
    unfold loadSpec at hl
    split at hl
    · cases hl; rfl
    · split at hl
      · cases hl
      · cases hl; rfl
  show (run world engine r i allow workDir ovs p).2.cwd = p.cwd ∨ (_ ∧ (run world engine r i allow workDir ovs p).1 = _ ∧
    ∃ s settings, engine.exec s settings (run world engine r i allow workDir ovs p).2.cwd = none)
  unfold run
  cases hl : loadSpec world i p with
  | none => exact .inl rfl
  | some mq =>
    obtain ⟨m, q⟩ := mq
    have hq := lcwd m q hl
    simp only
    rw [hq]
    cases hp : prepare (world p.cwd) r i m allow ovs with
    | ok o =>
      cases o with
      | none => exact .inl hq
      | some ss =>
        obtain ⟨s, settings⟩ := ss
        simp only
        cases he : engine.exec s settings (if workDir = [] then p.cwd else chdir (world p.cwd) p.cwd workDir) with
        | none =>
          simp only
          by_cases hw : workDir = []
          · exact .inl (if_pos hw)
          · exact .inr ⟨hw, trivial, s, settings, he⟩
        | some out => exact .inl (inner _ rfl)
    | abort => exact .inl hq
    | ub => exact .inl hq
    | hang => exact .inl hq

/-! ### C91: one run after another -/

/-- Runs of one instance, one after the other: what each was told. -/
def runs (world : Path → Disk) (engine : Engine) (r : Runner) (i : Inst) (allow : Bool) :
    List (Path × List (Option (Option GoOverride.Table))) → Proc → Proc
  | [], p => p
  | x :: xs, p => runs world engine r i allow xs (run world engine r i allow x.1 x.2 p).2

/-- The instance has nothing loaded, or what is on the disk. -/
theorem run_fresh {world : Path → Disk} {engine : Engine} {r : Runner} {i : Inst} {allow : Bool} {workDir : Path}
    {ovs : List (Option (Option GoOverride.Table))} {p : Proc}
    (h : p.loaded = none ∨ p.loaded = (world p.cwd).spec (sub i.path i.file)) :
    (run world engine r i allow workDir ovs p).1 = (run world engine r i allow workDir ovs ⟨p.cwd, none⟩).1 ∧
    ((run world engine r i allow workDir ovs p).2.loaded = none ∨
      (run world engine r i allow workDir ovs p).2.loaded = (world p.cwd).spec (sub i.path i.file)) := by
  obtain ⟨cwd, loaded⟩ := p
  simp only at h ⊢
  have key : ∀ l : Option MSpec, (l = none ∨ l = (world cwd).spec (sub i.path i.file)) →
      (loadSpec world i ⟨cwd, l⟩ = none ∧ l = none ∧ (world cwd).spec (sub i.path i.file) = none) ∨
      ∃ m, (world cwd).spec (sub i.path i.file) = some m ∧ loadSpec world i ⟨cwd, l⟩ = some (m, ⟨cwd, some m⟩) := by
    intro l hl
    cases hs : (world cwd).spec (sub i.path i.file) with
    | none =>
      have : l = none := by rcases hl with h | h; exact h; rw [hs] at h; exact h
      subst this
      exact .inl ⟨by simp only [loadSpec, hs], rfl, rfl⟩
    | some m =>
      refine .inr ⟨m, rfl, ?_⟩
      rcases hl with rfl | rfl
      · simp only [loadSpec, hs]
      · simp only [loadSpec, hs]
  have hnone := key none (.inl rfl)
  rcases key loaded h with ⟨h1, h2, h3⟩ | ⟨m, hm, h1⟩
  · subst h2
    refine ⟨rfl, .inl ?_⟩
    unfold run
    rw [h1]
  · rcases hnone with ⟨h1', h2', h3'⟩ | ⟨m', hm', h1'⟩
    · rw [hm] at h3'; cases h3'
    · rw [hm] at hm'; cases hm'
      unfold run
      rw [h1, h1']
      refine ⟨rfl, .inr ?_⟩
      rw [hm]
      simp only
      cases prepare (world cwd) r i m allow ovs with
      | ok o =>
        cases o with
        | none => rfl
        | some ss =>
          obtain ⟨s, settings⟩ := ss
          simp only
          cases engine.exec s settings (if workDir = [] then cwd else chdir (world cwd) cwd workDir) <;> rfl
      | abort => rfl
      | ub => rfl
      | hang => rfl

/-- **C91** A run of an instance gives what the first run of a new instance gives, whatever was run
before, if none of the executions before failed in another directory. -/
theorem C91_again_partial (dirs : Path → Prop) (world : Path → Disk) (hos : Os dirs world) (engine : Engine) (r : Runner) (i : Inst) (allow : Bool) (cwd : Path) (hd : dirs cwd)
    (before : List (Path × List (Option (Option GoOverride.Table))))
    (hb : ∀ x ∈ before, x.1 = [] ∨ ∀ s settings c, engine.exec s settings c ≠ none)
    (workDir : Path) (ovs : List (Option (Option GoOverride.Table))) :
    (run world engine r i allow workDir ovs (runs world engine r i allow before ⟨cwd, none⟩)).1 =
      (run world engine r i allow workDir ovs ⟨cwd, none⟩).1 := by
  have inv : ∀ (before : List (Path × List (Option (Option GoOverride.Table)))) (p : Proc),
      (∀ x ∈ before, x.1 = [] ∨ ∀ s settings c, engine.exec s settings c ≠ none) →
      p.cwd = cwd → (p.loaded = none ∨ p.loaded = (world cwd).spec (sub i.path i.file)) →
      (runs world engine r i allow before p).cwd = cwd ∧
      ((runs world engine r i allow before p).loaded = none ∨ (runs world engine r i allow before p).loaded = (world cwd).spec (sub i.path i.file)) := by
    intro before
    induction before with
    | nil => intro p _ h1 h2; exact ⟨h1, h2⟩
    | cons x xs ih =>
      intro p hb h1 h2
      refine ih _ (fun y hy => hb y (by simp [hy])) ?_ ?_
      · rcases C89_directory_partial dirs world hos engine r i allow x.1 x.2 p (h1 ▸ hd) with h | ⟨h, -, s, settings, he⟩
        · rw [h, h1]
        · rcases hb x (by simp) with h' | h'
          · exact absurd h' h
          · exact absurd he (h' _ _ _)
      · have := (run_fresh (engine := engine) (r := r) (allow := allow) (workDir := x.1) (ovs := x.2) (p := p) (by rw [h1]; exact h2)).2
        rw [h1] at this
        exact this
  obtain ⟨h1, h2⟩ := inv before ⟨cwd, none⟩ hb rfl (.inl rfl)
  have := (run_fresh (engine := engine) (r := r) (allow := allow) (workDir := workDir) (ovs := ovs)
    (p := runs world engine r i allow before ⟨cwd, none⟩) (by rw [h1]; exact h2)).1
  rw [this, h1]

/-- **C87** The command runs the module of the first search path (`./modules` if none is given) that
has one of kind `goTemplate` under the name, with the given file or `module.yaml`; without any it
fails. -/
theorem C87_command (world : Path → Disk) (engine : Engine) (dirOf baseOf : Path → Path) (paths : List Path) (name file workDir : Str)
    (ovs : List (Option (Option GoOverride.Table))) (cwd : Path) (hn : name ≠ [])
    (hs : (47 : UInt8) ∉ name) (hb : (92 : UInt8) ∉ name) (h1 : name ≠ go! ".") (h2 : name ≠ go! "..") :
    let searched := if paths = [] then [go! "./modules"] else paths
    let has := fun p : Path => (world cwd).header (p ++ go! "/" ++ name ++ go! "/module.yaml") = some (go! "goTemplate")
    (∃ p r, First has searched p ∧ r.paths = searched ∧
      command world engine dirOf baseOf paths name file workDir ovs cwd =
        (run world engine r ⟨0, p ++ go! "/" ++ name, if file = [] then go! "module.yaml" else file⟩ true workDir ovs ⟨cwd, none⟩).1) ∨
    ((∀ p ∈ searched, ¬ has p) ∧ command world engine dirOf baseOf paths name file workDir ovs cwd = Go.fail) := by
  intro searched has
  let r : Runner := ⟨fun k => if k = go! "goTemplate" then some 0 else none, searched⟩
  have hiff : ∀ p k, Holds (world cwd) r name p k ↔ has p ∧ k = 0 := by
    intro p k
    constructor
    · rintro ⟨kind, h, hk⟩
      simp only [r] at hk
      split at hk
      · rename_i he; cases hk; subst he; exact ⟨by simpa [has] using h, rfl⟩
      · cases hk
    · rintro ⟨h, rfl⟩
      exact ⟨go! "goTemplate", by simpa [has] using h, by simp only [r, if_true]⟩
  rcases C87_first (world cwd) dirOf baseOf r name file hn hs hb h1 h2 with ⟨p, k, ⟨pre, post, hl, _, hpre⟩, hh, hi⟩ | ⟨hno, hi⟩
  · obtain ⟨hp, rfl⟩ := (hiff p k).1 hh
    refine .inl ⟨p, r, ⟨pre, post, hl, hp, fun q hq hq' => hpre q hq ⟨0, (hiff q 0).2 ⟨hq', rfl⟩⟩⟩, rfl, ?_⟩
    unfold command
    show (newInstance (world cwd) makeTemplate dirOf baseOf r name file >>= _) = _
    rw [hi]
    rfl
  · refine .inr ⟨fun p hp hh => hno p hp ⟨0, (hiff p 0).2 ⟨hh, rfl⟩⟩, ?_⟩
    unfold command
    show (newInstance (world cwd) makeTemplate dirOf baseOf r name file >>= _) = _
    rw [hi]
    rfl

/-! ### Concrete cases -/

/-- Text as a template body. -/
def text (s : Str) : Body := ⟨s, s = []⟩

/-- A disk: `mods/gen` and `more/gen` hold a module, `more/lib` a library of templates; `mods/lib`
holds one whose second file cannot be parsed.  `gen` includes `lib`.  The file `extra.yaml` is in
`more/gen` only.  Paths are seen from `/home`; `/tmp` is another directory. -/
def exDisk : Disk where
  header p := if p = go! "mods/gen/module.yaml" ∨ p = go! "more/gen/module.yaml" ∨ p = go! "more/lib/module.yaml" then some (go! "goTemplate")
    else if p = go! "mods/lib/module.yaml" then some (go! "goTemplate") else if p = go! "mods/other/module.yaml" then some (go! "starlark") else none
  spec p :=
    if p = go! "mods/gen/module.yaml" then
      some ⟨[go! "lib"], some (.cons (go! "path") (.other 1) .nil), some (some [(go! "main", text (go! "run"))])⟩
    else if p = go! "more/gen/extra.yaml" then
      some ⟨[], some .nil, some (some [(go! "main", text (go! "extra"))])⟩
    else if p = go! "mods/gen/other.yaml" then
      some ⟨[go! "other"], some .nil, some (some [(go! "main", text (go! "run"))])⟩
    else none
  templates p :=
    if p = go! "mods/gen" then some [some [(go! "a.tpl", text []), (go! "a", text (go! "own"))]]
    else if p = go! "more/lib" then some [some [(go! "b.tpl", text []), (go! "b", text (go! "lib")), (go! "a", text (go! "lib's"))]]
    else if p = go! "mods/lib" then some [some [(go! "c.tpl", text []), (go! "c", text (go! "old"))], none]
    else if p = go! "mods/other" then some [some [(go! "d.tpl", text []), (go! "d", text (go! "other"))]]
    else none
  enter p := if p = go! "/tmp" then some p else if p = go! "/home" then some p else none

/-- Nothing is found from elsewhere: the paths are relative. -/
def exWorld : Path → Disk := fun cwd =>
  if cwd = go! "/home" then exDisk
  else { header := fun _ => none, spec := fun _ => none, templates := fun _ => none, enter := exDisk.enter }

/-- Writes what the templates `a`, `b` and `c` are and where it is. -/
def exEngine : Engine where
  exec s _ cwd := some (((s (go! "a")).map Body.text).getD (go! "-") ++ go! "," ++ ((s (go! "b")).map Body.text).getD (go! "-") ++ go! ","
    ++ ((s (go! "c")).map Body.text).getD (go! "-") ++ go! "@" ++ cwd)

/-- A template that fails. -/
def exFails : Engine := ⟨fun _ _ _ => none⟩

/-- The runner of the command with two search paths. -/
def exRunner : Runner := ⟨fun k => if k = go! "goTemplate" then some 0 else none, [go! "mods", go! "more"]⟩
/-- A runner that knows another kind of modules, too. -/
def exKinds : Runner := ⟨fun k => if k = go! "goTemplate" then some 0 else if k = go! "starlark" then some 1 else none, [go! "mods", go! "more"]⟩

/-- **C88** The claim that a module which cannot be loaded is looked for in the later search paths is
false: here the described file is in the second path only; the instance made is the one of the first,
and running it fails, while the one of the second gives output. -/
theorem C88_fallback_false (dirOf baseOf : Path → Path) :
    newInstance exDisk makeTemplate dirOf baseOf exRunner (go! "gen") (go! "extra.yaml") = Go.ret ⟨0, go! "mods/gen", go! "extra.yaml"⟩ ∧
    (run exWorld exEngine exRunner ⟨0, go! "mods/gen", go! "extra.yaml"⟩ true [] [] ⟨go! "/home", none⟩).1 = Go.fail ∧
    (run exWorld exEngine exRunner ⟨0, go! "more/gen", go! "extra.yaml"⟩ true [] [] ⟨go! "/home", none⟩).1 = Go.ret (go! "-,-,-@/home") :=
  ⟨rfl, rfl, rfl⟩

/-- **C88** What holds: of the modules found, the first whose factory accepts it is taken. -/
theorem C88_fallback_partial (make : Nat → Path → Str → Option Inst) (r : Runner) (file : Str) (infos : List (Path × Str)) (i : Inst) :
    firstMade make r file infos = some i →
    ∃ x, First (fun x : Path × Str => ∃ k j, r.kinds x.2 = some k ∧ make k x.1 file = some j) infos x ∧
      ∃ k, r.kinds x.2 = some k ∧ make k x.1 file = some i := by
  intro h
  induction infos with
  | nil => cases h
  | cons x xs ih =>
    obtain ⟨path, kind⟩ := x
    simp only [firstMade] at h
    cases hx : newByInfo make r kind path file with
    | some j =>
      rw [hx] at h
      cases h
      unfold newByInfo at hx
      cases hk : r.kinds kind with
      | none => rw [hk] at hx; cases hx
      | some k =>
        rw [hk] at hx
        exact ⟨(path, kind), ⟨[], xs, rfl, ⟨k, i, hk, hx⟩, by simp⟩, k, hk, hx⟩
    | none =>
      rw [hx] at h
      obtain ⟨y, ⟨pre, post, hl, hy, hpre⟩, hk⟩ := ih h
      refine ⟨y, ⟨(path, kind) :: pre, post, by rw [hl]; rfl, hy, ?_⟩, hk⟩
      intro z hz
      rcases List.mem_cons.1 hz with rfl | hz
      · rintro ⟨k, j, hk, hj⟩
        unfold newByInfo at hx
        rw [hk] at hx
        simp only at hx
        rw [hx] at hj
        cases hj
      · exact hpre z hz

example : ∃ x, First (fun x : Path × Str => ∃ k j, exKinds.kinds x.2 = some k ∧
      (fun k p f => if k = 0 then makeTemplate k p f else none) k x.1 [] = some j) [(go! "mods/other", go! "starlark"), (go! "more/gen", go! "goTemplate")] x ∧
    ∃ k, exKinds.kinds x.2 = some k ∧ (fun k p f => if k = 0 then makeTemplate k p f else none) k x.1 [] = some ⟨0, go! "more/gen", []⟩ :=
  C88_fallback_partial (fun k p f => if k = 0 then makeTemplate k p f else none) exKinds [] _ _ rfl

/-- The module is taken from `mods`, although `more` has one, too. -/
example (dirOf baseOf : Path → Path) :
    newInstance exDisk makeTemplate dirOf baseOf exRunner (go! "gen") [] = Go.ret ⟨0, go! "mods/gen", go! "module.yaml"⟩ ∧
    Holds exDisk exRunner (go! "gen") (go! "mods") 0 ∧ Holds exDisk exRunner (go! "gen") (go! "more") 0 :=
  ⟨rfl, ⟨_, rfl, rfl⟩, ⟨_, rfl, rfl⟩⟩

example (dirOf baseOf : Path → Path) :
    command exWorld exEngine dirOf baseOf [go! "mods", go! "more"] (go! "gen") [] (go! "/tmp") [] (go! "/home") = Go.ret (go! "lib's,lib,old@/tmp") ∧
    command exWorld exEngine dirOf baseOf [] (go! "gen") [] (go! "/tmp") [] (go! "/home") = Go.fail := ⟨rfl, rfl⟩

example : ∃ infos, infoByName exDisk exRunner (go! "lib") = Go.ret infos ∧ infos.length = 2 ∧
    infoByName exDisk exRunner (go! "../etc") = Go.fail := ⟨_, rfl, rfl, rfl⟩

theorem exWorld_enter (c : Path) : (exWorld c).enter = exDisk.enter := by unfold exWorld; split <;> rfl

theorem exWorld_os : Os (fun c => c = go! "/home" ∨ c = go! "/tmp") exWorld where
  none c := by rw [exWorld_enter]; rfl
  here c h := by rw [exWorld_enter]; rcases h with rfl | rfl <;> rfl
  back c d e h _ := by rw [exWorld_enter]; rcases h with rfl | rfl <;> rfl

/-- A run in `/tmp` that gives output and ends in `/home`. -/
example : (run exWorld exEngine exRunner ⟨0, go! "mods/gen", go! "module.yaml"⟩ true (go! "/tmp") [] ⟨go! "/home", none⟩).1 =
      Go.ret (go! "lib's,lib,old@/tmp") ∧
    (run exWorld exEngine exRunner ⟨0, go! "mods/gen", go! "module.yaml"⟩ true (go! "/tmp") [] ⟨go! "/home", none⟩).2.cwd = go! "/home" :=
  ⟨rfl, (C89_directory_partial _ exWorld exWorld_os exEngine exRunner _ true _ [] _ (.inl rfl)).resolve_right
    (fun ⟨_, _, _, _, h⟩ => by cases h)⟩

/-- **C89** The full claim is false: a template that fails in another directory leaves the process
there. -/
theorem C89_directory_false : (exWorld (go! "/home")).enter (go! "/tmp") = some (go! "/tmp") ∧
    (run exWorld exFails exRunner ⟨0, go! "mods/gen", go! "module.yaml"⟩ true (go! "/tmp") [] ⟨go! "/home", none⟩).1 = Go.fail ∧
    (run exWorld exFails exRunner ⟨0, go! "mods/gen", go! "module.yaml"⟩ true (go! "/tmp") [] ⟨go! "/home", none⟩).2.cwd = go! "/tmp" :=
  ⟨rfl, rfl, rfl⟩

/-- **C89** A directory that cannot be entered is not reported: the template is executed where the
process is. -/
theorem C89_missing_false : (exWorld (go! "/home")).enter (go! "/missing") = none ∧
    (run exWorld exEngine exRunner ⟨0, go! "mods/gen", go! "module.yaml"⟩ true (go! "/missing") [] ⟨go! "/home", none⟩).1 =
      Go.ret (go! "lib's,lib,old@/home") := ⟨rfl, rfl⟩

/-- **C90** With two kinds of modules, an included module of the other kind is left out without an
error: its template `d` is not there. -/
theorem C90_kind_false :
    exDisk.templates (go! "mods/other") = some [some [(go! "d.tpl", text []), (go! "d", text (go! "other"))]] ∧
    (run exWorld ⟨fun s _ _ => some (((s (go! "d")).map Body.text).getD (go! "no d"))⟩ exKinds ⟨0, go! "mods/gen", go! "other.yaml"⟩ true [] []
      ⟨go! "/home", none⟩).1 = Go.ret (go! "no d") := ⟨rfl, rfl⟩

/-- **C90** Templates of a module that could not be loaded stay: `c` is from `mods/lib`, whose second
file cannot be parsed, `b` from `more/lib`, which was taken instead. -/
theorem C90_rest_false :
    exDisk.templates (go! "mods/lib") = some [some [(go! "c.tpl", text []), (go! "c", text (go! "old"))], none] ∧
    (run exWorld exEngine exRunner ⟨0, go! "mods/gen", go! "module.yaml"⟩ true [] [] ⟨go! "/home", none⟩).1 =
      Go.ret (go! "lib's,lib,old@/home") := ⟨rfl, rfl⟩

/-- Fails in `/tmp`. -/
def exTmp : Engine := ⟨fun s t cwd => if cwd = go! "/tmp" then none else exEngine.exec s t cwd⟩

/-- **C91** The full claim is false: after a run that failed in another directory the same instance
does not find what it includes any more. -/
theorem C91_again_false :
    (run exWorld exTmp exRunner ⟨0, go! "mods/gen", go! "module.yaml"⟩ true [] [] ⟨go! "/home", none⟩).1 = Go.ret (go! "lib's,lib,old@/home") ∧
    (run exWorld exTmp exRunner ⟨0, go! "mods/gen", go! "module.yaml"⟩ true [] []
      (runs exWorld exTmp exRunner ⟨0, go! "mods/gen", go! "module.yaml"⟩ true [(go! "/tmp", [])] ⟨go! "/home", none⟩)).1 = Go.fail := ⟨rfl, rfl⟩

/-- `exDisk` with a `mods/lib` that can be read. -/
def exRead : Disk := { exDisk with templates := fun p => if p = go! "mods/lib" then some [some [(go! "c", text (go! "old"))]] else exDisk.templates p }

theorem exRead_readable : Readable exRead := by
  intro p fs h
  unfold exRead exDisk at h
  simp only at h
  repeat' split at h
  all_goals first
    | (cases h; done)
    | (cases h; exact ⟨[_], rfl⟩)

example : ∃ out p', run (fun _ => exRead) exEngine exRunner ⟨0, go! "mods/gen", go! "module.yaml"⟩ true [] [] ⟨go! "/home", none⟩ = (Go.ret out, p') ∧
    out = go! "own,-,old@/home" ∧
    ∃ main own included set settings cwd, some (some main) = some (some [(go! "main", text (go! "run"))]) ∧
      (([] : Path) = [] → cwd = go! "/home") ∧ (∀ e, ([] : Path) ≠ [] → exRead.enter [] = some e → cwd = e) ∧
      (exRead.templates (go! "mods/gen") = some (own.map some) ∨ (exRead.templates (go! "mods/gen") = none ∧ own = [])) ∧
      IncludesAll exRead exRunner (go! "mods/gen") [go! "lib"] included ∧
      (∀ n, set n = holding (main ++ own.flatten ++ included.flatten) n) ∧ exEngine.exec set settings cwd = some out := by
  refine ⟨_, _, rfl, rfl, ?_⟩
  obtain ⟨main, own, included, set, settings, cwd, h1, h⟩ := C90_templates_partial (fun _ => exRead) exEngine exRunner
    ⟨0, go! "mods/gen", go! "module.yaml"⟩ true [] [] ⟨go! "/home", none⟩ _ _ _
    (by intro k n h; simp only [exRunner] at h; split at h <;> cases h; rfl) exRead_readable rfl rfl rfl
  exact ⟨main, own, included, set, settings, cwd, h1.symm, h⟩

/-- Writes whether the setting comes from the override. -/
def exPath : Engine := ⟨fun _ t _ => match t with
  | .cons _ (.other 2) .nil => some (go! "two")
  | _ => some (go! "one")⟩

/-- The settings of `gen` with an override that changes `path`, seen by the template. -/
example : ∃ out p', run (fun _ => exRead) exPath exRunner
      ⟨0, go! "mods/gen", go! "module.yaml"⟩ true [] ([.cons (go! "path") (.other 2) .nil].map fun o => some (some o)) ⟨go! "/home", none⟩ = (Go.ret out, p') ∧
    out = go! "two" ∧ GoOverride.Spec.Map (.cons (go! "path") (.other 1) .nil) ∧ GoOverride.Spec.Map (.cons (go! "path") (.other 2) .nil) := by
  refine ⟨_, _, rfl, rfl, ?_, ?_⟩ <;>
    exact .cons (fun _ h => by cases h) (fun _ h => by cases h) .nil

/-- Two runs before, one in another directory. -/
example : (run exWorld exEngine exRunner ⟨0, go! "mods/gen", go! "module.yaml"⟩ true [] []
      (runs exWorld exEngine exRunner ⟨0, go! "mods/gen", go! "module.yaml"⟩ true [(go! "/tmp", []), ([], [none])] ⟨go! "/home", none⟩)).1 =
    Go.ret (go! "lib's,lib,old@/home") :=
  (C91_again_partial _ exWorld exWorld_os exEngine exRunner _ true _ (.inl rfl) _ (fun _ _ => .inr fun _ _ _ h => by cases h) [] []).trans rfl

end Verif.GoModule
