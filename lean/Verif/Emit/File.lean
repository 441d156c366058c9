import Verif.Emit.Templates
/-
The whole file.
-/
namespace Verif.Emit
open Verif.GoMeta (Str)
open Spec (CName Good Snake)

theorem ident_of {s : Str} (h : CName s) : ident s = [.id s] := by
  obtain ⟨h1, c, t, rfl, h2⟩ := h
  have a1 : (c :: t).all wordByte = true := by
    rw [List.all_eq_true]
    intro x hx
    have := h1 x hx
    simp only [wordByte, Bool.or_eq_true, Bool.and_eq_true, decide_eq_true_eq, beq_iff_eq]
    rcases this with h | h | h | h
    · exact .inl (.inl (.inl h))
    · exact .inl (.inl (.inr h))
    · exact .inl (.inr h)
    · exact .inr h
  have a2 : (57 : UInt8) < c := by
    have h3 := h1 c List.mem_cons_self
    rcases h3 with h | h | h | h
    · exact absurd h h2
    · exact UInt8.lt_of_lt_of_le (by decide) h.1
    · exact UInt8.lt_of_lt_of_le (by decide) h.1
    · rw [h]; decide
  unfold ident
  rw [if_pos]
  simp only [a1, List.headD_cons, Bool.true_and]
  exact decide_eq_true a2

theorem CName.append {s t : Str} (h : CName s)
    (ht : ∀ c ∈ t, (48 ≤ c ∧ c ≤ 57) ∨ (65 ≤ c ∧ c ≤ 90) ∨ (97 ≤ c ∧ c ≤ 122) ∨ c = 95) : CName (s ++ t) := by
  obtain ⟨h1, c, u, rfl, h2⟩ := h
  refine ⟨fun x hx => ?_, c, u ++ t, rfl, h2⟩
  rcases List.mem_append.mp hx with h | h
  · exact h1 x h
  · exact ht x h

theorem cname_vaArg {s : Str} (h : CName s) : CName (s ++ go! "_va_arg") := CName.append h (by decide)

/-- Every object of a good database is read back. -/
theorem right {snake : Str → Str} (hs : Snake snake) {sc : Scope} {db : List Obj} (hg : Good db) (o : Obj) (ho : o ∈ db)
    (he : ∀ p ∈ db, p.id ∈ sc.entries) (hfn : vaFn o ≠ [] → o.id ++ go! "_va_arg" ∈ sc.funcs) :
    Right sc (initialiser snake o) (Spec.entry o) := by
  have c : Ctx sc (db.map Obj.id) := by
    constructor
    · intro i hi
      obtain ⟨p, hp, rfl⟩ := List.mem_map.mp hi
      exact he p hp
    · intro i hi
      obtain ⟨p, hp, rfl⟩ := List.mem_map.mp hi
      exact ident_of (hg.names p hp)
  have hf := hg.fits o ho
  have hid : o.id ∈ db.map Obj.id := List.mem_map_of_mem ho
  have hv := ident_of (cname_vaArg (hg.names o ho))
  cases o with
  | base h size enc => exact right_base hs c hf
  | enumeration h size es => exact right_enumeration c hf
  | array h count level lower stride type => exact right_array c hf
  | pointer h type => exact right_pointer c hf
  | reference h tag size type => exact right_reference hs c hf
  | unspecified h => exact right_unspecified c hf
  | subroutine h type ps => exact right_subroutine c hid hf
  | qual h q type => exact right_qual hs c hf
  | typedef h type => exact right_typedef c hf
  | aggregate h tag size alignment fs hier =>
    refine right_aggregate hs c hid hv (fun hsz => hfn ?_) hf
    cases size with
    | none => exact absurd rfl hsz
    | some v => simp [vaFn]
  | subprogram h type ps hier => exact right_subprogram c hid hf
  | «variable» h type => exact right_variable c hf
  | lexBlock i par hier => exact right_lexBlock c hf
  | «namespace» i name par modules decls hier => exact right_namespace c hf
  | unit i name lang files modules decls hier => exact right_unit c hf

theorem compile_declare {db : List Obj} (hn : ∀ o ∈ db, CName o.id) (sc : Scope) (hsc : sc.funcs = []) (defs : List (Str × CEntry))
    (rest : List TopItem) :
    compile sc defs (db.map (fun o => .declare (ident o.id)) ++ rest) =
      compile ⟨(db.map Obj.id).reverse ++ sc.entries, []⟩ defs rest := by
  induction db generalizing sc with
  | nil =>
    cases sc
    simp only at hsc
    subst hsc
    simp
  | cons o db ih =>
    rw [List.map_cons, List.cons_append, ident_of (hn o List.mem_cons_self)]
    simp only [compile, hsc, List.not_mem_nil, if_false]
    rw [ih (fun p hp => hn p (List.mem_cons_of_mem _ hp)) _ rfl]
    simp

/-- What is known while the definitions are read: `done` are behind, all names are declared. -/
structure Reading (db done : List Obj) (sc : Scope) (defs : List (Str × CEntry)) : Prop where
  declared : ∀ o ∈ db, o.id ∈ sc.entries
  only : ∀ s ∈ sc.entries, ∃ o ∈ db, s = o.id
  funcs : ∀ s ∈ sc.funcs, ∃ o ∈ done, s = o.id ++ go! "_va_arg"
  defs : defs = (done.map fun o => (o.id, Spec.entry o)).reverse

theorem vaFn_cases (o : Obj) : vaFn o = [] ∨ ∃ size, vaFn o = [.vaFn (ident (o.id ++ go! "_va_arg")) size] ∧
    ∀ ids, Spec.Fits ids o → 0 ≤ size := by
  cases o with
  | aggregate h tag size alignment fs hier =>
    cases size with
    | none => exact .inl rfl
    | some v => exact .inr ⟨v, rfl, fun ids hf => (hf.2.2.1 v rfl).1⟩
  | _ => exact .inl rfl

theorem compile_define {snake : Str → Str} (hs : Snake snake) {db : List Obj} (hg : Good db) (rest done : List Obj)
    (e : db = done ++ rest) (sc : Scope) (defs : List (Str × CEntry)) (h : Reading db done sc defs) :
    compile sc defs (rest.flatMap fun o => vaFn o ++ [.define (ident o.id) (initialiser snake o)]) =
      some (db.map fun o => (o.id, Spec.entry o)).reverse := by
  induction rest generalizing done sc defs with
  | nil =>
    simp only [List.append_nil] at e
    subst e
    rw [List.flatMap_nil, h.defs]
    rfl
  | cons o rest ih =>
    have ho : o ∈ db := by rw [e]; simp
    have hdone : ∀ p ∈ done, p ∈ db := fun p hp => by rw [e]; exact List.mem_append_left _ hp
    have hfresh : o.id ∉ done.map Obj.id := by
      have := hg.ids
      rw [e, List.map_append, List.map_cons, List.nodup_append] at this
      intro hm
      exact this.2.2 _ hm _ List.mem_cons_self rfl
    -- the definition, from any scope that has the function
    have key : ∀ sc', sc'.entries = sc.entries → (∀ s ∈ sc'.funcs, ∃ p ∈ done ++ [o], s = p.id ++ go! "_va_arg") →
        (vaFn o ≠ [] → o.id ++ go! "_va_arg" ∈ sc'.funcs) →
        compile sc' defs (.define (ident o.id) (initialiser snake o) ::
          rest.flatMap fun o => vaFn o ++ [.define (ident o.id) (initialiser snake o)]) =
        some (db.map fun o => (o.id, Spec.entry o)).reverse := by
      intro sc' hent hfun hva
      obtain ⟨-, v, hv, hval⟩ := right hs (sc := sc') hg o ho (fun p hp => hent ▸ h.declared p hp) hva
      have hp := hv [] (initialiser snake o).length (Nat.le_refl _) (.inl rfl)
      rw [List.append_nil] at hp
      rw [ident_of (hg.names o ho)]
      simp only [compile, hp]
      rw [if_neg]
      · rw [hval, Option.bind_some]
        refine ih (done ++ [o]) (by rw [e]; simp) _ _ ⟨?_, ?_, hfun, ?_⟩
        · exact fun p hp => List.mem_cons_of_mem _ (hent ▸ h.declared p hp)
        · intro s hs'
          rcases List.mem_cons.mp hs' with rfl | hs'
          · exact ⟨o, ho, rfl⟩
          · exact h.only s (hent ▸ hs')
        · simp [h.defs]
      · rintro (hm | hm)
        · obtain ⟨p, hp, hpe⟩ := hfun _ hm
          refine hg.apart o ho p ?_ hpe
          rcases List.mem_append.mp hp with h' | h'
          · exact hdone p h'
          · exact (List.mem_singleton.mp h') ▸ ho
        · apply hfresh
          rw [h.defs] at hm
          simpa using hm
    rw [List.flatMap_cons]
    rcases vaFn_cases o with hz | ⟨size, hz, hpos⟩
    · rw [hz]
      refine key sc rfl (fun s hs' => ?_) (fun hne => absurd hz hne)
      obtain ⟨p, hp, hpe⟩ := h.funcs s hs'
      exact ⟨p, List.mem_append_left _ hp, hpe⟩
    · rw [hz, ident_of (cname_vaArg (hg.names o ho))]
      simp only [List.cons_append, List.nil_append]
      rw [compile, if_pos]
      · refine key _ rfl (fun s hs' => ?_) (fun _ => List.mem_cons_self)
        rcases List.mem_cons.mp hs' with rfl | hs'
        · exact ⟨o, by simp, rfl⟩
        · obtain ⟨p, hp, hpe⟩ := h.funcs s hs'
          exact ⟨p, List.mem_append_left _ hp, hpe⟩
      · refine ⟨hpos _ (hg.fits o ho), fun hm => ?_, fun hm => ?_⟩
        · obtain ⟨p, hp, hpe⟩ := h.funcs _ hm
          have : o.id = p.id := List.append_cancel_right hpe
          exact hfresh (this ▸ List.mem_map_of_mem hp)
        · obtain ⟨p, hp, hpe⟩ := h.only _ hm
          exact hg.apart p hp o ho hpe.symm

theorem compile_file {snake : Str → Str} (hs : Snake snake) {db : List Obj} (hg : Good db) :
    compileFile (file snake db) = some (db.map fun o => (o.id, Spec.entry o)).reverse := by
  unfold compileFile file
  rw [compile_declare hg.names _ rfl]
  refine compile_define hs hg db [] rfl _ _ ⟨?_, ?_, ?_, rfl⟩
  · intro o ho
    simp only [List.append_nil, List.mem_reverse]
    exact List.mem_map_of_mem ho
  · intro s hs'
    simp only [List.append_nil, List.mem_reverse] at hs'
    obtain ⟨o, ho, rfl⟩ := List.mem_map.mp hs'
    exact ⟨o, ho, rfl⟩
  · intro s hs'
    cases hs'

end Verif.Emit
