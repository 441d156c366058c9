import Verif.CDecl.VaList
/-
C114: parameters that are argument lists.
-/
namespace Verif.CDecl
open Verif Verif.Entry Spec

/-- **C114**: a parameter is reported as an argument list exactly if its type is the one called
`va_list` or the pointer to `struct __va_list_tag`, for every type there is, to any depth.
Missing: other names of these types (C114_alias_false). -/
theorem C114_recognised_partial {db : Db} {r t : Ref} (hp : (db r).info = .param false (some t)) (ht : IsType db t) (hf : Finite db t)
    (hs : ∀ d, Mentions db t d → Sound db d) (hn : ∀ d, Mentions db t d → ProperName db d) :
    ∃ b, isVaList db r = .ok b ∧ (b = true ↔ IsVaList db t) := by
  have e1 : ([118, 97, 95, 108, 105, 115, 116, 32, 37, 115] : Text) = vaName ++ [37, 115] ++ [] := rfl
  have e2 : ([115, 116, 114, 117, 99, 116, 32, 95, 95, 118, 97, 95, 108, 105, 115, 116, 95, 116, 97, 103, 32, 42, 32, 37, 115] : Text) =
      (vaTag ++ [42, 32]) ++ [37, 115] ++ [] := rfl
  have p1 : Plain vaName := by unfold Plain; decide
  have p2 : Plain (vaTag ++ [42, 32]) := by unfold Plain; decide
  have a1 : ascii "va_list" = vaName.dropLast := by decide +kernel
  have a2 : ascii "struct __va_list_tag" = vaTag.dropLast := by decide +kernel
  have a3 : ascii "__va_list_tag" = vaTag.dropLast.drop 7 := by decide +kernel
  -- the types that are argument lists have the texts looked for
  have back : IsVaList db t → cdecl db t = .ok (some (vaName ++ [37, 115])) ∨ cdecl db t = .ok (some (vaTag ++ [42, 32] ++ [37, 115])) := by
    intro h
    cases h with
    | typedef hi hname =>
      left
      rw [no_dep (by rw [deps, hi]), combine, hi, hname, a1]
      rfl
    | base hi hname =>
      left
      rw [no_dep (by rw [deps, hi]), combine, hi, hname, a1]
      rfl
    | @pointer d _ _ hi hd hname =>
      right
      have : cdecl db d = .ok (some (vaTag ++ [37, 115])) := by
        rw [no_dep (by rw [deps, hd, hname]; rfl), combine, hd, hname, a3]
        rfl
      rw [one_dep (by rw [deps, hi]; rfl) this, combine, hi]
      rfl
  unfold isVaList
  rw [hp]
  simp only
  rcases result hf hs with ⟨_, h⟩ | ⟨_, s, h, _⟩
  · refine ⟨false, by rw [h]; rfl, ?_⟩
    refine ⟨fun e => (nomatch e), fun hv => ?_⟩
    rcases back hv with h' | h' <;> (rw [h] at h'; cases h')
  · refine ⟨_, by rw [h]; rfl, ?_⟩
    rw [Bool.or_eq_true, decide_eq_true_eq, decide_eq_true_eq]
    constructor
    · intro e
      obtain ⟨a, b, hsab, ha, hb, hform⟩ := form hf hs ht h
      rcases e with e | e
      · rw [e1, hsab] at e
        obtain ⟨rfl, rfl⟩ := one_hole_unique e ha p1
        obtain ⟨hi, hname⟩ := form_name hform rfl
        rw [← a1] at hname
        rcases hi with ⟨u, hi⟩ | ⟨z, e, hi⟩
        · exact .typedef hi hname
        · exact .base hi hname
      · rw [e2, hsab] at e
        obtain ⟨rfl, rfl⟩ := one_hole_unique e ha p2
        obtain ⟨d, hi, hd⟩ := form_pointer hform rfl fun n h => (hn t .self n h).1
        have u : Uses db t d := .pointer hi
        obtain ⟨a, b, hsab, ha, hb, hform⟩ := form (hf.inv u) (fun x hx => hs x (Mentions.trans (.step .self u) hx)) ((hs t .self).links d u) hd
        obtain ⟨rfl, rfl⟩ := one_hole_unique (a := vaTag) (b := []) (by simpa using hsab) (by unfold Plain; decide) ha
        rcases form_tag hform rfl with ⟨h1, h2⟩ | ⟨z, ms, h1, h2⟩
        · exact absurd a2.symm ((hn d (.step .self u) _ h2).2 h1)
        · exact .pointer hi h1 (by rw [h2, a3])
    · intro hv
      rcases back hv with h' | h'
      · left
        rw [h] at h'
        cases h'
        rfl
      · right
        rw [h] at h'
        cases h'
        rfl

/-- **C114**: what is not a parameter with a type is never reported as an argument list: other
entries, `...`, and parameters without a type. -/
theorem C114_other {db : Db} {r : Ref} (h : ∀ t, (db r).info ≠ .param false (some t)) : isVaList db r = .ok false := by
  unfold isVaList
  split
  · rename_i t ht
    exact absurd ht (h t)
  · rfl

/-- 0: the type named `va_list`; 1: a parameter of that type; 2: `struct __va_list_tag`; 3: a pointer
to it; 4: a parameter of type 3; 5: another name, `args`, of the type 0; 6: a parameter of type 5; 7:
`...`; 8: pointer to 0; 9: parameter of type 8. -/
def vaDemo : Db := fun r =>
  match r with
  | 0 => { info := .typedef none, name := some [118, 97, 95, 108, 105, 115, 116] }
  | 1 => { info := .param false (some 0), name := some [97, 112] }
  | 2 => { info := .struct .struct 24 [], name := some [95, 95, 118, 97, 95, 108, 105, 115, 116, 95, 116, 97, 103] }
  | 3 => { info := .pointer (some 2) }
  | 4 => { info := .param false (some 3), name := some [97, 112] }
  | 5 => { info := .typedef (some 0), name := some [97, 114, 103, 115] }
  | 6 => { info := .param false (some 5), name := some [97, 112] }
  | 7 => { info := .param true none }
  | 8 => { info := .pointer (some 0) }
  | 9 => { info := .param false (some 8), name := some [97, 112] }
  | _ => { info := .unspecifiedType }

theorem va_closed : closed vaDemo [0, 2, 3, 5, 8] = true := by decide

theorem va_finite {r : Ref} (h : ∀ d ∈ links vaDemo r, Finite vaDemo d) : Finite vaDemo r := ⟨_, fun d u => h d (uses_links u)⟩

theorem va_names {s : Ref} (hs : s ∈ ([0, 2, 3, 5, 8] : List Ref)) : ∀ d, Mentions vaDemo s d → ProperName vaDemo d := by
  intro d hd n hn
  have hm := closed_mentions va_closed hs hd
  have : ∀ d ∈ ([0, 2, 3, 5, 8] : List Ref), ∀ n ∈ (vaDemo d).name.toList, (42 : UInt8) ∉ n ∧ n ≠ ascii "struct __va_list_tag" := by decide +kernel
  obtain ⟨h1, h2⟩ := this d hm n (by rw [hn]; simp)
  exact ⟨h1, fun _ => h2⟩

theorem va_leaf0 : Finite vaDemo 0 := va_finite (by intro d hd; simp [links, vaDemo] at hd)
theorem va_leaf2 : Finite vaDemo 2 := va_finite (by intro d hd; simp [links, vaDemo] at hd)
theorem va_ptr {r d : Ref} (h : links vaDemo r = [d]) (hd : Finite vaDemo d) : Finite vaDemo r :=
  va_finite (by intro x hx; rw [h] at hx; simp at hx; subst hx; exact hd)

/-- The hypotheses of C114 are met: by both kinds of argument lists and by a pointer to one, which is
none. -/
example : isVaList vaDemo 1 = .ok true ∧ isVaList vaDemo 4 = .ok true ∧ isVaList vaDemo 9 = .ok false ∧ isVaList vaDemo 7 = .ok false := by
  have a1 : ascii "va_list" = [118, 97, 95, 108, 105, 115, 116] := by decide +kernel
  have a3 : ascii "__va_list_tag" = [95, 95, 118, 97, 95, 108, 105, 115, 116, 95, 116, 97, 103] := by decide +kernel
  refine ⟨?_, ?_, ?_, C114_other (by simp [vaDemo])⟩
  · obtain ⟨b, h1, h2⟩ := C114_recognised_partial (db := vaDemo) (r := 1) (t := 0) rfl (by simp [IsType, vaDemo]) va_leaf0
      (closed_sound va_closed (by simp)) (va_names (by simp))
    rw [h1, h2.mpr (.typedef rfl (by rw [a1]; rfl))]
  · obtain ⟨b, h1, h2⟩ := C114_recognised_partial (db := vaDemo) (r := 4) (t := 3) rfl (by simp [IsType, vaDemo]) (va_ptr rfl va_leaf2)
      (closed_sound va_closed (by simp)) (va_names (by simp))
    rw [h1, h2.mpr (.pointer (d := 2) rfl rfl (by rw [a3]; rfl))]
  · obtain ⟨b, h1, h2⟩ := C114_recognised_partial (db := vaDemo) (r := 9) (t := 8) rfl (by simp [IsType, vaDemo]) (va_ptr rfl va_leaf0)
      (closed_sound va_closed (by simp)) (va_names (by simp))
    rw [h1]
    cases b
    · rfl
    · cases h2.mp rfl with
      | typedef h => simp [vaDemo] at h
      | base h => simp [vaDemo] at h
      | pointer h h' => simp [vaDemo] at h; subst h; simp [vaDemo] at h'

/-- C114 is false of the code in full: a parameter declared with another name for `va_list` is not
reported, although it is an argument list. -/
theorem C114_alias_false : ∃ (db : Db) (r t v : Ref), (db r).info = .param false (some t) ∧ (db t).info = .typedef (some v) ∧ IsVaList db v ∧
    (∀ d, Mentions db t d → Sound db d ∧ ProperName db d) ∧ isVaList db r = .ok false := by
  have a1 : ascii "va_list" = [118, 97, 95, 108, 105, 115, 116] := by decide +kernel
  refine ⟨vaDemo, 6, 5, 0, rfl, rfl, .typedef rfl (by rw [a1]; rfl),
    fun d hd => ⟨closed_sound va_closed (by simp) d hd, va_names (s := 5) (by simp) d hd⟩, ?_⟩
  obtain ⟨b, h1, h2⟩ := C114_recognised_partial (db := vaDemo) (r := 6) (t := 5) rfl (by simp [IsType, vaDemo])
    (va_finite (by intro d hd; simp [links, vaDemo] at hd)) (closed_sound va_closed (by simp)) (va_names (by simp))
  rw [h1]
  cases b
  · rfl
  · cases h2.mp rfl with
    | typedef _ h => rw [a1] at h; simp [vaDemo] at h
    | base h => simp [vaDemo] at h
    | pointer h => simp [vaDemo] at h

end Verif.CDecl
