import Verif.Emit.RunLemmas
/-
Every good database can be put into memory.
-/
namespace Verif.Emit
open Verif.GoMeta (Str)
open Spec
open Verif.Entry (Ref Db Info)

/-- The number of leaves. -/
def total (l : List (Str × CEntry)) : Nat := (l.map fun x => ((leaves x.2).getD []).length).sum

theorem entriesOf_get (addr : Str → Ref) (start : Ref) (l : List (Str × CEntry)) (k : Nat) (x : Str × CEntry)
    (h : l[k]? = some x) : (entriesOf addr start l)[k]? = some (entryOf addr (start + total (l.take k)) x.2) := by
  induction l generalizing start k with
  | nil => simp at h
  | cons y l ih =>
    cases k with
    | zero =>
      simp at h
      subst h
      simp [entriesOf, total]
    | succ k =>
      simp at h
      simp only [entriesOf, List.getElem?_cons_succ, ih _ _ h, total, List.take_succ_cons, List.map_cons, List.sum_cons]
      rw [Nat.add_assoc]

theorem entriesOf_length (addr : Str → Ref) (start : Ref) (l : List (Str × CEntry)) : (entriesOf addr start l).length = l.length := by
  induction l generalizing start with
  | nil => rfl
  | cons y l ih => simp [entriesOf, ih]

theorem leaves_get (addr : Str → Ref) (l : List (Str × CEntry)) (k : Nat) (x : Str × CEntry) (h : l[k]? = some x)
    (j : Nat) (lf : Leaf) (hj : ((leaves x.2).getD [])[j]? = some lf) :
    (l.flatMap fun x => ((leaves x.2).getD []).map (leafOf addr))[total (l.take k) + j]? = some (leafOf addr lf) := by
  induction l generalizing k with
  | nil => simp at h
  | cons y l ih =>
    cases k with
    | zero =>
      simp at h
      subst h
      have hlt : j < ((leaves y.2).getD []).length := (List.getElem?_eq_some_iff.mp hj).1
      simp only [total, List.take_zero, List.map_nil, List.sum_nil, Nat.zero_add, List.flatMap_cons]
      rw [List.getElem?_append_left (by simpa using hlt), List.getElem?_map, hj]
      rfl
    | succ k =>
      simp at h
      have := ih k h
      simp only [total, List.take_succ_cons, List.map_cons, List.sum_cons, List.flatMap_cons] at this ⊢
      rw [List.getElem?_append_right (by simp; omega), ← this]
      congr 1
      simp
      omega

/-- Records that stand for a description. -/
def Sound (addr : Str → Ref) (e : CEntry) : Prop :=
  ∃ ls, leaves e = some ls ∧ (∀ l ∈ ls, (leafInfo addr l).isSome = true) ∧ ∀ refs, (entryInfo addr refs e).isSome = true

theorem sound_params (addr : Str → Ref) (i : Str) (ps : List Param) :
    ∀ l ∈ ps.map (Spec.param i), (leafInfo addr l).isSome = true := by
  intro l hl
  obtain ⟨p, -, rfl⟩ := List.mem_map.mp hl
  rfl

theorem sound_members (addr : Str → Ref) (i : Str) (fs : List Field) :
    ∀ l ∈ fs.map (Spec.member i), (leafInfo addr l).isSome = true := by
  intro l hl
  obtain ⟨p, -, rfl⟩ := List.mem_map.mp hl
  rfl

theorem sound_entry (addr : Str → Ref) {ids : List Str} {o : Obj} (h : Fits ids o) : Sound addr (Spec.entry o) := by
  cases o with
  | enumeration hd size es =>
    refine ⟨[], rfl, by simp, fun refs => ?_⟩
    simp only [Spec.entry, typeEntry, entryInfo, counted_map, Option.bind_some, mapM_some, Option.map_some]
    rfl
  | subroutine hd t ps =>
    refine ⟨ps.map (Spec.param hd.id), ?_, sound_params addr _ _, fun refs => rfl⟩
    simp only [Spec.entry, typeEntry, leaves, counted_map]
  | subprogram hd t ps hier =>
    refine ⟨ps.map (Spec.param hd.id), ?_, sound_params addr _ _, fun refs => rfl⟩
    simp only [Spec.entry, objEntry, leaves, counted_map]
  | qual hd q t =>
    have hf := h.2.2
    simp only [List.mem_cons, List.not_mem_nil, or_false] at hf
    rcases hf with rfl | rfl | rfl | rfl | rfl | rfl <;> exact ⟨[], rfl, by simp, fun refs => rfl⟩
  | reference hd tag size t =>
    have hf := h.2.1
    simp only [List.mem_cons, List.not_mem_nil, or_false] at hf
    rcases hf with rfl | rfl <;> exact ⟨[], rfl, by simp, fun refs => rfl⟩
  | aggregate hd tag size al fs hier =>
    have hf := h.2.1
    simp only [List.mem_cons, List.not_mem_nil, or_false] at hf
    by_cases hdl : hd.decl = some true
    · simp only [Spec.entry, if_pos hdl]
      rcases hf with rfl | rfl | rfl <;> exact ⟨[], rfl, by simp, fun refs => rfl⟩
    · simp only [Spec.entry, if_neg hdl]
      have hl : ∀ n : Int, n = 16 ∨ n = 17 ∨ n = 18 → ∀ e : CEntry, e.kind = n → e.info.membersCount = fs.length →
          e.info.members = unlessEmpty (Spec.member hd.id) fs → leaves e = some (fs.map (Spec.member hd.id)) := by
        intro n hn e he hc hmm
        unfold leaves
        rw [he, hc, hmm, counted_unless]
        rcases hn with rfl | rfl | rfl <;> rfl
      rcases hf with rfl | rfl | rfl
      · exact ⟨_, hl 16 (by simp) _ rfl rfl rfl, sound_members addr _ _, fun refs => rfl⟩
      · exact ⟨_, hl 17 (by simp) _ rfl rfl rfl, sound_members addr _ _, fun refs => rfl⟩
      · exact ⟨_, hl 18 (by simp) _ rfl rfl rfl, sound_members addr _ _, fun refs => rfl⟩
  | _ => exact ⟨[], rfl, by simp, fun refs => rfl⟩

theorem idxOf_getElem {l : List Str} (h : l.Nodup) (k : Nat) (hk : k < l.length) : l.idxOf l[k] = k := by
  induction l generalizing k with
  | nil => cases hk
  | cons a l ih =>
    rw [List.nodup_cons] at h
    cases k with
    | zero => simp
    | succ k =>
      have hk' : k < l.length := by simpa using hk
      have hne : a ≠ l[k] := fun he => h.1 (he ▸ List.getElem_mem hk')
      have hb : (a == l[k]) = false := by simpa using hne
      rw [List.getElem_cons_succ, List.idxOf_cons, hb, ih h.2 k hk']
      rfl

theorem loaded_of_sound (defs : List (Str × CEntry)) (hnd : (defs.map (·.1)).Nodup) (h : ∀ x ∈ defs, Sound (place defs) x.2) :
    Loaded defs (place defs) (memory defs) := by
  intro x hx
  obtain ⟨ls, h1, h2, h3⟩ := h x hx
  obtain ⟨k, hk⟩ := List.mem_iff_getElem?.mp hx
  have hkl : k < defs.length := (List.getElem?_eq_some_iff.mp hk).1
  have hp : place defs x.1 = k := by
    unfold place
    have hkm : (defs.map (·.1))[k]'(by simpa using hkl) = x.1 := by
      have := (List.getElem?_eq_some_iff.mp hk).2
      simp [this]
    rw [← hkm]
    exact idxOf_getElem hnd k (by simpa using hkl)
  have hrec : memory defs k = entryOf (place defs) (defs.length + total (defs.take k)) x.2 := by
    unfold memory image
    rw [List.getElem?_append_left (by rw [entriesOf_length]; exact hkl), entriesOf_get _ _ _ _ _ hk]
    rfl
  rw [hp]
  unfold EntryAt ParentsAt
  rw [hrec]
  refine ⟨?_, rfl, rfl⟩
  refine ⟨rfl, by simp [entryOf], ls, ls.mapIdx fun j _ => defs.length + total (defs.take k) + j, h1, by simp, ?_, ?_⟩
  · intro j l m hj hm
    have hjl : j < ls.length := (List.getElem?_eq_some_iff.mp hj).1
    rw [List.getElem?_mapIdx, hj] at hm
    simp only [Option.map_some, Option.some.injEq] at hm
    subst hm
    have hleaf : memory defs (defs.length + total (defs.take k) + j) = leafOf (place defs) l := by
      unfold memory image
      rw [List.getElem?_append_right (by rw [entriesOf_length]; omega), entriesOf_length]
      have := leaves_get (place defs) defs k x hk j l (by rw [h1]; exact hj)
      rw [show defs.length + total (defs.take k) + j - defs.length = total (defs.take k) + j by omega, this]
      rfl
    unfold LeafAt ParentsAt
    rw [hleaf]
    have := h2 l (List.mem_of_getElem? hj)
    obtain ⟨i, hi⟩ := Option.isSome_iff_exists.mp this
    exact ⟨rfl, rfl, by simp [leafOf, hi], rfl, rfl⟩
  · have := h3 (ls.mapIdx fun j _ => defs.length + total (defs.take k) + j)
    obtain ⟨i, hi⟩ := Option.isSome_iff_exists.mp this
    simp [entryOf, h1, hi]

theorem loaded_memory {db : List Obj} (hg : Good db) :
    Loaded (db.map fun o => (o.id, Spec.entry o)).reverse (place (db.map fun o => (o.id, Spec.entry o)).reverse)
      (memory (db.map fun o => (o.id, Spec.entry o)).reverse) := by
  apply loaded_of_sound
  · rw [List.map_reverse, List.map_map]
    exact List.pairwise_reverse.mpr (hg.ids.imp fun h => h.symm)
  · intro x hx
    obtain ⟨o, ho, rfl⟩ := List.mem_map.mp (List.mem_reverse.mp hx)
    exact sound_entry _ (hg.fits o ho)

end Verif.Emit
