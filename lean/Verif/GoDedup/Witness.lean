import Verif.GoDedup.Run
/-
Concrete builds, and a signature that can be computed.
-/
namespace Verif.GoDedup
open Spec
open GoMeta (Str)

/-- Signatures up to a depth. -/
def sigF (obj : Nat → Desc) : Nat → (Off → Option Nat) → Nat → Bool → Go Str
  | 0, _, _, _ => Go.panic
  | n + 1, ptr, o, c => signature (fun l => match ptr l with | none => Go.panic | some p => sigF obj n ptr p false) c (obj o)

theorem signature_mono {link link' : Off → Go Str} (hm : ∀ l x, link l = Go.ret x → link' l = Go.ret x) {d : Desc} {c : Bool} {s : Str}
    (hc : isType d = true ∨ c = false) (h : signature link c d = Go.ret s) : signature link' c d = Go.ret s := by
  have hr : ∀ r, rest link d = Go.ret r → rest link' d = Go.ret r := fun r h => rest_mono (n := r.length) (fun l x _ hx => hm l x hx) h (Nat.le_refl _)
  cases c with
  | false =>
    rw [signature_false] at h ⊢
    rcases h with h | ⟨h1, h2, h3, r, h4, h5⟩
    · exact .inl h
    · exact .inr ⟨h1, h2, h3, r, hr _ h4, h5⟩
  | true =>
    have ty : isType d = true := by rcases hc with h | h; exact h; cases h
    rw [signature_true _ _ _ ty] at h ⊢
    obtain ⟨h1, h2, r, h4, h5⟩ := h
    exact ⟨h1, h2, r, hr _ h4, h5⟩

theorem sigF_sig {obj : Nat → Desc} : ∀ {n : Nat} {ptr : Off → Option Nat} {o : Nat} {c : Bool} {s : Str}, isType (obj o) = true ∨ c = false →
    sigF obj n ptr o c = Go.ret s → sig obj ptr o c = Go.ret s
  | 0, _, _, _, _, _, h => absurd h Go.panic_ne
  | n + 1, ptr, o, c, s, hc, h => by
    rw [sig_eq]
    refine signature_mono ?_ hc h
    intro l x hx
    rw [target_ret]
    split at hx
    · exact absurd hx Go.panic_ne
    · rename_i p hp
      exact ⟨p, hp, sigF_sig (.inr rfl) hx⟩

theorem stepF {w : World} {n : Nat} {i : Off} {st st' : St} (hty : ∀ o, st.ptr i = some o → isTypeTag (w.tag i) = true → isType (w.obj o) = true)
    (h : stepWith (sigF w.obj n) w i st = Go.ret st') : stepWith (sig w.obj) w i st = Go.ret st' := by
  unfold stepWith at h ⊢
  split at h
  · exact h
  · rename_i o hp
    split at h
    · rename_i ht; rw [if_pos ht]; exact h
    · rename_i ht
      have ty := hty o hp (by simpa using ht)
      rw [if_neg ht]
      split at h
      · rename_i p he
        split at h
        · exact h
        · split at h
          · rename_i hd; rw [if_pos hd]; exact h
          · rename_i hd
            rw [if_neg hd]
            obtain ⟨hs, h1, h⟩ := Go.bind_ret.mp h
            refine Go.bind_ret.mpr ⟨hs, sigF_sig (.inr rfl) h1, ?_⟩
            split at h
            · rename_i hdc; rw [if_pos hdc]; exact h
            · rename_i hdc
              rw [if_neg hdc]
              obtain ⟨cs, h2, h⟩ := Go.bind_ret.mp h
              exact Go.bind_ret.mpr ⟨cs, sigF_sig (.inl ty) h2, h⟩
      · exact h

/-- Rows: offset, parent, tag, declaration, object (whose number is the offset). -/
structure Row where
  off : Off
  parent : Option Off
  tag : Str
  decl : Bool := false
  desc : Option Desc

def rowOf (rows : List Row) (i : Off) : Option Row := rows.find? fun r => r.off == i

def world (rows : List Row) : World where
  entries i := (rowOf rows i).map Row.parent
  tag i := ((rowOf rows i).map Row.tag).getD []
  decl i := ((rowOf rows i).map Row.decl).getD false
  obj o := ((rowOf rows o).bind Row.desc).getD (.lexBlock [])

def start (rows : List Row) : St where
  ptr i := (rowOf rows i).bind fun r => r.desc.map fun _ => i
  parents i := ((rowOf rows i).bind Row.parent).toList
  added := (rows.filter fun r => r.desc.isSome && isTypeTag r.tag == false).map Row.off

def closedB (s : Str) : Bool := depth 0 s == some 0
def plainB (s : Str) : Bool := s.all fun c => c != 40 && c != 41 && c != 44 && c != 58
def namesB (d : Desc) : Bool :=
  (match name d with | none => declared d == false | some n => n != [] && closedB n && n.getLast? != some 44) &&
  (match d with
   | .struct _ _ fs _ => fs.all fun f => match f.name with | none => true | some n => plainB n
   | .enumeration _ es => es.all fun e => plainB e.1
   | .base _ e => plainB e
   | _ => true)

theorem plainB_plain {s : Str} (h : plainB s = true) : Plain s := by
  intro c hc
  have := List.all_eq_true.mp h c hc
  simpa [and_assoc] using this

theorem namesB_names {d : Desc} (h : namesB d = true) : Names d := by
  unfold namesB at h
  rw [Bool.and_eq_true] at h
  obtain ⟨h1, h2⟩ := h
  refine ⟨?_, ?_, ?_, ?_, ?_⟩
  · intro n hn
    rw [hn] at h1
    simp only [Bool.and_eq_true, bne_iff_ne, closedB, beq_iff_eq] at h1
    exact ⟨h1.1.1, h1.1.2, h1.2⟩
  · intro hn
    rw [hn] at h1
    simpa using h1
  · rintro hh a fs hs rfl f hf n hn
    have := List.all_eq_true.mp h2 f hf
    rw [hn] at this
    exact plainB_plain this
  · rintro hh es rfl e he
    exact plainB_plain (List.all_eq_true.mp h2 e he)
  · rintro hh e rfl
    exact plainB_plain h2

def rowsB (rows : List Row) : Bool :=
  decide (rows.map Row.off).Nodup && rows.all fun r => match r.desc with | none => true | some d => namesB d && (r.tag == tagName (cat d))

theorem rowOf_some {rows : List Row} {i : Off} {r : Row} (h : rowOf rows i = some r) : r ∈ rows ∧ r.off = i := by
  refine ⟨List.mem_of_find?_eq_some h, ?_⟩
  have := List.find?_some h
  simpa using this

theorem rowOf_mem {rows : List Row} (hn : (rows.map Row.off).Nodup) {r : Row} (h : r ∈ rows) : rowOf rows r.off = some r := by
  cases hr : rowOf rows r.off with
  | none =>
    have := List.find?_eq_none.mp hr r h
    simp at this
  | some q =>
    obtain ⟨h1, h2⟩ := rowOf_some hr
    congr 1
    induction rows with
    | nil => cases h
    | cons a as ih =>
      rw [List.map_cons, List.nodup_cons] at hn
      rcases List.mem_cons.mp h with rfl | h' <;> rcases List.mem_cons.mp h1 with rfl | h1'
      · rfl
      · exact absurd (List.mem_map.mpr ⟨q, h1', h2⟩) hn.1
      · exact absurd (List.mem_map.mpr ⟨r, h', h2.symm⟩) hn.1
      · refine ih hn.2 h' ?_ h1'
        have : rowOf (a :: as) r.off = rowOf as r.off := by
          unfold rowOf
          rw [List.find?_cons]
          have : (a.off == r.off) = false := by
            rw [beq_eq_false_iff_ne]
            intro e
            exact hn.1 (List.mem_map.mpr ⟨r, h', e.symm⟩)
          rw [this]
        rw [← this]
        exact hr

theorem start_ptr {rows : List Row} {i o : Nat} (h : (start rows).ptr i = some o) : o = i ∧ ∃ r d, rowOf rows i = some r ∧ r.desc = some d := by
  simp only [start] at h
  cases hr : rowOf rows i with
  | none => rw [hr] at h; cases h
  | some r =>
    rw [hr] at h
    cases hd : r.desc with
    | none => simp [hd] at h
    | some d =>
      simp [hd] at h
      exact ⟨h.symm, r, d, rfl, hd⟩

theorem start_start {rows : List Row} (h : rowsB rows = true) : Start (world rows) (start rows) := by
  unfold rowsB at h
  rw [Bool.and_eq_true, decide_eq_true_eq] at h
  obtain ⟨hn, hr⟩ := h
  have hrow : ∀ {i r d}, rowOf rows i = some r → r.desc = some d → namesB d = true ∧ r.tag = tagName (cat d) := by
    intro i r d h1 h2
    have := List.all_eq_true.mp hr r (rowOf_some h1).1
    rw [h2] at this
    simpa using this
  refine ⟨?_, ?_, ?_, ?_, ?_, ?_, ⟨fun _ => rfl, rfl, rfl⟩⟩
  · intro o
    simp only [world]
    cases h1 : rowOf rows o with
    | none => exact namesB_names (by decide)
    | some r =>
      cases h2 : r.desc with
      | none => simp only [Option.bind_some, h2]; exact namesB_names (by decide)
      | some d => simp only [Option.bind_some, h2]; exact namesB_names (hrow h1 h2).1
  · intro i j o h1 h2
    rw [← (start_ptr h1).1, ← (start_ptr h2).1]
  · intro i o h1
    obtain ⟨rfl, r, d, h2, h3⟩ := start_ptr h1
    simp only [world, h2, Option.bind_some, h3, Option.getD_some, Option.map_some]
    exact (hrow h2 h3).2
  · intro i o h1
    obtain ⟨rfl, r, d, h2, h3⟩ := start_ptr h1
    simp only [world, h2, Option.bind_some, h3, Option.getD_some, start, List.mem_map, List.mem_filter, Bool.and_eq_true, beq_iff_eq]
    rw [← (tag_type d).2, ← (hrow h2 h3).2]
    constructor
    · rintro ⟨q, ⟨hq, hq1, hq2⟩, e⟩
      have := rowOf_mem hn hq
      rw [e, h2] at this
      cases this
      exact hq2
    · intro ht
      exact ⟨r, ⟨(rowOf_some h2).1, by simp [h3], ht⟩, (rowOf_some h2).2⟩
  · intro o ho
    simp only [start, List.mem_map, List.mem_filter, Bool.and_eq_true] at ho
    obtain ⟨r, ⟨hr1, hr2, -⟩, rfl⟩ := ho
    refine ⟨r.off, ?_⟩
    simp only [start, rowOf_mem hn hr1, Option.bind_some]
    cases hd : r.desc with
    | none => rw [hd] at hr2; cases hr2
    | some d => rfl
  · simp only [start]
    exact (List.filter_sublist.map Row.off).nodup hn

theorem visits_start {rows : List Row} {order : List Off} (h1 : order.Nodup) (h2 : ∀ r ∈ rows, r.desc ≠ none → r.off ∈ order) : Visits (start rows) order := by
  refine ⟨h1, ?_⟩
  intro i hi
  cases h : (start rows).ptr i with
  | none => exact absurd h hi
  | some o =>
    obtain ⟨-, r, d, h3, h4⟩ := start_ptr h
    have := h2 r (rowOf_some h3).1 (by rw [h4]; simp)
    rwa [(rowOf_some h3).2] at this

/-- A computed run is a run. -/
theorem dedup_of_computed {w : World} {n : Nat} {st0 : St} (hs : Start w st0) : ∀ (order done : List Off) (st st' : St), Inv w st0 done st → order.Nodup →
    (∀ i ∈ order, i ∉ done) → dedupWith (sigF w.obj n) w order st = Go.ret st' → dedupWith (sig w.obj) w order st = Go.ret st'
  | [], _, _, _, _, _, _, h => h
  | i :: is, done, st, st', hi, hnd, hdis, h => by
    obtain ⟨st1, h1, h2⟩ := Go.bind_ret.mp h
    have hid := hdis i (List.mem_cons_self ..)
    have h1' := stepF (by
      intro o ho ht
      rw [(hi.pending i (.inl hid)).1] at ho
      rw [hs.type i o ho]; exact ht) h1
    refine Go.bind_ret.mpr ⟨st1, h1', dedup_of_computed hs is (i :: done) st1 st' (inv_step hs hi hid h1') (List.nodup_cons.mp hnd).2 ?_ h2⟩
    intro j hj hm
    rcases List.mem_cons.mp hm with rfl | hm
    · exact (List.nodup_cons.mp hnd).1 hj
    · exact hdis j (List.mem_cons_of_mem _ hj) hm

/-- Run the merging and look at the result. -/
def runs (rows : List Row) (order : List Off) (n : Nat) (p : St → Bool) : Bool :=
  match dedupWith (sigF (world rows).obj n) (world rows) order (start rows) with
  | .ok (some st) => p st
  | _ => false

theorem runs_dedup {rows : List Row} {order : List Off} {n : Nat} {p : St → Bool} (hr : rowsB rows = true) (hn : order.Nodup) (h : runs rows order n p = true) :
    ∃ st, dedup (world rows) order (start rows) = Go.ret st ∧ p st = true := by
  unfold runs at h
  split at h
  · rename_i st e
    exact ⟨st, dedup_of_computed (start_start hr) order [] _ _ (inv_start (start_start hr)) hn (by simp) e, h⟩
  · cases h

end Verif.GoDedup
