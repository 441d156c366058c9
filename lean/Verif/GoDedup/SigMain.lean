import Verif.GoDedup.Sig
/-
Signatures say exactly when objects are alike.
-/
namespace Verif.GoDedup
open Spec
open GoMeta (Str dec)

/-! ### Only the links matter -/

section
variable {link link' : Off → Go Str} {n : Nat} (hm : ∀ l x, x.length < n → link l = Go.ret x → link' l = Go.ret x)
include hm

theorem linked_mono {k : Str} {t : Option Off} {s : Str} (h : linked link k t = Go.ret s) (hn : s.length ≤ n) : linked link' k t = Go.ret s := by
  rcases linked_ret h with ⟨rfl, rfl⟩ | ⟨l, x, rfl, h1, rfl⟩
  · rfl
  · refine linked_some (hm _ _ ?_ h1)
    simp at hn; omega

theorem paramText_mono {p : Param} {s : Str} (h : paramText link p = Go.ret s) (hn : s.length ≤ n) : paramText link' p = Go.ret s := by
  rcases paramText_ret h with ⟨h1, rfl⟩ | ⟨h1, h2, rfl⟩ | ⟨l, x, h1, h2, h3, rfl⟩
  · simp [paramText, h1]
  · simp [paramText, h1, h2]
  · have h4 := hm _ _ (by simp at hn; omega) h3
    simp only [paramText, h1, h2, Bool.false_eq_true, if_false]
    exact Go.bind_ret.mpr ⟨x, h4, Go.pure_ret.mpr (by simp)⟩

theorem otherText_mono {l : Off} {s : Str} (h : otherText link l = Go.ret s) (hn : s.length ≤ n) : otherText link' l = Go.ret s := by
  obtain ⟨x, h1, rfl⟩ := otherText_ret h
  exact Go.bind_ret.mpr ⟨x, hm _ _ (by simp at hn; omega) h1, Go.pure_ret.mpr (by simp)⟩

theorem fieldText_mono {f : Field} {s : Str} (h : fieldText link f = Go.ret s) (hn : s.length ≤ n) : fieldText link' f = Go.ret s := by
  obtain ⟨t, h1, h2⟩ := Go.bind_ret.mp h
  refine Go.bind_ret.mpr ⟨t, linked_mono hm h1 ?_, h2⟩
  rw [Go.pure_ret] at h2
  rw [← h2] at hn
  simp only [List.length_append] at hn
  omega

omit hm in
theorem mapM_mono {α : Type} {f g : α → Go Str} {as : List α} {ss : List Str} (h : as.mapM f = Go.ret ss)
    (hm : ∀ a s, s ∈ ss → f a = Go.ret s → g a = Go.ret s) : as.mapM g = Go.ret ss := by
  rw [Go.mapM_ret] at h ⊢
  exact h.imp fun a s _ hs => hm a s hs

theorem funcRest_mono {ps : List Param} {r : Option Off} {s : Str} (h : funcRest link ps r = Go.ret s) (hn : s.length ≤ n) : funcRest link' ps r = Go.ret s := by
  obtain ⟨a, h1, h2⟩ := Go.bind_ret.mp h
  obtain ⟨b, h2, h3⟩ := Go.bind_ret.mp h2
  have e := Go.pure_ret.mp h3
  rw [← e, List.length_append] at hn
  refine Go.bind_ret.mpr ⟨a, ?_, Go.bind_ret.mpr ⟨b, linked_mono hm h2 (by omega), h3⟩⟩
  unfold takesText at h1 ⊢
  split at h1
  · rename_i hp
    obtain ⟨ss, h4, h5⟩ := Go.bind_ret.mp h1
    rw [if_pos hp]
    refine Go.bind_ret.mpr ⟨ss, mapM_mono h4 ?_, h5⟩
    intro p s hs hp
    refine paramText_mono hm hp ?_
    have := mem_flatten_length hs
    rw [Go.pure_ret] at h5
    rw [← h5] at hn
    simp only [List.length_append] at hn
    omega
  · rename_i hp
    rw [if_neg hp]
    exact h1

theorem structRest_mono {h : Head} {fs : List Field} {hs : List Off} {s : Str} (e : structRest link h fs hs = Go.ret s) (hn : s.length ≤ n) :
    structRest link' h fs hs = Go.ret s := by
  obtain ⟨x, h1, h2⟩ := Go.bind_ret.mp e
  have e2 := Go.pure_ret.mp h2
  rw [← e2] at hn
  simp only [List.length_append] at hn
  refine Go.bind_ret.mpr ⟨x, ?_, h2⟩
  unfold fieldsText at h1 ⊢
  split at h1
  · rename_i hp
    obtain ⟨ss, h4, h5⟩ := Go.bind_ret.mp h1
    obtain ⟨os, h5, h6⟩ := Go.bind_ret.mp h5
    have e3 := Go.pure_ret.mp h6
    rw [← e3] at hn
    simp only [List.length_append] at hn
    rw [if_pos hp]
    refine Go.bind_ret.mpr ⟨ss, mapM_mono h4 ?_, Go.bind_ret.mpr ⟨os, mapM_mono h5 ?_, h6⟩⟩
    · intro p s hs hp
      have := mem_flatten_length hs
      exact fieldText_mono hm hp (by omega)
    · intro p s hs hp
      have := mem_flatten_length hs
      exact otherText_mono hm hp (by omega)
  · rename_i hp
    rw [if_neg hp]
    exact h1

theorem rest_mono {d : Desc} {s : Str} (h : rest link d = Go.ret s) (hn : s.length ≤ n) : rest link' d = Go.ret s := by
  cases d with
  | base h e => exact h
  | enumeration h es => exact h
  | qual h q t => exact linked_mono hm h hn
  | typedef h t => exact linked_mono hm h hn
  | pointer h t => exact linked_mono hm h hn
  | unspecified h => exact h
  | reference h r t => exact linked_mono hm h hn
  | subroutine h ps r => exact funcRest_mono hm h hn
  | array h a b c v t =>
    cases t with
    | none => exact h
    | some l =>
      obtain ⟨x, h1, h2⟩ := Go.bind_ret.mp h
      refine Go.bind_ret.mpr ⟨x, linked_mono hm h1 ?_, h2⟩
      rw [Go.pure_ret] at h2
      rw [← h2] at hn
      simp only [List.length_append] at hn
      omega
  | struct h a fs hs => exact structRest_mono hm h hn
  | «variable» h t => exact linked_mono hm h hn
  | subprogram h ps r hs => exact funcRest_mono hm h hn
  | namespace_ h hs => exact h
  | lexBlock hs => exact h
  | compileUnit m hs => exact h
end

/-- Only links with short texts. -/
def cut (n : Nat) (link : Off → Go Str) (l : Off) : Go Str :=
  match link l with
  | .ok (some x) => if x.length < n then Go.ret x else Go.panic
  | _ => Go.panic

theorem cut_ret {n : Nat} {link : Off → Go Str} {l : Off} {x : Str} : cut n link l = Go.ret x ↔ link l = Go.ret x ∧ x.length < n := by
  unfold cut
  constructor
  · intro h
    split at h
    · rename_i y hy
      split at h
      · rename_i hl
        cases Go.ret_inj.mp h
        exact ⟨hy, hl⟩
      · exact absurd h Go.panic_ne
    · exact absurd h Go.panic_ne
  · rintro ⟨h, hl⟩
    rw [h]
    simp only [Go.ret]
    exact if_pos hl

theorem rest_cut {link : Off → Go Str} {d : Desc} {s : Str} (h : rest link d = Go.ret s) : rest (cut s.length link) d = Go.ret s :=
  rest_mono (fun _ _ hl hx => cut_ret.mpr ⟨hx, hl⟩) h (Nat.le_refl _)

theorem arrayRest_ret {link : Off → Go Str} {a b : Option Int} {c v : Int} {t : Option Off} {s : Str} (h : arrayRest link a b c v t = Go.ret s) :
    ∃ x, linked link (go! "From") t = Go.ret x ∧ t ≠ none ∧ s = optional (go! "StrideBitSize") a ++ (optional (go! "LowerBound") b ++
      (optional (go! "Count") (some c) ++ (optional (go! "Level") (some v) ++ x))) := by
  cases t with
  | none => exact absurd h Go.panic_ne
  | some l =>
    obtain ⟨x, h1, h2⟩ := Go.bind_ret.mp h
    refine ⟨x, h1, by simp, ?_⟩
    rw [Go.pure_ret] at h2
    rw [← h2]
    simp only [List.append_assoc]

theorem rest_closed_aux {link : Off → Go Str} {d : Desc} {s : Str} (hd : Names d) (h : rest link d = Go.ret s)
    (hc : ∀ l x, link l = Go.ret x → Closed x) : Closed s := by
  cases d with
  | base hh e =>
    rw [← Go.ret_inj.mp h]
    have := (Closed.plain (s := go! "Encoding:") (by decide)).append ((hd.encoding _ _ rfl).closed.append ((Closed.plain (s := [44]) (by decide)).append
      (optional_closed (k := go! "ByteSize") hh.byteSize (by decide))))
    simpa using this
  | enumeration hh es =>
    rw [← Go.ret_inj.mp h]
    have := (optional_closed (k := go! "ByteSize") hh.byteSize (by decide)).append ((optional_closed (k := go! "Alignment") hh.alignment (by decide)).append
      ((Closed.plain (s := go! "Enumberators:") (by decide)).append ((enum_closed (hd.enumerators _ _ rfl)).paren.append (Closed.plain (s := [44]) (by decide)))))
    simpa using this
  | qual _ q t => exact linked_closed hc (by decide) h
  | typedef _ t => exact linked_closed hc (by decide) h
  | pointer _ t => exact linked_closed hc (by decide) h
  | unspecified _ => rw [← Go.ret_inj.mp h]; exact Closed.nil
  | reference _ r t => exact linked_closed hc (by decide) h
  | subroutine _ ps r =>
    obtain ⟨a, b, h1, h2, rfl⟩ := funcRest_ret h
    exact (takesText_closed hc h1).append (linked_closed hc (by decide) h2)
  | array _ a b c v t =>
    obtain ⟨x, h1, -, rfl⟩ := arrayRest_ret h
    exact (optional_closed _ (by decide)).append ((optional_closed _ (by decide)).append ((optional_closed _ (by decide)).append
      ((optional_closed _ (by decide)).append (linked_closed hc (by decide) h1))))
  | struct _ a fs hs => exact structRest_closed hc (hd.fields _ _ _ _ rfl) h
  | «variable» _ t => exact linked_closed hc (by decide) h
  | subprogram _ ps r hs =>
    obtain ⟨a, b, h1, h2, rfl⟩ := funcRest_ret h
    exact (takesText_closed hc h1).append (linked_closed hc (by decide) h2)
  | namespace_ _ hs => rw [← Go.ret_inj.mp h]; exact Closed.nil
  | lexBlock hs => exact absurd h Go.fail_ne
  | compileUnit m hs => exact absurd h Go.fail_ne

theorem rest_closed {link : Off → Go Str} {d : Desc} {s : Str} (hd : Names d) (h : rest link d = Go.ret s)
    (hc : ∀ l x, x.length < s.length → link l = Go.ret x → Closed x) : Closed s :=
  rest_closed_aux hd (rest_cut h) fun l x hx => hc l x (cut_ret.mp hx).2 (cut_ret.mp hx).1

/-- What follows the name is empty or ends in a comma. -/
theorem rest_end {link : Off → Go Str} {d : Desc} {s : Str} (h : rest link d = Go.ret s) : s = [] ∨ s.getLast? = some 44 := by
  have hl : ∀ {k t x}, linked link k t = Go.ret x → x = [] ∨ x.getLast? = some 44 := by
    intro k t x hx
    rcases linked_ret hx with ⟨-, rfl⟩ | ⟨l, y, -, -, rfl⟩
    · exact .inl rfl
    · refine .inr ?_
      rw [show k ++ 58 :: 40 :: (y ++ [41, 44]) = (k ++ 58 :: 40 :: (y ++ [41])) ++ [44] from by simp]
      exact List.getLast?_concat
  have ho : ∀ k a, optional k a = [] ∨ (optional k a).getLast? = some 44 := by
    intro k a
    cases a with
    | none => exact .inl rfl
    | some v => exact .inr (by unfold optional; exact List.getLast?_concat)
  have happ : ∀ {a b : Str}, (a = [] ∨ a.getLast? = some 44) → (b = [] ∨ b.getLast? = some 44) → (a ++ b = [] ∨ (a ++ b).getLast? = some 44) := by
    rintro a b ha (rfl | hb)
    · simpa using ha
    · exact .inr (by rw [List.getLast?_append, hb]; rfl)
  have hfun : ∀ {ps r x}, funcRest link ps r = Go.ret x → x = [] ∨ x.getLast? = some 44 := by
    intro ps r x hx
    obtain ⟨a, b, h1, h2, rfl⟩ := funcRest_ret hx
    refine happ ?_ (hl h2)
    rcases takesText_ret h1 with ⟨-, rfl⟩ | ⟨-, ss, -, rfl⟩
    · exact .inl rfl
    · refine .inr ?_
      rw [show (go! "Takes") ++ 58 :: 40 :: (ss.flatten ++ [41, 44]) = ((go! "Takes") ++ 58 :: 40 :: (ss.flatten ++ [41])) ++ [44] from by simp]
      exact List.getLast?_concat
  cases d with
  | base hh e =>
    rw [← Go.ret_inj.mp h]
    exact happ (.inr List.getLast?_concat) (ho _ _)
  | enumeration hh es =>
    rw [← Go.ret_inj.mp h]
    refine .inr ?_
    rw [List.getLast?_append]
    rfl
  | qual _ q t => exact hl h
  | typedef _ t => exact hl h
  | pointer _ t => exact hl h
  | unspecified _ => exact .inl (Go.ret_inj.mp h).symm
  | reference _ r t => exact hl h
  | subroutine _ ps r => exact hfun h
  | array _ a b c v t =>
    obtain ⟨x, h1, -, rfl⟩ := arrayRest_ret h
    exact happ (ho _ _) (happ (ho _ _) (happ (ho _ _) (happ (ho _ _) (hl h1))))
  | struct _ a fs hs =>
    obtain ⟨x, h1, rfl⟩ := structRest_ret h
    refine happ (ho _ _) (happ (ho _ _) ?_)
    rcases fieldsText_ret h1 with ⟨-, rfl⟩ | ⟨-, ss, os, -, -, rfl⟩
    · exact .inl rfl
    · refine .inr ?_
      rw [show (go! "Fields") ++ 58 :: 40 :: (ss.flatten ++ 41 :: 44 :: ((go! "Other:(") ++ (os.flatten ++ [41, 44]))) =
        ((go! "Fields") ++ 58 :: 40 :: (ss.flatten ++ 41 :: 44 :: ((go! "Other:(") ++ (os.flatten ++ [41])))) ++ [44] from by simp]
      exact List.getLast?_concat
  | «variable» _ t => exact hl h
  | subprogram _ ps r hs => exact hfun h
  | namespace_ _ hs => exact .inl (Go.ret_inj.mp h).symm
  | lexBlock hs => exact absurd h Go.fail_ne
  | compileUnit m hs => exact absurd h Go.fail_ne

/-- Equal texts after the name: the objects agree. -/
theorem rest_inj {link link' : Off → Go Str} (hc : ∀ l x, link l = Go.ret x → Closed x) (hc' : ∀ l x, link' l = Go.ret x → Closed x)
    (hu : ∀ l x, link l = Go.ret x → (44 : UInt8) ∈ x) (hu' : ∀ l x, link' l = Go.ret x → (44 : UInt8) ∈ x)
    {ptr : Off → Option Nat} {R : Nat → Nat → Prop} {s : Str}
    (hL : ∀ l l' x, x.length < s.length → link l = Go.ret x → link' l' = Go.ret x → Links ptr R (some l) (some l'))
    {d d' : Desc} (hd : Names d) (hd' : Names d') (he : cat d = cat d') (h : rest link d = Go.ret s) (h' : rest link' d' = Go.ret s) : Agree ptr R d d' := by
  have hv : ∀ l, link l ≠ Go.ret (go! "UnspecifiedParam") ∧ link l ≠ Go.ret [] := by
    intro l
    constructor <;> intro e <;> exact absurd (hu _ _ e) (by decide)
  have hv' : ∀ l, link' l ≠ Go.ret (go! "UnspecifiedParam") ∧ link' l ≠ Go.ret [] := by
    intro l
    constructor <;> intro e <;> exact absurd (hu' _ _ e) (by decide)
  have hl : ∀ {k t t'}, Key k → linked link k t = Go.ret s → linked link' k t' = Go.ret s → Links ptr R t t' := by
    intro k t t' hk h1 h2
    exact (linked_inj' hc hc' hL (r := []) (r' := []) (ks := []) h1 h2 rfl (Nat.le_refl _) (Starts.nil _) (Starts.nil _) hk (by simp) (by simp)).1
  cases d <;> cases d' <;> simp only [cat, reduceCtorEq, Cat.qual.injEq, Cat.reference.injEq, Cat.aggregate.injEq] at he
  case base.base hh e hh' e' =>
    rw [← Go.ret_inj.mp h'] at h
    have h := Go.ret_inj.mp h
    simp only [List.append_assoc, List.append_cancel_left_eq, List.cons_append, List.nil_append, List.cons.injEq, true_and] at h
    obtain ⟨rfl, e2⟩ := split_mark (fun hm => ((hd.encoding _ _ rfl) _ hm).2.2.1 rfl) (fun hm => ((hd'.encoding _ _ rfl) _ hm).2.2.1 rfl) h
    have := (optional_inj (r := []) (r' := []) (ks := []) (by simpa using e2) (Starts.nil _) (Starts.nil _) (by decide) (by simp) (by simp)).1
    exact .base this
  case enumeration.enumeration hh es hh' es' =>
    rw [← Go.ret_inj.mp h'] at h
    have h := Go.ret_inj.mp h
    rw [List.append_assoc, List.append_assoc, List.append_assoc, List.append_assoc, List.append_assoc, List.append_assoc] at h
    have st : ∀ r : Str, Starts [go! "Enumberators"] ((go! "Enumberators:(") ++ r) := fun r => .inr (.inr ⟨_, List.mem_cons_self .., 40 :: r, rfl⟩)
    obtain ⟨e1, h⟩ := optional_inj h (Starts.optional _ _ (st _)) (Starts.optional _ _ (st _)) (by decide) (by decide) (by decide)
    obtain ⟨e2, h⟩ := optional_inj h (st _) (st _) (by decide) (by decide) (by decide)
    rw [List.append_cancel_left_eq] at h
    have e3 := enum_inj (hd.enumerators _ _ rfl) (hd'.enumerators _ _ rfl) h
    subst e3
    exact .enumeration e1 e2
  case qual.qual => subst he; exact .qual (hl (by decide) h h')
  case typedef.typedef => exact .typedef (hl (by decide) h h')
  case pointer.pointer => exact .pointer (hl (by decide) h h')
  case unspecified.unspecified => exact .unspecified
  case reference.reference => subst he; exact .reference (hl (by decide) h h')
  case subroutine.subroutine =>
    obtain ⟨h1, h2⟩ := funcRest_inj hc hc' hv hv' hL h h' (Nat.le_refl _)
    exact .subroutine h1 h2
  case array.array hh a b c v t hh' a' b' c' v' t' =>
    obtain ⟨x, h1, -, e⟩ := arrayRest_ret h
    obtain ⟨x', h1', -, e'⟩ := arrayRest_ret h'
    have hx : x.length ≤ s.length := by rw [e]; simp only [List.length_append]; omega
    rw [e'] at e
    have st : ∀ {c : Int} {r : Str}, Starts [go! "Count"] (optional (go! "Count") (some c) ++ r) :=
      fun {c r} => .inr (.inr ⟨_, List.mem_cons_self .., decInt c ++ [44] ++ r, by simp [optional]⟩)
    obtain ⟨e1, e⟩ := optional_inj e (Starts.optional _ _ st) (Starts.optional _ _ st) (by decide) (by decide) (by decide)
    obtain ⟨e2, e⟩ := optional_inj e st st (by decide) (by decide) (by decide)
    obtain ⟨e3, e⟩ := number_inj e
    obtain ⟨e4, e⟩ := number_inj e
    subst e1 e2 e3 e4
    exact .array (linked_inj' hc hc' hL (r := []) (r' := []) (ks := []) h1 h1' (by simpa using e.symm) hx (Starts.nil _) (Starts.nil _) (by decide) (by simp) (by simp)).1
  case struct.struct =>
    subst he
    obtain ⟨h1, h2, h3, h4⟩ := structRest_inj hc hc' hL (hd.fields _ _ _ _ rfl) (hd'.fields _ _ _ _ rfl) h h' (Nat.le_refl _)
    exact .struct h1 h2 h3 h4
  case «variable».«variable» => exact .variable (hl (by decide) h h')
  case subprogram.subprogram =>
    obtain ⟨h1, h2⟩ := funcRest_inj hc hc' hv hv' hL h h' (Nat.le_refl _)
    exact .subprogram h1 h2
  case namespace_.namespace_ => exact .namespace_
  case lexBlock.lexBlock => exact absurd h Go.fail_ne
  case compileUnit.compileUnit => exact absurd h Go.fail_ne

/-- What the links of the objects lead to. -/
def target (obj : Nat → Desc) (ptr : Off → Option Nat) (l : Off) : Go Str :=
  match ptr l with | none => Go.panic | some p => sig obj ptr p false

theorem sig_eq (obj : Nat → Desc) (ptr : Off → Option Nat) (o : Nat) (c : Bool) : sig obj ptr o c = signature (target obj ptr) c (obj o) := by
  rw [sig]
  rfl

theorem target_ret {obj : Nat → Desc} {ptr : Off → Option Nat} {l : Off} {x : Str} :
    target obj ptr l = Go.ret x ↔ ∃ o, ptr l = some o ∧ sig obj ptr o false = Go.ret x := by
  unfold target
  cases hp : ptr l with
  | none => simp only [reduceCtorEq, false_and, exists_false, iff_false]; exact Go.panic_ne
  | some o => simp

section
variable {obj : Nat → Desc} (hN : ∀ o, Names (obj o))
include hN

/-- Signatures are closed and have a comma. -/
theorem sig_closed (ptr : Off → Option Nat) : ∀ (n : Nat) (o : Nat) (s : Str), s.length = n → sig obj ptr o false = Go.ret s → Closed s ∧ (44 : UInt8) ∈ s := by
  intro n
  induction n using Nat.strongRecOn with
  | _ n ih =>
    intro o s hn h
    rw [sig_eq, signature_false] at h
    have ht : Closed (tok (cat (obj o))) := Closed.plain fun c hc => ⟨(tok_plain _ c hc).1, (tok_plain _ c hc).2.1⟩
    rcases h with ⟨m, h1, rfl⟩ | ⟨h1, h2, h3, r, h4, rfl⟩
    · refine ⟨ht.append ?_, by simp⟩
      have hm := ((hN o).type m h1).2.1
      have : Closed (nameText (cat (obj o)) m) := by
        unfold nameText
        split
        · exact ((Closed.plain (by decide)).append hm).append (Closed.plain (by decide))
        · exact hm
      exact (Closed.plain (s := [44]) (by decide)).append this
    · refine ⟨ht.append ((Closed.plain (s := [44]) (by decide)).append (rest_closed (hN o) h4 ?_)), by simp⟩
      intro l x hx hl
      obtain ⟨p, -, hp⟩ := target_ret.mp hl
      refine (ih x.length ?_ p x rfl hp).1
      simp only [List.length_append, List.length_cons] at hn
      omega

theorem target_closed {ptr : Off → Option Nat} {l : Off} {x : Str} (h : target obj ptr l = Go.ret x) : Closed x ∧ (44 : UInt8) ∈ x := by
  obtain ⟨p, -, hp⟩ := target_ret.mp h
  exact sig_closed hN ptr _ p x rfl hp

omit hN in
theorem Alike.intro {ptr : Off → Option Nat} {a b : Nat} (h : Known obj ptr (Alike obj ptr) a b) : Alike obj ptr a b := by
  intro R hR
  have hl : ∀ t t', Links ptr (Alike obj ptr) t t' → Links ptr R t t' := by
    intro t t' h
    cases h with
    | none => exact .none
    | some h1 h2 h3 => exact .some h1 h2 (h3 R hR)
  have hp : ∀ p p', Params ptr (Alike obj ptr) p p' → Params ptr R p p' := by
    intro p p' h
    cases h with
    | rest h1 h2 => exact .rest h1 h2
    | typed h1 h2 h3 => exact .typed h1 h2 (hl _ _ h3)
  have hf : ∀ p p', Fields ptr (Alike obj ptr) p p' → Fields ptr R p p' := by
    intro p p' h
    exact ⟨h.name, hl _ _ h.type, h.alignment, h.bitSize, h.bitOffset, h.byteOffset, h.dataBitOffset⟩
  have ha : ∀ d d', Agree ptr (Alike obj ptr) d d' → Agree ptr R d d' := by
    intro d d' h
    cases h with
    | base h => exact .base h
    | enumeration h1 h2 => exact .enumeration h1 h2
    | qual h => exact .qual (hl _ _ h)
    | typedef h => exact .typedef (hl _ _ h)
    | pointer h => exact .pointer (hl _ _ h)
    | unspecified => exact .unspecified
    | reference h => exact .reference (hl _ _ h)
    | subroutine h1 h2 => exact .subroutine (h1.imp fun a b _ _ => hp a b) (hl _ _ h2)
    | array h => exact .array (hl _ _ h)
    | struct h1 h2 h3 h4 => exact .struct h1 h2 (h3.imp fun a b _ _ => hf a b) (fun h => (h4 h).imp fun a b _ _ => hl _ _)
    | «variable» h => exact .variable (hl _ _ h)
    | subprogram h1 h2 => exact .subprogram (h1.imp fun a b _ _ => hp a b) (hl _ _ h2)
    | namespace_ => exact .namespace_
  cases h with
  | named h1 h2 h3 => exact hR _ _ (.named h1 h2 h3)
  | unnamed h1 h2 h3 => exact hR _ _ (.unnamed h1 h2 (ha _ _ h3))

/-- Equal signatures: alike. -/
theorem alike_of_sig (ptr : Off → Option Nat) : ∀ (n : Nat) (a b : Nat) (s : Str), s.length = n → sig obj ptr a false = Go.ret s →
    sig obj ptr b false = Go.ret s → Alike obj ptr a b := by
  intro n
  induction n using Nat.strongRecOn with
  | _ n ih =>
    intro a b s hn ha hb
    apply Alike.intro
    rw [sig_eq, signature_false] at ha hb
    have hne : ∀ {o n r}, name (obj o) = some n → rest (target obj ptr) (obj b) = Go.ret r ∨ rest (target obj ptr) (obj a) = Go.ret r →
        n ≠ r := by
      intro o n r hnm hr e
      have h1 := (hN o).type n hnm
      have h2 : r = [] ∨ r.getLast? = some 44 := by
        rcases hr with hr | hr <;> exact rest_end hr
      rw [e] at h1
      rcases h2 with h2 | h2
      · exact h1.1 h2
      · exact h1.2.2 h2
    have hcu : ∀ {o}, needsName (obj o) = false → cat (obj o) ≠ .compileUnit := by
      intro o h e
      cases hd : obj o <;> simp [hd, cat, needsName] at h e
    rcases ha with ⟨m, h1, e1⟩ | ⟨h1, h2, h3, r, h4, e1⟩ <;> rcases hb with ⟨m', h1', e1'⟩ | ⟨h1', h2', h3', r', h4', e1'⟩
    · rw [e1] at e1'
      obtain ⟨et, en⟩ := split_mark (tok_comma _) (tok_comma _) e1'
      have hc := tok_inj et
      have : m = m' := by
        rw [hc] at en
        unfold nameText at en
        split at en
        · simpa using en
        · exact en
      subst this
      exact .named hc h1 h1'
    · rw [e1] at e1'
      obtain ⟨et, en⟩ := split_mark (tok_comma _) (tok_comma _) e1'
      have hc := tok_inj et
      unfold nameText at en
      rw [if_neg (by rw [hc]; exact hcu h3')] at en
      exact absurd en (hne h1 (.inl h4'))
    · rw [e1] at e1'
      obtain ⟨et, en⟩ := split_mark (tok_comma _) (tok_comma _) e1'
      have hc := tok_inj et
      unfold nameText at en
      rw [if_neg (by rw [← hc]; exact hcu h3)] at en
      exact absurd en.symm (hne h1' (.inr h4))
    · have e2 := e1
      rw [e1] at e1'
      obtain ⟨et, en⟩ := split_mark (tok_comma _) (tok_comma _) e1'
      subst en
      refine .unnamed h1 h1' (rest_inj (fun l x h => (target_closed hN h).1) (fun l x h => (target_closed hN h).1) (fun l x h => (target_closed hN h).2)
        (fun l x h => (target_closed hN h).2) ?_ (hN a) (hN b) (tok_inj et) h4 h4')
      intro l l' x hx hl hl'
      obtain ⟨p, hp, hps⟩ := target_ret.mp hl
      obtain ⟨p', hp', hps'⟩ := target_ret.mp hl'
      refine .some hp hp' (ih x.length ?_ p p' x rfl hps hps')
      rw [e2] at hn
      simp only [List.length_append, List.length_cons] at hn
      omega
end

/-! ### Alike objects have equal signatures -/

theorem links_target {obj : Nat → Desc} {ptr : Off → Option Nat} {R : Nat → Nat → Prop} (hR : ∀ a b, R a b → sig obj ptr a false = sig obj ptr b false)
    {t t' : Option Off} (h : Links ptr R t t') (k : Str) : linked (target obj ptr) k t = linked (target obj ptr) k t' := by
  cases h with
  | none => rfl
  | some h1 h2 h3 =>
    simp only [linked, target, h1, h2]
    rw [hR _ _ h3]

theorem Spec.Each.mapM {α β : Type} {f : α → Go β} {as bs : List α} {R : α → α → Prop} (h : Each R as bs) (hf : ∀ a b, R a b → f a = f b) : as.mapM f = bs.mapM f := by
  induction h with
  | nil => rfl
  | cons h1 h2 ih => rw [List.mapM_cons, List.mapM_cons, hf _ _ h1, ih]

theorem Spec.Each.length {α β : Type} {as : List α} {bs : List β} {R : α → β → Prop} (h : Each R as bs) : as.length = bs.length := by
  induction h with
  | nil => rfl
  | cons h1 h2 ih => simp [ih]

/-- Objects that agree have the same text after the name. -/
theorem rest_congr {obj : Nat → Desc} {ptr : Off → Option Nat} {R : Nat → Nat → Prop} (hR : ∀ a b, R a b → sig obj ptr a false = sig obj ptr b false)
    {d d' : Desc} (h : Agree ptr R d d') : rest (target obj ptr) d = rest (target obj ptr) d' := by
  have hl := fun {t t'} (h : Links ptr R t t') => links_target hR h
  have hp : ∀ p p', Params ptr R p p' → paramText (target obj ptr) p = paramText (target obj ptr) p' := by
    intro p p' h
    cases h with
    | rest h1 h2 => simp [paramText, h1, h2]
    | typed h1 h2 h3 =>
      unfold paramText
      simp only [h1, h2, Bool.false_eq_true, if_false]
      generalize p.type = t at h3
      generalize p'.type = t' at h3
      cases h3 with
      | none => rfl
      | some a1 a2 a3 => simp only [target, a1, a2]; rw [hR _ _ a3]
  have hfun : ∀ {ps ps' r r'}, Each (Params ptr R) ps ps' → Links ptr R r r' → funcRest (target obj ptr) ps r = funcRest (target obj ptr) ps' r' := by
    intro ps ps' r r' h1 h2
    unfold funcRest takesText
    rw [hl h2, h1.mapM hp, h1.length]
  cases h with
  | base h => simp only [rest, h]
  | enumeration h1 h2 => simp only [rest, h1, h2]
  | qual h => exact hl h _
  | typedef h => exact hl h _
  | pointer h => exact hl h _
  | unspecified => rfl
  | reference h => exact hl h _
  | subroutine h1 h2 => exact hfun h1 h2
  | array h =>
    have e := hl h (go! "From")
    cases h with
    | none => rfl
    | some a1 a2 a3 => simp only [rest, arrayRest]; rw [e]
  | struct h1 h2 h3 h4 =>
    simp only [rest, structRest, h1, h2]
    unfold fieldsText
    rw [h3.length, h3.mapM (f := fieldText (target obj ptr)) (by
      intro f f' h
      simp only [fieldText, hl h.type, h.name, h.alignment, h.bitSize, h.bitOffset, h.dataBitOffset]
      cases hb : f.bitOffset with
      | none => rw [← h.bitOffset, hb, h.byteOffset hb]
      | some v => rw [← h.bitOffset, hb])]
    rename_i fs fs' hs hs'
    cases h3 with
    | nil => rfl
    | cons _ _ =>
      rw [(h4 (by simp)).mapM (f := otherText (target obj ptr)) (by
        intro l l' h
        cases h with
        | some a1 a2 a3 => simp only [otherText, target, a1, a2]; rw [hR _ _ a3])]
  | «variable» h => exact hl h _
  | subprogram h1 h2 => exact hfun h1 h2
  | namespace_ => rfl

theorem Spec.Agree.cat {ptr : Off → Option Nat} {R : Nat → Nat → Prop} {d d' : Desc} (h : Agree ptr R d d') : Spec.cat d = Spec.cat d' := by
  cases h <;> rfl

theorem Spec.Agree.needsName {ptr : Off → Option Nat} {R : Nat → Nat → Prop} {d d' : Desc} (h : Agree ptr R d d') : GoDedup.needsName d = GoDedup.needsName d' := by
  cases h <;> rfl

theorem checked_false {d : Desc} (h : declared d = false) : checked d = false := by
  cases d <;> first | rfl | exact h

theorem signature_unnamed (link : Off → Go Str) {d : Desc} (h : name d = none) (hc : checked d = false) :
    signature link false d = if needsName d then Go.fail else (rest link d >>= fun r => pure (tok (cat d) ++ 44 :: r)) := by
  cases d <;> simp only [name] at h <;> simp only [checked, declared] at hc <;>
    first
      | (simp only [signature, h, needsName, if_true]; done)
      | (simp only [signature, needsName, if_true]; done)
      | (simp only [signature, signed, h, hc, needsName, Bool.false_eq_true, if_false, rest, cat, tok]; simp; done)
      | (simp only [signature, signed, h, needsName, Bool.false_eq_true, if_false, rest, cat, tok]; simp; done)
      | (simp only [signature, h, needsName, Bool.false_eq_true, if_false, rest, cat, tok]; rfl)
      | (cases h)

/-- Alike objects have equal signatures. -/
theorem sig_of_alike {obj : Nat → Desc} (hN : ∀ o, Names (obj o)) {ptr : Off → Option Nat} {a b : Nat} (h : Alike obj ptr a b) :
    sig obj ptr a false = sig obj ptr b false := by
  refine h (fun a b => sig obj ptr a false = sig obj ptr b false) ?_
  intro x y hk
  cases hk with
  | named h1 h2 h3 =>
    rename_i n
    rw [sig_eq, sig_eq, (signature_false _ _ _).mpr (.inl ⟨n, h2, rfl⟩), h1]
    exact ((signature_false _ _ _).mpr (.inl ⟨n, h3, rfl⟩)).symm
  | unnamed h1 h2 h3 =>
    rw [sig_eq, sig_eq, signature_unnamed _ h1 (checked_false ((hN x).decl h1)), signature_unnamed _ h2 (checked_false ((hN y).decl h2)),
      rest_congr (fun _ _ h => h) h3, h3.cat, h3.needsName]

/-- The two signatures of a type together: alike, and they agree. -/
theorem one_of_sigs {obj : Nat → Desc} (hN : ∀ o, Names (obj o)) {ptr : Off → Option Nat} {a b : Nat} {hs cs : Str} (ta : isType (obj a) = true) (tb : isType (obj b) = true)
    (h1 : sig obj ptr a false = Go.ret hs) (h2 : sig obj ptr b false = Go.ret hs) (h3 : sig obj ptr a true = Go.ret cs) (h4 : sig obj ptr b true = Go.ret cs) :
    Alike obj ptr a b ∧ Agree ptr (Alike obj ptr) (obj a) (obj b) := by
  have hal := alike_of_sig hN ptr _ a b hs rfl h1 h2
  refine ⟨hal, ?_⟩
  have hk : cat (obj a) = cat (obj b) ∧ name (obj a) = name (obj b) := by
    have : ∀ x y, Known obj ptr (fun x y => cat (obj x) = cat (obj y) ∧ name (obj x) = name (obj y)) x y → cat (obj x) = cat (obj y) ∧ name (obj x) = name (obj y) := by
      intro x y h
      cases h with
      | named h1 h2 h3 => exact ⟨h1, by rw [h2, h3]⟩
      | unnamed h1 h2 h3 => exact ⟨h3.cat, by rw [h1, h2]⟩
    exact hal _ this
  rw [sig_eq, signature_true _ _ _ ta] at h3
  rw [sig_eq, signature_true _ _ _ tb] at h4
  obtain ⟨-, -, r, h5, e⟩ := h3
  obtain ⟨-, -, r', h5', e'⟩ := h4
  rw [e, hk.1, hk.2] at e'
  simp only [List.append_cancel_left_eq, List.cons.injEq, true_and] at e'
  subst e'
  refine rest_inj (fun l x h => (target_closed hN h).1) (fun l x h => (target_closed hN h).1) (fun l x h => (target_closed hN h).2)
        (fun l x h => (target_closed hN h).2) ?_ (hN a) (hN b) hk.1 h5 h5'
  intro l l' x hx hl hl'
  obtain ⟨p, hp, hps⟩ := target_ret.mp hl
  obtain ⟨p', hp', hps'⟩ := target_ret.mp hl'
  exact .some hp hp' (alike_of_sig hN ptr _ p p' x rfl hps hps')

theorem sigs_of_one {obj : Nat → Desc} (hN : ∀ o, Names (obj o)) {ptr : Off → Option Nat} {a b : Nat} {cs cs' : Str} (ta : isType (obj a) = true) (tb : isType (obj b) = true)
    (h1 : Alike obj ptr a b) (h2 : Agree ptr (Alike obj ptr) (obj a) (obj b)) (h3 : sig obj ptr a true = Go.ret cs) (h4 : sig obj ptr b true = Go.ret cs') : cs = cs' := by
  have hn : name (obj a) = name (obj b) := by
    have : ∀ x y, Known obj ptr (fun x y => name (obj x) = name (obj y)) x y → name (obj x) = name (obj y) := by
      intro x y h
      cases h with
      | named h1 h2 h3 => rw [h2, h3]
      | unnamed h1 h2 h3 => rw [h1, h2]
    exact h1 _ this
  rw [sig_eq, signature_true _ _ _ ta] at h3
  rw [sig_eq, signature_true _ _ _ tb] at h4
  obtain ⟨-, -, r, h5, e⟩ := h3
  obtain ⟨-, -, r', h5', e'⟩ := h4
  rw [rest_congr (fun _ _ h => sig_of_alike hN h) h2] at h5
  have : r = r' := Go.ret_inj.mp (h5.symm.trans h5')
  rw [e, e', h2.cat, hn, this]

/-! ### Merging does not change signatures -/

/-- Each index entry leads to an object with the same signature as the one it led to at first. -/
def Kept (obj : Nat → Desc) (ptr0 ptr : Off → Option Nat) : Prop :=
  ∀ l, ptr l = ptr0 l ∨ ∃ o o0, ptr l = some o ∧ ptr0 l = some o0 ∧ sig obj ptr0 o false = sig obj ptr0 o0 false

theorem sig_kept {obj : Nat → Desc} {ptr0 ptr : Off → Option Nat} (hk : Kept obj ptr0 ptr) : ∀ (n : Nat) (o : Nat) (c : Bool) (s : Str), s.length = n →
    (isType (obj o) = true ∨ c = false) → (sig obj ptr o c = Go.ret s ↔ sig obj ptr0 o c = Go.ret s) := by
  intro n
  induction n using Nat.strongRecOn with
  | _ n ih =>
    intro o c s hn hc
    have ht : ∀ l x, x.length < n → (target obj ptr l = Go.ret x ↔ target obj ptr0 l = Go.ret x) := by
      intro l x hx
      rw [target_ret, target_ret]
      rcases hk l with e | ⟨p, p0, h1, h2, h3⟩
      · rw [e]
        constructor
        · rintro ⟨p, h1, h2⟩; exact ⟨p, h1, (ih _ hx p false x rfl (.inr rfl)).mp h2⟩
        · rintro ⟨p, h1, h2⟩; exact ⟨p, h1, (ih _ hx p false x rfl (.inr rfl)).mpr h2⟩
      · constructor
        · rintro ⟨q, e, h4⟩
          rw [h1] at e; cases e
          exact ⟨p0, h2, by rw [← h3]; exact (ih _ hx p false x rfl (.inr rfl)).mp h4⟩
        · rintro ⟨q, e, h4⟩
          rw [h2] at e; cases e
          exact ⟨p, h1, (ih _ hx p false x rfl (.inr rfl)).mpr (by rw [h3]; exact h4)⟩
    have hr : ∀ r, r.length < n → (rest (target obj ptr) (obj o) = Go.ret r ↔ rest (target obj ptr0) (obj o) = Go.ret r) := by
      intro r hr
      constructor
      · intro h; exact rest_mono (n := r.length) (fun l x hl hx => (ht l x (by omega)).mp hx) h (Nat.le_refl _)
      · intro h; exact rest_mono (n := r.length) (fun l x hl hx => (ht l x (by omega)).mpr hx) h (Nat.le_refl _)
    rw [sig_eq, sig_eq]
    cases c with
    | false =>
      rw [signature_false, signature_false]
      refine or_congr Iff.rfl (and_congr Iff.rfl (and_congr Iff.rfl (and_congr Iff.rfl (exists_congr fun r => ?_))))
      constructor
      · rintro ⟨h1, rfl⟩
        exact ⟨(hr r (by simp only [List.length_append, List.length_cons] at hn; omega)).mp h1, rfl⟩
      · rintro ⟨h1, rfl⟩
        exact ⟨(hr r (by simp only [List.length_append, List.length_cons] at hn; omega)).mpr h1, rfl⟩
    | true =>
      have ty : isType (obj o) = true := by rcases hc with h | h; exact h; cases h
      rw [signature_true _ _ _ ty, signature_true _ _ _ ty]
      refine and_congr Iff.rfl (and_congr Iff.rfl (exists_congr fun r => ?_))
      constructor
      · rintro ⟨h1, rfl⟩
        exact ⟨(hr r (by simp only [List.length_append, List.length_cons] at hn; omega)).mp h1, rfl⟩
      · rintro ⟨h1, rfl⟩
        exact ⟨(hr r (by simp only [List.length_append, List.length_cons] at hn; omega)).mpr h1, rfl⟩

end Verif.GoDedup
