import Verif.GoDedup.Text
/-
Signatures: what they determine.
-/
namespace Verif.GoDedup
open Spec
open GoMeta (Str dec)

/-- What a signature begins with, up to the first comma. -/
def tok : Cat → Str
  | .base => go! "BaseType"
  | .enumeration => go! "EnumerationType"
  | .qual q => go! "QualType:" ++ q.tag
  | .typedef => go! "Typedef"
  | .pointer => go! "PointerType"
  | .unspecified => go! "UnspecifiedType"
  | .reference r => refTag r
  | .subroutine => go! "SubroutineType"
  | .array => go! "ArrayType"
  | .aggregate a => go! "Tag:" ++ a.tag
  | .variable => go! "Variable"
  | .subprogram => go! "Subprogram"
  | .namespace_ => go! "Namespace"
  | .lexBlock => go! "-"
  | .compileUnit => go! "CompileUnit"

theorem tok_inj {a b : Cat} (h : tok a = tok b) : a = b := by
  cases a <;> cases b <;> first
    | rfl
    | (simp [tok, refTag, Qual.tag, Aggr.tag] at h; done)
    | (rename_i x y; cases x <;> cases y <;> first | rfl | (exact absurd h (by decide)))
    | (rename_i x; cases x <;> exact absurd h (by decide))

theorem tok_plain (a : Cat) : ∀ c ∈ tok a, c ≠ 40 ∧ c ≠ 41 ∧ c ≠ 44 := by
  cases a <;> first
    | decide
    | (rename_i x; cases x <;> decide)

theorem tok_comma (a : Cat) : (44 : UInt8) ∉ tok a := fun h => (tok_plain a _ h).2.2 rfl

/-- What follows the name. -/
def rest (link : Off → Go Str) : Desc → Go Str
  | .base h enc => Go.ret (go! "Encoding:" ++ enc ++ [44] ++ optional (go! "ByteSize") h.byteSize)
  | .enumeration h es => Go.ret (optional (go! "ByteSize") h.byteSize ++ optional (go! "Alignment") h.alignment ++
      go! "Enumberators:(" ++ (es.map fun e => [40] ++ e.1 ++ [58] ++ decInt e.2 ++ [41, 44]).flatten ++ go! "),")
  | .qual _ _ t | .typedef _ t | .pointer _ t | .reference _ _ t => linked link (go! "From") t
  | .unspecified _ | .namespace_ .. => Go.ret []
  | .subroutine _ ps r | .subprogram _ ps r _ => funcRest link ps r
  | .array _ s l c v t => arrayRest link s l c v t
  | .struct h _ fs hier => structRest link h fs hier
  | .variable _ t => linked link (go! "Type") t
  | .lexBlock _ | .compileUnit .. => Go.fail

/-- The name as it is written. -/
def nameText (c : Cat) (n : Str) : Str := if c = .compileUnit then go! " Name:" ++ n ++ [44] else n

/-- Objects without a signature if they have no name. -/
def needsName : Desc → Bool
  | .base .. | .typedef .. | .lexBlock _ | .compileUnit .. => true
  | _ => false

/-- Whether the declaration flag is looked at. -/
def checked : Desc → Bool
  | .qual .. | .unspecified _ | .namespace_ .. | .lexBlock _ | .compileUnit .. => false
  | d => declared d

theorem signed_false (head : Str) (nm : Option Str) (decl : Bool) (r : Go Str) (s : Str) :
    signed head nm decl false r = Go.ret s ↔ (∃ n, nm = some n ∧ s = head ++ n) ∨ (nm = none ∧ decl = false ∧ ∃ x, r = Go.ret x ∧ s = head ++ x) := by
  unfold signed
  cases nm with
  | some n =>
    simp only [if_true, Go.ret_inj]
    constructor
    · rintro rfl; exact .inl ⟨n, rfl, rfl⟩
    · rintro (⟨n', e, rfl⟩ | ⟨e, -⟩)
      · cases e; rfl
      · cases e
  | none =>
    cases decl with
    | true =>
      simp only [if_true]
      constructor
      · intro h; exact absurd h Go.fail_ne
      · rintro (⟨n', e, -⟩ | ⟨-, e, -⟩) <;> cases e
    | false =>
      simp only [Bool.false_eq_true, if_false, Go.bind_ret, Go.pure_ret]
      constructor
      · rintro ⟨x, h, rfl⟩; exact .inr ⟨trivial, trivial, x, h, rfl⟩
      · rintro (⟨n', e, -⟩ | ⟨-, -, x, h, rfl⟩)
        · cases e
        · exact ⟨x, h, rfl⟩

theorem signed_true (head : Str) (nm : Option Str) (decl : Bool) (r : Go Str) (s : Str) :
    signed head nm decl true r = Go.ret s ↔ decl = false ∧ ∃ x, r = Go.ret x ∧ s = head ++ nm.getD [] ++ x := by
  unfold signed
  cases nm with
  | some n =>
    cases decl with
    | true =>
      simp only [Bool.true_eq_false, if_true, if_false, false_and, iff_false]
      exact Go.fail_ne
    | false =>
      simp only [Bool.true_eq_false, Bool.false_eq_true, if_false, Go.bind_ret, Go.pure_ret, true_and, Option.getD_some]
      constructor
      · rintro ⟨x, h, rfl⟩; exact ⟨x, h, rfl⟩
      · rintro ⟨x, h, rfl⟩; exact ⟨x, h, rfl⟩
  | none =>
    cases decl with
    | true =>
      simp only [Bool.true_eq_false, if_true, false_and, iff_false]
      exact Go.fail_ne
    | false =>
      simp only [Bool.false_eq_true, if_false, Go.bind_ret, Go.pure_ret, true_and, Option.getD_none, List.append_nil]
      constructor
      · rintro ⟨x, h, rfl⟩; exact ⟨x, h, rfl⟩
      · rintro ⟨x, h, rfl⟩; exact ⟨x, h, rfl⟩

/-- Signatures as links write them. -/
theorem signature_false (link : Off → Go Str) (d : Desc) (s : Str) :
    signature link false d = Go.ret s ↔ (∃ n, name d = some n ∧ s = tok (cat d) ++ 44 :: nameText (cat d) n) ∨
      (name d = none ∧ checked d = false ∧ needsName d = false ∧ ∃ r, rest link d = Go.ret r ∧ s = tok (cat d) ++ 44 :: r) := by
  cases d with
  | base h e =>
    simp only [signature, name, needsName, Bool.true_eq_false, false_and, and_false, or_false, cat, tok, nameText]
    cases hn : h.name with
    | none =>
      simp only [reduceCtorEq, false_and, exists_false, iff_false]
      exact Go.fail_ne
    | some n =>
      simp only [signed_false, Option.some.injEq]
      simp
  | typedef h t =>
    simp only [signature, name, needsName, Bool.true_eq_false, false_and, and_false, or_false, cat, tok, nameText]
    cases hn : h.name with
    | none =>
      simp only [reduceCtorEq, false_and, exists_false, iff_false]
      exact Go.fail_ne
    | some n =>
      simp only [signed_false, Option.some.injEq]
      simp
  | lexBlock _ =>
    simp only [signature, name, needsName, Bool.true_eq_false, false_and, and_false, or_false, reduceCtorEq, exists_false, iff_false]
    exact Go.fail_ne
  | compileUnit n _ =>
    simp only [signature, name, needsName, Bool.true_eq_false, false_and, and_false, or_false, cat, tok, nameText, if_true, Go.ret_inj]
    constructor
    · rintro rfl; exact ⟨n, rfl, rfl⟩
    · rintro ⟨n', e, rfl⟩; cases e; rfl
  | namespace_ h _ =>
    simp only [signature, name, needsName, checked, cat, tok, nameText, rest, Go.ret_inj]
    cases h.name with
    | none => simp; exact eq_comm
    | some n => simp; exact eq_comm
  | enumeration h es => simp only [signature, signed_false, name, checked, declared, needsName, rest, cat, tok, nameText]; simp
  | qual h q t => simp only [signature, signed_false, name, checked, declared, needsName, rest, cat, tok, nameText]; simp
  | pointer h t => simp only [signature, signed_false, name, checked, declared, needsName, rest, cat, tok, nameText]; simp
  | unspecified h => simp only [signature, signed_false, name, checked, declared, needsName, rest, cat, tok, nameText]; simp
  | reference h r t => simp only [signature, signed_false, name, checked, declared, needsName, rest, cat, tok, nameText]; simp
  | subroutine h ps r => simp only [signature, signed_false, name, checked, declared, needsName, rest, cat, tok, nameText]; simp
  | array h a b c v t => simp only [signature, signed_false, name, checked, declared, needsName, rest, cat, tok, nameText]; simp
  | struct h a fs hs => simp only [signature, signed_false, name, checked, declared, needsName, rest, cat, tok, nameText]; simp
  | «variable» h t => simp only [signature, signed_false, name, checked, declared, needsName, rest, cat, tok, nameText]; simp
  | subprogram h ps r hs => simp only [signature, signed_false, name, checked, declared, needsName, rest, cat, tok, nameText]; simp

/-- Comparable signatures of types. -/
theorem signature_true (link : Off → Go Str) (d : Desc) (s : Str) (ht : isType d = true) :
    signature link true d = Go.ret s ↔ (needsName d = true → (name d).isSome = true) ∧ checked d = false ∧
      ∃ r, rest link d = Go.ret r ∧ s = tok (cat d) ++ 44 :: ((name d).getD [] ++ r) := by
  cases d with
  | base h e =>
    simp only [signature, name, needsName, checked, declared, cat, tok, rest, true_implies]
    cases hn : h.name with
    | none =>
      simp only [Option.isSome_none, Bool.false_eq_true, false_and, iff_false]
      exact Go.fail_ne
    | some n =>
      simp only [signed_true]
      simp
  | typedef h t =>
    simp only [signature, name, needsName, checked, declared, cat, tok, rest, true_implies]
    cases hn : h.name with
    | none =>
      simp only [Option.isSome_none, Bool.false_eq_true, false_and, iff_false]
      exact Go.fail_ne
    | some n =>
      simp only [signed_true]
      simp
  | lexBlock _ => cases ht
  | compileUnit n _ => cases ht
  | namespace_ h _ => cases ht
  | «variable» h t => cases ht
  | subprogram h ps r hs => cases ht
  | enumeration h es => simp only [signature, signed_true, name, checked, declared, needsName, rest, cat, tok]; simp
  | qual h q t => simp only [signature, signed_true, name, checked, declared, needsName, rest, cat, tok]; simp
  | pointer h t => simp only [signature, signed_true, name, checked, declared, needsName, rest, cat, tok]; simp
  | unspecified h => simp only [signature, signed_true, name, checked, declared, needsName, rest, cat, tok]; simp
  | reference h r t => simp only [signature, signed_true, name, checked, declared, needsName, rest, cat, tok]; simp
  | subroutine h ps r => simp only [signature, signed_true, name, checked, declared, needsName, rest, cat, tok]; simp
  | array h a b c v t => simp only [signature, signed_true, name, checked, declared, needsName, rest, cat, tok]; simp
  | struct h a fs hs => simp only [signature, signed_true, name, checked, declared, needsName, rest, cat, tok]; simp

/-! ### Pieces -/

theorem linked_ret {link : Off → Go Str} {k : Str} {t : Option Off} {s : Str} (h : linked link k t = Go.ret s) :
    (t = none ∧ s = []) ∨ ∃ l x, t = some l ∧ link l = Go.ret x ∧ s = k ++ 58 :: 40 :: (x ++ [41, 44]) := by
  cases t with
  | none => exact .inl ⟨rfl, (Go.ret_inj.mp h).symm⟩
  | some l =>
    obtain ⟨x, h1, h2⟩ := Go.bind_ret.mp h
    refine .inr ⟨l, x, rfl, h1, ?_⟩
    rw [Go.pure_ret] at h2
    rw [← h2]
    simp

theorem linked_some {link : Off → Go Str} {k : Str} {l : Off} {x : Str} (h : link l = Go.ret x) :
    linked link k (some l) = Go.ret (k ++ 58 :: 40 :: (x ++ [41, 44])) := by
  refine Go.bind_ret.mpr ⟨x, h, Go.pure_ret.mpr ?_⟩
  simp

theorem Starts.linked {link : Off → Go Str} {k : Str} {t : Option Off} {s r : Str} {ks : List Str} (h : linked link k t = Go.ret s) (hr : Starts ks r) :
    Starts (k :: ks) (s ++ r) := by
  rcases linked_ret h with ⟨-, rfl⟩ | ⟨l, x, -, -, rfl⟩
  · exact hr.mono fun x hx => List.mem_cons_of_mem _ hx
  · exact .inr (.inr ⟨k, List.mem_cons_self .., 40 :: (x ++ [41, 44]) ++ r, by simp⟩)

/-- Links can be read off. -/
theorem linked_inj {link link' : Off → Go Str} (hc : ∀ l x, link l = Go.ret x → Closed x) (hc' : ∀ l x, link' l = Go.ret x → Closed x)
    {L : Option Off → Option Off → Prop} (hL0 : L none none) {n : Nat}
    (hL : ∀ l l' x, x.length < n → link l = Go.ret x → link' l' = Go.ret x → L (some l) (some l'))
    {k : Str} {t t' : Option Off} {s s' r r' : Str} {ks : List Str} (h : linked link k t = Go.ret s) (h' : linked link' k t' = Go.ret s')
    (e : s ++ r = s' ++ r') (hn : s.length ≤ n) (hr : Starts ks r) (hr' : Starts ks r') (hk : Key k) (hks : ∀ x ∈ ks, Key x) (hkn : k ∉ ks) :
    L t t' ∧ r = r' := by
  rcases linked_ret h with ⟨rfl, rfl⟩ | ⟨l, x, rfl, h1, rfl⟩ <;> rcases linked_ret h' with ⟨rfl, rfl⟩ | ⟨l', x', rfl, h1', rfl⟩
  · exact ⟨hL0, e⟩
  · exact absurd e (by
      intro e
      exact hr.not hk hks hkn (40 :: (x' ++ [41, 44]) ++ r') (by simpa using e))
  · exact absurd e.symm (by
      intro e
      exact hr'.not hk hks hkn (40 :: (x ++ [41, 44]) ++ r) (by simpa using e))
  · simp only [List.append_assoc, List.cons_append, List.append_cancel_left_eq, List.cons.injEq, true_and, List.nil_append] at e
    obtain ⟨rfl, e2⟩ := (hc _ _ h1).split (hc' _ _ h1') e
    simp only [List.cons.injEq, true_and] at e2
    refine ⟨hL _ _ _ ?_ h1 h1', e2⟩
    simp at hn
    omega

theorem linked_closed {link : Off → Go Str} (hc : ∀ l x, link l = Go.ret x → Closed x) {k : Str} (hk : Key k) {t : Option Off} {s : Str}
    (h : linked link k t = Go.ret s) : Closed s := by
  rcases linked_ret h with ⟨-, rfl⟩ | ⟨l, x, -, h1, rfl⟩
  · exact Closed.nil
  · have := ((key_closed hk).append (Closed.plain (s := [58]) (by decide))).append (((hc _ _ h1).paren).append (Closed.plain (s := [44]) (by decide)))
    simpa using this

/-- Lists of items in parentheses can be read off. -/
theorem items_inj {α : Type} {xs ys : List α} {f g : α → Str → Prop} {L : α → α → Prop} {ss ss' : List Str} {r r' : Str}
    (h : Each f xs ss) (h' : Each g ys ss') (e : ss.flatten ++ 41 :: r = ss'.flatten ++ 41 :: r')
    (hf : ∀ x s, x ∈ xs → f x s → ∃ t, s = 40 :: t) (hg : ∀ x s, x ∈ ys → g x s → ∃ t, s = 40 :: t)
    (hL : ∀ x y s s' u u', x ∈ xs → y ∈ ys → f x s → g y s' → s ∈ ss → s ++ u = s' ++ u' → L x y ∧ u = u') :
    Each L xs ys ∧ r = r' := by
  induction h generalizing ys ss' with
  | nil =>
    cases h' with
    | nil => simp at e; exact ⟨.nil, e⟩
    | cons h1 h2 =>
      obtain ⟨t, rfl⟩ := hg _ _ (List.mem_cons_self ..) h1
      simp at e
  | @cons x s xs ss h1 h2 ih =>
    cases h' with
    | nil =>
      obtain ⟨t, rfl⟩ := hf _ _ (List.mem_cons_self ..) h1
      simp at e
    | @cons y s' ys ss' h1' h2' =>
      rw [List.flatten_cons, List.flatten_cons, List.append_assoc, List.append_assoc] at e
      obtain ⟨hxy, e2⟩ := hL x y s s' _ _ (List.mem_cons_self ..) (List.mem_cons_self ..) h1 h1' (List.mem_cons_self ..) e
      obtain ⟨h3, h4⟩ := ih h2' e2 (fun a b ha => hf a b (List.mem_cons_of_mem _ ha)) (fun a b ha => hg a b (List.mem_cons_of_mem _ ha))
        (fun a b s s' u u' ha hb h1 h2 hs => hL a b s s' u u' (List.mem_cons_of_mem _ ha) (List.mem_cons_of_mem _ hb) h1 h2 (List.mem_cons_of_mem _ hs))
      exact ⟨.cons hxy h3, h4⟩

theorem mem_flatten_length {s : Str} {ss : List Str} (h : s ∈ ss) : s.length ≤ ss.flatten.length := by
  induction ss with
  | nil => cases h
  | cons a ss ih =>
    rw [List.flatten_cons, List.length_append]
    rcases List.mem_cons.mp h with rfl | h
    · omega
    · have := ih h; omega

/-! ### Functions -/

theorem paramText_ret {link : Off → Go Str} {p : Param} {s : Str} (h : paramText link p = Go.ret s) :
    (p.unspecified = true ∧ s = go! "(UnspecifiedParam),") ∨ (p.unspecified = false ∧ p.type = none ∧ s = go! "(),") ∨
      ∃ l x, p.unspecified = false ∧ p.type = some l ∧ link l = Go.ret x ∧ s = 40 :: (x ++ [41, 44]) := by
  unfold paramText at h
  cases hu : p.unspecified with
  | true => simp only [hu, if_true] at h; exact .inl ⟨rfl, (Go.ret_inj.mp h).symm⟩
  | false =>
    simp only [hu, Bool.false_eq_true, if_false] at h
    cases ht : p.type with
    | none => simp only [ht] at h; exact .inr (.inl ⟨rfl, rfl, (Go.ret_inj.mp h).symm⟩)
    | some l =>
      simp only [ht] at h
      obtain ⟨x, h1, h2⟩ := Go.bind_ret.mp h
      refine .inr (.inr ⟨l, x, rfl, rfl, h1, ?_⟩)
      rw [Go.pure_ret] at h2
      rw [← h2]; simp

theorem paramText_closed {link : Off → Go Str} (hc : ∀ l x, link l = Go.ret x → Closed x) {p : Param} {s : Str} (h : paramText link p = Go.ret s) : Closed s := by
  rcases paramText_ret h with ⟨-, rfl⟩ | ⟨-, -, rfl⟩ | ⟨l, x, -, -, h1, rfl⟩
  · unfold Closed; decide
  · unfold Closed; decide
  · have := ((hc _ _ h1).paren).append (Closed.plain (s := [44]) (by decide))
    simpa using this

theorem takesText_ret {link : Off → Go Str} {ps : List Param} {s : Str} (h : takesText link ps = Go.ret s) :
    (ps = [] ∧ s = []) ∨ (ps ≠ [] ∧ ∃ ss, Each (fun p x => paramText link p = Go.ret x) ps ss ∧ s = go! "Takes" ++ 58 :: 40 :: (ss.flatten ++ [41, 44])) := by
  unfold takesText at h
  cases ps with
  | nil => exact .inl ⟨rfl, (Go.ret_inj.mp h).symm⟩
  | cons p ps =>
    simp only [List.length_cons, Nat.zero_lt_succ, gt_iff_lt, if_true] at h
    obtain ⟨ss, h1, h2⟩ := Go.bind_ret.mp h
    refine .inr ⟨by simp, ss, Go.mapM_ret.mp h1, ?_⟩
    rw [Go.pure_ret] at h2
    rw [← h2]; simp

theorem funcRest_ret {link : Off → Go Str} {ps : List Param} {r : Option Off} {s : Str} (h : funcRest link ps r = Go.ret s) :
    ∃ a b, takesText link ps = Go.ret a ∧ linked link (go! "Returns") r = Go.ret b ∧ s = a ++ b := by
  obtain ⟨a, h1, h2⟩ := Go.bind_ret.mp h
  obtain ⟨b, h2, h3⟩ := Go.bind_ret.mp h2
  exact ⟨a, b, h1, h2, (Go.pure_ret.mp h3).symm⟩

theorem takesText_closed {link : Off → Go Str} (hc : ∀ l x, link l = Go.ret x → Closed x) {ps : List Param} {s : Str} (h : takesText link ps = Go.ret s) : Closed s := by
  rcases takesText_ret h with ⟨-, rfl⟩ | ⟨-, ss, h1, rfl⟩
  · exact Closed.nil
  · have h2 : Closed ss.flatten := by
      apply Closed.flatten
      intro s hs
      obtain ⟨p, -, hp⟩ := h1.right hs
      exact paramText_closed hc hp
    have := (Closed.plain (s := go! "Takes:") (by decide)).append (h2.paren.append (Closed.plain (s := [44]) (by decide)))
    simpa using this

def fieldName : Option Str → Str
  | none => []
  | some n => go! "Name" ++ 58 :: (n ++ [44])

theorem fieldName_inj {a b : Option Str} {r r' : Str} {ks : List Str} (e : fieldName a ++ r = fieldName b ++ r')
    (ha : ∀ n, a = some n → Plain n) (hb : ∀ n, b = some n → Plain n) (hr : Starts ks r) (hr' : Starts ks r') (hks : ∀ x ∈ ks, Key x)
    (hn : (go! "Name") ∉ ks) : a = b ∧ r = r' := by
  cases a with
  | none =>
    cases b with
    | none => exact ⟨rfl, e⟩
    | some m =>
      exfalso
      exact hr.not (k := go! "Name") (by decide) hks hn (m ++ [44] ++ r') (by simpa [fieldName] using e)
  | some m =>
    cases b with
    | none =>
      exfalso
      exact hr'.not (k := go! "Name") (by decide) hks hn (m ++ [44] ++ r) (by simpa [fieldName] using e.symm)
    | some m' =>
      simp only [fieldName, List.append_assoc, List.cons_append, List.nil_append, List.cons.injEq, true_and] at e
      obtain ⟨rfl, e2⟩ := split_mark (fun hm => ((ha m rfl) _ hm).2.2.1 rfl) (fun hm => ((hb m' rfl) _ hm).2.2.1 rfl) e
      exact ⟨rfl, e2⟩

section
variable {link link' : Off → Go Str} (hc : ∀ l x, link l = Go.ret x → Closed x) (hc' : ∀ l x, link' l = Go.ret x → Closed x)
  (hu : ∀ l, link l ≠ Go.ret (go! "UnspecifiedParam") ∧ link l ≠ Go.ret [])
  (hu' : ∀ l, link' l ≠ Go.ret (go! "UnspecifiedParam") ∧ link' l ≠ Go.ret [])
  {ptr : Off → Option Nat} {R : Nat → Nat → Prop} {n : Nat}
  (hL : ∀ l l' x, x.length < n → link l = Go.ret x → link' l' = Go.ret x → Links ptr R (some l) (some l'))
include hc hc' hL

theorem linked_inj' {k : Str} {t t' : Option Off} {s s' r r' : Str} {ks : List Str} (h : linked link k t = Go.ret s) (h' : linked link' k t' = Go.ret s')
    (e : s ++ r = s' ++ r') (hn : s.length ≤ n) (hr : Starts ks r) (hr' : Starts ks r') (hk : Key k) (hks : ∀ x ∈ ks, Key x) (hkn : k ∉ ks) :
    Links ptr R t t' ∧ r = r' :=
  linked_inj hc hc' (L := Links ptr R) .none hL h h' e hn hr hr' hk hks hkn

include hu hu' in
theorem paramText_inj {p p' : Param} {s s' u u' : Str} (h : paramText link p = Go.ret s) (h' : paramText link' p' = Go.ret s') (hn : s.length ≤ n)
    (e : s ++ u = s' ++ u') : Params ptr R p p' ∧ u = u' := by
  have hcl : ∀ x x' : Str, Closed x → Closed x' → (40 :: (x ++ [41, 44])) ++ u = (40 :: (x' ++ [41, 44])) ++ u' → x = x' ∧ u = u' := by
    intro x x' hx hx' e
    simp only [List.append_assoc, List.cons_append, List.cons.injEq, true_and, List.nil_append] at e
    obtain ⟨rfl, e2⟩ := hx.split hx' e
    simp only [List.cons.injEq, true_and] at e2
    exact ⟨rfl, e2⟩
  have hup : Closed (go! "UnspecifiedParam") := Closed.plain (by decide)
  rcases paramText_ret h with ⟨h1, rfl⟩ | ⟨h1, h2, rfl⟩ | ⟨l, x, h1, h2, h3, rfl⟩ <;>
    rcases paramText_ret h' with ⟨h1', rfl⟩ | ⟨h1', h2', rfl⟩ | ⟨l', x', h1', h2', h3', rfl⟩
  · exact ⟨.rest h1 h1', (hcl _ _ hup hup e).2⟩
  · exact absurd (hcl (go! "UnspecifiedParam") [] hup Closed.nil e).1 (by decide)
  · have := (hcl _ _ hup (hc' _ _ h3') e).1
    rw [← this] at h3'
    exact absurd h3' (hu' _).1
  · exact absurd (hcl [] (go! "UnspecifiedParam") Closed.nil hup e).1 (by decide)
  · exact ⟨.typed h1 h1' (by rw [h2, h2']; exact .none), (hcl [] [] Closed.nil Closed.nil e).2⟩
  · have := (hcl [] _ Closed.nil (hc' _ _ h3') e).1
    rw [← this] at h3'
    exact absurd h3' (hu' _).2
  · have := (hcl _ _ (hc _ _ h3) hup e).1
    rw [this] at h3
    exact absurd h3 (hu _).1
  · have := (hcl _ [] (hc _ _ h3) Closed.nil e).1
    rw [this] at h3
    exact absurd h3 (hu _).2
  · obtain ⟨rfl, e2⟩ := hcl _ _ (hc _ _ h3) (hc' _ _ h3') e
    refine ⟨.typed h1 h1' ?_, e2⟩
    rw [h2, h2']
    refine hL _ _ _ ?_ h3 h3'
    simp at hn; omega

include hu hu' in
theorem funcRest_inj {ps ps' : List Param} {r r' : Option Off} {s : Str} (h : funcRest link ps r = Go.ret s) (h' : funcRest link' ps' r' = Go.ret s)
    (hn : s.length ≤ n) : Each (Params ptr R) ps ps' ∧ Links ptr R r r' := by
  obtain ⟨a, b, h1, h2, e⟩ := funcRest_ret h
  obtain ⟨a', b', h1', h2', e'⟩ := funcRest_ret h'
  rw [e'] at e
  have hla : a.length ≤ n := by rw [e', e, List.length_append] at hn; omega
  have hlb : b.length ≤ n := by rw [e', e, List.length_append] at hn; omega
  have hsb : Starts [go! "Returns"] b := by simpa using Starts.linked h2 (Starts.nil [])
  have hsb' : Starts [go! "Returns"] b' := by simpa using Starts.linked h2' (Starts.nil [])
  have hkey : Each (Params ptr R) ps ps' ∧ b = b' := by
    rcases takesText_ret h1 with ⟨rfl, rfl⟩ | ⟨hne, ss, hs, rfl⟩ <;> rcases takesText_ret h1' with ⟨rfl, rfl⟩ | ⟨hne', ss', hs', rfl⟩
    · exact ⟨.nil, by simpa using e.symm⟩
    · exfalso
      exact hsb.not (k := go! "Takes") (by decide) (by decide) (by decide) (40 :: (ss'.flatten ++ [41, 44]) ++ b') (by simpa using e.symm)
    · exfalso
      exact hsb'.not (k := go! "Takes") (by decide) (by decide) (by decide) (40 :: (ss.flatten ++ [41, 44]) ++ b) (by simpa using e)
    · simp only [List.append_assoc, List.cons_append, List.cons.injEq, true_and, List.nil_append] at e
      obtain ⟨h3, h4⟩ := items_inj (L := Params ptr R) hs hs' e.symm
        (by
          intro x s _ hx
          rcases paramText_ret hx with ⟨-, rfl⟩ | ⟨-, -, rfl⟩ | ⟨l, x, -, -, -, rfl⟩
          · exact ⟨_, rfl⟩
          · exact ⟨_, rfl⟩
          · exact ⟨_, rfl⟩)
        (by
          intro x s _ hx
          rcases paramText_ret hx with ⟨-, rfl⟩ | ⟨-, -, rfl⟩ | ⟨l, x, -, -, -, rfl⟩
          · exact ⟨_, rfl⟩
          · exact ⟨_, rfl⟩
          · exact ⟨_, rfl⟩)
        (by
          intro x y s s' u u' _ _ hx hy hm e
          refine paramText_inj hc hc' hu hu' hL hx hy ?_ e
          have := mem_flatten_length hm
          simp only [List.length_append, List.length_cons] at hla
          omega)
      exact ⟨h3, by simpa using h4⟩
  obtain ⟨h3, rfl⟩ := hkey
  exact ⟨h3, (linked_inj' hc hc' hL (r := []) (r' := []) (ks := []) h2 h2' (by simp at e ⊢) hlb (Starts.nil _) (Starts.nil _) (by decide) (by simp) (by simp)).1⟩

/-! ### Structures -/

omit hc hc' hL in
theorem fieldText_ret {f : Field} {s : Str} (h : fieldText link f = Go.ret s) : ∃ t, linked link (go! "Type") f.type = Go.ret t ∧
    s = (40 : UInt8) :: (fieldName f.name ++ (t ++ (optional (go! "Alignment") f.alignment ++
      (optional (go! "BitSize") f.bitSize ++ (optional (go! "BitOffset") f.bitOffset ++
        (optional (go! "ByteOffset") (match f.bitOffset with | some _ => none | none => some f.byteOffset) ++
          (optional (go! "DataBitOffset") f.dataBitOffset ++ [41, 44]))))))) := by
  obtain ⟨t, h1, h2⟩ := Go.bind_ret.mp h
  refine ⟨t, h1, ?_⟩
  rw [Go.pure_ret] at h2
  rw [← h2]
  cases f.name <;> cases f.bitOffset <;> simp [optional, fieldName]

theorem fieldText_inj {f f' : Field} {s s' u u' : Str} (hf : ∀ n, f.name = some n → Plain n) (hf' : ∀ n, f'.name = some n → Plain n)
    (h : fieldText link f = Go.ret s) (h' : fieldText link' f' = Go.ret s') (hn : s.length ≤ n)
    (e : s ++ u = s' ++ u') : Fields ptr R f f' ∧ u = u' := by
  obtain ⟨t, h1, e1⟩ := fieldText_ret h
  obtain ⟨t', h1', e1'⟩ := fieldText_ret h'
  have hlt : t.length ≤ n := by
    rw [e1] at hn
    simp only [List.length_append, List.length_cons] at hn
    omega
  rw [e1, e1'] at e
  simp only [List.append_assoc, List.cons_append, List.cons.injEq, true_and, List.nil_append] at e
  have s7 : ∀ u : Str, Starts [] (41 :: 44 :: u) := fun u => Starts.close _ _
  have s6 := fun (f : Field) u => Starts.optional (go! "DataBitOffset") f.dataBitOffset (s7 u)
  have s5 := fun (f : Field) u => Starts.optional (go! "ByteOffset") (match f.bitOffset with | some _ => none | none => some f.byteOffset) (s6 f u)
  have s4 := fun (f : Field) u => Starts.optional (go! "BitOffset") f.bitOffset (s5 f u)
  have s3 := fun (f : Field) u => Starts.optional (go! "BitSize") f.bitSize (s4 f u)
  have s2 := fun (f : Field) u => Starts.optional (go! "Alignment") f.alignment (s3 f u)
  have s1 := Starts.linked h1 (s2 f u)
  have s1' := Starts.linked h1' (s2 f' u')
  obtain ⟨en, e⟩ := fieldName_inj e hf hf' s1 s1' (by decide) (by decide)
  obtain ⟨et, e⟩ := linked_inj' hc hc' hL h1 h1' e hlt (s2 f u) (s2 f' u') (by decide) (by decide) (by decide)
  obtain ⟨ea, e⟩ := optional_inj e (s3 f u) (s3 f' u') (by decide) (by decide) (by decide)
  obtain ⟨eb, e⟩ := optional_inj e (s4 f u) (s4 f' u') (by decide) (by decide) (by decide)
  obtain ⟨ec, e⟩ := optional_inj e (s5 f u) (s5 f' u') (by decide) (by decide) (by decide)
  obtain ⟨ed, e⟩ := optional_inj e (s6 f u) (s6 f' u') (by decide) (by decide) (by decide)
  obtain ⟨ee, e⟩ := optional_inj e (s7 u) (s7 u') (by decide) (by decide) (by decide)
  simp only [List.cons.injEq, true_and] at e
  refine ⟨⟨en, et, ea, eb, ec, ?_, ee⟩, e⟩
  intro hb
  rw [hb] at ec
  rw [hb, ← ec] at ed
  simpa using ed

omit hL hc' in
theorem fieldText_closed {f : Field} {s : Str} (hf : ∀ n, f.name = some n → Plain n) (h : fieldText link f = Go.ret s) : Closed s := by
  obtain ⟨t, h1, e1⟩ := fieldText_ret h
  have h2 := (linked_closed hc (by decide) h1).append ((optional_closed (k := go! "Alignment") f.alignment (by decide)).append
    ((optional_closed (k := go! "BitSize") f.bitSize (by decide)).append ((optional_closed (k := go! "BitOffset") f.bitOffset (by decide)).append
      ((optional_closed (k := go! "ByteOffset") (match f.bitOffset with | some _ => none | none => some f.byteOffset) (by decide)).append
        (optional_closed (k := go! "DataBitOffset") f.dataBitOffset (by decide))))))
  have h3 : Closed (fieldName f.name) := by
    cases hn : f.name with
    | none => exact Closed.nil
    | some m =>
      have := (Closed.plain (s := go! "Name:") (by decide)).append ((hf m hn).closed.append (Closed.plain (s := [44]) (by decide)))
      simpa [fieldName] using this
  have := (h3.append h2).paren.append (Closed.plain (s := [44]) (by decide))
  rw [e1]
  simpa using this

omit hc hc' hL in
theorem otherText_ret {l : Off} {s : Str} (h : otherText link l = Go.ret s) : ∃ x, link l = Go.ret x ∧ s = 40 :: (x ++ [41, 44]) := by
  obtain ⟨x, h1, h2⟩ := Go.bind_ret.mp h
  refine ⟨x, h1, ?_⟩
  rw [Go.pure_ret] at h2
  rw [← h2]
  simp

omit hc hc' hL in
theorem fieldsText_ret {fs : List Field} {hs : List Off} {s : Str} (h : fieldsText link fs hs = Go.ret s) :
    (fs = [] ∧ s = []) ∨ (fs ≠ [] ∧ ∃ ss os, Each (fun f x => fieldText link f = Go.ret x) fs ss ∧ Each (fun l x => otherText link l = Go.ret x) hs os ∧
      s = go! "Fields" ++ 58 :: 40 :: (ss.flatten ++ 41 :: 44 :: (go! "Other:(" ++ (os.flatten ++ [41, 44])))) := by
  unfold fieldsText at h
  cases fs with
  | nil => exact .inl ⟨rfl, (Go.ret_inj.mp h).symm⟩
  | cons p ps =>
    simp only [List.length_cons, Nat.zero_lt_succ, gt_iff_lt, if_true] at h
    obtain ⟨ss, h1, h2⟩ := Go.bind_ret.mp h
    obtain ⟨os, h2, h3⟩ := Go.bind_ret.mp h2
    refine .inr ⟨by simp, ss, os, Go.mapM_ret.mp h1, Go.mapM_ret.mp h2, ?_⟩
    rw [Go.pure_ret] at h3
    rw [← h3]; simp

omit hc hc' hL in
theorem structRest_ret {h : Head} {fs : List Field} {hs : List Off} {s : Str} (e : structRest link h fs hs = Go.ret s) :
    ∃ x, fieldsText link fs hs = Go.ret x ∧ s = optional (go! "ByteSize") h.byteSize ++ (optional (go! "Alignment") h.alignment ++ x) := by
  obtain ⟨x, h1, h2⟩ := Go.bind_ret.mp e
  refine ⟨x, h1, ?_⟩
  rw [Go.pure_ret] at h2
  rw [← h2]; simp

omit hc' hL in
theorem structRest_closed {h : Head} {fs : List Field} {hs : List Off} {s : Str} (hf : ∀ f ∈ fs, ∀ n, f.name = some n → Plain n)
    (e : structRest link h fs hs = Go.ret s) : Closed s := by
  obtain ⟨x, h1, rfl⟩ := structRest_ret e
  refine (optional_closed _ (by decide)).append ((optional_closed _ (by decide)).append ?_)
  rcases fieldsText_ret h1 with ⟨-, rfl⟩ | ⟨-, ss, os, h2, h3, rfl⟩
  · exact Closed.nil
  · have c1 : Closed ss.flatten := by
      apply Closed.flatten
      intro s hs
      obtain ⟨f, hfm, hx⟩ := h2.right hs
      exact fieldText_closed hc (hf f hfm) hx
    have c2 : Closed os.flatten := by
      apply Closed.flatten
      intro s hs
      obtain ⟨l, -, hx⟩ := h3.right hs
      obtain ⟨x, h4, rfl⟩ := otherText_ret hx
      have := (hc _ _ h4).paren.append (Closed.plain (s := [44]) (by decide))
      simpa using this
    have := (Closed.plain (s := go! "Fields:") (by decide)).append (c1.paren.append ((Closed.plain (s := go! ",Other:") (by decide)).append
      (c2.paren.append (Closed.plain (s := [44]) (by decide)))))
    simpa using this

theorem structRest_inj {h h' : Head} {fs fs' : List Field} {hs hs' : List Off} {s : Str} (hf : ∀ f ∈ fs, ∀ n, f.name = some n → Plain n)
    (hf' : ∀ f ∈ fs', ∀ n, f.name = some n → Plain n)
    (e : structRest link h fs hs = Go.ret s) (e' : structRest link' h' fs' hs' = Go.ret s) (hn : s.length ≤ n) :
    h.byteSize = h'.byteSize ∧ h.alignment = h'.alignment ∧ Each (Fields ptr R) fs fs' ∧
      (fs ≠ [] → Each (fun l l' => Links ptr R (some l) (some l')) hs hs') := by
  obtain ⟨x, h1, rfl⟩ := structRest_ret e
  obtain ⟨x', h1', e⟩ := structRest_ret e'
  have hx : x.length ≤ n := by simp only [List.length_append] at hn; omega
  have st : ∀ {lk : Off → Go Str} {fs hs x}, fieldsText lk fs hs = Go.ret x → Starts [go! "Fields"] x := by
    intro lk fs hs x hx
    rcases fieldsText_ret hx with ⟨-, rfl⟩ | ⟨-, ss, os, -, -, rfl⟩
    · exact Starts.nil _
    · exact .inr (.inr ⟨_, List.mem_cons_self .., _, rfl⟩)
  obtain ⟨ea, e⟩ := optional_inj e (Starts.optional _ _ (st h1)) (Starts.optional _ _ (st h1')) (by decide) (by decide) (by decide)
  obtain ⟨eb, e⟩ := optional_inj e (st h1) (st h1') (by decide) (by decide) (by decide)
  refine ⟨ea, eb, ?_⟩
  rcases fieldsText_ret h1 with ⟨rfl, rfl⟩ | ⟨hne, ss, os, h2, h3, rfl⟩ <;> rcases fieldsText_ret h1' with ⟨rfl, rfl⟩ | ⟨hne', ss', os', h2', h3', rfl⟩
  · exact ⟨.nil, fun h => absurd rfl h⟩
  · simp at e
  · simp at e
  · simp only [List.append_cancel_left_eq, List.cons.injEq, true_and] at e
    simp only [List.length_append, List.length_cons] at hx
    obtain ⟨r1, e⟩ := items_inj (L := Fields ptr R) h2 h2' e
      (by
        intro x s _ hx
        obtain ⟨t, -, rfl⟩ := fieldText_ret hx
        exact ⟨_, rfl⟩)
      (by
        intro x s _ hx
        obtain ⟨t, -, rfl⟩ := fieldText_ret hx
        exact ⟨_, rfl⟩)
      (by
        intro x y s s' u u' hxm hym hx' hy' hm e
        refine fieldText_inj hc hc' hL (hf x hxm) (hf' y hym) hx' hy' ?_ e
        have := mem_flatten_length hm
        omega)
    simp only [List.append_cancel_left_eq, List.cons.injEq, true_and] at e
    obtain ⟨r2, -⟩ := items_inj (L := fun l l' => Links ptr R (some l) (some l')) h3 h3' e
      (by
        intro x s _ hx
        obtain ⟨t, -, rfl⟩ := otherText_ret hx
        exact ⟨_, rfl⟩)
      (by
        intro x s _ hx
        obtain ⟨t, -, rfl⟩ := otherText_ret hx
        exact ⟨_, rfl⟩)
      (by
        intro l l' s s' u u' _ _ hx1 hy1 hm e
        obtain ⟨y, hy, rfl⟩ := otherText_ret hx1
        obtain ⟨y', hy', rfl⟩ := otherText_ret hy1
        simp only [List.append_assoc, List.cons_append, List.cons.injEq, true_and, List.nil_append] at e
        obtain ⟨rfl, e2⟩ := (hc _ _ hy).split (hc' _ _ hy') e
        simp only [List.cons.injEq, true_and] at e2
        refine ⟨hL _ _ _ ?_ hy hy', e2⟩
        have := mem_flatten_length hm
        simp only [List.length_append, List.length_cons] at this
        omega)
    exact ⟨r1, fun _ => r2⟩
end

/-! ### Enumerations -/

theorem enum_inj {es es' : List (Str × Int)} {r r' : Str} (hp : ∀ e ∈ es, Plain e.1) (hp' : ∀ e ∈ es', Plain e.1)
    (e : (es.map fun e => [40] ++ e.1 ++ [58] ++ decInt e.2 ++ [41, 44]).flatten ++ 41 :: r =
      (es'.map fun e => [40] ++ e.1 ++ [58] ++ decInt e.2 ++ [41, 44]).flatten ++ 41 :: r') : es = es' := by
  induction es generalizing es' with
  | nil =>
    cases es' with
    | nil => rfl
    | cons a as => simp at e
  | cons a as ih =>
    cases es' with
    | nil => simp at e
    | cons b bs =>
      simp only [List.map_cons, List.flatten_cons, List.append_assoc, List.cons_append, List.nil_append, List.cons.injEq, true_and] at e
      obtain ⟨e1, e⟩ := split_mark (fun hm => ((hp a (List.mem_cons_self ..)) _ hm).2.2.2 rfl) (fun hm => ((hp' b (List.mem_cons_self ..)) _ hm).2.2.2 rfl) e
      obtain ⟨e2, e⟩ := split_mark (decInt_no (by decide) (by decide)) (decInt_no (by decide) (by decide)) e
      simp only [List.cons.injEq, true_and] at e
      have := ih (fun x hx => hp x (List.mem_cons_of_mem _ hx)) (fun x hx => hp' x (List.mem_cons_of_mem _ hx)) (by simpa using e)
      rw [this, Prod.ext e1 (decInt_inj e2)]

theorem enum_closed {es : List (Str × Int)} (hp : ∀ e ∈ es, Plain e.1) : Closed (es.map fun e => [40] ++ e.1 ++ [58] ++ decInt e.2 ++ [41, 44]).flatten := by
  apply Closed.flatten
  intro s hs
  obtain ⟨e, he, rfl⟩ := List.mem_map.mp hs
  have c2 : Closed (decInt e.2) := Closed.plain fun c hc => ⟨fun h => decInt_no (by decide) (by decide) (h ▸ hc), fun h => decInt_no (by decide) (by decide) (h ▸ hc)⟩
  have := (((hp e he).closed.append (Closed.plain (s := [58]) (by decide))).append c2).paren.append (Closed.plain (s := [44]) (by decide))
  simpa using this

end Verif.GoDedup
