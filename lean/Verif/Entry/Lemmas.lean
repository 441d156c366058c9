import Verif.Entry.Spec
namespace Verif.Entry
open Verif Verif.Entry.Spec

theorem loop_alias {db : Db} {r : Ref} {t : Option Ref} (h : Alias db r t) (mult : UInt64) :
    byteSizeLoop db (some r) mult = byteSizeLoop db t mult := by
  rw [byteSizeLoop.eq_def db (some r)]
  cases h with
  | typedef h => simp only [h]
  | var h => simp only [h]
  | param h => simp only [h]
  | member h => simp only [h]
  | qual h => simp only [h]

theorem loop_dots {db : Db} {r : Ref} {t : Option Ref} (h : (db r).info = .param true t) (mult : UInt64) :
    byteSizeLoop db (some r) mult = byteSizeLoop db t mult := by
  rw [byteSizeLoop.eq_def db (some r)]
  simp only [h]

theorem loop_stored {db : Db} {r : Ref} {n : Nat} (h : Stored db r n) (mult : UInt64) :
    byteSizeLoop db (some r) mult = some (.ok (UInt64.ofNat n * mult)) := by
  rw [byteSizeLoop.eq_def db (some r)]
  cases h with
  | base h => simp only [h, UInt64.ofNat_toNat]
  | enumeration h => simp only [h, UInt64.ofNat_toNat]
  | pointer h => simp only [h]; rfl
  | struct h => simp only [h, UInt64.ofNat_toNat]
  | reference h => simp only [h, UInt64.ofNat_toNat]

theorem loop_void (db : Db) (mult : UInt64) : byteSizeLoop db none mult = some (.error (-14)) := by
  rw [byteSizeLoop.eq_def]

theorem ofInt_natCast (n : Nat) : UInt64.ofInt (n : Int) = UInt64.ofNat n := by
  rw [← UInt64.toNat_inj]
  simp [UInt64.ofInt]
  omega

theorem loop_size {db : Db} {r : Ref} {n : Nat} (h : Size db r n) (mult : UInt64) :
    byteSizeLoop db (some r) mult = some (.ok (UInt64.ofNat n * mult)) := by
  induction h generalizing mult with
  | stored h => exact loop_stored h mult
  | through h _ ih => rw [loop_alias h, ih]
  | dots h _ ih => rw [loop_dots h, ih]
  | @array r t n count h hc _ ih =>
    rw [byteSizeLoop.eq_def db (some r)]
    have : ¬ ((count : Int) ≤ 0) := by omega
    simp only [h, this, if_false]
    rw [ih, ofInt_natCast]
    congr 2
    rw [UInt64.ofNat_mul, UInt64.mul_comm mult, ← UInt64.mul_assoc, UInt64.mul_comm (UInt64.ofNat n)]

theorem loop_nosize {db : Db} {r : Ref} (h : NoSize db r) (mult : UInt64) :
    byteSizeLoop db (some r) mult = some (.error (-14)) := by
  induction h generalizing mult with
  | subprogram h => rw [byteSizeLoop.eq_def]; simp only [h]
  | subroutine h => rw [byteSizeLoop.eq_def]; simp only [h]
  | unspecified h => rw [byteSizeLoop.eq_def]; simp only [h]
  | lexBlock h => rw [byteSizeLoop.eq_def]; simp only [h]
  | nspace h => rw [byteSizeLoop.eq_def]; simp only [h]
  | compileUnit h => rw [byteSizeLoop.eq_def]; simp only [h]
  | void h => rw [loop_alias h, loop_void]
  | through h _ ih => rw [loop_alias h, ih]
  | dots h => rw [loop_dots h, loop_void]
  | dotsThrough h _ ih => rw [loop_dots h, ih]
  | flexible h hc => rw [byteSizeLoop.eq_def]; simp only [h, hc, if_true]
  | @arrayVoid r count h =>
    rw [byteSizeLoop.eq_def]; simp only [h]
    split
    · rfl
    · exact loop_void _ _
  | @array r t count h _ ih =>
    rw [byteSizeLoop.eq_def]; simp only [h]
    split
    · rfl
    · exact ih _

theorem size_or_nosize {db : Db} {r : Ref} (h : Acyclic db r) : (∃ n, Size db r n) ∨ NoSize db r := by
  induction h with
  | intro r _ ih =>
    have link : ∀ t, Alias db r t → (∃ n, Size db r n) ∨ NoSize db r := by
      intro t ht
      cases t with
      | none => exact .inr (.void ht)
      | some t =>
        rcases ih t (.alias ht) with ⟨n, hn⟩ | hn
        · exact .inl ⟨n, .through ht hn⟩
        · exact .inr (.through ht hn)
    cases hi : (db r).info with
    | typedef t => exact link t (.typedef hi)
    | qual q t => exact link t (.qual hi)
    | base n e => exact .inl ⟨_, .stored (.base hi)⟩
    | pointer t => exact .inl ⟨_, .stored (.pointer hi)⟩
    | reference v n t => exact .inl ⟨_, .stored (.reference hi)⟩
    | enumeration n e es => exact .inl ⟨_, .stored (.enumeration hi)⟩
    | array t count =>
      rcases Int.lt_or_le 0 count with hc | hc
      · cases t with
        | none => exact .inr (.arrayVoid hi)
        | some t =>
          rcases ih t (.array hi) with ⟨n, hn⟩ | hn
          · have e : count = ((count.toNat : Nat) : Int) := by omega
            rw [e] at hi
            exact .inl ⟨_, .array hi (by omega) hn⟩
          · exact .inr (.array hi hn)
      · exact .inr (.flexible hi hc)
    | member m => exact link m.type (.member hi)
    | struct k n ms => exact .inl ⟨_, .stored (.struct hi)⟩
    | var t => exact link t (.var hi)
    | param u t =>
      cases u with
      | false => exact link t (.param hi)
      | true =>
        cases t with
        | none => exact .inr (.dots hi)
        | some t =>
          rcases ih t (.dots hi) with ⟨n, hn⟩ | hn
          · exact .inl ⟨n, .dots hi hn⟩
          · exact .inr (.dotsThrough hi hn)
    | subprogram t ps => exact .inr (.subprogram hi)
    | subroutine t ps => exact .inr (.subroutine hi)
    | unspecifiedType => exact .inr (.unspecified hi)
    | lexBlock => exact .inr (.lexBlock hi)
    | nspace => exact .inr (.nspace hi)
    | compileUnit => exact .inr (.compileUnit hi)

/-! ### Final entry -/

def addAll (qs : Quals) (l : List Qual) : Quals := l.foldl Quals.add qs

theorem flag_add (qs : Quals) (q q' : Qual) : flag (qs.add q) q' = (flag qs q' || decide (q' = q)) := by
  cases q <;> cases q' <;> simp [flag, Quals.add]

theorem flag_addAll (l : List Qual) (qs : Quals) (q : Qual) : flag (addAll qs l) q = (flag qs q || decide (q ∈ l)) := by
  induction l generalizing qs with
  | nil => simp [addAll]
  | cons x l ih =>
    have : addAll qs (x :: l) = addAll (qs.add x) l := rfl
    rw [this, ih, flag_add]
    simp [Bool.or_assoc]

theorem final_alias {db : Db} {r : Ref} {t : Option Ref} (h : Alias db r t) (qs : Quals) :
    finalLoop db (some r) qs = finalLoop db t (addAll qs (own db r)) := by
  rw [finalLoop.eq_def db (some r)]
  unfold own
  cases h with
  | typedef h => simp only [h]; rfl
  | var h => simp only [h]; rfl
  | param h => simp only [h]; rfl
  | member h => simp only [h]; rfl
  | qual h => simp only [h]; rfl

instance (db : Db) (r : Ref) : Decidable (Dots db r) :=
  match h : (db r).info with
  | .param true t => isTrue ⟨t, h⟩
  | .param false t => isFalse (fun ⟨_, h'⟩ => by rw [h] at h'; simp at h')
  | .typedef _ => isFalse (fun ⟨_, h'⟩ => by rw [h] at h'; simp at h')
  | .qual _ _ => isFalse (fun ⟨_, h'⟩ => by rw [h] at h'; simp at h')
  | .base _ _ => isFalse (fun ⟨_, h'⟩ => by rw [h] at h'; simp at h')
  | .pointer _ => isFalse (fun ⟨_, h'⟩ => by rw [h] at h'; simp at h')
  | .reference _ _ _ => isFalse (fun ⟨_, h'⟩ => by rw [h] at h'; simp at h')
  | .enumeration _ _ _ => isFalse (fun ⟨_, h'⟩ => by rw [h] at h'; simp at h')
  | .array _ _ => isFalse (fun ⟨_, h'⟩ => by rw [h] at h'; simp at h')
  | .member _ => isFalse (fun ⟨_, h'⟩ => by rw [h] at h'; simp at h')
  | .struct _ _ _ => isFalse (fun ⟨_, h'⟩ => by rw [h] at h'; simp at h')
  | .var _ => isFalse (fun ⟨_, h'⟩ => by rw [h] at h'; simp at h')
  | .subprogram _ _ => isFalse (fun ⟨_, h'⟩ => by rw [h] at h'; simp at h')
  | .subroutine _ _ => isFalse (fun ⟨_, h'⟩ => by rw [h] at h'; simp at h')
  | .unspecifiedType => isFalse (fun ⟨_, h'⟩ => by rw [h] at h'; simp at h')
  | .lexBlock => isFalse (fun ⟨_, h'⟩ => by rw [h] at h'; simp at h')
  | .nspace => isFalse (fun ⟨_, h'⟩ => by rw [h] at h'; simp at h')
  | .compileUnit => isFalse (fun ⟨_, h'⟩ => by rw [h] at h'; simp at h')

/-- What is written to the qualifiers. -/
def written (db : Db) (f : Option Ref) (qs : Quals) : Option Quals :=
  match f with
  | none => none
  | some r => if Dots db r then none else some qs

theorem final_here {db : Db} {r : Ref} (h : ∀ t, ¬ Alias db r t) (qs : Quals) :
    finalLoop db (some r) qs = some (some r, written db (some r) qs) := by
  rw [finalLoop.eq_def]
  unfold written
  cases hi : (db r).info with
  | typedef t => exact absurd (.typedef hi) (h t)
  | qual q t => exact absurd (.qual hi) (h t)
  | member m => exact absurd (.member hi) (h m.type)
  | var t => exact absurd (.var hi) (h t)
  | param u t =>
    cases u with
    | false => exact absurd (.param hi) (h t)
    | true =>
      have : Dots db r := ⟨t, hi⟩
      simp [hi, this]
  | _ =>
    have : ¬ Dots db r := fun ⟨_, h'⟩ => by rw [hi] at h'; simp at h'
    simp [hi, this]

theorem final_loop {db : Db} {r : Ref} {f : Option Ref} {l : List Qual} (h : Final db r f l) (qs : Quals) :
    finalLoop db (some r) qs = some (f, written db f (addAll qs l)) := by
  induction h generalizing qs with
  | here h => rw [final_here h]; rfl
  | void h => rw [final_alias h, finalLoop.eq_def]; rfl
  | step h _ ih =>
    rw [final_alias h, ih]
    simp [addAll, List.foldl_append]

theorem final_entry {db : Db} {r : Ref} {f : Option Ref} {l : List Qual} (h : Final db r f l) :
    finalEntry db (some r) = some (f, written db f (addAll {} l)) := final_loop h {}

theorem alias_dec (db : Db) (r : Ref) : (∃ t, Alias db r t) ∨ ∀ t, ¬ Alias db r t := by
  cases hi : (db r).info with
  | typedef t => exact .inl ⟨_, .typedef hi⟩
  | qual q t => exact .inl ⟨_, .qual hi⟩
  | member m => exact .inl ⟨_, .member hi⟩
  | var t => exact .inl ⟨_, .var hi⟩
  | param u t =>
    cases u with
    | false => exact .inl ⟨_, .param hi⟩
    | true => right; intro t h; cases h <;> rename_i h <;> rw [hi] at h <;> simp at h
  | _ => right; intro t h; cases h <;> rename_i h <;> rw [hi] at h <;> simp at h

theorem final_exists {db : Db} {r : Ref} (h : Acyclic db r) : ∃ f qs, Final db r f qs := by
  induction h with
  | intro r _ ih =>
    rcases alias_dec db r with ⟨t, ht⟩ | hn
    · cases t with
      | none => exact ⟨_, _, .void ht⟩
      | some t =>
        obtain ⟨f, qs, hf⟩ := ih t (.alias ht)
        exact ⟨_, _, .step ht hf⟩
    · exact ⟨_, _, .here hn⟩

theorem final_not_alias {db : Db} {r f : Ref} {qs : List Qual} (h : Final db r (some f) qs) : ∀ t, ¬ Alias db f t := by
  generalize hf : some f = o at h
  induction h with
  | here h => simp at hf; subst hf; exact h
  | void => simp at hf
  | step _ _ ih => exact ih hf

/-! ### Lookups -/

/-- `f`, if it is of the wanted kind. -/
def keep (db : Db) (want : Info → Bool) : Option Ref → Option Ref
  | none => none
  | some f => if want (db f).info then some f else none

theorem finalOf_final {db : Db} {r : Ref} {f : Option Ref} {l : List Qual} (h : Final db r f l) (want : Info → Bool) :
    finalOf db (some r) want = some (keep db want f) := by
  unfold finalOf
  simp only [final_entry h]
  cases f <;> rfl

theorem finalOf_noFunction {db : Db} {r : Ref} (h : NoFunction db r) : finalOf db (some r) isFunc = some none := by
  obtain ⟨f, qs, hf, hn⟩ := h
  rw [finalOf_final hf]
  cases f with
  | none => rfl
  | some g =>
    cases hi : (db g).info with
    | subprogram t ps => exact absurd hi (hn g rfl t ps).1
    | subroutine t ps => exact absurd hi (hn g rfl t ps).2
    | _ => simp [keep, hi, isFunc]

theorem finalOf_function {db : Db} {r : Ref} {t : Option Ref} (h : FunctionOf db r t) :
    (∃ f, finalOf db (some r) isFunc = some (some f)) ∧ resultType db (some r) = some t := by
  obtain ⟨f, qs, ps, hf, hi⟩ := h
  have e : finalOf db (some r) isFunc = some (some f) := by
    rw [finalOf_final hf]
    rcases hi with hi | hi <;> simp [keep, hi, isFunc]
  refine ⟨⟨f, e⟩, ?_⟩
  unfold resultType
  rw [e]
  rcases hi with hi | hi <;> simp [hi]

theorem nameLoop_first (db : Db) (n : Name) (items : List Ref) (k i : Nat) (h : First db items n i) :
    nameLoop db n items k = ((k + i : Nat) : Int) := by
  induction items generalizing k i with
  | nil => obtain ⟨⟨m, hm, _⟩, _⟩ := h; simp at hm
  | cons x xs ih =>
    unfold nameLoop
    by_cases hx : (db x).name = some n
    · rw [if_pos hx]
      cases i with
      | zero => rfl
      | succ i => exact absurd hx (h.2 0 (by omega) x rfl)
    · rw [if_neg hx]
      cases i with
      | zero => obtain ⟨⟨m, hm, hmn⟩, _⟩ := h; simp at hm; subst hm; exact absurd hmn hx
      | succ i =>
        have h' : First db xs n i := by
          refine ⟨?_, ?_⟩
          · obtain ⟨⟨m, hm, hmn⟩, _⟩ := h
            exact ⟨m, by simpa using hm, hmn⟩
          · intro j hj m hm
            exact h.2 (j + 1) (by omega) m (by simpa using hm)
        rw [ih (k + 1) i h']
        omega

theorem nameLoop_none (db : Db) (n : Name) (items : List Ref) (k : Nat) (h : ∀ m ∈ items, (db m).name ≠ some n) :
    nameLoop db n items k = -2 := by
  induction items generalizing k with
  | nil => rfl
  | cons x xs ih =>
    unfold nameLoop
    rw [if_neg (h x (by simp)), ih _ (fun m hm => h m (by simp [hm]))]

theorem first_or_none (db : Db) (n : Name) (items : List Ref) :
    (∃ i, First db items n i) ∨ ∀ m ∈ items, (db m).name ≠ some n := by
  induction items with
  | nil => right; simp
  | cons x xs ih =>
    by_cases hx : (db x).name = some n
    · exact .inl ⟨0, ⟨x, rfl, hx⟩, by intro j hj; omega⟩
    · rcases ih with ⟨i, hi⟩ | hn
      · left
        refine ⟨i + 1, ?_, ?_⟩
        · obtain ⟨⟨m, hm, hmn⟩, _⟩ := hi
          exact ⟨m, by simpa using hm, hmn⟩
        · intro j hj m hm
          cases j with
          | zero => simp at hm; subst hm; exact hx
          | succ j => exact hi.2 j (by omega) m (by simpa using hm)
      · right
        intro m hm
        rcases List.mem_cons.1 hm with rfl | hm
        · exact hx
        · exact hn m hm

theorem item_eq (items : List Ref) (i : Nat) : item items (i : Int) = items[i]? := by
  unfold item
  split
  · rename_i h
    have : items.length ≤ i := by omega
    rw [List.getElem?_eq_none this]
  · simp

theorem final_self {db : Db} {f : Ref} (h : ∀ t, ¬ Alias db f t) : Final db f (some f) [] := .here h

theorem struct_not_alias {db : Db} {f : Ref} {k size ms} (h : (db f).info = .struct k size ms) : ∀ t, ¬ Alias db f t := by
  intro t ht
  cases ht <;> rename_i h' <;> rw [h] at h' <;> simp at h'

end Verif.Entry
