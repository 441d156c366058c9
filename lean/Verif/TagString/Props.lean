import Verif.TagString.Model
import Verif.TagString.Spec
namespace Verif.TagString
open Verif Verif.TagString.Spec

theorem loop_spaces (s key rest : List UInt8) (n i kb kl vb : Nat) :
    loop s key (List.replicate n 32 ++ rest) i ⟨0, kb, kl, vb⟩ = loop s key rest (i + n) ⟨0, kb, kl, vb⟩ := by
  induction n generalizing i with
  | zero => rfl
  | succ n ih =>
    simp only [List.replicate_succ, List.cons_append, loop]
    simp only [show ¬ ((0 : Int) = -1) by decide, if_false, if_true]
    rw [ih, show i + 1 + n = i + (n + 1) by omega]

theorem loop_key (s key k rest : List UInt8) (h32 : 32 ∉ k) (h58 : 58 ∉ k) (i kb kl vb : Nat) :
    loop s key (k ++ 58 :: rest) i ⟨1, kb, kl, vb⟩ = loop s key rest (i + k.length + 1) ⟨2, kb, i + k.length - kb, vb⟩ := by
  induction k generalizing i with
  | nil =>
    simp only [List.nil_append, loop]
    simp only [show ¬ ((1 : Int) = -1) by decide, show ¬ ((1 : Int) = 0) by decide, show ¬ ((58 : UInt8) = 32) by decide, if_false, if_true, List.length_nil, Nat.add_zero]
  | cons c k ih =>
    have h1 : ¬ c = 32 := fun e => h32 (by simp [e])
    have h2 : ¬ c = 58 := fun e => h58 (by simp [e])
    simp only [List.cons_append, loop]
    simp only [show ¬ ((1 : Int) = -1) by decide, show ¬ ((1 : Int) = 0) by decide, h1, h2, if_false, if_true, List.length_cons]
    rw [ih (fun e => h32 (by simp [e])) (fun e => h58 (by simp [e]))]
    rw [show i + 1 + k.length = i + (k.length + 1) by omega]

theorem loop_text (s key v rest : List UInt8) (hv : Text v) (i kb kl vb : Nat) :
    loop s key (v ++ rest) i ⟨3, kb, kl, vb⟩ = loop s key rest (i + v.length) ⟨3, kb, kl, vb⟩ := by
  induction hv generalizing i with
  | nil => rfl
  | char h1 h2 _ ih =>
    simp only [List.cons_append, loop]
    simp only [show ¬ ((3 : Int) = -1) by decide, show ¬ ((3 : Int) = 0) by decide, show ¬ ((3 : Int) = 1) by decide,
      show ¬ ((3 : Int) = 2) by decide, h1, h2, if_false, if_true, List.length_cons]
    rw [ih, show ∀ n, i + 1 + n = i + (n + 1) by omega]
  | escape _ ih =>
    simp only [List.cons_append, loop]
    simp only [show ¬ ((3 : Int) = -1) by decide, show ¬ ((3 : Int) = 0) by decide, show ¬ ((3 : Int) = 1) by decide,
      show ¬ ((3 : Int) = 2) by decide, show ¬ ((4 : Int) = -1) by decide, show ¬ ((4 : Int) = 0) by decide, show ¬ ((4 : Int) = 1) by decide,
      show ¬ ((4 : Int) = 2) by decide, show ¬ ((4 : Int) = 3) by decide, if_false, if_true, List.length_cons]
    rw [ih, show ∀ n, i + 1 + 1 + n = i + (n + 1 + 1) by omega]

theorem slice (a b c : List UInt8) : ((a ++ b ++ c).drop a.length).take b.length = b := by simp

theorem loop_wellFormed {s key rest : List UInt8} {ps : List (List UInt8 × List UInt8)} (h : WellFormed rest ps) {done : List UInt8} (hs : s = done ++ rest)
    {r : Option (List UInt8)} (hr : First ps key r) (kb kl vb : Nat) :
    match loop s key rest done.length ⟨0, kb, kl, vb⟩ with
    | none => r = none
    | some (b, n) => r = some ((s.drop b).take n) := by
  induction h generalizing done kb kl vb r with
  | nil n =>
    have e := loop_spaces s key [] n done.length kb kl vb
    simp only [List.append_nil] at e
    rw [e]
    cases hr
    simp [loop]
  | @cons n k v rest ps hk hv hw _ ih =>
    obtain ⟨hne, h32, h34, h58⟩ := hk
    obtain ⟨c, k, rfl⟩ := List.exists_cons_of_ne_nil hne
    have hc : ¬ c = 32 := fun e => h32 (by simp [e])
    have h32' : 32 ∉ k := fun e => h32 (by simp [e])
    have h58' : 58 ∉ k := fun e => h58 (by simp [e])
    -- positions
    let kb' := done.length + n
    let kl' := k.length + 1
    let vb' := done.length + n + (k.length + 1) + 1
    have e1 : loop s key (List.replicate n 32 ++ (c :: k) ++ 58 :: 34 :: v ++ 34 :: rest) done.length ⟨0, kb, kl, vb⟩ =
        loop s key (34 :: rest) (vb' + 1 + v.length) ⟨3, kb', kl', vb'⟩ := by
      have a : List.replicate n 32 ++ (c :: k) ++ 58 :: 34 :: v ++ 34 :: rest = List.replicate n 32 ++ (c :: (k ++ 58 :: (34 :: (v ++ (34 :: rest))))) := by simp
      rw [a, loop_spaces]
      rw [loop]
      simp only [show ¬ ((0 : Int) = -1) by decide, hc, if_false, if_true]
      rw [loop_key _ _ _ _ h32' h58']
      rw [loop]
      simp only [show ¬ ((2 : Int) = -1) by decide, show ¬ ((2 : Int) = 0) by decide, show ¬ ((2 : Int) = 1) by decide,
        show ¬ ((34 : UInt8) ≠ 34) by decide, if_false, if_true]
      rw [loop_text _ _ _ _ hv]
      have a1 : done.length + n + 1 + k.length + 1 + 1 + v.length = vb' + 1 + v.length := by simp only [vb']; omega
      have a2 : done.length + n + 1 + k.length - (done.length + n) = kl' := by simp only [kl']; omega
      have a3 : done.length + n + 1 + k.length + 1 = vb' := by simp only [vb']; omega
      rw [a1, a2, a3]
    rw [e1, loop]
    simp only [show ¬ ((3 : Int) = -1) by decide, show ¬ ((3 : Int) = 0) by decide, show ¬ ((3 : Int) = 1) by decide,
      show ¬ ((3 : Int) = 2) by decide, show ¬ ((34 : UInt8) = 92) by decide, if_false, if_true]
    have hkey : (s.drop kb').take kl' = c :: k := by
      have a := slice (done ++ List.replicate n 32) (c :: k) (58 :: 34 :: v ++ 34 :: rest)
      have b : done ++ List.replicate n 32 ++ (c :: k) ++ (58 :: 34 :: v ++ 34 :: rest) = s := by rw [hs]; simp
      rw [b] at a
      simpa [kb', kl'] using a
    have hval : (s.drop (vb' + 1)).take (vb' + 1 + v.length - vb' - 1) = v := by
      have a := slice (done ++ List.replicate n 32 ++ (c :: k) ++ [58, 34]) v (34 :: rest)
      have b : done ++ List.replicate n 32 ++ (c :: k) ++ [58, 34] ++ v ++ 34 :: rest = s := by rw [hs]; simp
      rw [b] at a
      have d : (done ++ List.replicate n 32 ++ (c :: k) ++ [58, 34]).length = vb' + 1 := by simp [vb']; omega
      rw [d] at a
      rw [show vb' + 1 + v.length - vb' - 1 = v.length by omega]
      exact a
    rw [hkey]
    by_cases hkk : c :: k = key
    · have hl : key.length = kl' := by rw [← hkk]; simp [kl']
      rw [if_pos ⟨hl, hkk⟩]
      simp only [hval]
      cases hr with
      | here => rfl
      | later hne' _ => exact absurd hkk hne'
    · rw [if_neg (fun h => hkk h.2)]
      cases hr with
      | here => exact absurd rfl hkk
      | later _ hf =>
        have := ih (done := done ++ List.replicate n 32 ++ (c :: k) ++ 58 :: 34 :: v ++ [34]) (by rw [hs]; simp) hf kb' kl' vb'
        have d : (done ++ List.replicate n 32 ++ (c :: k) ++ 58 :: 34 :: v ++ [34]).length = vb' + 1 + v.length + 1 := by simp [vb']; omega
        rw [d] at this
        exact this

/-- **C35.** For a well-formed tag string the lookup returns the text of the first pair with
the key, and NULL if there is none. -/
theorem C35_lookup {s key : List UInt8} {ps : List (List UInt8 × List UInt8)} (hw : WellFormed s ps) {r : Option (List UInt8)} (hr : First ps key r) :
    lookup (some s) (some key) true = r ∧ lookup (some s) (some key) false = none ∧
    lookup none (some key) true = none ∧ lookup (some s) none true = none := by
  have h := loop_wellFormed (s := s) (key := key) (done := []) hw rfl hr (2 ^ 64 - 1) 0 (2 ^ 64 - 1)
  simp only [List.length_nil] at h
  refine ⟨?_, ?_, rfl, rfl⟩
  · simp only [lookup, St.init]
    split at h
    · rename_i e; rw [e]; exact h.symm
    · rename_i e; rw [e]; simp [h]
  · simp only [lookup]
    split <;> simp

/-- `json:"a,\"b\"" c:"" json:"x"`. -/
def exTag : List UInt8 :=
  [106, 115, 58, 34, 97, 44, 92, 34, 98, 92, 34, 34, 32, 32, 99, 58, 34, 34, 32, 106, 115, 58, 34, 120, 34]

theorem exKey1 : Key [106, 115] := ⟨by decide, by decide, by decide, by decide⟩
theorem exKey2 : Key [99] := ⟨by decide, by decide, by decide, by decide⟩

theorem exWellFormed : WellFormed exTag [([106, 115], [97, 44, 92, 34, 98, 92, 34]), ([99], []), ([106, 115], [120])] :=
  .cons (n := 0) (k := [106, 115]) (v := [97, 44, 92, 34, 98, 92, 34]) (rest := [32, 32, 99, 58, 34, 34, 32, 106, 115, 58, 34, 120, 34])
    exKey1 (.char (by decide) (by decide) (.char (by decide) (by decide) (.escape (.char (by decide) (by decide) (.escape .nil)))))
    (.cons (n := 2) (k := [99]) (v := []) (rest := [32, 106, 115, 58, 34, 120, 34]) exKey2 .nil
      (.cons (n := 1) (k := [106, 115]) (v := [120]) (rest := []) exKey1 (.char (by decide) (by decide) .nil) (.nil 0) (.inl rfl))
      (.inr rfl))
    (.inr rfl)

example : lookup (some exTag) (some [99]) true = some [] :=
  (C35_lookup exWellFormed (.later (by decide) .here)).1
example : lookup (some exTag) (some [106]) true = none :=
  (C35_lookup exWellFormed (.later (by decide) (.later (by decide) (.later (by decide) .none)))).1

theorem Spec.Text.append {a b : List UInt8} (ha : Text a) (hb : Text b) : Text (a ++ b) := by
  induction ha with
  | nil => exact hb
  | char h1 h2 _ ih => exact .char h1 h2 ih
  | escape _ ih => exact .escape ih

/-- What is known about the part of the string read so far. -/
inductive Read : St → List UInt8 → Prop where
  | error {kb kl vb done} : Read ⟨-1, kb, kl, vb⟩ done
  | search {kb kl vb done} : (done = [] ∨ done.getLast? = some 32 ∨ done.getLast? = some 34) → Read ⟨0, kb, kl, vb⟩ done
  | key {kl vb pre k} : (pre = [] ∨ pre.getLast? = some 32 ∨ pre.getLast? = some 34) → k ≠ [] → 32 ∉ k →
      Read ⟨1, pre.length, kl, vb⟩ (pre ++ k)
  | colon {vb pre k} : (pre = [] ∨ pre.getLast? = some 32 ∨ pre.getLast? = some 34) → k ≠ [] → 32 ∉ k →
      Read ⟨2, pre.length, k.length, vb⟩ (pre ++ k ++ [58])
  | value {pre k v : List UInt8} : (pre = [] ∨ pre.getLast? = some 32 ∨ pre.getLast? = some 34) → k ≠ [] → 32 ∉ k → Text v →
      Read ⟨3, pre.length, k.length, (pre ++ k ++ [58]).length⟩ (pre ++ k ++ [58, 34] ++ v)
  | escape {pre k v : List UInt8} : (pre = [] ∨ pre.getLast? = some 32 ∨ pre.getLast? = some 34) → k ≠ [] → 32 ∉ k → Text v →
      Read ⟨4, pre.length, k.length, (pre ++ k ++ [58]).length⟩ (pre ++ k ++ [58, 34] ++ v ++ [92])

theorem loop_sound {s key rest : List UInt8} {st : St} {done : List UInt8} (h : Read st done) (hs : s = done ++ rest)
    {b n : Nat} (hl : loop s key rest done.length st = some (b, n)) : Occurs s key ((s.drop b).take n) := by
  induction rest generalizing st done with
  | nil => simp [loop] at hl
  | cons c rest ih =>
    have hs' : s = done ++ [c] ++ rest := by rw [hs]; simp
    have hlen : done.length + 1 = (done ++ [c]).length := by simp
    cases h with
    | error =>
      simp only [loop, if_true] at hl
      split at hl
      · rw [hlen] at hl
        exact ih .error hs' hl
      · rename_i hc
        rw [hlen] at hl
        exact ih (.search (by simp at hc; simp [hc])) hs' hl
    | search hd =>
      simp only [loop, show ¬ ((0 : Int) = -1) by decide, if_false, if_true] at hl
      split at hl
      · rename_i hc
        rw [hlen] at hl
        exact ih (.search (by simp [hc])) hs' hl
      · rename_i hc
        rw [hlen] at hl
        exact ih (.key (k := [c]) hd (by simp) (by simpa using fun e => hc e.symm)) hs' hl
    | @key kl vb pre k hd hk h32 =>
      simp only [loop, show ¬ ((1 : Int) = -1) by decide, show ¬ ((1 : Int) = 0) by decide, if_false, if_true] at hl
      split at hl
      · rename_i hc
        rw [hlen] at hl
        exact ih (.search (by simp [hc])) hs' hl
      · rename_i hc
        split at hl
        · rename_i hc'
          subst hc'
          have e : (pre ++ k).length - pre.length = k.length := by simp
          rw [hlen, e] at hl
          exact ih (.colon hd hk h32) hs' hl
        · rw [hlen] at hl
          have := Read.key (kl := kl) (vb := vb) (pre := pre) (k := k ++ [c]) hd (by simp) (by
            simp; exact ⟨h32, fun e => hc e.symm⟩)
          rw [← List.append_assoc] at this
          exact ih this hs' hl
    | @colon vb pre k hd hk h32 =>
      simp only [loop, show ¬ ((2 : Int) = -1) by decide, show ¬ ((2 : Int) = 0) by decide, show ¬ ((2 : Int) = 1) by decide, if_false, if_true] at hl
      split at hl
      · rw [hlen] at hl
        exact ih .error hs' hl
      · rename_i hc
        simp at hc
        subst hc
        rw [hlen] at hl
        have := Read.value (v := []) hd hk h32 .nil
        simp only [List.append_nil] at this
        rw [show [58, 34] = [58] ++ [(34 : UInt8)] from rfl, ← List.append_assoc] at this
        exact ih this hs' hl
    | @value pre k v hd hk h32 hv =>
      simp only [loop, show ¬ ((3 : Int) = -1) by decide, show ¬ ((3 : Int) = 0) by decide, show ¬ ((3 : Int) = 1) by decide,
        show ¬ ((3 : Int) = 2) by decide, if_false, if_true] at hl
      split at hl
      · rename_i hc
        subst hc
        rw [hlen] at hl
        exact ih (.escape hd hk h32 hv) hs' hl
      · rename_i hc1
        split at hl
        · rename_i hc
          subst hc
          split at hl
          · rename_i hkey
            simp only [Option.some.injEq, Prod.mk.injEq] at hl
            obtain ⟨rfl, rfl⟩ := hl
            have e1 : (s.drop pre.length).take k.length = k := by
              have := slice pre k ([58, 34] ++ v ++ 34 :: rest)
              rw [show pre ++ k ++ ([58, 34] ++ v ++ 34 :: rest) = s by rw [hs]; simp] at this
              exact this
            rw [e1] at hkey
            obtain ⟨_, rfl⟩ := hkey
            have e2 : (s.drop ((pre ++ k ++ [58]).length + 1)).take ((pre ++ k ++ [58, 34] ++ v).length - (pre ++ k ++ [58]).length - 1) = v := by
              have := slice (pre ++ k ++ [58, 34]) v (34 :: rest)
              rw [show pre ++ k ++ [58, 34] ++ v ++ 34 :: rest = s by rw [hs]] at this
              have e3 : (pre ++ k ++ [58, 34]).length = (pre ++ k ++ [58]).length + 1 := by simp; omega
              rw [e3] at this
              have e4 : (pre ++ k ++ [58, 34] ++ v).length - (pre ++ k ++ [58]).length - 1 = v.length := by simp; omega
              rw [e4]
              exact this
            rw [e2]
            exact ⟨pre, rest, by rw [hs]; simp, hk, h32, hv, hd⟩
          · rw [hlen] at hl
            exact ih (.search (.inr (.inr List.getLast?_concat))) hs' hl
        · rename_i hc2
          rw [hlen] at hl
          have := Read.value (v := v ++ [c]) hd hk h32 (hv.append (.char hc2 hc1 .nil))
          rw [← List.append_assoc] at this
          exact ih this hs' hl
    | @escape pre k v hd hk h32 hv =>
      simp only [loop, show ¬ ((4 : Int) = -1) by decide, show ¬ ((4 : Int) = 0) by decide, show ¬ ((4 : Int) = 1) by decide,
        show ¬ ((4 : Int) = 2) by decide, show ¬ ((4 : Int) = 3) by decide, if_false] at hl
      rw [hlen] at hl
      have := Read.value (v := v ++ [92, c]) hd hk h32 (hv.append (.escape .nil))
      rw [show pre ++ k ++ [58, 34] ++ (v ++ [92, c]) = pre ++ k ++ [58, 34] ++ v ++ [92] ++ [c] by simp] at this
      exact ih this hs' hl

/-- **C35.** Whatever the string - well-formed or not - a value found is enclosed in quotes
right after the key and a colon somewhere in it, where a key may begin. -/
theorem C35_sound {s key v : List UInt8} {ok : Bool} (h : lookup (some s) (some key) ok = some v) : Occurs s key v := by
  simp only [lookup] at h
  cases hl : loop s key s 0 .init with
  | none => simp [hl] at h
  | some p =>
    obtain ⟨b, n⟩ := p
    simp only [hl] at h
    split at h
    · simp only [Option.some.injEq] at h
      subst h
      exact loop_sound (done := []) (.search (.inl rfl)) rfl hl
    · simp at h

/-- A malformed string: the unterminated first pair is skipped, the second is found. -/
example : lookup (some [97, 58, 98, 32, 97, 58, 34, 120, 34, 58]) (some [97]) true = some [120] := by decide

end Verif.TagString
