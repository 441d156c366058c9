import Verif.CDecl.Regular
/-
C42: declaration texts.
-/
namespace Verif.CDecl
open Verif Verif.Entry Spec

/-- 0: int; 1: char; 2: pointer to 0; 3: array of three 2; 4: array of three 0; 5: pointer to 4;
6: `...`; 7: parameter `c` of type char; 8: function (char, ...) returning int; 9: pointer to
8; 10: array of three 9; 11: variable `handlers` of type 10; 12: function `f` returning 2 with
parameters 7 and 6; 13: const int; 14: struct without name with the members 15 and 16; 15:
member `x`, three bits of 0; 16: member `y` of type 10; 17: const 2; 18: volatile 2; 19: const
18; 20: pointer to 13; 21: volatile 20; 22: function (char) returning 9; 23: class; 24:
pointer to 23; 25: parameter of type char without name; 26: const 3; 27: array of three 20. -/
def demo : Db := fun r =>
  match r with
  | 0 => { info := .base 4 5, name := some [105, 110, 116] }
  | 1 => { info := .base 1 6, name := some [99, 104, 97, 114] }
  | 2 => { info := .pointer (some 0) }
  | 3 => { info := .array (some 2) 3 }
  | 4 => { info := .array (some 0) 3 }
  | 5 => { info := .pointer (some 4) }
  | 6 => { info := .param true none }
  | 7 => { info := .param false (some 1), name := some [99] }
  | 8 => { info := .subroutine (some 0) [25, 6] }
  | 9 => { info := .pointer (some 8) }
  | 10 => { info := .array (some 9) 3 }
  | 11 => { info := .var (some 10), name := some [104] }
  | 12 => { info := .subprogram (some 2) [7, 6], name := some [102] }
  | 13 => { info := .qual .const (some 0) }
  | 14 => { info := .struct .struct 32 [15, 16] }
  | 15 => { info := .member { type := some 0, bitSize := some 3 }, name := some [120] }
  | 16 => { info := .member { type := some 10, byteOffset := 8 }, name := some [121] }
  | 17 => { info := .qual .const (some 2) }
  | 18 => { info := .qual .volatile (some 2) }
  | 19 => { info := .qual .const (some 18) }
  | 20 => { info := .pointer (some 13) }
  | 21 => { info := .qual .volatile (some 20) }
  | 22 => { info := .subprogram (some 9) [25], name := some [102] }
  | 23 => { info := .struct .class 8 [], name := some [75] }
  | 24 => { info := .pointer (some 23) }
  | 25 => { info := .param false (some 1) }
  | 26 => { info := .qual .const (some 3) }
  | 27 => { info := .array (some 20) 3 }
  | _ => { info := .unspecifiedType }

/-- Text with one dependency. -/
theorem one_dep {db : Db} {r d : Ref} {o : Option Text} (hd : deps db (db r) = [d]) (h : cdecl db d = .ok o) :
    cdecl db r = combine db (db r) [o] := by
  rw [cdecl_out (by rw [hd]; simpa using ⟨o, h⟩), hd]
  simp [out, h]

theorem no_dep {db : Db} {r : Ref} (hd : deps db (db r) = []) : cdecl db r = combine db (db r) [] := by
  rw [cdecl_out (by rw [hd]; simp), hd]
  rfl

/-- **C42**: the text of a type has exactly one placeholder, those of variables and functions
have none: for every description that is finite and sound and in which everything mentioned
has a C declaration. -/
theorem C42_one_placeholder {db : Db} {r : Ref} (hf : Finite db r) (hs : ∀ d, Mentions db r d → Sound db d)
    (hu : ∀ d, Mentions db r d → ¬ Unsupported db d) :
    ∃ t, cdecl db r = .ok (some t) ∧ (IsType db r → OneHole t) ∧ (¬ IsType db r → Plain t) := by
  rcases result hf hs with ⟨⟨d, h1, h2⟩, _⟩ | ⟨_, h⟩
  · exact absurd h2 (hu d h1)
  · exact h

/-- **C42**: if something mentioned has no C declaration the result is NULL: no partial text
and no crash. -/
theorem C42_unsupported {db : Db} {r : Ref} (hf : Finite db r) (hs : ∀ d, Mentions db r d → Sound db d)
    {d : Ref} (hm : Mentions db r d) (hu : Unsupported db d) : cdecl db r = .ok none := by
  rcases result hf hs with ⟨_, h⟩ | ⟨h, _⟩
  · exact h
  · exact absurd hu (h d hm)

/-- **C42**: putting a name (without `%`) into the placeholder gives a text in which the
name stands once, between two fixed parts. -/
theorem C42_named {db : Db} {r : Ref} (hf : Finite db r) (hs : ∀ d, Mentions db r d → Sound db d)
    (hu : ∀ d, Mentions db r d → ¬ Unsupported db d) (ht : IsType db r) :
    ∃ t a b, cdecl db r = .ok (some t) ∧ ∀ n args, fmt t (n :: args) = .ok (a ++ n ++ b) := by
  obtain ⟨t, h1, h2, _⟩ := C42_one_placeholder hf hs hu
  obtain ⟨a, b, rfl, ha, hb⟩ := h2 ht
  exact ⟨_, a, b, h1, fun n args => fmt_one ha hb⟩

/-- **C42** (partial: regular types): with any name in its placeholder the text of a type is a
C declaration of that name with that very type. -/
theorem C42_declares_partial {db : Db} {r : Ref} {sh : Shape} {l : Bool} (hr : Regular db (some r) sh l)
    (hs : ∀ d, Mentions db r d → Sound db d) :
    ∃ a b, cdecl db r = .ok (some (a ++ [37, 115] ++ b)) ∧ Plain a ∧ Plain b ∧
      ∀ n, n ≠ [] → Declaration db (some r) n (a ++ n ++ b) := by
  obtain ⟨a, b, hf⟩ := regular hr (by rintro _ ⟨⟩; exact hs)
  exact ⟨a, b, hf.text, hf.left, hf.right, fun n hn => hf.ctx (some r) true n n .name (fun _ => rfl) (fun _ => hn)⟩

/-- **C42** (partial: regular types): the text of a variable declares its name with its type. -/
theorem C42_variable_partial {db : Db} {r : Ref} {t : Option Ref} {n : Name} {sh : Shape} {l : Bool}
    (hi : (db r).info = .var t) (hn : (db r).name = some n) (h0 : n ≠ []) (hr : Regular db t sh l)
    (hs : ∀ d, Mentions db r d → Sound db d) :
    ∃ s, cdecl db r = .ok (some s) ∧ Declaration db t n s := by
  obtain ⟨a, b, hf⟩ := regular hr (sounds_use (r := r) (by rintro _ ⟨⟩; exact hs) fun d hd => .var (by rw [hi, hd]))
  refine ⟨a ++ n ++ b, ?_, hf.ctx t true n n .name (fun _ => rfl) (fun _ => h0)⟩
  have hd : deps db (db r) = dep t := by rw [deps, hi]
  rw [cdecl_out (by rw [hd]; exact dep_ends hf.text), hd, combine, hi, hn]
  simp only
  rw [show (dep t).map (out db) = (dep t).map (out db) ++ [] by simp, typePattern_map, pat_out hf.text]
  simp only
  rw [fmt_one hf.left hf.right]
  rfl

/-- **C42** (partial: regular types): the text of a function declares its name with its
parameters and result. -/
theorem C42_function_partial {db : Db} {r : Ref} {t : Option Ref} {ps : List Ref} {n : Name} {sh : Shape}
    (hi : (db r).info = .subprogram t ps) (hn : (db r).name = some n) (hr : Regular db t sh true)
    (hp : ∀ p ∈ ps, RegularParam db true p) (hs : ∀ d, Mentions db r d → Sound db d) :
    ∃ s, cdecl db r = .ok (some s) ∧ Declaration db (some r) n s := by
  obtain ⟨a, b, hf⟩ := regular hr (sounds_use (r := r) (by rintro _ ⟨⟩; exact hs) fun d hd => .result (.inl (by rw [hi, hd])))
  have hok : ∀ p ∈ ps, ParamOk db (names db false) p := fun p hx => regularParam (hp p hx) false (by simp) (by
    intro t' ht'
    exact sounds_use (r := r) (by rintro _ ⟨⟩; exact hs) fun d hd => by cases hd; exact .param (.inl hi) hx ht')
  cases hf.last rfl
  obtain ⟨x, hx, hpar⟩ := paramsText_spec hok
  have hd : deps db (db r) = dep t ++ ps.flatMap fun r => dep (paramType db r) := by rw [deps, hi]
  have hends : ∀ d ∈ deps db (db r), ∃ o, cdecl db d = .ok o := by
    rw [hd]
    intro d hd
    rw [List.mem_append, List.mem_flatMap] at hd
    rcases hd with hd | ⟨p, hp, hd⟩
    · exact dep_ends hf.text d hd
    · rw [mem_dep] at hd
      rcases hok p hp with ⟨t', hi'⟩ | ⟨t', a', b', hi', hc', _⟩
      · simp [paramType, hi'] at hd
      · simp only [paramType, hi', Option.some.injEq] at hd
        subst hd
        exact ⟨_, hc'⟩
  have hpar' : Params db (nameOf db) ps (x.getD []) := by
    have : names db false = nameOf db := by funext p; simp [names, nameOf]
    rwa [this] at hpar
  refine ⟨a ++ n ++ [40] ++ x.getD [] ++ [41], ?_, ?_⟩
  · rw [cdecl_out hends, hd, combine, hi, hn]
    simp only
    rw [List.map_append, typePattern_map, pat_out hf.text]
    simp only
    rw [hx]
    simp only [Outcome.bind_ok, hole]
    rw [show a ++ [37, 115] ++ [] ++ [40] ++ [37, 115] ++ [41] = a ++ [37, 115] ++ [40] ++ [37, 115] ++ [41] by simp,
      fmt_two hf.left (by simp [Plain]) (by simp [Plain])]
    rfl
  · have := hf.ctx (some r) true n (n ++ [40] ++ x.getD [] ++ [41]) (.entry hi hpar') (fun _ => rfl) (by simp)
    simpa using this

theorem demo_int : cdecl demo 0 = .ok (some [105, 110, 116, 32, 37, 115]) := no_dep rfl
theorem demo_char : cdecl demo 1 = .ok (some [99, 104, 97, 114, 32, 37, 115]) := no_dep rfl
theorem demo_pointer : cdecl demo 2 = .ok (some [105, 110, 116, 32, 42, 32, 37, 115]) := (one_dep rfl demo_int).trans rfl

/-- **C42 is false** for a pointer to an array: it is printed as the array of pointers,
`int * %s[3]` (C: `int (* %s)[3]`). -/
theorem C42_pointer_to_array_false :
    (demo 5).info = .pointer (some 4) ∧ (demo 4).info = .array (some 0) 3 ∧
    (demo 3).info = .array (some 2) 3 ∧ (demo 2).info = .pointer (some 0) ∧
    cdecl demo 5 = .ok (some [105, 110, 116, 32, 42, 32, 37, 115, 91, 51, 93]) ∧ cdecl demo 5 = cdecl demo 3 := by
  have hd : Value.decimalInt 3 = [51] := by simp [Value.decimalInt, Value.decimal]
  have h4 : cdecl demo 4 = .ok (some [105, 110, 116, 32, 37, 115, 91, 51, 93]) := by
    rw [one_dep rfl demo_int]
    simp [combine, demo, typePattern, dequeue, fmt, hole, hd]
  have h5 : cdecl demo 5 = .ok (some [105, 110, 116, 32, 42, 32, 37, 115, 91, 51, 93]) := (one_dep rfl h4).trans rfl
  have h3 : cdecl demo 3 = .ok (some [105, 110, 116, 32, 42, 32, 37, 115, 91, 51, 93]) := by
    rw [one_dep rfl demo_pointer]
    simp [combine, demo, typePattern, dequeue, fmt, hole, hd]
  exact ⟨rfl, rfl, rfl, rfl, h5, h5.trans h3.symm⟩

/-- **C42 is false** for a pointer with two qualifiers: a `const volatile` pointer to int and a
`volatile` pointer to const int are both printed `const int * volatile %s`. -/
theorem C42_two_qualifiers_false :
    (demo 19).info = .qual .const (some 18) ∧ (demo 18).info = .qual .volatile (some 2) ∧ (demo 2).info = .pointer (some 0) ∧
    (demo 21).info = .qual .volatile (some 20) ∧ (demo 20).info = .pointer (some 13) ∧ (demo 13).info = .qual .const (some 0) ∧
    cdecl demo 19 = .ok (some ([99, 111, 110, 115, 116, 32, 105, 110, 116, 32, 42, 32] ++ [118, 111, 108, 97, 116, 105, 108, 101, 32, 37, 115])) ∧
    cdecl demo 19 = cdecl demo 21 := by
  have h18 : cdecl demo 18 = .ok (some ([105, 110, 116, 32, 42, 32] ++ [118, 111, 108, 97, 116, 105, 108, 101, 32, 37, 115])) :=
    (one_dep rfl demo_pointer).trans rfl
  have h19 := (one_dep (r := 19) rfl h18).trans (show _ =
    .ok (some ([99, 111, 110, 115, 116, 32, 105, 110, 116, 32, 42, 32] ++ [118, 111, 108, 97, 116, 105, 108, 101, 32, 37, 115])) from rfl)
  have h13 : cdecl demo 13 = .ok (some [99, 111, 110, 115, 116, 32, 105, 110, 116, 32, 37, 115]) := (one_dep rfl demo_int).trans rfl
  have h20 : cdecl demo 20 = .ok (some [99, 111, 110, 115, 116, 32, 105, 110, 116, 32, 42, 32, 37, 115]) := (one_dep rfl h13).trans rfl
  have h21 := (one_dep (r := 21) rfl h20).trans (show _ =
    .ok (some ([99, 111, 110, 115, 116, 32, 105, 110, 116, 32, 42, 32] ++ [118, 111, 108, 97, 116, 105, 108, 101, 32, 37, 115])) from rfl)
  exact ⟨rfl, rfl, rfl, rfl, rfl, rfl, h19, h19.trans h21.symm⟩

/-- **C42 is false** for a qualified array of pointers: an array of const pointers (`const` on
the array) is printed as an array of pointers to const. -/
theorem C42_qualified_array_false :
    (demo 26).info = .qual .const (some 3) ∧ (demo 3).info = .array (some 2) 3 ∧ (demo 2).info = .pointer (some 0) ∧
    (demo 27).info = .array (some 20) 3 ∧ (demo 20).info = .pointer (some 13) ∧ (demo 13).info = .qual .const (some 0) ∧
    (∃ t, cdecl demo 26 = .ok (some t)) ∧ cdecl demo 26 = cdecl demo 27 := by
  have hd : Value.decimalInt 3 = [51] := by simp [Value.decimalInt, Value.decimal]
  have h3 : cdecl demo 3 = .ok (some [105, 110, 116, 32, 42, 32, 37, 115, 91, 51, 93]) := by
    rw [one_dep rfl demo_pointer]
    simp [combine, demo, typePattern, dequeue, fmt, hole, hd]
  have h26 : cdecl demo 26 = .ok (some [99, 111, 110, 115, 116, 32, 105, 110, 116, 32, 42, 32, 37, 115, 91, 51, 93]) := (one_dep rfl h3).trans rfl
  have h13 : cdecl demo 13 = .ok (some [99, 111, 110, 115, 116, 32, 105, 110, 116, 32, 37, 115]) := (one_dep rfl demo_int).trans rfl
  have h20 : cdecl demo 20 = .ok (some [99, 111, 110, 115, 116, 32, 105, 110, 116, 32, 42, 32, 37, 115]) := (one_dep rfl h13).trans rfl
  have h27 : cdecl demo 27 = .ok (some [99, 111, 110, 115, 116, 32, 105, 110, 116, 32, 42, 32, 37, 115, 91, 51, 93]) := by
    rw [one_dep rfl h20]
    simp [combine, demo, typePattern, dequeue, fmt, hole, hd]
  exact ⟨rfl, rfl, rfl, rfl, rfl, rfl, ⟨_, h26⟩, h26.trans h27.symm⟩

/-- **C42 is false** for a function returning a pointer to a function: the parameters follow
the wrong parentheses, `int (* f)(char, ...)(char)` (C: `int (* f(char))(char, ...)`). -/
theorem C42_returned_function_false :
    (demo 22).info = .subprogram (some 9) [25] ∧ (demo 9).info = .pointer (some 8) ∧ (demo 8).info = .subroutine (some 0) [25, 6] ∧
    cdecl demo 22 = .ok (some ([105, 110, 116, 32, 40, 42, 32, 102, 41, 40, 99, 104, 97, 114, 44, 32, 46, 46, 46, 41] ++
      [40, 99, 104, 97, 114, 41])) := by
  have h8 : cdecl demo 8 = .ok (some [105, 110, 116, 32, 40, 37, 115, 41, 40, 99, 104, 97, 114, 44, 32, 46, 46, 46, 41]) := by
    rw [cdecl_out (by
      intro d hd
      have : d = 0 ∨ d = 1 := by simpa [deps, demo, dep, paramType] using hd
      rcases this with rfl | rfl
      · exact ⟨_, demo_int⟩
      · exact ⟨_, demo_char⟩)]
    have : (deps demo (demo 8)).map (out demo) = [out demo 0, out demo 1] := rfl
    rw [this, out, out, demo_int, demo_char]
    rfl
  have h9 : cdecl demo 9 = .ok (some [105, 110, 116, 32, 40, 42, 32, 37, 115, 41, 40, 99, 104, 97, 114, 44, 32, 46, 46, 46, 41]) :=
    (one_dep rfl h8).trans rfl
  refine ⟨rfl, rfl, rfl, ?_⟩
  rw [cdecl_out (by
    intro d hd
    have : d = 9 ∨ d = 1 := by simpa [deps, demo, dep, paramType] using hd
    rcases this with rfl | rfl
    · exact ⟨_, h9⟩
    · exact ⟨_, demo_char⟩)]
  have : (deps demo (demo 22)).map (out demo) = [out demo 9, out demo 1] := rfl
  rw [this, out, out, h9, demo_char]
  rfl

/-- The types `Uses` leads to, and checks that imply soundness: to decide the examples. -/
def links (db : Db) (r : Ref) : List Ref :=
  match (db r).info with
  | .var t => t.toList
  | .array t _ => t.toList
  | .qual _ t => t.toList
  | .pointer t => t.toList
  | .struct _ _ ms => ms.flatMap fun m => match (db m).info with | .member i => i.type.toList | _ => []
  | .subprogram t ps => t.toList ++ ps.flatMap fun p => match (db p).info with | .param false t => t.toList | _ => []
  | .subroutine t ps => t.toList ++ ps.flatMap fun p => match (db p).info with | .param false t => t.toList | _ => []
  | _ => []

def plainName (o : Option Name) : Bool := match o with | none => true | some n => !n.contains 37

def isTypeB (db : Db) (r : Ref) : Bool :=
  match (db r).info with
  | .typedef _ | .base .. | .enumeration .. | .array .. | .qual .. | .pointer _ | .struct .. | .subroutine .. => true
  | _ => false

def check (db : Db) (r : Ref) : Bool :=
  plainName (db r).name &&
  match (db r).info with
  | .var _ | .typedef _ | .base .. => (db r).name.isSome
  | .enumeration _ _ es => es.all fun x => !x.1.contains 37
  | .struct _ _ ms => ms.all fun m => (match (db m).info with | .member _ => true | _ => false) && plainName (db m).name
  | .subprogram _ ps => (db r).name.isSome && ps.all fun p => (match (db p).info with | .param .. => true | _ => false) && plainName (db p).name
  | .subroutine _ ps => ps.all fun p => (match (db p).info with | .param .. => true | _ => false) && plainName (db p).name
  | _ => true

theorem uses_links {db : Db} {r d : Ref} (u : Uses db r d) : d ∈ links db r := by
  cases u with
  | field h _ hm hi ht =>
    rw [links, h]
    exact List.mem_flatMap.mpr ⟨_, hm, by rw [hi]; simp [ht]⟩
  | result h =>
    rcases h with h | h <;> rw [links, h] <;> simp
  | param h hp hi =>
    rcases h with h | h <;> rw [links, h] <;>
      exact List.mem_append_right _ (List.mem_flatMap.mpr ⟨_, hp, by rw [hi]; simp⟩)
  | _ h => rw [links, h]; simp

theorem isTypeB_spec {db : Db} {r : Ref} (h : isTypeB db r = true) : IsType db r := by
  unfold isTypeB at h
  unfold IsType
  split at h <;> simp_all

theorem plainName_spec {o : Option Name} (h : plainName o = true) : ∀ n, o = some n → Plain n := by
  rintro n rfl
  simpa [plainName, Plain] using h

theorem check_sound {db : Db} {r : Ref} (h : check db r = true) (hl : ∀ d ∈ links db r, isTypeB db d = true) : Sound db r := by
  rw [check, Bool.and_eq_true] at h
  obtain ⟨h1, h2⟩ := h
  constructor
  · exact fun d u => isTypeB_spec (hl d (uses_links u))
  · exact plainName_spec h1
  · rintro t (h | h) <;> rw [h] at h2 <;> intro e <;> simp [e] at h2
  · intro _ _ h
    rw [h] at h2
    intro e
    simp [e] at h2
  · intro _ _ h
    rw [h] at h2
    intro e
    simp [e] at h2
  · intro _ _ es h x hx
    rw [h] at h2
    simp only [List.all_eq_true] at h2
    simpa [Plain] using h2 x hx
  · intro _ _ ms h m hm
    rw [h] at h2
    simp only [List.all_eq_true, Bool.and_eq_true] at h2
    obtain ⟨h3, h4⟩ := h2 m hm
    refine ⟨?_, plainName_spec h4⟩
    split at h3
    · next i hi => exact ⟨i, hi⟩
    · cases h3
  · intro t ps h p hp
    rcases h with h | h
    · rw [h] at h2
      simp only [List.all_eq_true, Bool.and_eq_true] at h2
      obtain ⟨h3, h4⟩ := h2.2 p hp
      refine ⟨?_, plainName_spec h4⟩
      split at h3
      · next i j hi => exact ⟨i, j, hi⟩
      · cases h3
    · rw [h] at h2
      simp only [List.all_eq_true, Bool.and_eq_true] at h2
      obtain ⟨h3, h4⟩ := h2 p hp
      refine ⟨?_, plainName_spec h4⟩
      split at h3
      · next i j hi => exact ⟨i, j, hi⟩
      · cases h3

/-- A list of entries closed under `Uses`, all sound. -/
def closed (db : Db) (l : List Ref) : Bool :=
  l.all fun r => check db r && (links db r).all fun d => isTypeB db d && l.contains d

theorem closed_mentions {db : Db} {l : List Ref} (h : closed db l = true) {s d : Ref} (hs : s ∈ l) (hm : Mentions db s d) : d ∈ l := by
  induction hm with
  | self => exact hs
  | step _ u ih =>
    rw [closed, List.all_eq_true] at h
    have := h _ ih
    simp only [Bool.and_eq_true, List.all_eq_true] at this
    simpa using (this.2 _ (uses_links u)).2

theorem closed_sound {db : Db} {l : List Ref} (h : closed db l = true) {s : Ref} (hs : s ∈ l) : ∀ d, Mentions db s d → Sound db d := by
  intro d hm
  have hd := closed_mentions h hs hm
  rw [closed, List.all_eq_true] at h
  have := h _ hd
  simp only [Bool.and_eq_true, List.all_eq_true] at this
  exact check_sound this.1 fun d hd => (this.2 d hd).1

theorem demo_closed : closed demo [0, 1, 2, 8, 9, 10, 11, 12, 14, 23, 24] = true := by decide

theorem demo_finite {r : Ref} (h : ∀ d ∈ links demo r, Finite demo d) : Finite demo r := ⟨_, fun d u => h d (uses_links u)⟩

theorem demo_finite9 : Finite demo 9 := by
  have h0 : Finite demo 0 := demo_finite (by simp [links, demo])
  have h1 : Finite demo 1 := demo_finite (by simp [links, demo])
  have h8 : Finite demo 8 := demo_finite (by simpa [links, demo] using ⟨h0, h1⟩)
  exact demo_finite (by simpa [links, demo] using h8)

/-- The hypotheses of `C42_one_placeholder` hold for a pointer to the function type
`int (char, ...)`. -/
example : Finite demo 9 ∧ (∀ d, Mentions demo 9 d → Sound demo d) ∧ (∀ d, Mentions demo 9 d → ¬ Unsupported demo d) ∧ IsType demo 9 := by
  refine ⟨demo_finite9, closed_sound demo_closed (by simp), ?_, trivial⟩
  intro d hm
  have hd := closed_mentions (l := [0, 1, 8, 9]) (by decide) (by simp) hm
  simp only [List.mem_cons, List.not_mem_nil, or_false] at hd
  rcases hd with rfl | rfl | rfl | rfl <;> intro h <;> cases h <;> simp_all [demo]
  next p h1 hp h2 =>
    obtain ⟨rfl, rfl⟩ := h1
    have : p = 25 ∨ p = 6 := by simpa using hp
    rcases this with rfl | rfl <;> simp at h2

/-- The hypotheses of `C42_unsupported` hold for a pointer to a class. -/
example : Finite demo 24 ∧ (∀ d, Mentions demo 24 d → Sound demo d) ∧ Mentions demo 24 23 ∧ Unsupported demo 23 :=
  ⟨demo_finite (by simpa [links, demo] using demo_finite (r := 23) (by simp [links, demo])),
    closed_sound demo_closed (by simp), .step .self (.pointer rfl), .class rfl⟩

theorem demo_regular10 : Regular demo (some 10) .arr false :=
  .array rfl (.pointer rfl (by simp) (.function rfl (.base rfl) (by
    intro p hp
    have : p = 25 ∨ p = 6 := by simpa using hp
    rcases this with rfl | rfl
    · exact .typed rfl (.base rfl) (by simp)
    · exact .dots rfl)))

/-- The hypotheses of `C42_declares_partial` hold for an array of three pointers to functions,
and for a struct without name with a bit-field and such an array as members. -/
example : Regular demo (some 10) .arr false ∧ Regular demo (some 14) .spec true ∧
    (∀ d, Mentions demo 10 d → Sound demo d) ∧ (∀ d, Mentions demo 14 d → Sound demo d) := by
  refine ⟨demo_regular10, ?_, closed_sound demo_closed (by simp), closed_sound demo_closed (by simp)⟩
  refine .structList rfl (by simp) rfl ?_
  intro m hm
  have : m = 15 ∨ m = 16 := by simpa using hm
  rcases this with rfl | rfl
  · exact .bits rfl rfl (.base rfl) (by simp [demo])
  · exact .whole rfl rfl demo_regular10 (by simp)

/-- The hypotheses of `C42_variable_partial` hold for a variable of that array type. -/
example : (demo 11).info = .var (some 10) ∧ (demo 11).name = some [104] ∧ ([104] : Name) ≠ [] ∧ Regular demo (some 10) .arr false ∧
    (∀ d, Mentions demo 11 d → Sound demo d) :=
  ⟨rfl, rfl, by simp, demo_regular10, closed_sound demo_closed (by simp)⟩

/-- The hypotheses of `C42_function_partial` hold for `int * f(char c, ...)`. -/
example : (demo 12).info = .subprogram (some 2) [7, 6] ∧ (demo 12).name = some [102] ∧ Regular demo (some 2) .ptr true ∧
    (∀ p ∈ [7, 6], RegularParam demo true p) ∧ (∀ d, Mentions demo 12 d → Sound demo d) := by
  refine ⟨rfl, rfl, .pointer rfl (by simp) (.base rfl), ?_, closed_sound demo_closed (by simp)⟩
  intro p hp
  have : p = 7 ∨ p = 6 := by simpa using hp
  rcases this with rfl | rfl
  · exact .typed rfl (.base rfl) (by simp)
  · exact .dots rfl

end Verif.CDecl
