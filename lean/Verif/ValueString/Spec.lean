import Verif.ValueString.Model
import Verif.PrintString.Spec
import Verif.CDecl.Spec
/-
Specification of printed values.
-/
namespace Verif.ValueString.Spec
open Verif Verif.Entry Verif.Entry.Spec Verif.Value Verif.Value.Spec Verif.Handlers Verif.PrintString.Spec

/-- A description as debug information gives it: no circles of aliases, named base types,
members are member entries, arrays of moderate size. -/
structure Sane (db : Db) : Prop where
  acyclic : ∀ r, Acyclic db r
  named : Named db
  members : ∀ r k size ms, (db r).info = .struct k size ms → ∀ x ∈ ms, ∃ mi, (db x).info = .member mi
  counts : ∀ r t c, (db r).info = .array t c → -2 ^ 31 ≤ c ∧ c < 2 ^ 30
  sizes : ∀ r t c n, (db r).info = .array (some t) c → Size db t n → c * n < 2 ^ 64

/-- New array descriptions are found where they were put. -/
def Interned (env : Env) (db : Db) : Prop :=
  ∀ t c, c = -1 ∨ c = 0 ∨ c = 1 → db (env.dyn { info := .array t c }) = { info := .array t c }

/-- The handler's reply to a request: none without tag map, tag or handler; else what the
handler leaves, if it succeeds. -/
inductive Reply (env : Env) (ev : Event) (v : Value) (outer : List Value) : Option Value → Prop where
  | noMap : env.tags = none → Reply env ev v outer none
  | noHandler {tags} : env.tags = some tags → tags v.entry = none → Reply env ev v outer none
  | reply {tags h r} : env.tags = some tags → tags v.entry = some h → h ev (some v :: outer.map some) = .ok (0, r) → Reply env ev v outer r

/-- `v` is an object that is an array of `n` objects of type `e`. -/
def IsArray (db : Db) (v : Value) (e : Option Ref) (n : Int) : Prop :=
  v.addr ≠ 0 ∧ ∃ x qs, Final db v.entry (some x) qs ∧ (db x).info = .array e n

/-- Handlers asked for the length of an array at the end of a struct reply with an array. -/
def Honest (env : Env) (db : Db) : Prop :=
  ∀ v outer w, Reply env .flexArrayCount v outer (some w) → ∃ e n, IsArray db w e n

/-- `v` stands for a list of arguments: `...`, a `va_list` parameter (or one declared as a
function). -/
def Packed (env : Env) (db : Db) (v : Value) : Prop :=
  ∃ u t, (db v.entry).info = .param u t ∧ (u = true ∨ env.vaList v.entry = true ∨
    ∃ x qs t ps, Final db v.entry (some x) qs ∧ ((db x).info = .subprogram t ps ∨ (db x).info = .subroutine t ps))

/-- `v` is an object of the type described. -/
def Object (env : Env) (db : Db) (v : Value) (i : Info) : Prop :=
  ¬ Packed env db v ∧ v.addr ≠ 0 ∧ ∃ x qs, Final db v.entry (some x) qs ∧ (db x).info = i

/-- No value around the current one is a pointer to `a`. -/
def Fresh (db : Db) (m : Mem) (outer : List Value) (a : Nat) : Prop :=
  ∀ w ∈ outer, ∀ x qs t, Final db w.entry (some x) qs → (db x).info = .pointer t → w.addr ≠ 0 → ∃ b, Holds m w.addr 8 b ∧ b ≠ a

/-- What a pointer to `a` is taken to point to: the array the handler replies, or one object
of the type pointed to. -/
inductive Target (env : Env) (db : Db) (v : Value) (outer : List Value) (ty : Option Ref) (a : Nat) : Value → Prop where
  | reply {arr e n} : Reply env .pointerArrayCount v outer (some arr) → arr.addr = a → IsArray db arr e n → Target env db v outer ty a arr
  | one {e} : Reply env .pointerArrayCount v outer none → ty = some e → Target env db v outer ty a ⟨env.dyn { info := .array (some e) 1 }, a⟩

/-- The type text of an entry: its declaration (C42) without a name. -/
def TypeText (db : Db) (r : Ref) (type : Text) : Prop :=
  ∃ pat, CDecl.cdecl db r = .ok (some pat) ∧ CDecl.fmt pat [[]] = .ok type

/-- The text of one member: nothing for an empty text, the text itself if the member has no
name, else `.name = text,`. -/
def memberText (name : Option Name) (t : Text) : List Text :=
  if t = [] then []
  else
    match name with
    | none => [t]
    | some n => [[46] ++ n ++ [32, 61, 32] ++ t ++ [44]]

/-- All members, separated by spaces. -/
def membersText (db : Db) (ws : List (Value × Text)) : Text :=
  [32].intercalate (ws.flatMap fun w => memberText (db w.1.entry).name w.2)

/-- In braces, except members without a name. -/
inductive Wrapped (db : Db) (v : Value) (t : Text) : Text → Prop where
  | bare {mi} : (db v.entry).info = .member mi → (db v.entry).name = none → Wrapped db v t t
  | notMember : (∀ mi, (db v.entry).info ≠ .member mi) → Wrapped db v t ([123] ++ t ++ [125])
  | named {n} : (db v.entry).name = some n → Wrapped db v t ([123] ++ t ++ [125])

/-- `w` is member number `i` of the struct object `v`. -/
def Member (db : Db) (v : Value) (ms : List Ref) (i : Nat) (w : Value) : Prop :=
  ∃ r mi, ms[i]? = some r ∧ (db r).info = .member mi ∧ w = ⟨r, v.addr + mi.byteOffset.toNat⟩

/-- The array printed in place of `v`: itself; an array of unknown length as an empty one, or
as the handler replies. -/
inductive Counted (env : Env) (v : Value) (outer : List Value) (e : Option Ref) : Int → Value → Prop where
  | known {n} : n ≠ -1 → Counted env v outer e n v
  | empty {r} : env.tags = none → e = some r → Counted env v outer e (-1) ⟨env.dyn { info := .array e 0 }, v.addr⟩
  | reply {w} : env.tags ≠ none → Reply env .flexArrayCount v outer (some w) → Counted env v outer e (-1) w

/-- The escaped text of the characters. -/
inductive Escaped : List UInt8 → Text → Prop where
  | nil : Escaped [] []
  | plain {c cs s} : (∀ e, ¬ Simple e c) → Escaped cs s → Escaped (c :: cs) (c :: s)
  | escape {c e cs s} : Simple e c → Escaped cs s → Escaped (c :: cs) (92 :: e :: s)

/-- `v` is an array of `char` printed as a string literal. -/
def Literal (pr : UInt8 → Bool) (db : Db) (m : Mem) (v : Value) (t : Text) : Prop :=
  ∃ cs s, Chars db v (cs.length + 1) ∧ cs ≠ [] ∧ Bytes m v.addr (cs ++ [0]) ∧ (∀ c ∈ cs, Expressible pr c) ∧ Escaped cs s ∧ t = [34] ++ s ++ [34]

/-- `v` is an array printed element by element: of another type, too short, without a final
0, or with a character that no literal can contain. -/
inductive NoLiteral (pr : UInt8 → Bool) (db : Db) (m : Mem) (v : Value) : Prop where
  | other : (∀ n, ¬ Chars db v n) → NoLiteral pr db m v
  | short {e n} : IsArray db v e n → n < 2 → NoLiteral pr db m v
  | unterminated {n c} : Chars db v n → 2 ≤ n → m (v.addr + (n - 1)) = some c → c ≠ 0 → NoLiteral pr db m v
  | unprintable {n cs c} : Chars db v n → cs.length + 1 < n → m (v.addr + (n - 1)) = some 0 → Bytes m v.addr (cs ++ [c]) →
      (∀ d ∈ cs, Expressible pr d) → ¬ Expressible pr c → NoLiteral pr db m v

/-- `w` is element number `i` of the array object `v` of objects of type `e`. -/
def Element (db : Db) (v : Value) (e : Option Ref) (i : Nat) (w : Value) : Prop :=
  ∃ r n, e = some r ∧ Size db r n ∧ w = ⟨r, v.addr + i * n⟩

/-- All elements, each followed by a comma, separated by spaces. -/
def elementsText (ws : List (Value × Text)) : Text := [32].intercalate (ws.map fun w => w.2 ++ [44])

/-- An argument of a list: with its type, except string literals. -/
inductive Argument (db : Db) (w : Value) (t : Text) : Text → Prop where
  | literal {type} : TypeText db w.entry type → t.head? = some 34 → Argument db w t t
  | typed {type cut} : TypeText db w.entry type → CDecl.Spec.Cut type cut → t.head? ≠ some 34 → Argument db w t ([40] ++ cut ++ [41] ++ t)

/-- `Shown env deep db m outer v t`: the value `v`, inside the values `outer` (innermost
first), is printed as `t`. -/
inductive Shown (env : Env) (deep : Bool) (db : Db) (m : Mem) : List Value → Value → Text → Prop where
  /-- base types: the text of `metac_value_base_type_string` (C60) -/
  | base {outer v s e t} : Object env db v (.base s e) → baseTypeString env db m v = .ok (some t) → Shown env deep db m outer v t
  /-- enumerations: the text of `metac_value_enumeration_string` (C25) -/
  | enumeration {outer v s e es t} : Object env db v (.enumeration s e es) → enumerationString db m (some v) = .ok (some t) →
      Shown env deep db m outer v t
  /-- NULL -/
  | null {outer v ty} : Object env db v (.pointer ty) → Holds m v.addr 8 0 → Shown env deep db m outer v [78, 85, 76, 76]
  /-- shallow: the address -/
  | address {outer v ty a} : deep = false → Object env db v (.pointer ty) → Holds m v.addr 8 a → a ≠ 0 → Shown env deep db m outer v (env.ptr a)
  /-- deep: the address for `void *` -/
  | void {outer v a} : deep = true → Object env db v (.pointer none) → Holds m v.addr 8 a → a ≠ 0 → Fresh db m outer a →
      Reply env .pointerArrayCount v outer none → Shown env deep db m outer v (env.ptr a)
  /-- deep: `(type[])target` -/
  | target {outer v ty a arr e n t type} : deep = true → Object env db v (.pointer ty) → Holds m v.addr 8 a → a ≠ 0 → Fresh db m outer a →
      Target env db v outer ty a arr → Shown env deep db m (v :: outer) arr t → IsArray db arr (some e) n →
      TypeText db (env.dyn { info := .array (some e) (-1) }) type → t.head? ≠ some 34 → Shown env deep db m outer v ([40] ++ type ++ [41] ++ t)
  /-- deep: a string literal -/
  | string {outer v ty a arr e n t type} : deep = true → Object env db v (.pointer ty) → Holds m v.addr 8 a → a ≠ 0 → Fresh db m outer a →
      Target env db v outer ty a arr → Shown env deep db m (v :: outer) arr t → IsArray db arr (some e) n →
      TypeText db (env.dyn { info := .array (some e) (-1) }) type → t.head? = some 34 → Shown env deep db m outer v t
  /-- every member of a struct, in order -/
  | struct {outer v s ms ws t} : Object env db v (.struct .struct s ms) → ws.length = ms.length →
      (∀ (i : Nat) w u, ws[i]? = some (w, u) → Member db v ms i w) → (∀ w u, (w, u) ∈ ws → Shown env deep db m (v :: outer) w u) →
      Wrapped db v (membersText db ws) t → Shown env deep db m outer v t
  /-- a union without known member -/
  | union {outer v s ms t} : Object env db v (.struct .union s ms) → (ms ≠ [] → Reply env .unionMember v outer none) →
      Wrapped db v [] t → Shown env deep db m outer v t
  /-- a union: the member the handler replies -/
  | unionMember {outer v s ms w u t} : Object env db v (.struct .union s ms) → ms ≠ [] → Reply env .unionMember v outer (some w) →
      Shown env deep db m (v :: outer) w u → Wrapped db v (membersText db [(w, u)]) t → Shown env deep db m outer v t
  /-- an array of unknown length that the handlers say nothing about -/
  | skipped {outer v e} : Object env db v (.array e (-1)) → env.tags ≠ none → Reply env .flexArrayCount v outer none →
      Shown env deep db m outer v []
  /-- an array of characters -/
  | literal {outer v e n arr t} : Object env db v (.array e n) → Counted env v outer e n arr → Literal env.pr db m arr t → Shown env deep db m outer v t
  /-- every element of an array, in order -/
  | array {outer v e n arr e' n' ws} : Object env db v (.array e n) → Counted env v outer e n arr → NoLiteral env.pr db m arr →
      IsArray db arr e' n' → ws.length = n'.toNat → (∀ (i : Nat) w u, ws[i]? = some (w, u) → Element db arr e' i w) →
      (∀ w u, (w, u) ∈ ws → Shown env deep db m (v :: outer) w u) → Shown env deep db m outer v ([123] ++ elementsText ws ++ [125])
  /-- `...` -/
  | arguments {outer v} {ws : List (Value × Text)} {us : List Text} : Packed env db v → env.vaList v.entry = false → ws.map (·.1) = env.params v.addr → (∀ w u, (w, u) ∈ ws → w.addr ≠ 0) →
      (∀ w u, (w, u) ∈ ws → Shown env deep db m (v :: outer) w u) → us.length = ws.length →
      (∀ (i : Nat) w u x, ws[i]? = some (w, u) → us[i]? = some x → Argument db w u x) → ws ≠ [] → Shown env deep db m outer v ([44, 32].intercalate us)
  /-- `va_list` -/
  | vaList {outer v} {ws : List (Value × Text)} {us : List Text} : Packed env db v → env.vaList v.entry = true → ws.map (·.1) = env.params v.addr → (∀ w u, (w, u) ∈ ws → w.addr ≠ 0) →
      (∀ w u, (w, u) ∈ ws → Shown env deep db m (v :: outer) w u) → us.length = ws.length →
      (∀ (i : Nat) w u x, ws[i]? = some (w, u) → us[i]? = some x → Argument db w u x) → ws ≠ [] →
      Shown env deep db m outer v ([86, 65, 95, 76, 73, 83, 84, 40] ++ [44, 32].intercalate us ++ [41])
  /-- a call of a function -/
  | call {outer v ty ps n} {ws : List (Value × Text)} : Object env db v (.subprogram ty ps) → ws.map (·.1) = env.params v.addr → (∀ w u, (w, u) ∈ ws → w.addr ≠ 0) →
      (∀ w u, (w, u) ∈ ws → Shown env deep db m (v :: outer) w u) → (db v.entry).name = some n →
      Shown env deep db m outer v (n ++ [40] ++ [44, 32].intercalate (ws.map (·.2)) ++ [41])
  /-- a call through a pointer -/
  | callPointer {outer v ty ps n} {ws : List (Value × Text)} : Object env db v (.subroutine ty ps) → ws.map (·.1) = env.params v.addr → (∀ w u, (w, u) ∈ ws → w.addr ≠ 0) →
      (∀ w u, (w, u) ∈ ws → Shown env deep db m (v :: outer) w u) → (db v.entry).name = some n →
      Shown env deep db m outer v ([40] ++ n ++ [41, 40] ++ [44, 32].intercalate (ws.map (·.2)) ++ [41])

/-! ### Brackets -/

/-- Where in a text one is: outside literals, in a string literal, after a backslash in it,
in a character constant, at its end. -/
inductive Mode where
  | code | string | escape | char | charEnd

/-- Reading one character; the list holds the closing brackets expected, innermost first.
Character constants are a quote, one character and a quote. -/
def read : Mode × List UInt8 → UInt8 → Option (Mode × List UInt8)
  | (.code, open'), c =>
    if c = 34 then some (.string, open')
    else if c = 39 then some (.char, open')
    else if c = 40 then some (.code, 41 :: open')
    else if c = 91 then some (.code, 93 :: open')
    else if c = 123 then some (.code, 125 :: open')
    else if c = 41 ∨ c = 93 ∨ c = 125 then
      match open' with
      | [] => none
      | d :: rest => if c = d then some (.code, rest) else none
    else some (.code, open')
  | (.string, open'), c => if c = 34 then some (.code, open') else if c = 92 then some (.escape, open') else some (.string, open')
  | (.escape, open'), _ => some (.string, open')
  | (.char, open'), _ => some (.charEnd, open')
  | (.charEnd, open'), c => if c = 39 then some (.code, open') else none

/-- Literals are complete and, outside them, every bracket is closed by its counterpart. -/
def Balanced (t : Text) : Prop := t.foldlM read (.code, []) = some (.code, [])

/-- Text without brackets and quotes. -/
def Clean (t : Text) : Prop := ∀ c ∈ t, c ≠ 34 ∧ c ≠ 39 ∧ c ≠ 40 ∧ c ≠ 41 ∧ c ≠ 91 ∧ c ≠ 93 ∧ c ≠ 123 ∧ c ≠ 125

/-- No brackets or quotes in names. -/
structure CleanNames (db : Db) : Prop where
  names : ∀ r n, (db r).name = some n → Clean n
  enumerators : ∀ r s e es, (db r).info = .enumeration s e es → ∀ x ∈ es, Clean x.1

/-! ### Base types -/

/-- The decimal text of an integer. -/
inductive IntText : Int → Text → Prop where
  | nonneg {n : Nat} {s} : Decimal n s → IntText n s
  | neg {n : Nat} {s} : n ≠ 0 → Decimal n s → IntText (-n) (45 :: s)

/-- A C character constant (C11 6.4.4.4) for the character `c`: itself, except quote,
backslash and control characters, or a simple escape. -/
inductive CharConstant (c : UInt8) : Text → Prop where
  | plain : c ≠ 39 → c ≠ 92 → ¬ Control c → CharConstant c [39, c, 39]
  | escape {e} : Simple e c → CharConstant c [39, 92, e, 39]

/-- The text of an object of base type `t` whose bytes hold `n`; for floating types it is a
parameter. -/
inductive BaseText (env : Env) : Ty → Nat → Text → Prop where
  | integer {t n s} : Integral t → t ≠ .char → t ≠ .bool → IntText (intOf t n) s → BaseText env t n s
  | false : BaseText env .bool 0 [102, 97, 108, 115, 101]
  | true : BaseText env .bool 1 [116, 114, 117, 101]
  | printable {n s} : env.pr (UInt8.ofNat n) = true → CharConstant (UInt8.ofNat n) s → BaseText env .char n s
  | other {n s} : env.pr (UInt8.ofNat n) = false → IntText (intOf .char n) s → BaseText env .char n s
  | floating {t n} : ¬ Integral t → BaseText env t n (env.flt t n)

/-! ### Plain data -/

/-- Objects made of base types, enumerations and pointers by structs and arrays of known
length, in accessible memory. -/
inductive Data (env : Env) (db : Db) (m : Mem) : Value → Prop where
  | base {v s e x qs t n} : Object env db v (.base s e) → Final db v.entry (some x) qs → Describes db x t → ¬ IsBitfield db v.entry →
      Holds m v.addr (Value.Spec.sizeOf t) n → (t = .bool → n ≤ 1) → Data env db m v
  | enumeration {v} {s : UInt64} {e es k} : Object env db v (.enumeration s e es) → s.toNat = 1 ∨ s.toNat = 2 ∨ s.toNat = 4 ∨ s.toNat = 8 →
      Holds m v.addr s.toNat k → Data env db m v
  | pointer {v ty a} : Object env db v (.pointer ty) → Holds m v.addr 8 a → Data env db m v
  | struct {v s ms} : Object env db v (.struct .struct s ms) → (∀ i w, Member db v ms i w → Data env db m w) → Data env db m v
  | array {v r k} {n : Nat} : Object env db v (.array (some r) n) → Size db r k → 1 ≤ k → (∀ j < n * k, m (v.addr + j) ≠ none) →
      (∀ i w, i < n → Element db v (some r) i w → Data env db m w) → Data env db m v

end Verif.ValueString.Spec
