import Verif.Deep.Model
import Verif.ValueString.Spec
/-
Specification of the memory map of a value, of freeing and of comparing.
-/
namespace Verif.Deep.Spec
open Verif Verif.Entry Verif.Entry.Spec Verif.Value Verif.Value.Spec Verif.Handlers Verif.ValueString.Spec

/-! ### The tree of objects -/

/-- What a value is made of: nothing further (its size; the level of the pointer it repeats,
or 0); objects inside an object of a size; what a pointer (of a size) points to; arguments of
a call. -/
inductive Shape where
  | leaf (size loop : Nat)
  | parts (vs : List Value) (size : Nat)
  | target (arr : Value) (size : Nat)
  | args (vs : List Value)

/-- The entry describes an array. -/
def ArrayEntry (db : Db) (r : Ref) : Prop := ∃ x qs e n, Final db r (some x) qs ∧ (db x).info = .array e n

/-- The type pointed to is known: not `void`, not only declared. -/
def Known (db : Db) (ty : Option Ref) : Prop := ∃ e, ty = some e ∧ (db e).declaration = false

/-- The pointer at level `l` around the current value (1: the next) is the nearest that points
to `a`. -/
def Looped (db : Db) (m : Mem) (outer : List Value) (a l : Nat) : Prop :=
  ∃ i w, l = i + 1 ∧ outer[i]? = some w ∧ Pointer db m w a ∧ Fresh db m (outer.take i) a

/-- The array taken for an array of unknown length: as the handler replies; without reply an
empty one, if the mode allows it. -/
inductive Counted (env : Env) (mode : Mode) (v : Value) (outer : List Value) (e : Option Ref) : Int → Value → Prop where
  | known {n} : n ≠ -1 → Counted env mode v outer e n v
  | reply {w} : Reply env.vs .flexArrayCount v outer (some w) → Counted env mode v outer e (-1) w
  | empty {r} : Reply env.vs .flexArrayCount v outer none → mode.flexFail = false → e = some r →
      Counted env mode v outer e (-1) ⟨env.dyn { info := .array e 0 }, v.addr⟩

/-- What a pointer to `a` is taken to point to: the array the handler replies; without reply
one object of the type pointed to, or one byte if that type is unknown. -/
inductive Target (env : Env) (mode : Mode) (db : Db) (v : Value) (outer : List Value) (ty : Option Ref) (a : Nat) : Value → Prop where
  | reply {arr} : Reply env.vs .pointerArrayCount v outer (some arr) → ArrayEntry db arr.entry → Target env mode db v outer ty a arr
  | one {e} : Reply env.vs .pointerArrayCount v outer none → Known db ty → ty = some e →
      Target env mode db v outer ty a ⟨env.dyn { info := .array (some e) 1 }, a⟩
  | byte : Reply env.vs .pointerArrayCount v outer none → ¬ Known db ty → mode.uptr = .oneByte →
      Target env mode db v outer ty a ⟨env.dyn { info := .array (some env.uchar) 1 }, a⟩

/-- `Consists env mode db m outer v s`: what the value `v`, inside the values `outer`
(innermost first), is made of. -/
inductive Consists (env : Env) (mode : Mode) (db : Db) (m : Mem) (outer : List Value) (v : Value) : Shape → Prop where
  | base {s e n} : Object env.vs db v (.base s e) → Size db v.entry n → Consists env mode db m outer v (.leaf n 0)
  | enumeration {s e es n} : Object env.vs db v (.enumeration s e es) → Size db v.entry n → Consists env mode db m outer v (.leaf n 0)
  /-- every member of a struct, in order -/
  | struct {s ms n vs} : Object env.vs db v (.struct .struct s ms) → Size db v.entry n → vs.length = ms.length →
      (∀ (i : Nat) w, vs[i]? = some w → Member db v ms i w) → Consists env mode db m outer v (.parts vs n)
  /-- a union without known member, unless that is to fail -/
  | union {s ms n} : Object env.vs db v (.struct .union s ms) → Size db v.entry n →
      (ms ≠ [] → Reply env.vs .unionMember v outer none ∧ mode.union ≠ .fail) → Consists env mode db m outer v (.parts [] n)
  /-- a union: the member the handler replies -/
  | unionMember {s ms n w} : Object env.vs db v (.struct .union s ms) → Size db v.entry n → ms ≠ [] →
      Reply env.vs .unionMember v outer (some w) → Consists env mode db m outer v (.parts [w] n)
  /-- every element of an array, in order -/
  | array {e c arr e' c' vs n} : Object env.vs db v (.array e c) → Counted env mode v outer e c arr → IsArray db arr e' c' →
      vs.length = c'.toNat → (∀ (i : Nat) w, vs[i]? = some w → Element db arr e' i w) → vs ≠ [] → Size db arr.entry n →
      Consists env mode db m outer v (.parts vs n)
  /-- an array without elements -/
  | noElements {e c arr e' c'} : Object env.vs db v (.array e c) → Counted env mode v outer e c arr → IsArray db arr e' c' → c' ≤ 0 →
      Consists env mode db m outer v (.parts [] 0)
  | null {ty n} : Object env.vs db v (.pointer ty) → Size db v.entry n → Holds m v.addr 8 0 → Consists env mode db m outer v (.leaf n 0)
  /-- a pointer to where a pointer around points -/
  | loop {ty n a l} : Object env.vs db v (.pointer ty) → Size db v.entry n → Holds m v.addr 8 a → a ≠ 0 → Looped db m outer a l →
      Consists env mode db m outer v (.leaf n l)
  /-- a pointer to something unknown, if it is to be left alone -/
  | unknown {ty n a} : Object env.vs db v (.pointer ty) → Size db v.entry n → Holds m v.addr 8 a → a ≠ 0 → Fresh db m outer a →
      Reply env.vs .pointerArrayCount v outer none → ¬ Known db ty → mode.uptr = .ignore ∨ mode.uptr = .asValues →
      Consists env mode db m outer v (.leaf n 0)
  | target {ty n a arr} : Object env.vs db v (.pointer ty) → Size db v.entry n → Holds m v.addr 8 a → a ≠ 0 → Fresh db m outer a →
      Target env mode db v outer ty a arr → Consists env mode db m outer v (.target arr n)
  | arguments {vs} : Packed env.vs db v → vs = env.params v.addr → (∀ w ∈ vs, w.addr ≠ 0) → Consists env mode db m outer v (.args vs)
  | call {ty ps vs} : Object env.vs db v (.subprogram ty ps) ∨ Object env.vs db v (.subroutine ty ps) → vs = env.params v.addr →
      (∀ w ∈ vs, w.addr ≠ 0) → Consists env mode db m outer v (.args vs)

/-- The extent of an object at `a` of `n` bytes with the parts `ks`: to the end of the last. -/
def extent (a n : Nat) (ks : List Node) : Nat := ks.foldl (fun n k => max n (k.val.addr - a + k.size)) n

/-- `Tree env mode db m outer k`: `k` is the tree of the objects that make up its value and of
all those reached from it by pointers. -/
inductive Tree (env : Env) (mode : Mode) (db : Db) (m : Mem) : List Value → Node → Prop where
  | leaf {outer id v n l} : Consists env mode db m outer v (.leaf n l) → Tree env mode db m outer (.mk id v n l false [])
  | parts {outer id v vs n ks} : Consists env mode db m outer v (.parts vs n) → ks.map Node.val = vs → (∀ k ∈ ks, v.addr ≤ k.val.addr) →
      (∀ k ∈ ks, Tree env mode db m (v :: outer) k) → Tree env mode db m outer (.mk id v (extent v.addr n ks) 0 false ks)
  | target {outer id v n k} : Consists env mode db m outer v (.target k.val n) → Tree env mode db m (v :: outer) k →
      Tree env mode db m outer (.mk id v n 0 true [k])
  | args {outer id v vs ks} : Consists env mode db m outer v (.args vs) → ks.map Node.val = vs → (∀ k ∈ ks, Tree env mode db m (v :: outer) k) →
      Tree env mode db m outer (.mk id v 0 0 false ks)

mutual
/-- The nodes pointers of the tree point to, in the order in which they are completed. -/
def targets : Node → List Node
  | .mk _ _ _ _ deref ks => targetsAll ks ++ if deref then ks else []
def targetsAll : List Node → List Node
  | [] => []
  | k :: ks => targets k ++ targetsAll ks
end

/-- The tree has an object of `n` bytes at `a` that a pointer of the tree points to. -/
def Range (k : Node) (a n : Nat) : Prop := ∃ t ∈ targets k, t.val.addr = a ∧ t.size = n

/-! ### Blocks -/

/-- A hash map is gone through entry by entry, in any order. -/
def Order (order : List (Nat × Nat × Nat) → List (Nat × Nat × Nat)) : Prop := ∀ l, (order l).Perm l

/-- The map has an entry for the address `a`, of `n` bytes, at `o` bytes from the start of its
block. -/
def Located (M : Map) (a n o : Nat) : Prop := ∃ id, (a, id, n) ∈ M.map ∧ M.offset id = o

/-- `B a n`: there is an allocated block of `n` bytes at `a`.  The blocks do not overlap; every
object a pointer of the tree points to lies inside a block, an empty one at its start; and a
pointer of the tree points to the start of every block, to an object large enough that all
other objects in the block begin inside it. -/
structure Allocated (B : Nat → Nat → Prop) (k : Node) : Prop where
  apart : ∀ a n b s, B a n → B b s → (a = b ∧ n = s) ∨ a + n ≤ b ∨ b + s ≤ a
  inside : ∀ a n, Range k a n → ∃ b s, B b s ∧ b ≤ a ∧ a + n ≤ b + s ∧ (n = 0 → a = b)
  start : ∀ b s, B b s → ∃ n, Range k b n ∧ ∀ a i, Range k a i → b < a → a < b + s → a < b + n

end Verif.Deep.Spec
