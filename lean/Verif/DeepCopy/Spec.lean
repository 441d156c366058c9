import Verif.DeepCopy.Model
import Verif.Deep.EqualSpec
/-
Specification of the deep copy of a value.
-/
namespace Verif.DeepCopy.Spec
open Verif Verif.Entry Verif.Entry.Spec Verif.Value Verif.Value.Spec Verif.Handlers Verif.ValueString.Spec Verif.Deep.Spec
open Verif.Bitfield.Spec (Field)
open Verif.Deep (Node Map)

/-! ### Memory -/

/-- An allocator: a new block is not at `NULL`, ends inside the address space, was not mapped
before, and keeps apart from the blocks that are live (a block has room for one byte at least). -/
structure Allocator (calloc : State → Nat → Nat → Option Nat) : Prop where
  nonNull : ∀ st n s a, calloc st n s = some a → a ≠ 0
  bounded : ∀ st n s a, calloc st n s = some a → a + n * s < 2 ^ 64
  unmapped : ∀ st n s a, calloc st n s = some a → ∀ i < max (n * s) 1, st.m (a + i) = none
  apart : ∀ st n s a, calloc st n s = some a → ∀ b k, (b, k) ∈ st.live → a + max (n * s) 1 ≤ b ∨ b + max k 1 ≤ a

/-- A hash map is gone through entry by entry, in any order. -/
def Each (each : List (Nat × Nat) → List (Nat × Nat)) : Prop := ∀ l, (each l).Perm l

/-- The allocator serves requests for zeroed blocks of the sizes given, one after another. -/
def Serves (calloc : State → Nat → Nat → Option Nat) : State → List Nat → Prop
  | _, [] => True
  | st, n :: l => ∃ a, calloc st 1 n = some a ∧ Serves calloc ⟨fun x => if a ≤ x ∧ x < a + n then some 0 else st.m x, (a, n) :: st.live⟩ l

/-- The sizes of the blocks of the map, in the order in which it is gone through. -/
def blockSizes (order : List (Nat × Nat × Nat) → List (Nat × Nat × Nat)) (M : Map) : List Nat :=
  ((order M.map).filter fun e => M.offset e.2.1 = 0).map fun e => e.2.2

/-! ### What is to be written -/

/-- What the copy of an object without parts is to hold: a number (its bits); the address of
the copy of what is at an address. -/
inductive Want where
  | num (n : Nat)
  | copyOf (p : Nat)
deriving DecidableEq

/-- `Wants cfg mode db m x o l w`: the `l` bits from bit `o` on of the copy of `x` are to hold
`w`.  This is so for a number, an enumeration, a pointer, and a union without known member.
Pointers that were followed and those that close a loop are to point to the copy; `NULL`
stays; others are dropped or kept, as the mode says.  (A number is passed by value,
`cfg.passed`: this matters for the padding of `long double` only.  Bit-fields: under the
conditions of C21 and C22.) -/
inductive Wants (cfg : Plat) (mode : Deep.Mode) (db : Db) (m : Mem) (x : Node) : Nat → Nat → Want → Prop where
  | number {t n} : Value.Object db m x.val t n → x.size = Value.Spec.sizeOf t →
      Wants cfg mode db m x 0 (8 * x.size) (.num (cfg.passed t n % 256 ^ Value.Spec.sizeOf t))
  | bits {t be base bit size qs o c} : BitObject db m x.val t be base bit size qs → size ≤ 30 → bit % 8 + size ≤ 8 * Value.Spec.sizeOf t →
      bit % 8 + size ≤ 32 → (cfg.iso = true → bit % 8 + size ≤ 31 ∧ (signedTy t be = true → c < 2 ^ (size - 1))) → (t = .bool → c ≤ 1) →
      8 * base + bit = 8 * x.val.addr + o → Field m (8 * base + bit) size c → Wants cfg mode db m x o size (.num c)
  | enumeration {size : UInt64} {enc es n} : Typed db x.val (.enumeration size enc es) → x.val.addr ≠ 0 → x.size = size.toNat →
      size.toNat = 1 ∨ size.toNat = 2 ∨ size.toNat = 4 ∨ size.toNat = 8 → Holds m x.val.addr size.toNat n → Wants cfg mode db m x 0 (8 * x.size) (.num n)
  | null {t} : Typed db x.val (.pointer t) → Holds m x.val.addr 8 0 → Wants cfg mode db m x 0 64 (.num 0)
  | followed {t p} : Typed db x.val (.pointer t) → Holds m x.val.addr 8 p → p ≠ 0 → x.kids ≠ [] ∨ x.loop ≠ 0 → Wants cfg mode db m x 0 64 (.copyOf p)
  | dropped {t p} : Typed db x.val (.pointer t) → Holds m x.val.addr 8 p → p ≠ 0 → x.kids = [] → x.loop = 0 → mode.uptr = .ignore →
      Wants cfg mode db m x 0 64 (.num 0)
  | kept {t p} : Typed db x.val (.pointer t) → Holds m x.val.addr 8 p → p ≠ 0 → x.kids = [] → x.loop = 0 → mode.uptr = .asValues →
      Wants cfg mode db m x 0 64 (.num p)
  | bytes {s ms n} : Typed db x.val (.struct .union s ms) → x.kids = [] → 0 < x.size → mode.union = .asMem → Holds m x.val.addr x.size n →
      Wants cfg mode db m x 0 (8 * x.size) (.num n)
  | zero {s ms} : Typed db x.val (.struct .union s ms) → x.kids = [] → 0 < x.size → mode.union = .ignore → Wants cfg mode db m x 0 (8 * x.size) (.num 0)

/-- The number to be written, if the copy of what is at `p` is at `W p`. -/
def Want.value (W : Nat → Nat) : Want → Nat
  | .num n => n
  | .copyOf p => W p

/-- `Copy W k dst x w`: `w` is the copy of the object `x` of the tree `k`, if `k` is copied to
`dst` and what is at `a` is copied to `W a`. -/
inductive Copy (W : Nat → Nat) (k : Node) (dst : Value) : Node → Value → Prop where
  | top : Copy W k dst k dst
  | part {x w y} : Copy W k dst x w → x.deref = false → y ∈ x.kids → Copy W k dst y ⟨y.val.entry, w.addr + (y.val.addr - x.val.addr)⟩
  | target {x w y} : Copy W k dst x w → x.deref = true → y ∈ x.kids → Copy W k dst y ⟨y.val.entry, W y.val.addr⟩

/-! ### Data that can be copied -/

/-- The object is not declared `const`. -/
def Writable (db : Db) (r : Ref) : Prop := ∀ x qs, Final db r (some x) qs → Qual.const ∉ qs

/-- The data of the map can be copied. -/
structure Copyable (env : Env) (mode : Deep.Mode) (db : Db) (m : Mem) (M : Map) : Prop where
  /-- no calls and lists of arguments -/
  calls : ∀ x, Within M.top x → ¬ Packed env.vs db x.val ∧ (∀ t ps, ¬ Typed db x.val (.subprogram t ps)) ∧ ∀ t ps, ¬ Typed db x.val (.subroutine t ps)
  /-- numbers and enumerations are readable -/
  numbers : ∀ x, Within M.top x → Scalar db x.val → ∃ o l w, Wants env.cfg mode db m x o l w
  /-- so are unions taken as bytes -/
  unions : mode.union = .asMem → ∀ x, Within M.top x → x.kids = [] → (∃ s ms, Typed db x.val (.struct .union s ms)) → ∀ i < x.size, m (x.val.addr + i) ≠ none
  /-- no part is `const` -/
  writable : ∀ x y, Within M.top x → y ∈ x.kids → Writable db y.val.entry
  /-- where objects overlap, they are the same, and the same is to be done with them -/
  consistent : ∀ x y o l u o' l' w, Within M.top x → Within M.top y → Wants env.cfg mode db m x o l u → Wants env.cfg mode db m y o' l' w →
    8 * x.val.addr + o + l ≤ 8 * y.val.addr + o' ∨ 8 * y.val.addr + o' + l' ≤ 8 * x.val.addr + o ∨
      (8 * x.val.addr + o = 8 * y.val.addr + o' ∧ l = l' ∧ u = w)
  /-- bit-fields are parts of structs, and their bits are inside -/
  bits : ∀ y x mi, Within M.top y → x ∈ y.kids → (db x.val.entry).info = .member mi → IsBitfield db x.val.entry → y.deref = false ∧
    y.val.addr + mi.byteOffset.toNat ≤ x.val.addr ∧ ∀ o l w, Wants env.cfg mode db m x o l w → 8 * x.val.addr + o + l ≤ 8 * (y.val.addr + y.size)
  whole : ¬ IsBitfield db M.top.val.entry
  /-- what begins inside a block ends inside it -/
  fits : ∀ a n o, Located M a n o → ∃ s, Located M (a - o) s 0 ∧ o + n ≤ s
  /-- empty objects are not inside other blocks -/
  empties : ∀ b a n, Located M b 0 0 → Located M a n 0 → a < b → a + n ≤ b
  /-- an object inside another is reached once -/
  inner : ∀ t u, t ∈ targets M.top → u ∈ targets M.top → t.val.addr = u.val.addr → t.id = u.id ∨ ∃ n, Located M t.val.addr n 0
  /-- a pointer points into what it is taken to point to -/
  points : ∀ x k p, Within M.top x → x.deref = true → k ∈ x.kids → Holds m x.val.addr 8 p → k.val.addr ≠ 0 ∧ k.val.addr ≤ p ∧ p < k.val.addr + max k.size 1

/-- The destination: of the type of the source (whose declaration can be written down), no
bit-field, writable, mapped, apart from the source; and zero, if the mode does not say what to
do with pointers to something unknown (see `C30_null_false`). -/
structure Room (env : Env) (mode : Deep.Mode) (db : Db) (m : Mem) (M : Map) (dst : Value) : Prop where
  type : ∃ f qs qs' s, Final db M.top.val.entry (some f) qs ∧ Final db dst.entry (some f) qs' ∧ CDecl.cdecl db f = .ok (some s)
  writable : Writable db dst.entry
  plain : ¬ IsBitfield db dst.entry
  nonNull : dst.addr ≠ 0
  mapped : ∀ i < M.top.size, m (dst.addr + i) ≠ none
  apart : ∀ x o l w, Within M.top x → Wants env.cfg mode db m x o l w →
    8 * x.val.addr + o + l ≤ 8 * dst.addr ∨ 8 * (dst.addr + M.top.size) ≤ 8 * x.val.addr + o
  zero : mode.uptr = .fail ∨ mode.uptr = .oneByte → ∀ i < M.top.size, m (dst.addr + i) = some 0

/-! ### The result -/

/-- `x` is a pointer that is copied with what it points to, and `p` is what it holds. -/
structure Followed (db : Db) (m : Mem) (M : Map) (x : Node) (p : Nat) : Prop where
  within : Within M.top x
  type : ∃ t, Typed db x.val (.pointer t)
  holds : Holds m x.val.addr 8 p
  nonNull : p ≠ 0
  taken : x.kids ≠ [] ∨ x.loop ≠ 0

/-- `st'` is `st` with the copy made, where the copy of what is at `a` is at `W a`. -/
structure Copied (env : Env) (mode : Deep.Mode) (db : Db) (st : State) (M : Map) (dst : Value) (st' : State) (W : Nat → Nat) : Prop where
  /-- every copy of an object holds what it is to hold -/
  values : ∀ x w o l u, Copy W M.top dst x w → Wants env.cfg mode db st.m x o l u → Field st'.m (8 * w.addr + o) l (u.value W)
  /-- no copy of a pointer that was followed points to memory there was before -/
  separate : ∀ x w p, Followed db st.m M x p → Copy W M.top dst x w → Holds st'.m w.addr 8 (W p) ∧ st.m (W p) = none ∧ W p ≠ 0
  /-- copies of pointers are equal only if the pointers are -/
  sharing : ∀ x y p q, Followed db st.m M x p → Followed db st.m M y q → W p = W q → p = q
  /-- there is one new block for each block of the source, of the same size -/
  blocks : ∃ B, st'.live = B ++ st.live ∧ (B.map (·.1)).Nodup ∧ ∀ t n, (t, n) ∈ B ↔ ∃ a, Located M a n 0 ∧ t = W a
  /-- it is in memory that was not in use, and is mapped now -/
  fresh : ∀ a n, Located M a n 0 → (∀ i < max n 1, st.m (W a + i) = none) ∧ ∀ i < n, st'.m (W a + i) ≠ none
  /-- what is inside a block is copied to the same place in the new block -/
  inside : ∀ a n p, Located M a n 0 → a ≤ p → p < a + max n 1 → W p = W a + (p - a)
  /-- and pointers that were followed point inside blocks -/
  pointers : ∀ x p, Followed db st.m M x p → ∃ a n, Located M a n 0 ∧ a ≤ p ∧ p < a + max n 1
  /-- nothing else is changed -/
  others : ∀ a, a < dst.addr ∨ dst.addr + M.top.size ≤ a → (∀ b n, Located M b n 0 → a < W b ∨ W b + n ≤ a) → st'.m a = st.m a

/-! ### Comparing the copy with the source -/

/-- `Site W k dst outs x w`: `w` is the copy of the object `x` of the tree `k` (see `Copy`), and
`outs` are the objects around `x` with their copies, innermost first. -/
inductive Site (W : Nat → Nat) (k : Node) (dst : Value) : List (Node × Value) → Node → Value → Prop where
  | top : Site W k dst [] k dst
  | part {outs x w y} : Site W k dst outs x w → x.deref = false → y ∈ x.kids →
      Site W k dst ((x, w) :: outs) y ⟨y.val.entry, w.addr + (y.val.addr - x.val.addr)⟩
  | target {outs x w y} : Site W k dst outs x w → x.deref = true → y ∈ x.kids → Site W k dst ((x, w) :: outs) y ⟨y.val.entry, W y.val.addr⟩

/-- The copy of the value `r` a handler replied for the object `v`, whose copy is `w`: a member
or an array inside `v`, or an array `v` points to. -/
def moved (W : Nat → Nat) (ev : Event) (v w r : Value) : Value :=
  match ev with
  | .pointerArrayCount => ⟨r.entry, W r.addr⟩
  | _ => ⟨r.entry, w.addr + (r.addr - v.addr)⟩

/-- `env'` is `env`, but for the handlers: these say of the source what they said before it was
copied, and of the copy the same, mutatis mutandis. -/
structure Answers (env env' : Deep.Env) (W : Nat → Nat) (k : Node) (dst : Value) : Prop where
  cfg : env'.cfg = env.cfg
  dyn : env'.dyn = env.dyn
  uchar : env'.uchar = env.uchar
  vaList : env'.vaList = env.vaList
  source : ∀ outs x w ev r, Site W k dst outs x w → Reply env.vs ev x.val (outs.map (·.1.val)) r → Reply env'.vs ev x.val (outs.map (·.1.val)) r
  copy : ∀ outs x w ev r, Site W k dst outs x w → Reply env.vs ev x.val (outs.map (·.1.val)) r →
    Reply env'.vs ev w (outs.map (·.2)) (r.map (moved W ev x.val w))

/-- If pointers that are not followed are kept as they are, they point to memory there is (or
they may point to what becomes a new block). -/
def Kept (mode : Deep.Mode) (db : Db) (m : Mem) (M : Map) : Prop :=
  mode.uptr = .asValues → ∀ x t p, Within M.top x → Typed db x.val (.pointer t) → x.kids = [] → Holds m x.val.addr 8 p → p ≠ 0 → m p ≠ none

/-- The source is equal to its copy, as far as its content goes: it can be read; its
floating-point numbers are equal to themselves (no NaN); and, if pointers that are not followed
are compared as values, there are no loops, and such pointers point to memory there is. -/
structure Comparable (env : Env) (mode : Deep.Mode) (db : Db) (m : Mem) (M : Map) : Prop where
  readable : Readable env.cfg mode db m M.top
  reals : ∀ x t n, Within M.top x → Value.Object db m x.val t n → ¬ Integral t → env.cfg.feq t n (env.cfg.passed t n % 256 ^ Value.Spec.sizeOf t) = true
  loops : mode.uptr = .asValues → ∀ x, Within M.top x → x.loop = 0
  kept : Kept mode db m M

end Verif.DeepCopy.Spec
