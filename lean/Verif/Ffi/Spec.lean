import Verif.Ffi.Model
import Verif.Value.Spec
/-
Specification of calls through libffi: how a C type is to be described to libffi, what arrives at
the function, where the result goes.
-/
namespace Verif.Ffi.Spec
open Verif Verif.Entry Verif.Entry.Spec Verif.Value Verif.Value.Spec Verif.Handlers

/-- libffi's type for a C type (x86-64, Linux). -/
def primOf : Ty → Prim
  | .bool | .uchar => .uchar
  | .char => .schar
  | .short => .sshort
  | .ushort => .ushort
  | .int => .sint
  | .uint => .uint
  | .long | .llong => .slong
  | .ulong | .ullong => .ulong
  | .float => .float
  | .double => .double
  | .ldouble => .longdouble
  | .floatComplex => .complexFloat
  | .doubleComplex => .complexDouble
  | .ldoubleComplex => .complexLongdouble

/-- The signed integer of a size: enumerations. -/
def intOfSize : Nat → Option Prim
  | 1 => some .schar
  | 2 => some .sshort
  | 4 => some .sint
  | 8 => some .slong
  | _ => none

/-- `Scalar env db r p`: objects of type `r` are scalars of libffi's type `p`. -/
inductive Scalar (env : Env) (db : Db) (r : Ref) : Prim → Prop where
  | base {x qs t} : Final db r (some x) qs → Describes db x t → Scalar env db r (primOf t)
  | enumeration {x qs n e es p} : Final db r (some x) qs → (db x).info = .enumeration n e es → intOfSize n.toNat = some p → Scalar env db r p
  | pointer {x qs t} : Final db r (some x) qs → (db x).info = .pointer t → env.vaList r = false → Scalar env db r .pointer

/-- `Looks env db r s`: the description of the type `r`: scalars as they are, a structure
without bit-fields by its size and the descriptions of its members in order, an array by its elements
(none if its length is unknown).  Alignments are left to libffi (0).  A union is described as
the first of its largest members. -/
inductive Looks (env : Env) (db : Db) : Ref → Shape → Prop where
  | scalar {r p} : Scalar env db r p → Looks env db r (.prim p)
  | struct {r x qs k n ms ss} : Final db r (some x) qs → (db x).info = .struct k n ms → env.vaList r = false → (k = .union → ms = []) →
      (∀ m ∈ ms, ∃ mi, (db m).info = .member mi) → (∀ m ∈ ms, ¬ IsBitfield db m) → ss.length = ms.length →
      (∀ (i : Nat) m s, ms[i]? = some m → ss[i]? = some s → Looks env db m s) → Looks env db r (.struct n.toNat 0 ss)
  | union {r x qs n ms i m w s} : Final db r (some x) qs → (db x).info = .struct .union n ms → env.vaList r = false → ms[i]? = some m → Size db m w →
      (∀ (j : Nat) m', ms[j]? = some m' → ∃ w', Size db m' w' ∧ w' < 2 ^ 64 ∧ w' ≤ w ∧ (j < i → w' < w)) → Looks env db m s → Looks env db r s
  | array {r x qs e c n s} : Final db r (some x) qs → (db x).info = .array (some e) c → env.vaList r = false → -2 ^ 31 ≤ c → c < 2 ^ 31 →
      (0 < c → Size db r n ∧ n < 2 ^ 64) → (c ≤ 0 → n = 0) → Looks env db e s → Looks env db r (.struct n 0 (List.replicate c.toNat s))

/-! ### Arguments -/

/-- Sizes of the scalars on x86-64, in bytes (long doubles are padded to 16). -/
def width (p : Prim) : Nat :=
  if p ∈ [.schar, .uchar] then 1
  else if p ∈ [.sshort, .ushort] then 2
  else if p ∈ [.sint, .uint, .float] then 4
  else if p ∈ [.longdouble, .complexDouble] then 16
  else if p = .complexLongdouble then 32
  else 8

/-- The size of an object of the described type. -/
def room : Shape → Nat
  | .prim p => width p
  | .struct n _ _ => n

/-- These bytes are in memory at `a`. -/
def Bytes (m : Mem) (a : Nat) (bs : List UInt8) : Prop := ∀ (i : Nat) b, bs[i]? = some b → m (a + i) = some b

/-- The 8 bytes of an address, low byte first. -/
def Address (a : Nat) (bs : List UInt8) : Prop := bs.length = 8 ∧ ∀ i < 8, bs[i]? = some (UInt8.ofNat (a / 256 ^ i % 256))

/-- Types that C's default argument promotions leave as they are. -/
def Promoted : Prim → Prop
  | .schar | .uchar | .sshort | .ushort | .float => False
  | _ => True

/-- `Dots env db m v a`: the stored value `v`, passed for `...`, arrives as `a`: a promoted scalar
by value, an array by its address. -/
inductive Dots (env : Env) (db : Db) (m : Mem) (v : Value) : Arg → Prop where
  | scalar {p bs} : Scalar env db v.entry p → Promoted p → v.addr ≠ 0 → bs.length = width p → Bytes m v.addr bs → Dots env db m v (.object (.prim p) bs)
  | array {x qs e c bs} : Final db v.entry (some x) qs → (db x).info = .array e c → env.vaList v.entry = false → v.addr ≠ 0 → Address v.addr bs →
      Dots env db m v (.object (.prim .pointer) bs)

/-- One by one. -/
inductive Each {α β : Type} (R : α → β → Prop) : List α → List β → Prop where
  | nil : Each R [] []
  | cons {a b as bs} : R a b → Each R as bs → Each R (a :: as) (b :: bs)

/-- `Fixed env db m D v a`: the stored value `v`, passed for a parameter, arrives as `a`: its bytes; a
`va_list` as one from which the stored arguments can be read, each as `D` says. -/
inductive Fixed (env : Env) (db : Db) (m : Mem) (D : Value → Arg → Prop) (v : Value) : Arg → Prop where
  | object {s bs} : Looks env db v.entry s → env.vaList v.entry = false → v.addr ≠ 0 → bs.length = room s → Bytes m v.addr bs → Fixed env db m D v (.object s bs)
  | vaList {x qs t as} : Final db v.entry (some x) qs → (db x).info = .pointer t → env.vaList v.entry = true → v.addr ≠ 0 →
      Each D (env.params v.addr) as → Fixed env db m D v (.vaList as)

/-- The entry is the `...` of a parameter list. -/
def IsDots (db : Db) (q : Ref) : Prop := ∃ t, (db q).info = .param true t

/-- `Arguments env db m D v ps as fixed`: the call stored in `v` of a function with parameters
`ps` is one with the arguments `as`; `fixed`: the number of arguments before `...`; `D`: how the arguments of `...` arrive. -/
inductive Arguments (env : Env) (db : Db) (m : Mem) (D : Value → Arg → Prop) (v : Value) (ps : List Ref) : List Arg → Option Nat → Prop where
  | plain {as} : (env.params v.addr).length = ps.length → (∀ q, ps.getLast? = some q → ¬ IsDots db q) →
      Each (Fixed env db m D) (env.params v.addr) as → Arguments env db m D v ps as none
  | dots {vs d q as more} : env.params v.addr = vs ++ [d] → ps.length = vs.length + 1 → ps.getLast? = some q → IsDots db q → d.addr ≠ 0 →
      env.vaList d.entry = false → Each (Fixed env db m D) vs as → Each D (env.params d.addr) more →
      Arguments env db m D v ps (as ++ more) (some vs.length)

/-- The description of an argument. -/
def shape : Arg → Shape
  | .object s _ => s
  | .vaList _ => .struct 8 8 [.prim .pointer]

/-- libffi accepts the call, and the calls it takes to make the `va_list`s. -/
structure Accepts (lib : Lib) (s : Shape) (as : List Arg) (fixed : Option Nat) : Prop where
  call : lib.prep fixed s (as.map shape) = true
  lists : ∀ l, Arg.vaList l ∈ as → lib.prep (some 6) (.prim .sint)
    ([.prim .pointer, .prim .pointer, .prim .pointer, .prim .sint, .prim .pointer, .prim .sint] ++ l.map shape) = true

/-- The entry is a function with result type `t` and these parameters. -/
def Function (db : Db) (r : Ref) (t : Option Ref) (ps : List Ref) : Prop :=
  ∃ f qs, Final db r (some f) qs ∧ ((db f).info = .subprogram t ps ∨ (db f).info = .subroutine t ps)

/-- `Written m a bs m'`: `m'` is `m` with these bytes at `a`. -/
def Written (m : Mem) (a : Nat) (bs : List UInt8) (m' : Mem) : Prop :=
  (∀ (i : Nat) b, bs[i]? = some b → m' (a + i) = some b) ∧ ∀ x, (x < a ∨ a + bs.length ≤ x) → m' x = m x

/-- The bytes `[a, a + n)` belong to an object. -/
def Room (m : Mem) (a n : Nat) : Prop := ∀ i < n, m (a + i) ≠ none

end Verif.Ffi.Spec
