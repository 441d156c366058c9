import Verif.DeepCopy.Spec
/-
Specification of what becomes of a deep copy and of its source: freeing, reading, printing.
-/
namespace Verif.Lifecycle.Spec
open Verif Verif.Entry Verif.Entry.Spec Verif.Value Verif.Value.Spec Verif.Handlers Verif.ValueString.Spec Verif.Deep.Spec Verif.DeepCopy.Spec
open Verif.Deep (Node Map)
open Verif.DeepCopy (State)

/-- `Freed st l st'`: the blocks at the addresses `l` are released one after another.  Each of
them is a block that is live when its turn comes; its memory is not there any more then. -/
inductive Freed : State → List Nat → State → Prop where
  | none {st} : Freed st [] st
  | block {st a n l st'} : (a, n) ∈ st.live → Freed ⟨fun x => if a ≤ x ∧ x < a + n then .none else st.m x, st.live.filter fun b => b.1 ≠ a⟩ l st' →
      Freed st (a :: l) st'

/-- The same bytes in the memory the copy is in: the destination and the new blocks. -/
structure SameCopy (M : Map) (dst : Value) (W : Nat → Nat) (m m' : Mem) : Prop where
  root : ∀ i < M.top.size, m' (dst.addr + i) = m (dst.addr + i)
  blocks : ∀ a n, Located M a n 0 → ∀ i < n, m' (W a + i) = m (W a + i)

/-- `env'` is `env`, but for the handlers: these say of the copy what they said. -/
structure Still (env env' : Deep.Env) (W : Nat → Nat) (k : Node) (dst : Value) : Prop where
  dyn : env'.dyn = env.dyn
  uchar : env'.uchar = env.uchar
  vaList : env'.vaList = env.vaList
  reply : ∀ x w, Copy W k dst x w → ∀ ev outer r, Reply env.vs ev w outer r → Reply env'.vs ev w outer r

/-- A deep copy of the data `src`, whose map is `M`, has been made in `dst`: memory and blocks were
`st`, now they are `st'`.  The conditions are those of `C30_copy_partial`: shared data (`dag`) that
can be copied (`Copyable`) into a destination with room for it (`Room`); and pointers that are
kept as they are point to something (`Kept`). -/
structure Made (env : DeepCopy.Env) (order : List (Nat × Nat × Nat) → List (Nat × Nat × Nat)) (mode : Deep.Mode) (db : Db) (src dst : Value) (M : Map) (st st' : State) : Prop where
  sane : Sane db
  interned : Interned env.vs db
  honest : Honest env.vs db
  perm : Order order
  alloc : Allocator env.calloc
  each : Each env.each
  dag : mode.dag = true
  put : env.custom = true → ∀ t, env.put t = true
  map : Deep.memoryMap env.deep order mode db st.m (some src) = .ok (some M)
  copyable : Copyable env mode db st.m M
  room : Room env mode db st.m M dst
  plain : ¬ Packed env.vs db dst
  kept : Kept mode db st.m M
  copied : DeepCopy.copyEx env order mode db st (some src) (some dst) = .ok (true, st')

/-! ### Printing -/

/-- `env'` prints as `env` does: characters, numbers and addresses; and there is a tag map or not. -/
structure Printing (env env' : ValueString.Env) : Prop where
  cfg : env'.cfg = env.cfg
  pr : env'.pr = env.pr
  flt : env'.flt = env.flt
  ptr : env'.ptr = env.ptr
  tags : env'.tags = none ↔ env.tags = none

/-- What is printed of the data does not depend on where it is: it can be read; the text of a
floating-point number does not depend on padding; pointers that are not followed are kept as they
are, and point to `void` (an incomplete type is printed although it is not copied); and
(nonsense aside) elements of arrays are not bit-fields. -/
structure Showable (env : DeepCopy.Env) (mode : Deep.Mode) (db : Db) (m : Mem) (M : Map) : Prop where
  readable : Readable env.cfg mode db m M.top
  reals : ∀ t n, ¬ Integral t → env.flt t (env.cfg.passed t n % 256 ^ Value.Spec.sizeOf t) = env.flt t n
  unknown : mode.uptr = .fail ∨ mode.uptr = .asValues ∧ ∀ x e, Within M.top x → Typed db x.val (.pointer (some e)) → (db e).declaration = false
  elements : ∀ r e c, (db r).info = .array (some e) c → ¬ IsBitfield db e

/-! ### More memory -/

/-- Whatever is mapped in `m` is mapped in `m'`, with the same content. -/
def Extends (m m' : Mem) : Prop := ∀ a b, m a = some b → m' a = some b

/-- What the first computes, the second computes. -/
def Keeps {α : Type} (x y : Outcome α) : Prop := ∀ r, x = .ok r → y = .ok r

/-- Two tag maps with handlers for the same entries; whatever a handler of the first replies, that
of the second replies, too. -/
def Answering : Option (Ref → Option ValueString.Handler) → Option (Ref → Option ValueString.Handler) → Prop
  | .none, .none => True
  | .some t, .some t' => ∀ r, match t r, t' r with
    | .none, .none => True
    | .some f, .some f' => ∀ ev stack, Keeps (f ev stack) (f' ev stack)
    | _, _ => False
  | _, _ => False

end Verif.Lifecycle.Spec
