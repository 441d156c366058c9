import Verif.Common
/-
Allocator used by the models of code that allocates and frees.  `fails k` says whether
the `k`-th allocation request fails: theorems quantify over it.
-/
namespace Verif

/-- `calloc`/`free` bookkeeping: block identities are request numbers. -/
structure Heap where
  next : Nat
  live : Nat → Bool
  fails : Nat → Bool

namespace Heap

/-- `calloc`: NULL (`none`) or a new block. -/
def alloc (h : Heap) : Option Nat × Heap :=
  if h.fails h.next then (none, { h with next := h.next + 1 })
  else (some h.next, { h with next := h.next + 1, live := fun x => x == h.next || h.live x })

/-- `free`: undefined unless the block is live. -/
def free (b : Nat) (h : Heap) : Outcome Heap :=
  if h.live b then .ok { h with live := fun x => x != b && h.live x } else .ub

/-- Block identities at or above `next` have not been given out. -/
def Ok (h : Heap) : Prop := ∀ x, h.live x = true → x < h.next

/-- All allocations fail / none does. -/
def empty (fails : Nat → Bool) : Heap := ⟨0, fun _ => false, fails⟩

end Heap
end Verif
