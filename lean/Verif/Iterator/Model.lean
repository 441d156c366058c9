import Verif.Common
/-
Model of /repo/src/iterator.c (the recursive task iterator).

The C structure is a tree of heap records with parent pointers and an intrusive
list of dependents; `p_current` points into it.  Here the tree together with the
current position is a zipper: the current record, and for every ancestor a frame
holding that ancestor's own fields and the dependents before and after the one
we are in.  A record carries a unique id standing for its heap address, so that
`last_dep` (a raw pointer, which the code lets dangle) can be modelled faithfully.

* `void *` values are `Option I` / `Option O`; `none` is NULL.
* The client-private `p_context` slot (only stored and returned) is not modelled.
* NULL iterator arguments (`-EINVAL` / NULL returns) are not modelled.
-/
namespace Verif.Iterator
open Verif

/-- src/iterator.c:12-22, the record fields except parent and dependents. -/
structure Data (I O : Type) where
  uid : Nat
  state : Int
  inp : Option I
  out : Option O
  lastDep : Option Nat
deriving DecidableEq, Repr

/-- src/iterator.c:12-22, a record with its list of dependents. -/
inductive Node (I O : Type) where
  | mk (data : Data I O) (deps : List (Node I O))

namespace Node
variable {I O : Type}
def data : Node I O → Data I O | mk d _ => d
def deps : Node I O → List (Node I O) | mk _ ds => ds
@[simp] theorem data_mk (d : Data I O) (ds : List (Node I O)) : (mk d ds).data = d := rfl
@[simp] theorem deps_mk (d : Data I O) (ds : List (Node I O)) : (mk d ds).deps = ds := rfl
theorem eta (n : Node I O) : mk n.data n.deps = n := by cases n; rfl
end Node

variable {I O : Type}

/-- include/metac/backend/iterator.h:84-91: the reserved states. -/
def stStart : Int := 0
def stError : Int := -1
def stDone : Int := -2
def stFailed : Int := -3

/-- include/metac/backend/iterator.h:94-96 `metac_r_iter_state_is_end`. -/
def isEndState (s : Int) : Bool := s == stDone || s == stFailed

def Node.ended (n : Node I O) : Bool := isEndState n.data.state

/-- One ancestor: its fields, its dependents before and after the one we are in. -/
structure Frame (I O : Type) where
  data : Data I O
  left : List (Node I O)
  right : List (Node I O)

/-- src/iterator.c:72-75 `struct metac_recursive_iterator`; `path` lists the
ancestors of `p_current`, nearest first.  `nextUid` supplies fresh addresses. -/
structure It (I O : Type) where
  cur : Node I O
  path : List (Frame I O)
  nextUid : Nat

/-- src/iterator.c:25-36,42-44: a calloc-ed record: state 0, no output, no dependents. -/
def newNode (uid : Nat) (inp : Option I) : Node I O :=
  .mk { uid := uid, state := stStart, inp := inp, out := none, lastDep := none } []

/-- src/iterator.c:77-85 `metac_new_recursive_iterator` (allocation succeeded). -/
def new (inp : Option I) : It I O := { cur := newNode 0 inp, path := [], nextUid := 1 }

/-- src/iterator.c:104: `p_current = p_current->p_parent`. -/
def plug (f : Frame I O) (n : Node I O) : Node I O := .mk f.data (f.left ++ n :: f.right)

/-- src/iterator.c:113-122: the first dependent that has not ended. -/
def firstPending : List (Node I O) → Option (List (Node I O) × Node I O × List (Node I O))
  | [] => none
  | d :: ds =>
    if !d.ended then some ([], d, ds)
    else (firstPending ds).map fun (l, x, r) => (d :: l, x, r)

def Node.size : Node I O → Nat
  | .mk _ ds => 1 + sizes ds
where sizes : List (Node I O) → Nat
  | [] => 0
  | d :: ds => d.size + sizes ds

theorem firstPending_size {ds l r : List (Node I O)} {x : Node I O}
    (h : firstPending ds = some (l, x, r)) : x.size < 1 + Node.size.sizes ds := by
  induction ds generalizing l r with
  | nil => simp [firstPending] at h
  | cons d ds ih =>
    unfold firstPending at h
    split at h
    · simp at h; obtain ⟨_, rfl, _⟩ := h
      simp [Node.size.sizes]; omega
    · simp at h
      obtain ⟨a, x', b, h1, h2⟩ := h
      have h3 : x' = x := h2.2.1
      subst h3
      have := ih h1
      simp [Node.size.sizes]; omega

/-- src/iterator.c:92-133 `metac_recursive_iterator_next`: the do-while loop.
The result pointer is `none` (NULL) both at the end and when the task's `p_in` is
NULL - the client cannot tell these apart, exactly as in C. -/
def next (it : It I O) : Option I × It I O :=
  if it.cur.ended then
    match _hp : it.path with
    | [] => (none, it)
    | f :: fs => next { it with cur := plug f it.cur, path := fs }
  else
    match _hf : firstPending it.cur.deps with
    | none => (it.cur.data.inp, it)
    | some (l, d, r) =>
      next { it with cur := d, path := { data := it.cur.data, left := l, right := r } :: it.path }
termination_by (if it.cur.ended then 1 else 0, if it.cur.ended then it.path.length else it.cur.size)
decreasing_by
  · rename_i h
    simp only [h, if_true]
    by_cases h2 : (plug f it.cur).ended = true
    · simp [h2, _hp]; exact Prod.Lex.right _ (by simp)
    · simp [h2]; exact Prod.Lex.left _ _ (by omega)
  · rename_i h
    have hd : d.ended = false := by
      have : ∀ (ds l r : List (Node I O)) (x : Node I O),
          firstPending ds = some (l, x, r) → x.ended = false := by
        intro ds
        induction ds with
        | nil => intro l r x hx; simp [firstPending] at hx
        | cons y ys ih =>
          intro l r x hx
          unfold firstPending at hx
          split at hx
          · rename_i hy; simp at hx; obtain ⟨_, rfl, _⟩ := hx; simpa using hy
          · simp at hx
            obtain ⟨a, x', b, h1, h2⟩ := hx
            have h3 : x' = x := h2.2.1
            subst h3
            exact ih _ _ _ h1
      exact this _ _ _ _ _hf
    have hs := firstPending_size _hf
    have hc : it.cur.size = 1 + Node.size.sizes it.cur.deps := by
      cases hcur : it.cur with
      | mk a b => simp [Node.size, Node.deps]
    simp only [h, hd]
    simp
    exact Prod.Lex.right _ (by omega)

/-- src/iterator.c:153-166 `metac_recursive_iterator_level`. -/
def level (it : It I O) : Nat := it.path.length

/-- src/iterator.c:176-185: the loop of `get_in`; `lvl` counts up while walking to
the root. -/
def getInLoop (req lvl : Int) (inp : Option I) : List (Frame I O) → Option I
  | [] => if lvl = req then inp else none
  | f :: fs => if lvl = req then inp else getInLoop req (lvl + 1) f.data.inp fs

/-- src/iterator.c:168-186 `metac_recursive_iterator_get_in`. -/
def getIn (it : It I O) (req : Int) : Option I := getInLoop req 0 it.cur.data.inp it.path

/-- src/iterator.c:196-202 `metac_recursive_iterator_get_state`. -/
def getState (it : It I O) : Int := it.cur.data.state

/-- src/iterator.c:204-212 `metac_recursive_iterator_set_state`; the flag is
"returned non-NULL". -/
def setState (it : It I O) (s : Int) : Outcome (It I O × Bool) :=
  if s = stError then .ok (it, false)
  else if it.cur.ended then .abort
  else .ok ({ it with cur := .mk { it.cur.data with state := s } it.cur.deps }, true)

/-- src/iterator.c:214-216 `metac_recursive_iterator_fail`. -/
def fail (it : It I O) : Outcome (It I O × Bool) := setState it stFailed

/-- src/iterator.c:218-226 `metac_recursive_iterator_done`. -/
def done (it : It I O) (out : Option O) : Outcome (It I O × Bool) :=
  if it.cur.ended then .abort
  else setState { it with cur := .mk { it.cur.data with out := out } it.cur.deps } stDone

/-- include/metac/backend/list.h LIST_INSERT_AFTER on a list of records: insert
after the record with address `uid`; `none` when that record is not in the list
(a dangling `last_dep`). -/
def insertAfter (uid : Nat) (x : Node I O) : List (Node I O) → Option (List (Node I O))
  | [] => none
  | d :: ds => if d.data.uid = uid then some (d :: x :: ds) else (insertAfter uid x ds).map (d :: ·)

/-- Result code of append. -/
inductive Rc where | ok | enomem
deriving DecidableEq, Repr

/-- src/iterator.c:250-272 `metac_recursive_iterator_create_and_append_dep`;
`a` is the calloc outcome. -/
def appendDep (it : It I O) (inp : Option I) (a : Bool) : Outcome (It I O × Rc) :=
  if it.cur.ended then .abort
  else if !a then .ok (it, .enomem)
  else
    let x : Node I O := newNode it.nextUid inp
    match it.cur.deps with
    | [] =>
      if it.cur.data.lastDep.isSome then .abort
      else .ok ({ it with cur := .mk { it.cur.data with lastDep := some it.nextUid } [x],
                          nextUid := it.nextUid + 1 }, .ok)
    | d :: ds =>
      match it.cur.data.lastDep with
      | none => .abort
      | some u =>
        match insertAfter u x (d :: ds) with
        | none => .ub
        | some ds' =>
          .ok ({ it with cur := .mk { it.cur.data with lastDep := some it.nextUid } ds',
                         nextUid := it.nextUid + 1 }, .ok)

/-- src/iterator.c:51-70 `metac_recursive_iterator_entry_get_out`: output, input, fail flag. -/
def entryGetOut (n : Node I O) : Outcome (Option O × Option I × Bool) :=
  if !n.ended then .abort
  else
    let failed := n.data.state == stFailed
    if failed && n.data.out.isSome then .abort
    else .ok (n.data.out, n.data.inp, failed)

/-- src/iterator.c:188-194 `metac_recursive_iterator_get_out`. -/
def getOut (it : It I O) : Outcome (Option O × Option I × Bool) := entryGetOut it.cur

/-- src/iterator.c:274-291 `metac_recursive_iterator_dequeue_and_delete_dep`.
`none`: queue empty, NULL returned and `*pp_in`, `*p_fail` untouched. -/
def dequeue (it : It I O) : Outcome (It I O × Option (Option O × Option I × Bool)) :=
  match it.cur.deps with
  | [] => .ok (it, none)
  | d :: ds => do
    Outcome.assert d.ended
    let r ← entryGetOut d
    Outcome.assert d.deps.isEmpty      -- L39, on freeing the record
    return ({ it with cur := .mk it.cur.data ds }, some r)

/-- src/iterator.c:304-310: walk `i` steps along the dependents. -/
def nthDep : List (Node I O) → Nat → Option (Node I O)
  | [], _ => none
  | d :: _, 0 => some d
  | _ :: ds, i + 1 => nthDep ds i

/-- src/iterator.c:293-313 `metac_recursive_iterator_get_dep_out`; a negative index
behaves like 0 (the `while (i > 0)` loop is not entered). -/
def getDepOut (it : It I O) (i : Int) : Outcome (Option (Option O × Option I × Bool)) :=
  match nthDep it.cur.deps i.toNat with
  | none => .ok none
  | some d => do let r ← entryGetOut d; return some r

/-- src/iterator.c:236-248 `metac_recursive_iterator_dep_queue_size`. -/
def queueSize (it : It I O) : Nat := it.cur.deps.length

/-- src/iterator.c:228-234 `metac_recursive_iterator_dep_queue_is_empty`. -/
def queueIsEmpty (it : It I O) : Bool := it.cur.deps.isEmpty

/-- src/iterator.c:87-90 `metac_recursive_iterator_free` (asserts that the root's
queue is empty; `p_current` need not be the root, the root is the embedded record). -/
def rootOf (n : Node I O) : List (Frame I O) → Node I O
  | [] => n
  | f :: fs => rootOf (plug f n) fs

def root (it : It I O) : Node I O := rootOf it.cur it.path

def free (it : It I O) : Outcome Unit := Outcome.assert (root it).deps.isEmpty

/-- The calls a client can make (`Bool`: calloc outcome). -/
inductive Op (I O : Type) where
  | next
  | append (inp : Option I) (a : Bool)
  | setState (s : Int)
  | done (out : Option O)
  | fail
  | dequeue

/-- Effect of one call on the iterator. -/
def step (it : It I O) : Op I O → Outcome (It I O)
  | .next => .ok (next it).2
  | .append i a => do let r ← appendDep it i a; return r.1
  | .setState s => do let r ← setState it s; return r.1
  | .done o => do let r ← done it o; return r.1
  | .fail => do let r ← fail it; return r.1
  | .dequeue => do let r ← dequeue it; return r.1

/-- A client: a sequence of calls. -/
def run (it : It I O) : List (Op I O) → Outcome (It I O)
  | [] => .ok it
  | op :: ops => do let it' ← step it op; run it' ops

end Verif.Iterator
