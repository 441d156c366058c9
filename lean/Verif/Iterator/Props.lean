import Verif.Iterator.Client
/-
Property theorems for the task iterator (C07-C12).
`Spec.lean` defines which task must be selected (`selected`) and the recursive
function (`eval`, `calls`); `absNode` only forgets everything but inputs, the
ended-flag and the dependents of the record tree, `addr` is the position of the
current task in it.
-/
namespace Verif.Iterator
open Verif
open Verif.Iterator.Spec (Tree)

variable {I O : Type}

/-- States a client can bring the iterator into (without tripping an assertion). -/
def Reachable (it : It I O) : Prop :=
  ∃ inp ops, run (new inp) ops = .ok it

theorem Reachable.inv {it : It I O} (h : Reachable it) : Inv it := by
  obtain ⟨inp, ops, h⟩ := h
  exact inv_run ops (inv_new inp) h

/-- The task tree as the specification sees it. -/
def tasks (it : It I O) : Spec.Task I := absNode (root it)

/-- **C07.** Whatever the client did before: `next` changes nothing in the task tree;
if it returns a task `x`, then the task it now stands on has input `x`, has not ended,
and all of its dependents have; its ancestors have not ended.  If it returns NULL, the
root task has ended or the selected task was created with a NULL input. -/
theorem C07_resumed_only_when_deps_ended (it : It I O) (h : Reachable it) :
    tasks (next it).2 = tasks it ∧
    (∀ x, (next it).1 = some x → ∃ t, Spec.at? (tasks it) (addr (next it).2) = some t ∧
      t.inp = some x ∧ t.ended = false ∧ (∀ d ∈ t.deps, d.ended = true) ∧
      ∀ n, n < (addr (next it).2).length → ∃ a, Spec.at? (tasks it) ((addr (next it).2).take n) = some a ∧
        a.ended = false) ∧
    ((next it).1 = none → (tasks it).ended = true ∨
      ∃ t, Spec.at? (tasks it) (addr (next it).2) = some t ∧ t.inp = none ∧ t.ended = false ∧
        ∀ d ∈ t.deps, d.ended = true) := by
  obtain ⟨h1, h2, _, h4⟩ := next_spec it h.inv.1
  have hroot : tasks (next it).2 = tasks it := by unfold tasks; rw [h1]
  have hat : Spec.at? (tasks it) (addr (next it).2) = some (absNode (next it).2.cur) := by
    rw [← hroot]
    exact at?_rootOf (next it).2.path (next it).2.cur
  have hanc : ∀ (path : List (Frame I O)) (c : Node I O), PathPending path →
      ∀ n, n < (addrOf path).length →
      ∃ a, Spec.at? (absNode (rootOf c path)) ((addrOf path).take n) = some a ∧ a.ended = false := by
    intro path
    induction path with
    | nil => intro c _ n hn; simp [addrOf] at hn
    | cons f fs ih =>
      intro c hp n hn
      rw [addrOf_cons] at hn ⊢
      rw [rootOf]
      by_cases hlt : n < (addrOf fs).length
      · rw [List.take_append_of_le_length (by omega)]
        exact ih _ (fun g hg => hp g (by simp [hg])) n hlt
      · have : n = (addrOf fs).length := by simp at hn; omega
        subst this
        rw [List.take_left, at?_rootOf]
        refine ⟨_, rfl, ?_⟩
        have := (hp f (by simp)).1
        simpa [plug, Node.ended] using this
  refine ⟨hroot, ?_, ?_⟩
  · intro x hx
    refine ⟨_, hat, ?_⟩
    rcases h4 with ⟨g1, _⟩ | ⟨g1, g2, g3⟩
    · rw [g1] at hx; simp at hx
    · refine ⟨by rw [absNode_inp, ← g1, hx], by simpa using g2, ?_, ?_⟩
      · intro d hd
        rw [absNode_deps] at hd
        obtain ⟨y, hy, rfl⟩ := List.mem_map.1 hd
        simpa using g3 y hy
      · intro n hn
        have := hanc (next it).2.path (next it).2.cur h2 n hn
        rw [← hroot]
        exact this
  · intro hx
    rcases h4 with ⟨_, g2, g3⟩ | ⟨g1, g2, g3⟩
    · left
      rw [← hroot]
      simp only [tasks, root, absNode_ended]
      rw [g2]; simpa [rootOf] using g3
    · right
      refine ⟨_, hat, by rw [absNode_inp, ← g1, hx], by simpa using g2, ?_⟩
      intro d hd
      rw [absNode_deps] at hd
      obtain ⟨y, hy, rfl⟩ := List.mem_map.1 hd
      simpa using g3 y hy

/-- **C08.** Whatever the client did before, and wherever the iterator stood: `next`
moves to the task found from the root by descending, at every level, into the first
(in append order) dependent that has not ended; it returns that task's input; it
returns NULL without moving on when the root has ended. -/
theorem C08_next_is_depth_first (it : It I O) (h : Reachable it) :
    match Spec.selected (tasks it) with
    | none => (next it).1 = none ∧ addr (next it).2 = []
    | some a => addr (next it).2 = a ∧ ∃ t, Spec.at? (tasks it) a = some t ∧ (next it).1 = t.inp := by
  obtain ⟨h1, h2, _, h4⟩ := next_spec it h.inv.1
  have hroot : tasks (next it).2 = tasks it := by unfold tasks; rw [h1]
  have hat : Spec.at? (tasks it) (addr (next it).2) = some (absNode (next it).2.cur) := by
    rw [← hroot]
    exact at?_rootOf (next it).2.path (next it).2.cur
  rw [← hroot]
  have hre := rootOf_ended (next it).2.path (next it).2.cur h2
  unfold Spec.selected
  rcases h4 with ⟨g1, g2, g3⟩ | ⟨g1, g2, g3⟩
  · have : (tasks (next it).2).ended = true := by
      simp only [tasks, root, absNode_ended]; rw [hre, g2, g3]; rfl
    simp only [this, if_true]
    exact ⟨g1, by simp [addr, g2]⟩
  · have hne : (tasks (next it).2).ended = false := by
      simp only [tasks, root, absNode_ended]; rw [hre, g2]; simp
    have hdesc : Spec.descend (tasks (next it).2) = addr (next it).2 := by
      have e := descend_rootOf (next it).2.path (next it).2.cur h2 g2
      have e2 : Spec.descend (absNode (next it).2.cur) = [] := by
        rw [descend_eq, absNode_deps]
        have := descendList_append ((next it).2.cur.deps.map absNode) 0 [] (by
          intro d hd
          obtain ⟨y, hy, rfl⟩ := List.mem_map.1 hd
          simpa using g3 y hy)
        simpa [Spec.descendList] using this
      rw [e2, List.append_nil] at e
      exact e
    simp only [hne, Bool.false_eq_true, if_false, hdesc, true_and]
    rw [hroot]
    exact ⟨_, hat, by rw [absNode_inp, g1]⟩

/-- The queue of the current task as a client sees it: input, output, state code of
each dependent. -/
def queue (it : It I O) : List (Option I × Option O × Int) :=
  it.cur.deps.map fun d => (d.data.inp, d.data.out, d.data.state)

/-- **C09 (append).** A successful append adds one not-yet-started dependent at the
end of the queue and leaves the others alone; a failed allocation changes nothing. -/
theorem C09_append_at_end (it : It I O) (h : Reachable it) (i : Option I) (a : Bool)
    (it' : It I O) (rc : Rc) (hs : appendDep it i a = .ok (it', rc)) :
    (rc = .ok ↔ a = true) ∧
    (rc = .ok → queue it' = queue it ++ [(i, none, stStart)]) ∧ (rc = .enomem → it' = it) ∧
    queueSize it' = (queue it').length ∧ (queueIsEmpty it' = true ↔ queue it' = []) := by
  rw [appendDep_spec h.inv] at hs
  have hgen : queueSize it' = (queue it').length ∧ (queueIsEmpty it' = true ↔ queue it' = []) := by
    simp [queueSize, queue, queueIsEmpty]
  split at hs
  · simp at hs
  split at hs
  · rename_i ha
    injection hs with hs
    simp at hs
    obtain ⟨rfl, rfl⟩ := hs
    simp [ha, hgen]
  split at hs
  · simp at hs
  rename_i ha _
  injection hs with hs
  simp only [Prod.mk.injEq] at hs
  obtain ⟨e1, rfl⟩ := hs
  refine ⟨by simpa using ha, ?_, by simp, hgen⟩
  intro _
  rw [← e1]
  simp [queue, newNode]

/-- **C09 (dequeue).** Dequeue on an empty queue returns nothing and changes nothing.
Otherwise it returns output, input and fail flag of the *first* dependent and removes
exactly that one - provided this dependent has ended and has itself been drained;
in any other case the process aborts. -/
theorem C09_dequeue_fifo (it : It I O) (h : Reachable it) :
    (queue it = [] → dequeue it = .ok (it, none)) ∧
    (∀ i o s rest, queue it = (i, o, s) :: rest →
      (isEndState s = false → dequeue it = .abort) ∧
      (∀ it' r, dequeue it = .ok (it', r) →
        isEndState s = true ∧ r = some (o, i, s == stFailed) ∧ queue it' = rest ∧
        addr it' = addr it) ∧
      (isEndState s = true → (∃ d, it.cur.deps.head? = some d ∧ d.deps = []) →
        ∃ it' r, dequeue it = .ok (it', r))) := by
  rw [dequeue_spec h.inv]
  refine ⟨?_, ?_⟩
  · intro hq
    have : it.cur.deps = [] := by simpa [queue] using hq
    rw [this]
  · intro i o s rest hq
    cases hd : it.cur.deps with
    | nil => simp [queue, hd] at hq
    | cons d ds =>
      simp only [queue, hd, List.map_cons, List.cons.injEq, Prod.mk.injEq] at hq
      obtain ⟨⟨rfl, rfl, rfl⟩, rfl⟩ := hq
      have hes : d.ended = isEndState d.data.state := rfl
      refine ⟨?_, ?_, ?_⟩
      · intro he
        simp [hes, he]
      · intro it' r hr
        simp only at hr
        split at hr
        · rename_i hc
          injection hr with hr
          simp only [Prod.mk.injEq] at hr
          obtain ⟨e1, rfl⟩ := hr
          refine ⟨hes ▸ hc.1, rfl, ?_, ?_⟩
          · rw [← e1]; simp [queue]
          · rw [← e1]; simp [addr]
        · simp at hr
      · intro he ⟨d', hd', hdd⟩
        simp at hd'
        subst hd'
        simp [hes, he, hdd]

/-- **C09 (peek).** `get_dep_out(i)` reports output, input and fail flag of the i-th
dependent (which must have ended) and NULL past the end, changing nothing. -/
theorem C09_get_dep_out (it : It I O) (h : Reachable it) (k : Nat) :
    getDepOut it (k : Int) = match (queue it)[k]? with
      | none => .ok none
      | some (i, o, s) => if isEndState s then .ok (some (o, i, s == stFailed)) else .abort := by
  have hn : ∀ (ds : List (Node I O)) (k : Nat), nthDep ds k = ds[k]? := by
    intro ds
    induction ds with
    | nil => intro k; cases k <;> simp [nthDep]
    | cons d ds ih => intro k; cases k <;> simp [nthDep, ih]
  unfold getDepOut
  rw [Int.toNat_natCast, hn]
  unfold queue
  rw [List.getElem?_map]
  cases hd : it.cur.deps[k]? with
  | none => simp
  | some d =>
    have hmem : d ∈ it.cur.deps := List.mem_of_getElem? hd
    have hc := h.inv.cur
    rw [← Node.eta it.cur] at hc
    cases hc with
    | mk _ _ sub _ _ _ _ =>
      have hdo := sub d hmem
      have hno : (d.data.state == stFailed && d.data.out.isSome) = false := by
        cases hdo with
        | mk data deps _ _ _ _ out =>
          by_cases hf : data.state = stDone
          · simp [hf, stDone, stFailed]
          · simp [out hf]
      have hes : d.ended = isEndState d.data.state := rfl
      cases he : isEndState d.data.state with
      | false => simp [entryGetOut, hes, he]
      | true => simp [entryGetOut, hes, he, hno]

/-- **C10.** For every finite tree and every combine function the standard client loop
terminates without tripping an assertion, frees the iterator, and delivers exactly the
value of the plain recursion (or its failure); `combine` is called exactly once per
node, in post-order, with the children's results in order. -/
theorem C10_fold_is_recursion {L R : Type} (combine : L → List (Option R) → Option R) (t : Tree L) :
    ∃ k, ∀ fuel, k ≤ fuel →
      client combine fuel t =
        .ok (some (Spec.eval combine t, (Spec.eval combine t).isNone, Spec.calls combine t)) := by
  obtain ⟨k, n, nu, hfin, _, hinp, _, hloop⟩ := loop_node combine t 0 [] 1 [] (inv_new (some t))
  refine ⟨k, ?_⟩
  intro fuel hk
  obtain ⟨f, rfl⟩ : ∃ f, fuel = f + k := ⟨fuel - k, by omega⟩
  have hnew : (new (some t) : It (Tree L) R) = It.mk (newNode 0 (some t)) [] 1 := rfl
  have hnext : next (It.mk n [] nu : It (Tree L) R) = (none, It.mk n [] nu) := by
    unfold next
    simp [hfin.ended]
  have hl : clientLoop combine (f + k) (new (some t)) [] =
      .ok (some (It.mk n [] nu, Spec.calls combine t)) := by
    rw [hnew, hloop f]
    unfold clientLoop
    rw [hnext]
    simp
  have ho : getOut (It.mk n [] nu : It (Tree L) R) =
      .ok (Spec.eval combine t, some t, (Spec.eval combine t).isNone) := by
    have e1 := hfin.2.1
    have e2 := hfin.2.2
    unfold getOut entryGetOut
    simp only [hfin.ended]
    cases hv : Spec.eval combine t with
    | none => simp [hv, e1, e2, hinp, stFailed]
    | some v => simp [hv, e1, e2, hinp, stFailed, stDone]
  unfold client
  rw [hl]
  simp only [Outcome.bind_ok, ho]
  simp [free, root, rootOf, hfin.1, Outcome.assert]

/-- **C11 (negative).** The header allows a resumed task to add more dependents, but
doing so after the queue was drained aborts the process: append one dependent, run it,
dequeue it, append another. -/
theorem C11_append_after_drain_aborts :
    run (new (some 0) : It Nat Nat)
      [.append (some 1) true, .setState 1, .next, .done (some 7), .next, .dequeue,
       .append (some 2) true] = .abort := by
  have h1 : (next (It.mk (.mk ⟨0, 1, some 0, none, some 1⟩ [newNode 1 (some 1)]) [] 2 : It Nat Nat)).2 =
      It.mk (newNode 1 (some 1)) [⟨⟨0, 1, some 0, none, some 1⟩, [], []⟩] 2 := by
    simp [next, newNode, Node.ended, isEndState, stDone, stFailed, stStart, firstPending]
  have h2 : (next (It.mk (.mk ⟨1, stDone, some 1, some 7, none⟩ [])
      [⟨⟨0, 1, some 0, none, some 1⟩, [], []⟩] 2 : It Nat Nat)).2 =
      It.mk (.mk ⟨0, 1, some 0, none, some 1⟩ [.mk ⟨1, stDone, some 1, some 7, none⟩ []]) [] 2 := by
    simp [next, plug, Node.ended, isEndState, stDone, stFailed, firstPending]
  simp only [run, step, new, appendDep, newNode, Node.ended, Node.data_mk, Node.deps_mk, setState, done,
    Outcome.bind_ok, Outcome.pure_eq] at *
  simp [isEndState, stStart, stError, stDone, stFailed] at *
  rw [h1]
  simp
  rw [h2]
  simp [dequeue, Node.ended, isEndState, stDone, stFailed, entryGetOut, Outcome.assert]

/-- **C11, partial.** In every reachable state, appending from a task that has not
ended never aborts as long as the task still has a dependent queued, or never had one;
in particular any number of appends in a row is safe.  (Full property: append never
aborts; missing: the case of a drained queue, where the code aborts, see above.) -/
theorem C11_append_never_aborts_partial (it : It I O) (h : Reachable it) (i : Option I) (a : Bool)
    (hne : isEndState (getState it) = false)
    (hq : queue it ≠ [] ∨ it.cur.data.lastDep = none) :
    ∃ it' rc, appendDep it i a = .ok (it', rc) := by
  rw [appendDep_spec h.inv]
  have he : it.cur.ended = false := hne
  rw [if_neg (by simp [he])]
  split
  · exact ⟨_, _, rfl⟩
  · rw [if_neg]
    · exact ⟨_, _, rfl⟩
    · rintro ⟨h1, h2⟩
      rcases hq with hq | hq
      · apply hq; simp [queue, h1]
      · exact h2 hq

/-- **C12.** `level` is the depth of the current task in the task tree; `get_in(k)` is
the input of its k-th ancestor (0 is the task itself) for 0 ≤ k ≤ level and NULL for
every other k; the ancestors have not ended. -/
theorem C12_level_and_get_in (it : It I O) (h : Reachable it) :
    level it = (addr it).length ∧
    (∀ k : Nat, k ≤ level it → ∃ t, Spec.at? (tasks it) ((addr it).take (level it - k)) = some t ∧
      getIn it k = t.inp ∧ (0 < k → t.ended = false)) ∧
    (∀ k : Int, k < 0 ∨ (level it : Int) < k → getIn it k = none) := by
  refine ⟨by simp [level, addr], ?_, ?_⟩
  · have key : ∀ (path : List (Frame I O)) (c : Node I O) (lvl : Int) (k : Nat), PathPending path → k ≤ path.length →
        ∃ t, Spec.at? (absNode (rootOf c path)) ((addrOf path).take (path.length - k)) = some t ∧
          getInLoop (lvl + k) lvl c.data.inp path = t.inp ∧ (0 < k → t.ended = false) := by
      intro path
      induction path with
      | nil =>
        intro c lvl k _ hk
        have hk0 : k = 0 := by simpa using hk
        subst hk0
        exact ⟨absNode c, by simp [rootOf, addrOf, Spec.at?], by simp [getInLoop], by simp⟩
      | cons f fs ih =>
        intro c lvl k hp hk
        cases k with
        | zero =>
          refine ⟨absNode c, ?_, by simp [getInLoop], by simp⟩
          have := at?_rootOf (f :: fs) c
          rw [List.take_of_length_le (by simp [addrOf])]
          exact this
        | succ k =>
          simp only [List.length_cons, Nat.add_le_add_iff_right] at hk
          obtain ⟨t, h1, h2, h3⟩ := ih (plug f c) (lvl + 1) k (fun g hg => hp g (by simp [hg])) hk
          refine ⟨t, ?_, ?_, ?_⟩
          · rw [rootOf, addrOf_cons, List.take_append_of_le_length (by simp [addrOf])]
            simpa using h1
          · rw [getInLoop, if_neg (by omega)]
            rw [← h2]
            congr 1
            push_cast; omega
          · intro _
            by_cases hk0 : 0 < k
            · exact h3 hk0
            · have : k = 0 := by omega
              subst this
              have h4 := at?_rootOf fs (plug f c)
              rw [List.take_of_length_le (by simp [addrOf])] at h1
              rw [h4] at h1
              injection h1 with h1
              rw [← h1]
              have := (hp f (by simp)).1
              simpa [plug, Node.ended] using this
    intro k hk
    have := key it.path it.cur 0 k h.inv.1 hk
    simpa [tasks, root, level, getIn, addr, addrOf] using this
  · have key : ∀ (path : List (Frame I O)) (i : Option I) (lvl k : Int),
        (k < lvl ∨ lvl + path.length < k) → getInLoop k lvl i path = none := by
      intro path
      induction path with
      | nil =>
        intro i lvl k hk
        rw [getInLoop, if_neg (by simp at hk; omega)]
      | cons f fs ih =>
        intro i lvl k hk
        rw [getInLoop, if_neg (by simp at hk; omega)]
        apply ih
        simp at hk; omega
    intro k hk
    apply key
    simpa [level] using hk

/-- **C50.** `set_state(s)` on a task that has not ended: -1 is refused (NULL returned,
nothing changes); every other value is stored and read back by `get_state`.  `done(o)`
and `fail` end the task with output `o` / without output, as `get_out` then reports.
On a task that has ended all three abort.  Only the current record's state and output
change: its input, its queue, its position and all other records stay. -/
theorem C50_state_changes (it : It I O) (h : Reachable it) :
    (isEndState (getState it) = true → (∀ s, s ≠ -1 → setState it s = .abort) ∧
      (∀ o, done it o = .abort) ∧ fail it = .abort) ∧
    setState it (-1) = .ok (it, false) ∧
    (isEndState (getState it) = false →
      (∀ s, s ≠ -1 → ∃ it', setState it s = .ok (it', true) ∧ getState it' = s ∧
        it'.path = it.path ∧ queue it' = queue it ∧ getIn it' 0 = getIn it 0) ∧
      (∀ o, ∃ it', done it o = .ok (it', true) ∧ getOut it' = .ok (o, getIn it 0, false) ∧
        it'.path = it.path ∧ queue it' = queue it) ∧
      (∃ it', fail it = .ok (it', true) ∧ getOut it' = .ok (none, getIn it 0, true) ∧
        it'.path = it.path ∧ queue it' = queue it)) := by
  have hgi : getIn it 0 = it.cur.data.inp := by
    unfold getIn; cases it.path <;> simp [getInLoop]
  refine ⟨?_, by simp [setState, stError], ?_⟩
  · intro he
    have he : it.cur.ended = true := he
    refine ⟨?_, ?_, ?_⟩
    · intro s hs; simp [setState, stError, hs, he]
    · intro o; simp [done, he]
    · simp [fail, setState, stError, stFailed, he]
  · intro he
    have hno := h.inv.out_none (show it.cur.ended = false from he)
    have he : it.cur.ended = false := he
    refine ⟨?_, ?_, ?_⟩
    · intro s hs
      refine ⟨{ it with cur := .mk { it.cur.data with state := s } it.cur.deps },
        by simp [setState, stError, hs, he], rfl, rfl, rfl, ?_⟩
      rw [hgi]
      unfold getIn; cases it.path <;> simp [getInLoop]
    · intro o
      refine ⟨{ it with cur := .mk { it.cur.data with out := o, state := stDone } it.cur.deps },
        ?_, ?_, rfl, rfl⟩
      · have he' : isEndState it.cur.data.state = false := he
        simp [done, setState, stError, stDone, he, Node.ended, he']
      · rw [hgi]
        simp [getOut, entryGetOut, Node.ended, isEndState, stDone, stFailed]
    · refine ⟨{ it with cur := .mk { it.cur.data with state := stFailed } it.cur.deps },
        ?_, ?_, rfl, rfl⟩
      · simp [fail, setState, stError, stFailed, he]
      · rw [hgi]
        simp [getOut, entryGetOut, Node.ended, isEndState, stDone, stFailed, hno]

/-! ### Concrete, non-trivial instances -/

/-- A three-level history: root with two dependents, the first of which has one of its own. -/
def exOps : List (Op Nat Nat) :=
  [.append (some 1) true, .append (some 2) true, .setState 1, .next,
   .append (some 3) true, .setState 1, .next, .done (some 30), .next, .dequeue, .fail]

/-- C07/C08/C09/C11/C12: a reachable state; its next task is the second dependent. -/
example : ∃ it : It Nat Nat, Reachable it ∧ (next it).1 = some 2 ∧ addr (next it).2 = [1] ∧
    Spec.selected (tasks it) = some [1] := by
  refine ⟨It.mk (.mk ⟨1, stFailed, some 1, none, some 3⟩ [])
    [⟨⟨0, 1, some 0, none, some 2⟩, [], [newNode 2 (some 2)]⟩] 4, ⟨some 0, exOps, ?_⟩, ?_, ?_, ?_⟩
  · have h1 : (next (It.mk (.mk ⟨0, 1, some 0, none, some 2⟩ [newNode 1 (some 1), newNode 2 (some 2)]) [] 3 :
        It Nat Nat)).2 = It.mk (newNode 1 (some 1)) [⟨⟨0, 1, some 0, none, some 2⟩, [], [newNode 2 (some 2)]⟩] 3 := by
      simp [next, newNode, Node.ended, isEndState, stDone, stFailed, stStart, firstPending]
    have h2 : (next (It.mk (.mk ⟨1, 1, some 1, none, some 3⟩ [newNode 3 (some 3)])
        [⟨⟨0, 1, some 0, none, some 2⟩, [], [newNode 2 (some 2)]⟩] 4 : It Nat Nat)).2 =
        It.mk (newNode 3 (some 3)) [⟨⟨1, 1, some 1, none, some 3⟩, [], []⟩,
          ⟨⟨0, 1, some 0, none, some 2⟩, [], [newNode 2 (some 2)]⟩] 4 := by
      simp [next, newNode, Node.ended, isEndState, stDone, stFailed, stStart, firstPending]
    have h3 : (next (It.mk (.mk ⟨3, stDone, some 3, some 30, none⟩ []) [⟨⟨1, 1, some 1, none, some 3⟩, [], []⟩,
          ⟨⟨0, 1, some 0, none, some 2⟩, [], [newNode 2 (some 2)]⟩] 4 : It Nat Nat)).2 =
        It.mk (.mk ⟨1, 1, some 1, none, some 3⟩ [.mk ⟨3, stDone, some 3, some 30, none⟩ []])
          [⟨⟨0, 1, some 0, none, some 2⟩, [], [newNode 2 (some 2)]⟩] 4 := by
      simp [next, newNode, Node.ended, isEndState, stDone, stFailed, firstPending, plug]
    simp only [exOps, run, step, new, appendDep, newNode, Node.ended, Node.data_mk, Node.deps_mk, setState, done,
      Outcome.bind_ok, Outcome.pure_eq] at *
    simp [isEndState, stStart, stError, stDone, stFailed, insertAfter] at *
    rw [h1]; simp
    rw [h2]; simp
    rw [h3]
    simp [dequeue, fail, setState, Node.ended, isEndState, stDone, stFailed, stError, entryGetOut, Outcome.assert]
  all_goals
    simp [next, newNode, Node.ended, isEndState, stStart, stDone, stFailed, firstPending, plug, addr,
      Spec.selected, tasks, root, rootOf, absNode, absNode.absNodes, Spec.Task.ended, Spec.descend, Spec.descendList]

/-- C10: summing a tree; a node labelled 0 fails. -/
example : ∃ k, client (fun l rs => if l = 0 then none else some (l + (rs.map (·.getD 100)).sum)) k
    (.node 1 [.node 2 [.node 3 []], .node 0 []]) =
    .ok (some (some 106, false, [(3, []), (2, [some 3]), (0, []), (1, [some 5, none])])) := by
  obtain ⟨k, hk⟩ := C10_fold_is_recursion
    (fun l rs => if l = 0 then none else some (l + (rs.map (·.getD 100)).sum))
    (.node 1 [.node 2 [.node 3 []], .node 0 []])
  refine ⟨k, (hk k (Nat.le_refl _)).trans ?_⟩
  simp [Spec.eval, Spec.evals, Spec.calls, Spec.callss]

end Verif.Iterator
