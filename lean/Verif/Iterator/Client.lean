import Verif.Iterator.Lemmas
/-
The standard client loop of the iterator, as documented in
/repo/include/metac/backend/iterator.h:28-75 and used by src/entry_cdecl.c,
src/value_string.c and src/value_deep.c: in the start state append one dependent per
child and move to state 1; when resumed, dequeue every result, combine them and
finish (done with the result, or fail).
-/
namespace Verif.Iterator
open Verif
open Verif.Iterator.Spec (Tree)

variable {L R : Type}

/-- iterator.h:45-47: append one dependent per child (allocations succeed). -/
def appendAll (it : It (Tree L) R) : List (Tree L) → Outcome (It (Tree L) R)
  | [] => .ok it
  | c :: cs => do
    let r ← appendDep it (some c) true
    appendAll r.1 cs

/-- Dequeue until the queue is empty, collecting (result, failed); a client turns a
failed dependent into `none`.  Structural on the number of dependents. -/
def dequeueAll (it : It (Tree L) R) : Nat → Outcome (It (Tree L) R × List (Option R))
  | 0 => .ok (it, [])
  | n + 1 => do
    let (it1, r) ← dequeue it
    match r with
    | none => return (it1, [])
    | some (out, _, failed) =>
      let (it2, rs) ← dequeueAll it1 n
      return (it2, (if failed then none else out) :: rs)

/-- One pass of the `for` body of iterator.h:35-75 after `next` returned task `t`.
`log` records the calls of `combine`. -/
def body (combine : L → List (Option R) → Option R) (t : Tree L) (it : It (Tree L) R)
    (log : List (L × List (Option R))) :
    Outcome (It (Tree L) R × List (L × List (Option R))) :=
  match t with
  | .node l cs =>
    if getState it = stStart then do
      let it1 ← appendAll it cs
      let r ← setState it1 (getState it1 + 1)
      return (r.1, log)
    else do
      let (it1, rs) ← dequeueAll it (queueSize it)
      match combine l rs with
      | some out => do let r ← done it1 (some out); return (r.1, log ++ [(l, rs)])
      | none => do let r ← fail it1; return (r.1, log ++ [(l, rs)])

/-- The whole `for` loop; `fuel` bounds the number of passes, `none`: still running. -/
def clientLoop (combine : L → List (Option R) → Option R) :
    Nat → It (Tree L) R → List (L × List (Option R)) →
      Outcome (Option (It (Tree L) R × List (L × List (Option R))))
  | fuel, it, log =>
    match next it with
    | (none, it') => .ok (some (it', log))
    | (some t, it') =>
      match fuel with
      | 0 => .ok none
      | f + 1 => do
        let r ← body combine t it' log
        clientLoop combine f r.1 r.2

/-- What a client does: create the iterator on a tree, loop, take the output of the
root, free the iterator. -/
def client (combine : L → List (Option R) → Option R) (fuel : Nat) (t : Tree L) :
    Outcome (Option (Option R × Bool × List (L × List (Option R)))) := do
  match ← clientLoop combine fuel (new (some t)) [] with
  | none => return none
  | some (it, log) =>
    let (out, _, failed) ← getOut it
    free it
    return some (out, failed, log)

/-! ### Proof that the loop computes the recursive function -/

/-- A finished dependent with result `r`. -/
def Finished (r : Option R) (n : Node (Tree L) R) : Prop :=
  n.deps = [] ∧ n.data.out = r ∧ n.data.state = (if r.isSome then stDone else stFailed)

/-- Finished dependents with results `rs`, in order. -/
inductive AllFinished : List (Option R) → List (Node (Tree L) R) → Prop where
  | nil : AllFinished [] []
  | cons {r : Option R} {n : Node (Tree L) R} {rs : List (Option R)} {ns : List (Node (Tree L) R)} :
      Finished r n → AllFinished rs ns → AllFinished (r :: rs) (n :: ns)

theorem Finished.ended {r : Option R} {n : Node (Tree L) R} (h : Finished r n) : n.ended = true := by
  simp only [Node.ended, isEndState, h.2.2]; cases r <;> simp

theorem next_of_fresh (it : It (Tree L) R) (he : it.cur.ended = false) (hd : ∀ d ∈ it.cur.deps, d.ended = true) :
    next it = (it.cur.data.inp, it) := by
  unfold next
  simp only [he, Bool.false_eq_true, if_false]
  split
  · rfl
  · rename_i h2; rw [firstPending_all hd] at h2; simp at h2

theorem next_down (it : It (Tree L) R) (l r : List (Node (Tree L) R)) (d : Node (Tree L) R)
    (he : it.cur.ended = false) (hds : it.cur.deps = l ++ d :: r) (hl : ∀ d ∈ l, d.ended = true)
    (hd : d.ended = false) :
    next it = next { it with cur := d, path := { data := it.cur.data, left := l, right := r } :: it.path } := by
  conv => lhs; unfold next
  simp only [he, Bool.false_eq_true, if_false]
  split
  · rename_i h2; rw [hds, firstPending_append hl hd] at h2; simp at h2
  · rename_i l' d' r' h2
    rw [hds, firstPending_append hl hd] at h2
    simp at h2
    obtain ⟨rfl, rfl, rfl⟩ := h2
    rfl

theorem next_up (it : It (Tree L) R) (f : Frame (Tree L) R) (fs : List (Frame (Tree L) R))
    (he : it.cur.ended = true) (hp : it.path = f :: fs) :
    next it = next { it with cur := plug f it.cur, path := fs } := by
  conv => lhs; unfold next
  simp only [he, if_true]
  split
  · rename_i h2; rw [hp] at h2; simp at h2
  · rename_i f' fs' h2
    rw [hp] at h2
    simp at h2
    obtain ⟨rfl, rfl⟩ := h2
    rfl

theorem clientLoop_next_congr (combine : L → List (Option R) → Option R) (fuel : Nat)
    (it it' : It (Tree L) R) (log : List (L × List (Option R))) (h : next it = next it') :
    clientLoop combine fuel it log = clientLoop combine fuel it' log := by
  unfold clientLoop; rw [h]

/-- Dependents as created for the children `cs`, with consecutive addresses. -/
def freshDeps (u : Nat) : List (Tree L) → List (Node (Tree L) R)
  | [] => []
  | c :: cs => newNode u (some c) :: freshDeps (u + 1) cs

theorem appendAll_spec (cs : List (Tree L)) (it : It (Tree L) R) (h : Inv it) (he : it.cur.ended = false)
    (hok : it.cur.deps = [] → it.cur.data.lastDep = none) :
    ∃ ld u', appendAll it cs = .ok (It.mk
        (.mk ⟨it.cur.data.uid, it.cur.data.state, it.cur.data.inp, it.cur.data.out, ld⟩
          (it.cur.deps ++ freshDeps it.nextUid cs)) it.path u') ∧
      Inv (It.mk
        (.mk ⟨it.cur.data.uid, it.cur.data.state, it.cur.data.inp, it.cur.data.out, ld⟩
          (it.cur.deps ++ freshDeps it.nextUid cs)) it.path u') := by
  induction cs generalizing it with
  | nil =>
    refine ⟨it.cur.data.lastDep, it.nextUid, ?_⟩
    have e : It.mk (.mk ⟨it.cur.data.uid, it.cur.data.state, it.cur.data.inp, it.cur.data.out,
        it.cur.data.lastDep⟩ it.cur.deps) it.path it.nextUid = it := by
      cases it with
      | mk c p n => cases c; rfl
    simp only [appendAll, freshDeps, List.append_nil, e]
    exact ⟨trivial, h⟩
  | cons c cs ih =>
    have ha := appendDep_spec h (some c) true
    rw [if_neg (by simp [he]), if_neg (by simp), if_neg (by
      intro hx; exact hx.2 (hok hx.1))] at ha
    have hinv := inv_append h ha
    obtain ⟨ld, u', h1, h2⟩ := ih _ hinv (by simpa [Node.ended] using he) (by simp)
    refine ⟨ld, u', ?_, ?_⟩
    · simp only [appendAll, ha, Outcome.bind_ok, h1]
      simp [freshDeps]
    · simpa [freshDeps] using h2

theorem dequeueAll_spec (ns : List (Node (Tree L) R)) (rs : List (Option R)) (it : It (Tree L) R)
    (h : Inv it) (hds : it.cur.deps = ns) (hf : AllFinished rs ns) :
    dequeueAll it ns.length = .ok (It.mk (.mk it.cur.data []) it.path it.nextUid, rs) := by
  induction hf generalizing it with
  | nil =>
    have e : It.mk (.mk it.cur.data []) it.path it.nextUid = it := by
      rw [← hds, Node.eta]
    simp [dequeueAll, e]
  | cons hh ht ih =>
    rename_i r n rs ns
    have hd := dequeue_spec h
    rw [hds] at hd
    simp only [hh.ended, hh.1, and_self, if_true] at hd
    have hinv := inv_dequeue h hd
    have := ih _ hinv rfl
    simp only [List.length_cons, dequeueAll, hd, Outcome.bind_ok, this, Outcome.pure_eq]
    have e1 := hh.2.1
    have e2 := hh.2.2
    cases r with
    | none => simp [e2, stFailed]
    | some v => simp [e1, e2, stFailed, stDone]

theorem AllFinished.ended {rs : List (Option R)} {ns : List (Node (Tree L) R)} (h : AllFinished rs ns) :
    ∀ d ∈ ns, d.ended = true := by
  induction h with
  | nil => simp
  | cons a _ ih =>
    intro d hd
    rcases List.mem_cons.1 hd with rfl | hd
    · exact a.ended
    · exact ih d hd

mutual
theorem loop_node (combine : L → List (Option R) → Option R) :
    ∀ (t : Tree L) (u : Nat) (path : List (Frame (Tree L) R)) (nu : Nat)
      (log : List (L × List (Option R))),
    Inv (It.mk (newNode u (some t)) path nu : It (Tree L) R) →
    ∃ (k : Nat) (n : Node (Tree L) R) (nu' : Nat),
      Finished (Spec.eval combine t) n ∧ n.data.uid = u ∧ n.data.inp = some t ∧
      Inv (It.mk n path nu' : It (Tree L) R) ∧
      ∀ fuel, clientLoop combine (fuel + k) (It.mk (newNode u (some t)) path nu) log =
        clientLoop combine fuel (It.mk n path nu') (log ++ Spec.calls combine t)
  | .node l cs, u, path, nu, log, hinv => by
    -- start state: append the children
    have he : (newNode u (some (Tree.node l cs)) : Node (Tree L) R).ended = false := by
      simp [newNode, Node.ended, isEndState, stStart, stDone, stFailed]
    obtain ⟨ld, u1, happ, hinv0⟩ := appendAll_spec cs _ hinv he (by simp [newNode])
    simp only [newNode, Node.data_mk, Node.deps_mk, List.nil_append] at happ hinv0
    have hset : setState (It.mk (.mk ⟨u, stStart, some (.node l cs), none, ld⟩ (freshDeps nu cs)) path u1 : It (Tree L) R)
        (stStart + 1) = .ok (It.mk (.mk ⟨u, 1, some (.node l cs), none, ld⟩ (freshDeps nu cs)) path u1, true) := by
      simp [setState, stError, stStart, Node.ended, isEndState, stDone, stFailed]
    have hinv1 := inv_setState' hinv0 hset
    -- run the children
    obtain ⟨k, ns, nu2, hfin, hinv2, hloop⟩ := loop_children combine cs []
      ⟨u, 1, some (.node l cs), none, ld⟩
      nu path u1 log (by simp [isEndState, stDone, stFailed]) (by simp) hinv1
    -- resume: dequeue all, combine, finish
    simp only [List.nil_append] at hinv2 hloop
    have hdeq := dequeueAll_spec ns _ _ hinv2 rfl hfin
    simp only [Node.data_mk] at hdeq
    refine ⟨1 + (k + 1), .mk ⟨u, (if (Spec.eval combine (.node l cs)).isSome then stDone else stFailed),
        some (.node l cs), Spec.eval combine (.node l cs), ld⟩ [], nu2,
        ⟨rfl, rfl, rfl⟩, rfl, rfl, ?_, ?_⟩
    · exact hinv2.replace (.mk ⟨u, (if (Spec.eval combine (.node l cs)).isSome then stDone else stFailed),
        some (.node l cs), Spec.eval combine (.node l cs), ld⟩ [])
        (.mk _ _ (by simp) (by simp) (by simp) (by simp) (by
          simp only
          cases Spec.eval combine (.node l cs) <;> simp)) rfl
    · intro fuel
      have e : fuel + (1 + (k + 1)) = ((fuel + 1) + k) + 1 := by omega
      rw [e, clientLoop, next_of_fresh _ he (by simp [newNode])]
      simp only [newNode, Node.data_mk, body, getState, if_true]
      rw [happ]
      simp only [Outcome.bind_ok, Node.data_mk, hset, Outcome.pure_eq]
      rw [hloop (fuel + 1)]
      rw [clientLoop, next_of_fresh _ (by simp [Node.ended, isEndState, stDone, stFailed])
        (by simpa using hfin.ended)]
      simp only [Node.data_mk, body, getState]
      simp only [show ((1 : Int) = stStart) = False by simp [stStart], if_false]
      simp only [queueSize, Node.deps_mk, hdeq, Outcome.bind_ok]
      have hc : combine l (Spec.evals combine cs) = Spec.eval combine (.node l cs) := by
        simp [Spec.eval]
      rw [hc]
      cases hev : Spec.eval combine (.node l cs) with
      | none =>
        simp [fail, setState, stFailed, stError, Node.ended, isEndState, stDone, Spec.calls]
      | some v =>
        simp [done, setState, stFailed, stError, Node.ended, isEndState, stDone, Spec.calls]

theorem loop_children (combine : L → List (Option R) → Option R) :
    ∀ (cs : List (Tree L)) (donel : List (Node (Tree L) R)) (data : Data (Tree L) R) (u : Nat)
      (path : List (Frame (Tree L) R)) (nu : Nat) (log : List (L × List (Option R))),
    isEndState data.state = false → (∀ d ∈ donel, d.ended = true) →
    Inv (It.mk (.mk data (donel ++ freshDeps u cs)) path nu : It (Tree L) R) →
    ∃ (k : Nat) (ns : List (Node (Tree L) R)) (nu' : Nat),
      AllFinished (Spec.evals combine cs) ns ∧
      Inv (It.mk (.mk data (donel ++ ns)) path nu' : It (Tree L) R) ∧
      ∀ fuel, clientLoop combine (fuel + k) (It.mk (.mk data (donel ++ freshDeps u cs)) path nu) log =
        clientLoop combine fuel (It.mk (.mk data (donel ++ ns)) path nu')
          (log ++ Spec.callss combine cs)
  | [], donel, data, u, path, nu, log, hs, hd, hinv => by
    refine ⟨0, [], nu, by simp only [Spec.evals]; exact .nil, by simpa [freshDeps] using hinv, ?_⟩
    intro fuel; simp [freshDeps, Spec.callss]
  | c :: cs, donel, data, u, path, nu, log, hs, hd, hinv => by
    have hcur : (Node.mk data (donel ++ freshDeps u (c :: cs)) : Node (Tree L) R).ended = false := by
      simpa [Node.ended] using hs
    have hfe : (newNode u (some c) : Node (Tree L) R).ended = false := by
      simp [newNode, Node.ended, isEndState, stStart, stDone, stFailed]
    have hdown := next_down (It.mk (.mk data (donel ++ freshDeps u (c :: cs))) path nu : It (Tree L) R)
      donel (freshDeps (u + 1) cs) (newNode u (some c)) hcur rfl hd hfe
    simp only [Node.data_mk] at hdown
    have hinv1 : Inv (It.mk (newNode u (some c)) (⟨data, donel, freshDeps (u + 1) cs⟩ :: path) nu :
        It (Tree L) R) := by
      refine ⟨?_, hinv.2⟩
      intro f hf
      rcases List.mem_cons.1 hf with rfl | hf
      · exact ⟨hs, hd⟩
      · exact hinv.1 f hf
    obtain ⟨k1, n, nu1, hfin1, huid, _, hinv2, hloop1⟩ := loop_node combine c u
      (⟨data, donel, freshDeps (u + 1) cs⟩ :: path) nu log hinv1
    have hup := next_up (It.mk n (⟨data, donel, freshDeps (u + 1) cs⟩ :: path) nu1 : It (Tree L) R)
      _ _ hfin1.ended rfl
    simp only [plug] at hup
    have hinv3 : Inv (It.mk (.mk data ((donel ++ [n]) ++ freshDeps (u + 1) cs)) path nu1 : It (Tree L) R) := by
      refine ⟨hinv.1, ?_⟩
      have := hinv2.2
      simpa [root, rootOf, plug] using this
    obtain ⟨k2, ns, nu2, hfin2, hinv4, hloop2⟩ := loop_children combine cs (donel ++ [n]) data (u + 1)
      path nu1 (log ++ Spec.calls combine c) hs (by
        intro d hdm
        rcases List.mem_append.1 hdm with h | h
        · exact hd d h
        · simp at h; rw [h]; exact hfin1.ended) hinv3
    refine ⟨k2 + k1, n :: ns, nu2, ?_, by simpa using hinv4, ?_⟩
    · simp only [Spec.evals]; exact .cons hfin1 hfin2
    · intro fuel
      have e : fuel + (k2 + k1) = (fuel + k2) + k1 := by omega
      rw [e, clientLoop_next_congr combine _ _ _ _ hdown, hloop1, clientLoop_next_congr combine _ _ _ _ hup]
      have e2 : donel ++ n :: freshDeps (u + 1) cs = (donel ++ [n]) ++ freshDeps (u + 1) cs := by simp
      rw [e2, hloop2 fuel]
      simp [Spec.callss, List.append_assoc]
end

end Verif.Iterator
