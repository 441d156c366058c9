import Verif.Iterator.Spec
/-
Helper lemmas for the task iterator.
-/
namespace Verif.Iterator
open Verif
variable {I O : Type}

/-! ### The specification's view of the state -/

/-- What the specification sees of a record. -/
def absNode : Node I O → Spec.Task I
  | .mk d ds => .mk d.inp (isEndState d.state) (absNodes ds)
where absNodes : List (Node I O) → List (Spec.Task I)
  | [] => []
  | d :: ds => absNode d :: absNodes ds

theorem absNodes_eq (ds : List (Node I O)) : absNode.absNodes ds = ds.map absNode := by
  induction ds with
  | nil => rfl
  | cons d ds ih => simp [absNode.absNodes, ih]

@[simp] theorem absNode_inp (n : Node I O) : (absNode n).inp = n.data.inp := by
  cases n; simp [absNode, Spec.Task.inp]
@[simp] theorem absNode_ended (n : Node I O) : (absNode n).ended = n.ended := by
  cases n; simp [absNode, Spec.Task.ended, Node.ended]
@[simp] theorem absNode_deps (n : Node I O) : (absNode n).deps = n.deps.map absNode := by
  cases n; simp [absNode, Spec.Task.deps, absNodes_eq]

/-- The address of the current task. -/
def addr (it : It I O) : List Nat := it.path.reverse.map (fun f => f.left.length)

def addrOf (path : List (Frame I O)) : List Nat := path.reverse.map (fun f => f.left.length)

theorem addrOf_cons (f : Frame I O) (fs : List (Frame I O)) :
    addrOf (f :: fs) = addrOf fs ++ [f.left.length] := by simp [addrOf]

/-! ### Search for an unfinished dependent -/

theorem firstPending_none {ds : List (Node I O)} (h : firstPending ds = none) :
    ∀ d ∈ ds, d.ended = true := by
  induction ds with
  | nil => simp
  | cons d ds ih =>
    unfold firstPending at h
    split at h
    · simp at h
    · rename_i hd
      simp at h hd
      intro x hx
      rcases List.mem_cons.1 hx with rfl | hx
      · exact hd
      · exact ih h x hx

theorem firstPending_some {ds l r : List (Node I O)} {x : Node I O}
    (h : firstPending ds = some (l, x, r)) :
    ds = l ++ x :: r ∧ (∀ d ∈ l, d.ended = true) ∧ x.ended = false := by
  induction ds generalizing l r x with
  | nil => simp [firstPending] at h
  | cons d ds ih =>
    unfold firstPending at h
    split at h
    · rename_i hd
      simp at h hd
      obtain ⟨rfl, rfl, rfl⟩ := h
      simp [hd]
    · rename_i hd
      simp at h hd
      obtain ⟨a, x', b, h1, h2, h3, h4⟩ := h
      subst h2; subst h3; subst h4
      obtain ⟨g1, g2, g3⟩ := ih h1
      refine ⟨by simp [g1], ?_, g3⟩
      intro y hy
      rcases List.mem_cons.1 hy with rfl | hy
      · exact hd
      · exact g2 y hy

theorem firstPending_append {l r : List (Node I O)} {x : Node I O}
    (hl : ∀ d ∈ l, d.ended = true) (hx : x.ended = false) :
    firstPending (l ++ x :: r) = some (l, x, r) := by
  induction l with
  | nil => simp [firstPending, hx]
  | cons d l ih =>
    have hd := hl d (by simp)
    simp [firstPending, hd, ih (fun y hy => hl y (by simp [hy]))]

theorem firstPending_all {l : List (Node I O)} (hl : ∀ d ∈ l, d.ended = true) :
    firstPending l = none := by
  induction l with
  | nil => rfl
  | cons d l ih =>
    have hd := hl d (by simp)
    simp [firstPending, hd, ih (fun y hy => hl y (by simp [hy]))]

/-! ### The selected task -/

theorem descendList_append (l : List (Spec.Task I)) (i : Nat) (r : List (Spec.Task I))
    (hl : ∀ d ∈ l, d.ended = true) :
    Spec.descendList i (l ++ r) = Spec.descendList (i + l.length) r := by
  induction l generalizing i with
  | nil => simp
  | cons d l ih =>
    have hd := hl d (by simp)
    simp only [List.cons_append, Spec.descendList, hd, if_true]
    rw [ih _ (fun y hy => hl y (by simp [hy]))]
    simp; congr 1; omega

theorem descend_eq (t : Spec.Task I) : Spec.descend t = Spec.descendList 0 t.deps := by
  cases t; simp [Spec.descend, Spec.Task.deps]

/-- Frames above the current task: the ancestor has not ended and everything before
the dependent we are in has. -/
def FrameOk (f : Frame I O) : Prop :=
  isEndState f.data.state = false ∧ ∀ d ∈ f.left, d.ended = true

def PathPending (path : List (Frame I O)) : Prop := ∀ f ∈ path, FrameOk f

theorem descend_rootOf (path : List (Frame I O)) (n : Node I O) (hp : PathPending path)
    (hn : n.ended = false) :
    Spec.descend (absNode (rootOf n path)) = addrOf path ++ Spec.descend (absNode n) := by
  induction path generalizing n with
  | nil => simp [rootOf, addrOf]
  | cons f fs ih =>
    have hf : FrameOk f := hp f (by simp)
    have h1 : (plug f n).ended = false := by simpa [plug, Node.ended] using hf.1
    rw [rootOf, ih _ (fun g hg => hp g (by simp [hg])) h1, addrOf_cons]
    rw [descend_eq (absNode (plug f n)), absNode_deps]
    simp only [plug, Node.deps_mk, List.map_append, List.map_cons]
    rw [descendList_append _ _ _ (by
      intro d hd
      obtain ⟨x, hx, rfl⟩ := List.mem_map.1 hd
      simpa using hf.2 x hx)]
    simp [Spec.descendList, hn]

theorem rootOf_ended (path : List (Frame I O)) (n : Node I O) (hp : PathPending path) :
    (rootOf n path).ended = (path.isEmpty && n.ended) := by
  induction path generalizing n with
  | nil => simp [rootOf]
  | cons f fs ih =>
    have hf : FrameOk f := hp f (by simp)
    rw [rootOf, ih _ (fun g hg => hp g (by simp [hg]))]
    simp [plug, Node.ended, hf.1]

theorem at?_append (t : Spec.Task I) (a b : List Nat) :
    Spec.at? t (a ++ b) = (Spec.at? t a).bind (fun u => Spec.at? u b) := by
  induction a generalizing t with
  | nil => simp [Spec.at?]
  | cons i is ih =>
    simp only [List.cons_append, Spec.at?]
    cases t.deps[i]? with
    | none => simp
    | some d => simp [ih]

theorem at?_rootOf (path : List (Frame I O)) (n : Node I O) :
    Spec.at? (absNode (rootOf n path)) (addrOf path) = some (absNode n) := by
  induction path generalizing n with
  | nil => simp [rootOf, addrOf, Spec.at?]
  | cons f fs ih =>
    rw [rootOf, addrOf_cons, at?_append, ih]
    simp [Spec.at?, plug]

/-- The complete behaviour of `next`. -/
theorem next_spec (it : It I O) (hp : PathPending it.path) :
    root (next it).2 = root it ∧ PathPending (next it).2.path ∧ (next it).2.nextUid = it.nextUid ∧
    (((next it).1 = none ∧ (next it).2.path = [] ∧ (next it).2.cur.ended = true) ∨
     ((next it).1 = (next it).2.cur.data.inp ∧ (next it).2.cur.ended = false ∧
       ∀ d ∈ (next it).2.cur.deps, d.ended = true)) := by
  fun_induction next it with
  | case1 it h h2 =>
    exact ⟨rfl, by simpa [h2] using hp, rfl, .inl ⟨rfl, h2, h⟩⟩
  | case2 it h f fs h2 ih =>
    have := ih (fun g hg => hp g (by rw [h2]; simp [hg]))
    simpa [root, h2, rootOf] using this
  | case3 it h h2 =>
    exact ⟨rfl, hp, rfl, .inr ⟨rfl, by simpa using h, firstPending_none h2⟩⟩
  | case4 it h l d r h2 ih =>
    obtain ⟨g1, g2, g3⟩ := firstPending_some h2
    have := ih (by
      intro f hf
      rcases List.mem_cons.1 hf with rfl | hf
      · exact ⟨by simpa [Node.ended] using h, g2⟩
      · exact hp f hf)
    have e : plug ({ data := it.cur.data, left := l, right := r } : Frame I O) d = it.cur := by
      simp [plug, ← g1, Node.eta]
    simpa [root, rootOf, e] using this

/-! ### Invariant of all client histories -/

/-- A record is consistent: no output unless it is done; the dependents have different
addresses, all allocated so far; the cached last dependent is the last one. -/
inductive Ok (b : Nat) : Node I O → Prop where
  | mk (data : Data I O) (deps : List (Node I O))
      (sub : ∀ d ∈ deps, Ok b d)
      (nodup : (deps.map (·.data.uid)).Nodup)
      (bound : ∀ d ∈ deps, d.data.uid < b)
      (last : ∀ x, deps.getLast? = some x → data.lastDep = some x.data.uid)
      (out : data.state ≠ stDone → data.out = none) : Ok b (.mk data deps)

theorem Ok.mono {b b' : Nat} (hb : b ≤ b') {n : Node I O} (h : Ok b n) : Ok b' n := by
  induction h with
  | mk data deps sub nodup bound last out ih =>
    exact .mk _ _ ih nodup (fun d hd => Nat.lt_of_lt_of_le (bound d hd) hb) last out

theorem ok_newNode (b u : Nat) (i : Option I) : Ok b (newNode u i : Node I O) :=
  .mk _ _ (by simp) (by simp) (by simp) (by simp) (by simp)

/-- `Ok` of the enclosing record does not depend on the contents of the current one
beyond its address. -/
theorem Ok.plug_replace {b : Nat} {f : Frame I O} {n n' : Node I O}
    (h : Ok b (plug f n)) (hn : Ok b n') (hu : n'.data.uid = n.data.uid) : Ok b (plug f n') := by
  cases h with
  | mk _ _ sub nodup bound last out =>
    refine .mk _ _ ?_ ?_ ?_ ?_ out
    · intro d hd
      rcases List.mem_append.1 hd with hd | hd
      · exact sub d (by simp [hd])
      · rcases List.mem_cons.1 hd with rfl | hd
        · exact hn
        · exact sub d (by simp [hd])
    · simpa [hu] using nodup
    · intro d hd
      rcases List.mem_append.1 hd with hd | hd
      · exact bound d (by simp [hd])
      · rcases List.mem_cons.1 hd with rfl | hd
        · rw [hu]; exact bound n (by simp)
        · exact bound d (by simp [hd])
    · intro x hx
      rcases List.eq_nil_or_concat f.right with hr | ⟨r, y, hr⟩
      · simp [hr] at hx
        subst hx
        rw [hu]
        exact last n (by simp [hr])
      · have : x = y := by simpa [hr, List.getLast?_append, List.getLast?_cons] using hx.symm
        subst this
        exact last x (by simp [hr, List.getLast?_append, List.getLast?_cons])

theorem Ok.sub_of_plug {b : Nat} {f : Frame I O} {n : Node I O} (h : Ok b (plug f n)) : Ok b n := by
  cases h with
  | mk _ _ sub _ _ _ _ => exact sub n (by simp)

theorem Ok.of_rootOf {b : Nat} (path : List (Frame I O)) {n : Node I O} (h : Ok b (rootOf n path)) :
    Ok b n := by
  induction path generalizing n with
  | nil => simpa [rootOf] using h
  | cons f fs ih => exact (ih h).sub_of_plug

theorem Ok.rootOf_replace {b : Nat} (path : List (Frame I O)) {n n' : Node I O}
    (h : Ok b (rootOf n path)) (hn : Ok b n') (hu : n'.data.uid = n.data.uid) :
    Ok b (rootOf n' path) := by
  induction path generalizing n n' with
  | nil => simpa [rootOf] using hn
  | cons f fs ih =>
    rw [rootOf] at h ⊢
    exact ih h ((Ok.of_rootOf fs h).plug_replace hn hu) rfl

/-- The invariant. -/
def Inv (it : It I O) : Prop := PathPending it.path ∧ Ok it.nextUid (root it)

theorem inv_new (i : Option I) : Inv (new i : It I O) :=
  ⟨by intro f hf; simp [new] at hf, by simpa [root, rootOf, new] using ok_newNode 1 0 i⟩

theorem Inv.cur {it : It I O} (h : Inv it) : Ok it.nextUid it.cur := Ok.of_rootOf _ h.2

theorem Inv.replace {it : It I O} (h : Inv it) (n' : Node I O) (hn : Ok it.nextUid n')
    (hu : n'.data.uid = it.cur.data.uid) : Inv { it with cur := n' } :=
  ⟨h.1, Ok.rootOf_replace it.path h.2 hn hu⟩

theorem inv_next {it : It I O} (h : Inv it) : Inv (next it).2 := by
  obtain ⟨h1, h2, h3, _⟩ := next_spec it h.1
  exact ⟨h2, by rw [h1, h3]; exact h.2⟩

theorem inv_setState {it it' : It I O} {s : Int} {b : Bool} (h : Inv it)
    (hs : setState it s = .ok (it', b)) (ho : s = stDone ∨ it.cur.data.out = none) : Inv it' := by
  unfold setState at hs
  split at hs
  · injection hs with hs; simp at hs; rw [← hs.1]; exact h
  · split at hs
    · simp at hs
    · injection hs with hs
      simp at hs
      rw [← hs.1]
      refine h.replace _ ?_ rfl
      have hc := h.cur
      rw [← Node.eta it.cur] at hc
      cases hc with
      | mk _ _ sub nodup bound last out =>
        refine .mk _ _ sub nodup bound last ?_
        intro hne
        rcases ho with ho | ho
        · exact absurd ho hne
        · exact ho

theorem Inv.out_none {it : It I O} (h : Inv it) (he : it.cur.ended = false) : it.cur.data.out = none := by
  have hc := h.cur
  rw [← Node.eta it.cur] at hc
  cases hc with
  | mk _ _ sub nodup bound last out =>
    apply out
    intro hs
    simp [Node.ended, isEndState, hs] at he

theorem inv_setState' {it it' : It I O} {s : Int} {b : Bool} (h : Inv it)
    (hs : setState it s = .ok (it', b)) : Inv it' := by
  by_cases he : it.cur.ended = true
  · unfold setState at hs
    split at hs
    · injection hs with hs; simp at hs; rw [← hs.1]; exact h
    · simp [he] at hs
  · exact inv_setState h hs (.inr (h.out_none (by simpa using he)))

theorem inv_done {it it' : It I O} {o : Option O} {b : Bool} (h : Inv it)
    (hs : done it o = .ok (it', b)) : Inv it' := by
  unfold done at hs
  split at hs
  · simp at hs
  · rename_i he
    unfold setState at hs
    rw [if_neg (by simp [stDone, stError])] at hs
    have he' : ¬ (Node.mk { it.cur.data with out := o } it.cur.deps).ended = true := by
      simpa [Node.ended] using he
    rw [if_neg he'] at hs
    injection hs with hs
    simp at hs
    rw [← hs.1]
    refine h.replace _ ?_ rfl
    have hc := h.cur
    rw [← Node.eta it.cur] at hc
    cases hc with
    | mk _ _ sub nodup bound last out =>
      refine .mk _ _ sub nodup bound last ?_
      intro hne
      exact absurd rfl hne

theorem insertAfter_last (ds : List (Node I O)) (x y : Node I O)
    (hn : ((ds ++ [y]).map (·.data.uid)).Nodup) :
    insertAfter y.data.uid x (ds ++ [y]) = some (ds ++ [y, x]) := by
  induction ds with
  | nil => simp [insertAfter]
  | cons d ds ih =>
    simp only [List.cons_append, List.map_cons, List.nodup_cons] at hn
    have hne : d.data.uid ≠ y.data.uid := by
      intro e; apply hn.1; rw [e]; simp
    simp [insertAfter, hne, ih hn.2]

/-- What append does in a consistent state, in full. -/
theorem appendDep_spec {it : It I O} (h : Inv it) (i : Option I) (a : Bool) :
    appendDep it i a =
      if it.cur.ended then .abort
      else if a = false then .ok (it, .enomem)
      else if it.cur.deps = [] ∧ it.cur.data.lastDep ≠ none then .abort
      else .ok ({ it with
        cur := .mk { it.cur.data with lastDep := some it.nextUid }
          (it.cur.deps ++ [newNode it.nextUid i]),
        nextUid := it.nextUid + 1 }, .ok) := by
  unfold appendDep
  cases it.cur.ended with
  | true => rfl
  | false =>
    cases a with
    | false => simp
    | true =>
      simp only [Bool.false_eq_true, if_false, Bool.not_true]
      have hc := h.cur
      rw [← Node.eta it.cur] at hc
      cases hc with
      | mk _ _ sub nodup bound last out =>
        cases hd : it.cur.deps with
        | nil =>
          cases hl : it.cur.data.lastDep <;> simp
        | cons d ds =>
          have hne : it.cur.deps ≠ [] := by rw [hd]; simp
          obtain ⟨ds', y, hy⟩ : ∃ ds' y, it.cur.deps = ds' ++ [y] := by
            rcases List.eq_nil_or_concat it.cur.deps with h | ⟨a, b, h⟩
            · exact absurd h hne
            · exact ⟨a, b, by simpa using h⟩
          have hl := last y (by rw [hy]; simp)
          have hi := insertAfter_last (x := newNode it.nextUid i) ds' y (by rw [← hy]; exact nodup)
          rw [← hy, hd] at hi
          simp only [hl, hi]
          have e : ds' ++ [y, newNode it.nextUid i] = (d :: ds) ++ [newNode it.nextUid i] := by
            rw [← hd, hy]; simp
          rw [e]; simp

theorem inv_append {it it' : It I O} {i : Option I} {a : Bool} {rc : Rc} (h : Inv it)
    (hs : appendDep it i a = .ok (it', rc)) : Inv it' := by
  rw [appendDep_spec h] at hs
  split at hs
  · simp at hs
  split at hs
  · injection hs with hs; simp at hs; rw [← hs.1]; exact h
  split at hs
  · simp at hs
  injection hs with hs
  simp at hs
  rw [← hs.1]
  have h' : Inv ({ it with nextUid := it.nextUid + 1 } : It I O) :=
    ⟨h.1, h.2.mono (Nat.le_succ _)⟩
  refine h'.replace _ ?_ rfl
  have hc := h.cur
  rw [← Node.eta it.cur] at hc
  cases hc with
  | mk _ _ sub nodup bound last out =>
    refine .mk _ _ ?_ ?_ ?_ ?_ out
    · intro d hd
      rcases List.mem_append.1 hd with hd | hd
      · exact (sub d hd).mono (Nat.le_succ _)
      · simp at hd; rw [hd]; exact ok_newNode _ _ _
    · rw [List.map_append, List.nodup_append]
      refine ⟨nodup, by simp, ?_⟩
      intro u hu v hv
      simp [newNode] at hv
      obtain ⟨d, hd, rfl⟩ := List.mem_map.1 hu
      have := bound d hd
      omega
    · intro d hd
      rcases List.mem_append.1 hd with hd | hd
      · exact Nat.lt_succ_of_lt (bound d hd)
      · simp at hd; rw [hd]; simp [newNode]
    · intro x hx
      simp [List.getLast?_append] at hx
      rw [← hx]; simp [newNode]

/-- What dequeue does in a consistent state, in full. -/
theorem dequeue_spec {it : It I O} (h : Inv it) :
    dequeue it = match it.cur.deps with
      | [] => .ok (it, none)
      | d :: ds =>
        if d.ended = true ∧ d.deps = [] then
          .ok ({ it with cur := .mk it.cur.data ds },
            some (d.data.out, d.data.inp, d.data.state == stFailed))
        else .abort := by
  unfold dequeue
  cases hd : it.cur.deps with
  | nil => rfl
  | cons d ds =>
    have hc := h.cur
    rw [← Node.eta it.cur, hd] at hc
    cases hc with
    | mk _ _ sub nodup bound last out =>
      have hdo := sub d (by simp)
      cases he : d.ended with
      | false => simp [Outcome.assert, he]
      | true =>
        have hno : (d.data.state == stFailed && d.data.out.isSome) = false := by
          cases hdo with
          | mk data deps _ _ _ _ out =>
            by_cases hf : data.state = stDone
            · simp [hf, stDone, stFailed]
            · simp [out hf]
        cases hdd : d.deps with
        | nil => simp [Outcome.assert, entryGetOut, he, hno, hdd]
        | cons a b => simp [Outcome.assert, entryGetOut, he, hno, hdd]

theorem inv_dequeue {it it' : It I O} {r : Option (Option O × Option I × Bool)} (h : Inv it)
    (hs : dequeue it = .ok (it', r)) : Inv it' := by
  rw [dequeue_spec h] at hs
  split at hs
  · injection hs with hs; simp at hs; rw [← hs.1]; exact h
  · rename_i d ds hd
    split at hs
    · injection hs with hs
      simp at hs
      rw [← hs.1]
      refine h.replace _ ?_ rfl
      have hc := h.cur
      rw [← Node.eta it.cur, hd] at hc
      cases hc with
      | mk _ _ sub nodup bound last out =>
        refine .mk _ _ (fun x hx => sub x (by simp [hx])) ?_ (fun x hx => bound x (by simp [hx])) ?_ out
        · simp only [List.map_cons, List.nodup_cons] at nodup; exact nodup.2
        · intro x hx
          apply last
          cases ds with
          | nil => simp at hx
          | cons a b => simpa [List.getLast?_cons] using hx
    · simp at hs

theorem inv_step {it it' : It I O} (op : Op I O) (h : Inv it) (hs : step it op = .ok it') : Inv it' := by
  cases op with
  | next => simp [step] at hs; rw [← hs]; exact inv_next h
  | append i a =>
    cases hr : appendDep it i a with
    | ok p => simp [step, hr] at hs; rw [← hs]; exact inv_append h hr
    | abort => simp [step, hr] at hs
    | ub => simp [step, hr] at hs
    | hang => simp [step, hr] at hs
  | setState s =>
    cases hr : setState it s with
    | ok p => simp [step, hr] at hs; rw [← hs]; exact inv_setState' h hr
    | abort => simp [step, hr] at hs
    | ub => simp [step, hr] at hs
    | hang => simp [step, hr] at hs
  | done o =>
    cases hr : done it o with
    | ok p => simp [step, hr] at hs; rw [← hs]; exact inv_done h hr
    | abort => simp [step, hr] at hs
    | ub => simp [step, hr] at hs
    | hang => simp [step, hr] at hs
  | fail =>
    cases hr : fail it with
    | ok p => simp [step, hr] at hs; rw [← hs]; exact inv_setState' h hr
    | abort => simp [step, hr] at hs
    | ub => simp [step, hr] at hs
    | hang => simp [step, hr] at hs
  | dequeue =>
    cases hr : dequeue it with
    | ok p => simp [step, hr] at hs; rw [← hs]; exact inv_dequeue h hr
    | abort => simp [step, hr] at hs
    | ub => simp [step, hr] at hs
    | hang => simp [step, hr] at hs

theorem inv_run {it it' : It I O} (ops : List (Op I O)) (h : Inv it) (hs : run it ops = .ok it') : Inv it' := by
  induction ops generalizing it with
  | nil => simp [run] at hs; rw [← hs]; exact h
  | cons op ops ih =>
    cases hr : step it op with
    | ok it1 => simp [run, hr] at hs; exact ih (inv_step op h hr) hs
    | abort => simp [run, hr] at hs
    | ub => simp [run, hr] at hs
    | hang => simp [run, hr] at hs

end Verif.Iterator
