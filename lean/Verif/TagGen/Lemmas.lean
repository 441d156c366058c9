import Verif.TagGen.Spec
import Verif.TagMap.Props
/-
Lemmas about generator functions.
-/
namespace Verif.TagGen
open Verif Verif.Entry Verif.Entry.Spec Verif.TagMap Verif.TagMap.Spec Verif.TagGen.Spec

theorem created_release (t : Tag) : created t = release t := by
  unfold created release
  cases t.ctx with
  | none => rfl
  | some c => cases t.freeCtx <;> rfl

theorem entryOf_denotes {db : Db} {cur : Option Ref} {w : Which} {e : Option Ref} (h : Denotes db cur w e) : entryOf db cur w = .ok e := by
  cases h with
  | self => rfl
  | member h => simp [entryOf, h, Outcome.ofLoop]
  | param h => simp [entryOf, h, Outcome.ofLoop]

theorem run_cons (db : Db) (c : Call) (cs : List Call) (m : Option TagMap) (st : Heap × List Nat) {code m1 st1}
    (h : TagMap.setTag db m c.category c.override c.entry c.op c.tag c.putOk st = .ok (code, m1, st1)) {codes m2 st2}
    (h2 : run db cs m1 st1 = .ok (codes, m2, st2)) : run db (c :: cs) m st = .ok (code :: codes, m2, st2) := by
  simp only [run, h]
  show (run db cs m1 st1 >>= _) = _
  rw [h2]
  rfl

theorem run_cons_inv {db : Db} {c : Call} {cs : List Call} {m : Option TagMap} {st : Heap × List Nat} {r}
    (h : run db (c :: cs) m st = .ok r) : ∃ code m1 st1 codes m2 st2,
      TagMap.setTag db m c.category c.override c.entry c.op c.tag c.putOk st = .ok (code, m1, st1) ∧
      run db cs m1 st1 = .ok (codes, m2, st2) ∧ r = (code :: codes, m2, st2) := by
  simp only [run] at h
  cases h1 : TagMap.setTag db m c.category c.override c.entry c.op c.tag c.putOk st with
  | ok x =>
    obtain ⟨code, m1, st1⟩ := x
    rw [h1] at h
    change (run db cs m1 st1 >>= _) = _ at h
    cases h2 : run db cs m1 st1 with
    | ok y =>
      obtain ⟨codes, m2, st2⟩ := y
      rw [h2] at h
      exact ⟨code, m1, st1, codes, m2, st2, rfl, h2, (Outcome.ok.inj h).symm⟩
    | abort => rw [h2] at h; cases h
    | ub => rw [h2] at h; cases h
    | hang => rw [h2] at h; cases h
  | abort => rw [h1] at h; cases h
  | ub => rw [h1] at h; cases h
  | hang => rw [h1] at h; cases h

theorem run_append {db : Db} {a b : List Call} {m : Option TagMap} {st : Heap × List Nat} {c1 m1 st1} (h1 : run db a m st = .ok (c1, m1, st1)) {c2 m2 st2}
    (h2 : run db b m1 st1 = .ok (c2, m2, st2)) : run db (a ++ b) m st = .ok (c1 ++ c2, m2, st2) := by
  induction a generalizing m st c1 with
  | nil =>
    simp only [run, Outcome.ok.injEq, Prod.mk.injEq] at h1
    obtain ⟨rfl, rfl, rfl⟩ := h1
    exact h2
  | cons c a ih =>
    obtain ⟨code, m3, st3, codes, m4, st4, e1, e2, e3⟩ := run_cons_inv h1
    cases e3
    exact run_cons db c (a ++ b) m st e1 (ih e2)

theorem run_split {db : Db} {a b : List Call} {m : Option TagMap} {st : Heap × List Nat} {c m2 st2} (h : run db (a ++ b) m st = .ok (c, m2, st2)) :
    ∃ c1 c2 m1 st1, run db a m st = .ok (c1, m1, st1) ∧ run db b m1 st1 = .ok (c2, m2, st2) ∧ c = c1 ++ c2 := by
  induction a generalizing m st c with
  | nil => exact ⟨[], c, m, st, rfl, h, rfl⟩
  | cons x a ih =>
    obtain ⟨code, m3, st3, codes, m4, st4, e1, e2, e3⟩ := run_cons_inv h
    cases e3
    obtain ⟨c1, c2, m1, st1, h1, h2, rfl⟩ := ih e2
    exact ⟨code :: c1, c2, m1, st1, run_cons db x a m st e1 h1, h2, rfl⟩

theorem run_length {db : Db} {a : List Call} {m : Option TagMap} {st : Heap × List Nat} {c1 m1 st1} (h1 : run db a m st = .ok (c1, m1, st1)) :
    c1.length = a.length := by
  induction a generalizing m st c1 with
  | nil =>
    simp only [run, Outcome.ok.injEq, Prod.mk.injEq] at h1
    rw [← h1.1]; rfl
  | cons c a ih =>
    obtain ⟨code, m3, st3, codes, m4, st4, e1, e2, e3⟩ := run_cons_inv h1
    cases e3
    simp [ih e2]

/-- The outcome of the body once it has come to its end or to a failure. -/
def outcome (append done : Bool) (m : Option TagMap) (st : Heap × List Nat) (made : List Nat) :
    Outcome (Bool × Option TagMap × (Heap × List Nat) × List Nat) :=
  if done then .ok (true, m, st, made) else fail append m st made

theorem exec_progress {db : Db} {cur : Option Ref} {ss : List Stmt} {cs : List Call} {whole : Bool} (w : Written db cur ss cs whole)
    (append : Bool) (m : Option TagMap) (st : Heap × List Nat) (made : List Nat) (hr : ∀ pre, pre <+: cs → ∃ r, run db pre m st = .ok r) :
    ∃ pre codes m' st' done, pre <+: cs ∧ run db pre m st = .ok (codes, m', st') ∧ Progress cs whole pre codes done ∧
      exec db append ss cur m st made = outcome append done m' st' (made ++ contexts pre) := by
  induction w generalizing m st made with
  | «end» => exact ⟨[], [], m, st, true, List.prefix_refl _, rfl, .done rfl (by simp), by simp [exec, outcome, contexts]⟩
  | missing => exact ⟨[], [], m, st, false, List.prefix_refl _, rfl, .missing rfl (by simp), by simp [exec, outcome, contexts]⟩
  | entry _ ih =>
    obtain ⟨pre, codes, m', st', done, hp, h1, h2, h3⟩ := ih m st made hr
    exact ⟨pre, codes, m', st', done, hp, h1, h2, by simpa [exec] using h3⟩
  | @setTag cur a e ss cs whole hd _ ih =>
    let c : Call := ⟨a.category, a.override, e, a.op, some a.tag, a.putOk⟩
    obtain ⟨r, hr1⟩ := hr [c] ⟨cs, rfl⟩
    obtain ⟨code, m1, st1, codes, m2, st2, e1, e2, e3⟩ := run_cons_inv hr1
    have hx : exec db append (.setTag a :: ss) cur m st made =
        if code ≠ 0 then fail append m1 st1 (made ++ created a.tag) else exec db append ss cur m1 st1 (made ++ created a.tag) := by
      have e1' : TagMap.setTag db m a.category a.override e a.op (some a.tag) a.putOk st = .ok (code, m1, st1) := e1
      simp only [exec, entryOf_denotes hd]
      show (TagMap.setTag db m a.category a.override e a.op (some a.tag) a.putOk st >>= _) = _
      rw [e1']
      rfl
    rw [hx, created_release]
    by_cases hc : code = 0
    · subst hc
      obtain ⟨pre, codes, m', st', done, hp, h1, h2, h3⟩ := ih m1 st1 (made ++ release a.tag) (by
        intro pre hp
        obtain ⟨r, hr⟩ := hr (c :: pre) (by obtain ⟨t, rfl⟩ := hp; exact ⟨t, rfl⟩)
        obtain ⟨code', m1', st1', codes', m2', st2', e1', e2', _⟩ := run_cons_inv hr
        rw [e1] at e1'
        cases e1'
        exact ⟨_, e2'⟩)
      refine ⟨c :: pre, 0 :: codes, m', st', done, by obtain ⟨t, rfl⟩ := hp; exact ⟨t, rfl⟩, run_cons db c pre m st e1 h1, ?_, ?_⟩
      · cases h2 with
        | done hw hz => exact .done hw (by simpa using hz)
        | missing hw hz => exact .missing hw (by simpa using hz)
        | @refused pre c' rest codes code hcs hz hne hl =>
          exact Progress.refused (pre := c :: pre) (codes := 0 :: codes) (rest := rest) (by rw [hcs]; rfl) (by simpa using hz) hne (by simp [hl])
      · simpa [contexts, c, List.append_assoc] using h3
    · refine ⟨[c], [code], m1, st1, false, ⟨cs, rfl⟩, run_cons db c [] m st e1 rfl, ?_, ?_⟩
      · exact Progress.refused (pre := []) (codes := []) (rest := cs) rfl (by simp) hc rfl
      · simp [hc, outcome, contexts, c]

theorem History.append_inv {db : Db} {own : Int → Prop} {oom : Prop} {T T'' : Table} {a b : List Call} {ca cb : List Int}
    (h : History db own oom T (a ++ b) (ca ++ cb) T'') (hl : ca.length = a.length) :
    ∃ T', History db own oom T a ca T' ∧ History db own oom T' b cb T'' := by
  induction a generalizing T ca with
  | nil =>
    have : ca = [] := List.length_eq_zero_iff.1 hl
    subst this
    exact ⟨T, .nil, h⟩
  | cons c a ih =>
    cases ca with
    | nil => simp at hl
    | cons x ca =>
      cases h with
      | cons e h =>
        obtain ⟨T', h1, h2⟩ := ih h (by simpa using hl)
        exact ⟨T', .cons e h1, h2⟩

theorem releases_append (a b : List Call) (ca cb : List Int) (hl : ca.length = a.length) :
    releases (a ++ b) (ca ++ cb) = releases a ca ++ releases b cb := by
  induction a generalizing ca with
  | nil =>
    have : ca = [] := List.length_eq_zero_iff.1 hl
    subst this
    rfl
  | cons c a ih =>
    cases ca with
    | nil => simp at hl
    | cons x ca => simp [releases, ih ca (by simpa using hl), List.append_assoc]

theorem releases_zero (a : List Call) (ca : List Int) (hl : ca.length = a.length) (hz : ∀ c ∈ ca, c = 0) (ho : ∀ c ∈ a, c.op = 1 ∨ c.op = 2) :
    releases a ca = contexts a := by
  induction a generalizing ca with
  | nil => cases ca <;> rfl
  | cons c a ih =>
    cases ca with
    | nil => simp at hl
    | cons x ca =>
      have hx : x = 0 := hz x (by simp)
      have := ih ca (by simpa using hl) (fun c hc => hz c (by simp [hc])) (fun c hc => ho c (by simp [hc]))
      simp [releases, hx, ho c (by simp), this, contexts]

theorem Progress.prefix {cs pre : List Call} {whole : Bool} {codes : List Int} {done : Bool} (h : Progress cs whole pre codes done) : pre <+: cs := by
  cases h with
  | done => exact List.prefix_refl _
  | missing => exact List.prefix_refl _
  | @refused pre c rest codes code h => exact ⟨rest, by simp [h]⟩

theorem same_live {h h' : Heap} (o : Heap.Owns h.live h' []) : h'.live = h.live := by
  funext x; rw [o.live]; simp

theorem generate_ok (db : Db) (cats : List CatSpec) (d : Option Tag) (ss : List Stmt) (cs : List Call) (whole : Bool)
    (hw : Written db none ss cs whole) (hac : ∀ c ∈ cs, ∀ r, c.entry = some r → Acyclic db r) (h : Heap) (ho : h.Ok) (tr made : List Nat) :
    (∃ h1 tr1, new (some cats) d (h, tr) = .ok (none, h1, tr1) ∧ generate db cats d ss (h, tr) made = .ok (none, (h1, tr1), made) ∧ h1.live = h.live ∧
      (cats = [] ∨ ∃ k, h.fails k = true)) ∨
    (∃ pre codes T done, Progress cs whole pre codes done ∧
      History db (Own cats) ((∃ k, h.fails k = true) ∨ ∃ c ∈ cs, c.putOk = false) (fun _ _ => none) pre codes T ∧ codes.length = pre.length ∧
      ((done = true ∧ ∃ m st, generate db cats d ss (h, tr) made = .ok (some m, st, made ++ contexts pre)) ∨
       (done = false ∧ ∃ h' tr', generate db cats d ss (h, tr) made = .ok (none, (h', tr'), made ++ contexts pre) ∧
          ((∀ c ∈ cs, c.putOk = true) → h'.live = h.live) ∧ tr'.Perm (tr ++ (d.map release).getD [] ++ releases pre codes)))) := by
  rcases new_ok cats d (Heap.Owns.init ho) tr with ⟨b, cb, cats0, ds, h1, e1, o1, f1, hd, em, hf, hne⟩ | ⟨h1, tr1, e1, o1, _, hk⟩
  · right
    have inv : Inv cats cats0 := ⟨hf, fun n map hm => by rw [em.map hm]; simp⟩
    have hrun := fun pre (hpre : pre <+: cs) => run_ok ((∃ k, h.fails k = true) ∨ ∃ c ∈ cs, c.putOk = false) pre
      (fun c hc => hac c (hpre.subset hc)) inv (by
        intro c hc hk
        rcases hk with hk | hk
        · rw [f1] at hk; exact .inl hk
        · exact .inr ⟨c, hpre.subset hc, hk⟩) o1 tr
    obtain ⟨pre, codes, m', st', done, hp, h1', h2, h3⟩ := exec_progress hw false (some (.mk b cb cats0 ds)) (h1, tr) made (by
      intro pre hpre
      obtain ⟨codes, cats', h2, tr2, leak, e2, _⟩ := hrun pre hpre
      exact ⟨_, e2⟩)
    obtain ⟨codes2, cats', h2', tr2, leak, e2, inv2, o2, f2, hl, hh, hperm⟩ := hrun pre hp
    rw [h1'] at e2
    cases e2
    rw [tableOf_empty em] at hh
    have hg : generate db cats d ss (h, tr) made = (outcome false done (some (.mk b cb cats' ds)) (h2', tr2) (made ++ contexts pre) >>= fun x => pure (x.2.1, x.2.2.1, x.2.2.2)) := by
      rw [generate, e1]
      show (exec db false ss none _ _ made >>= _) = _
      rw [h3]
    refine ⟨pre, codes, _, done, h2, hh, run_length h1', ?_⟩
    cases done with
    | true =>
      left
      exact ⟨rfl, _, _, hg⟩
    | false =>
      right
      obtain ⟨h3', tr3, e3, p3, o3, f3⟩ := delete_ok _ o2 tr2
      refine ⟨rfl, h3', tr3, ?_, ?_, ?_⟩
      · rw [hg]
        simp [outcome, fail, e3, bind, pure, Outcome.bind]
      · intro hput
        rw [hl fun c hc => hput c (hp.subset hc)] at o3
        exact same_live (by simpa using o3)
      · have c1 := List.perm_iff_count.1 hperm
        have c2 := List.perm_iff_count.1 p3
        refine List.perm_iff_count.2 fun x => ?_
        have a1 := c1 x
        have a2 := c2 x
        have hde : (ds.map STag.ctxs).getD [] = (d.map release).getD [] := by rw [← hd]; cases ds <;> rfl
        rw [empty_ctxs cats0 em] at a1
        simp only [ctxsOf, hde, List.count_append, List.count_nil] at *
        omega
  · left
    refine ⟨h1, tr1, e1, ?_, same_live o1, hk⟩
    rw [generate, e1]
    rfl

theorem written_mem {db : Db} {cur : Option Ref} {ss : List Stmt} {cs : List Call} {whole : Bool} (w : Written db cur ss cs whole) {c : Call}
    (hc : c ∈ cs) : ∃ a, Stmt.setTag a ∈ ss ∧ c.tag = some a.tag := by
  induction w with
  | «end» => simp at hc
  | missing => simp at hc
  | entry _ ih =>
    obtain ⟨a, h1, h2⟩ := ih hc
    exact ⟨a, by simp [h1], h2⟩
  | @setTag cur a e ss cs whole _ _ ih =>
    rcases List.mem_cons.1 hc with rfl | hc
    · exact ⟨a, by simp, rfl⟩
    · obtain ⟨a', h1, h2⟩ := ih hc
      exact ⟨a', by simp [h1], h2⟩

end Verif.TagGen
