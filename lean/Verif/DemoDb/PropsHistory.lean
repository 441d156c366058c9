import Verif.DemoDb.Props
/-
C116: any history of a database, from `new_db` to `db_delete`.
-/
namespace Verif.DemoDb
open Verif Verif.Heap Verif.DemoDb.Spec

variable {base : Nat → Bool}

/-- A user's calls, one after another, with the codes they returned. -/
def calls : List Op → Option Db → Heap → Outcome (List Int × Option Db × Heap)
  | [], d, h => .ok ([], d, h)
  | .add p :: ops, d, h => do
    let (c, d, h) ← append d p h
    let (cs, d, h) ← calls ops d h
    return (c :: cs, d, h)
  | .remove i :: ops, d, h => do
    let (c, d, h) ← deleteRecord d i h
    let (cs, d, h) ← calls ops d h
    return (c :: cs, d, h)

/-- `new_db` gives an empty database, unless memory runs out. -/
theorem C116_new {h : Heap} (ho : h.Ok) :
    (∃ d h', newDb h = (some d, h') ∧ Holds d [] ∧ Owns h.live h' (owned d) ∧ h'.fails = h.fails) ∨
    (∃ h', newDb h = (none, h') ∧ Owns h.live h' [] ∧ ∃ k, h.fails k = true) := by
  rcases e : h.alloc with ⟨_ | b, h1⟩
  · obtain ⟨o, f, k⟩ := (Owns.init ho).alloc_none e
    exact .inr ⟨h1, by simp [newDb, e], o, k⟩
  · obtain ⟨o, f⟩ := (Owns.init ho).alloc_some e
    exact .inl ⟨⟨b, 0, 0, []⟩, h1, by simp [newDb, e], ⟨rfl, Nat.le_refl _, fun i p hi => by cases hi⟩, o, f⟩

/-- Without a database, every call is refused and nothing happens. -/
theorem C116_null (h : Heap) : (∀ p, append none p h = .ok (-22, none, h)) ∧ (∀ d, append d none h = .ok (-22, d, h)) ∧
    (∀ i, deleteRecord none i h = .ok (-22, none, h)) ∧ dbDelete none h = .ok h := by
  refine ⟨fun p => ?_, fun d => ?_, fun i => rfl, rfl⟩
  · cases p <;> rfl
  · cases d <;> rfl

/-- C116: whatever calls are made on a database, they return the codes, and leave the database with the
persons, that they would of a list of persons; the blocks of the database are its own and those of
the names, and no block has been lost.  The only other outcome is undefined behaviour, and it is met
only if a record is to be removed that has two or more behind it.
Partial: see `C116_remove_false`. -/
theorem C116_history_partial (ops : List Op) : ∀ {d : Db} {L : List Person}, Holds d L → ∀ {h : Heap}, Owns base h (owned d) →
    L.length + ops.length + 2 < 2 ^ 31 →
    (∃ cs d' h' L', calls ops (some d) h = .ok (cs, some d', h') ∧ Run (∃ k, h.fails k = true) L ops cs L' ∧ Holds d' L' ∧ Owns base h' (owned d')) ∨
    (calls ops (some d) h = .ub ∧ ∃ before i behind cs L', ops = before ++ .remove i :: behind ∧ Run (∃ k, h.fails k = true) L before cs L' ∧ 0 ≤ i ∧ i + 2 < L'.length) := by
  induction ops with
  | nil => intro d L hd h o _; exact .inl ⟨[], d, h, L, rfl, .done, hd, o⟩
  | cons op ops ih =>
    intro d L hd h o hlt
    rw [List.length_cons] at hlt
    cases op with
    | add p =>
      cases p with
      | none =>
        rcases ih hd o (by omega) with ⟨cs, d', h', L', e, r, hd', o'⟩ | ⟨e, b, i, a, cs, L', e1, r, hi⟩
        · exact .inl ⟨-22 :: cs, d', h', L', by simp [calls, append, e], .nobody r, hd', o'⟩
        · exact .inr ⟨by simp [calls, append, e], .add none :: b, i, a, _, L', by rw [e1]; rfl, .nobody r, hi⟩
      | some p =>
        obtain ⟨c, d1, h1, e0, f, o1, hc⟩ := C116_append hd o p (by omega)
        rcases hc with ⟨rfl, hd1⟩ | ⟨rfl, hd1, k⟩
        · rcases ih hd1 o1 (by simp; omega) with ⟨cs, d', h', L', e, r, hd', o'⟩ | ⟨e, b, i, a, cs, L', e1, r, hi⟩
          · rw [f] at r
            exact .inl ⟨0 :: cs, d', h', L', by simp [calls, e0, e], .added r, hd', o'⟩
          · rw [f] at r
            exact .inr ⟨by simp [calls, e0, e], .add (some p) :: b, i, a, _, L', by rw [e1]; rfl, .added r, hi⟩
        · rcases ih hd1 o1 (by omega) with ⟨cs, d', h', L', e, r, hd', o'⟩ | ⟨e, b, i, a, cs, L', e1, r, hi⟩
          · rw [f] at r
            exact .inl ⟨-12 :: cs, d', h', L', by simp [calls, e0, e], .refused k r, hd', o'⟩
          · rw [f] at r
            exact .inr ⟨by simp [calls, e0, e], .add (some p) :: b, i, a, _, L', by rw [e1]; rfl, .refused k r, hi⟩
    | remove i =>
      by_cases hi : i < 0 ∨ i ≥ L.length
      · have e0 := C116_outside hd h i hi
        rcases ih hd o (by omega) with ⟨cs, d', h', L', e, r, hd', o'⟩ | ⟨e, b, j, a, cs, L', e1, r, hj⟩
        · exact .inl ⟨-22 :: cs, d', h', L', by simp [calls, e0, e], .outside hi r, hd', o'⟩
        · exact .inr ⟨by simp [calls, e0, e], .remove i :: b, j, a, _, L', by rw [e1]; rfl, .outside hi r, hj⟩
      · obtain ⟨n, rfl⟩ : ∃ n : Nat, i = n := ⟨i.toNat, by omega⟩
        have hn : n < L.length := by omega
        by_cases h2 : n + 2 < L.length
        · have e0 := C116_remove_false hd o n h2
          exact .inr ⟨by simp [calls, e0], [], n, ops, [], L, rfl, .done, by omega, by omega⟩
        · obtain ⟨d1, h1, e0, f, o1, hd1⟩ := C116_remove_partial hd o n hn (by omega)
          have hl := List.length_eraseIdx_le L n
          rcases ih hd1 o1 (by omega) with ⟨cs, d', h', L', e, r, hd', o'⟩ | ⟨e, b, j, a, cs, L', e1, r, hj⟩
          · rw [f] at r
            exact .inl ⟨0 :: cs, d', h', L', by simp [calls, e0, e], .removed hn r, hd', o'⟩
          · rw [f] at r
            exact .inr ⟨by simp [calls, e0, e], .remove n :: b, j, a, _, L', by rw [e1]; rfl, .removed hn r, hj⟩

/-- The whole life of a database: after `db_delete` the blocks in use are those before `new_db`. -/
theorem C116_life_partial {h : Heap} (ho : h.Ok) (ops : List Op) (hlt : ops.length + 2 < 2 ^ 31) {d d' : Db} {h1 h2 : Heap} {cs : List Int}
    (e0 : newDb h = (some d, h1)) (e1 : calls ops (some d) h1 = .ok (cs, some d', h2)) :
    ∃ h3, dbDelete (some d') h2 = .ok h3 ∧ ∀ x, h3.live x = h.live x := by
  rcases C116_new ho with ⟨d0, h0, e, hd, o, f⟩ | ⟨h0, e, _⟩
  · rw [e] at e0
    obtain ⟨rfl, rfl⟩ := Prod.mk.inj e0 |>.imp_left Option.some.inj
    rcases C116_history_partial ops hd o (by simpa using hlt) with ⟨cs', d2, h2', L', e2, r, hd', o'⟩ | ⟨e2, _⟩
    · rw [e2] at e1
      have := Outcome.ok.inj e1
      obtain ⟨rfl, rfl, rfl⟩ : cs' = cs ∧ d2 = d' ∧ h2' = h2 := by simpa using this
      exact C116_delete hd' o'
    · rw [e2] at e1; cases e1
  · rw [e] at e0; cases e0

/-! Concrete cases. -/

def heap0 : Heap := { next := 3, live := fun b => b == 1, fails := fun k => k == 6 }
def joe : Person := { first := some [74, 111, 101], last := some [68, 111, 101], age := 43, status := 1 }
def jane : Person := { first := some [74, 97, 110, 101], last := none, age := 34, status := 0 }

/-- The codes and the number of records of a history. -/
def sample (ops : List Op) : Option (List Int × Option Nat) :=
  match newDb heap0 with
  | (d, h) => match calls ops d h with
    | .ok (cs, d, _) => some (cs, d.map (·.count))
    | _ => none

example : sample [.add (some joe), .add (some jane), .add none, .remove 5, .remove 0, .add (some joe), .remove 1] =
    some ([-12, 0, -22, -22, 0, 0, -22], some 1) := by decide +kernel
example : sample [.add (some jane), .add (some jane), .add (some joe), .add (some jane), .remove 0] = none := by decide +kernel

/-- The hypotheses are met: a database with a record, of which both names are copies. -/
theorem case116 : heap0.Ok ∧ ∃ d h, Holds d [jane, joe] ∧ Owns heap0.live h (owned d) ∧ (owned d).length = 4 := by
  have ok : heap0.Ok := by
    intro x hx
    have : x = 1 := by simpa [heap0] using hx
    subst this; decide
  have ok' : ({ heap0 with fails := fun _ => false } : Heap).Ok := ok
  refine ⟨ok, ?_⟩
  rcases C116_new ok' with ⟨d, h, e, hd, o, f⟩ | ⟨_, _, _, k, hk⟩
  · rcases C116_append hd o jane (by decide) with ⟨c, d1, h1, _, f1, o1, ⟨_, hd1⟩ | ⟨_, _, k, hk⟩⟩
    · rcases C116_append hd1 o1 joe (by decide) with ⟨c, d2, h2, _, f2, o2, ⟨_, hd2⟩ | ⟨_, _, k, hk⟩⟩
      · refine ⟨d2, h2, hd2, o2, ?_⟩
        obtain ⟨c0, g0, i0⟩ := hd2.records 0 jane rfl
        obtain ⟨c1, g1, i1⟩ := hd2.records 1 joe rfl
        have hc : d2.count = 2 := hd2.count
        have : d2.data.take 2 = [c0, c1] := by
          rw [List.take_add_one, g1, List.take_add_one, g0]; rfl
        unfold owned
        rw [hc, this]
        obtain ⟨a1, a2, _, _⟩ := i0
        obtain ⟨b1, b2, _, _⟩ := i1
        simp only [List.flatMap_cons, List.flatMap_nil, Cell.blocks]
        simp only [jane, joe] at a1 a2 b1 b2
        generalize c0.first = x1 at *
        generalize c0.last = x2 at *
        generalize c1.first = x3 at *
        generalize c1.last = x4 at *
        cases a1; cases a2; cases b1; cases b2
        rfl
      · rw [f1, f] at hk; cases hk
    · rw [f] at hk; cases hk
  · cases hk

end Verif.DemoDb
